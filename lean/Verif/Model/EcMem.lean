import Verif.Model.AliasFp
import Verif.Model.Ecdsa
/-!
# Field elements, curve points and ECDSA verification on memory (include/ack/fp.hpp, ec.hpp, ecdsa.hpp)

The same functions as in `Model/Fp.lean`, `Model/Ec.lean` and `Model/Ecdsa.lean`, but every `bigint` is an object with its own
storage (`Model/Buffer.lean`, `Model/Alias.lean`) and a field element is the position of its value and, if it has one, of the
modulus its pointer refers to.

* A function returning a field element or a point by value makes new objects for it.  `return *this;`, copies of a coordinate
  into a new point and by-value parameters bound to lvalues are copy constructions.
* Moving a local object (`std::move(X3)`, `return r;`, `r = r.doubled();`, `z = …;`) passes the name of the object on: the source
  is not read again before it is destroyed or assigned.  The moves themselves are the subject of `C80`.
* Local objects stay in the list until the function called by the program ends (`inScope`); temporaries inside one field operation
  are removed by that operation (`Model/AliasFp.lean`).
* A curve object is given by the positions of its members.
-/
namespace Ack.Mem
open Big (Byte)

/-- A computation on the objects of the program. -/
abbrev M (α : Type) := StateT BigSt (Except Err) α

/-- A function that changes no object. -/
def ask {α : Type} (f : BigSt → Res α) : M α := fun s => do
  let a ← f s
  .ok (a, s)

/-- A function that appends one object: its position. -/
def newObj (f : BigSt → Res BigSt) : M Nat := fun s => do
  let s' ← f s
  .ok (s.mem.objs.length, s')

/-- A function that changes objects. -/
def change (f : BigSt → Res BigSt) : M Unit := fun s => do
  let s' ← f s
  .ok ((), s')

/-- The program ends, or its behaviour is undefined. -/
def halt {α : Type} (e : Err) : M α := fun _ => .error e

/-- A call returning no object: its locals end with it. -/
def inScope {α : Type} (m : M α) : M α := fun s => do
  let (a, s') ← m s
  .ok (a, s'.drop s.mem.objs.length)

/-! ## Integers -/

namespace BigSt

/-- `x > y`, bigint.hpp:2497. -/
def opGt (s : BigSt) (x y : Nat) : Res Bool := do .ok (decide ((← s.compare x y) > 0))
/-- `x == y`, bigint.hpp:2457. -/
def opEq (s : BigSt) (x y : Nat) : Res Bool := do .ok ((← s.compare x y) == 0)
/-- `x > y` for an `int`, bigint.hpp:2493. -/
def gtS (s : BigSt) (x : Nat) (y : BitVec 32) : Res Bool := do .ok (decide ((← s.compares1 x y) > 0))

/-- `compareu1(x, y)`, bigint.hpp:1605-1613. -/
def compareu1 (s : BigSt) (x : Nat) (y : Word) : Res Int :=
  if s.neg x then .ok (-1)
  else if s.size x > 1 then .ok 1
  else do
    let w ← s.load x 0
    .ok (if w > y then 1 else if w = y then 0 else -1)

/-- `x > y` for a `uint32_t`, bigint.hpp:2494. -/
def gtU (s : BigSt) (x : Nat) (y : Word) : Res Bool := do .ok (decide ((← s.compareu1 x y) > 0))

/-- `is_odd()`, bigint.hpp:1650-1653. -/
def isOdd (s : BigSt) (x : Nat) : Res Bool := do
  let w ← s.load x 0
  .ok (w &&& 1 == 1)

/-- `bigint z(y);` for an `int`, bigint.hpp:1130-1133, 1227-1233. -/
def createInt (K : Kind) (s : BigSt) (y : BitVec 32) : Res BigSt := do
  let s' ← s.create K (cabs32 y)
  .ok (s'.setNeg s.mem.objs.length (decide (y.toInt < 0)))

/-- `div_mods1(0, x, y)`, bigint.hpp:1817-1842, with the null quotient. -/
def divMods1Rem (s : BigSt) (x : Nat) (y : BitVec 32) : Res (BitVec 32) := do
  let p ← s.elem x 0
  let ws ← readN s.mem.heap p (s.size x)
  let r ← modWord ws (cabs32 y)
  .ok (if s.neg x then -r else r)

/-- `x % y` for an `int`, bigint.hpp:2563 and 1891-1896: a new object. -/
def modsNew (K : Kind) (s : BigSt) (x : Nat) (y : BitVec 32) : Res BigSt := do
  let c := s.mem.objs.length
  let s ← s.create K 0
  let xNeg := s.neg x
  let r ← s.divMods1Rem x y
  let s ← s.assignWord K c (cabs32 r)
  .ok ((s.setNeg c (decide (r.toInt < 0))).setNeg c xNeg)

/-- `get_int32(n)`, bigint.hpp:1667-1682; `none` is the return value `false`, which leaves `n` alone. -/
def getInt32 (s : BigSt) (x : Nat) : Res (Option (BitVec 32)) :=
  if s.size x > 1 then .ok none
  else do
    let w ← s.load x 0
    let z ← s.isZero x
    .ok (some (if (!z && s.neg x) && decide (w.toInt > 0) then -w else w))

/-- `int32_t nd; (num % 4).get_int32( nd );`, bigint.hpp:1468-1469; reading `nd` after a failure is undefined. -/
def nafDigit (K : Kind) (s : BigSt) (n : Nat) : Res (BigSt × BitVec 32) := do
  let c := s.mem.objs.length
  let s ← s.modsNew K n 4
  match ← s.getInt32 c with
  | none => .error .ub
  | some nd => .ok (s.drop c, nd)

/-- Loop of `to_naf`, bigint.hpp:1466-1477, on the local object `num` = `n`. -/
def nafGo (K : Kind) (n : Nat) : Nat → BigSt → Res (List (BitVec 8) × BigSt)
  | 0, _ => .error .fuel
  | f + 1, s => do
    let g ← s.gtU n 0
    if g then
      let o ← s.isOdd n
      if o then
        let (s, nd0) ← s.nafDigit K n
        let nd : BitVec 32 := 2 - nd0
        let s ← s.addu1Go K n n (cabs32 nd) (!decide (nd.toInt < 0))
        let s ← s.shr K n n 1
        let (rest, s) ← nafGo K n f s
        .ok (nd.setWidth 8 :: rest, s)
      else
        let s ← s.shr K n n 1
        let (rest, s) ← nafGo K n f s
        .ok (0 :: rest, s)
    else .ok ([], s)

/-- `to_naf()`, bigint.hpp:1461-1479; `bit_length()` (1464) also bounds the loop here. -/
def toNaf (K : Kind) (s : BigSt) (x : Nat) : Res (List (BitVec 8) × BigSt) := do
  let b ← s.bitLength x
  let n := s.mem.objs.length
  let s ← s.copyNew K x
  let (l, s) ← s.nafGo K n (b + 2)
  .ok (l, s.drop n)

/-- Stores of `set_bytes`, bigint.hpp:1409-1420: the words from position `k` on. -/
def storeWords (z : Nat) : Nat → List Word → BigSt → Res BigSt
  | _, [], s => .ok s
  | k, w :: ws, s => do
    let s ← s.store z k w
    storeWords z (k + 1) ws s

/-- `bigint z(data);` for a byte view, bigint.hpp:1187-1190 through `set_bytes`, 1382-1424.  The words stored are those of the
value model (`memWords`, `bswapWord`, `leadWord`). -/
def ofBytes (K : Kind) (s : BigSt) (data : List Byte) : Res BigSt := do
  let z := s.mem.objs.length
  let (m, _) ← step K s.mem .create
  let s : BigSt := { s with mem := m }
  let s := (s.setSize z 0).setNeg z false
  if data.length = 0 then s.clear K z
  else
    let wordSize := Big.wordSize data.length
    let (s, ok) ← s.resize K z wordSize
    if ok then
      let nLeft := data.length % 4
      let s ← s.storeWords z 0 ((Big.memWords (data.drop nLeft)).reverse.map bswapWord)
      let s ← if nLeft ≠ 0 then s.store z (data.length / 4) (Big.leadWord (data.take nLeft) 0) else pure s
      s.trim z wordSize
    else .error .abort

/-- `x.modinv(m)`, bigint.hpp:2299-2305: a new object. -/
def modinvNew (K : Kind) (fuel : Nat) (s : BigSt) (x m : Nat) : Res BigSt := do
  let n := s.mem.objs.length
  let s ← s.create K 0
  let (s, ok) ← s.modinv K fuel n x m
  check ok
  .ok s

/-- `-x`, bigint.hpp:2596: a new object. -/
def negNew (K : Kind) (s : BigSt) (x : Nat) : Res BigSt := do
  let n := s.mem.objs.length
  let s ← s.create K 0
  s.negate K n x

end BigSt

/-! ## Field elements -/

/-- `fp_element`, fp.hpp:447-1094: where the value is, and the object `pm_` points to. -/
structure FeR where
  v : Nat
  pm : Option Nat

namespace FeR

/-- Copy construction, fp.hpp:526. -/
def copy (K : Kind) (a : FeR) : M FeR := do
  let v ← newObj fun s => s.copyNew K a.v
  pure ⟨v, a.pm⟩

/-- `fp_element::zero()`, fp.hpp:462-465. -/
def zero (K : Kind) : M FeR := do
  let v ← newObj fun s => s.create K 0
  pure ⟨v, none⟩

/-- `fp_element::one()`, fp.hpp:475-480; the object is given the value 1 at once. -/
def one (K : Kind) : M FeR := do
  let v ← newObj fun s => s.create K 1
  pure ⟨v, none⟩

/-- `field_element_type( w, p )` for a small `w ≥ 0`, fp.hpp:514-521. -/
def ofWord (K : Kind) (w : Word) (p : Nat) : M FeR := do
  let v ← newObj fun s => s.create K w
  pure ⟨v, some p⟩

/-- `*pm_`. -/
def deref (a : FeR) : M Nat :=
  match a.pm with
  | some p => pure p
  | none => halt .ub

/-- `is_one`, fp.hpp:640-643. -/
def isOne (a : FeR) : M Bool := ask fun s => s.isOne a.v

/-- `is_zero`, fp.hpp:631-634. -/
def isZero (a : FeR) : M Bool := do
  let o ← a.isOne
  if o then pure false
  else match a.pm with
    | none => pure true
    | some p => do
      let z ← ask fun s => s.isZero p
      if z then pure true
      else do
        let o ← ask fun s => s.isOne p
        if o then pure true else ask fun s => s.isZero a.v

/-- `==` on two elements, fp.hpp:866-869. -/
def eq (a b : FeR) : M Bool := ask fun s => s.opEq a.v b.v

/-- `==` with an `int`, fp.hpp:891-895. -/
def eqS (a : FeR) (k : BitVec 32) : M Bool := ask fun s => s.eqS a.v k

/-- `inv`, fp.hpp:679-682. -/
def inv (K : Kind) (fuel : Nat) (a : FeR) : M FeR := do
  let p ← a.deref
  let v ← newObj fun s => s.modinvNew K fuel a.v p
  pure ⟨v, some p⟩

/-- `add(bigint)`, fp.hpp:700-704. -/
def addB (K : Kind) (a : FeR) (x : Nat) : M FeR := do
  let p ← a.deref
  let v ← newObj fun s => s.fpAdd K a.v x p
  pure ⟨v, some p⟩

/-- `add(fp_element)`, fp.hpp:689-692. -/
def add (K : Kind) (a x : FeR) : M FeR := a.addB K x.v

/-- `sub(bigint)`, fp.hpp:734-738. -/
def subB (K : Kind) (a : FeR) (x : Nat) : M FeR := do
  let p ← a.deref
  let v ← newObj fun s => s.fpSub K a.v x p
  pure ⟨v, some p⟩

/-- `sub(fp_element)`, fp.hpp:723-726. -/
def sub (K : Kind) (a x : FeR) : M FeR := a.subB K x.v

/-- `mul(bigint)`, fp.hpp:768-778. -/
def mulB (K : Kind) (a : FeR) (x : Nat) : M FeR := do
  let o ← a.isOne
  if o then do
    let p ← a.deref
    let v ← newObj fun s => s.copyNew K x
    pure ⟨v, some p⟩
  else do
    let o ← ask fun s => s.isOne x
    if o then a.copy K
    else do
      let p ← a.deref
      let v ← newObj fun s => s.fpMul K a.v x p
      pure ⟨v, some p⟩

/-- `mul(fp_element)`, fp.hpp:757-760. -/
def mul (K : Kind) (a x : FeR) : M FeR := a.mulB K x.v

/-- `mul(IntU)`, fp.hpp:786-796, for `int`. -/
def mulS (K : Kind) (a : FeR) (x : BitVec 32) : M FeR := do
  let o ← a.isOne
  if o then do
    let p ← a.deref
    let v ← newObj fun s => s.createInt K x
    pure ⟨v, some p⟩
  else if x = 1 then a.copy K
  else do
    let p ← a.deref
    let v ← newObj fun s => s.fpMulS K a.v x p
    pure ⟨v, some p⟩

/-- `operator*(bigint, fp_element)`, fe.hpp:461-464. -/
def bigMul (K : Kind) (a : Nat) (b : FeR) : M FeR := b.mulB K a

/-- `sqr`, fp.hpp:802-808. -/
def sqr (K : Kind) (a : FeR) : M FeR := do
  let o ← a.isOne
  if o then a.copy K
  else do
    let p ← a.deref
    let v ← newObj fun s => s.fpSqr K a.v p
    pure ⟨v, some p⟩

/-- `div(bigint)`, fp.hpp:842-849. -/
def divB (K : Kind) (fuel : Nat) (a : FeR) (x : Nat) : M FeR := do
  let o ← ask fun s => s.isOne x
  if o then a.copy K
  else do
    let p ← a.deref
    let v ← newObj fun s => s.fpDiv K fuel a.v x p
    pure ⟨v, some p⟩

/-- `div(fp_element)`, fp.hpp:831-834. -/
def div (K : Kind) (fuel : Nat) (a x : FeR) : M FeR := a.divB K fuel x.v

/-- `neg`, fp.hpp:855-858. -/
def neg (K : Kind) (a : FeR) : M FeR := do
  let p ← a.deref
  let v ← newObj fun s => s.fpNeg K a.v p
  pure ⟨v, some p⟩

end FeR

/-! ## Curves and points -/

/-- `ec_curve_fp`, ec.hpp:1506-1552: where the members are. -/
structure CurveR where
  addr : Nat
  p : Nat
  a : Nat
  b : Nat
  gx : FeR
  gy : FeR
  n : Nat
  h : Word
  aIsMinus3 : Bool
  aIsZero : Bool
  pMinusN : Nat

/-- Pointer comparison. -/
def sameR (a b : Option CurveR) : Bool := a.map CurveR.addr == b.map CurveR.addr

/-- `ec_point_base::curve()`, ec.hpp:38-42. -/
def curveR (c : Option CurveR) : M CurveR :=
  match c with
  | some c => pure c
  | none => halt .abort

/-- The `while` loop of `mul` in affine and projective coordinates, ec.hpp:548-554 and 896-902; the local copy of the scalar is
object `s`. -/
def ladderR {α : Type} (K : Kind) (add : α → α → M α) (dbl : α → M α) : Nat → (r tmp : α) → Nat → M α
  | 0, _, _, _ => halt .fuel
  | f + 1, r, tmp, s => do
    let z ← ask fun m => m.eqS s 0
    if !z then do
      let o ← ask fun m => m.isOdd s
      let r ← (if o then add r tmp else pure r)
      let tmp ← dbl tmp
      change fun m => m.shr K s s 1
      ladderR K add dbl f r tmp s
    else pure r

/-- `ec_point_fp`, ec.hpp:369-599. -/
structure APtR where
  curve : Option CurveR
  x : FeR
  y : FeR

namespace APtR

/-- Copy construction. -/
def copy (K : Kind) (q : APtR) : M APtR := do
  let x ← q.x.copy K
  let y ← q.y.copy K
  pure ⟨q.curve, x, y⟩

/-- Default constructor, ec.hpp:384-388. -/
def identity (K : Kind) : M APtR := do
  let x ← FeR.zero K
  let y ← FeR.zero K
  pure ⟨none, x, y⟩

/-- `is_identity`, ec.hpp:394-397. -/
def isIdentity (q : APtR) : M Bool :=
  if q.curve.isNone then pure true
  else do
    let z ← q.x.isZero
    if z then q.y.isZero else pure false

/-- `is_on_curve`, ec.hpp:405-411. -/
def isOnCurve (K : Kind) (q : APtR) : M Bool := do
  let i ← q.isIdentity
  if i then pure true
  else do
    let y2 ← q.y.sqr K
    let x2 ← q.x.sqr K
    let c ← curveR q.curve
    let t ← x2.addB K c.a
    let t ← t.mul K q.x
    let t ← t.addB K c.b
    let d ← y2.sub K t
    d.eqS 0

/-- `inverted`, ec.hpp:448-454. -/
def inverted (K : Kind) (q : APtR) : M APtR := do
  let i ← q.isIdentity
  if i then q.copy K
  else do
    let c ← curveR q.curve
    let x ← q.x.copy K
    let y ← q.y.neg K
    pure ⟨some c, x, y⟩

/-- `doubled`, ec.hpp:497-510. -/
def doubled (K : Kind) (fuel : Nat) (q : APtR) : M APtR := do
  let i ← q.isIdentity
  let i ← (if i then pure true else q.y.isZero)
  if i then identity K
  else do
    let x2 ← q.x.sqr K
    let t ← x2.mulS K 3
    let c ← curveR q.curve
    let t ← t.addB K c.a
    let d ← q.y.mulS K 2
    let s ← t.div K fuel d
    let s2 ← s.sqr K
    let dx ← q.x.mulS K 2
    let rx ← s2.sub K dx
    let e ← q.x.sub K rx
    let f ← s.mul K e
    let ry ← f.sub K q.y
    pure ⟨some c, rx, ry⟩

/-- `add`, ec.hpp:463-489. -/
def add (K : Kind) (fuel : Nat) (q a : APtR) : M APtR := do
  let i ← q.isIdentity
  if i then a.copy K
  else do
    let i ← a.isIdentity
    if i then q.copy K
    else do
      let s ← a.x.sub K q.x
      let z ← s.isZero
      if z then do
        let e ← q.y.eq a.y
        if e then doubled K fuel q
        else identity K
      else do
        let d ← a.y.sub K q.y
        let s ← d.div K fuel s
        let s2 ← s.sqr K
        let t ← s2.sub K q.x
        let x3 ← t.sub K a.x
        let e ← q.x.sub K x3
        let f ← s.mul K e
        let y3 ← f.sub K q.y
        let c ← curveR q.curve
        pure ⟨some c, x3, y3⟩

/-- `mul` for a scalar that is not negative: ec.hpp:533-539 and 545-555. -/
def mulNN (K : Kind) (fuel : Nat) (q : APtR) (k : Nat) : M APtR := do
  let o ← ask fun s => s.isOne k
  let i ← (if o then pure true else q.isIdentity)
  if i then q.copy K
  else do
    let z ← ask fun s => s.isZero k
    if z then identity K
    else do
      let r ← identity K
      let tmp ← q.copy K
      let b ← ask fun s => s.bitLength k
      let s ← newObj fun s => s.copyNew K k
      ladderR K (add K fuel) (doubled K fuel) (b + 1) r tmp s

/-- `mul`, ec.hpp:531-556. -/
def mul (K : Kind) (fuel : Nat) (q : APtR) (k : Nat) : M APtR := do
  let o ← ask fun s => s.isOne k
  let i ← (if o then pure true else q.isIdentity)
  if i then q.copy K
  else do
    let z ← ask fun s => s.isZero k
    if z then identity K
    else do
      let l ← ask fun s => s.ltS k 0
      if l then do
        let i ← inverted K q
        let n ← newObj fun s => s.negNew K k
        mulNN K fuel i n
      else mulNN K fuel q k

/-- `is_valid`, ec.hpp:425-440. -/
def isValid (K : Kind) (fuel : Nat) (q : APtR) : M Bool := do
  let i ← q.isIdentity
  if i then pure false
  else do
    let o ← isOnCurve K q
    if !o then pure false
    else do
      let c ← curveR q.curve
      let m ← mul K fuel q c.n
      let i ← m.isIdentity
      if !i then pure false else pure true

end APtR

/-- `ec_point_fp_proj`, ec.hpp:615-953. -/
structure PPtR where
  curve : Option CurveR
  x : FeR
  y : FeR
  z : FeR

namespace PPtR

/-- Copy construction. -/
def copy (K : Kind) (q : PPtR) : M PPtR := do
  let x ← q.x.copy K
  let y ← q.y.copy K
  let z ← q.z.copy K
  pure ⟨q.curve, x, y, z⟩

/-- Default constructor, ec.hpp:632-637. -/
def identity (K : Kind) : M PPtR := do
  let x ← FeR.zero K
  let y ← FeR.one K
  let z ← FeR.zero K
  pure ⟨none, x, y, z⟩

/-- Construction from an affine point, ec.hpp:646-655; the parameter is a copy whose coordinates are moved. -/
def ofAffine (K : Kind) (q : APtR) : M PPtR := do
  let i ← q.isIdentity
  if !i then do
    let c ← curveR q.curve
    let x ← q.x.copy K
    let y ← q.y.copy K
    let z ← FeR.ofWord K 1 c.p
    pure ⟨some c, x, y, z⟩
  else identity K

/-- `is_identity`, ec.hpp:713-716. -/
def isIdentity (q : PPtR) : M Bool := if q.curve.isNone then pure true else q.z.isZero

/-- `to_affine`, ec.hpp:694-707. -/
def toAffine (K : Kind) (fuel : Nat) (q : PPtR) : M APtR := do
  let i ← q.isIdentity
  if i then APtR.identity K
  else do
    let o ← q.z.isOne
    if o then do
      let c ← curveR q.curve
      let x ← q.x.copy K
      let y ← q.y.copy K
      pure ⟨some c, x, y⟩
    else do
      let zi ← q.z.inv K fuel
      let c ← curveR q.curve
      let x ← q.x.mul K zi
      let y ← q.y.mul K zi
      pure ⟨some c, x, y⟩

/-- `inverted`, ec.hpp:768-774. -/
def inverted (K : Kind) (q : PPtR) : M PPtR := do
  let i ← q.isIdentity
  if i then q.copy K
  else do
    let c ← curveR q.curve
    let x ← q.x.copy K
    let y ← q.y.neg K
    let z ← q.z.copy K
    pure ⟨some c, x, y, z⟩

/-- The lambda of `doubled`, ec.hpp:835-844. -/
def tangent (K : Kind) (q : PPtR) : M FeR := do
  let x2 ← q.x.sqr K
  let c ← curveR q.curve
  if c.aIsZero then x2.mulS K 3
  else if c.aIsMinus3 then do
    let z2 ← q.z.sqr K
    let d ← x2.sub K z2
    d.mulS K 3
  else do
    let t ← x2.mulS K 3
    let z2 ← q.z.sqr K
    let az ← FeR.bigMul K c.a z2
    t.add K az

/-- `doubled`, ec.hpp:828-858. -/
def doubled (K : Kind) (q : PPtR) : M PPtR := do
  let i ← q.isIdentity
  let i ← (if i then pure true else q.y.eqS 0)
  if i then identity K
  else do
    let t ← tangent K q
    let dy ← q.y.mulS K 2
    let u ← dy.mul K q.z
    let ux ← u.mul K q.x
    let v ← ux.mul K dy
    let t2 ← t.sqr K
    let v2 ← v.mulS K 2
    let w ← t2.sub K v2
    let rx ← u.mul K w
    let u2 ← u.sqr K
    let e ← v.sub K w
    let te ← t.mul K e
    let y2 ← q.y.sqr K
    let k ← u2.mul K y2
    let k2 ← k.mulS K 2
    let ry ← te.sub K k2
    let rz ← u2.mul K u
    let c ← curveR q.curve
    pure ⟨some c, rx, ry, rz⟩

/-- `add`, ec.hpp:783-820. -/
def add (K : Kind) (p q : PPtR) : M PPtR := do
  let i ← p.isIdentity
  if i then q.copy K
  else do
    let i ← q.isIdentity
    if i then p.copy K
    else do
      let t0 ← p.y.mul K q.z
      let t1 ← q.y.mul K p.z
      let u0 ← p.x.mul K q.z
      let u1 ← q.x.mul K p.z
      let e ← u0.eq u1
      if e then do
        let e ← t0.eq t1
        if e then doubled K p
        else identity K
      else do
        let t ← t0.sub K t1
        let u ← u0.sub K u1
        let u2 ← u.sqr K
        let u3 ← u.mul K u2
        let v ← p.z.mul K q.z
        let t2 ← t.sqr K
        let tv ← t2.mul K v
        let us ← u0.add K u1
        let uu ← u2.mul K us
        let w ← tv.sub K uu
        let rx ← u.mul K w
        let m ← u0.mul K u2
        let m ← m.sub K w
        let m ← t.mul K m
        let k ← t0.mul K u3
        let ry ← m.sub K k
        let rz ← u3.mul K v
        let c ← curveR p.curve
        pure ⟨some c, rx, ry, rz⟩

/-- `mul` for a scalar that is not negative: ec.hpp:881-887 and 893-903. -/
def mulNN (K : Kind) (q : PPtR) (k : Nat) : M PPtR := do
  let o ← ask fun s => s.isOne k
  let i ← (if o then pure true else q.isIdentity)
  if i then q.copy K
  else do
    let z ← ask fun s => s.isZero k
    if z then identity K
    else do
      let r ← identity K
      let tmp ← q.copy K
      let b ← ask fun s => s.bitLength k
      let s ← newObj fun s => s.copyNew K k
      ladderR K (add K) (doubled K) (b + 1) r tmp s

/-- `mul`, ec.hpp:879-904. -/
def mul (K : Kind) (q : PPtR) (k : Nat) : M PPtR := do
  let o ← ask fun s => s.isOne k
  let i ← (if o then pure true else q.isIdentity)
  if i then q.copy K
  else do
    let z ← ask fun s => s.isZero k
    if z then identity K
    else do
      let l ← ask fun s => s.ltS k 0
      if l then do
        let i ← inverted K q
        let n ← newObj fun s => s.negNew K k
        mulNN K i n
      else mulNN K q k

end PPtR

/-- `ec_point_fp_jacobi`, ec.hpp:970-1394. -/
structure JPtR where
  curve : Option CurveR
  x : FeR
  y : FeR
  z : FeR

namespace JPtR

/-- Copy construction. -/
def copy (K : Kind) (q : JPtR) : M JPtR := do
  let x ← q.x.copy K
  let y ← q.y.copy K
  let z ← q.z.copy K
  pure ⟨q.curve, x, y, z⟩

/-- Default constructor, ec.hpp:987-992. -/
def identity (K : Kind) : M JPtR := do
  let x ← FeR.zero K
  let y ← FeR.one K
  let z ← FeR.zero K
  pure ⟨none, x, y, z⟩

/-- Construction from an affine point, ec.hpp:1001-1010; the parameter is a copy whose coordinates are moved. -/
def ofAffine (K : Kind) (q : APtR) : M JPtR := do
  let i ← q.isIdentity
  if !i then do
    let c ← curveR q.curve
    let x ← q.x.copy K
    let y ← q.y.copy K
    let z ← FeR.ofWord K 1 c.p
    pure ⟨some c, x, y, z⟩
  else identity K

/-- `is_identity`, ec.hpp:1070-1073. -/
def isIdentity (q : JPtR) : M Bool := if q.curve.isNone then pure true else q.z.isZero

/-- `to_affine`, ec.hpp:1050-1064. -/
def toAffine (K : Kind) (fuel : Nat) (q : JPtR) : M APtR := do
  let i ← q.isIdentity
  if i then APtR.identity K
  else do
    let o ← q.z.isOne
    if o then do
      let c ← curveR q.curve
      let x ← q.x.copy K
      let y ← q.y.copy K
      pure ⟨some c, x, y⟩
    else do
      let zi ← q.z.inv K fuel
      let zi2 ← zi.sqr K
      let c ← curveR q.curve
      let x ← q.x.mul K zi2
      let y ← q.y.mul K zi2
      let y ← y.mul K zi
      pure ⟨some c, x, y⟩

/-- `inverted`, ec.hpp:1128-1134. -/
def inverted (K : Kind) (q : JPtR) : M JPtR := do
  let i ← q.isIdentity
  if i then q.copy K
  else do
    let c ← curveR q.curve
    let x ← q.x.copy K
    let y ← q.y.neg K
    let z ← q.z.copy K
    pure ⟨some c, x, y, z⟩

/-- The lambda of `doubled`, ec.hpp:1191-1204. -/
def tangent (K : Kind) (q : JPtR) : M FeR := do
  let c ← curveR q.curve
  if c.aIsZero then do
    let x2 ← q.x.sqr K
    x2.mulS K 3
  else if c.aIsMinus3 then do
    let o ← q.z.isOne
    let z2 ← (if o then q.z.copy K else q.z.sqr K)
    let d ← q.x.sub K z2
    let d ← d.mulS K 3
    let e ← q.x.add K z2
    d.mul K e
  else do
    let o ← q.z.isOne
    let z4 ← (if o then q.z.copy K else do
      let z2 ← q.z.sqr K
      z2.sqr K)
    let x2 ← q.x.sqr K
    let t ← x2.mulS K 3
    let az ← FeR.bigMul K c.a z4
    t.add K az

/-- `doubled`, ec.hpp:1177-1212. -/
def doubled (K : Kind) (q : JPtR) : M JPtR := do
  let i ← q.isIdentity
  if i then q.copy K
  else do
    let z ← q.y.eqS 0
    if z then identity K
    else do
      let m ← tangent K q
      let y2 ← q.y.sqr K
      let x4 ← q.x.mulS K 4
      let s ← x4.mul K y2
      let m2 ← m.sqr K
      let s2 ← s.mulS K 2
      let x3 ← m2.sub K s2
      let d ← s.sub K x3
      let md ← m.mul K d
      let y4 ← y2.sqr K
      let y8 ← y4.mulS K 8
      let y3 ← md.sub K y8
      let dy ← q.y.mulS K 2
      let z3 ← dy.mul K q.z
      let c ← curveR q.curve
      pure ⟨some c, x3, y3, z3⟩

/-- `addex`, ec.hpp:1338-1367; `std::move( H )` of a `const` object is a copy. -/
def addex (K : Kind) (p q : JPtR) (U1 U2 S1 S2 : FeR) : M JPtR := do
  let H ← U2.sub K U1
  let R ← S2.sub K S1
  let z ← H.isZero
  if z then do
    let z ← R.isZero
    if z then doubled K p
    else identity K
  else do
    let H2 ← H.sqr K
    let H3 ← H2.mul K H
    let V ← U1.mul K H2
    let R2 ← R.sqr K
    let t ← R2.sub K H3
    let V2 ← V.mulS K 2
    let X3 ← t.sub K V2
    let d ← V.sub K X3
    let rd ← R.mul K d
    let sh ← S1.mul K H3
    let Y3 ← rd.sub K sh
    let Z3 ← H.copy K
    let o ← p.z.isOne
    let Z3 ← (if !o then Z3.mul K p.z else pure Z3)
    let o ← q.z.isOne
    let Z3 ← (if !o then Z3.mul K q.z else pure Z3)
    let c ← curveR p.curve
    pure ⟨some c, X3, Y3, Z3⟩

/-- `add_z2_1`, ec.hpp:1378-1382. -/
def addZ2One (K : Kind) (p q : JPtR) : M JPtR := do
  let pz2 ← p.z.sqr K
  let u2 ← q.x.mul K pz2
  let s2 ← q.y.mul K pz2
  let s2 ← s2.mul K p.z
  addex K p q p.x u2 p.y s2

/-- `add_ne`, ec.hpp:1386-1393. -/
def addNe (K : Kind) (p q : JPtR) : M JPtR := do
  let pz2 ← p.z.sqr K
  let qz2 ← q.z.sqr K
  let u1 ← p.x.mul K qz2
  let u2 ← q.x.mul K pz2
  let s1 ← p.y.mul K qz2
  let s1 ← s1.mul K q.z
  let s2 ← q.y.mul K pz2
  let s2 ← s2.mul K p.z
  addex K p q u1 u2 s1 s2

/-- `add`, ec.hpp:1143-1169. -/
def add (K : Kind) (p q : JPtR) : M JPtR := do
  let i ← p.isIdentity
  if i then q.copy K
  else do
    let i ← q.isIdentity
    if i then p.copy K
    else do
      let a ← p.z.isOne
      let b ← q.z.isOne
      if a && b then addex K p q p.x q.x p.y q.y
      else if a then addZ2One K q p
      else if b then addZ2One K p q
      else addNe K p q

/-- The loop over the digits in `mul`, ec.hpp:1258-1266. -/
def nafLoop (K : Kind) (p pneg : JPtR) : List (BitVec 8) → JPtR → M JPtR
  | [], r => pure r
  | d :: t, r => do
    let r ← doubled K r
    let r ← (if d.toInt > 0 then add K r p else if d.toInt < 0 then add K r pneg else pure r)
    nafLoop K p pneg t r

/-- `x.to_rnaf()`, bigint.hpp:1485-1490. -/
def _root_.Ack.Mem.toRnaf (K : Kind) (x : Nat) : M (List (BitVec 8)) := fun s => do
  let (l, s) ← s.toNaf K x
  .ok (l.reverse, s)

/-- `mul` for a scalar that is not negative: ec.hpp:1235-1241 and 1255-1267. -/
def mulNN (K : Kind) (q : JPtR) (k : Nat) : M JPtR := do
  let o ← ask fun s => s.isOne k
  let i ← (if o then pure true else q.isIdentity)
  if i then q.copy K
  else do
    let z ← ask fun s => s.isZero k
    if z then identity K
    else do
      let qneg ← inverted K q
      let c ← curveR q.curve
      let x ← FeR.ofWord K 0 c.p
      let y ← FeR.ofWord K 0 c.p
      let z ← FeR.ofWord K 1 c.p
      let ds ← toRnaf K k
      nafLoop K q qneg ds ⟨some c, x, y, z⟩

/-- `mul`, ec.hpp:1233-1268. -/
def mul (K : Kind) (q : JPtR) (k : Nat) : M JPtR := do
  let o ← ask fun s => s.isOne k
  let i ← (if o then pure true else q.isIdentity)
  if i then q.copy K
  else do
    let z ← ask fun s => s.isZero k
    if z then identity K
    else do
      let l ← ask fun s => s.ltS k 0
      if l then do
        let i ← inverted K q
        let n ← newObj fun s => s.negNew K k
        mulNN K i n
      else mulNN K q k

end JPtR

/-! ## `ec_mul_add_fast` and `ecdsa_verify` -/

/-- One step of the loop, ec.hpp:1983-2016. -/
def mulAddStepR (K : Kind) (t : MulAddTbl JPtR) (da db : BitVec 8) (r : JPtR) : M JPtR := do
  let r ← r.doubled K
  if da = 0 then
    if db = 0 then pure r
    else if db.toInt < 0 then r.add K t.qneg
    else r.add K t.q
  else if da.toInt < 0 then
    if db = 0 then r.add K t.pneg
    else if db.toInt < 0 then r.add K t.pnegqneg
    else r.add K t.pqnegInv
  else
    if db = 0 then r.add K t.p
    else if db.toInt < 0 then r.add K t.pqneg
    else r.add K t.pnegqnegInv

/-- The loop of `ec_mul_add_fast`, ec.hpp:1982-2017. -/
def mulAddLoopR (K : Kind) (t : MulAddTbl JPtR) : List (BitVec 8) → List (BitVec 8) → JPtR → M JPtR
  | da :: as, db :: bs, r => do
    let r ← mulAddStepR K t da db r
    mulAddLoopR K t as bs r
  | _, _, r => pure r

/-- `ec_mul_add_fast`, ec.hpp:1959-2020, on Jacobian points. -/
def mulAddFastR (K : Kind) (a : Nat) (p : JPtR) (b : Nat) (q : JPtR) : M JPtR := do
  let an ← toRnaf K a
  let bn ← toRnaf K b
  let an' := List.replicate (bn.length - an.length) 0 ++ an
  let bn' := List.replicate (an.length - bn.length) 0 ++ bn
  let pneg ← p.inverted K
  let qneg ← q.inverted K
  let pnegqneg ← pneg.add K qneg
  let pqneg ← p.add K qneg
  let pqnegInv ← pqneg.inverted K
  let pnegqnegInv ← pnegqneg.inverted K
  let r ← JPtR.identity K
  mulAddLoopR K ⟨p, q, pneg, qneg, pnegqneg, pqneg, pqnegInv, pnegqnegInv⟩ an' bn' r

/-- The generator, ec.hpp:1525. -/
def CurveR.g (c : CurveR) : APtR := ⟨some c, c.gx, c.gy⟩

/-- The range check of the signature, ecdsa.hpp:33 and 144: `r < 1 || r >= n || s < 1 || s >= n`. -/
def sigOut (n r s : Nat) : M Bool := do
  let b ← ask fun m => m.ltS r 1
  if b then pure true
  else do
    let b ← ask fun m => m.opGe r n
    if b then pure true
    else do
      let b ← ask fun m => m.ltS s 1
      if b then pure true else ask fun m => m.opGe s n

/-- The integer made of the message, ecdsa.hpp:37-40. -/
def msgIntR (K : Kind) (n : Nat) (msg : List Byte) : M Nat := do
  let l ← ask fun s => s.byteLength n
  let e ← newObj fun s => s.ofBytes K (msg.take (min l msg.length))
  let g ← ask fun s => s.opGt e n
  if g then do
    change fun s => s.sub K e e n
    pure e
  else pure e

/-- `( x * w ) % n`, ecdsa.hpp:43-44: the text of `fp_mul` (fp.hpp:84-88). -/
def mulModR (K : Kind) (x w n : Nat) : M Nat := newObj fun s => s.fpMul K x w n

/-- `ecdsa_verify`, ecdsa.hpp:25-57, before the end of its locals.  The two Jacobian points are temporaries. -/
def ecdsaVerifyGo (K : Kind) (fuel : Nat) (q : APtR) (msg : List Byte) (r s : Nat) : M Bool := do
  let i ← q.isIdentity
  if i then pure false
  else do
    let c ← curveR q.curve
    let o ← sigOut c.n r s
    if o then pure false
    else do
      let e ← msgIntR K c.n msg
      let w ← newObj fun m => m.modinvNew K fuel s c.n
      let u1 ← mulModR K e w c.n
      let u2 ← mulModR K r w c.n
      let jg ← JPtR.ofAffine K c.g
      let jq ← JPtR.ofAffine K q
      let j ← mulAddFastR K u1 jg u2 jq
      let R ← j.toAffine K fuel
      let i ← R.isIdentity
      if i then pure false
      else do
        let g ← ask fun m => m.opGe R.x.v c.n
        let x ← (if g then R.x.subB K c.n else pure R.x)
        ask fun m => m.opEq x.v r

/-- `ecdsa_verify`, ecdsa.hpp:25-57. -/
def ecdsaVerifyR (K : Kind) (fuel : Nat) (q : APtR) (msg : List Byte) (r s : Nat) : M Bool :=
  inScope (ecdsaVerifyGo K fuel q msg r s)

end Ack.Mem
