import Verif.Model.EcProg
/-!
# Square roots, compressed points, encodings and key recovery on memory (include/ack/bigint.hpp, fp.hpp, ec.hpp, ecdsa.hpp)

Continues `Model/EcMem.lean` and `Model/EcProg.lean` with the same conventions: a local object that is assigned a temporary takes
over its position, and a function that returns no object removes its locals.
-/
namespace Ack.Mem
open Big (Byte)

namespace BigSt

/-! ## Integers -/

/-- `test_bit(i)`, bigint.hpp:1514-1524. -/
def testBit (s : BigSt) (x i : Nat) : Res Bool :=
  if i / 32 ≥ s.size x then .ok false
  else do
    let w ← s.load x (i / 32)
    .ok ((w &&& (1#32 <<< (i % 32))) != 0)

/-- `x + y` for an `int`, bigint.hpp:2513 and 1792-1796: a new object. -/
def addsNew (K : Kind) (s : BigSt) (x : Nat) (y : BitVec 32) : Res BigSt := do
  let n := s.mem.objs.length
  let s ← s.create K 0
  s.addu1Go K n x (cabs32 y) (decide (y.toInt < 0))

/-- `x / y` for an `int`, bigint.hpp:2551 and 1886-1889: a new object. -/
def divsNew (K : Kind) (s : BigSt) (x : Nat) (y : BitVec 32) : Res BigSt := do
  let n := s.mem.objs.length
  let s ← s.create K 0
  s.divs1 K n x y

/-- `x + y`, bigint.hpp:2517: a new object. -/
def addNew (K : Kind) (s : BigSt) (x y : Nat) : Res BigSt := do
  let n := s.mem.objs.length
  let s ← s.create K 0
  s.add K n x y

/-- `x.modexp(e, m)`, bigint.hpp:2165-2171: a new object. -/
def modexpNew (K : Kind) (s : BigSt) (x e m : Nat) : Res BigSt := do
  let n := s.mem.objs.length
  let s ← s.create K 0
  let (s, ok) ← s.modexp K n x e m
  check ok
  .ok s

/-- Loop of `count_trailing_zero`, bigint.hpp:1010-1018, and the loop at fp.hpp:115-118: `x` is shifted in place. -/
def ctzGo (K : Kind) (x : Nat) : Nat → Nat → BigSt → Res (Nat × BigSt)
  | 0, _, _ => .error .fuel
  | f + 1, k, s => do
    let o ← s.isOdd x
    if !o then
      let s ← s.shr K x x 1
      ctzGo K x f (k + 1) s
    else .ok (k, s)

/-- `count_trailing_zero(x)`, bigint.hpp:1010-1018; the number of bits of `x` bounds the loop, except for zero. -/
def ctz (K : Kind) (s : BigSt) (x : Nat) : Res (Nat × BigSt) := s.ctzGo K x (s.size x * 32 + 1) 0

/-- `quot_rem(nullptr, r, x, y)`, bigint.hpp:1927-1944.  `udiv` is called through `mod`, which differs in the sign it gives the
remainder; the sign is stored again at once. -/
def quotRemNull (K : Kind) (s : BigSt) (r x y : Nat) : Res BigSt := do
  let yy := s.mem.objs.length
  let s ← s.copyNew K y
  let yNeg := s.neg y
  let qsign := s.neg x ^^ yNeg
  let (s, _) ← s.mod K r x yy
  let s := s.setNeg r yNeg
  let z ← s.isZero r
  let s ← if !z && qsign then s.usub K r yy r else pure s
  .ok (s.drop yy)

/-- Loop of `jacobi`, bigint.hpp:2388-2405, on the locals `m`, `n` and `t`; `start` is the flag of that name and `j` the sign so
far. -/
def jacobiGo (K : Kind) (m n t : Nat) : Nat → Bool → Int → BigSt → Res (Int × BigSt)
  | 0, _, _, _ => .error .fuel
  | f + 1, start, j, s => do
    let (j, s) ← (if !start then do
        let a ← s.load m 0
        let b ← s.load n 0
        let j := if a % 4 = 3 ∧ b % 4 = 3 then -j else j
        let (s, _) ← s.mod K t n m
        let s ← s.assign K n m
        let s ← s.assign K m t
        .ok (j, s)
      else .ok (j, s) : Res (Int × BigSt))
    let (k, s) ← s.ctz K m
    let nmod8 := (← s.load n 0) % 8
    let j := if k % 2 ≠ 0 ∧ (nmod8 = 3 ∨ nmod8 = 5) then -j else j
    let e ← s.eqS m 1
    if !e then jacobiGo K m n t f false j s else .ok (j, s)

/-- `jacobi(m, n)`, bigint.hpp:2374-2424, on its two parameters. -/
def jacobiBody (K : Kind) (fuel : Nat) (m n : Nat) (s : BigSt) : Res (Int × BigSt) := do
  let o ← s.isOne n
  if o then .ok (1, s)
  else
    let l ← s.ltS m 0
    let g ← if l then .ok true else s.opGt m n
    let s ← if g then s.quotRemNull K m m n else .ok s
    let z ← s.isZero m
    if z then .ok (0, s)
    else
      let o ← s.isOne m
      if o then .ok (1, s)
      else
        let c := s.mem.objs.length
        let s ← s.create K 0
        let s ← s.gcd K fuel c m n
        let e ← s.eqS c 1
        let s := s.drop c
        if !e then .ok (0, s)
        else
          let s ← s.create K 0
          s.jacobiGo K m n c fuel true 1

/-- `x.jacobi(y)`, bigint.hpp:2443-2446: `y` is copied for the member function, then both are copied for the static one. -/
def jacobi (K : Kind) (fuel : Nat) (s : BigSt) (x y : Nat) : Res (Int × BigSt) := do
  let c := s.mem.objs.length
  let s ← s.copyNew K y
  let s ← s.copyNew K x
  let s ← s.copyNew K c
  let (j, s) ← s.jacobiBody K fuel (c + 1) (c + 2)
  .ok (j, s.drop c)

/-- Search for a non-residue in `fp_sqrt`, fp.hpp:121-124: `++z` in place (bigint.hpp:2448). -/
def findNonRes (K : Kind) (fuel : Nat) (z p : Nat) : Nat → BigSt → Res BigSt
  | 0, _ => .error .fuel
  | f + 1, s => do
    let (j, s) ← s.jacobi K fuel z p
    if j ≠ -1 then
      let s ← s.addu1Go K z z 1 false
      findNonRes K fuel z p f s
    else .ok s

/-- Loop of `get_bytes`, bigint.hpp:1439-1442, from the most significant byte. -/
def bytesGo (s : BigSt) (x : Nat) : Nat → Res (List Byte)
  | 0 => .ok []
  | n + 1 => do
    let w ← s.load x (n / 4)
    let r ← s.bytesGo x n
    .ok ((w >>> (8 * (n % 4))).setWidth 8 :: r)

/-- `to_bytes()`, bigint.hpp:1450-1455 and 1432-1445: the vector has `byte_length()` bytes, all of which are stored. -/
def toBytes (s : BigSt) (x : Nat) : Res (List Byte) := do
  let n ← s.byteLength x
  s.bytesGo x n

end BigSt

/-! ## Square roots -/

/-- `x.jacobi(y)` among the objects of the program. -/
def jacobiR (K : Kind) (fuel : Nat) (x y : Nat) : M Int := fun s => s.jacobi K fuel x y

/-- `( p % 4 ) == 3`, fp.hpp:105; the remainder is a temporary. -/
def mod4Is3 (K : Kind) (p : Nat) : M Bool := inScope do
  let r ← newObj fun s => s.modsNew K p 4
  ask fun s => s.eqS r 3

/-- The `do`-`while` loop of `fp_sqrt`, fp.hpp:135-143. -/
def ordLoopR (K : Kind) (p s : Nat) : Nat → Nat → Nat → M (Option Nat)
  | 0, _, _ => halt .fuel
  | f + 1, m, z => do
    let m := m + 1
    let z ← mulModR K z z p
    if m = s then pure none
    else do
      let e ← ask fun st => st.eqS z 1
      if !e then ordLoopR K p s f m z else pure (some m)

/-- The `for` loop of `fp_sqrt`, fp.hpp:146-148. -/
def sqrTimesR (K : Kind) (p : Nat) : Nat → Nat → M Nat
  | 0, b => pure b
  | k + 1, b => do
    let b ← mulModR K b b p
    sqrTimesR K p k b

/-- The main loop of `fp_sqrt`, fp.hpp:131-156. -/
def tonelliR (K : Kind) (p : Nat) : Nat → (s c r t : Nat) → M Nat
  | 0, _, _, _, _ => halt .fuel
  | f + 1, s, c, r, t => do
    let e ← ask fun st => st.eqS t 1
    if !e then do
      let z ← newObj fun st => st.copyNew K t
      match ← ordLoopR K p s (s + 1) 0 z with
      | none => newObj fun st => st.createInt K 0
      | some m => do
        let b ← newObj fun st => st.copyNew K c
        let b ← sqrTimesR K p (s - m - 1) b
        let c ← mulModR K b b p
        let r ← mulModR K r b p
        let t ← mulModR K t c p
        tonelliR K p f m c r t
    else pure r

/-- `fp_sqrt`, fp.hpp:96-157. -/
def sqrtR (K : Kind) (fuel : Nat) (n p : Nat) : M Nat := do
  let j ← jacobiR K fuel n p
  if j ≠ 1 then newObj fun s => s.createInt K 0
  else do
    let b ← mod4Is3 K p
    if b then do
      let e ← newObj fun s => s.addsNew K p 1
      let e ← newObj fun s => s.divsNew K e 4
      newObj fun s => s.modexpNew K n e p
    else do
      let q ← newObj fun s => s.subsNew K p 1
      let s ← (fun st => st.ctz K q : M Nat)
      let z ← newObj fun st => st.createInt K 2
      change fun st => st.findNonRes K fuel z p fuel
      let c ← newObj fun st => st.modexpNew K z q p
      let e ← newObj fun st => st.subsNew K q 1
      let e ← newObj fun st => st.divsNew K e 2
      let r ← newObj fun st => st.modexpNew K n e p
      let t ← mulModR K r r p
      let t ← mulModR K t n p
      let r ← mulModR K n r p
      tonelliR K p (s + 1) s c r t

namespace FeR

/-- `sqrt`, fp.hpp:818-824. -/
def sqrt (K : Kind) (fuel : Nat) (a : FeR) : M FeR := do
  let o ← a.isOne
  if o then a.copy K
  else do
    let p ← a.deref
    let v ← sqrtR K fuel a.v p
    pure ⟨v, some p⟩

/-- `is_valid`, fp.hpp:622-625 and 15-19: `pm_ != nullptr && v_ >= 0 && v_ < *pm_`. -/
def isValid (a : FeR) : M Bool :=
  match a.pm with
  | none => pure false
  | some p => do
    let l ← ask fun s => s.ltS a.v 0
    if !l then ask fun s => s.opLt a.v p else pure false

/-- `max_byte_length`, fp.hpp:535-541; the difference is a temporary. -/
def maxByteLength (K : Kind) (a : FeR) : M Nat := inScope do
  let v ← a.isValid
  if !v then pure 0
  else do
    let p ← a.deref
    let d ← newObj fun s => s.subsNew K p 1
    ask fun s => s.byteLength d

/-- `to_bytes(len)`, fp.hpp:663-673. -/
def toBytesLen (a : FeR) (len : Nat) : M (List Byte) := do
  let v ← a.isValid
  if v then do
    let b ← ask fun s => s.toBytes a.v
    pure (List.replicate (len - b.length) 0 ++ b)
  else pure []

/-- `to_bytes()` of the base class, fe.hpp:112-116. -/
def toBytes (K : Kind) (a : FeR) : M (List Byte) := do
  let l ← a.maxByteLength K
  a.toBytesLen l

end FeR

/-! ## Compressed points and encodings -/

namespace CurveR

/-- `compute_y`, ec.hpp:1699-1705. -/
def computeY (K : Kind) (fuel : Nat) (c : CurveR) (x : FeR) (odd : Bool) : M FeR := do
  let x2 ← x.sqr K
  let t ← x2.addB K c.a
  let t ← t.mul K x
  let t ← t.addB K c.b
  let y ← t.sqrt K fuel
  let b ← ask fun s => s.testBit y.v 0
  if odd != b then y.neg K else pure y

/-- `decompress_point<ec_point_fp>`, ec.hpp:1730-1736; the parameter `x` is an object of the function, and is moved. -/
def decompress (K : Kind) (fuel : Nat) (c : CurveR) (x : FeR) (odd : Bool) : M APtR := do
  let y ← c.computeY K fuel x odd
  let z ← y.isZero
  if z then APtR.identity K
  else pure ⟨some c, x, y⟩

/-- `decompress_point(const IntT&, yodd, verify)`, ec.hpp:1749-1751 and 1920-1926. -/
def decompressInt (K : Kind) (fuel : Nat) (c : CurveR) (x : Nat) (odd verify : Bool) : M APtR := do
  if verify then checkInteger c.p x
  let v ← newObj fun s => s.copyNew K x
  c.decompress K fuel ⟨v, some c.p⟩ odd

/-- `encode_point`, ec.hpp:1775-1791. -/
def encode (K : Kind) (q : APtR) (compress : Bool) : M (List Byte) := do
  let i ← q.isIdentity
  if i then pure [0]
  else if compress then do
    let b ← ask fun s => s.testBit q.y.v 0
    let x ← q.x.toBytes K
    pure ((if b then 3 else 2) :: x)
  else do
    let x ← q.x.toBytes K
    let y ← q.y.toBytes K
    pure (4 :: (x ++ y))

/-- `decode_point<ec_point_fp>`, ec.hpp:1813-1839.  The coordinates are temporaries made by the byte constructor; `make_point`
(1650-1660) checks and moves them. -/
def decode (K : Kind) (fuel : Nat) (c : CurveR) (e : List Byte) : M APtR := do
  checkM (!e.isEmpty)
  let type := e.headD 0
  checkM (decide (type.toNat ≤ 4) && type != 1)
  let plen ← ask fun s => s.byteLength c.p
  if type = 2 ∨ type = 3 then do
    checkM (e.length == plen + 1)
    let x ← newObj fun s => s.ofBytes K ((e.drop 1).take plen)
    c.decompressInt K fuel x ((type &&& 1) == 1) false
  else if type = 4 then do
    checkM (e.length == 2 * plen + 1)
    let x ← newObj fun s => s.ofBytes K ((e.drop 1).take plen)
    let y ← newObj fun s => s.ofBytes K ((e.drop (1 + plen)).take plen)
    checkInteger c.p x
    checkInteger c.p y
    pure ⟨some c, ⟨x, some c.p⟩, ⟨y, some c.p⟩⟩
  else APtR.identity K

end CurveR

/-! ## Recovery of the key -/

/-- `ecdsa_recover`, ecdsa.hpp:139-188. -/
def ecdsaRecoverR (K : Kind) (fuel : Nat) (c : CurveR) (msg : List Byte) (r s : Nat) (recid : BitVec 64) (verify : Bool) : M APtR := do
  let o ← sigOut c.n r s
  if o || (recid &&& 3) != recid then APtR.identity K
  else do
    let yodd := (recid &&& 1) != 0
    let secondKey := (recid >>> 1) != 0
    let b ← (if secondKey then ask fun m => m.opGe r c.pMinusN else pure false)
    if b then APtR.identity K
    else do
      let e ← msgIntR K c.n msg
      let R ← (if secondKey then do
          let x ← newObj fun m => m.addNew K r c.n
          c.decompressInt K fuel x yodd false
        else c.decompressInt K fuel r yodd false)
      let i ← R.isIdentity
      if i then pure R
      else do
        let bad ← (if verify then do
          let t ← R.mul K fuel c.n
          let i ← t.isIdentity
          pure !i
          else pure false)
        if bad then APtR.identity K
        else do
          let w ← newObj fun m => m.modinvNew K fuel r c.n
          let d ← newObj fun m => m.subNew K c.n e
          let ew ← mulModR K d w c.n
          let sw ← mulModR K s w c.n
          let jg ← JPtR.ofAffine K c.g
          let jr ← JPtR.ofAffine K R
          let j ← mulAddFastR K ew jg sw jr
          j.toAffine K fuel

/-! ## Programs -/

/-- A statement: one of `EcStmt`, or a call of one of the functions above. -/
inductive KStmt
  | ec (t : EcStmt)
  /-- `auto P = c.decompress_point(x, yodd, verify);` -/
  | decompress (x : Nat) (odd verify : Bool)
  /-- `auto P = c.decode_point(bytes);` -/
  | decode (e : List Byte)
  /-- `auto P = c.decode_point(b);` for a byte variable -/
  | decodeVar (i : Nat)
  /-- `bytes b = c.encode_point(Q, compress);` -/
  | encode (q : Nat) (compress : Bool)
  /-- `auto P = ecdsa_recover(c, msg, r, s, recid, verify);` -/
  | recover (msg : List Byte) (r s : Nat) (recid : BitVec 64) (verify : Bool)

/-- The variables: those of `EcVars`, and byte strings. -/
structure KVars where
  ec : EcVars
  bytes : List (List Byte)

namespace KVars

/-- A byte string variable. -/
def str (v : KVars) (i : Nat) : M (List Byte) := match v.bytes[i]? with
  | some b => pure b
  | none => halt .ub

/-- Declaration of a point. -/
def addPt (v : KVars) (q : APtR) : KVars := { v with ec := { v.ec with pts := v.ec.pts ++ [.aff q] } }

end KVars

/-- `encode_point` takes an affine point. -/
def PtR.encode (K : Kind) (compress : Bool) : PtR → M (List Byte)
  | .aff q => inScope (CurveR.encode K q compress)
  | _ => halt .ub

/-- One statement. -/
def kStep (K : Kind) (fuel : Nat) (c : CurveR) (v : KVars) : KStmt → M KVars
  | .ec t => do
    let e ← ecStep K fuel c v.ec t
    return { v with ec := e }
  | .decompress x odd ver => do
    let x ← v.ec.int x
    let q ← c.decompressInt K fuel x odd ver
    return v.addPt q
  | .decode e => do
    let q ← c.decode K fuel e
    return v.addPt q
  | .decodeVar i => do
    let e ← v.str i
    let q ← c.decode K fuel e
    return v.addPt q
  | .encode q compress => do
    let q ← v.ec.pt q
    let b ← q.encode K compress
    return { v with bytes := v.bytes ++ [b] }
  | .recover msg r s recid ver => do
    let r ← v.ec.int r
    let s ← v.ec.int s
    let q ← ecdsaRecoverR K fuel c msg r s recid ver
    return v.addPt q

/-- The statements in order. -/
def kExec (K : Kind) (fuel : Nat) (c : CurveR) : List KStmt → KVars → M KVars
  | [], v => pure v
  | t :: ts, v => do
    let v ← kStep K fuel c v t
    kExec K fuel c ts v

/-- A program: it makes the six integers, a curve of them, and goes on with statements. -/
def kProgram (K : Kind) (fuel : Nat) (d : DomBytes) (ts : List KStmt) : M KVars := do
  let p ← newObj fun s => s.ofBytes K d.p
  let a ← newObj fun s => s.ofBytes K d.a
  let b ← newObj fun s => s.ofBytes K d.b
  let gx ← newObj fun s => s.ofBytes K d.gx
  let gy ← newObj fun s => s.ofBytes K d.gy
  let n ← newObj fun s => s.ofBytes K d.n
  let c ← CurveR.make K 1 p a b gx gy n d.h
  kExec K fuel c ts ⟨⟨[], [], []⟩, []⟩

/-! ## The same programs on values -/

/-- The values of the variables. -/
structure KVals where
  ec : EcVals
  bytes : List (List Byte)
deriving DecidableEq, Repr

namespace KVals

def str (v : KVals) (i : Nat) : Res (List Byte) := match v.bytes[i]? with
  | some b => .ok b
  | none => .error .ub

def addPt (v : KVals) (q : APt) : KVals := { v with ec := { v.ec with pts := v.ec.pts ++ [.aff q] } }

end KVals

def PtV.encode (cap : Cap) (compress : Bool) : PtV → Res (List Byte)
  | .aff q => .ok (Curve.encode cap q compress)
  | _ => .error .ub

/-- One statement, with the functions of `Model/Ec.lean` and `Model/Ecdsa.lean`. -/
def kvStep (cap : Cap) (C : Curve) (v : KVals) : KStmt → Res KVals
  | .ec t => do
    let e ← evStep cap C v.ec t
    return { v with ec := e }
  | .decompress x odd ver => do
    let x ← v.ec.int x
    let q ← C.decompressInt cap x odd ver
    return v.addPt q
  | .decode e => do
    let q ← C.decode cap e
    return v.addPt q
  | .decodeVar i => do
    let e ← v.str i
    let q ← C.decode cap e
    return v.addPt q
  | .encode q compress => do
    let q ← v.ec.pt q
    let b ← q.encode cap compress
    return { v with bytes := v.bytes ++ [b] }
  | .recover msg r s recid ver => do
    let r ← v.ec.int r
    let s ← v.ec.int s
    let q ← ecdsaRecover cap C msg r s recid ver
    return v.addPt q

/-- The statements in order. -/
def kvExec (cap : Cap) (C : Curve) : List KStmt → KVals → Res KVals
  | [], v => .ok v
  | t :: ts, v => do
    let v ← kvStep cap C v t
    kvExec cap C ts v

end Ack.Mem
