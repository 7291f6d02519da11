import Verif.Model.AliasNT
/-!
# Field functions on memory (include/ack/fp.hpp)

The result is a new object at the end of the list.  Temporaries come after it and end with the full expression; in the code
the result object of an outer operator is constructed after the temporaries, which is not observable (every object has its own
array).  `return c;` and `return res;` construct nothing when the copy is elided, and move otherwise (C80).
-/
namespace Ack.Mem
namespace BigSt

/-- `compare(x, y)`, bigint.hpp:1558-1578. -/
def compare (s : BigSt) (x y : Nat) : Res Int :=
  if s.neg x ^^ s.neg y then do
    let z ← if ← s.isZero x then s.isZero y else pure false
    .ok (if z then 0 else if s.neg x then -1 else 1)
  else do
    let o ← if ← s.isOne x then s.isOne y else pure false
    if o then .ok 0
    else
      let c ← s.ucompare x y
      .ok (if s.neg x then -c else c)

/-- `compares1(x, y)`, bigint.hpp:1580-1603 (`cmp_t<1>`, bigint.hpp:110-119, on the single word).  The assertion at 1582 is not
modelled. -/
def compares1 (s : BigSt) (x : Nat) (y : BitVec 32) : Res Int :=
  if s.neg x ^^ decide (y.toInt < 0) then do
    let z ← s.isZero x
    .ok (if z && y == 0 then 0 else if s.neg x then -1 else 1)
  else do
    let o ← s.isOne x
    if o && y == 1 then .ok 0
    else
      let c ← if s.size x > 1 then pure (1 : Int) else do
        let w ← s.load x 0
        pure (cmpN [w] [cabs32 y])
      .ok (if s.neg x then -c else c)

/-- `byte_length()`, bigint.hpp:1694-1697. -/
def byteLength (s : BigSt) (x : Nat) : Res Nat := do
  let n ← s.bitLength x
  .ok ((n + 7) / 8)

/-- `x == y` for an `int`, bigint.hpp:2453. -/
def eqS (s : BigSt) (x : Nat) (y : BitVec 32) : Res Bool := do .ok ((← s.compares1 x y) == 0)
/-- `x < y` for an `int`, bigint.hpp:2473. -/
def ltS (s : BigSt) (x : Nat) (y : BitVec 32) : Res Bool := do .ok (decide ((← s.compares1 x y) < 0))
/-- `x < y`, bigint.hpp:2477. -/
def opLt (s : BigSt) (x y : Nat) : Res Bool := do .ok (decide ((← s.compare x y) < 0))
/-- `x >= y`, bigint.hpp:2507. -/
def opGe (s : BigSt) (x y : Nat) : Res Bool := do .ok (!(← s.opLt x y))

/-- `fp_is_valid(a, p)`, fp.hpp:15-19. -/
def fpIsValid (s : BigSt) (a p : Nat) : Res Bool := do
  if !(← s.ltS a 0) then s.opLt a p else .ok false

/-- `fp_neg(a, p)`, fp.hpp:21-28. -/
def fpNeg (K : Kind) (s : BigSt) (a p : Nat) : Res BigSt := do
  if ← s.eqS a 0 then s.copyNew K a
  else
    let n := s.mem.objs.length
    let s ← s.create K 0
    s.sub K n p a

/-- `a == 0 || ( a == 1 && p != 1 )`, fp.hpp:33. -/
def fpIsReduced (s : BigSt) (a p : Nat) : Res Bool := do
  let z ← s.eqS a 0
  if z then .ok true
  else
    let o ← s.eqS a 1
    if o then
      let q ← s.eqS p 1
      .ok (!q)
    else .ok false

/-- `a.byte_length() > p.byte_length()`, fp.hpp:39 and 50. -/
def fpLonger (s : BigSt) (a p : Nat) : Res Bool := do
  let m ← s.byteLength a
  let n ← s.byteLength p
  .ok (decide (m > n))

/-- `a %= p`, bigint.hpp:2575; the flag of `mod` is ignored. -/
def modAssign (K : Kind) (s : BigSt) (a p : Nat) : Res BigSt := (s.mod K a a p).map (·.1)

/-- `fp_normalize(a, p)`, fp.hpp:30-62, for two big integers. -/
def fpNormalize (K : Kind) (s : BigSt) (a p : Nat) : Res BigSt := do
  let r ← s.fpIsReduced a p
  if r then .ok s
  else
    let l ← s.ltS a 0
    if l then
      let b ← s.fpLonger a p
      if b then
        let s ← s.modAssign K a p
        s.add K a a p
      else s.add K a a p
    else
      let g ← s.opGe a p
      if g then
        let b ← s.fpLonger a p
        if b then s.modAssign K a p else s.sub K a a p
      else .ok s

/-- `if ( res >= p ) res -= p;`, fp.hpp:68-71. -/
def fpAddFin (K : Kind) (s : BigSt) (n p : Nat) : Res BigSt := do
  if ← s.opGe n p then s.sub K n n p else .ok s

/-- `if ( res < 0 ) res += p;`, fp.hpp:78-81. -/
def fpSubFin (K : Kind) (s : BigSt) (n p : Nat) : Res BigSt := do
  if ← s.ltS n 0 then s.add K n n p else .ok s

/-- `fp_add(a, b, p)`, fp.hpp:64-72. -/
def fpAdd (K : Kind) (s : BigSt) (a b p : Nat) : Res BigSt := do
  let n := s.mem.objs.length
  let s ← s.create K 0
  let s ← s.add K n a b
  s.fpAddFin K n p

/-- `fp_add(a, b, p)` with an `int`, fp.hpp:64-72, 285-289 and bigint.hpp:2513, 1792-1796. -/
def fpAddS (K : Kind) (s : BigSt) (a : Nat) (b : BitVec 32) (p : Nat) : Res BigSt := do
  let n := s.mem.objs.length
  let s ← s.create K 0
  let s ← s.addu1Go K n a (cabs32 b) (decide (b.toInt < 0))
  s.fpAddFin K n p

/-- `fp_sub(a, b, p)`, fp.hpp:74-82. -/
def fpSub (K : Kind) (s : BigSt) (a b p : Nat) : Res BigSt := do
  let n := s.mem.objs.length
  let s ← s.create K 0
  let s ← s.sub K n a b
  s.fpSubFin K n p

/-- `fp_sub(a, b, p)` with an `int`, fp.hpp:74-82, 329-333 and bigint.hpp:2525, 1798-1802. -/
def fpSubS (K : Kind) (s : BigSt) (a : Nat) (b : BitVec 32) (p : Nat) : Res BigSt := do
  let n := s.mem.objs.length
  let s ← s.create K 0
  let s ← s.addu1Go K n a (cabs32 b) (!decide (b.toInt < 0))
  s.fpSubFin K n p

/-- `fp_mul(a, b, p)`, fp.hpp:84-88; the flags of `mul` and `mod` are ignored (bigint.hpp:2543, 2569). -/
def fpMul (K : Kind) (s : BigSt) (a b p : Nat) : Res BigSt := do
  let n := s.mem.objs.length
  let s ← s.create K 0
  let s ← s.create K 0
  let (s, _) ← s.mul K (n + 1) a b
  let (s, _) ← s.mod K n (n + 1) p
  .ok (s.drop (n + 1))

/-- `fp_mul(a, b, p)` with an `int`, fp.hpp:84-88, 373-377 and bigint.hpp:2539. -/
def fpMulS (K : Kind) (s : BigSt) (a : Nat) (b : BitVec 32) (p : Nat) : Res BigSt := do
  let n := s.mem.objs.length
  let s ← s.create K 0
  let s ← s.create K 0
  let s ← s.muls1 K (n + 1) a b
  let (s, _) ← s.mod K n (n + 1) p
  .ok (s.drop (n + 1))

/-- `fp_sqr(a, p)`, fp.hpp:393-397. -/
def fpSqr (K : Kind) (s : BigSt) (a p : Nat) : Res BigSt := s.fpMul K a a p

/-- `fp_div(a, b, p)`, fp.hpp:90-94, with the member `modinv`, bigint.hpp:2299-2305. -/
def fpDiv (K : Kind) (fuel : Nat) (s : BigSt) (a b p : Nat) : Res BigSt := do
  let n := s.mem.objs.length
  let s ← s.create K 0
  let s ← s.create K 0
  let (s, ok) ← s.modinv K fuel (n + 1) b p
  check ok
  let s ← s.create K 0
  let (s, _) ← s.mul K (n + 2) a (n + 1)
  let (s, _) ← s.mod K n (n + 2) p
  .ok (s.drop (n + 1))

end BigSt

/-- Statements of a program that also calls the field functions.  Each field function except `normalize` makes a new object. -/
inductive FStmt
  | nt (c : NStmt)
  | add (a b p : Nat)
  | addS (a : Nat) (b : BitVec 32) (p : Nat)
  | sub (a b p : Nat)
  | subS (a : Nat) (b : BitVec 32) (p : Nat)
  | neg (a p : Nat)
  | mul (a b p : Nat)
  | mulS (a : Nat) (b : BitVec 32) (p : Nat)
  | sqr (a p : Nat)
  | div (a b p : Nat)
  | normalize (a p : Nat)

/-- One statement. -/
def FStmt.exec (K : Kind) (fuel : Nat) (s : BigSt) : FStmt → Res BigSt
  | .nt c => c.exec K fuel s
  | .add a b p => s.fpAdd K a b p
  | .addS a b p => s.fpAddS K a b p
  | .sub a b p => s.fpSub K a b p
  | .subS a b p => s.fpSubS K a b p
  | .neg a p => s.fpNeg K a p
  | .mul a b p => s.fpMul K a b p
  | .mulS a b p => s.fpMulS K a b p
  | .sqr a p => s.fpSqr K a p
  | .div a b p => s.fpDiv K fuel a b p
  | .normalize a p => s.fpNormalize K a p

/-- A program. -/
def execF (K : Kind) (fuel : Nat) : BigSt → List FStmt → Res BigSt
  | s, [] => .ok s
  | s, c :: p => do
    let s ← c.exec K fuel s
    execF K fuel s p

end Ack.Mem
