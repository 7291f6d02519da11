import Verif.Model.BigintNT
import Verif.Model.BigintOps
/-!
# Prime-field arithmetic (include/ack/fp.hpp, include/ack/fe.hpp)

The free functions `fp_*` take plain big integers; `fp_element` pairs a value with a pointer to the modulus.  All
operands share one storage capacity `cap` (they are one `bigint` type in every use inside the library).  The overloads
on native integers are modelled for `int` (the type of the literals the library passes).
-/
namespace Ack
open Big

namespace Fp

/-- `fp_is_valid`, fp.hpp:15-19: `a >= 0 && a < p`. -/
def isValid (a p : Big) : Bool := !ltS a 0 && opLt a p

/-- `fp_neg`, fp.hpp:21-28. -/
def neg (cap : Cap) (a p : Big) : Big := if eqS a 0 then a else sub cap p a

/-- `a %= p`, bigint.hpp:2573, `mod(*this, *this, rhs)`: when `mod` reports failure `a` keeps its value. -/
def modAssign (cap : Cap) (a p : Big) : Res Big := do
  match ← divMod? cap a p with
  | some (_, r) => .ok r
  | none => .ok a

/-- `fp_normalize`, fp.hpp:30-62, for two big integers. -/
def normalize (cap : Cap) (a p : Big) : Res Big :=
  if eqS a 0 ∨ (eqS a 1 ∧ !eqS p 1) then .ok a
  else if ltS a 0 then do
    let a ← (if a.byteLength > p.byteLength then modAssign cap a p else .ok a)
    .ok (add cap a p)
  else if opGe a p then
    if a.byteLength > p.byteLength then modAssign cap a p else .ok (sub cap a p)
  else .ok a

/-- Conditional subtraction of `fp_add`, fp.hpp:68-71. -/
def addFin (cap : Cap) (res p : Big) : Big := if opGe res p then sub cap res p else res

/-- `fp_add` on two big integers, fp.hpp:64-72. -/
def add (cap : Cap) (a b p : Big) : Big := addFin cap (Big.add cap a b) p

/-- `fp_add` with a native `int` second operand, fp.hpp:64-72, 285-289. -/
def addS (cap : Cap) (a : Big) (b : BitVec 32) (p : Big) : Big := addFin cap (adds1 cap a b) p

/-- Conditional addition of `fp_sub`, fp.hpp:78-81. -/
def subFin (cap : Cap) (res p : Big) : Big := if ltS res 0 then Big.add cap res p else res

/-- `fp_sub` on two big integers, fp.hpp:74-82. -/
def sub (cap : Cap) (a b p : Big) : Big := subFin cap (Big.sub cap a b) p

/-- `fp_sub` with a native `int` second operand, fp.hpp:74-82, 329-333. -/
def subS (cap : Cap) (a : Big) (b : BitVec 32) (p : Big) : Big := subFin cap (subs1 cap a b) p

/-- `fp_mul` on two big integers, fp.hpp:84-88. -/
def mul (cap : Cap) (a b p : Big) : Res Big := mod cap (Big.mul cap a b) p

/-- `fp_mul` with a native `int` second operand, fp.hpp:84-88, 373-377. -/
def mulS (cap : Cap) (a : Big) (b : BitVec 32) (p : Big) : Res Big := mod cap (muls1 cap a b) p

/-- `fp_sqr`, fp.hpp:393-397. -/
def sqr (cap : Cap) (a p : Big) : Res Big := mul cap a a p

/-- `fp_div`, fp.hpp:90-94. -/
def div (cap : Cap) (a b p : Big) : Res Big := do
  let i ← modinv cap b p
  mod cap (Big.mul cap a i) p

/-- Search for a non-residue in `fp_sqrt`, fp.hpp:121-124. -/
def findNonRes (cap : Cap) (p : Big) : Nat → Big → Res Big
  | 0, _ => .error .fuel
  | f + 1, z => do
    if (← jacobi cap z p) ≠ -1 then findNonRes cap p f (incr cap z) else .ok z

/-- `x.sqr() % p`, used throughout fp.hpp:128-150. -/
def sqrMod (cap : Cap) (x p : Big) : Res Big := mod cap (Big.sqr cap x) p

/-- `x * y % p`, used throughout fp.hpp:128-153. -/
def mulMod (cap : Cap) (x y p : Big) : Res Big := mod cap (Big.mul cap x y) p

/-- The `do`-`while` loop of `fp_sqrt`, fp.hpp:135-143: the value of `m` at the exit, or `none` for `return 0`. -/
def ordLoop (cap : Cap) (p : Big) (s : Nat) : Nat → Nat → Big → Res (Option Nat)
  | 0, _, _ => .error .fuel
  | f + 1, m, z => do
    let m := m + 1
    let z ← sqrMod cap z p
    if m = s then .ok none
    else if !eqS z 1 then ordLoop cap p s f m z
    else .ok (some m)

/-- The `for` loop of `fp_sqrt`, fp.hpp:146-148. -/
def sqrTimes (cap : Cap) (p : Big) : Nat → Big → Res Big
  | 0, b => .ok b
  | k + 1, b => do sqrTimes cap p k (← sqrMod cap b p)

/-- The main loop of `fp_sqrt`, fp.hpp:131-156.  `s - m - 1` is computed on `std::size_t`; the loop leaves with
`m < s`, so it does not wrap. -/
def tonelli (cap : Cap) (p : Big) : Nat → (s : Nat) → (c r t : Big) → Res Big
  | 0, _, _, _, _ => .error .fuel
  | f + 1, s, c, r, t => do
    if !eqS t 1 then
      match ← ordLoop cap p s (s + 1) 0 t with
      | none => .ok (ofInt32 0)
      | some m =>
        let b ← sqrTimes cap p (s - m - 1) c
        let c ← sqrMod cap b p
        let r ← mulMod cap r b p
        let t ← mulMod cap t c p
        tonelli cap p f m c r t
    else .ok r

/-- `fp_sqrt`, fp.hpp:96-157.  The loop at 115-118 that strips the factors of two is the one of
`count_trailing_zero`. -/
def sqrt (cap : Cap) (n p : Big) : Res Big := do
  if (← jacobi cap n p) ≠ 1 then .ok (ofInt32 0)
  else if eqS (← mods1 p 4) 3 then
    modexp cap n (← divs1 cap (adds1 cap p 1) 4) p
  else
    let (q, s) ← countTrailingZero (subs1 cap p 1)
    let z ← findNonRes cap p (wordsFuel p.ws) (ofInt32 2)
    let c ← modexp cap z q p
    let r ← modexp cap n (← divs1 cap (subs1 cap q 1) 2) p
    let t ← mulMod cap (← sqrMod cap r p) n p
    let r ← mulMod cap n r p
    tonelli cap p (s + 1) s c r t

end Fp

/-- `ack::fp_element`, fp.hpp:447-1094: a value and a pointer to the modulus (`none` = null). -/
structure Fe where
  v : Big
  pm : Option Big
deriving DecidableEq, Repr

namespace Fe

/-- `fp_element::zero()`, fp.hpp:462-465 (no modulus). -/
def zero : Fe := ⟨Big.zero, none⟩

/-- `fp_element::one()`, fp.hpp:475-480 (no modulus). -/
def one : Fe := ⟨ofInt32 1, none⟩

/-- `*pm_`: dereferencing the modulus pointer; undefined behaviour when it is null. -/
def deref (a : Fe) : Res Big :=
  match a.pm with
  | some p => .ok p
  | none => .error .ub

/-- `is_valid`, fp.hpp:622-625. -/
def isValid (a : Fe) : Bool :=
  match a.pm with
  | some p => Fp.isValid a.v p
  | none => false

/-- Constructor with value, modulus and the `check` flag, fp.hpp:514-521. -/
def mk' (v p : Big) (chk : Bool) : Res Fe := do
  let e : Fe := ⟨v, some p⟩
  if chk then check e.isValid
  .ok e

/-- `max_byte_length`, fp.hpp:535-541. -/
def maxByteLength (cap : Cap) (a : Fe) : Nat :=
  match a.pm with
  | some p => if Fp.isValid a.v p then (subs1 cap p 1).byteLength else 0
  | none => 0

/-- `assign(value, check)` and `operator=(IntT)`, fp.hpp:557-586. -/
def assign (a : Fe) (v : Big) (chk : Bool) : Res Fe :=
  match a.pm with
  | none => .ok a
  | some p => do
    if chk then check (Fp.isValid v p)
    .ok ⟨v, some p⟩

/-- `modulus()`, fp.hpp:611-615. -/
def modulus (a : Fe) : Res Big :=
  match a.pm with
  | some p => .ok p
  | none => .error .abort

/-- `is_zero`, fp.hpp:631-634. -/
def isZero (a : Fe) : Bool :=
  !a.v.isOne && (match a.pm with
    | none => true
    | some p => p.isZero || p.isOne || a.v.isZero)

/-- `is_one`, fp.hpp:640-643. -/
def isOne (a : Fe) : Bool := a.v.isOne

/-- `is_negative`, fp.hpp:649-652. -/
def isNegative (a : Fe) : Bool := a.v.isNegative

/-- `to_bytes(len)`, fp.hpp:663-673. -/
def toBytesLen (a : Fe) (len : Nat) : List Byte :=
  if a.isValid then List.replicate (len - a.v.toBytes.length) 0 ++ a.v.toBytes else []

/-- `to_bytes()` of the base class, fe.hpp:112-116: `to_bytes( max_byte_length() )`. -/
def toBytes (cap : Cap) (a : Fe) : List Byte := a.toBytesLen (a.maxByteLength cap)

/-- `inv`, fp.hpp:679-682. -/
def inv (cap : Cap) (a : Fe) : Res Fe := do
  let p ← a.deref
  .ok ⟨← modinv cap a.v p, some p⟩

/-- `add(bigint)`, fp.hpp:700-704; `add(fp_element)` (689-692) passes the other element's value. -/
def addB (cap : Cap) (a : Fe) (x : Big) : Res Fe := do
  let p ← a.deref
  .ok ⟨Fp.add cap a.v x p, some p⟩

/-- `add(fp_element)` and `operator+`, fp.hpp:689-692, fe.hpp:296-299. -/
def add (cap : Cap) (a x : Fe) : Res Fe := a.addB cap x.v

/-- `add(IntU)`, fp.hpp:712-716, for `int`. -/
def addS (cap : Cap) (a : Fe) (x : BitVec 32) : Res Fe := do
  let p ← a.deref
  .ok ⟨Fp.addS cap a.v x p, some p⟩

/-- `sub(bigint)`, fp.hpp:734-738. -/
def subB (cap : Cap) (a : Fe) (x : Big) : Res Fe := do
  let p ← a.deref
  .ok ⟨Fp.sub cap a.v x p, some p⟩

/-- `sub(fp_element)` and `operator-`, fp.hpp:723-726. -/
def sub (cap : Cap) (a x : Fe) : Res Fe := a.subB cap x.v

/-- `sub(IntU)`, fp.hpp:746-750, for `int`. -/
def subS (cap : Cap) (a : Fe) (x : BitVec 32) : Res Fe := do
  let p ← a.deref
  .ok ⟨Fp.subS cap a.v x p, some p⟩

/-- `mul(bigint)`, fp.hpp:768-778. -/
def mulB (cap : Cap) (a : Fe) (x : Big) : Res Fe :=
  if a.v.isOne then do
    let p ← a.deref
    .ok ⟨x, some p⟩
  else if x.isOne then .ok a
  else do
    let p ← a.deref
    .ok ⟨← Fp.mul cap a.v x p, some p⟩

/-- `mul(fp_element)` and `operator*`, fp.hpp:757-760. -/
def mul (cap : Cap) (a x : Fe) : Res Fe := a.mulB cap x.v

/-- `mul(IntU)`, fp.hpp:786-796, for `int`; also `operator*(IntU, fp_element)` (fe.hpp:474-477). -/
def mulS (cap : Cap) (a : Fe) (x : BitVec 32) : Res Fe :=
  if a.v.isOne then do
    let p ← a.deref
    .ok ⟨ofInt32 x, some p⟩
  else if x = 1 then .ok a
  else do
    let p ← a.deref
    .ok ⟨← Fp.mulS cap a.v x p, some p⟩

/-- `sqr`, fp.hpp:802-808. -/
def sqr (cap : Cap) (a : Fe) : Res Fe :=
  if a.v.isOne then .ok a
  else do
    let p ← a.deref
    .ok ⟨← Fp.sqr cap a.v p, some p⟩

/-- `sqrt`, fp.hpp:818-824. -/
def sqrt (cap : Cap) (a : Fe) : Res Fe :=
  if a.v.isOne then .ok a
  else do
    let p ← a.deref
    .ok ⟨← Fp.sqrt cap a.v p, some p⟩

/-- `div(bigint)`, fp.hpp:842-849. -/
def divB (cap : Cap) (a : Fe) (x : Big) : Res Fe :=
  if x.isOne then .ok a
  else do
    let p ← a.deref
    .ok ⟨← Fp.div cap a.v x p, some p⟩

/-- `div(fp_element)` and `operator/`, fp.hpp:831-834. -/
def div (cap : Cap) (a x : Fe) : Res Fe := a.divB cap x.v

/-- `neg` and unary `operator-`, fp.hpp:855-858. -/
def neg (cap : Cap) (a : Fe) : Res Fe := do
  let p ← a.deref
  .ok ⟨Fp.neg cap a.v p, some p⟩

/-- `==` on two elements, fp.hpp:866-869 (values only). -/
def eq (a b : Fe) : Bool := opEq a.v b.v

/-- `==` with a native integer, fp.hpp:891-895. -/
def eqS (a : Fe) (b : BitVec 32) : Bool := Big.eqS a.v b

/-- `<` on two elements, fp.hpp:940-943. -/
def lt (a b : Fe) : Bool := opLt a.v b.v

/-- `operator - (const bigint& a, const Derived& b)`, fe.hpp:398-401: as written, `b.sub( a )`. -/
def bigSub (cap : Cap) (a : Big) (b : Fe) : Res Fe := b.subB cap a

/-- `operator - (IntU a, const Derived& b)`, fe.hpp:411-414: as written, `b.sub( a )`. -/
def intSub (cap : Cap) (a : BitVec 32) (b : Fe) : Res Fe := b.subS cap a

/-- `operator / (const bigint& a, const Derived& b)`, fe.hpp:524-527: as written, `b.div( a )`. -/
def bigDiv (cap : Cap) (a : Big) (b : Fe) : Res Fe := b.divB cap a

/-- `operator + (const bigint& a, const Derived& b)`, fe.hpp:335-338: `b.add( a )`. -/
def bigAdd (cap : Cap) (a : Big) (b : Fe) : Res Fe := b.addB cap a

/-- `operator + (IntU a, const Derived& b)`, fe.hpp:348-351: `b.add( a )`. -/
def intAdd (cap : Cap) (a : BitVec 32) (b : Fe) : Res Fe := b.addS cap a

/-- `operator * (const bigint& a, const Derived& b)`, fe.hpp:461-464: `b.mul( a )`. -/
def bigMul (cap : Cap) (a : Big) (b : Fe) : Res Fe := b.mulB cap a

/-- `operator * (IntU a, const Derived& b)`, fe.hpp:474-477: `b.mul( a )`. -/
def intMul (cap : Cap) (a : BitVec 32) (b : Fe) : Res Fe := b.mulS cap a

end Fe
end Ack
