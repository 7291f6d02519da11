import Verif.Model.Fp
/-!
# Operators with a native integer operand of any type

Models the operator tables of include/ack/bigint.hpp:2453-2549 for the four native types (`int`, `uint32_t`, `int64_t`,
`uint64_t`) on either side, the functions of include/ack/fp.hpp that take a native integer, and the corresponding members and
comparison operators of `fp_element`.
-/
namespace Ack
open Big

/-- A native integer with its type. -/
inductive Native
  | s32 (v : BitVec 32) | u32 (v : BitVec 32) | s64 (v : BitVec 64) | u64 (v : BitVec 64)
deriving DecidableEq, Repr

namespace Native

/-- The mathematical value of a native integer. -/
def toInt : Native → Int
  | s32 v => v.toInt | u32 v => v.toNat | s64 v => v.toInt | u64 v => v.toNat

/-- Conversion by the constructors of `bigint`, bigint.hpp:1126-1160. -/
def toBig (cap : Cap) : Native → Res Big
  | s32 v => .ok (ofInt32 v) | u32 v => .ok (ofWord v) | s64 v => ofInt64 cap v | u64 v => ofU64 cap v

end Native

/-- The six comparison operators. -/
inductive Cmp
  | eq | ne | lt | le | gt | ge
deriving DecidableEq, Repr

namespace Big

/-- The sign computed by `compares1`, `compareu1` or `compare` in the operators of bigint.hpp:2453-2511. -/
def cmpNative (cap : Cap) (x : Big) : Native → Res Int
  | .s32 y => .ok (compares1 x y)
  | .u32 y => .ok (compareu1 x y)
  | .s64 y => do .ok (compare x (← ofInt64 cap y))
  | .u64 y => do .ok (compare x (← ofU64 cap y))

/-- `bigint op native`, bigint.hpp:2453-2456, 2463-2466, 2473-2476, 2483-2486, 2493-2496, 2503-2506: `!=` negates `==`, `<=`
negates `>`, `>=` negates `<`. -/
def cmpR (cap : Cap) (o : Cmp) (x : Big) (n : Native) : Res Bool := do
  let s ← cmpNative cap x n
  .ok (match o with
    | .eq => s == 0 | .ne => !(s == 0) | .lt => decide (s < 0) | .le => !decide (s > 0) | .gt => decide (s > 0) | .ge => !decide (s < 0))

/-- `native op bigint`, bigint.hpp:2458-2461, 2468-2471, 2478-2481, 2488-2491, 2498-2501, 2508-2511: the operands of the
comparison are exchanged. -/
def cmpL (cap : Cap) (o : Cmp) (n : Native) (x : Big) : Res Bool := do
  let s ← cmpNative cap x n
  .ok (match o with
    | .eq => s == 0 | .ne => !(s == 0) | .lt => decide (s > 0) | .le => !decide (s < 0) | .gt => decide (s < 0) | .ge => !decide (s > 0))

/-- `bigint op bigint`, bigint.hpp:2457, 2467, 2477, 2487, 2497, 2507. -/
def cmpB (o : Cmp) (x y : Big) : Bool :=
  match o with
  | .eq => opEq x y | .ne => opNe x y | .lt => opLt x y | .le => opLe x y | .gt => opGt x y | .ge => opGe x y

/-- `bigint + native`, bigint.hpp:2513-2516; `+=` 2519-2522. -/
def addN (cap : Cap) (x : Big) : Native → Res Big
  | .s32 y => .ok (adds1 cap x y) | .u32 y => .ok (addu1 cap x y) | .s64 y => addS64 cap x y | .u64 y => addU64 cap x y

/-- `bigint - native`, bigint.hpp:2525-2528; `-=` 2531-2534. -/
def subN' (cap : Cap) (x : Big) : Native → Res Big
  | .s32 y => .ok (subs1 cap x y) | .u32 y => .ok (subu1 cap x y) | .s64 y => subS64 cap x y | .u64 y => subU64 cap x y

/-- `bigint * native`, bigint.hpp:2539-2542. -/
def mulN (cap : Cap) (x : Big) : Native → Res Big
  | .s32 y => .ok (muls1 cap x y) | .u32 y => .ok (mulu1 cap x y) | .s64 y => mulS64 cap x y | .u64 y => mulU64 cap x y

end Big

namespace Fp

/-- `fp_is_valid(IntA, bigint)`, fp.hpp:15-19, 186-190: `a >= 0` on the native type, `a < p` by the mirrored operator. -/
def isValidN (cap : Cap) (a : Native) (p : Big) : Res Bool :=
  if 0 ≤ a.toInt then cmpL cap .lt a p else .ok false

/-- `fp_neg(IntA, bigint)`, fp.hpp:21-28, 226-230: zero is converted, otherwise `p - a`. -/
def negN (cap : Cap) (a : Native) (p : Big) : Res Big :=
  if a.toInt = 0 then a.toBig cap else subN' cap p a

/-- `fp_add` with a native second operand, fp.hpp:64-72, 285-289. -/
def addN (cap : Cap) (a : Big) (b : Native) (p : Big) : Res Big := do
  let res ← Big.addN cap a b
  .ok (addFin cap res p)

/-- `fp_sub` with a native second operand, fp.hpp:74-82, 329-333. -/
def subN (cap : Cap) (a : Big) (b : Native) (p : Big) : Res Big := do
  let res ← Big.subN' cap a b
  .ok (subFin cap res p)

/-- `fp_mul` with a native second operand, fp.hpp:84-88, 373-377. -/
def mulN (cap : Cap) (a : Big) (b : Native) (p : Big) : Res Big := do
  let res ← Big.mulN cap a b
  mod cap res p

end Fp

namespace Fe

/-- `add(IntU)`, fp.hpp:712-716; `operator+` and `+=` with a native integer, fe.hpp:322-325, 348-351, 582-587. -/
def addN (cap : Cap) (a : Fe) (x : Native) : Res Fe := do
  let p ← a.deref
  .ok ⟨← Fp.addN cap a.v x p, some p⟩

/-- `sub(IntU)`, fp.hpp:746-750; `operator-` and `-=` with a native integer on the right, fe.hpp:385-388, 630-635. -/
def subN (cap : Cap) (a : Fe) (x : Native) : Res Fe := do
  let p ← a.deref
  .ok ⟨← Fp.subN cap a.v x p, some p⟩

/-- `mul(IntU)`, fp.hpp:786-796; `operator*` and `*=` with a native integer, fe.hpp:448-451, 474-477, 672-677. -/
def mulN (cap : Cap) (a : Fe) (x : Native) : Res Fe :=
  if a.v.isOne then do
    let p ← a.deref
    .ok ⟨← x.toBig cap, some p⟩
  else if x.toInt = 1 then .ok a
  else do
    let p ← a.deref
    .ok ⟨← Fp.mulN cap a.v x p, some p⟩

/-- Comparison operators on two elements, fp.hpp:866-869, 903-906, 940-943, 977-980, 1014-1017, 1051-1054: the values. -/
def cmp (o : Cmp) (a b : Fe) : Bool := cmpB o a.v b.v

/-- Comparison operators with a big integer on the right, fp.hpp:878-882, 915-919, 952-956, 989-993, 1026-1030, 1063-1067. -/
def cmpBig (o : Cmp) (a : Fe) (b : Big) : Bool := cmpB o a.v b

/-- Comparison operators with a native integer on the right, fp.hpp:891-895, 928-932, 965-969, 1002-1006, 1039-1043,
1076-1080. -/
def cmpN (cap : Cap) (o : Cmp) (a : Fe) (b : Native) : Res Bool := cmpR cap o a.v b

end Fe
end Ack
