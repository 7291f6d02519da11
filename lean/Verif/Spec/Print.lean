import Verif.Spec.Hex
/-!
# Specification: integers in hexadecimal
-/
namespace Ack.Spec

/-- The integer a text denotes: hexadecimal digits, after a minus sign or not.  The empty text denotes none. -/
def hexInt : List (BitVec 8) → Option Int
  | [] => none
  | c :: t => if c = 0x2d then (if t = [] then none else (hexNum t).map fun v => - (v : Int)) else (hexNum (c :: t)).map fun v => (v : Int)

/-- Texts made of a sign, for negative numbers only, and lower-case digits, two for each of as few bytes as possible. -/
def Tidy (v : Int) (s : List (BitVec 8)) : Prop :=
  ∃ d : List (BitVec 8), s = (if v < 0 then [0x2d] else []) ++ hexText false d ∧ beVal d = v.natAbs ∧ d ≠ [] ∧ (d.length = 1 ∨ d.headD 0 ≠ 0)

end Ack.Spec
