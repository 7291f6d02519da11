import Verif.Model.Outcome
/-!
# Specification vocabulary: byte strings
-/
namespace Ack

/-- The number a byte string denotes, most significant byte first. -/
def beVal : List (BitVec 8) → Nat
  | [] => 0
  | b :: t => b.toNat * 256 ^ t.length + beVal t

/-- The number a sequence of signed digits denotes, least significant digit first. -/
def digitsVal : List (BitVec 8) → Int
  | [] => 0
  | d :: t => d.toInt + 2 * digitsVal t

/-- No two neighbouring digits are both non-zero. -/
def NonAdjacent : List (BitVec 8) → Prop
  | a :: b :: t => (a = 0 ∨ b = 0) ∧ NonAdjacent (b :: t)
  | _ => True

instance decNonAdjacent : (l : List (BitVec 8)) → Decidable (NonAdjacent l)
  | [] => isTrue trivial
  | [_] => isTrue trivial
  | a :: b :: t => by
    have := decNonAdjacent (b :: t)
    unfold NonAdjacent; infer_instance

end Ack
