import Mathlib.Data.Nat.Size
import Mathlib.Data.ZMod.Basic
import Mathlib.Algebra.Group.Even
/-! # How often the loops of the field functions may run -/
namespace Ack.Spec

/-- `fuel` passes are enough for every loop of the functions on the field of order `P`: about two for every bit of `P`; and, if square
roots need a search (`P ≡ 1` mod 4), as many as the least number that is no square says. -/
def Passes (P fuel : ℕ) : Prop := 2 * P.size + 3 ≤ fuel ∧ (P % 4 = 1 → ∃ z : ℕ, z ≤ fuel ∧ ¬ IsSquare (z : ZMod P))

end Ack.Spec
