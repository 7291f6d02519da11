import Verif.Model.BigintNT
import Verif.Spec.Val
/-!
# Specification vocabulary for `bigint`
-/
namespace Ack
namespace Big

/-- The integer a bigint denotes: sign and magnitude. -/
def toInt (x : Big) : Int := if x.neg then -(val x.ws : Int) else (val x.ws : Int)

/-- Canonical form: at least one word, and no superfluous zero word on top. -/
def Canon (x : Big) : Prop := x.ws ≠ [] ∧ (1 < x.ws.length → x.ws.getLastD 0 ≠ 0)

instance (x : Big) : Decidable x.Canon := by unfold Canon; infer_instance

/-- The stored words fit the buffer. -/
def Fits (cap : Cap) (x : Big) : Prop := ∀ N, cap = some N → x.ws.length ≤ N

end Big
end Ack
