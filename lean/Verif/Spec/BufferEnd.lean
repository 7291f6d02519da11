import Verif.Model.BufferEnd
/-!
# What is in use on the heap, and which histories clear buffers before they end
-/
namespace Ack.Mem.Spec
open Ack.Mem

/-- A block that came from `new[]` and was not given back. -/
def InUse (h : Heap) (b : Nat) : Prop := h.len b ≠ none ∧ h.dyn b = true

/-- The largest size asked for is at most `M`. -/
def Asks (M : Nat) (ops : List Op) : Prop := ∀ i n, Op.resize i n ∈ ops → n ≤ M

/-- Histories in which every object is cleared just before it ends. -/
inductive Tidy : List EOp → Prop
  | nil : Tidy []
  | call {t} (op : Op) (h : Tidy t) : Tidy (t ++ [.call op])
  | fin {t} (i : Nat) (h : Tidy t) : Tidy (t ++ [.call (.clear i), .fin i])

end Ack.Mem.Spec
