import Verif.Model.Fp
import Verif.Spec.Big
import Mathlib.Data.ZMod.Basic
/-!
# Vocabulary for statements about prime-field elements

Independent of the field code: only `Big.toInt`, `Big.Canon` (Spec/Big.lean) and Mathlib's `ZMod`.
-/
namespace Ack
open Big

/-- The capacity holds twice the words of `p`, enough for a product of two residues
(`ec_fixed_bigint`, ec.hpp:15, has exactly that capacity; growable storage always has room). -/
def Room (cap : Cap) (p : Big) : Prop := cap.fits (2 * p.ws.length) = true

instance (cap : Cap) (p : Big) : Decidable (Room cap p) := inferInstanceAs (Decidable (_ = true))

/-- `a` is stored canonically and lies in `[0, p)`. -/
structure Elt (p a : Big) : Prop where
  c : a.Canon
  nn : 0 ≤ a.toInt
  lt : a.toInt < p.toInt

/-- The residue class of a stored integer. -/
def res (P : ℕ) (x : Big) : ZMod P := ((x.toInt : ℤ) : ZMod P)

/-- The field element `a` (with modulus pointer to `p`) stores the canonical representative of `x`. -/
structure Rep (P : ℕ) (p : Big) (a : Fe) (x : ZMod P) : Prop where
  pm : a.pm = some p
  elt : Elt p a.v
  val : res P a.v = x

/-- `p` is a stored modulus of value `P`, and the capacity suffices for it. -/
structure Mod (cap : Cap) (p : Big) (P : ℕ) : Prop where
  room : Room cap p
  canon : p.Canon
  eq : p.toInt = P
  gt : 1 < P

end Ack
