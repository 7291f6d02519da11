import Verif.Model.AliasOps
/-!
# Statements on big integers whose code has no local object with a block of its own
-/
namespace Ack.Mem.Spec
open Ack.Mem

/-- All statements but the quotient, whose code has a local remainder (bigint.hpp:1868), and `swap` only of objects that exist. -/
def NoLocal (s : BigSt) : Stmt → Prop
  | .div .. => False
  | .swap x y => x < s.mem.objs.length ∧ y < s.mem.objs.length
  | _ => True

end Ack.Mem.Spec
