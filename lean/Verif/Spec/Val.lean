import Verif.Model.Words
/-!
# Specification vocabulary: the number denoted by a word array
-/
namespace Ack

/-- The natural number a little-endian array of 32-bit words denotes. -/
def val : List Word → Nat
  | [] => 0
  | w :: ws => w.toNat + 4294967296 * val ws

end Ack
