import Verif.Spec.Bytes
/-!
# Specification vocabulary: hexadecimal text
-/
namespace Ack

/-- The digits, in ASCII, in order of their value. -/
def hexLower : List (BitVec 8) := [48, 49, 50, 51, 52, 53, 54, 55, 56, 57, 97, 98, 99, 100, 101, 102]
def hexUpper : List (BitVec 8) := [48, 49, 50, 51, 52, 53, 54, 55, 56, 57, 65, 66, 67, 68, 69, 70]

/-- The value of a digit: its place in one of the two lists. -/
def hexDigit (c : BitVec 8) : Option Nat := (hexLower.idxOf? c).or (hexUpper.idxOf? c)

/-- The number a hexadecimal numeral denotes. -/
def hexNum : List (BitVec 8) → Option Nat
  | [] => some 0
  | c :: t => do
    let d ← hexDigit c
    let r ← hexNum t
    some (d * 16 ^ t.length + r)

/-- The text of a byte string, two digits for every byte. -/
def hexText (up : Bool) (d : List (BitVec 8)) : List (BitVec 8) :=
  d.flatMap fun b => [(if up then hexUpper else hexLower).getD (b.toNat / 16) 0, (if up then hexUpper else hexLower).getD (b.toNat % 16) 0]

end Ack
