import Verif.Model.Fp
import Verif.Model.KeyMem
/-!
# Printing

Models include/ack/bigint.hpp:1292-1299, fp.hpp:1082-1089 and fe.hpp:735-742.  `eosio::print` and `eosio::printhex` are functions of the
host, modelled by their documentation: the text, and two lower-case hexadecimal digits for every byte.  What is printed is a list of
ASCII characters.
-/
namespace Ack
open Big (Byte)

/-- One hexadecimal digit. -/
def hexChar (n : Nat) : Byte := if n < 10 then BitVec.ofNat 8 (0x30 + n) else BitVec.ofNat 8 (0x57 + n)

/-- `eosio::printhex`. -/
def printHex : List Byte → List Byte
  | [] => []
  | b :: t => hexChar (b.toNat / 16) :: hexChar (b.toNat % 16) :: printHex t

/-- `bigint::print`, bigint.hpp:1292-1299. -/
def Big.print (x : Big) : List Byte :=
  (if x.isNegative then [0x2d] else []) ++ printHex x.toBytes

/-- `fp_element::print`, fp.hpp:1086-1089, and of the base class, fe.hpp:739-742. -/
def Fe.print (a : Fe) : List Byte := a.v.print

/-- `bigint::print` on an object of the program, bigint.hpp:1292-1299. -/
def Mem.BigSt.print (s : Mem.BigSt) (x : Nat) : Res (List Byte) := do
  let d ← s.toBytes x
  let n ← s.isNegative x
  if n then .ok (0x2d :: printHex d) else .ok (printHex d)

end Ack
