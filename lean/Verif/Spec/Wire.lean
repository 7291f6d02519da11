import Mathlib.Data.List.Basic
/-!
# The EOSIO wire format of byte strings

Independent of the code: what it means that bytes are the serialisation of given byte strings.
-/
namespace Ack.Spec.Wire

abbrev Byte := BitVec 8

/-- Seven bits per byte, least significant first. -/
def leb : List Byte → ℕ
  | [] => 0
  | b :: t => b.toNat % 128 + 128 * leb t

/-- `L` is a length field that denotes `n`: at most five bytes, of which exactly the last has its top bit clear; 32 bits count. -/
def IsLen (L : List Byte) (n : ℕ) : Prop :=
  ∃ init b, L = init ++ [b] ∧ (∀ x ∈ init, 128 ≤ x.toNat) ∧ b.toNat < 128 ∧ init.length ≤ 4 ∧ leb L % 2 ^ 32 = n

/-- The bytes end within a length field. -/
def Cut (st : List Byte) : Prop := st.length ≤ 5 ∧ ∀ x ∈ st, 128 ≤ x.toNat

/-- A length field of more than five bytes. -/
def NoEnd (st : List Byte) : Prop := 5 < st.length ∧ ∀ x ∈ st.take 5, 128 ≤ x.toNat

/-- A length field that promises more bytes than there are. -/
def TooShort (st : List Byte) : Prop := ∃ L n t, IsLen L n ∧ st = L ++ t ∧ t.length < n

/-- `st` is a serialisation of the byte strings `ds`. -/
inductive Packs : List (List Byte) → List Byte → Prop
  | nil : Packs [] []
  | cons {L d ds st} : IsLen L d.length → Packs ds st → Packs (d :: ds) (L ++ d ++ st)

/-- `o` is a serialisation of an optional number. -/
inductive IsOpt : List Byte → Option (BitVec 32) → Prop
  | none : IsOpt [0] none
  | some {b L v} : b ≠ 0 → IsLen L (BitVec.toNat v) → IsOpt (b :: L) (some v)

end Ack.Spec.Wire
