import Verif.Proof.Keccak
/-!
# Properties of SHA-3 and SHAKE (C57, C58)

`Spec.Keccak` is FIPS 202 on strings of bits; `Spec.Keccak.bits` turns bytes into bits as the standard does (B.1).
-/
namespace Ack.Props
open Ack Ack.Big Ack.Keccak
open Ack.Spec.Keccak (bits)

/-! ## C57 -/

/-- C57: `sha3_256` returns the 32 bytes of FIPS 202 SHA3-256, for every message, without undefined behaviour. -/
theorem C57_sha3_256 (m : List Byte) : ∃ d, sha3_256 m = .ok d ∧ d.length = 32 ∧ bits d = Spec.Keccak.sha3_256 (bits m) :=
  keccak_spec 136 6 [false, true] (by decide) (by decide) (by decide) (by decide) (by decide) (by decide) m (List.replicate 32 0)

/-- C57: `sha3_384` returns the 48 bytes of FIPS 202 SHA3-384. -/
theorem C57_sha3_384 (m : List Byte) : ∃ d, sha3_384 m = .ok d ∧ d.length = 48 ∧ bits d = Spec.Keccak.sha3_384 (bits m) :=
  keccak_spec 104 6 [false, true] (by decide) (by decide) (by decide) (by decide) (by decide) (by decide) m (List.replicate 48 0)

/-- C57: `sha3_512` returns the 64 bytes of FIPS 202 SHA3-512. -/
theorem C57_sha3_512 (m : List Byte) : ∃ d, sha3_512 m = .ok d ∧ d.length = 64 ∧ bits d = Spec.Keccak.sha3_512 (bits m) :=
  keccak_spec 72 6 [false, true] (by decide) (by decide) (by decide) (by decide) (by decide) (by decide) m (List.replicate 64 0)

/-- C57: `shake128` returns the first `len` bytes of FIPS 202 SHAKE128, for every message and every length. -/
theorem C57_shake128 (m : List Byte) (len : Nat) : ∃ d, shake128 m len = .ok d ∧ d.length = len ∧
    bits d = Spec.Keccak.shake128 (bits m) (8 * len) := by
  have h := keccak_spec 168 31 [true, true, true, true] (by decide) (by decide) (by decide) (by decide) (by decide) (by decide) m
    (List.replicate len 0)
  rw [List.length_replicate] at h
  exact h

/-- C57: `shake256` returns the first `len` bytes of FIPS 202 SHAKE256, for every message and every length. -/
theorem C57_shake256 (m : List Byte) (len : Nat) : ∃ d, shake256 m len = .ok d ∧ d.length = len ∧
    bits d = Spec.Keccak.shake256 (bits m) (8 * len) := by
  have h := keccak_spec 136 31 [true, true, true, true] (by decide) (by decide) (by decide) (by decide) (by decide) (by decide) m
    (List.replicate len 0)
  rw [List.length_replicate] at h
  exact h

/-- The digest of "abc" published with FIPS 202. -/
def abcSha3 : List Byte := [0x3a, 0x98, 0x5d, 0xa7, 0x4f, 0xe2, 0x25, 0xb2, 0x04, 0x5c, 0x17, 0x2d, 0x6b, 0xd3, 0x90, 0xbd,
  0x85, 0x5f, 0x08, 0x6e, 0x3e, 0x9d, 0x52, 0x5b, 0x46, 0xbf, 0xe2, 0x45, 0x11, 0x43, 0x15, 0x32]

/-- The specification computes the published digest, through the theorem. -/
example : Spec.Keccak.sha3_256 (bits [0x61, 0x62, 0x63]) = bits abcSha3 := by
  obtain ⟨d, h1, _, h2⟩ := C57_sha3_256 [0x61, 0x62, 0x63]
  have : sha3_256 [0x61, 0x62, 0x63] = .ok abcSha3 := by decide +kernel
  rw [this] at h1
  rw [← h2, Except.ok.inj h1]

example : shake256 [] 5 = .ok [0x46, 0xb9, 0xdd, 0x2b, 0x0b] := by decide +kernel

/-- C57: distinct digests come from distinct bit strings, so the equations above determine the bytes. -/
theorem C57_bits_injective (a b : List Byte) (h : bits a = bits b) : a = b := by
  have hl : a.length = b.length := by
    have := congrArg List.length h
    rw [bits_length, bits_length] at this; omega
  apply List.ext_getElem hl
  intro i h1 h2
  apply BitVec.eq_of_getLsbD_eq
  intro j hj
  have e := bits_get a (8 * i + j) (by omega)
  rw [h, bits_get b (8 * i + j) (by omega), show (8 * i + j) / 8 = i by omega, show (8 * i + j) % 8 = j by omega,
    List.getD_eq_getElem _ _ h1, List.getD_eq_getElem _ _ h2] at e
  exact (Option.some.inj e).symm

example : bits [0x01, 0x80] ≠ bits [0x80, 0x01] := by decide

/-! ## C58 -/

theorem stream_prefix (r : Nat) (p : Byte) (h0 : 0 < r) (hr : r ≤ 200) (m : List Byte) (k l : Nat) (h : k ≤ l) :
    ∃ d, keccak r p m (List.replicate l 0) = .ok d ∧ keccak r p m (List.replicate k 0) = .ok (d.take k) := by
  obtain ⟨o, ho⟩ := keccak_stream r p h0 hr m
  refine ⟨_, ho _, ?_⟩
  rw [ho, ← List.map_take, List.take_range, List.length_replicate, List.length_replicate, Nat.min_eq_left h]

/-- C58: a shorter SHAKE128 output is a prefix of a longer one. -/
theorem C58_shake128 (m : List Byte) (k l : Nat) (h : k ≤ l) : ∃ d, shake128 m l = .ok d ∧ shake128 m k = .ok (d.take k) :=
  stream_prefix _ _ (by decide) (by decide) m k l h

/-- C58: a shorter SHAKE256 output is a prefix of a longer one. -/
theorem C58_shake256 (m : List Byte) (k l : Nat) (h : k ≤ l) : ∃ d, shake256 m l = .ok d ∧ shake256 m k = .ok (d.take k) :=
  stream_prefix _ _ (by decide) (by decide) m k l h

example : shake128 [0x61] 2 = .ok [0x85, 0xc8] ∧ shake128 [0x61] 4 = .ok [0x85, 0xc8, 0xde, 0x88] := by decide +kernel

end Ack.Props
