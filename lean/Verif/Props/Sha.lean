import Verif.Proof.Sha
import Verif.Model.RsaApi
import Verif.Props.Rsa
/-!
# Properties of SHA-384 and of the PSS entry points (C56, C51)

`Spec.Sha.sha384` is FIPS 180-4 with its constants defined as roots of primes; `Spec.PssValid` is RFC 8017.
-/
namespace Ack.Props
open Ack Ack.Big

/-! ## C56 -/

/-- C56: `sha384` of every message that fits the address space is the FIPS 180-4 digest, computed without undefined
behaviour. -/
theorem C56_sha384 (m : List Byte) (h : m.length < 2 ^ 64) : Sha.sha384 m = .ok (Spec.Sha.sha384 m) :=
  Sha.sha384_spec m h

/-- The digest of "abc" given in FIPS 180-4's examples. -/
def abcDigest : List Byte := [0xcb, 0x00, 0x75, 0x3f, 0x45, 0xa3, 0x5e, 0x8b, 0xb5, 0xa0, 0x3d, 0x69, 0x9a, 0xc6, 0x50, 0x07,
  0x27, 0x2c, 0x32, 0xab, 0x0e, 0xde, 0xd1, 0x63, 0x1a, 0x8b, 0x60, 0x5a, 0x43, 0xff, 0x5b, 0xed, 0x80, 0x86, 0x07, 0x2b,
  0xa1, 0xe7, 0xcc, 0x23, 0x58, 0xba, 0xec, 0xa1, 0x34, 0xc8, 0x25, 0xa7]

/-- The specification computes the published digest, through the theorem. -/
example : Spec.Sha.sha384 [0x61, 0x62, 0x63] = abcDigest := by
  have h := C56_sha384 [0x61, 0x62, 0x63] (by decide)
  have : Sha.sha384 [0x61, 0x62, 0x63] = .ok abcDigest := by decide +kernel
  rw [this] at h
  exact (Except.ok.inj h).symm

/-- C56: the padding of the specification is FIPS 180-4 5.1.2 in bits: `l + 1 + k ≡ 896 mod 1024` with the least `k`, where the
`k` zero bits are the seven of the byte `80` and the zero bytes. -/
theorem C56_padding (m : List Byte) : ∃ z, Spec.Sha.pad m = m ++ [0x80] ++ List.replicate z 0 ++ Spec.Sha.be 16 (8 * m.length) ∧
    (8 * m.length + 1 + (7 + 8 * z)) % 1024 = 896 ∧ ∀ k, (8 * m.length + 1 + k) % 1024 = 896 → 7 + 8 * z ≤ k := by
  refine ⟨_, rfl, ?_, ?_⟩
  · omega
  · intro k hk; omega

example : (Spec.Sha.pad (List.replicate 112 0)).length = 256 ∧ (Spec.Sha.pad (List.replicate 111 0)).length = 128 := by decide +kernel

/-- C56: every digest has 48 bytes, whatever the message. -/
theorem C56_length (m : List Byte) : ∃ d, Sha.sha384 m = .ok d ∧ d.length = 48 := Sha.sha384_total m

/-! ## C49 and C51: the PSS entry points -/

/-- RFC 8017 PSS verification only hashes messages of bounded length. -/
theorem pssValid_congr {H H' : Hash} {hLen sLen B : Nat} {n e mHash sig : List Byte} (h : ∀ x, x.length < B → H x = H' x)
    (h1 : hLen + 4 < B) (h2 : 8 + mHash.length + sLen < B) (hv : Spec.PssValid H hLen sLen n e mHash sig) :
    Spec.PssValid H' hLen sLen n e mHash sig := by
  obtain ⟨a, b, EM, c, d, f, m, Hh, salt, g, i, j, k, l, o, p⟩ := hv
  refine ⟨a, b, EM, c, d, f, m, Hh, salt, g, i, j, k, ?_, o, ?_⟩
  · rw [← l]
    congr 2
    unfold Spec.mgf1
    congr 2
    apply List.map_congr_left
    intro x _
    exact (h _ (by rw [List.length_append, j]; exact h1)).symm
  · rw [← p]
    refine (h _ ?_).symm
    simp only [List.length_append, List.length_replicate, o]
    omega

/-- The same for the variant with the loose range test. -/
theorem pssLoose_congr {H H' : Hash} {hLen sLen B : Nat} {n e mHash sig : List Byte} (h : ∀ x, x.length < B → H x = H' x)
    (h1 : hLen + 4 < B) (h2 : 8 + mHash.length + sLen < B) (hv : Spec.PssLoose H hLen sLen n e mHash sig) :
    Spec.PssLoose H' hLen sLen n e mHash sig := by
  obtain ⟨a, b, EM, c, d, f, m, Hh, salt, g, i, j, k, l, o, p⟩ := hv
  refine ⟨a, b, EM, c, d, f, m, Hh, salt, g, i, j, k, ?_, o, ?_⟩
  · rw [← l]
    congr 2
    unfold Spec.mgf1
    congr 2
    apply List.map_congr_left
    intro x _
    exact (h _ (by rw [List.length_append, j]; exact h1)).symm
  · rw [← p]
    refine (h _ ?_).symm
    simp only [List.length_append, List.length_replicate, o]
    omega

theorem sha384Hash_spec (m : List Byte) (h : m.length < 2 ^ 64) : sha384Hash m = Spec.Sha.sha384 m := by
  rw [sha384Hash, C56_sha384 m h]

theorem sha384Hash_length (m : List Byte) : (sha384Hash m).length = 48 := by
  obtain ⟨d, h1, h2⟩ := C56_length m
  rw [sha384Hash, h1]; exact h2

/-- C49 for `verify_rsa_pss_sha384`: it accepts exactly the signatures RFC 8017 accepts with FIPS 180-4 SHA-384, with nothing
left abstract but the modular exponentiation.  As in `C49_pss_partial` the top bit of the modulus is set. -/
theorem C49_pss_sha384_partial (W : Nat) (me : ModExp) (n e digest sig : List Byte) (saltLen : Option (BitVec 32))
    (hn : ∃ b ∈ n.head?, 128 ≤ b.toNat) (hme : ModExpAt me n e) (he : e ≠ []) (he64 : beVal e < 2 ^ 64)
    (hd : digest.length = 48) (hW : 8 + 48 + (saltLen.map BitVec.toNat).getD 48 < 2 ^ W) (hW64 : W ≤ 64) :
    ∃ b, verifyRsaPssSha384 W me n e saltLen digest sig = .ok b ∧
      (b = true ↔ Spec.PssValid Spec.Sha.sha384 48 ((saltLen.map BitVec.toNat).getD 48) n e digest sig) := by
  obtain ⟨b, h1, h2⟩ := C49_pss_partial W me sha384Hash 48 n e digest sig saltLen hn hme he he64 sha384Hash_length
    (by decide) hd hW
  have hB : 8 + 48 + (saltLen.map BitVec.toNat).getD 48 < 2 ^ 64 :=
    lt_of_lt_of_le hW (Nat.pow_le_pow_right (by decide) hW64)
  refine ⟨b, h1, h2.trans ⟨fun h => ?_, fun h => ?_⟩⟩
  · exact pssValid_congr (B := 2 ^ 64) (fun x hx => sha384Hash_spec x hx) (by decide) (by rw [hd]; exact hB) h
  · exact pssValid_congr (B := 2 ^ 64) (fun x hx => (sha384Hash_spec x hx).symm) (by decide) (by rw [hd]; exact hB) h

/-- C49 for the entry points on host hashes: `verify_rsa_pss_sha1`, `_sha256` and `_sha512` apply RFC 8017 with the host's
function of the same name and its digest length. -/
theorem C49_pss_host_partial (W : Nat) (me : ModExp) (host : HostHash) (n e sig : List Byte) (saltLen : Option (BitVec 32))
    (hn : ∃ b ∈ n.head?, 128 ≤ b.toNat) (hme : ModExpAt me n e) (he : e ≠ []) (he64 : beVal e < 2 ^ 64)
    (l1 : ∀ x, (host.sha1 x).length = 20) (l2 : ∀ x, (host.sha256 x).length = 32) (l3 : ∀ x, (host.sha512 x).length = 64)
    (hW : 8 + 64 + (saltLen.map BitVec.toNat).getD 64 < 2 ^ W) :
    (∀ d : List Byte, d.length = 20 → ∃ b, verifyRsaPssSha1 W me host n e saltLen d sig = .ok b ∧
      (b = true ↔ Spec.PssValid host.sha1 20 ((saltLen.map BitVec.toNat).getD 20) n e d sig)) ∧
    (∀ d : List Byte, d.length = 32 → ∃ b, verifyRsaPssSha256 W me host n e saltLen d sig = .ok b ∧
      (b = true ↔ Spec.PssValid host.sha256 32 ((saltLen.map BitVec.toNat).getD 32) n e d sig)) ∧
    (∀ d : List Byte, d.length = 64 → ∃ b, verifyRsaPssSha512 W me host n e saltLen d sig = .ok b ∧
      (b = true ↔ Spec.PssValid host.sha512 64 ((saltLen.map BitVec.toNat).getD 64) n e d sig)) := by
  have w : ∀ k, k ≤ 64 → 8 + k + (saltLen.map BitVec.toNat).getD k < 2 ^ W := by
    intro k hk
    cases saltLen with
    | none => simp only [Option.map_none, Option.getD_none] at hW ⊢; omega
    | some s => simp only [Option.map_some, Option.getD_some] at hW ⊢; omega
  exact ⟨fun d hd => C49_pss_partial W me _ 20 n e d sig saltLen hn hme he he64 l1 (by decide) hd (w 20 (by decide)),
    fun d hd => C49_pss_partial W me _ 32 n e d sig saltLen hn hme he he64 l2 (by decide) hd (w 32 (by decide)),
    fun d hd => C49_pss_partial W me _ 64 n e d sig saltLen hn hme he he64 l3 (by decide) hd (w 64 (by decide))⟩

/-- A modulus of 816 bits. -/
def pssN : List Byte := [0xb8, 0x9d, 0x84, 0x62, 0x25, 0x02, 0x1c, 0x8a, 0x25, 0x48, 0x9f, 0xe3, 0xaf, 0xb4, 0xfb,
  0xf4, 0x45, 0xb4, 0xea, 0x40, 0xc7, 0x37, 0xd3, 0x1e, 0x71, 0xb8, 0x59, 0x06, 0xcd, 0x28, 0x69, 0xb5, 0x02, 0xf0,
  0x96, 0x10, 0xa5, 0xbd, 0x5c, 0x36, 0x2d, 0x8a, 0x08, 0x70, 0x00, 0x60, 0xc6, 0x97, 0xc7, 0xc4, 0x5b, 0xfa, 0x52,
  0x10, 0x54, 0x5e, 0x9d, 0xb6, 0x06, 0xcb, 0x81, 0x22, 0x2f, 0x16, 0xa1, 0x51, 0x8c, 0x78, 0x30, 0xb8, 0x65, 0x32,
  0x8f, 0xc0, 0x16, 0x80, 0x98, 0x95, 0xdf, 0xb4, 0xc9, 0x11, 0x14, 0x79, 0x2e, 0x21, 0x46, 0xc0, 0x83, 0xa3, 0x8a,
  0x5b, 0xe5, 0xae, 0x31, 0x7a, 0x3b, 0x9a, 0xef, 0xea, 0x85, 0xf5]
/-- A signature of the digest 01 02 … 30 under `pssN` with exponent 3 and a salt of four bytes, made by an independent program. -/
def pssS : List Byte := [0xb4, 0x1f, 0x97, 0x8f, 0xb4, 0x00, 0x72, 0x65, 0x58, 0x4c, 0x65, 0xaa, 0xac, 0xf4, 0xdf,
  0x44, 0xb7, 0x39, 0x3d, 0xe1, 0xa6, 0x29, 0xc1, 0x2c, 0x55, 0xe3, 0x88, 0xa2, 0x6f, 0x0a, 0x45, 0x62, 0x9d, 0x25,
  0x85, 0xf3, 0x09, 0xe9, 0x21, 0xb7, 0xe7, 0xf9, 0xcd, 0x93, 0x63, 0x3b, 0x4f, 0x9b, 0x8e, 0xf8, 0xfc, 0x90, 0xc3,
  0x71, 0xaa, 0x67, 0x73, 0xab, 0x64, 0xc8, 0xde, 0xaf, 0x6e, 0xf1, 0xc0, 0xf0, 0x71, 0x60, 0xe5, 0x62, 0x17, 0x55,
  0xc5, 0x71, 0xc1, 0xef, 0xde, 0xe8, 0xf6, 0x2d, 0x41, 0xb9, 0x0e, 0x54, 0x2f, 0x90, 0x42, 0x6e, 0xb8, 0xa4, 0xa9,
  0x23, 0x81, 0x84, 0x5c, 0x5f, 0x89, 0x02, 0xe8, 0x4c, 0x31, 0x83]
def pssD : List Byte := (List.range 48).map fun i => BitVec.ofNat 8 (i + 1)

theorem pssS_accepted : verifyRsaPssSha384 32 hostModExp pssN [3] (some 4) pssD pssS = .ok true := by decide +kernel

example : Spec.PssValid Spec.Sha.sha384 48 4 pssN [3] pssD pssS := by
  obtain ⟨b, h1, h2⟩ := C49_pss_sha384_partial 32 hostModExp pssN [3] pssD pssS (some 4) ⟨_, rfl, by decide⟩ (C47_host _ _)
    (by decide) (by decide) (by decide) (by decide) (by decide)
  rw [pssS_accepted] at h1; cases h1
  exact h2.1 rfl

/-- The PSS entry points. -/
inductive PssAlg | sha1 | sha256 | sha384 | sha512

def PssAlg.verify (W : Nat) (me : ModExp) (host : HostHash) : PssAlg → List Byte → List Byte → Option (BitVec 32) → List Byte → List Byte → Res Bool
  | .sha1 => verifyRsaPssSha1 W me host
  | .sha256 => verifyRsaPssSha256 W me host
  | .sha384 => verifyRsaPssSha384 W me
  | .sha512 => verifyRsaPssSha512 W me host

def PssAlg.assert (W : Nat) (me : ModExp) (host : HostHash) : PssAlg → List Byte → List Byte → Option (BitVec 32) → List Byte → List Byte → Res Unit
  | .sha1 => assertRsaPssSha1 W me host
  | .sha256 => assertRsaPssSha256 W me host
  | .sha384 => assertRsaPssSha384 W me
  | .sha512 => assertRsaPssSha512 W me host

/-- C51: each asserting PSS function returns normally exactly when the matching verification returns true, and aborts when
it returns false. -/
theorem C51_assert_pss (alg : PssAlg) (W : Nat) (me : ModExp) (host : HostHash) (n e digest sig : List Byte)
    (saltLen : Option (BitVec 32)) :
    (alg.assert W me host n e saltLen digest sig = .ok () ↔ alg.verify W me host n e saltLen digest sig = .ok true) ∧
    (alg.verify W me host n e saltLen digest sig = .ok false → alg.assert W me host n e saltLen digest sig = .error .abort) := by
  cases alg <;> exact assert_iff _

example : assertRsaPssSha384 32 hostModExp pssN [3] (some 4) pssD pssS = .ok () ∧
    assertRsaPssSha384 32 hostModExp pssN [3] (some 5) pssD pssS = .error .abort := by decide +kernel

end Ack.Props
