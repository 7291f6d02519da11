import Mathlib.Tactic.NormNum.Prime
import Verif.Proof.RsaHonest
import Verif.Proof.Certs.Secp256r1
import Verif.Proof.Certs.Secp256k1
/-!
# Properties of RSA signature verification (C46-C51, C65, C68, C69)

`ModExpAt me n e` says that the modular exponentiation in use (host intrinsic or software) is exact for the key; it holds
for the documented host function at every key (`C47_host`) and for the software routine under the conditions of C52.
`Spec.Pkcs1Valid` and `Spec.PssValid` are RFC 8017.
-/
namespace Ack.Props
open Ack Ack.Big

/-! ## Concrete keys (public exponent 3) -/

/-- A modulus of 46 bytes. -/
def rsaN : List Byte := [0x9f, 0x71, 0xd1, 0x43, 0x09, 0x9f, 0xcb, 0xf1, 0x40, 0xf3, 0x4b, 0xf5, 0x63, 0x57, 0xbd, 0xca,
  0x01, 0x08, 0x4e, 0x90, 0x80, 0xb8, 0x4c, 0x06, 0x54, 0x31, 0xf2, 0x30, 0x73, 0x7f, 0x48, 0xda, 0xe6, 0x26, 0x29, 0x85,
  0x12, 0xae, 0x7d, 0x33, 0x64, 0xf9, 0x74, 0x6c, 0x1b, 0x63]
/-- A SHA-1 signature of the digest 01 02 … 14 under `rsaN`. -/
def rsaS : List Byte := [0x55, 0x11, 0x22, 0x98, 0x9c, 0x5e, 0x03, 0x1d, 0xdd, 0xc5, 0x0e, 0xdb, 0x25, 0xe5, 0xb1, 0x6f,
  0x62, 0x0b, 0xf7, 0x58, 0x48, 0xfc, 0x83, 0x22, 0xeb, 0xa1, 0xa8, 0x3c, 0xc1, 0x22, 0xa9, 0x3d, 0x49, 0x62, 0xf5, 0xea,
  0x41, 0x1b, 0x5c, 0xe6, 0xa4, 0xe9, 0x68, 0x82, 0xb4, 0xfc]
def rsaDigest : List Byte := [1, 2, 3, 4, 5, 6, 7, 8, 9, 10, 11, 12, 13, 14, 15, 16, 17, 18, 19, 20]

/-- A modulus written with a leading zero byte. -/
def rsaN0 : List Byte := [0x00, 0xfe, 0xd8, 0x96, 0x2d, 0x8d, 0xa2, 0x86, 0xdf, 0x69, 0x1c, 0x6e, 0x05, 0x78, 0x85, 0x67,
  0xf8, 0x8c, 0x15, 0x43, 0x7a, 0x93, 0x47, 0x5c, 0xe7, 0xbc, 0xcf, 0x73, 0xe9, 0x9d, 0xed, 0xb4, 0x42, 0xed, 0x1c, 0xc3,
  0xbc, 0xec, 0x08, 0xf4, 0x5e, 0x66, 0xfc, 0x9d, 0x0d, 0x9d]
/-- A signature under `rsaN0`, below the modulus. -/
def rsaS0 : List Byte := [0x00, 0x04, 0xa4, 0x88, 0x32, 0x41, 0xa1, 0x5d, 0x25, 0xb7, 0x9c, 0x38, 0xd0, 0x81, 0x4b, 0xf2,
  0xd2, 0x2b, 0x48, 0xe9, 0xc6, 0xa7, 0xae, 0x3f, 0xce, 0x75, 0x97, 0x91, 0xeb, 0x14, 0xc6, 0x5c, 0x29, 0x56, 0x66, 0xd7,
  0xf3, 0xa0, 0x48, 0x89, 0x70, 0x50, 0x7d, 0x2c, 0xe2, 0xce]
/-- `rsaS0` plus three times the modulus. -/
def rsaS1 : List Byte := [0x03, 0x01, 0x2e, 0x4a, 0xba, 0xea, 0x88, 0xf1, 0xc3, 0xf2, 0xf1, 0x82, 0xe0, 0xea, 0xdc, 0x2a,
  0xbb, 0xcf, 0x88, 0xb4, 0x36, 0x61, 0x84, 0x56, 0x85, 0xac, 0x05, 0xed, 0xa7, 0xee, 0x8f, 0x78, 0xf2, 0x1d, 0xbd, 0x23,
  0x2a, 0x64, 0x63, 0x66, 0x8b, 0x85, 0x73, 0x04, 0x0b, 0xa5]

/-- A toy hash function of one byte, to run PSS on small numbers. -/
def toyHash : Hash := fun x => [x.foldl (fun a b => a * 3 + b + 1) 7]

/-! ## C46 -/

/-- C46: for a modulus without leading zero byte, the verification primitive goes on to the exponentiation exactly when
the signature, read as a number, is below the modulus; otherwise it returns the empty string.  Missing from the full
claim: a modulus with leading zero bytes (`C46_wrong`). -/
theorem C46_range_partial (me : ModExp) (n e s : List Byte) (hn : ∃ b ∈ n.head?, b ≠ 0) :
    rsavp1 me n e s = if beVal s < beVal n then powm me s e n else .ok [] := by
  unfold rsavp1
  rw [isSValid_exact hn, ok_bind]
  by_cases h : beVal s < beVal n
  · rw [decide_eq_true h, if_pos h]; rfl
  · rw [decide_eq_false h, if_neg h]; rfl

example : ∃ b ∈ rsaN.head?, b ≠ 0 := ⟨_, rfl, by decide⟩

/-- C46: the exact law for every modulus: the primitive goes on to the exponentiation exactly when the signature is below
the modulus, or zero, or has fewer leading zero bytes than the modulus.  So with `k` leading zero bytes in the modulus
every signature with fewer than `k` of them is let through. -/
theorem C46_exact (me : ModExp) (n e s : List Byte) :
    (Spec.LooseRange n s → rsavp1 me n e s = powm me s e n) ∧ (¬ Spec.LooseRange n s → rsavp1 me n e s = .ok []) := by
  unfold rsavp1
  rw [isSValid_spec, ok_bind]
  constructor
  · intro h
    rw [decide_eq_true (looseRange_iff.2 h)]; rfl
  · intro h
    rw [decide_eq_false (fun h' => h (looseRange_iff.1 h'))]; rfl

/-- Both cases arise. -/
example : Spec.LooseRange rsaN0 rsaS1 := .inr (.inr (by decide))
example : ¬ Spec.LooseRange [0x9f] [0xa0] := by unfold Spec.LooseRange; decide

/-- C46: whatever the modulus, a signature below it is never turned down by the range check. -/
theorem C46_never_rejects (me : ModExp) (n e s : List Byte) (h : beVal s < beVal n) : rsavp1 me n e s = powm me s e n := by
  unfold rsavp1
  rw [isSValid_spec, ok_bind, decide_eq_true (.inr (.inr h))]; rfl

example : beVal rsaS0 < beVal rsaN0 := by decide +kernel

/-- C46: the range check fails for a modulus with a leading zero byte: a signature above the modulus is accepted, with the
same digest and key as the proper one. -/
theorem C46_wrong : beVal rsaN0 ≤ beVal rsaS1 ∧ rsaS1.length = rsaN0.length ∧
    verifyRsaSha1 hostModExp rsaN0 [3] rsaDigest rsaS0 = .ok true ∧
    verifyRsaSha1 hostModExp rsaN0 [3] rsaDigest rsaS1 = .ok true := by decide +kernel

/-! ## C47 -/

/-- C47: for a signature of the length of the modulus and below it, and an exponent of at most 64 bits, the primitive
returns `s^e mod n`, padded to the length of the modulus, given an exact exponentiation. -/
theorem C47_exact (me : ModExp) (n e s : List Byte) (hme : ModExpAt me n e) (he : e ≠ []) (he64 : beVal e < 2 ^ 64)
    (hl : s.length = n.length) (hs : beVal s < beVal n) :
    ∃ out, rsavp1 me n e s = .ok out ∧ out.length = n.length ∧ beVal out = beVal s ^ beVal e % beVal n := by
  rw [C46_never_rejects me n e s hs]
  exact powm_spec hme he he64 hl hs

/-- C47: the documented host function is exact for every key. -/
theorem C47_host (n e : List Byte) : ModExpAt hostModExp n e := hostModExp_at n e

example : ∃ out, rsavp1 hostModExp rsaN [3] rsaS = .ok out ∧ out.length = 46 ∧
    beVal out = beVal rsaS ^ beVal [3] % beVal rsaN :=
  C47_exact hostModExp rsaN [3] rsaS (C47_host _ _) (by decide) (by decide) (by decide) (by decide +kernel)

/-! ## C48 -/

/-- C48: PKCS #1 v1.5 verification returns true exactly when RFC 8017 8.2.2 does: right length, below the modulus, and
the recovered block is `00 01 ff…ff 00 ‖ T` with at least eight `ff`.  `T` is any DigestInfo.  The modulus must not have a
leading zero byte. -/
theorem C48_pkcs1_partial (me : ModExp) (n e sig T : List Byte) (hn : ∃ b ∈ n.head?, b ≠ 0) (hme : ModExpAt me n e)
    (he : e ≠ []) (he64 : beVal e < 2 ^ 64) :
    ∃ b, pkcs1Verify me T.length n e sig (.ok T) = .ok b ∧ (b = true ↔ Spec.Pkcs1Valid n e T sig) :=
  pkcs1Verify_spec hn hme he he64

theorem gen_ok {pfx digest : List Byte} {k : Nat} (h : digest.length = k) :
    genT (pfx.length + k) pfx digest = .ok (pfx ++ digest) ∧ pfx.length + k = (pfx ++ digest).length := by
  unfold genT
  rw [if_pos (by omega)]
  simp [h]

/-- The four hash functions of the PKCS #1 v1.5 interface. -/
inductive PkcsAlg | sha1 | sha256 | sha384 | sha512
deriving DecidableEq

/-- Digest size in bytes. -/
def PkcsAlg.size : PkcsAlg → Nat
  | .sha1 => 20 | .sha256 => 32 | .sha384 => 48 | .sha512 => 64

/-- The DER encoding of DigestInfo without the digest, RFC 8017 9.2 note 1. -/
def PkcsAlg.der : PkcsAlg → Spec.Octets
  | .sha1 => [0x30, 0x21, 0x30, 0x09, 0x06, 0x05, 0x2b, 0x0e, 0x03, 0x02, 0x1a, 0x05, 0x00, 0x04, 0x14]
  | .sha256 => [0x30, 0x31, 0x30, 0x0d, 0x06, 0x09, 0x60, 0x86, 0x48, 0x01, 0x65, 0x03, 0x04, 0x02, 0x01, 0x05, 0x00, 0x04, 0x20]
  | .sha384 => [0x30, 0x41, 0x30, 0x0d, 0x06, 0x09, 0x60, 0x86, 0x48, 0x01, 0x65, 0x03, 0x04, 0x02, 0x02, 0x05, 0x00, 0x04, 0x30]
  | .sha512 => [0x30, 0x51, 0x30, 0x0d, 0x06, 0x09, 0x60, 0x86, 0x48, 0x01, 0x65, 0x03, 0x04, 0x02, 0x03, 0x05, 0x00, 0x04, 0x40]

/-- The interface function of each hash. -/
def PkcsAlg.verify (me : ModExp) : PkcsAlg → (n e digest sig : List Byte) → Res Bool
  | .sha1 => verifyRsaSha1 me | .sha256 => verifyRsaSha256 me | .sha384 => verifyRsaSha384 me | .sha512 => verifyRsaSha512 me

/-- The asserting function of each hash. -/
def PkcsAlg.assert (me : ModExp) : PkcsAlg → (n e digest sig : List Byte) → Res Unit
  | .sha1 => assertRsaSha1 me | .sha256 => assertRsaSha256 me | .sha384 => assertRsaSha384 me | .sha512 => assertRsaSha512 me

/-- Each interface function is the generic routine at its own DigestInfo. -/
theorem verify_eq (alg : PkcsAlg) (me : ModExp) (n e digest sig : List Byte) (hd : digest.length = alg.size) :
    alg.verify me n e digest sig =
      pkcs1Verify me (alg.der ++ digest).length n e sig (.ok (alg.der ++ digest)) := by
  cases alg
  · unfold PkcsAlg.verify verifyRsaSha1
    dsimp only
    obtain ⟨g, l⟩ := gen_ok (pfx := sha1Prefix) hd
    simp only [PkcsAlg.size] at g l
    rw [g, l]; rfl
  · unfold PkcsAlg.verify verifyRsaSha256
    dsimp only
    obtain ⟨g, l⟩ := gen_ok (pfx := sha256Prefix) hd
    simp only [PkcsAlg.size] at g l
    rw [g, l]; rfl
  · unfold PkcsAlg.verify verifyRsaSha384
    dsimp only
    obtain ⟨g, l⟩ := gen_ok (pfx := sha384Prefix) hd
    simp only [PkcsAlg.size] at g l
    rw [g, l]; rfl
  · unfold PkcsAlg.verify verifyRsaSha512
    dsimp only
    obtain ⟨g, l⟩ := gen_ok (pfx := sha512Prefix) hd
    simp only [PkcsAlg.size] at g l
    rw [g, l]; rfl

/-- C48: each of `verify_rsa_sha1`, `verify_rsa_sha256`, `verify_rsa_sha384`, `verify_rsa_sha512` accepts exactly the
RFC 8017 signatures of the digest under its own DigestInfo. -/
theorem C48_api_partial (alg : PkcsAlg) (me : ModExp) (n e digest sig : List Byte) (hd : digest.length = alg.size)
    (hn : ∃ b ∈ n.head?, b ≠ 0) (hme : ModExpAt me n e) (he : e ≠ []) (he64 : beVal e < 2 ^ 64) :
    ∃ b, alg.verify me n e digest sig = .ok b ∧ (b = true ↔ Spec.Pkcs1Valid n e (alg.der ++ digest) sig) := by
  rw [verify_eq alg me n e digest sig hd]
  exact pkcs1Verify_spec hn hme he he64

/-- C48: the exact law for every modulus other than zero, leading zero bytes or not, given an exponentiation exact for
every base: the interface functions accept exactly the signatures that satisfy RFC 8017 with the range test replaced by
the loose one of C46. -/
theorem C48_exact (alg : PkcsAlg) (me : ModExp) (n e digest sig : List Byte) (hd : digest.length = alg.size)
    (hn : n ≠ []) (hme : ModExpAll me n e) (he : e ≠ []) (he64 : beVal e < 2 ^ 64) :
    ∃ b, alg.verify me n e digest sig = .ok b ∧ (b = true ↔ Spec.Pkcs1Loose n e (alg.der ++ digest) sig) := by
  rw [verify_eq alg me n e digest sig hd]
  exact pkcs1Verify_loose hn hme he he64

/-- C48: the documented host function meets the hypothesis at every modulus other than zero. -/
theorem C48_host_all (n e : List Byte) (hn : beVal n ≠ 0) : ModExpAll hostModExp n e := hostModExp_all e hn

/-- C48: whatever the modulus, the loose range test gives no forgery beyond malleability: for an accepted signature, the
one reduced modulo the modulus is a valid RFC 8017 signature of the same digest. -/
theorem C48_sound (alg : PkcsAlg) (me : ModExp) (n e digest sig red : List Byte) (hd : digest.length = alg.size)
    (hn : beVal n ≠ 0) (hme : ModExpAll me n e) (he : e ≠ []) (he64 : beVal e < 2 ^ 64)
    (hacc : alg.verify me n e digest sig = .ok true) (hrl : red.length = n.length) (hrv : beVal red = beVal sig % beVal n) :
    Spec.Pkcs1Valid n e (alg.der ++ digest) red := by
  have hn' : n ≠ [] := by rintro rfl; exact hn rfl
  obtain ⟨b, h1, h2⟩ := C48_exact alg me n e digest sig hd hn' hme he he64
  rw [hacc] at h1
  obtain rfl : true = b := by simpa using h1
  obtain ⟨_, _, EM, h3, h4⟩ := h2.1 rfl
  refine ⟨hrl, ?_, EM, h3, ?_⟩
  · rw [hrv]; exact Nat.mod_lt _ (by omega)
  · rw [h4, hrv, ← Nat.pow_mod]

/-- The signature of `C46_wrong`, above the modulus, and its reduction. -/
example : Spec.Pkcs1Valid rsaN0 [3] (PkcsAlg.sha1.der ++ rsaDigest) rsaS0 :=
  C48_sound .sha1 hostModExp rsaN0 [3] rsaDigest rsaS1 rsaS0 rfl (by decide +kernel) (C48_host_all _ _ (by decide +kernel))
    (by decide) (by decide) C46_wrong.2.2.2 rfl (by decide +kernel)

/-- A concrete accepted signature, and the same with one digest byte changed. -/
example : PkcsAlg.sha1.verify hostModExp rsaN [3] rsaDigest rsaS = .ok true ∧
    PkcsAlg.sha1.verify hostModExp rsaN [3] (rsaDigest.set 0 0) rsaS = .ok false := by decide +kernel

/-! ## C49 -/

/-- C49: PSS verification returns true exactly when RFC 8017 8.1.2 does, for every hash function, salt length, digest and
signature, when the top bit of the modulus is set (its bit length is a multiple of eight) and the sizes fit `size_t`.
Missing from the full claim: other moduli (`C49_rejects_valid`, `C49_accepts_invalid`) and salt lengths near 2^32 on a
32-bit target (`C49_overflow`). -/
theorem C49_pss_partial (W : Nat) (me : ModExp) (H : Hash) (hLen : Nat) (n e digest sig : List Byte)
    (saltLen : Option (BitVec 32)) (hn : ∃ b ∈ n.head?, 128 ≤ b.toNat) (hme : ModExpAt me n e) (he : e ≠ [])
    (he64 : beVal e < 2 ^ 64) (hH : ∀ x, (H x).length = hLen) (h0 : 0 < hLen) (hd : digest.length = hLen)
    (hW : 8 + hLen + (saltLen.map BitVec.toNat).getD hLen < 2 ^ W) :
    ∃ b, pssVerify W me H hLen n e saltLen digest sig = .ok b ∧
      (b = true ↔ Spec.PssValid H hLen ((saltLen.map BitVec.toNat).getD hLen) n e digest sig) :=
  pssVerify_spec hn hme he he64 hH h0 hd rfl hW

/-- C49: the exact law for every modulus other than zero: PSS verification accepts exactly the signatures consistent in
the sense of RFC 8017 9.1.2 when `emBits` is taken to be `8 * k - 1` for a modulus of `k` bytes, whatever its bit length,
and with the loose range test of C46.  For a modulus with its top bit set
this is RFC 8017 (`C49_pss_partial`); otherwise neither implies the other (below). -/
theorem C49_exact (W : Nat) (me : ModExp) (H : Hash) (hLen : Nat) (n e digest sig : List Byte)
    (saltLen : Option (BitVec 32)) (hn : n ≠ []) (hme : ModExpAll me n e) (he : e ≠ [])
    (he64 : beVal e < 2 ^ 64) (hH : ∀ x, (H x).length = hLen) (h0 : 0 < hLen) (hd : digest.length = hLen)
    (hW : 8 + hLen + (saltLen.map BitVec.toNat).getD hLen < 2 ^ W) :
    ∃ b, pssVerify W me H hLen n e saltLen digest sig = .ok b ∧
      (b = true ↔ Spec.PssLoose H hLen ((saltLen.map BitVec.toNat).getD hLen) n e digest sig) :=
  pssVerify_loose hn hme he he64 hH h0 hd rfl hW

/-- The signature of `C49_accepts_invalid` below, under a modulus whose top bit is clear. -/
example : Spec.PssLoose toyHash 1 2 [120, 145, 97, 57, 76, 17] [3] [0x5a] [4, 76, 8, 136, 165, 138] := by
  obtain ⟨b, h1, h2⟩ := C49_exact 32 hostModExp toyHash 1 [120, 145, 97, 57, 76, 17] [3] [0x5a]
    [4, 76, 8, 136, 165, 138] (some 2) (by decide) (C48_host_all _ _ (by decide +kernel)) (by decide) (by decide)
    (fun _ => rfl) (by decide) rfl (by decide)
  have h3 : pssVerify 32 hostModExp toyHash 1 [120, 145, 97, 57, 76, 17] [3] (some 2) [0x5a] [4, 76, 8, 136, 165, 138] =
      .ok true := by decide +kernel
  rw [h3] at h1
  obtain rfl : true = b := by simpa using h1
  exact h2.1 rfl

/-- A concrete accepted PSS signature, meeting all hypotheses. -/
example : Spec.PssValid toyHash 1 2 [192, 13, 211, 136, 26, 81] [3] [0x5a] [30, 183, 74, 249, 140, 208] := by
  obtain ⟨b, h1, h2⟩ := C49_pss_partial 32 hostModExp toyHash 1 [192, 13, 211, 136, 26, 81] [3] [0x5a]
    [30, 183, 74, 249, 140, 208] (some 2) ⟨_, rfl, by decide⟩ (C47_host _ _) (by decide) (by decide) (fun _ => rfl)
    (by decide) rfl (by decide)
  have : pssVerify 32 hostModExp toyHash 1 [192, 13, 211, 136, 26, 81] [3] (some 2) [0x5a] [30, 183, 74, 249, 140, 208] =
    .ok true := by decide +kernel
  rw [this] at h1; cases h1
  exact h2.1 rfl

/-- C49: with a modulus of 44 bits in six bytes, a valid signature is rejected. -/
theorem C49_rejects_valid :
    Spec.PssValid toyHash 1 2 [12, 97, 171, 240, 202, 105] [3] [0x5a] [7, 157, 167, 121, 88, 78] ∧
    pssVerify 32 hostModExp toyHash 1 [12, 97, 171, 240, 202, 105] [3] (some 2) [0x5a] [7, 157, 167, 121, 88, 78] =
      .ok false := by
  refine ⟨⟨by decide, by decide +kernel, [4, 36, 38, 5, 38, 188], by decide +kernel, by decide +kernel, by decide +kernel,
    [4, 36, 38, 5], [38], [0, 0x22], by decide, by decide +kernel, by decide, ?_, by decide +kernel, by decide, by decide +kernel⟩,
    by decide +kernel⟩
  intro b hb
  simp only [List.head?_cons, Option.mem_some_iff] at hb
  subst hb
  decide +kernel

/-- C49: with a modulus of 47 bits in six bytes, a signature that RFC 8017 calls inconsistent is accepted. -/
theorem C49_accepts_invalid :
    ¬ Spec.PssValid toyHash 1 2 [120, 145, 97, 57, 76, 17] [3] [0x5a] [4, 76, 8, 136, 165, 138] ∧
    pssVerify 32 hostModExp toyHash 1 [120, 145, 97, 57, 76, 17] [3] (some 2) [0x5a] [4, 76, 8, 136, 165, 138] =
      .ok true := by
  refine ⟨?_, by decide +kernel⟩
  rintro ⟨_, _, EM, hl, hv, _, m, h, salt, he, hml, hhl, htop, _⟩
  have h1 : Spec.bitLen (beVal [120, 145, 97, 57, 76, 17]) = 47 := by decide +kernel
  have h2 : beVal [4, 76, 8, 136, 165, 138] ^ beVal [3] % beVal [120, 145, 97, 57, 76, 17] =
    beVal [98, 98, 100, 101, 4, 188] := by decide +kernel
  rw [h2] at hv
  rw [h1] at hl htop
  have : EM = [98, 98, 100, 101, 4, 188] := beVal_inj hl hv
  subst this
  cases m with
  | nil =>
    have := congrArg List.length he
    simp [hhl] at this
  | cons a t =>
    simp only [List.cons_append, List.cons.injEq] at he
    have := htop a rfl
    rw [← he.1] at this
    revert this
    decide

/-- C49: on a 32-bit target a salt length near 2^32 makes the size check wrap around and the function runs into undefined
behaviour. -/
theorem C49_overflow :
    pssVerify 32 hostModExp toyHash 1 [182, 36, 210, 18, 151, 101] [3] (some 0xffffffff) [0x5a] [90, 84, 250, 243, 115, 187] =
      .error .ub := by decide +kernel

/-! ## C50 -/

/-- C50: `mgf1` writes exactly the first `maskLen` bytes of `H(seed ‖ 0) ‖ H(seed ‖ 1) ‖ …`, for every mask length.
(RFC 8017 forbids masks of more than 2^32 blocks; the code then repeats the counter, as `i2osp4` does here.) -/
theorem C50_mgf1 (H : Hash) (hLen : Nat) (hH : ∀ x, (H x).length = hLen) (h0 : 0 < hLen) (seed mask : List Byte) :
    mgf1 H copyBytes seed mask = .ok (Spec.mgf1 H hLen seed mask.length) := by
  rw [mgf1_spec hH h0 copyBytes_is]
  congr 1
  have := spec_mgf1_length hH h0 seed mask.length
  apply List.ext_getElem
  · simp [this]
  · intro i h3 h4; simp

/-- C50: with `memxor` as the copy function, the mask is xored onto the buffer. -/
theorem C50_mgf1_xor (H : Hash) (hLen : Nat) (hH : ∀ x, (H x).length = hLen) (h0 : 0 < hLen) (seed buf : List Byte) :
    mgf1 H memxor seed buf = .ok (List.zipWith (· ^^^ ·) buf (Spec.mgf1 H hLen seed buf.length)) :=
  mgf1_spec hH h0 memxor_is seed buf

example : ∀ x, (toyHash x).length = 1 := fun _ => rfl

/-! ## C51 -/

/-- `check(verify(…))`: succeeds exactly when the verification returns true, aborts exactly when it returns false. -/
theorem assert_iff (r : Res Bool) : ((do check (← r)) = (.ok () : Res Unit) ↔ r = .ok true) ∧
    (r = .ok false → (do check (← r)) = (.error .abort : Res Unit)) := by
  rcases r with x | _ | _
  · refine ⟨⟨fun h => ?_, fun h => ?_⟩, fun h => ?_⟩ <;> cases h
  · refine ⟨⟨fun h => ?_, fun h => ?_⟩, fun _ => rfl⟩ <;> cases h
  · exact ⟨⟨fun _ => rfl, fun _ => rfl⟩, fun h => by cases h⟩

/-- C51: each asserting RSA function returns normally exactly when the matching verification returns true, and aborts
when it returns false. -/
theorem C51_assert_rsa (alg : PkcsAlg) (me : ModExp) (n e digest sig : List Byte) :
    (alg.assert me n e digest sig = .ok () ↔ alg.verify me n e digest sig = .ok true) ∧
    (alg.verify me n e digest sig = .ok false → alg.assert me n e digest sig = .error .abort) := by
  cases alg <;> exact assert_iff _

example : PkcsAlg.sha1.assert hostModExp rsaN [3] rsaDigest rsaS = .ok () ∧
    PkcsAlg.sha1.assert hostModExp rsaN [3] (rsaDigest.set 0 0) rsaS = .error .abort := by decide +kernel

/-! ## C65 -/

theorem rsavp1_ok {me : ModExp} {n e s out : List Byte} (h : rsavp1 me n e s = .ok out) (h0 : out ≠ []) :
    s.length = n.length ∧ n.length ≠ 0 ∧ e ≠ [] ∧ beVal e < 2 ^ 64 := by
  unfold rsavp1 at h
  rw [isSValid_spec, ok_bind] at h
  split at h
  · cases h; exact absurd rfl h0
  · exact powm_ok h

/-- C65: whatever exponentiation is in use, an accepted PKCS #1 v1.5 signature has the length of the modulus, and the
exponent is not empty and below 2^64. -/
theorem C65_pkcs1 (alg : PkcsAlg) (me : ModExp) (n e digest sig : List Byte) (h : alg.verify me n e digest sig = .ok true) :
    sig.length = n.length ∧ n ≠ [] ∧ e ≠ [] ∧ beVal e < 2 ^ 64 := by
  have key : ∀ t g, pkcs1Verify me t n e sig g = .ok true → sig.length = n.length ∧ n ≠ [] ∧ e ≠ [] ∧ beVal e < 2 ^ 64 := by
    intro t g hg
    unfold pkcs1Verify at hg
    split at hg
    · cases hg
    · cases hr : rsavp1 me n e sig with
      | error x => rw [hr] at hg; cases hg
      | ok em =>
        rw [hr, ok_bind] at hg
        split at hg
        · cases hg
        · rename_i hlen
          obtain ⟨a, b, c, d⟩ := rsavp1_ok hr (by rintro rfl; simp at hlen)
          exact ⟨a, fun hn => b (by rw [hn]; rfl), c, d⟩
  cases alg <;> exact key _ _ h

/-- C65: the same for PSS. -/
theorem C65_pss (W : Nat) (me : ModExp) (H : Hash) (hLen : Nat) (n e digest sig : List Byte) (saltLen : Option (BitVec 32))
    (h : pssVerify W me H hLen n e saltLen digest sig = .ok true) :
    sig.length = n.length ∧ n ≠ [] ∧ e ≠ [] ∧ beVal e < 2 ^ 64 := by
  unfold pssVerify at h
  split at h
  · cases h
  · cases hr : rsavp1 me n e sig with
    | error x => rw [hr] at h; cases h
    | ok em =>
      rw [hr, ok_bind] at h
      dsimp only at h
      split at h
      · cases h
      · have hne : em ≠ [] := by
          rintro rfl
          cases h
        obtain ⟨a, b, c, d⟩ := rsavp1_ok hr hne
        exact ⟨a, fun hn => b (by rw [hn]; rfl), c, d⟩

example : PkcsAlg.sha1.verify hostModExp rsaN [0, 0, 0, 0, 0, 0, 0, 0, 3] rsaDigest rsaS = .ok true ∧
    PkcsAlg.sha1.verify hostModExp rsaN [1, 0, 0, 0, 0, 0, 0, 0, 3] rsaDigest rsaS = .error .abort ∧
    PkcsAlg.sha1.verify hostModExp rsaN [3] rsaDigest (0 :: rsaS) = .ok false := by decide +kernel

/-! ## C68: honest signatures -/

/-- C68: a PKCS #1 v1.5 signature made with the private exponent of an RSA key (`n = p q` with distinct primes,
`e d ≡ 1` modulo `p-1` and `q-1`) is accepted, for each hash and every digest. -/
theorem C68_pkcs1_honest (alg : PkcsAlg) (me : ModExp) (n e digest sig EM : List Byte) (p q d : Nat)
    (hd : digest.length = alg.size) (hn : ∃ b ∈ n.head?, b ≠ 0) (hme : ModExpAt me n e) (he : e ≠ []) (he64 : beVal e < 2 ^ 64)
    (hp : p.Prime) (hq : q.Prime) (hpq : p ≠ q) (hN : beVal n = p * q)
    (h1 : ∃ k, beVal e * d = 1 + k * (p - 1)) (h2 : ∃ k, beVal e * d = 1 + k * (q - 1))
    (hE : Spec.IsEmsaPkcs1 (alg.der ++ digest) n.length EM) (hl : sig.length = n.length)
    (hs : beVal sig = beVal EM ^ d % beVal n) : alg.verify me n e digest sig = .ok true := by
  obtain ⟨b, hb, hiff⟩ := C48_api_partial alg me n e digest sig hd hn hme he he64
  rw [hb, hiff.2 (pkcs1_honest hn hp hq hpq hN h1 h2 hE hl hs)]

/-- C68: a PSS signature made with the private exponent is accepted, when the modulus has its top bit set. -/
theorem C68_pss_honest_partial (W : Nat) (me : ModExp) (H : Hash) (hLen : Nat) (n e digest sig EM : List Byte)
    (saltLen : Option (BitVec 32)) (p q d : Nat) (hn : ∃ b ∈ n.head?, 128 ≤ b.toNat) (hme : ModExpAt me n e) (he : e ≠ [])
    (he64 : beVal e < 2 ^ 64) (hH : ∀ x, (H x).length = hLen) (h0 : 0 < hLen) (hd : digest.length = hLen)
    (hW : 8 + hLen + (saltLen.map BitVec.toNat).getD hLen < 2 ^ W)
    (hp : p.Prime) (hq : q.Prime) (hpq : p ≠ q) (hN : beVal n = p * q)
    (h1 : ∃ k, beVal e * d = 1 + k * (p - 1)) (h2 : ∃ k, beVal e * d = 1 + k * (q - 1)) (hEl : EM.length = n.length)
    (hE : Spec.PssConsistent H hLen ((saltLen.map BitVec.toNat).getD hLen) digest EM (8 * n.length - 1))
    (hl : sig.length = n.length) (hs : beVal sig = beVal EM ^ d % beVal n) :
    pssVerify W me H hLen n e saltLen digest sig = .ok true := by
  obtain ⟨b, hb, hiff⟩ := C49_pss_partial W me H hLen n e digest sig saltLen hn hme he he64 hH h0 hd hW
  rw [hb, hiff.2 (pss_honest hn hp hq hpq hN h1 h2 hEl hE hl hs)]

/-- C68, PSS, every modulus: the signature made with the private exponent from an encoded message `EM` of `k` bytes below the
modulus is accepted exactly when `EM` is consistent for `emBits = 8 k - 1`. -/
theorem C68_pss_any (W : Nat) (me : ModExp) (H : Hash) (hLen : Nat) (n e digest sig EM : List Byte)
    (saltLen : Option (BitVec 32)) (p q d : Nat) (hme : ModExpAll me n e) (he : e ≠ [])
    (he64 : beVal e < 2 ^ 64) (hH : ∀ x, (H x).length = hLen) (h0 : 0 < hLen) (hd : digest.length = hLen)
    (hW : 8 + hLen + (saltLen.map BitVec.toNat).getD hLen < 2 ^ W)
    (hp : p.Prime) (hq : q.Prime) (hpq : p ≠ q) (hN : beVal n = p * q)
    (h1 : ∃ k, beVal e * d = 1 + k * (p - 1)) (h2 : ∃ k, beVal e * d = 1 + k * (q - 1)) (hEl : EM.length = n.length)
    (hlt : beVal EM < beVal n) (hl : sig.length = n.length) (hs : beVal sig = beVal EM ^ d % beVal n) :
    ∃ b, pssVerify W me H hLen n e saltLen digest sig = .ok b ∧
      (b = true ↔ Spec.PssConsistent H hLen ((saltLen.map BitVec.toNat).getD hLen) digest EM (8 * n.length - 1)) := by
  have hn : n ≠ [] := by
    rintro rfl
    have h3 := hp.pos; have h4 := hq.pos
    have := Nat.mul_pos h3 h4
    rw [← hN] at this
    simp [beVal] at this
  obtain ⟨b, hb, hiff⟩ := C49_exact W me H hLen n e digest sig saltLen hn hme he he64 hH h0 hd hW
  refine ⟨b, hb, hiff.trans ?_⟩
  have hrt : beVal sig ^ beVal e % beVal n = beVal EM := by
    rw [hs, hN]; exact rsa_roundtrip hp hq hpq h1 h2 (by rw [← hN]; exact hlt)
  constructor
  · rintro ⟨-, -, EM', hl', hv, hc⟩
    rw [hrt] at hv
    rwa [beVal_inj (hl'.trans hEl.symm) hv] at hc
  · intro hc
    exact ⟨hl, Or.inl (by rw [hs]; exact Nat.mod_lt _ (by omega)), EM, hEl, hrt.symm, hc⟩

/-- C68, PSS, for moduli of `8 k - j` bits in `k` bytes, `j ≤ 6`: a signature made as RFC 8017 prescribes (with
`emBits = 8 k - j - 1`) is accepted exactly when the `j` bits below the topmost one of the first byte of the mask are zero.  For
`j = 0` that is always; otherwise it depends on the salt. -/
theorem C68_pss_exact (W : Nat) (me : ModExp) (H : Hash) (hLen : Nat) (n e digest sig EM : List Byte)
    (saltLen : Option (BitVec 32)) (p q d j : Nat) (hme : ModExpAll me n e) (he : e ≠ [])
    (he64 : beVal e < 2 ^ 64) (hH : ∀ x, (H x).length = hLen) (h0 : 0 < hLen) (hd : digest.length = hLen)
    (hW : 8 + hLen + (saltLen.map BitVec.toNat).getD hLen < 2 ^ W)
    (hp : p.Prime) (hq : q.Prime) (hpq : p ≠ q) (hN : beVal n = p * q) (hj : j ≤ 6) (hbits : Spec.bitLen (beVal n) + j = 8 * n.length)
    (h1 : ∃ k, beVal e * d = 1 + k * (p - 1)) (h2 : ∃ k, beVal e * d = 1 + k * (q - 1)) (hEl : EM.length = n.length)
    (hE : Spec.PssConsistent H hLen ((saltLen.map BitVec.toNat).getD hLen) digest EM (Spec.bitLen (beVal n) - 1))
    (hl : sig.length = n.length) (hs : beVal sig = beVal EM ^ d % beVal n) :
    pssVerify W me H hLen n e saltLen digest sig = .ok (((Spec.mgf1 H hLen ((EM.drop (n.length - hLen - 1)).take hLen)
      (n.length - hLen - 1)).head?.all fun b => decide (b.toNat % 128 < 2 ^ (7 - j)))) := by
  have hn0 : beVal n ≠ 0 := by rw [hN]; exact Nat.mul_ne_zero hp.ne_zero hq.ne_zero
  have hbp := Powm.bitLen_pos hn0
  have hk : 1 ≤ n.length := by omega
  have hbe : Spec.bitLen (beVal n) - 1 = 8 * n.length - j - 1 := by omega
  rw [hbe] at hE
  have hlt : beVal EM < beVal n := by
    have hge := Powm.le_bitLen hn0
    rw [hbe] at hge
    refine lt_of_lt_of_le ?_ hge
    obtain ⟨hsz, mdb, Hh, salt, hem, hml, hHl, htop, -⟩ := hE
    rw [show (8 * n.length - j - 1 + 7) / 8 = n.length by omega] at hsz hml htop
    rw [show 8 * n.length - (8 * n.length - j - 1) = j + 1 by omega] at htop
    cases mdb with
    | nil => simp at hml; omega
    | cons x m =>
      have hx := htop x (by simp)
      rw [List.cons_append, List.cons_append] at hem
      generalize m ++ Hh ++ [0xbc] = t at hem
      have ht : t.length + 1 = n.length := by rw [hem] at hEl; simpa using hEl
      have hb := beVal_lt t
      rw [hem, beVal]
      rw [show (256 : Nat) ^ t.length = 2 ^ (8 * t.length) by rw [show (256 : Nat) = 2 ^ 8 from rfl, ← pow_mul]] at hb ⊢
      have h3 := Nat.mul_le_mul_right (2 ^ (8 * t.length)) (show x.toNat + 1 ≤ 2 ^ (8 - (j + 1)) by omega)
      rw [← pow_add, show 8 - (j + 1) + 8 * t.length = 8 * n.length - j - 1 by omega, Nat.add_mul] at h3
      omega
  obtain ⟨b, hb, hiff⟩ := C68_pss_any W me H hLen n e digest sig EM saltLen p q d hme he he64 hH h0 hd hW hp hq hpq hN h1 h2 hEl hlt hl hs
  rw [hb]
  congr 1
  rw [Bool.eq_iff_iff, hiff, pss_wider hk hj hE]
  cases (Spec.mgf1 H hLen ((EM.drop (n.length - hLen - 1)).take hLen) (n.length - hLen - 1)).head? <;> simp

/-- A key of 44 bits in six bytes, `3145739 * 3671021`: of two signatures made as RFC 8017 prescribes, with the salts 00 02 and
00 00, the first is accepted and the second is rejected. -/
theorem C68_pss_wrong :
    (Spec.PssConsistent toyHash 1 2 [0x5a] [4, 4, 6, 5, 6, 188] (Spec.bitLen 11548073929519 - 1) ∧
      pssVerify 32 hostModExp toyHash 1 [10, 128, 190, 216, 43, 47] [3] (some 2) [0x5a] [5, 102, 217, 245, 76, 0] = .ok true) ∧
    (Spec.PssConsistent toyHash 1 2 [0x5a] [2, 98, 100, 101, 4, 188] (Spec.bitLen 11548073929519 - 1) ∧
      pssVerify 32 hostModExp toyHash 1 [10, 128, 190, 216, 43, 47] [3] (some 2) [0x5a] [6, 0, 75, 141, 201, 142] = .ok false) := by
  have hN : beVal [10, 128, 190, 216, 43, 47] = 3145739 * 3671021 := by decide +kernel
  have hc1 : Spec.PssConsistent toyHash 1 2 [0x5a] [4, 4, 6, 5, 6, 188] (Spec.bitLen 11548073929519 - 1) := by
    refine ⟨by decide +kernel, [4, 4, 6, 5], [6], [0, 2], by decide, by decide +kernel, by decide, ?_, by decide +kernel,
      by decide, by decide +kernel⟩
    intro b hb
    simp only [List.head?_cons, Option.mem_some_iff] at hb
    subst hb
    decide +kernel
  have hc2 : Spec.PssConsistent toyHash 1 2 [0x5a] [2, 98, 100, 101, 4, 188] (Spec.bitLen 11548073929519 - 1) := by
    refine ⟨by decide +kernel, [2, 98, 100, 101], [4], [0, 0], by decide, by decide +kernel, by decide, ?_, by decide +kernel,
      by decide, by decide +kernel⟩
    intro b hb
    simp only [List.head?_cons, Option.mem_some_iff] at hb
    subst hb
    decide +kernel
  obtain ⟨d, hd⟩ : ∃ d : Nat, d = 7698711408507 := ⟨_, rfl⟩
  have k1 : ∃ k, beVal [3] * d = 1 + k * (3145739 - 1) := ⟨7342040, by rw [hd]; decide +kernel⟩
  have k2 : ∃ k, beVal [3] * d = 1 + k * (3671021 - 1) := ⟨6291476, by rw [hd]; decide +kernel⟩
  have k3 : ∃ k, d * 3 = 1 + k * (3145739 - 1) := ⟨7342040, by rw [hd]⟩
  have k4 : ∃ k, d * 3 = 1 + k * (3671021 - 1) := ⟨6291476, by rw [hd]⟩
  have h := fun EM sig h1 h2 h3 h4 => C68_pss_exact 32 hostModExp toyHash 1 [10, 128, 190, 216, 43, 47] [3] [0x5a] sig EM (some 2)
    3145739 3671021 d 4 (C48_host_all _ _ (by decide +kernel)) (by decide) (by decide) (fun _ => rfl) (by decide) rfl
    (by decide) (by norm_num) (by norm_num) (by decide) hN (by decide) (by decide +kernel) k1 k2 h1 h2 h3 h4
  have hs : ∀ EM sig : List Byte, beVal sig < 3145739 * 3671021 → beVal sig ^ 3 % (3145739 * 3671021) = beVal EM →
      beVal sig = beVal EM ^ d % beVal [10, 128, 190, 216, 43, 47] := by
    intro EM sig h1 h2
    rw [← h2, hN]
    exact (rsa_roundtrip (e := d) (by norm_num) (by norm_num) (by decide) k3 k4 h1).symm
  have s1 := hs [4, 4, 6, 5, 6, 188] [5, 102, 217, 245, 76, 0] (by decide +kernel) (by decide +kernel)
  have s2 := hs [2, 98, 100, 101, 4, 188] [6, 0, 75, 141, 201, 142] (by decide +kernel) (by decide +kernel)
  refine ⟨⟨hc1, ?_⟩, hc2, ?_⟩
  · rw [h [4, 4, 6, 5, 6, 188] [5, 102, 217, 245, 76, 0] rfl hc1 rfl s1]
    decide +kernel
  · rw [h [2, 98, 100, 101, 4, 188] [6, 0, 75, 141, 201, 142] rfl hc2 rfl s2]
    decide +kernel

/-- The product of the group orders of secp256r1 and secp256k1, as an RSA modulus. -/
def rsaN2 : List Byte := [0xff, 0xff, 0xff, 0xff, 0x00, 0x00, 0x00, 0x00, 0xff, 0xff, 0xff, 0xff, 0xff, 0xff, 0xff, 0xfe,
  0x77, 0x95, 0xd7, 0x95, 0x9b, 0xb1, 0x61, 0xd8, 0xbe, 0xf2, 0x65, 0xfa, 0xbc, 0x0f, 0xa8, 0x41, 0x44, 0xe0, 0x25, 0x2b,
  0x18, 0x77, 0x0f, 0x61, 0xc5, 0x23, 0x61, 0x28, 0xfd, 0xba, 0x33, 0x09, 0xa4, 0xd4, 0xba, 0x08, 0x32, 0x95, 0x16, 0xb8,
  0xba, 0x37, 0xef, 0x1e, 0xf0, 0xbc, 0x0a, 0x91]
def rsaP : Nat := 0xffffffff00000000ffffffffffffffffbce6faada7179e84f3b9cac2fc632551
def rsaQ : Nat := 0xfffffffffffffffffffffffffffffffebaaedce6af48a03bbfd25e8cd0364141
def rsaD : Nat := 223463465447014142499747858185330929802918752929571720857058090288594611535548831283637197323799575282514983485255081571998199299908904112027895620211661
/-- An encoded message for SHA-256. -/
def rsaEM (digest : List Byte) : List Byte := [0x00, 0x01] ++ List.replicate 10 0xff ++ [0x00] ++ (PkcsAlg.sha256.der ++ digest)

/-- Non-vacuity of C68: a 512-bit key, every digest. -/
example (digest : List Byte) (hd : digest.length = 32) :
    verifyRsaSha256 hostModExp rsaN2 [5] digest (encodeBE 64 (beVal (rsaEM digest) ^ rsaD % beVal rsaN2)) = .ok true := by
  refine C68_pkcs1_honest .sha256 hostModExp rsaN2 [5] digest _ (rsaEM digest) rsaP rsaQ rsaD hd ⟨_, rfl, by decide⟩
    (C47_host _ _) (by decide) (by decide) Certs.secp256r1.np Certs.secp256k1.np (by decide +kernel) (by decide +kernel)
    ⟨9649340769776349618630915417390658987736463689922908698550430261793180124528, by decide +kernel⟩ ⟨9649340767529687396891453912450631127499746268677980028535188255089042670364, by decide +kernel⟩ ⟨10, by decide, rfl, ?_⟩ (encodeBE_length _ _) ?_
  · simp [rsaEM, PkcsAlg.der, hd, rsaN2]
  · rw [encodeBE_val]
    apply Nat.mod_eq_of_lt
    have h3 : beVal rsaN2 < 256 ^ 64 := beVal_lt rsaN2
    have h4 : beVal (rsaEM digest) ^ rsaD % beVal rsaN2 < beVal rsaN2 := Nat.mod_lt _ (by decide +kernel)
    omega

/-! ## C69: a signature is bound to one digest -/

/-- C69: under one key, one signature is accepted for at most one hash function and one digest. -/
theorem C69_pkcs1_binding (a b : PkcsAlg) (me : ModExp) (n e d1 d2 sig : List Byte) (h1 : d1.length = a.size)
    (h2 : d2.length = b.size) (hn : ∃ b ∈ n.head?, b ≠ 0) (hme : ModExpAt me n e) (he : e ≠ []) (he64 : beVal e < 2 ^ 64)
    (v1 : a.verify me n e d1 sig = .ok true) (v2 : b.verify me n e d2 sig = .ok true) : a = b ∧ d1 = d2 := by
  obtain ⟨x, hx, ix⟩ := C48_api_partial a me n e d1 sig h1 hn hme he he64
  obtain ⟨y, hy, iy⟩ := C48_api_partial b me n e d2 sig h2 hn hme he he64
  rw [v1] at hx; cases hx
  rw [v2] at hy; cases hy
  obtain ⟨_, _, E1, i1, w1⟩ := ix.1 rfl
  obtain ⟨_, _, E2, i2, w2⟩ := iy.1 rfl
  have hE : E1 = E2 := beVal_inj (by rw [i1.choose_spec.2.2, i2.choose_spec.2.2]) (by omega)
  subst hE
  have hT := emsa_inj i1 i2
  have hd : a = b := by
    cases a <;> cases b <;> first | rfl | (simp [PkcsAlg.der] at hT)
  subst hd
  exact ⟨rfl, (List.append_cancel_left hT)⟩

/-- C69: a PSS signature accepted for two digests exhibits a collision of the hash function. -/
theorem C69_pss_binding (W : Nat) (me : ModExp) (H : Hash) (hLen : Nat) (n e d1 d2 sig : List Byte)
    (saltLen : Option (BitVec 32)) (hn : ∃ b ∈ n.head?, 128 ≤ b.toNat) (hme : ModExpAt me n e) (he : e ≠ [])
    (he64 : beVal e < 2 ^ 64) (hH : ∀ x, (H x).length = hLen) (h0 : 0 < hLen) (l1 : d1.length = hLen) (l2 : d2.length = hLen)
    (hW : 8 + hLen + (saltLen.map BitVec.toNat).getD hLen < 2 ^ W)
    (v1 : pssVerify W me H hLen n e saltLen d1 sig = .ok true) (v2 : pssVerify W me H hLen n e saltLen d2 sig = .ok true) :
    ∃ salt : List Byte, salt.length = (saltLen.map BitVec.toNat).getD hLen ∧
      H (List.replicate 8 0x00 ++ d1 ++ salt) = H (List.replicate 8 0x00 ++ d2 ++ salt) := by
  obtain ⟨x, hx, ix⟩ := C49_pss_partial W me H hLen n e d1 sig saltLen hn hme he he64 hH h0 l1 hW
  obtain ⟨y, hy, iy⟩ := C49_pss_partial W me H hLen n e d2 sig saltLen hn hme he he64 hH h0 l2 hW
  rw [v1] at hx; cases hx
  rw [v2] at hy; cases hy
  exact pss_binding (ix.1 rfl) (iy.1 rfl)

end Ack.Props
