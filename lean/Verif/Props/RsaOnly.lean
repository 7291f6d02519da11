import Verif.Proof.RsaOnly
import Verif.Props.Contract
/-!
# C103: the RSA signatures that are accepted are those of the private key

C68 says that the signatures made with the private exponent are accepted; here, that no others are: an accepted signature
is the private exponent applied to a correctly encoded digest, and so PKCS #1 v1.5 has one signature for a digest and PSS
at most one for a digest and a salt.
-/
namespace Ack.Props
open Ack Ack.Big

/-- **C103, PKCS #1 v1.5.**  For an RSA key and a modulus without leading zero byte, a signature of a digest is accepted
exactly when it is the private exponent applied to the encoded digest; no other byte string is accepted. -/
theorem C103_pkcs1 (alg : PkcsAlg) (me : ModExp) (n e digest sig EM : List Byte) (p q d : Nat)
    (hd : digest.length = alg.size) (hn : ∃ b ∈ n.head?, b ≠ 0) (hme : ModExpAt me n e) (he : e ≠ []) (he64 : beVal e < 2 ^ 64)
    (hp : p.Prime) (hq : q.Prime) (hpq : p ≠ q) (hN : beVal n = p * q)
    (h1 : ∃ k, beVal e * d = 1 + k * (p - 1)) (h2 : ∃ k, beVal e * d = 1 + k * (q - 1))
    (hE : Spec.IsEmsaPkcs1 (alg.der ++ digest) n.length EM) :
    alg.verify me n e digest sig = .ok true ↔ sig.length = n.length ∧ beVal sig = beVal EM ^ d % beVal n := by
  obtain ⟨b, hb, hiff⟩ := C48_api_partial alg me n e digest sig hd hn hme he he64
  rw [← pkcs1_private hn hp hq hpq hN h1 h2 hE, ← hiff, hb, Except.ok.injEq]

/-- **C103, PKCS #1 v1.5, one signature for a digest.**  Two accepted signatures of a digest are the same byte string. -/
theorem C103_pkcs1_unique (alg : PkcsAlg) (me : ModExp) (n e digest sig sig' : List Byte) (p q d : Nat)
    (hd : digest.length = alg.size) (hn : ∃ b ∈ n.head?, b ≠ 0) (hme : ModExpAt me n e) (he : e ≠ []) (he64 : beVal e < 2 ^ 64)
    (hp : p.Prime) (hq : q.Prime) (hpq : p ≠ q) (hN : beVal n = p * q)
    (h1 : ∃ k, beVal e * d = 1 + k * (p - 1)) (h2 : ∃ k, beVal e * d = 1 + k * (q - 1))
    (h : alg.verify me n e digest sig = .ok true) (h' : alg.verify me n e digest sig' = .ok true) : sig = sig' := by
  obtain ⟨b, hb, hiff⟩ := C48_api_partial alg me n e digest sig hd hn hme he he64
  have hb' := h
  rw [hb] at hb'; cases hb'
  obtain ⟨-, -, EM, hE, -⟩ := hiff.1 rfl
  have a := (C103_pkcs1 alg me n e digest sig EM p q d hd hn hme he he64 hp hq hpq hN h1 h2 hE).1 h
  have a' := (C103_pkcs1 alg me n e digest sig' EM p q d hd hn hme he he64 hp hq hpq hN h1 h2 hE).1 h'
  exact beVal_inj (by rw [a.1, a'.1]) (by rw [a.2, a'.2])

/-- **C103, PKCS #1 v1.5, every modulus.**  With leading zero bytes in the modulus the accepted signatures are congruent to
that of the private key (`C46_wrong` shows two). -/
theorem C103_pkcs1_any (alg : PkcsAlg) (me : ModExp) (n e digest sig : List Byte) (p q d : Nat)
    (hd : digest.length = alg.size) (hme : ModExpAll me n e) (he : e ≠ []) (he64 : beVal e < 2 ^ 64)
    (hp : p.Prime) (hq : q.Prime) (hpq : p ≠ q) (hN : beVal n = p * q)
    (h1 : ∃ k, beVal e * d = 1 + k * (p - 1)) (h2 : ∃ k, beVal e * d = 1 + k * (q - 1))
    (h : alg.verify me n e digest sig = .ok true) :
    ∃ EM, Spec.IsEmsaPkcs1 (alg.der ++ digest) n.length EM ∧ beVal sig ≡ beVal EM ^ d [MOD beVal n] := by
  have hn : n ≠ [] := by
    rintro rfl
    have h3 := Nat.mul_pos hp.pos hq.pos
    rw [← hN] at h3
    simp [beVal] at h3
  obtain ⟨b, hb, hiff⟩ := C48_exact alg me n e digest sig hd hn hme he he64
  rw [h] at hb; cases hb
  obtain ⟨-, -, EM, hE, hv⟩ := hiff.1 rfl
  refine ⟨EM, hE, ?_⟩
  rw [hv, hN]
  exact (rsa_inverse _ hp hq hpq h1 h2).symm

/-- **C103, the actions of the contract.**  For an RSA key the action succeeds for a message exactly on the one signature that
the private exponent gives, and aborts on every other byte string. -/
theorem C103_action (a : RsaAction) (host : HostHash) (L : HostLengths host) (n e msg sig EM : List Byte) (p q d : Nat)
    (hm : msg.length < 2 ^ 64) (hn : ∃ b ∈ n.head?, b ≠ 0) (he : e ≠ []) (he64 : beVal e < 2 ^ 64)
    (hp : p.Prime) (hq : q.Prime) (hpq : p ≠ q) (hN : beVal n = p * q)
    (h1 : ∃ k, beVal e * d = 1 + k * (p - 1)) (h2 : ∃ k, beVal e * d = 1 + k * (q - 1))
    (hE : Spec.IsEmsaPkcs1 ((RsaAction.alg a).der ++ rsaHash host a msg) n.length EM) :
    (sig.length = n.length ∧ beVal sig = beVal EM ^ d % beVal n → RsaAction.run hostModExp host a n e msg sig = .ok ()) ∧
    (¬ (sig.length = n.length ∧ beVal sig = beVal EM ^ d % beVal n) → RsaAction.run hostModExp host a n e msg sig = .error .abort) := by
  have h := C76_rsa_partial a host L n e msg sig hm hn he he64
  rw [pkcs1_private hn hp hq hpq hN h1 h2 hE] at h
  exact ⟨h.2, fun hc => (C76_rsa_exact a host L n e msg sig hm).2.resolve_left (fun h' => hc (h.1 h'))⟩

/-- **C103, PSS.**  For an RSA key with any modulus, an accepted signature is congruent to the private exponent applied to
an encoded message consistent with the digest. -/
theorem C103_pss (W : Nat) (me : ModExp) (H : Hash) (hLen : Nat) (n e digest sig : List Byte)
    (saltLen : Option (BitVec 32)) (p q d : Nat) (hme : ModExpAll me n e) (he : e ≠ [])
    (he64 : beVal e < 2 ^ 64) (hH : ∀ x, (H x).length = hLen) (h0 : 0 < hLen) (hd : digest.length = hLen)
    (hW : 8 + hLen + (saltLen.map BitVec.toNat).getD hLen < 2 ^ W)
    (hp : p.Prime) (hq : q.Prime) (hpq : p ≠ q) (hN : beVal n = p * q)
    (h1 : ∃ k, beVal e * d = 1 + k * (p - 1)) (h2 : ∃ k, beVal e * d = 1 + k * (q - 1))
    (h : pssVerify W me H hLen n e saltLen digest sig = .ok true) :
    ∃ EM, EM.length = n.length ∧ Spec.PssConsistent H hLen ((saltLen.map BitVec.toNat).getD hLen) digest EM (8 * n.length - 1) ∧
      beVal sig ≡ beVal EM ^ d [MOD beVal n] := by
  have hn : n ≠ [] := by
    rintro rfl
    have h3 := Nat.mul_pos hp.pos hq.pos
    rw [← hN] at h3
    simp [beVal] at h3
  obtain ⟨b, hb, hiff⟩ := C49_exact W me H hLen n e digest sig saltLen hn hme he he64 hH h0 hd hW
  rw [h] at hb; cases hb
  obtain ⟨-, -, EM, hE, hv, hc⟩ := hiff.1 rfl
  refine ⟨EM, hE, hc, ?_⟩
  rw [hv, hN]
  exact (rsa_inverse _ hp hq hpq h1 h2).symm

/-- **C103, PSS, one signature for a salt.**  A digest has at most as many accepted signatures (modulo the modulus) as
there are salts, one for salt length 0: among more accepted signatures two are congruent. -/
theorem C103_pss_count (W : Nat) (me : ModExp) (H : Hash) (hLen : Nat) (n e digest : List Byte)
    (saltLen : Option (BitVec 32)) (p q d : Nat) (hme : ModExpAll me n e) (he : e ≠ [])
    (he64 : beVal e < 2 ^ 64) (hH : ∀ x, (H x).length = hLen) (h0 : 0 < hLen) (hd : digest.length = hLen)
    (hW : 8 + hLen + (saltLen.map BitVec.toNat).getD hLen < 2 ^ W)
    (hp : p.Prime) (hq : q.Prime) (hpq : p ≠ q) (hN : beVal n = p * q)
    (h1 : ∃ k, beVal e * d = 1 + k * (p - 1)) (h2 : ∃ k, beVal e * d = 1 + k * (q - 1)) (k : Nat)
    (hk : 2 ^ (8 * (saltLen.map BitVec.toNat).getD hLen) < k) (sig : Fin k → List Byte)
    (h : ∀ i, pssVerify W me H hLen n e saltLen digest (sig i) = .ok true) :
    ∃ i j, i ≠ j ∧ beVal (sig i) ≡ beVal (sig j) [MOD beVal n] := by
  have a := fun i => C103_pss W me H hLen n e digest (sig i) saltLen p q d hme he he64 hH h0 hd hW hp hq hpq hN h1 h2 (h i)
  choose EM hl hc hv using a
  choose salt hs hS using fun i => pssSalt_of (hc i)
  have hlt : ∀ i, beVal (salt i) < 2 ^ (8 * (saltLen.map BitVec.toNat).getD hLen) := fun i => by
    have := beVal_lt (salt i)
    rw [hs i] at this
    rwa [Nat.pow_mul]
  obtain ⟨i, j, hij, e1⟩ := Fintype.exists_ne_map_eq_of_card_lt (fun i => (⟨beVal (salt i), hlt i⟩ : Fin _)) (by simpa using hk)
  have e2 : salt i = salt j := beVal_inj (by rw [hs i, hs j]) (by simpa using e1)
  have e3 : EM i = EM j := pssSalt_unique (fun Z l => spec_mgf1_length hH h0 Z l) (hS i) (by rw [e2]; exact hS j)
  refine ⟨i, j, hij, (hv i).trans ?_⟩
  rw [e3]
  exact (hv j).symm

/-! The 512-bit key of C68: every digest has exactly one accepted signature. -/
example (digest sig : List Byte) (hd : digest.length = 32) :
    verifyRsaSha256 hostModExp rsaN2 [5] digest sig = .ok true ↔
      sig.length = 64 ∧ beVal sig = beVal (rsaEM digest) ^ rsaD % beVal rsaN2 := by
  refine C103_pkcs1 .sha256 hostModExp rsaN2 [5] digest sig (rsaEM digest) rsaP rsaQ rsaD hd ⟨_, rfl, by decide⟩
    (C47_host _ _) (by decide) (by decide) Certs.secp256r1.np Certs.secp256k1.np (by decide +kernel) (by decide +kernel)
    ⟨9649340769776349618630915417390658987736463689922908698550430261793180124528, by decide +kernel⟩ ⟨9649340767529687396891453912450631127499746268677980028535188255089042670364, by decide +kernel⟩ ⟨10, by decide, rfl, ?_⟩
  simp [rsaEM, PkcsAlg.der, hd, rsaN2]

/-! The same through the action that hashes with SHA-256, for every host. -/
example (host : HostHash) (L : HostLengths host) (msg sig : List Byte) (hm : msg.length < 2 ^ 64) :
    (sig.length = rsaN2.length ∧ beVal sig = beVal (rsaEM (rsaHash host .sha2 msg)) ^ rsaD % beVal rsaN2 →
      RsaAction.run hostModExp host .sha2 rsaN2 [5] msg sig = .ok ()) ∧
    (¬ (sig.length = rsaN2.length ∧ beVal sig = beVal (rsaEM (rsaHash host .sha2 msg)) ^ rsaD % beVal rsaN2) →
      RsaAction.run hostModExp host .sha2 rsaN2 [5] msg sig = .error .abort) :=
  C103_action .sha2 host L rsaN2 [5] msg sig (rsaEM (rsaHash host .sha2 msg)) rsaP rsaQ rsaD hm ⟨_, rfl, by decide⟩
    (by decide) (by decide) Certs.secp256r1.np Certs.secp256k1.np (by decide +kernel) (by decide +kernel)
    ⟨9649340769776349618630915417390658987736463689922908698550430261793180124528, by decide +kernel⟩ ⟨9649340767529687396891453912450631127499746268677980028535188255089042670364, by decide +kernel⟩
    ⟨10, by decide, rfl, by simp [rsaEM, PkcsAlg.der, rsaN2, rsaHash, L.sha256]⟩

/-! The key of `C68_pss_wrong`: a signature with a salt of two bytes is accepted; without salt two accepted signatures are
congruent. -/
example : pssVerify 32 hostModExp toyHash 1 [10, 128, 190, 216, 43, 47] [3] (some 2) [0x5a] [5, 102, 217, 245, 76, 0] = .ok true := by
  decide +kernel

example (sig : Fin 2 → List Byte)
    (h : ∀ i, pssVerify 32 hostModExp toyHash 1 [10, 128, 190, 216, 43, 47] [3] (some 0) [0x5a] (sig i) = .ok true) :
    ∃ i j, i ≠ j ∧ beVal (sig i) ≡ beVal (sig j) [MOD 11548073929519] :=
  C103_pss_count 32 hostModExp toyHash 1 [10, 128, 190, 216, 43, 47] [3] [0x5a] (some 0)
    3145739 3671021 7698711408507 (C48_host_all _ _ (by decide +kernel)) (by decide) (by decide) (fun _ => rfl) (by decide) rfl
    (by decide) (by norm_num) (by norm_num) (by decide) (by decide +kernel) ⟨7342040, by decide +kernel⟩ ⟨6291476, by decide +kernel⟩ 2
    (by decide) sig h

end Ack.Props
