import Verif.Proof.Contract
import Verif.Props.Ecdsa
import Verif.Props.Sha
/-!
# Properties of the example contract (C75, C76)

`EcdsaAction.run`, `RsaAction.run`, `RsaAction.runPss` are the actions of examples/helloack: `ok ()` is an action that
completes, `error abort` one that fails and is rolled back, `error ub` undefined behaviour.
-/
namespace Ack.Props
open Ack Ack.Big WeierstrassCurve

/-! ## C75: the ECDSA actions -/

/-- The digest the documentation of the action names (helloack.hpp:8-109): SHA-256, SHA-384 or SHA-512. -/
noncomputable def ecdsaDigest (host : HostHash) : EcdsaAction → List Byte → List Byte
  | .ecdsabr1, m | .ecdsak1, m | .ecdsar1, m => host.sha256 m
  | .ecdsabr132, m | .ecdsabr13, m | .ecdsar13, m => Spec.Sha.sha384 m
  | .ecdsabr15, m | .ecdsar15, m => host.sha512 m

/-- The curve the documentation of the action names (helloack.hpp:8-109). -/
def ecdsaCurve : EcdsaAction → Spec.StdCurve
  | .ecdsabr1 => Spec.brainpoolP256r1
  | .ecdsabr132 => Spec.brainpoolP320r1
  | .ecdsabr13 => Spec.brainpoolP384r1
  | .ecdsabr15 => Spec.brainpoolP512r1
  | .ecdsak1 => Spec.secp256k1
  | .ecdsar1 => Spec.secp256r1
  | .ecdsar13 => Spec.secp384r1
  | .ecdsar15 => Spec.secp521r1

theorem action_std (a : EcdsaAction) (wasm : Bool) (addr : Nat) {C : Curve} (e : a.curve.params.build wasm addr = .ok C) :
    IsStd C (ecdsaCurve a) := by
  obtain ⟨C', e', h, -⟩ := C38_standard a.curve wasm addr
  rw [e] at e'
  cases e'
  cases a <;> exact h

theorem hash_eq (host : HostHash) (a : EcdsaAction) (m : List Byte) (hm : m.length < 2 ^ 64) : a.hash host m = ecdsaDigest host a m := by
  cases a <;> first | rfl | exact sha384Hash_spec m hm

/-- C75: for every public key on the curve, every message, and every signature, each ECDSA action completes exactly when the
signature is valid by FIPS 186-5 for the digest of the message and the byte strings are not longer than the storage of the
integers of the curve (twice the size of the field; unlimited for the two largest curves on chain).  Missing from the full
claim: public keys that are not on the curve are not turned down (`C75_off_curve_wrong`). -/
theorem C75_ecdsa_partial (a : EcdsaAction) (wasm : Bool) (addr : Nat) (host : HostHash) (l1 : ∀ x, (host.sha256 x).length = 32)
    (l2 : ∀ x, (host.sha512 x).length = 64) :
    ∃ (P N : ℕ) (_ : Fact P.Prime) (C : Curve) (G : C.Pt P), a.curve.params.build wasm addr = .ok C ∧
      Domain N (a.curve.params.cap wasm) C G ∧ IsStd C (ecdsaCurve a) ∧ C.n.toInt = N ∧
      ∀ (qx qy msg r s : List Byte) (X Y : ZMod P) (hn : (C.W P).Nonsingular X Y), msg.length < 2 ^ 64 → X.val = beVal qx → Y.val = beVal qy →
        (a.run wasm addr host qx qy msg r s = .ok () ↔
          (∀ M, a.curve.params.cap wasm = some M → qx.length ≤ 4 * M ∧ qy.length ≤ 4 * M ∧ r.length ≤ 4 * M ∧ s.length ≤ 4 * M) ∧
          EcdsaValid N G (.some X Y hn) (fipsE N.size (ecdsaDigest host a msg)) (beVal r) (beVal s)) := by
  obtain ⟨P, N, hP, C, G, e, D, -, -, hs⟩ := named_domain a.curve wasm addr
  refine ⟨P, N, hP, C, G, e, D, action_std a wasm addr e, D.Mn.eq, fun qx qy msg r s X Y hn hl hX hY => ?_⟩
  unfold EcdsaAction.run
  rw [e, ok_bind, checkEcdsa_spec D (hn := hn) (a.hash host) qx qy msg r s ?_ hX hY, hash_eq host a msg hl]
  · apply and_congr_left'
    unfold FitsBytes
    exact ⟨fun h M hM => ⟨h.1 M hM, h.2.1 M hM, h.2.2.1 M hM, h.2.2.2 M hM⟩, fun h => ⟨fun M hM => (h M hM).1, fun M hM => (h M hM).2.1,
      fun M hM => (h M hM).2.2.1, fun M hM => (h M hM).2.2.2⟩⟩
  · rw [hs]
    cases a
    case ecdsar15 => right; show 8 * (host.sha512 msg).length ≤ 521; rw [l2]; decide
    all_goals left; rfl

/-- C75: whatever the arguments, the public key on the curve or not, an action either completes or aborts; it never runs
into undefined behaviour or fails to end.  It completes only if the coordinates are below p and the two numbers of the
signature are between 1 and n - 1. -/
theorem C75_total (a : EcdsaAction) (wasm : Bool) (addr : Nat) (host : HostHash) :
    ∃ (P N : ℕ) (_ : Fact P.Prime) (C : Curve) (G : C.Pt P), a.curve.params.build wasm addr = .ok C ∧
      Domain N (a.curve.params.cap wasm) C G ∧ IsStd C (ecdsaCurve a) ∧ C.n.toInt = N ∧
      ∀ qx qy msg r s : List Byte, a.run wasm addr host qx qy msg r s = .error .abort ∨
        (a.run wasm addr host qx qy msg r s = .ok () ∧ beVal qx < P ∧ beVal qy < P ∧ 1 ≤ beVal r ∧ beVal r < N ∧ 1 ≤ beVal s ∧ beVal s < N) := by
  obtain ⟨P, N, hP, C, G, e, D, -, -, hs⟩ := named_domain a.curve wasm addr
  refine ⟨P, N, hP, C, G, e, D, action_std a wasm addr e, D.Mn.eq, fun qx qy msg r s => ?_⟩
  unfold EcdsaAction.run
  rw [e, ok_bind]
  exact checkEcdsa_total D.toAnyDomain (a.hash host) qx qy msg r s

/-- The signature of the witness below, as big-endian bytes. -/
def offR : List Byte := [0x56, 0x64, 0x91, 0xe4, 0x3f, 0x7d, 0xc1, 0x21, 0x7c, 0x2d, 0xf7, 0xad, 0xe6, 0x40, 0xa0, 0x45,
  0xd4, 0x23, 0xc3, 0x3b, 0x93, 0x6b, 0x69, 0xfd, 0xcf, 0x8c, 0xda, 0xed, 0x24, 0xa6, 0xf6, 0x7d]

/-- A host whose SHA-256 is the given number for every message. -/
def constHost (d : List Byte) : HostHash := ⟨fun _ => d, fun _ => d, fun _ => d⟩

theorem off_curve_run : (EcdsaAction.ecdsak1).run true 0 (constHost offR) [1] [1] [] offR offR = .ok () := by decide +kernel

/-- C75 is violated for public keys off the curve.  On secp256k1 the point (1, 1) is not on the curve, yet every message
whose SHA-256 digest is the given number is accepted as signed by it. -/
theorem C75_off_curve_wrong :
    (1 : ℤ) ^ 2 % (2 ^ 256 - 2 ^ 32 - 977) ≠ (1 ^ 3 + 7) % (2 ^ 256 - 2 ^ 32 - 977) ∧
    ∀ (host : HostHash) (msg : List Byte), host.sha256 msg = offR → (EcdsaAction.ecdsak1).run true 0 host [1] [1] msg offR offR = .ok () := by
  refine ⟨by norm_num, fun host msg h => ?_⟩
  have := off_curve_run
  unfold EcdsaAction.run checkEcdsa at this ⊢
  rw [show EcdsaAction.ecdsak1.hash host msg = offR from h]
  exact this

/-! Both outcomes arise, with the same code on a small curve: a signature accepted, one turned down, coordinates that are
not below p, and a byte string too long for the storage. -/
example : checkEcdsa (some 2) ex229 (fun _ => [0xab]) [187] [94] [] [134] [138] = .ok () ∧
    checkEcdsa (some 2) ex229 (fun _ => [0xaa]) [187] [94] [] [134] [138] = .error .abort ∧
    checkEcdsa (some 2) ex229 (fun _ => [0xab]) [1, 187] [94] [] [134] [138] = .error .abort ∧
    checkEcdsa (some 2) ex229 (fun _ => [0xab]) [0, 0, 0, 0, 0, 0, 0, 0, 187] [94] [] [134] [138] = .error .abort := by decide +kernel

example : ∀ x, ((constHost (List.replicate 32 7)).sha256 x).length = 32 := fun _ => rfl

/-! ## C76: the RSA actions -/

/-- The DigestInfo prefix, digest length and digest of an RSA action. -/
def RsaAction.alg : RsaAction → PkcsAlg
  | .sha1 => .sha1 | .sha2 => .sha256 | .sha34 => .sha384 | .sha512 => .sha512

/-- The digest the documentation of the action names. -/
noncomputable def rsaHash (host : HostHash) : RsaAction → List Byte → List Byte
  | .sha1 => host.sha1 | .sha2 => host.sha256 | .sha34 => Spec.Sha.sha384 | .sha512 => host.sha512

/-- The digests of the host have their nominal lengths. -/
structure HostLengths (host : HostHash) : Prop where
  sha1 : ∀ x, (host.sha1 x).length = 20
  sha256 : ∀ x, (host.sha256 x).length = 32
  sha512 : ∀ x, (host.sha512 x).length = 64

theorem assert_cases {r : Res Bool} (h : r = .ok true ∨ r = .ok false ∨ r = .error .abort) :
    (do check (← r)) = (.ok () : Res Unit) ∨ (do check (← r)) = (.error .abort : Res Unit) := by
  rcases h with rfl | rfl | rfl
  · exact .inl rfl
  · exact .inr rfl
  · exact .inr rfl

/-- C76: with the host's modular exponentiation and for every argument, each PKCS #1 v1.5 action completes or aborts, never
anything else, and completes exactly when the modulus is not zero, the exponent is a non-empty string below 2^64, and the
signature is one of RFC 8017 for the digest of the message, up to the loose range test of C46. -/
theorem C76_rsa_exact (a : RsaAction) (host : HostHash) (L : HostLengths host) (n e msg sig : List Byte) (hm : msg.length < 2 ^ 64) :
    (RsaAction.run hostModExp host a n e msg sig = .ok () ↔ beVal n ≠ 0 ∧ e ≠ [] ∧ beVal e < 2 ^ 64 ∧
      Spec.Pkcs1Loose n e ((RsaAction.alg a).der ++ rsaHash host a msg) sig) ∧
    (RsaAction.run hostModExp host a n e msg sig = .ok () ∨ RsaAction.run hostModExp host a n e msg sig = .error .abort) := by
  have key : ∀ (alg : PkcsAlg) (d : List Byte), d.length = alg.size →
      (alg.assert hostModExp n e d sig = .ok () ↔ beVal n ≠ 0 ∧ e ≠ [] ∧ beVal e < 2 ^ 64 ∧ Spec.Pkcs1Loose n e (alg.der ++ d) sig) ∧
      (alg.assert hostModExp n e d sig = .ok () ∨ alg.assert hostModExp n e d sig = .error .abort) := by
    intro alg d hd
    obtain ⟨h1, h2⟩ := pkcs1Verify_host n e sig (alg.der ++ d)
    have ev := verify_eq alg hostModExp n e d sig hd
    have ea : alg.assert hostModExp n e d sig = (do check (← alg.verify hostModExp n e d sig)) := by cases alg <;> rfl
    rw [← ev] at h1 h2
    rw [(C51_assert_rsa alg hostModExp n e d sig).1, h1]
    refine ⟨by unfold HostOk; tauto, ?_⟩
    rw [← h1, ← (C51_assert_rsa alg hostModExp n e d sig).1, ea]
    exact assert_cases h2
  cases a
  · exact key .sha1 _ (L.sha1 _)
  · exact key .sha256 _ (L.sha256 _)
  · rw [show RsaAction.run hostModExp host .sha34 n e msg sig = PkcsAlg.sha384.assert hostModExp n e (Spec.Sha.sha384 msg) sig by
      unfold RsaAction.run; rw [sha384Hash_spec msg hm]; rfl]
    exact key .sha384 _ (by rw [← sha384Hash_spec msg hm]; exact sha384Hash_length _)
  · exact key .sha512 _ (L.sha512 _)

/-- C76: for a modulus without leading zero byte the actions complete exactly on the signatures of RFC 8017. -/
theorem C76_rsa_partial (a : RsaAction) (host : HostHash) (L : HostLengths host) (n e msg sig : List Byte) (hm : msg.length < 2 ^ 64)
    (hn : ∃ b ∈ n.head?, b ≠ 0) (he : e ≠ []) (he64 : beVal e < 2 ^ 64) :
    RsaAction.run hostModExp host a n e msg sig = .ok () ↔ Spec.Pkcs1Valid n e ((RsaAction.alg a).der ++ rsaHash host a msg) sig := by
  have h0 : beVal n ≠ 0 := by
    intro h
    obtain ⟨b, hb, hb0⟩ := hn
    rw [beVal_zero_iff] at h
    cases n with
    | nil => cases hb
    | cons x t =>
      simp only [List.head?_cons, Option.mem_some_iff] at hb
      subst hb
      rw [leadZeros, if_neg hb0] at h
      simp at h
  rw [(C76_rsa_exact a host L n e msg sig hm).1]
  have hl := looseRange_iff (s := sig) (n := n)
  have h1 := isSValid_exact (s := sig) hn
  rw [isSValid_spec] at h1
  have h2 : Spec.LooseRange n sig ↔ beVal sig < beVal n := by
    rw [← hl]
    exact decide_eq_decide.1 (Except.ok.inj h1)
  unfold Spec.Pkcs1Loose Spec.Pkcs1Valid
  rw [h2]
  tauto

/-- C76: with the host's modular exponentiation and for every argument whose salt length, plus 72, is below 2^W, each PSS
action completes or aborts, and completes exactly when the modulus is not zero, the exponent is a non-empty string below
2^64, and the signature is consistent for the digest of the message in the sense of C49. -/
theorem C76_pss_exact (W : Nat) (hW64 : W ≤ 64) (a : RsaAction) (host : HostHash) (L : HostLengths host) (n e msg sig : List Byte)
    (saltLen : Option (BitVec 32)) (hm : msg.length < 2 ^ 64) (hW : 8 + 64 + (saltLen.map BitVec.toNat).getD 64 < 2 ^ W) :
    (RsaAction.runPss W hostModExp host a n e saltLen msg sig = .ok () ↔ beVal n ≠ 0 ∧ e ≠ [] ∧ beVal e < 2 ^ 64 ∧
      Spec.PssLoose (rsaHash host a) (RsaAction.alg a).size ((saltLen.map BitVec.toNat).getD (RsaAction.alg a).size) n e (rsaHash host a msg) sig) ∧
    (RsaAction.runPss W hostModExp host a n e saltLen msg sig = .ok () ∨
      RsaAction.runPss W hostModExp host a n e saltLen msg sig = .error .abort) := by
  have w : ∀ k, k ≤ 64 → 8 + k + (saltLen.map BitVec.toNat).getD k < 2 ^ W := by
    intro k hk
    cases saltLen with
    | none => simp only [Option.map_none, Option.getD_none] at hW ⊢; omega
    | some s => simp only [Option.map_some, Option.getD_some] at hW ⊢; omega
  have key : ∀ (H : Hash) (k : Nat) (d : List Byte), k ≤ 64 → 0 < k → (∀ x, (H x).length = k) → d.length = k →
      ((do check (← pssVerify W hostModExp H k n e saltLen d sig)) = (.ok () : Res Unit) ↔ beVal n ≠ 0 ∧ e ≠ [] ∧ beVal e < 2 ^ 64 ∧
        Spec.PssLoose H k ((saltLen.map BitVec.toNat).getD k) n e d sig) ∧
      ((do check (← pssVerify W hostModExp H k n e saltLen d sig)) = (.ok () : Res Unit) ∨
        (do check (← pssVerify W hostModExp H k n e saltLen d sig)) = (.error .abort : Res Unit)) := by
    intro H k d hk h0 hH hd
    obtain ⟨h1, h2⟩ := pssVerify_host W H k n e d sig saltLen hH h0 hd (w k hk)
    rw [(assert_iff _).1, h1]
    refine ⟨by unfold HostOk; tauto, ?_⟩
    rw [← h1, ← (assert_iff _).1]
    exact assert_cases h2
  cases a
  · exact key _ 20 _ (by decide) (by decide) L.sha1 (L.sha1 _)
  · exact key _ 32 _ (by decide) (by decide) L.sha256 (L.sha256 _)
  · obtain ⟨h1, h2⟩ := key sha384Hash 48 (sha384Hash msg) (by decide) (by decide) sha384Hash_length (sha384Hash_length _)
    refine ⟨?_, h2⟩
    refine h1.trans ?_
    have hB : 8 + 48 + (saltLen.map BitVec.toNat).getD 48 < 2 ^ 64 := lt_of_lt_of_le (w 48 (by decide)) (Nat.pow_le_pow_right (by decide) hW64)
    have hl := sha384Hash_length msg
    rw [sha384Hash_spec msg hm] at hl ⊢
    refine and_congr_right fun _ => and_congr_right fun _ => and_congr_right fun _ => ?_
    show Spec.PssLoose _ 48 _ n e _ sig ↔ Spec.PssLoose Spec.Sha.sha384 48 _ n e _ sig
    constructor
    · exact pssLoose_congr (B := 2 ^ 64) (fun x hx => sha384Hash_spec x hx) (by decide) (by show 8 + (Spec.Sha.sha384 msg).length + _ < _; rw [hl]; exact hB)
    · exact pssLoose_congr (B := 2 ^ 64) (fun x hx => (sha384Hash_spec x hx).symm) (by decide)
        (by show 8 + (Spec.Sha.sha384 msg).length + _ < _; rw [hl]; exact hB)
  · exact key _ 64 _ (by decide) (by decide) L.sha512 (L.sha512 _)

/-- On a 64-bit target every salt length is covered. -/
example (s : Option (BitVec 32)) : 8 + 64 + (s.map BitVec.toNat).getD 64 < 2 ^ 64 := by
  cases s with
  | none => decide
  | some s => have := s.isLt; simp only [Option.map_some, Option.getD_some]; omega

theorem constHost_lengths : HostLengths ⟨fun _ => List.replicate 20 0, fun _ => List.replicate 32 0, fun _ => List.replicate 64 0⟩ :=
  ⟨fun _ => rfl, fun _ => rfl, fun _ => rfl⟩

/-- C76: on chain (32-bit sizes) the bound on the salt length is needed: a caller who passes the salt length 2^32 - 1 with
a key and signature of their own choice drives the action `rsapsssha1` into undefined behaviour. -/
theorem C76_pss_wrong :
    RsaAction.runPss 32 hostModExp ⟨fun _ => List.replicate 20 0, fun _ => List.replicate 32 0, fun _ => List.replicate 64 0⟩ .sha1
      (List.replicate 22 0xff) [1] (some 0xffffffff) [] ([0x00, 0x01] ++ List.replicate 19 0x00 ++ [0xbc]) = .error .ub := by decide +kernel

/-- The keys of C46 and C48 through the action: a valid signature, and one for another digest. -/
example : RsaAction.run hostModExp (constHost rsaDigest) .sha1 rsaN [3] [] rsaS = .ok () ∧
    RsaAction.run hostModExp (constHost (rsaDigest.set 0 0)) .sha1 rsaN [3] [] rsaS = .error .abort ∧
    RsaAction.run hostModExp (constHost rsaDigest) .sha1 rsaN [] [] rsaS = .error .abort ∧
    RsaAction.run hostModExp (constHost rsaDigest) .sha1 (List.replicate 46 0) [3] [] rsaS = .error .abort := by decide +kernel

end Ack.Props
