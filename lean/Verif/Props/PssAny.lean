import Verif.Props.Contract
/-!
# C49 and C76, PSS with any salt length

The laws `C49_exact` and `C76_pss_exact` bound the salt length, because for others the sizes wrap around and the code may have undefined
behaviour (`C49_overflow`, `C76_pss_wrong`).  Here: whatever the salt length, nothing but a consistent signature is accepted.
-/
namespace Ack.Props
open Ack Big

/-- C49: no signature is accepted with a salt length for which a size wraps around, whatever the modular exponentiation returns. -/
theorem C49_wrapped (W : Nat) (me : ModExp) (H : Hash) (hLen : Nat) (n e digest sig : List Byte) (saltLen : Option (BitVec 32))
    (hW : 2 ^ W ≤ 8 + hLen + (saltLen.map BitVec.toNat).getD hLen) : pssVerify W me H hLen n e saltLen digest sig ≠ .ok true := by
  intro h
  have hm : (8 + hLen + (saltLen.map BitVec.toNat).getD hLen) % 2 ^ W < 8 + hLen + (saltLen.map BitVec.toNat).getD hLen :=
    lt_of_lt_of_le (Nat.mod_lt _ (Nat.two_pow_pos W)) hW
  unfold pssVerify at h
  simp only [bind, Except.bind, pure, Except.pure] at h
  repeat' (split at h <;> try (cases h; done))
  all_goals (rename_i hh _; exact hh (Or.inr hm))

/-- The salt length of `C49_overflow`. -/
example : 2 ^ 32 ≤ 8 + 1 + ((some (0xffffffff : BitVec 32)).map BitVec.toNat).getD 1 := by decide

/-- A consistent signature has a salt that fits its modulus. -/
theorem pssLoose_room {H : Hash} {hLen sLen : Nat} {n e d sig : List Byte} (h : Spec.PssLoose H hLen sLen n e d sig) :
    hLen + sLen + 2 ≤ n.length := by
  obtain ⟨-, -, EM, -, -, h, -⟩ := h
  omega

/-- C49: **the accepted signatures for every salt length**: exactly the consistent ones (in the sense of `C49_exact`), if the modulus is
shorter than the address space by more than six bytes. -/
theorem C49_accept (W : Nat) (me : ModExp) (H : Hash) (hLen : Nat) (n e digest sig : List Byte)
    (saltLen : Option (BitVec 32)) (hn : n ≠ []) (hme : ModExpAll me n e) (he : e ≠ [])
    (he64 : beVal e < 2 ^ 64) (hH : ∀ x, (H x).length = hLen) (h0 : 0 < hLen) (hd : digest.length = hLen) (hl : n.length + 6 < 2 ^ W) :
    pssVerify W me H hLen n e saltLen digest sig = .ok true ↔
      Spec.PssLoose H hLen ((saltLen.map BitVec.toNat).getD hLen) n e digest sig := by
  by_cases hW : 8 + hLen + (saltLen.map BitVec.toNat).getD hLen < 2 ^ W
  · obtain ⟨b, h1, h2⟩ := C49_exact W me H hLen n e digest sig saltLen hn hme he he64 hH h0 hd hW
    rw [h1, ← h2, Except.ok.injEq]
  · refine iff_of_false (C49_wrapped W me H hLen n e digest sig saltLen (not_lt.1 hW)) fun h => ?_
    have := pssLoose_room h
    omega

/-- The accepted signature of C49 meets the hypotheses, on a 32-bit target. -/
example : Spec.PssLoose toyHash 1 2 [120, 145, 97, 57, 76, 17] [3] [0x5a] [4, 76, 8, 136, 165, 138] :=
  (C49_accept 32 hostModExp toyHash 1 [120, 145, 97, 57, 76, 17] [3] [0x5a] [4, 76, 8, 136, 165, 138] (some 2) (by decide)
    (C48_host_all _ _ (by decide +kernel)) (by decide) (by decide) (fun _ => rfl) (by decide) rfl (by decide)).1 (by decide +kernel)

/-- C76: **the PSS actions complete exactly for consistent signatures, whatever the salt length**: the bound on the salt length of
`C76_pss_exact` is replaced by one on the modulus, which the memory of a contract implies. -/
theorem C76_pss_accept (W : Nat) (hW64 : W ≤ 64) (a : RsaAction) (host : HostHash) (L : HostLengths host) (n e msg sig : List Byte)
    (saltLen : Option (BitVec 32)) (hm : msg.length < 2 ^ 64) (hl : n.length + 6 < 2 ^ W) :
    RsaAction.runPss W hostModExp host a n e saltLen msg sig = .ok () ↔ beVal n ≠ 0 ∧ e ≠ [] ∧ beVal e < 2 ^ 64 ∧
      Spec.PssLoose (rsaHash host a) (RsaAction.alg a).size ((saltLen.map BitVec.toNat).getD (RsaAction.alg a).size) n e (rsaHash host a msg) sig := by
  have key : ∀ (H : Hash) (k : Nat) (d : List Byte), 0 < k → (∀ x, (H x).length = k) → d.length = k →
      ((do check (← pssVerify W hostModExp H k n e saltLen d sig)) = (.ok () : Res Unit) ↔ beVal n ≠ 0 ∧ e ≠ [] ∧ beVal e < 2 ^ 64 ∧
        Spec.PssLoose H k ((saltLen.map BitVec.toNat).getD k) n e d sig) := by
    intro H k d h0 hH hd
    rw [(assert_iff _).1]
    by_cases hW : 8 + k + (saltLen.map BitVec.toNat).getD k < 2 ^ W
    · rw [(pssVerify_host W H k n e d sig saltLen hH h0 hd hW).1]
      unfold HostOk; tauto
    · refine iff_of_false (C49_wrapped W _ H k n e d sig saltLen (not_lt.1 hW)) fun h => ?_
      have := pssLoose_room h.2.2.2
      omega
  cases a
  · exact key _ 20 _ (by decide) L.sha1 (L.sha1 _)
  · exact key _ 32 _ (by decide) L.sha256 (L.sha256 _)
  · refine (key sha384Hash 48 (sha384Hash msg) (by decide) sha384Hash_length (sha384Hash_length _)).trans ?_
    have hB : ∀ {H : Hash} {d : List Byte}, Spec.PssLoose H 48 ((saltLen.map BitVec.toNat).getD 48) n e d sig →
        8 + 48 + (saltLen.map BitVec.toNat).getD 48 < 2 ^ 64 := by
      intro H d h
      have := pssLoose_room h
      have : 2 ^ W ≤ 2 ^ 64 := Nat.pow_le_pow_right (by decide) hW64
      omega
    have hl := sha384Hash_length msg
    rw [sha384Hash_spec msg hm] at hl ⊢
    refine and_congr_right fun _ => and_congr_right fun _ => and_congr_right fun _ => ?_
    show Spec.PssLoose _ 48 _ n e _ sig ↔ Spec.PssLoose Spec.Sha.sha384 48 _ n e _ sig
    constructor
    · intro h
      exact pssLoose_congr (B := 2 ^ 64) (fun x hx => sha384Hash_spec x hx) (by decide)
        (by show 8 + (Spec.Sha.sha384 msg).length + _ < _; rw [hl]; exact hB h) h
    · intro h
      exact pssLoose_congr (B := 2 ^ 64) (fun x hx => (sha384Hash_spec x hx).symm) (by decide)
        (by show 8 + (Spec.Sha.sha384 msg).length + _ < _; rw [hl]; exact hB h) h
  · exact key _ 64 _ (by decide) L.sha512 (L.sha512 _)

/-- The salt length of `C76_pss_wrong`, which meets the hypotheses: the call has undefined behaviour, and the law says it does not
complete. -/
example : (List.replicate 22 (0xff : Byte)).length + 6 < 2 ^ 32 := by decide

end Ack.Props
