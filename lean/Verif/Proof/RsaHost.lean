import Verif.Proof.RsaApi
/-!
# RSA verification with the documented host exponentiation, for all inputs
-/
namespace Ack
open Big (Byte)

theorem powm_host {n e s : List Byte} (hl : s.length = n.length) :
    (¬ (n ≠ [] ∧ e ≠ [] ∧ beVal e < 2 ^ 64) ∧ powm hostModExp s e n = .error .abort) ∨
    ((n ≠ [] ∧ e ≠ [] ∧ beVal e < 2 ^ 64) ∧ beVal n = 0 ∧ powm hostModExp s e n = .ok (List.replicate n.length 0)) ∨
    ((n ≠ [] ∧ e ≠ [] ∧ beVal e < 2 ^ 64) ∧ beVal n ≠ 0) := by
  by_cases h64 : beVal e < 2 ^ 64
  swap
  · refine .inl ⟨by tauto, ?_⟩
    unfold powm
    have h8 : e.length > 8 := by
      by_contra hc
      have := beVal_lt e
      have h2 : 256 ^ e.length ≤ 256 ^ 8 := Nat.pow_le_pow_right (by norm_num) (by omega)
      norm_num at h2 h64
      omega
    rw [if_pos h8, exp_lead e h8, decide_eq_false h64]; rfl
  have hc : ∀ r : Res (List Byte), (do
      if e.length > 8 then check ((e.take (e.length - 8)).all (· == 0))
      r) = r := by
    intro r
    by_cases h8 : e.length > 8
    · rw [if_pos h8, exp_lead e h8, decide_eq_true h64]; rfl
    · rw [if_neg h8]
  by_cases hne : n ≠ [] ∧ e ≠ []
  swap
  · refine .inl ⟨by tauto, ?_⟩
    unfold powm
    refine (hc _).trans ?_
    unfold powmC
    rw [check_false]
    · rfl
    · rw [hl]
      rw [not_and_or, not_not, not_not] at hne
      rcases hne with rfl | rfl <;> simp
  obtain ⟨hn, he⟩ := hne
  by_cases hz : beVal n = 0
  · refine .inr (.inl ⟨⟨hn, he, h64⟩, hz, ?_⟩)
    unfold powm
    refine (hc _).trans ?_
    have h1 : n.length ≠ 0 := fun h => hn (List.length_eq_zero_iff.1 h)
    have h2 : e.length ≠ 0 := fun h => he (List.length_eq_zero_iff.1 h)
    unfold powmC hostModExp
    simp [hl, h1, h2, hz, check, ok_bind]
  · exact .inr (.inr ⟨⟨hn, he, h64⟩, hz⟩)

/-- The inputs on which the verification primitive with the host function computes a power. -/
def HostOk (n e : List Byte) : Prop := beVal n ≠ 0 ∧ e ≠ [] ∧ beVal e < 2 ^ 64

theorem rsavp1_host {n e s : List Byte} (hl : s.length = n.length) (h : ¬ HostOk n e) :
    rsavp1 hostModExp n e s = .error .abort ∨ ∃ k, rsavp1 hostModExp n e s = .ok (List.replicate k 0) := by
  unfold rsavp1
  rw [isSValid_spec, ok_bind]
  by_cases hd : beVal s = 0 ∨ leadZeros s < leadZeros n ∨ beVal s < beVal n
  swap
  · rw [decide_eq_false hd]; exact .inr ⟨0, rfl⟩
  rw [decide_eq_true hd]
  rcases powm_host (e := e) hl with ⟨-, h1⟩ | ⟨-, -, h1⟩ | ⟨⟨h1, h2, h3⟩, h4⟩
  · exact .inl h1
  · exact .inr ⟨_, h1⟩
  · exact absurd ⟨h4, h2, h3⟩ h

theorem pkcs1_zeros {me : ModExp} {t k : Nat} {n e sig : List Byte} {g : Res (List Byte)}
    (h : rsavp1 me n e sig = .ok (List.replicate k 0)) : pkcs1Verify me t n e sig g = .ok false := by
  unfold pkcs1Verify
  split
  · rfl
  · rw [h, ok_bind]
    split
    · rfl
    · next hlen =>
      rw [List.length_replicate] at hlen
      rw [rdByte_lt (by simp; omega), ok_bind, rdByte_lt (by simp; omega), ok_bind, if_pos]
      · rfl
      · right; rw [List.getElem_replicate]; decide

theorem pss_zeros {W hLen k : Nat} {me : ModExp} {H : Hash} {n e digest sig : List Byte} {saltLen : Option (BitVec 32)}
    (hW : 8 + hLen + (saltLen.map BitVec.toNat).getD hLen < 2 ^ W)
    (h : rsavp1 me n e sig = .ok (List.replicate k 0)) : pssVerify W me H hLen n e saltLen digest sig = .ok false := by
  unfold pssVerify
  split
  · rfl
  · rw [h, ok_bind]
    dsimp only
    rw [Nat.mod_eq_of_lt (by omega)]
    split
    · rfl
    · next hlen =>
      rw [List.length_replicate] at hlen
      rw [rdByte_lt (by simp; omega), ok_bind, if_pos]
      · rfl
      · rw [List.getElem_replicate]; decide

/-- PKCS #1 v1.5 verification with the host function on all inputs: true, or false or abort. -/
theorem pkcs1Verify_host (n e sig T : List Byte) :
    (pkcs1Verify hostModExp T.length n e sig (.ok T) = .ok true ↔ HostOk n e ∧ Spec.Pkcs1Loose n e T sig) ∧
    (pkcs1Verify hostModExp T.length n e sig (.ok T) = .ok true ∨ pkcs1Verify hostModExp T.length n e sig (.ok T) = .ok false ∨
      pkcs1Verify hostModExp T.length n e sig (.ok T) = .error .abort) := by
  by_cases h : HostOk n e
  · obtain ⟨h1, h2, h3⟩ := h
    have hn : n ≠ [] := by rintro rfl; exact h1 rfl
    obtain ⟨b, e1, e2⟩ := pkcs1Verify_loose (T := T) (sig := sig) hn (hostModExp_all e h1) h2 h3
    rw [e1]
    constructor
    · rw [← e2]; exact ⟨fun h => ⟨⟨h1, h2, h3⟩, by simpa using h⟩, fun h => by rw [h.2]⟩
    · cases b <;> simp
  · by_cases hl : sig.length = n.length
    · rcases rsavp1_host hl h with h1 | ⟨k, h1⟩
      · have : pkcs1Verify hostModExp T.length n e sig (.ok T) = .error .abort := by
          unfold pkcs1Verify
          rw [if_neg (by simpa using hl)]
          simp only [h1]; rfl
        rw [this]; simp [h]
      · rw [pkcs1_zeros h1]; simp [h]
    · have : pkcs1Verify hostModExp T.length n e sig (.ok T) = .ok false := by
        unfold pkcs1Verify; rw [if_pos hl]; rfl
      rw [this]; simp [h]

/-- PSS verification with the host function on all inputs whose lengths fit `size_t`. -/
theorem pssVerify_host (W : Nat) (H : Hash) (hLen : Nat) (n e digest sig : List Byte) (saltLen : Option (BitVec 32))
    (hH : ∀ x, (H x).length = hLen) (h0 : 0 < hLen) (hd : digest.length = hLen)
    (hW : 8 + hLen + (saltLen.map BitVec.toNat).getD hLen < 2 ^ W) :
    (pssVerify W hostModExp H hLen n e saltLen digest sig = .ok true ↔
      HostOk n e ∧ Spec.PssLoose H hLen ((saltLen.map BitVec.toNat).getD hLen) n e digest sig) ∧
    (pssVerify W hostModExp H hLen n e saltLen digest sig = .ok true ∨ pssVerify W hostModExp H hLen n e saltLen digest sig = .ok false ∨
      pssVerify W hostModExp H hLen n e saltLen digest sig = .error .abort) := by
  by_cases h : HostOk n e
  · obtain ⟨h1, h2, h3⟩ := h
    have hn : n ≠ [] := by rintro rfl; exact h1 rfl
    obtain ⟨b, e1, e2⟩ := pssVerify_loose (sig := sig) hn (hostModExp_all e h1) h2 h3 hH h0 hd rfl hW
    rw [e1]
    constructor
    · rw [← e2]; exact ⟨fun h => ⟨⟨h1, h2, h3⟩, by simpa using h⟩, fun h => by rw [h.2]⟩
    · cases b <;> simp
  · by_cases hl : sig.length = n.length
    · rcases rsavp1_host hl h with h1 | ⟨k, h1⟩
      · have : pssVerify W hostModExp H hLen n e saltLen digest sig = .error .abort := by
          unfold pssVerify
          rw [if_neg (by simpa using hl)]
          simp only [h1]; rfl
        rw [this]; simp [h]
      · rw [pss_zeros hW h1]; simp [h]
    · have : pssVerify W hostModExp H hLen n e saltLen digest sig = .ok false := by
        unfold pssVerify; rw [if_pos hl]; rfl
      rw [this]; simp [h]

end Ack
