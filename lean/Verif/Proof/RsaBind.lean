import Verif.Proof.RsaApi
/-!
# What an accepted RSA signature fixes, whatever computes the power
-/
namespace Ack
open Big (Byte)

/-- PKCS #1 v1.5 verification on whatever the exponentiation gave. -/
theorem pkcs1_on {me : ModExp} {n e sig T em : List Byte} (hl : sig.length = n.length) (hr : rsavp1 me n e sig = .ok em) :
    ∃ b, pkcs1Verify me T.length n e sig (.ok T) = .ok b ∧ (b = true ↔ Spec.IsEmsaPkcs1 T em.length em) := by
  unfold pkcs1Verify
  rw [if_neg (by simpa using hl)]
  simp only [hr, ok_bind, pure_bind]
  by_cases hsz : em.length < T.length + 11
  · rw [if_pos hsz]
    refine ⟨false, rfl, ?_⟩
    simp only [Bool.false_eq_true, false_iff]
    rintro ⟨ps, h8, hE, hEl⟩
    rw [hE] at hsz
    simp at hsz
    omega
  rw [if_neg hsz]
  obtain ⟨a, b, x, p, z, U, hem, hU, hp⟩ := split_em (t := T.length) (by omega : T.length + 11 ≤ em.length)
  have hplen : 7 ≤ p.length := by omega
  have hps : em.length - T.length - 3 = p.length + 1 := by omega
  rw [hps]
  clear hsz hr
  subst hem
  rw [emsa_iff hU hplen]
  have r0 : rdByte (a :: b :: x :: (p ++ z :: U)) 0 = .ok a := rfl
  have r1 : rdByte (a :: b :: x :: (p ++ z :: U)) 1 = .ok b := rfl
  have r2 : rdByte (a :: b :: x :: (p ++ z :: U)) 2 = .ok x := rfl
  have r3 : rdByte (a :: b :: x :: (p ++ z :: U)) (2 + (p.length + 1)) = .ok z := by
    unfold rdByte
    rw [show 2 + (p.length + 1) = p.length + 1 + 1 + 1 by omega]
    simp
  rw [r0, r1, r2, r3]
  simp only [ok_bind]
  by_cases c1 : a ≠ 0x00 ∨ b ≠ 0x01
  · rw [if_pos c1]
    refine ⟨false, rfl, ?_⟩
    simp only [Bool.false_eq_true, false_iff]
    rintro ⟨h1, h2, _⟩
    rcases c1 with h | h
    · exact h h1
    · exact h h2
  rw [if_neg c1]
  by_cases c2 : x ≠ 0xff ∨ z ≠ 0x00
  · rw [if_pos c2]
    refine ⟨false, rfl, ?_⟩
    simp only [Bool.false_eq_true, false_iff]
    rintro ⟨_, _, h1, h2, _⟩
    rcases c2 with h | h
    · exact h h1
    · exact h h2
  rw [if_neg c2]
  push Not at c1 c2
  have m1 : memEq (a :: b :: x :: (p ++ z :: U)) 3 (a :: b :: x :: (p ++ z :: U)) 2 (p.length + 1 - 1) =
      .ok (decide (p = List.replicate p.length x)) := by
    unfold memEq
    rw [if_pos (by simp; omega)]
    congr 1
    rw [Bool.eq_iff_iff, beq_iff_eq, decide_eq_true_iff, Nat.add_sub_cancel]
    simp only [List.drop_succ_cons, List.drop_zero]
    rw [List.take_append_of_le_length (le_refl _), List.take_length, ← List.cons_append,
      List.take_append_of_le_length (by simp)]
    exact run_of_shift x p
  rw [m1, ok_bind]
  by_cases c3 : p = List.replicate p.length x
  swap
  · rw [decide_eq_false c3]
    refine ⟨false, rfl, ?_⟩
    simp only [Bool.false_eq_true, false_iff]
    rintro ⟨_, _, _, _, h, _⟩
    exact c3 h
  rw [decide_eq_true c3]
  simp only [Bool.not_true, Bool.false_eq_true, if_false]
  have m2 : memEq (a :: b :: x :: (p ++ z :: U)) (3 + (p.length + 1)) T 0 T.length = .ok (decide (U = T)) := by
    unfold memEq
    rw [if_pos (by simp; omega)]
    congr 1
    rw [Bool.eq_iff_iff, beq_iff_eq, decide_eq_true_iff]
    rw [show 3 + (p.length + 1) = (p.length + 1) + 1 + 1 + 1 by omega]
    simp only [List.drop_succ_cons, List.drop_zero, List.take_length]
    rw [List.drop_append, List.drop_of_length_le (by omega)]
    simp [← hU]
  rw [m2]
  refine ⟨_, rfl, ?_⟩
  rw [decide_eq_true_iff]
  constructor
  · intro h; exact ⟨c1.1, c1.2, c2.1, c2.2, c3, h⟩
  · rintro ⟨_, _, _, _, _, h⟩; exact h

theorem pkcs1_accepted {me : ModExp} {n e sig T : List Byte} (h : pkcs1Verify me T.length n e sig (.ok T) = .ok true) :
    ∃ em, rsavp1 me n e sig = .ok em ∧ Spec.IsEmsaPkcs1 T em.length em := by
  by_cases hl : sig.length = n.length
  swap
  · unfold pkcs1Verify at h
    rw [if_pos hl] at h
    cases h
  cases hr : rsavp1 me n e sig with
  | error x =>
    unfold pkcs1Verify at h
    rw [if_neg (by simpa using hl)] at h
    simp only [hr, error_bind, pure_bind] at h
    cases h
  | ok em =>
    obtain ⟨b, h1, h2⟩ := pkcs1_on (T := T) hl hr
    rw [h] at h1
    cases h1
    exact ⟨em, rfl, h2.1 rfl⟩

theorem memEq_true {a b : List Byte} {k : Nat} (ha : a.length = k) (hb : b.length = k) (h : memEq a 0 b 0 k = .ok true) : a = b := by
  unfold memEq at h
  rw [if_pos (by omega)] at h
  have h := Except.ok.inj h
  rw [beq_iff_eq] at h
  rwa [List.drop_zero, List.drop_zero, List.take_of_length_le ha.le, List.take_of_length_le hb.le] at h

/-- What PSS verification compares does not depend on the digest except through one hash. -/
theorem pss_accepted {W : Nat} {me : ModExp} {H : Hash} {hLen : Nat} {n e sig : List Byte} {saltLen : Option (BitVec 32)} {d1 d2 : List Byte}
    (hH : ∀ x, (H x).length = hLen)
    (h1 : pssVerify W me H hLen n e saltLen d1 sig = .ok true) (h2 : pssVerify W me H hLen n e saltLen d2 sig = .ok true) :
    ∃ salt : List Byte, salt.length = (saltLen.map BitVec.toNat).getD hLen ∧
      H (List.replicate 8 0x00 ++ d1 ++ salt) = H (List.replicate 8 0x00 ++ d2 ++ salt) := by
  have ex : ∀ {α β : Type} {x : Res α} {f : α → Res β} {b : β}, (x >>= f) = .ok b → ∃ a, x = .ok a ∧ f a = .ok b := by
    intro α β x f b h
    cases x with
    | error y => cases h
    | ok a => exact ⟨a, rfl, h⟩
  unfold pssVerify at h1 h2
  by_cases c0 : sig.length ≠ n.length
  · rw [if_pos c0] at h1; cases h1
  rw [if_neg c0] at h1 h2
  simp only [pure_bind] at h1 h2
  obtain ⟨em, r1, h1⟩ := ex h1
  obtain ⟨em', r2, h2⟩ := ex h2
  obtain rfl : em = em' := Except.ok.inj (r1.symm.trans r2)
  split at h1
  · cases h1
  rename_i c1
  rw [if_neg c1] at h2
  obtain ⟨x, r1, h1⟩ := ex h1
  obtain ⟨x', r2, h2⟩ := ex h2
  obtain rfl : x = x' := Except.ok.inj (r1.symm.trans r2)
  split at h1
  · cases h1
  rename_i c2
  rw [if_neg c2] at h2
  obtain ⟨y, r1, h1⟩ := ex h1
  obtain ⟨y', r2, h2⟩ := ex h2
  obtain rfl : y = y' := Except.ok.inj (r1.symm.trans r2)
  split at h1
  · cases h1
  rename_i c3
  rw [if_neg c3] at h2
  split at h1
  · cases h1
  rename_i c4
  rw [if_neg c4] at h2
  obtain ⟨u, r1, h1⟩ := ex h1
  obtain ⟨u', r2, h2⟩ := ex h2
  obtain rfl : u = u' := Except.ok.inj (r1.symm.trans r2)
  obtain ⟨db, r1, h1⟩ := ex h1
  obtain ⟨db', r2, h2⟩ := ex h2
  obtain rfl : db = db' := Except.ok.inj (r1.symm.trans r2)
  obtain ⟨z, r1, h1⟩ := ex h1
  obtain ⟨z', r2, h2⟩ := ex h2
  obtain rfl : z = z' := Except.ok.inj (r1.symm.trans r2)
  split at h1
  · cases h1
  rename_i c5
  rw [if_neg c5] at h2
  split at h1
  · cases h1
  rename_i c6
  rw [if_neg c6] at h2
  split at h1
  · cases h1
  split at h2
  · cases h2
  push Not at c6
  have lh : ((em.drop (em.length - hLen - 1)).take hLen).length = hLen := by
    rw [List.length_take, List.length_drop]; omega
  refine ⟨_, ?_, (memEq_true lh (hH _) h1).symm.trans (memEq_true lh (hH _) h2)⟩
  rw [List.length_drop]; omega

end Ack
