import Verif.Proof.Rsa
/-!
# PKCS #1 v1.5 verification
-/
namespace Ack
open Big (Byte)

theorem rsavp1_spec {me : ModExp} {n e s : List Byte} (hn : ∃ b ∈ n.head?, b ≠ 0) (hme : ModExpAt me n e) (he : e ≠ [])
    (he64 : beVal e < 2 ^ 64) (hl : s.length = n.length) :
    ∃ out, rsavp1 me n e s = .ok out ∧
      ((¬ beVal s < beVal n ∧ out = []) ∨
       (beVal s < beVal n ∧ out.length = n.length ∧ beVal out = beVal s ^ beVal e % beVal n)) := by
  unfold rsavp1
  rw [isSValid_exact hn, ok_bind]
  by_cases h : beVal s < beVal n
  · obtain ⟨out, h1, h2, h3⟩ := powm_spec hme he he64 hl h
    refine ⟨out, ?_, .inr ⟨h, h2, h3⟩⟩
    rw [decide_eq_true h]; simpa using h1
  · refine ⟨[], ?_, .inl ⟨h, rfl⟩⟩
    rw [decide_eq_false h]; rfl

theorem leadZeros_eq : ∀ x : List Byte, leadZeros x = Spec.leadingZeros x
  | [] => rfl
  | b :: t => by
    unfold leadZeros Spec.leadingZeros
    by_cases h : b = 0
    · rw [if_pos h, List.takeWhile_cons_of_pos (by simpa using h), leadZeros_eq t]; rfl
    · rw [if_neg h, List.takeWhile_cons_of_neg (by simpa using h)]; rfl

theorem rdByte_lt {l : List Byte} {i : Nat} (h : i < l.length) : rdByte l i = .ok l[i] := by
  unfold rdByte; rw [List.getElem?_eq_getElem h]

theorem looseRange_iff {s n : List Byte} :
    (beVal s = 0 ∨ leadZeros s < leadZeros n ∨ beVal s < beVal n) ↔ Spec.LooseRange n s := by
  unfold Spec.LooseRange
  rw [leadZeros_eq, leadZeros_eq]
  tauto

theorem rsavp1_loose {me : ModExp} {n e s : List Byte} (hn : n ≠ []) (hme : ModExpAll me n e) (he : e ≠ [])
    (he64 : beVal e < 2 ^ 64) (hl : s.length = n.length) :
    ∃ out, rsavp1 me n e s = .ok out ∧
      ((¬ Spec.LooseRange n s ∧ out = []) ∨
       (Spec.LooseRange n s ∧ out.length = n.length ∧ beVal out = beVal s ^ beVal e % beVal n)) := by
  have hiff := looseRange_iff (s := s) (n := n)
  unfold rsavp1
  rw [isSValid_spec, ok_bind]
  by_cases h : Spec.LooseRange n s
  · obtain ⟨out, h1, h2, h3⟩ := powm_at (fun h => hn (List.length_eq_zero_iff.1 h)) (hme s hl) he he64 hl
    refine ⟨out, ?_, .inr ⟨h, h2, h3⟩⟩
    rw [decide_eq_true (hiff.2 h)]; simpa using h1
  · refine ⟨[], ?_, .inl ⟨h, rfl⟩⟩
    rw [decide_eq_false (fun h' => h (hiff.1 h'))]; rfl

theorem run_of_shift : ∀ (x : Byte) (p : List Byte), p = (x :: p).take p.length ↔ p = List.replicate p.length x := by
  intro x p
  induction p generalizing x with
  | nil => simp
  | cons y p ih =>
    simp only [List.length_cons, List.take_succ_cons, List.replicate_succ, List.cons.injEq]
    constructor
    · rintro ⟨rfl, h⟩; exact ⟨rfl, (ih y).1 h⟩
    · rintro ⟨rfl, h⟩; exact ⟨rfl, (ih y).2 h⟩

theorem split_em {em : List Byte} {t : Nat} (h : t + 11 ≤ em.length) :
    ∃ a b x p z T, em = a :: b :: x :: (p ++ z :: T) ∧ T.length = t ∧ p.length = em.length - t - 4 := by
  obtain ⟨a, l1, rfl⟩ : ∃ a l, em = a :: l := by cases em <;> simp_all
  obtain ⟨b, l2, rfl⟩ : ∃ a l, l1 = a :: l := by cases l1 <;> simp_all
  obtain ⟨x, l3, rfl⟩ : ∃ a l, l2 = a :: l := by cases l2 <;> simp_all
  simp only [List.length_cons] at h
  refine ⟨a, b, x, l3.take (l3.length - t - 1), (l3.drop (l3.length - t - 1)).headD 0, (l3.drop (l3.length - t - 1)).tail,
    ?_, ?_, ?_⟩
  · have hd : 0 < (l3.drop (l3.length - t - 1)).length := by simp; omega
    have : (l3.drop (l3.length - t - 1)).headD 0 :: (l3.drop (l3.length - t - 1)).tail = l3.drop (l3.length - t - 1) := by
      revert hd; cases l3.drop (l3.length - t - 1) <;> simp
    rw [this, List.take_append_drop]
  · simp; omega
  · simp; omega

theorem emsa_iff {a b x z : Byte} {p T U : List Byte} (hT : T.length = U.length) (hp : 7 ≤ p.length) :
    Spec.IsEmsaPkcs1 U (a :: b :: x :: (p ++ z :: T)).length (a :: b :: x :: (p ++ z :: T)) ↔
      a = 0x00 ∧ b = 0x01 ∧ x = 0xff ∧ z = 0x00 ∧ p = List.replicate p.length x ∧ T = U := by
  constructor
  · rintro ⟨ps, h8, he, hl⟩
    obtain ⟨ps, rfl⟩ : ∃ q, ps = q + 1 := ⟨ps - 1, by omega⟩
    simp only [List.replicate_succ, List.cons_append, List.nil_append, List.append_assoc, List.cons.injEq] at he
    obtain ⟨h1, h2, h3, h4⟩ := he
    have hpl : p.length = ps := by
      have := congrArg List.length h4
      simp at this; omega
    have h5 := List.append_inj h4 (by simpa using hpl)
    simp only [List.cons.injEq] at h5
    refine ⟨h1, h2, h3, h5.2.1, ?_, h5.2.2⟩
    rw [h5.1, h3]; simp
  · rintro ⟨rfl, rfl, rfl, rfl, h, rfl⟩
    refine ⟨p.length + 1, by omega, ?_, rfl⟩
    rw [List.replicate_succ, ← h]
    simp

theorem pkcs1Verify_range {me : ModExp} {n e sig T : List Byte} {R : Prop}
    (hrs : sig.length = n.length → ∃ out, rsavp1 me n e sig = .ok out ∧
      ((¬ R ∧ out = []) ∨ (R ∧ out.length = n.length ∧ beVal out = beVal sig ^ beVal e % beVal n))) :
    ∃ b, pkcs1Verify me T.length n e sig (.ok T) = .ok b ∧ (b = true ↔ (sig.length = n.length ∧ R ∧
      ∃ EM, Spec.IsEmsaPkcs1 T n.length EM ∧ beVal EM = beVal sig ^ beVal e % beVal n)) := by
  unfold pkcs1Verify
  by_cases hl : sig.length = n.length
  swap
  · rw [if_pos hl]
    exact ⟨false, rfl, by simp [hl]⟩
  rw [if_neg (by simpa using hl)]
  obtain ⟨em, hr, hcase⟩ := hrs hl
  simp only [hr, ok_bind, pure_bind]
  rcases hcase with ⟨hge, rfl⟩ | ⟨hlt, heml, hemv⟩
  · rw [if_pos (by simp)]
    exact ⟨false, rfl, by simp [hge]⟩
  by_cases hsz : em.length < T.length + 11
  · rw [if_pos hsz]
    refine ⟨false, rfl, ?_⟩
    simp only [Bool.false_eq_true, false_iff]
    rintro ⟨_, _, EM, ⟨ps, h8, hE, hEl⟩, _⟩
    rw [hE] at hEl
    simp at hEl
    omega
  rw [if_neg hsz]
  obtain ⟨a, b, x, p, z, U, hem, hU, hp⟩ := split_em (t := T.length) (by omega : T.length + 11 ≤ em.length)
  have hval : (sig.length = n.length ∧ R ∧
      ∃ EM, Spec.IsEmsaPkcs1 T n.length EM ∧ beVal EM = beVal sig ^ beVal e % beVal n) ↔ Spec.IsEmsaPkcs1 T em.length em := by
    constructor
    · rintro ⟨_, _, EM, hE, hv⟩
      have hEl : EM.length = n.length := hE.choose_spec.2.2
      have : EM = em := beVal_inj (by omega) (by omega)
      rw [heml, ← this]; exact hE
    · intro h
      exact ⟨hl, hlt, em, by rw [← heml]; exact h, hemv⟩
  rw [hval]
  clear hval hrs hemv hr
  have hplen : 7 ≤ p.length := by omega
  have hps : em.length - T.length - 3 = p.length + 1 := by omega
  rw [hps]
  clear hsz
  subst hem
  rw [emsa_iff hU hplen]
  have r0 : rdByte (a :: b :: x :: (p ++ z :: U)) 0 = .ok a := rfl
  have r1 : rdByte (a :: b :: x :: (p ++ z :: U)) 1 = .ok b := rfl
  have r2 : rdByte (a :: b :: x :: (p ++ z :: U)) 2 = .ok x := rfl
  have r3 : rdByte (a :: b :: x :: (p ++ z :: U)) (2 + (p.length + 1)) = .ok z := by
    unfold rdByte
    rw [show 2 + (p.length + 1) = p.length + 1 + 1 + 1 by omega]
    simp
  rw [r0, r1, r2, r3]
  simp only [ok_bind]
  by_cases c1 : a ≠ 0x00 ∨ b ≠ 0x01
  · rw [if_pos c1]
    refine ⟨false, rfl, ?_⟩
    simp only [Bool.false_eq_true, false_iff]
    rintro ⟨h1, h2, _⟩
    rcases c1 with h | h
    · exact h h1
    · exact h h2
  rw [if_neg c1]
  by_cases c2 : x ≠ 0xff ∨ z ≠ 0x00
  · rw [if_pos c2]
    refine ⟨false, rfl, ?_⟩
    simp only [Bool.false_eq_true, false_iff]
    rintro ⟨_, _, h1, h2, _⟩
    rcases c2 with h | h
    · exact h h1
    · exact h h2
  rw [if_neg c2]
  push Not at c1 c2
  have m1 : memEq (a :: b :: x :: (p ++ z :: U)) 3 (a :: b :: x :: (p ++ z :: U)) 2 (p.length + 1 - 1) =
      .ok (decide (p = List.replicate p.length x)) := by
    unfold memEq
    rw [if_pos (by simp; omega)]
    congr 1
    rw [Bool.eq_iff_iff, beq_iff_eq, decide_eq_true_iff, Nat.add_sub_cancel]
    simp only [List.drop_succ_cons, List.drop_zero]
    rw [List.take_append_of_le_length (le_refl _), List.take_length, ← List.cons_append,
      List.take_append_of_le_length (by simp)]
    exact run_of_shift x p
  rw [m1, ok_bind]
  by_cases c3 : p = List.replicate p.length x
  swap
  · rw [decide_eq_false c3]
    refine ⟨false, rfl, ?_⟩
    simp only [Bool.false_eq_true, false_iff]
    rintro ⟨_, _, _, _, h, _⟩
    exact c3 h
  rw [decide_eq_true c3]
  simp only [Bool.not_true, Bool.false_eq_true, if_false]
  have m2 : memEq (a :: b :: x :: (p ++ z :: U)) (3 + (p.length + 1)) T 0 T.length = .ok (decide (U = T)) := by
    unfold memEq
    rw [if_pos (by simp; omega)]
    congr 1
    rw [Bool.eq_iff_iff, beq_iff_eq, decide_eq_true_iff]
    rw [show 3 + (p.length + 1) = (p.length + 1) + 1 + 1 + 1 by omega]
    simp only [List.drop_succ_cons, List.drop_zero, List.take_length]
    rw [List.drop_append, List.drop_of_length_le (by omega)]
    simp [← hU]
  rw [m2]
  refine ⟨_, rfl, ?_⟩
  rw [decide_eq_true_iff]
  constructor
  · intro h; exact ⟨c1.1, c1.2, c2.1, c2.2, c3, h⟩
  · rintro ⟨_, _, _, _, _, h⟩; exact h

theorem pkcs1Verify_spec {me : ModExp} {n e sig T : List Byte} (hn : ∃ b ∈ n.head?, b ≠ 0) (hme : ModExpAt me n e)
    (he : e ≠ []) (he64 : beVal e < 2 ^ 64) :
    ∃ b, pkcs1Verify me T.length n e sig (.ok T) = .ok b ∧ (b = true ↔ Spec.Pkcs1Valid n e T sig) :=
  pkcs1Verify_range (rsavp1_spec hn hme he he64)

theorem pkcs1Verify_loose {me : ModExp} {n e sig T : List Byte} (hn : n ≠ []) (hme : ModExpAll me n e)
    (he : e ≠ []) (he64 : beVal e < 2 ^ 64) :
    ∃ b, pkcs1Verify me T.length n e sig (.ok T) = .ok b ∧ (b = true ↔ Spec.Pkcs1Loose n e T sig) :=
  pkcs1Verify_range (rsavp1_loose hn hme he he64)

end Ack
