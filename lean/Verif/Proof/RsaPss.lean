import Verif.Proof.RsaPkcs
/-!
# PSS verification
-/
namespace Ack
open Big (Byte)

theorem zerosThenOne_spec (em : List Byte) : ∀ (c i : Nat), i + c < em.length →
    zerosThenOne em c i = .ok (decide ((em.drop i).take (c + 1) = List.replicate c 0x00 ++ [0x01])) := by
  intro c
  induction c with
  | zero =>
    intro i h
    unfold zerosThenOne rdByte
    rw [List.getElem?_eq_getElem (by omega)]
    simp only [ok_bind]
    congr 1
    rw [Bool.eq_iff_iff, beq_iff_eq, decide_eq_true_iff, List.drop_eq_getElem_cons (by omega : i < em.length)]
    simp only [List.take_succ_cons, List.take_zero, List.replicate_zero, List.nil_append, List.cons.injEq, and_true]
  | succ c ih =>
    intro i h
    unfold zerosThenOne rdByte
    rw [List.getElem?_eq_getElem (by omega)]
    simp only [ok_bind]
    rw [List.drop_eq_getElem_cons (by omega : i < em.length), List.take_succ_cons, List.replicate_succ, List.cons_append]
    split
    · rename_i h0
      congr 1; symm; rw [decide_eq_false_iff_not]
      intro hh
      rw [List.cons.injEq] at hh
      exact h0 hh.1
    · rename_i h0
      rw [not_not] at h0
      rw [ih (i + 1) (by omega)]
      congr 2
      rw [List.cons.injEq]
      simp [h0]

theorem bitLen_top {n : List Byte} (h : ∃ b ∈ n.head?, 128 ≤ b.toNat) : Spec.bitLen (beVal n) = 8 * n.length := by
  obtain ⟨b, hb, h128⟩ := h
  obtain ⟨t, rfl⟩ : ∃ t, n = b :: t := by
    cases n with
    | nil => simp at hb
    | cons x t => simp at hb; exact ⟨t, by rw [hb]⟩
  have h1 := beVal_lt t
  have h2 := b.isLt
  have hlow : 2 ^ (8 * t.length + 7) ≤ beVal (b :: t) := by
    rw [beVal, pow_add, pow_mul]
    calc (2 ^ 8) ^ t.length * 2 ^ 7 = 128 * 256 ^ t.length := by norm_num; ring
      _ ≤ b.toNat * 256 ^ t.length := Nat.mul_le_mul_right _ h128
      _ ≤ _ := Nat.le_add_right _ _
  have hup : beVal (b :: t) < 2 ^ (8 * t.length + 7 + 1) := by
    have := beVal_lt (b :: t)
    calc beVal (b :: t) < 256 ^ (t.length + 1) := by simpa using this
      _ = 2 ^ (8 * (t.length + 1)) := by rw [pow_mul]; norm_num
      _ = _ := by congr 1
  have hne : beVal (b :: t) ≠ 0 := by
    have : 0 < 2 ^ (8 * t.length + 7) := by positivity
    omega
  unfold Spec.bitLen
  rw [if_neg hne]
  have : Nat.log2 (beVal (b :: t)) = 8 * t.length + 7 := by
    rw [Nat.log2_eq_iff hne]; exact ⟨hlow, hup⟩
  rw [this]; simp; omega

theorem mask_iff : ∀ b : Byte, (b &&& (0xff : Byte) ≠ b &&& ((0xff : Byte) >>> 1)) ↔ ¬ b.toNat < 128 := by decide +kernel

theorem mask_eq : ∀ b : Byte, b &&& ((0xff : Byte) >>> 1) = BitVec.ofNat 8 (b.toNat % 128) := by decide +kernel

theorem pss_split {em : List Byte} {h : Nat} (hl : h + 2 ≤ em.length) :
    ∃ x m Hh z, em = (x :: m) ++ Hh ++ [z] ∧ (x :: m).length = em.length - h - 1 ∧ Hh.length = h := by
  obtain ⟨x, em', rfl⟩ : ∃ a l, em = a :: l := by cases em <;> simp_all
  simp only [List.length_cons] at hl
  have e1 : em'.length ≠ 0 := by omega
  refine ⟨x, em'.take (em'.length - h - 1), (em'.drop (em'.length - h - 1)).take h, em'.getLast (by rintro rfl; simp at e1), ?_, ?_, ?_⟩
  · rw [List.cons_append, List.cons_append, List.append_assoc]
    congr 1
    have : (em'.drop (em'.length - h - 1)).take h ++ [em'.getLast (by rintro rfl; simp at e1)] = em'.drop (em'.length - h - 1) := by
      apply List.ext_getElem?
      intro i
      by_cases hi : i < h
      · rw [List.getElem?_append_left (by simp; omega), List.getElem?_take_of_lt hi]
      · rw [List.getElem?_append_right (by simp; omega)]
        simp only [List.length_take, List.length_drop]
        rw [show i - min h (em'.length - (em'.length - h - 1)) = i - h by congr 1; omega]
        by_cases hi2 : i = h
        · subst hi2
          rw [Nat.sub_self, List.getElem?_cons_zero, List.getElem?_drop, List.getElem?_eq_getElem (by omega),
            List.getLast_eq_getElem]
          congr 2
          omega
        · rw [List.getElem?_eq_none (by simp; omega), List.getElem?_eq_none (by simp; omega)]
    rw [this, List.take_append_drop]
  · simp; omega
  · simp; omega

theorem pssVerify_range {W : Nat} {me : ModExp} {H : Hash} {hLen : Nat} {n e digest sig : List Byte} {R : Prop}
    {saltLen : Option (BitVec 32)} {sLen : Nat} (hk : 1 ≤ n.length)
    (hrs : sig.length = n.length → ∃ out, rsavp1 me n e sig = .ok out ∧
      ((¬ R ∧ out = []) ∨ (R ∧ out.length = n.length ∧ beVal out = beVal sig ^ beVal e % beVal n)))
    (hH : ∀ x, (H x).length = hLen) (h0 : 0 < hLen) (hd : digest.length = hLen)
    (hs : sLen = (saltLen.map BitVec.toNat).getD hLen) (hW : 8 + hLen + sLen < 2 ^ W) :
    ∃ b, pssVerify W me H hLen n e saltLen digest sig = .ok b ∧ (b = true ↔ (sig.length = n.length ∧ R ∧
      ∃ EM : Spec.Octets, EM.length = n.length ∧ beVal EM = beVal sig ^ beVal e % beVal n ∧
        Spec.PssConsistent H hLen sLen digest EM (8 * n.length - 1))) := by
  unfold pssVerify
  by_cases hl : sig.length = n.length
  swap
  · rw [if_pos hl]
    exact ⟨false, rfl, by simp [hl]⟩
  rw [if_neg (by simpa using hl)]
  obtain ⟨em, hr, hcase⟩ := hrs hl
  simp only [hr, ok_bind, pure_bind, ← hs]
  rw [Nat.mod_eq_of_lt (by omega : hLen + sLen + 2 < 2 ^ W), Nat.mod_eq_of_lt hW]
  rcases hcase with ⟨hge, rfl⟩ | ⟨hlt, heml, hemv⟩
  · rw [if_pos (by simp)]
    exact ⟨false, rfl, by simp [hge]⟩
  have hval : (sig.length = n.length ∧ R ∧
      ∃ EM : Spec.Octets, EM.length = n.length ∧ beVal EM = beVal sig ^ beVal e % beVal n ∧
        Spec.PssConsistent H hLen sLen digest EM (8 * n.length - 1)) ↔
      Spec.PssConsistent H hLen sLen digest em (8 * em.length - 1) := by
    rw [← heml]
    constructor
    · rintro ⟨_, _, EM, h1, h2, h3⟩
      have : EM = em := beVal_inj (by omega) (by omega)
      rw [← this]; rw [← this] at h3; exact h3
    · intro h
      exact ⟨by omega, hlt, em, rfl, hemv, h⟩
  rw [hval]
  have hk' : 1 ≤ em.length := by omega
  clear hval hr hemv
  unfold Spec.PssConsistent
  rw [show (8 * em.length - 1 + 7) / 8 = em.length by omega]
  dsimp only
  rw [show 8 * em.length - (8 * em.length - 1) = 1 by omega]
  by_cases hsz : em.length < hLen + sLen + 2
  · rw [if_pos hsz]
    refine ⟨false, rfl, ?_⟩
    simp only [Bool.false_eq_true, false_iff]
    rintro ⟨h, _⟩; omega
  rw [if_neg hsz]
  obtain ⟨x, m, Hh, z, hem, hml, hHl⟩ := pss_split (h := hLen) (by omega : hLen + 2 ≤ em.length)
  have hlen : em.length = m.length + 1 + hLen + 1 := by rw [hem]; simp [hHl]; omega
  have hm1 : em.length - hLen - 1 = m.length + 1 := by rw [hlen]; omega
  have hiff : ∀ b : Bool,
      (b = true ↔ (hLen + sLen + 2 ≤ em.length ∧ z = 0xbc ∧ x.toNat < 128 ∧ ∃ salt,
        Spec.clearTop 1 (List.zipWith (· ^^^ ·) (x :: m) (Spec.mgf1 H hLen Hh (m.length + 1))) =
          List.replicate (em.length - hLen - sLen - 2) 0x00 ++ [0x01] ++ salt ∧ salt.length = sLen ∧
        H (List.replicate 8 0x00 ++ digest ++ salt) = Hh)) →
      (b = true ↔ (hLen + sLen + 2 ≤ em.length ∧ ∃ maskedDB Hh salt : Spec.Octets,
        em = maskedDB ++ Hh ++ [0xbc] ∧ maskedDB.length = em.length - hLen - 1 ∧ Hh.length = hLen ∧
        Spec.TopZero 1 maskedDB ∧
        Spec.clearTop 1 (List.zipWith (· ^^^ ·) maskedDB (Spec.mgf1 H hLen Hh (em.length - hLen - 1))) =
          List.replicate (em.length - hLen - sLen - 2) 0x00 ++ [0x01] ++ salt ∧ salt.length = sLen ∧
        H (List.replicate 8 0x00 ++ digest ++ salt) = Hh)) := by
    intro b hb
    rw [hb]
    constructor
    · rintro ⟨h1, h2, h3, salt, h4, h5, h6⟩
      refine ⟨h1, x :: m, Hh, salt, ?_, hml, hHl, ?_, ?_, h5, h6⟩
      · rw [← h2]; exact hem
      · intro b hb; simp at hb; subst hb; exact h3
      · rw [hm1]; exact h4
    · rintro ⟨h1, mdb, Hh', salt, h2, h3, h4, h5, h6, h7, h8⟩
      rw [hem] at h2
      have e1 := List.append_inj h2 (by simp at *; omega)
      have e2 := List.append_inj e1.1 (by rw [hml, h3])
      obtain ⟨rfl, rfl⟩ := e2
      have ez : z = 0xbc := by simpa using e1.2
      refine ⟨h1, ez, ?_, salt, ?_, h7, h8⟩
      · exact h5 x (by simp)
      · rw [hm1] at h6; exact h6
  have rl : rdByte em (em.length - 1) = .ok z := by
    unfold rdByte
    rw [show em.length - 1 = ((x :: m) ++ Hh).length by simp; omega]
    rw [hem]; simp
  have r0 : rdByte em 0 = .ok x := by rw [hem]; rfl
  rw [rl, ok_bind]
  by_cases c1 : z = 0xbc
  swap
  · rw [if_pos c1]
    refine ⟨false, rfl, hiff _ ?_⟩
    simp only [Bool.false_eq_true, false_iff]
    rintro ⟨_, h, _⟩; exact c1 h
  rw [if_neg (by simpa using c1), r0, ok_bind]
  by_cases c2 : x.toNat < 128
  swap
  · rw [if_pos ((mask_iff x).2 c2)]
    refine ⟨false, rfl, hiff _ ?_⟩
    simp only [Bool.false_eq_true, false_iff]
    rintro ⟨_, _, h, _⟩; exact c2 h
  rw [if_neg (fun h => (mask_iff x).1 h c2), if_neg (by omega)]
  have hx : em.length - hLen - 1 = (x :: m).length := hml.symm
  rw [hx] at hiff ⊢
  have t1 : em.take (x :: m).length = x :: m := by
    rw [hem, List.append_assoc, List.take_append_of_le_length (le_refl _), List.take_length]
  have t2 : em.drop (x :: m).length = Hh ++ [z] := by
    rw [hem, List.append_assoc, List.drop_append_of_le_length (le_refl _), List.drop_length, List.nil_append]
  have t3 : (Hh ++ [z]).take hLen = Hh := by
    rw [← hHl, List.take_append_of_le_length (le_refl _), List.take_length]
  rw [t1, t2, t3, mgf1_spec hH h0 memxor_is, ok_bind]
  have hgl := spec_mgf1_length hH h0 Hh (x :: m).length
  generalize hg : Spec.mgf1 H hLen Hh (x :: m).length = g at hgl
  obtain ⟨g0, gt, rfl⟩ : ∃ a l, g = a :: l := by
    cases g with
    | nil => simp at hgl
    | cons a l => exact ⟨a, l, rfl⟩
  have hgt : gt.length = m.length := by simpa using hgl
  rw [List.zipWith_cons_cons]
  have ha : andHead ((0xff : Byte) >>> 1) ((x ^^^ g0) :: List.zipWith (· ^^^ ·) m gt) =
      .ok (Spec.clearTop 1 ((x ^^^ g0) :: List.zipWith (· ^^^ ·) m gt)) := by
    show Except.ok (((x ^^^ g0) &&& ((0xff : Byte) >>> 1)) :: _) = _
    rw [mask_eq]
    rfl
  rw [ha, ok_bind]
  have hdl : (Spec.clearTop 1 ((x ^^^ g0) :: List.zipWith (· ^^^ ·) m gt)).length = m.length + 1 := by
    simp [Spec.clearTop, hgt]
  have hsub : ∀ salt : List Byte, (Spec.clearTop 1 (List.zipWith (· ^^^ ·) (x :: m) (Spec.mgf1 H hLen Hh (m.length + 1))) =
      List.replicate (em.length - hLen - sLen - 2) 0x00 ++ [0x01] ++ salt ↔
      Spec.clearTop 1 ((x ^^^ g0) :: List.zipWith (· ^^^ ·) m gt) =
      List.replicate (em.length - hLen - sLen - 2) 0x00 ++ [0x01] ++ salt) := by
    intro salt
    rw [show m.length + 1 = (x :: m).length from rfl, hg, List.zipWith_cons_cons]
  simp only [hsub] at hiff
  revert hdl hiff
  generalize Spec.clearTop 1 ((x ^^^ g0) :: List.zipWith (· ^^^ ·) m gt) = db
  intro hdl hiff
  have hdl2 : (db ++ (Hh ++ [z])).length = em.length := by simp; omega
  rw [hdl2, zerosThenOne_spec _ _ _ (by rw [hdl2]; omega), ok_bind]
  rw [List.drop_zero, List.take_append_of_le_length (by omega)]
  have hcnt : em.length - (hLen + sLen + 2) = em.length - hLen - sLen - 2 := by omega
  rw [hcnt]
  generalize hc : em.length - hLen - sLen - 2 = c at hiff
  by_cases c3 : db.take (c + 1) = List.replicate c 0x00 ++ [0x01]
  swap
  · rw [decide_eq_false c3]
    refine ⟨false, rfl, hiff _ ?_⟩
    simp only [Bool.false_eq_true, false_iff]
    rintro ⟨_, _, _, salt, h, _⟩
    apply c3
    rw [h, List.take_append_of_le_length (by simp), List.take_of_length_le (by simp)]
  rw [decide_eq_true c3]
  simp only [Bool.not_true, Bool.false_eq_true, if_false]
  rw [if_neg (by omega), if_neg (by simpa using hd)]
  have hsp : db = List.replicate c 0x00 ++ [0x01] ++ db.drop (db.length - sLen) := by
    rw [← c3, show db.length - sLen = c + 1 by omega, List.take_append_drop]
  have hmem : memEq Hh 0 (H (List.replicate 8 0 ++ digest ++ db.drop (db.length - sLen))) 0 hLen =
      .ok (decide (H (List.replicate 8 0 ++ digest ++ db.drop (db.length - sLen)) = Hh)) := by
    unfold memEq
    rw [if_pos (by rw [hH]; omega)]
    congr 1
    rw [Bool.eq_iff_iff, beq_iff_eq, decide_eq_true_iff, List.drop_zero, List.drop_zero,
      List.take_of_length_le (by omega), List.take_of_length_le (by rw [hH])]
    exact eq_comm
  rw [hmem]
  refine ⟨_, rfl, hiff _ ?_⟩
  rw [decide_eq_true_iff]
  constructor
  · intro h
    exact ⟨by omega, c1, c2, _, hsp, by simp; omega, h⟩
  · rintro ⟨_, _, _, salt, h1, h2, h3⟩
    have : db.drop (db.length - sLen) = salt := by
      have hcl : db.length - sLen = (List.replicate c (0x00 : BitVec 8) ++ [0x01]).length := by
        rw [h1]; simp only [List.length_append, List.length_replicate, h2]; omega
      rw [hcl, h1, List.drop_append_of_le_length (le_refl _), List.drop_length, List.nil_append]
    rw [this]; exact h3

theorem pssVerify_spec {W : Nat} {me : ModExp} {H : Hash} {hLen : Nat} {n e digest sig : List Byte}
    {saltLen : Option (BitVec 32)} {sLen : Nat} (hn : ∃ b ∈ n.head?, 128 ≤ b.toNat) (hme : ModExpAt me n e) (he : e ≠ [])
    (he64 : beVal e < 2 ^ 64) (hH : ∀ x, (H x).length = hLen) (h0 : 0 < hLen) (hd : digest.length = hLen)
    (hs : sLen = (saltLen.map BitVec.toNat).getD hLen) (hW : 8 + hLen + sLen < 2 ^ W) :
    ∃ b, pssVerify W me H hLen n e saltLen digest sig = .ok b ∧ (b = true ↔ Spec.PssValid H hLen sLen n e digest sig) := by
  have hn' : ∃ b ∈ n.head?, b ≠ 0 := by
    obtain ⟨b, h1, h2⟩ := hn
    refine ⟨b, h1, ?_⟩
    rintro rfl; simp at h2
  have hk : 1 ≤ n.length := by
    obtain ⟨b, h1, _⟩ := hn
    cases n with
    | nil => simp at h1
    | cons x t => simp
  have hbl := bitLen_top hn
  obtain ⟨b, h1, h2⟩ := pssVerify_range (W := W) (sig := sig) hk (rsavp1_spec hn' hme he he64) hH h0 hd hs hW
  refine ⟨b, h1, h2.trans ?_⟩
  unfold Spec.PssValid
  simp only [hbl]
  rw [show (8 * n.length - 1 + 7) / 8 = n.length by omega]

theorem pssVerify_loose {W : Nat} {me : ModExp} {H : Hash} {hLen : Nat} {n e digest sig : List Byte}
    {saltLen : Option (BitVec 32)} {sLen : Nat} (hn : n ≠ []) (hme : ModExpAll me n e) (he : e ≠ [])
    (he64 : beVal e < 2 ^ 64) (hH : ∀ x, (H x).length = hLen) (h0 : 0 < hLen) (hd : digest.length = hLen)
    (hs : sLen = (saltLen.map BitVec.toNat).getD hLen) (hW : 8 + hLen + sLen < 2 ^ W) :
    ∃ b, pssVerify W me H hLen n e saltLen digest sig = .ok b ∧ (b = true ↔ Spec.PssLoose H hLen sLen n e digest sig) :=
  pssVerify_range (List.length_pos_iff.2 hn) (rsavp1_loose hn hme he he64) hH h0 hd hs hW

end Ack
