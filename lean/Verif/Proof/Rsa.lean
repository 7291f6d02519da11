import Verif.Model.Rsa
import Verif.Spec.Rsa
import Verif.Proof.Utils
/-!
# MGF1 and RSA verification
-/
namespace Ack
open Big (Byte)

/-! ## MGF1 -/

theorem be32_ofNat (i : Nat) : be32 (BitVec.ofNat 32 i) = Spec.i2osp4 i := by
  unfold be32 Spec.i2osp4
  congr 1
  · apply BitVec.eq_of_toNat_eq
    simp only [BitVec.toNat_setWidth, BitVec.toNat_and, BitVec.toNat_ushiftRight, BitVec.toNat_ofNat, Nat.shiftRight_eq_div_pow]
    rw [show BitVec.toNat (255 : BitVec 32) = 2 ^ 8 - 1 by decide, Nat.and_two_pow_sub_one_eq_mod]; omega
  congr 1
  · apply BitVec.eq_of_toNat_eq
    simp only [BitVec.toNat_setWidth, BitVec.toNat_and, BitVec.toNat_ushiftRight, BitVec.toNat_ofNat, Nat.shiftRight_eq_div_pow]
    rw [show BitVec.toNat (255 : BitVec 32) = 2 ^ 8 - 1 by decide, Nat.and_two_pow_sub_one_eq_mod]; omega
  congr 1
  · apply BitVec.eq_of_toNat_eq
    simp only [BitVec.toNat_setWidth, BitVec.toNat_and, BitVec.toNat_ushiftRight, BitVec.toNat_ofNat, Nat.shiftRight_eq_div_pow]
    rw [show BitVec.toNat (255 : BitVec 32) = 2 ^ 8 - 1 by decide, Nat.and_two_pow_sub_one_eq_mod]; omega
  congr 1
  · apply BitVec.eq_of_toNat_eq
    simp only [BitVec.toNat_setWidth, BitVec.toNat_and, BitVec.toNat_ofNat]
    rw [show BitVec.toNat (255 : BitVec 32) = 2 ^ 8 - 1 by decide, Nat.and_two_pow_sub_one_eq_mod]; omega

/-- What a `copy` callback does: combines byte by byte. -/
def CopyIs (copy : List Byte → List Byte → Nat → Res (List Byte)) (f : Byte → Byte → Byte) : Prop :=
  ∀ dst src len, len ≤ dst.length → len ≤ src.length →
    copy dst src len = .ok (List.zipWith f (dst.take len) (src.take len) ++ dst.drop len)

theorem copyBytes_is : CopyIs copyBytes (fun _ s => s) := by
  intro dst src len h1 h2
  unfold copyBytes
  rw [if_pos ⟨h1, h2⟩]
  congr 2
  apply List.ext_getElem
  · simp; omega
  · intro i h3 h4; simp

theorem memxor_is : CopyIs memxor (· ^^^ ·) := by
  intro dst src len h1 h2
  obtain ⟨r, hr, hl, hv⟩ := memxor_spec dst src len
  rw [hr]
  congr 1
  apply List.ext_getElem?
  intro j
  rw [hv j]
  have hlen : (List.zipWith (· ^^^ ·) (dst.take len) (src.take len)).length = len := by simp; omega
  split
  · rename_i h
    rw [List.getElem?_append_left (by rw [hlen]; omega), List.getElem?_zipWith]
    rw [List.getElem?_take_of_lt (by omega), List.getElem?_take_of_lt (by omega)]
    rw [List.getElem?_eq_getElem (by omega), List.getElem?_eq_getElem (by omega)]
    simp only [List.getD_eq_getElem?_getD]
    rw [List.getElem?_eq_getElem (by omega), List.getElem?_eq_getElem (by omega)]
    rfl
  · rename_i h
    rw [List.getElem?_append_right (by rw [hlen]; omega), hlen, List.getElem?_drop]
    congr 1; omega

/-- `k` blocks of the MGF1 stream from block `i`. -/
def mgfBlocks (H : Hash) (seed : List Byte) : (i k : Nat) → List Byte
  | _, 0 => []
  | i, k + 1 => H (seed ++ Spec.i2osp4 i) ++ mgfBlocks H seed (i + 1) k

theorem mgfBlocks_eq (H : Hash) (seed : List Byte) (k : Nat) : ∀ i,
    mgfBlocks H seed i k = ((List.range k).map fun j => H (seed ++ Spec.i2osp4 (i + j))).flatten := by
  induction k with
  | zero => intro i; rfl
  | succ k ih =>
    intro i
    rw [mgfBlocks, ih, List.range_succ_eq_map, List.map_cons, List.flatten_cons, List.map_map, Nat.add_zero]
    congr 3
    funext j
    simp only [Function.comp]
    congr 3
    omega

theorem mgfBlocks_length {H : Hash} {hLen : Nat} (hH : ∀ x, (H x).length = hLen) (seed : List Byte) (k : Nat) :
    ∀ i, (mgfBlocks H seed i k).length = k * hLen := by
  induction k with
  | zero => intro i; simp [mgfBlocks]
  | succ k ih => intro i; rw [mgfBlocks, List.length_append, ih, hH, Nat.succ_mul]; omega

theorem mgf1Loop_spec {H : Hash} {hLen : Nat} (hH : ∀ x, (H x).length = hLen) (h0 : 0 < hLen)
    {copy : List Byte → List Byte → Nat → Res (List Byte)} {f : Byte → Byte → Byte} (hc : CopyIs copy f) (seed : List Byte) :
    ∀ (fuel : Nat) (mask : List Byte) (i k : Nat), mask.length < fuel → mask.length ≤ k * hLen →
      mgf1Loop H copy seed fuel mask mask.length (BitVec.ofNat 32 i) =
        .ok (List.zipWith f mask ((mgfBlocks H seed i k).take mask.length)) := by
  intro fuel
  induction fuel with
  | zero => intro mask i k h; omega
  | succ fuel ih =>
    intro mask i k h1 h2
    unfold mgf1Loop
    by_cases hz : mask.length = 0
    · rw [if_pos hz, List.length_eq_zero_iff.1 hz]; simp
    · rw [if_neg hz]
      obtain ⟨k, rfl⟩ : ∃ k', k = k' + 1 := ⟨k - 1, by rcases k with _ | k <;> simp_all⟩
      rw [Nat.succ_mul] at h2
      simp only [be32_ofNat, hH]
      have hdl := hH (seed ++ Spec.i2osp4 i)
      rw [mgfBlocks]
      revert hdl
      generalize H (seed ++ Spec.i2osp4 i) = d
      intro hdl
      generalize hm : min hLen mask.length = c
      rw [hc mask d c (by omega) (by omega), ok_bind]
      have hzl : (List.zipWith f (mask.take c) (d.take c)).length = c := by simp; omega
      rw [if_pos (by simp; omega)]
      rw [List.drop_append_of_le_length (by omega), List.drop_of_length_le (by omega), List.nil_append]
      have hml : (mask.drop c).length = mask.length - c := by simp
      rw [← hml, show BitVec.ofNat 32 i + 1 = BitVec.ofNat 32 (i + 1) by
        apply BitVec.eq_of_toNat_eq; simp [BitVec.toNat_add, BitVec.toNat_ofNat]]
      rw [ih (mask.drop c) (i + 1) k (by omega) (by omega), ok_bind]
      congr 1
      rw [List.take_append_of_le_length (by omega), List.take_of_length_le (by omega), hml]
      rw [List.take_append, hdl, show d.take mask.length = d.take c by
        rw [← hm, ← hdl]
        rcases Nat.le_total d.length mask.length with h | h
        · rw [min_eq_left h, List.take_length, List.take_of_length_le h]
        · rw [min_eq_right h]]
      rw [show mask.length - hLen = mask.length - c by omega]
      conv_rhs => rw [← List.take_append_drop c mask]
      rw [List.zipWith_append (by simp; omega), List.take_append_drop]

theorem mgf1_spec {H : Hash} {hLen : Nat} (hH : ∀ x, (H x).length = hLen) (h0 : 0 < hLen)
    {copy : List Byte → List Byte → Nat → Res (List Byte)} {f : Byte → Byte → Byte} (hc : CopyIs copy f)
    (seed mask : List Byte) : mgf1 H copy seed mask = .ok (List.zipWith f mask (Spec.mgf1 H hLen seed mask.length)) := by
  have hle : mask.length ≤ (mask.length + hLen - 1) / hLen * hLen := by
    have h2 := Nat.div_add_mod (mask.length + hLen - 1) hLen
    have h3 := Nat.mod_lt (mask.length + hLen - 1) h0
    rw [Nat.mul_comm] at h2
    omega
  have := mgf1Loop_spec hH h0 hc seed (mask.length + 1) mask 0 _ (by omega) hle
  unfold mgf1 Spec.mgf1
  rw [show (0 : BitVec 32) = BitVec.ofNat 32 0 from rfl, this, mgfBlocks_eq]
  simp only [Nat.zero_add]

theorem spec_mgf1_length {H : Hash} {hLen : Nat} (hH : ∀ x, (H x).length = hLen) (h0 : 0 < hLen) (seed : List Byte)
    (m : Nat) : (Spec.mgf1 H hLen seed m).length = m := by
  have hle : m ≤ (m + hLen - 1) / hLen * hLen := by
    have h2 := Nat.div_add_mod (m + hLen - 1) hLen
    have h3 := Nat.mod_lt (m + hLen - 1) h0
    rw [Nat.mul_comm] at h2
    omega
  have h := mgfBlocks_length hH seed ((m + hLen - 1) / hLen) 0
  rw [mgfBlocks_eq] at h
  simp only [Nat.zero_add] at h
  unfold Spec.mgf1
  rw [List.length_take, h]
  omega

/-! ## Range check -/

theorem leadZeros_le (s : List Byte) : leadZeros s ≤ s.length := by
  induction s with
  | nil => simp [leadZeros]
  | cons b t ih => unfold leadZeros; split <;> simp; omega

theorem beVal_dropLead (s : List Byte) : beVal (s.drop (leadZeros s)) = beVal s := by
  induction s with
  | nil => simp [leadZeros]
  | cons b t ih =>
    unfold leadZeros
    split
    · rename_i h; rw [List.drop_succ_cons, ih, beVal, h]; simp
    · rfl

theorem dropLead_ge (s : List Byte) (h : leadZeros s ≠ s.length) : 256 ^ (s.length - leadZeros s - 1) ≤ beVal s := by
  induction s with
  | nil => simp [leadZeros] at h
  | cons b t ih =>
    unfold leadZeros at h ⊢
    split
    · rename_i hb
      rw [if_pos hb] at h
      have := ih (by simp at h; exact h)
      rw [beVal, hb]
      simp only [List.length_cons]
      rw [show t.length + 1 - (leadZeros t + 1) - 1 = t.length - leadZeros t - 1 by omega]
      simpa using this
    · rename_i hb
      simp only [List.length_cons, beVal, Nat.sub_zero, Nat.add_sub_cancel]
      have : 1 ≤ b.toNat := by
        rcases Nat.eq_zero_or_pos b.toNat with h0 | h0
        · exact absurd (BitVec.eq_of_toNat_eq (by simpa using h0)) hb
        · exact h0
      calc 256 ^ t.length = 1 * 256 ^ t.length := by ring
        _ ≤ b.toNat * 256 ^ t.length := Nat.mul_le_mul_right _ this
        _ ≤ _ := Nat.le_add_right _ _

theorem beVal_zero_iff (s : List Byte) : beVal s = 0 ↔ leadZeros s = s.length := by
  constructor
  · intro h
    by_contra hc
    have := dropLead_ge s hc
    have : 0 < 256 ^ (s.length - leadZeros s - 1) := by positivity
    omega
  · intro h
    have := beVal_dropLead s
    rw [h, List.drop_length] at this
    rw [← this]; rfl

theorem beVal_lt_dropLead (s : List Byte) : beVal s < 256 ^ (s.length - leadZeros s) := by
  rw [← beVal_dropLead, ← List.length_drop]; exact beVal_lt _

theorem sLess_spec : ∀ (s n : List Byte), s.length = n.length → sLess s n = .ok (decide (beVal s < beVal n))
  | [], [], _ => by simp [sLess]
  | [], _ :: _, h => by simp at h
  | _ :: _, [], h => by simp at h
  | a :: s, b :: n, h => by
    have hl : s.length = n.length := by simpa using h
    have h1 := beVal_lt s
    have h2 := beVal_lt n
    have ha : beVal (a :: s) = a.toNat * 256 ^ n.length + beVal s := by rw [← hl]; rfl
    have hb : beVal (b :: n) = b.toNat * 256 ^ n.length + beVal n := rfl
    unfold sLess
    rw [ha, hb]
    rw [hl] at h1
    split
    · rename_i hab
      have hab : a.toNat + 1 ≤ b.toNat := hab
      congr 1; symm; rw [decide_eq_true_iff]
      have := Nat.mul_le_mul_right (256 ^ n.length) hab
      rw [Nat.add_mul] at this
      omega
    · split
      · rename_i hab
        have hab : b.toNat + 1 ≤ a.toNat := hab
        congr 1; symm; rw [decide_eq_false_iff_not]
        have := Nat.mul_le_mul_right (256 ^ n.length) hab
        rw [Nat.add_mul] at this
        omega
      · rename_i h3 h4
        have : a.toNat = b.toNat := by
          have h3 : ¬ a.toNat < b.toNat := h3
          have h4 : ¬ b.toNat < a.toNat := h4
          omega
        rw [sLess_spec s n hl, this]
        congr 2
        simp

theorem isSValid_spec (s n : List Byte) :
    isSValid s n = .ok (decide (beVal s = 0 ∨ leadZeros s < leadZeros n ∨ beVal s < beVal n)) := by
  unfold isSValid
  have hs := leadZeros_le s
  have hn := leadZeros_le n
  dsimp only
  by_cases h0 : leadZeros s = s.length
  · rw [if_pos h0]
    simp [(beVal_zero_iff s).2 h0]
  rw [if_neg h0]
  have h0' : beVal s ≠ 0 := fun h => h0 ((beVal_zero_iff s).1 h)
  by_cases h1 : leadZeros s < leadZeros n
  · rw [if_pos h1]; simp [h1]
  rw [if_neg h1]
  have hs1 := dropLead_ge s h0
  have hs2 := beVal_lt_dropLead s
  have hn2 := beVal_lt_dropLead n
  simp only [h0', h1, false_or]
  by_cases h2 : s.length - leadZeros s > n.length - leadZeros n
  · rw [if_pos h2]
    congr 1; symm; rw [decide_eq_false_iff_not]
    have : 256 ^ (n.length - leadZeros n) ≤ 256 ^ (s.length - leadZeros s - 1) :=
      Nat.pow_le_pow_right (by norm_num) (by omega)
    omega
  rw [if_neg h2]
  by_cases h3 : s.length - leadZeros s < n.length - leadZeros n
  · rw [if_pos h3]
    congr 1; symm; rw [decide_eq_true_iff]
    have hn1 := dropLead_ge n (by omega)
    have : 256 ^ (s.length - leadZeros s) ≤ 256 ^ (n.length - leadZeros n - 1) :=
      Nat.pow_le_pow_right (by norm_num) (by omega)
    omega
  rw [if_neg h3, sLess_spec _ _ (by simp; omega), beVal_dropLead, beVal_dropLead]

theorem leadZeros_head {n : List Byte} (h : ∃ b ∈ n.head?, b ≠ 0) : leadZeros n = 0 := by
  obtain ⟨b, hb, h0⟩ := h
  cases n with
  | nil => simp at hb
  | cons x t => simp at hb; subst hb; unfold leadZeros; rw [if_neg h0]

theorem beVal_pos {n : List Byte} (h : ∃ b ∈ n.head?, b ≠ 0) : 0 < beVal n := by
  have h1 := leadZeros_head h
  rcases Nat.eq_zero_or_pos (beVal n) with h0 | h0
  · obtain ⟨b, hb, _⟩ := h
    have := (beVal_zero_iff n).1 h0
    rw [h1] at this
    rw [List.length_eq_zero_iff.1 this.symm] at hb
    simp at hb
  · exact h0

theorem isSValid_exact {s n : List Byte} (h : ∃ b ∈ n.head?, b ≠ 0) : isSValid s n = .ok (decide (beVal s < beVal n)) := by
  rw [isSValid_spec, leadZeros_head h]
  have := beVal_pos h
  congr 2
  apply propext
  constructor
  · rintro (h | h | h) <;> omega
  · intro h; exact .inr (.inr h)

/-! ## powm -/

/-- The modular exponentiation is exact at a key: for every representative below the modulus. -/
def ModExpAt (me : ModExp) (n e : List Byte) : Prop :=
  ∀ s : List Byte, s.length = n.length → beVal s < beVal n →
    ∃ out, me s e n = .ok (some out) ∧ out.length = n.length ∧ beVal out = beVal s ^ beVal e % beVal n

/-- The modular exponentiation is exact at a key for every base of the length of the modulus. -/
def ModExpAll (me : ModExp) (n e : List Byte) : Prop :=
  ∀ s : List Byte, s.length = n.length →
    ∃ out, me s e n = .ok (some out) ∧ out.length = n.length ∧ beVal out = beVal s ^ beVal e % beVal n

theorem exp_lead (e : List Byte) (h8 : e.length > 8) :
    (e.take (e.length - 8)).all (· == 0) = decide (beVal e < 2 ^ 64) := by
  have happ := beVal_append (e.take (e.length - 8)) (e.drop (e.length - 8))
  rw [List.take_append_drop] at happ
  have h2 := beVal_lt (e.drop (e.length - 8))
  have hl : (e.drop (e.length - 8)).length = 8 := by simp; omega
  rw [hl] at happ h2
  have key : (e.take (e.length - 8)).all (· == 0) = true ↔ beVal (e.take (e.length - 8)) = 0 := by
    generalize e.take (e.length - 8) = l
    clear * -
    induction l with
    | nil => simp [beVal]
    | cons b t ih =>
      simp only [List.all_cons, Bool.and_eq_true, ih, beVal, beq_iff_eq, Nat.add_eq_zero_iff, Nat.mul_eq_zero]
      constructor
      · rintro ⟨rfl, h⟩; exact ⟨.inl rfl, h⟩
      · rintro ⟨h | h, h'⟩
        · exact ⟨BitVec.eq_of_toNat_eq (by simpa using h), h'⟩
        · exact absurd h (by positivity)
  rw [Bool.eq_iff_iff, key, decide_eq_true_iff]
  norm_num at happ h2 ⊢
  omega

theorem powm_at {me : ModExp} {n e s : List Byte} (hn : n.length ≠ 0)
    (hme : ∃ out, me s e n = .ok (some out) ∧ out.length = n.length ∧ beVal out = beVal s ^ beVal e % beVal n)
    (he : e ≠ []) (he64 : beVal e < 2 ^ 64) (hl : s.length = n.length) :
    ∃ out, powm me s e n = .ok out ∧ out.length = n.length ∧ beVal out = beVal s ^ beVal e % beVal n := by
  obtain ⟨out, h1, h2, h3⟩ := hme
  have hel : e.length ≠ 0 := fun h => he (List.length_eq_zero_iff.1 h)
  refine ⟨out, ?_, h2, h3⟩
  have hc : powmC me s e n (List.replicate n.length 0) = .ok (s.length, out) := by
    unfold powmC
    rw [hl]
    simp only [bne_iff_ne, ne_eq, hn, not_false_eq_true, hel, Bool.and_self, check, if_true, ok_bind, beq_self_eq_true,
      List.length_replicate, if_false, ge_iff_le, le_refl, decide_true, h1]
    simp [hn, hel, ok_bind, h2]
  unfold powm
  split
  · rename_i h8
    rw [exp_lead e h8, decide_eq_true he64, check, if_pos rfl, ok_bind, hc]; rfl
  · rw [hc]; rfl

theorem powm_spec {me : ModExp} {n e s : List Byte} (hme : ModExpAt me n e) (he : e ≠ []) (he64 : beVal e < 2 ^ 64)
    (hl : s.length = n.length) (hs : beVal s < beVal n) :
    ∃ out, powm me s e n = .ok out ∧ out.length = n.length ∧ beVal out = beVal s ^ beVal e % beVal n := by
  have hn : n.length ≠ 0 := by
    intro h
    rw [List.length_eq_zero_iff.1 h] at hs
    simp [beVal] at hs
  exact powm_at hn (hme s hl hs) he he64 hl

/-- A wrong length or an oversized exponent never reaches the exponentiation. -/
theorem powm_ok {me : ModExp} {n e s out : List Byte} (h : powm me s e n = .ok out) :
    s.length = n.length ∧ n.length ≠ 0 ∧ e ≠ [] ∧ beVal e < 2 ^ 64 := by
  have h64 : beVal e < 2 ^ 64 := by
    by_contra hc
    have h8 : e.length > 8 := by
      by_contra h8
      have := beVal_lt e
      have : 256 ^ e.length ≤ 256 ^ 8 := Nat.pow_le_pow_right (by norm_num) (by omega)
      norm_num at this hc
      omega
    unfold powm at h
    rw [if_pos h8, exp_lead e h8, decide_eq_false hc] at h
    simp [check, error_bind] at h
  have hC : ∀ o r, powmC me s e n o = .ok r → s.length = n.length ∧ n.length ≠ 0 ∧ e ≠ [] := by
    intro o r hr
    unfold powmC at hr
    by_cases h1 : (s.length != 0 && n.length != 0 && e.length != 0 && n.length != 0) = true
    · by_cases h2 : (s.length == n.length) = true
      · simp only [Bool.and_eq_true, bne_iff_ne, ne_eq, beq_iff_eq] at h1 h2
        refine ⟨h2, h1.2, ?_⟩
        rintro rfl; simp at h1
      · rw [Bool.not_eq_true] at h2
        rw [h1, h2] at hr
        simp [check, error_bind, ok_bind] at hr
    · rw [Bool.not_eq_true] at h1
      rw [h1] at hr
      simp [check, error_bind] at hr
  have hP : ∃ r, powmC me s e n (List.replicate n.length 0) = .ok r := by
    unfold powm at h
    cases hr : powmC me s e n (List.replicate n.length 0) with
    | ok r => exact ⟨r, rfl⟩
    | error x =>
      rw [hr] at h
      split at h
      · cases hh : check ((e.take (e.length - 8)).all (· == 0)) with
        | ok u => rw [hh] at h; cases h
        | error u => rw [hh] at h; cases h
      · cases h
  obtain ⟨r, hr⟩ := hP
  obtain ⟨a, b, c⟩ := hC _ _ hr
  exact ⟨a, b, c, h64⟩

end Ack
