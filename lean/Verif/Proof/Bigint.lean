import Verif.Spec.Big
import Verif.Proof.Div
/-! # Lemmas about the bigint operations -/
namespace Ack
namespace Big

theorem fits_none (n : Nat) : Cap.fits none n = true := rfl

theorem fits_iff {cap : Cap} {n : Nat} : cap.fits n = true ↔ ∀ N, cap = some N → n ≤ N := by
  cases cap with
  | none => simp [Cap.fits]
  | some N => simp [Cap.fits]

theorem fits_mono {cap : Cap} {n m : Nat} (h : cap.fits m = true) (hle : n ≤ m) : cap.fits n = true := by
  rw [fits_iff] at *; intro N hN; have := h N hN; omega

theorem Fits.fits {cap : Cap} {x : Big} (h : Fits cap x) : cap.fits x.ws.length = true := fits_iff.2 h

theorem Fits_none (x : Big) : Fits none x := by intro N h; cases h

/-! ## trim -/

theorem trimGo_eq (ws : List Word) : ∀ n, trimGo ws n = max 1 (realSizeGo ws (n+1))
  | 0 => by simp only [trimGo, realSizeGo]; split <;> simp
  | n+1 => by
    rw [trimGo, realSizeGo]
    split
    · simp
    · rw [trimGo_eq ws n]

theorem trimSize_eq (ws : List Word) (h : ws ≠ []) : trimGo ws (ws.length - 1) = getRealSize ws := by
  have : 0 < ws.length := List.length_pos_iff.2 h
  rw [trimGo_eq, show ws.length - 1 + 1 = ws.length by omega]
  unfold getRealSize; simp only; split <;> omega

theorem trim_ws (neg : Bool) (ws : List Word) (h : ws ≠ []) : (trim neg ws).ws = ws.take (getRealSize ws) := by
  simp only [trim, trimSize_eq ws h]

theorem trim_val (neg : Bool) (ws : List Word) (h : ws ≠ []) : val (trim neg ws).ws = val ws := by
  rw [trim_ws neg ws h, getRealSize_val]

theorem trim_length (neg : Bool) (ws : List Word) (h : ws ≠ []) : (trim neg ws).ws.length = getRealSize ws := by
  rw [trim_ws neg ws h]; have := getRealSize_le ws h; simp; omega

theorem trim_length_le (neg : Bool) (ws : List Word) (h : ws ≠ []) : (trim neg ws).ws.length ≤ ws.length := by
  rw [trim_length neg ws h]; exact getRealSize_le ws h

theorem trim_canon (neg : Bool) (ws : List Word) (h : ws ≠ []) : (trim neg ws).Canon := by
  constructor
  · intro h'
    have := trim_length neg ws h
    rw [h'] at this
    have := getRealSize_pos ws
    simp at *; omega
  · intro h1
    rw [trim_ws neg ws h] at *
    have := getRealSize_take_top ws h h1
    intro h0; rw [h0] at this; exact this rfl

theorem trim_neg (neg : Bool) (ws : List Word) (h : ws ≠ []) : (trim neg ws).neg = (neg && decide (val ws ≠ 0)) := by
  have hiff : (trimGo ws (ws.length - 1) = 1 ∧ ws.head? = some 0) ↔ val ws = 0 := by
    rw [trimSize_eq ws h]
    constructor
    · rintro ⟨h1, h2⟩
      rw [← getRealSize_val, h1]
      cases ws with
      | nil => rfl
      | cons w t => simp at h2; simp [h2]
    · intro h0
      constructor
      · by_contra hne
        have hp := getRealSize_pos ws
        have := getRealSize_top ws (by omega)
        have hle := getRealSize_le ws h
        have hc := trim_canon false ws h
        have hl := trim_length false ws h
        have hv := trim_val false ws h
        have h1 : 1 < (trim false ws).ws.length := by omega
        have h2 := hc.2 h1
        have h3 := val_ge_top _ hc.1
        rw [hv, h0] at h3
        have h4 := B_pos ((trim false ws).ws.length - 1)
        have h5 : ((trim false ws).ws.getLastD 0).toNat ≠ 0 := by rwa [ne_eq, ← wordEqZero]
        have := Nat.mul_pos h4 (Nat.pos_of_ne_zero h5)
        omega
      · cases ws with
        | nil => exact absurd rfl h
        | cons w t => simp at h0; simp [h0.1, BitVec.toNat_eq_nat] ; exact BitVec.eq_of_toNat_eq (by simpa using h0.1)
  unfold trim
  simp only [hiff]
  by_cases h0 : val ws = 0 <;> simp [h0]

theorem trim_toInt (neg : Bool) (ws : List Word) (h : ws ≠ []) :
    (trim neg ws).toInt = if neg then -(val ws : Int) else val ws := by
  unfold toInt
  rw [trim_neg neg ws h, trim_val neg ws h]
  by_cases h0 : val ws = 0 <;> cases neg <;> simp [h0]

theorem trim_canon_eq (neg : Bool) (x : Big) (h : x.Canon) : (trim neg x.ws).ws = x.ws := by
  rw [trim_ws neg _ h.1]
  have hle := getRealSize_le x.ws h.1
  by_cases h1 : x.ws.length = 1
  · have := getRealSize_pos x.ws
    rw [List.take_of_length_le (by omega)]
  · have hp := List.length_pos_iff.2 h.1
    have ht := h.2 (by omega)
    have : getRealSize x.ws = x.ws.length := by
      have h3 := val_ge_top _ h.1
      have h4 := val_lt (x.ws.take (getRealSize x.ws))
      rw [getRealSize_val] at h4
      have h5 : (x.ws.getLastD 0).toNat ≠ 0 := by rwa [ne_eq, ← wordEqZero]
      have h6 : B (x.ws.length - 1) * 1 ≤ B (x.ws.length - 1) * (x.ws.getLastD 0).toNat := Nat.mul_le_mul_left _ (by omega)
      by_contra hne
      have : (x.ws.take (getRealSize x.ws)).length = getRealSize x.ws := by simp; omega
      rw [this] at h4
      have := B_le (n := getRealSize x.ws) (m := x.ws.length - 1) (by omega)
      omega
    rw [this, List.take_length]

/-! ## canonical magnitudes -/

/-- canonical word lists (the part of `Canon` about words) -/
def CanonW (ws : List Word) : Prop := ws ≠ [] ∧ (1 < ws.length → ws.getLastD 0 ≠ 0)

theorem Canon.w {x : Big} (h : x.Canon) : CanonW x.ws := h
theorem trim_canonW (neg : Bool) (ws : List Word) (h : ws ≠ []) : CanonW (trim neg ws).ws := trim_canon neg ws h

theorem CanonW.top {ws : List Word} (h : CanonW ws) (h1 : 1 < ws.length) : (ws.getLastD 0).toNat ≠ 0 := by
  rw [ne_eq, ← wordEqZero]; exact h.2 h1

theorem CanonW.ge {ws : List Word} (h : CanonW ws) (h1 : 1 < ws.length) : B (ws.length - 1) ≤ val ws := by
  have h3 := val_ge_top _ h.1
  have h6 : B (ws.length - 1) * 1 ≤ B (ws.length - 1) * (ws.getLastD 0).toNat :=
    Nat.mul_le_mul_left _ (by have := h.top h1; omega)
  omega

theorem CanonW.val_lt_of_length {x y : List Word} (hy : CanonW y) (hx : x ≠ []) (h : x.length < y.length) :
    val x < val y := by
  have h1 := val_lt x
  have hp := List.length_pos_iff.2 hx
  have h2 := hy.ge (by omega)
  have h3 := B_le (n := x.length) (m := y.length - 1) (by omega)
  omega

theorem ucompare_spec {x y : List Word} (hx : CanonW x) (hy : CanonW y) :
    ucompare x y = if val x < val y then -1 else if val x = val y then 0 else 1 := by
  unfold ucompare
  split
  · rename_i h; exact cmpN_spec x y h
  · rename_i h
    split
    · have := hx.val_lt_of_length hy.1 (by omega)
      rw [if_neg (by omega), if_neg (by omega)]
    · have := hy.val_lt_of_length hx.1 (by omega)
      rw [if_pos this]

theorem CanonW.ext {x y : List Word} (hx : CanonW x) (hy : CanonW y) (h : val x = val y) : x = y := by
  have hl : x.length = y.length := by
    by_contra hne
    rcases Nat.lt_or_gt_of_ne hne with h1 | h1
    · have := hy.val_lt_of_length hx.1 h1; omega
    · have := hx.val_lt_of_length hy.1 h1; omega
  exact val_inj hl h

/-- A canonical magnitude is as short as possible. -/
theorem CanonW.length_le {x y : List Word} (hx : CanonW x) (hy : y ≠ []) (h : val x ≤ val y) : x.length ≤ y.length := by
  by_contra hne
  have := hx.val_lt_of_length hy (by omega); omega

theorem toInt_zero_iff (x : Big) : x.toInt = 0 ↔ val x.ws = 0 := by
  unfold toInt; split <;> omega

theorem isZero_iff {x : Big} (h : x.Canon) : x.isZero = true ↔ x.toInt = 0 := by
  rw [toInt_zero_iff]
  unfold isZero
  simp only [Bool.and_eq_true, beq_iff_eq]
  constructor
  · rintro ⟨h1, h2⟩
    obtain ⟨w, hw⟩ := List.length_eq_one_iff.1 h1
    rw [hw] at h2 ⊢
    simp at h2; simp [h2]
  · intro h0
    have hl : x.ws.length = 1 := by
      have hp := List.length_pos_iff.2 h.1
      by_contra hne
      have := CanonW.ge h (by omega)
      have := B_pos (x.ws.length - 1)
      omega
    obtain ⟨w, hw⟩ := List.length_eq_one_iff.1 hl
    rw [hw] at h0 ⊢
    simp at h0 ⊢
    exact BitVec.eq_of_toNat_eq (by simpa using h0)

theorem isOne_iff {x : Big} (h : x.Canon) : x.isOne = true ↔ x.toInt = 1 := by
  unfold isOne toInt
  simp only [Bool.and_eq_true, beq_iff_eq, Bool.not_eq_true']
  constructor
  · rintro ⟨⟨h1, h2⟩, h3⟩
    obtain ⟨w, hw⟩ := List.length_eq_one_iff.1 h1
    rw [hw] at h3 ⊢
    simp at h3; simp [h3, h2]
  · intro h0
    have hn : x.neg = false := by
      by_contra hne
      have : x.neg = true := by simpa using hne
      rw [this] at h0; simp at h0; omega
    rw [hn] at h0
    simp at h0
    have hl : x.ws.length = 1 := by
      have hp := List.length_pos_iff.2 h.1
      by_contra hne
      have := CanonW.ge h (by omega)
      have h2 := B_le (n := 1) (m := x.ws.length - 1) (by omega)
      have : B 1 = 4294967296 := rfl
      omega
    obtain ⟨w, hw⟩ := List.length_eq_one_iff.1 hl
    rw [hw] at h0 ⊢
    simp at h0 ⊢
    exact ⟨hn, BitVec.eq_of_toNat_eq (by simpa using h0)⟩

theorem isNegative_iff {x : Big} (h : x.Canon) : x.isNegative = true ↔ x.toInt < 0 := by
  unfold isNegative
  have hz := isZero_iff h
  rw [toInt_zero_iff] at hz
  simp only [Bool.and_eq_true, Bool.not_eq_true']
  rw [← Bool.not_eq_true, hz]
  unfold toInt
  cases x.neg <;> simp <;> omega

theorem headD_eq_mod (ws : List Word) : (ws.headD 0).toNat = val ws % 4294967296 := by
  cases ws with
  | nil => rfl
  | cons w t => have := w.isLt; simp; omega

theorem isOdd_iff (x : Big) : x.isOdd = true ↔ x.toInt % 2 = 1 := by
  have h : (x.ws.headD 0 &&& 1).toNat = val x.ws % 2 := by
    rw [BitVec.toNat_and, headD_eq_mod]
    show _ &&& 1 = _
    rw [Nat.and_one_is_mod]; omega
  have h2 : x.isOdd = true ↔ val x.ws % 2 = 1 := by
    unfold isOdd
    rw [beq_iff_eq, ← h]
    constructor
    · intro h; rw [h]; rfl
    · intro h; exact BitVec.eq_of_toNat_eq (by simpa using h)
  rw [h2]
  unfold toInt
  split <;> omega

theorem isEven_iff (x : Big) : x.isEven = true ↔ x.toInt % 2 = 0 := by
  have := isOdd_iff x
  unfold isEven
  rw [Bool.not_eq_true', ← Bool.not_eq_true, this]
  omega

/-! ## comparison -/

theorem compare_spec {x y : Big} (hx : x.Canon) (hy : y.Canon) :
    compare x y = if x.toInt < y.toInt then -1 else if x.toInt = y.toInt then 0 else 1 := by
  have hzx := isZero_iff hx; have hzy := isZero_iff hy
  have hox := isOne_iff hx; have hoy := isOne_iff hy
  unfold compare
  rw [ucompare_spec hx.w hy.w]
  rw [toInt_zero_iff] at hzx hzy
  by_cases h1 : x.isOne = true ∧ y.isOne = true
  · have e1 := hox.1 h1.1; have e2 := hoy.1 h1.2
    have n1 : x.neg = false := by
      have := h1.1; unfold isOne at this; simp at this; exact this.1.2
    have n2 : y.neg = false := by
      have := h1.2; unfold isOne at this; simp at this; exact this.1.2
    simp [n1, n2, h1.1, h1.2, e1, e2]
  · have h1' : (x.isOne && y.isOne) = false := by
      simp only [← Bool.not_eq_true, Bool.and_eq_true]; exact h1
    have hzz : (x.isZero && y.isZero) = true ↔ val x.ws = 0 ∧ val y.ws = 0 := by
      rw [Bool.and_eq_true, hzx, hzy]
    rw [h1']
    unfold toInt
    rcases x.neg <;> rcases y.neg <;> simp only [Bool.xor_false, Bool.xor_true, Bool.not_false, Bool.not_true, if_true, if_false, hzz, Bool.false_eq_true] <;>
      (repeat' split) <;> first | rfl | omega

end Big
end Ack
