import Verif.Proof.Bigint
/-! # Addition, subtraction, multiplication, division, shifts -/
namespace Ack
namespace Big

theorem canonW_zero : CanonW [(0 : Word)] := by constructor <;> simp

theorem canonW_single (w : Word) : CanonW [w] := by constructor <;> simp

/-! ## unsigned addition -/

theorem uadd_core (x y : List Word) (hx : x ≠ []) (h : y.length ≤ x.length) :
    let a := addN (x.take y.length) y
    let h := if x.length > y.length then addWord (x.drop y.length) a.2 else ([], a.2)
    (a.1 ++ h.1 ++ [h.2]).length = x.length + 1 ∧ val (a.1 ++ h.1 ++ [h.2]) = val x + val y := by
  have htl : (x.take y.length).length = y.length := by simp; omega
  have hl := addN_length (x.take y.length) y htl
  obtain ⟨hs, hc⟩ := addN_spec (x.take y.length) y htl
  have hsp := val_take_drop y.length x h
  rw [htl] at hs hl
  simp only
  by_cases hgt : x.length > y.length
  · have hne : x.drop y.length ≠ [] := by intro h'; rw [List.drop_eq_nil_iff] at h'; omega
    obtain ⟨a1, a2, a3⟩ := addWord_spec (x.drop y.length) (addN (x.take y.length) y).2 hne
    simp only [hgt, if_true]
    have hdl : (x.drop y.length).length = x.length - y.length := by simp
    constructor
    · simp only [List.length_append, hl, a1, hdl, List.length_singleton]; omega
    · rw [List.append_assoc, val_append, val_append, val_singleton, a1, a2, hl, hsp, mul_add]; omega
  · have hxy : x.length = y.length := by omega
    simp only [hgt, if_false]
    constructor
    · simp [hl, hxy]
    · rw [List.append_nil, val_append, val_singleton, hl, hs]
      rw [← hxy, List.take_length]

theorem uadd_spec (cap : Cap) (x y : List Word) (hx : x ≠ []) (hy : y ≠ []) :
    CanonW (uadd cap x y) ∧
    ((cap.fits (max x.length y.length + 1) = true ∧ val (uadd cap x y) = val x + val y ∧
        (uadd cap x y).length ≤ max x.length y.length + 1) ∨
     (cap.fits (max x.length y.length + 1) = false ∧ uadd cap x y = [0])) := by
  have main : ∀ x y : List Word, x ≠ [] → y.length ≤ x.length →
      let a := addN (x.take y.length) y
      let h := if x.length > y.length then addWord (x.drop y.length) a.2 else ([], a.2)
      let r := if cap.fits (x.length + 1) then (trim false (a.1 ++ h.1 ++ [h.2])).ws else [0]
      CanonW r ∧ ((cap.fits (x.length + 1) = true ∧ val r = val x + val y ∧ r.length ≤ x.length + 1) ∨
        (cap.fits (x.length + 1) = false ∧ r = [0])) := by
    intro x y hx h a h' r
    obtain ⟨c1, c2⟩ := uadd_core x y hx h
    have hne : a.1 ++ h'.1 ++ [h'.2] ≠ [] := by simp
    by_cases hf : cap.fits (x.length + 1) = true
    · have hr : r = (trim false (a.1 ++ h'.1 ++ [h'.2])).ws := if_pos hf
      rw [hr]
      refine ⟨trim_canonW _ _ hne, Or.inl ⟨hf, ?_, ?_⟩⟩
      · rw [trim_val _ _ hne]; exact c2
      · have := trim_length_le false _ hne; rw [c1] at this; exact this
    · have hr : r = [0] := if_neg hf
      rw [hr]
      exact ⟨canonW_zero, Or.inr ⟨by simpa using hf, rfl⟩⟩
  by_cases h : y.length > x.length
  · have := main y x hy (by omega)
    rw [Nat.max_eq_right (by omega), Nat.add_comm (val x)]
    have e : uadd cap x y = uaddGe cap y x := by unfold uadd; rw [if_pos h]
    rw [e]; exact this
  · rw [Nat.max_eq_left (by omega)]
    have e : uadd cap x y = uaddGe cap x y := by unfold uadd; rw [if_neg h]
    rw [e]; exact main x y hx (by omega)

theorem usub_spec (cap : Cap) (x y : List Word) (hx : x ≠ []) (h : y.length ≤ x.length) (hle : val y ≤ val x)
    (hf : cap.fits x.length = true) :
    CanonW (usub cap x y) ∧ val (usub cap x y) = val x - val y ∧ (usub cap x y).length ≤ x.length := by
  have htl : (x.take y.length).length = y.length := by simp; omega
  have hl := subN_length (x.take y.length) y htl
  obtain ⟨hs, hc⟩ := subN_spec (x.take y.length) y htl
  have hsp := val_take_drop y.length x h
  rw [htl] at hs hl
  unfold usub
  rw [if_pos hf]
  simp only
  by_cases hgt : x.length > y.length
  · have hne : x.drop y.length ≠ [] := by intro h'; rw [List.drop_eq_nil_iff] at h'; omega
    obtain ⟨a1, a2, a3⟩ := subWord_spec (x.drop y.length) (subN (x.take y.length) y).2 hne
    simp only [hgt, if_true]
    have hdl : (x.drop y.length).length = x.length - y.length := by simp
    set s := (subN (x.take y.length) y).1 with hsd
    set c := (subN (x.take y.length) y).2 with hcd
    set t := (subWord (x.drop y.length) c).1 with htd
    set c2 := (subWord (x.drop y.length) c).2 with hc2
    have hlen : (s ++ t).length = x.length := by rw [List.length_append, hl, a1, hdl]; omega
    have hBB : B y.length * B (x.drop y.length).length = B x.length := by rw [← B_add, hdl]; congr 1; omega
    have hv : val (s ++ t) + val y = val x + B x.length * c2.toNat := by
      rw [val_append, hl, hsp, ← hBB]
      have h1 : B y.length * (val t + c.toNat) = B y.length * (val (x.drop y.length) + B (x.drop y.length).length * c2.toNat) := by rw [a2]
      rw [mul_add, mul_add, ← mul_assoc] at h1
      omega
    have hc20 : c2.toNat = 0 := by
      by_contra hne
      have h1 : c2.toNat = 1 := by omega
      have h2 := val_lt (s ++ t)
      rw [hlen] at h2
      rw [h1] at hv
      omega
    rw [hc20] at hv
    have hne2 : s ++ t ≠ [] := by intro h'; rw [h'] at hlen; simp at hlen; omega
    refine ⟨trim_canonW _ _ hne2, ?_, ?_⟩
    · rw [trim_val _ _ hne2]; omega
    · rw [← hlen]; exact trim_length_le _ _ hne2
  · have hxy : x.length = y.length := by omega
    simp only [hgt, if_false, List.append_nil]
    rw [← hxy, List.take_length]
    obtain ⟨v1, -⟩ := subN_val x y hxy hle
    have hl' := subN_length x y hxy
    have hp := List.length_pos_iff.2 hx
    have hne2 : (subN x y).1 ≠ [] := by intro h'; rw [h'] at hl'; simp at hl'; omega
    refine ⟨trim_canonW _ _ hne2, ?_, ?_⟩
    · rw [trim_val _ _ hne2]; omega
    · have := trim_length_le false _ hne2; omega

theorem uadd1_spec (cap : Cap) (x : List Word) (y : Word) (hx : x ≠ []) :
    CanonW (uadd1 cap x y) ∧
    ((cap.fits (x.length + 1) = true ∧ val (uadd1 cap x y) = val x + y.toNat ∧ (uadd1 cap x y).length ≤ x.length + 1) ∨
     (cap.fits (x.length + 1) = false ∧ uadd1 cap x y = [0])) := by
  obtain ⟨a1, a2, a3⟩ := addWord_spec x y hx
  unfold uadd1
  by_cases hf : cap.fits (x.length + 1) = true
  · rw [if_pos hf]
    have hne : (addWord x y).1 ++ [(addWord x y).2] ≠ [] := by simp
    refine ⟨trim_canonW _ _ hne, Or.inl ⟨hf, ?_, ?_⟩⟩
    · rw [trim_val _ _ hne, val_append, val_singleton, a1, a2]
    · have := trim_length_le false _ hne
      simpa [a1] using this
  · rw [if_neg hf]
    exact ⟨canonW_zero, Or.inr ⟨by simpa using hf, rfl⟩⟩

theorem usub1_spec (cap : Cap) (x : List Word) (y : Word) (hx : x ≠ []) (hle : y.toNat ≤ val x)
    (hf : cap.fits x.length = true) :
    CanonW (usub1 cap x y) ∧ val (usub1 cap x y) = val x - y.toNat ∧ (usub1 cap x y).length ≤ x.length := by
  obtain ⟨a1, a2, a3⟩ := subWord_spec x y hx
  have hp := List.length_pos_iff.2 hx
  unfold usub1
  rw [if_pos hf]
  have hne : (subWord x y).1 ≠ [] := by intro h; rw [h] at a1; simp at a1; omega
  have hc : (subWord x y).2.toNat = 0 := by
    by_contra hne'
    have h1 : (subWord x y).2.toNat = 1 := by omega
    have := val_lt (subWord x y).1
    rw [a1] at this
    rw [h1] at a2; omega
  rw [hc] at a2
  refine ⟨trim_canonW _ _ hne, ?_, ?_⟩
  · rw [trim_val _ _ hne]; omega
  · have := trim_length_le false _ hne; omega

/-! ## signed addition -/

theorem toInt_mk (n : Bool) (ws : List Word) : (⟨n, ws⟩ : Big).toInt = if n then -(val ws : Int) else val ws := rfl

/-- The value of `x` with the sign flag replaced. -/
def signed (n : Bool) (ws : List Word) : Int := if n then -(val ws : Int) else val ws

theorem addSigned_spec (cap : Cap) (x y : Big) (xn yn : Bool) (hx : x.Canon) (hy : y.Canon)
    (fx : Fits cap x) (fy : Fits cap y) :
    (addSigned cap x xn y yn).Canon ∧ Fits cap (addSigned cap x xn y yn) ∧
    ((addSigned cap x xn y yn).toInt = signed xn x.ws + signed yn y.ws ∨
     ((addSigned cap x xn y yn).toInt = 0 ∧ xn = yn ∧ cap.fits (max x.ws.length y.ws.length + 1) = false)) := by
  have hfits : ∀ (b : Big), b.ws.length ≤ max x.ws.length y.ws.length → Fits cap b := by
    intro b hb N hN
    have := fx N hN; have := fy N hN; omega
  unfold addSigned
  by_cases hs : (xn ^^ yn) = false
  · rw [if_pos hs]
    have hxy : xn = yn := by cases xn <;> cases yn <;> simp_all
    subst hxy
    obtain ⟨c, h | h⟩ := uadd_spec cap x.ws y.ws hx.1 hy.1
    · refine ⟨c, ?_, Or.inl ?_⟩
      · intro N hN
        have := fits_iff.1 h.1 N hN
        exact le_trans h.2.2 this
      · rw [toInt_mk, h.2.1]; unfold signed; split <;> push_cast <;> ring
    · refine ⟨c, ?_, Or.inr ⟨?_, rfl, h.1⟩⟩
      · apply hfits
        simp only [h.2, List.length_singleton]
        have := List.length_pos_iff.2 hx.1; omega
      · rw [toInt_mk, h.2]; simp
  · rw [if_neg hs]
    have hxy : yn = !xn := by cases xn <;> cases yn <;> simp_all
    subst hxy
    rw [ucompare_spec hx.w hy.w]
    have g1 : ∀ {p q : Prop} [Decidable p] [Decidable q], ((if p then (-1:Int) else if q then 0 else 1) ≥ 0) ↔ ¬ p := by
      intro p q _ _; by_cases p <;> by_cases q <;> simp [*]
    by_cases hlt : val x.ws < val y.ws
    · rw [if_neg (by rw [g1]; simpa using hlt)]
      have hl := hx.w.length_le hy.1 hlt.le
      obtain ⟨c, v, l⟩ := usub_spec cap y.ws x.ws hy.1 hl hlt.le fy.fits
      refine ⟨c, hfits _ (by simp only; omega), Or.inl ?_⟩
      rw [toInt_mk, v]; unfold signed
      cases xn <;> simp <;> omega
    · rw [if_pos (by rw [g1]; simpa using hlt)]
      have hl := hy.w.length_le hx.1 (by omega)
      obtain ⟨c, v, l⟩ := usub_spec cap x.ws y.ws hx.1 hl (by omega) fx.fits
      refine ⟨c, hfits _ (by simp only; omega), Or.inl ?_⟩
      rw [toInt_mk, v]; unfold signed
      cases xn <;> simp <;> omega

theorem signed_neg (x : Big) : signed x.neg x.ws = x.toInt := rfl
theorem signed_not (x : Big) : signed (!x.neg) x.ws = -x.toInt := by
  unfold signed toInt; cases x.neg <;> simp

theorem add_spec (cap : Cap) (x y : Big) (hx : x.Canon) (hy : y.Canon) (fx : Fits cap x) (fy : Fits cap y) :
    (add cap x y).Canon ∧ Fits cap (add cap x y) ∧
    ((add cap x y).toInt = x.toInt + y.toInt ∨
     ((add cap x y).toInt = 0 ∧ x.neg = y.neg ∧ cap.fits (max x.ws.length y.ws.length + 1) = false)) := by
  have := addSigned_spec cap x y x.neg y.neg hx hy fx fy
  rwa [signed_neg, signed_neg] at this

theorem sub_spec (cap : Cap) (x y : Big) (hx : x.Canon) (hy : y.Canon) (fx : Fits cap x) (fy : Fits cap y) :
    (sub cap x y).Canon ∧ Fits cap (sub cap x y) ∧
    ((sub cap x y).toInt = x.toInt - y.toInt ∨
     ((sub cap x y).toInt = 0 ∧ x.neg = !y.neg ∧ cap.fits (max x.ws.length y.ws.length + 1) = false)) := by
  have := addSigned_spec cap x y x.neg (!y.neg) hx hy fx fy
  rwa [signed_neg, signed_not, ← sub_eq_add_neg] at this

/-! ## word operands -/

theorem headD_of_len_one {x : Big} (hx : x.Canon) (h : ¬ 1 < x.ws.length) : val x.ws = (x.ws.headD 0).toNat ∧ x.ws = [x.ws.headD 0] := by
  have hp := List.length_pos_iff.2 hx.1
  obtain ⟨w, hw⟩ := List.length_eq_one_iff.1 (show x.ws.length = 1 by omega)
  rw [hw]; simp

theorem addu1Go_spec (cap : Cap) (x : Big) (y : Word) (yn : Bool) (hx : x.Canon) (fx : Fits cap x) :
    (addu1Go cap x y yn).Canon ∧ Fits cap (addu1Go cap x y yn) ∧
    ((addu1Go cap x y yn).toInt = x.toInt + (if yn then -(y.toNat : Int) else y.toNat) ∨
     ((addu1Go cap x y yn).toInt = 0 ∧ x.neg = yn ∧ cap.fits (x.ws.length + 1) = false)) := by
  have hp := List.length_pos_iff.2 hx.1
  have hfits : ∀ (b : Big), b.ws.length ≤ x.ws.length → Fits cap b := by
    intro b hb N hN
    have := fx N hN; omega
  unfold addu1Go
  by_cases hs : (x.neg ^^ yn) = false
  · rw [if_pos hs]
    have hxy : x.neg = yn := by revert hs; cases x.neg <;> cases yn <;> simp
    obtain ⟨c, h | h⟩ := uadd1_spec cap x.ws y hx.1
    · refine ⟨c, ?_, Or.inl ?_⟩
      · intro N hN
        have := fits_iff.1 h.1 N hN
        exact le_trans h.2.2 this
      · rw [toInt_mk, h.2.1]; unfold toInt; rw [hxy]; split <;> push_cast <;> ring
    · refine ⟨c, ?_, Or.inr ⟨?_, hxy, h.1⟩⟩
      · apply hfits; simp only [h.2, List.length_singleton]; omega
      · rw [toInt_mk, h.2]; simp
  · rw [if_neg hs]
    have hxy : yn = !x.neg := by revert hs; cases x.neg <;> cases yn <;> simp
    subst hxy
    by_cases hge : x.ws.length > 1 ∨ x.ws.headD 0 ≥ y
    · rw [if_pos hge]
      have hle : y.toNat ≤ val x.ws := by
        rcases hge with h | h
        · have h1 := hx.w.ge h
          have h2 := B_le (n := 1) (m := x.ws.length - 1) (by omega)
          have h3 : B 1 = 4294967296 := rfl
          have := y.isLt
          omega
        · have := headD_eq_mod x.ws
          have h' : y.toNat ≤ (x.ws.headD 0).toNat := by simpa [GE.ge, BitVec.le_def] using h
          have := Nat.mod_le (val x.ws) 4294967296
          omega
      obtain ⟨c, v, l⟩ := usub1_spec cap x.ws y hx.1 hle fx.fits
      refine ⟨c, hfits _ (by simpa using l), Or.inl ?_⟩
      rw [toInt_mk, v]; unfold toInt
      cases x.neg <;> simp <;> omega
    · rw [if_neg hge]
      have h1 : ¬ 1 < x.ws.length := fun h => hge (Or.inl h)
      have h2 : ¬ x.ws.headD 0 ≥ y := fun h => hge (Or.inr h)
      have h2' : (x.ws.headD 0).toNat < y.toNat := by
        simp only [GE.ge, BitVec.le_def] at h2; omega
      obtain ⟨hv, -⟩ := headD_of_len_one hx h1
      have hsub : (y - x.ws.headD 0).toNat = y.toNat - (x.ws.headD 0).toNat := by
        have := y.isLt
        rw [BitVec.toNat_sub]; omega
      refine ⟨canonW_single _, hfits _ (by simp only [List.length_singleton]; omega), Or.inl ?_⟩
      rw [toInt_mk, val_singleton, hsub]; unfold toInt
      rw [hv]
      generalize (x.ws.headD 0).toNat = k at *
      cases x.neg <;> simp <;> omega

theorem adds1Go_eq (cap : Cap) (x : Big) (y : Word) (yn : Bool) : adds1Go cap x y yn = addu1Go cap x y yn := rfl

theorem cabs32_toNat (y : BitVec 32) : ((cabs32 y).toNat : Int) = |y.toInt| := by
  have h := y.isLt
  have hti : y.toInt = if 2 * y.toNat < 4294967296 then (y.toNat : Int) else (y.toNat : Int) - 4294967296 := by
    rw [BitVec.toInt_eq_toNat_cond]; norm_num
  unfold cabs32
  split
  · rename_i h0
    rw [abs_of_nonneg h0]; rw [hti] at h0 ⊢; split <;> simp_all <;> omega
  · rename_i h0
    rw [abs_of_neg (by omega)]
    split
    · rename_i h1; rw [h1]; rfl
    · rw [hti] at h0 ⊢
      split
      · simp_all
      · rw [BitVec.toNat_neg]; omega

theorem cabs64_toNat (y : BitVec 64) : ((cabs64 y).toNat : Int) = |y.toInt| := by
  have h := y.isLt
  have hti : y.toInt = if 2 * y.toNat < 18446744073709551616 then (y.toNat : Int) else (y.toNat : Int) - 18446744073709551616 := by
    rw [BitVec.toInt_eq_toNat_cond]; norm_num
  unfold cabs64
  split
  · rename_i h0
    rw [abs_of_nonneg h0]; rw [hti] at h0 ⊢; split <;> simp_all <;> omega
  · rename_i h0
    rw [abs_of_neg (by omega)]
    split
    · rename_i h1; rw [h1]; rfl
    · rw [hti] at h0 ⊢
      split
      · simp_all
      · rw [BitVec.toNat_neg]; omega

theorem signed_cabs (y : BitVec 32) :
    (if decide (y.toInt < 0) then -((cabs32 y).toNat : Int) else ((cabs32 y).toNat : Int)) = y.toInt := by
  rw [cabs32_toNat]
  by_cases h : y.toInt < 0
  · simp [h, abs_of_neg h]
  · simp [h, abs_of_nonneg (not_lt.1 h)]

theorem adds1_spec (cap : Cap) (x : Big) (y : BitVec 32) (hx : x.Canon) (fx : Fits cap x) :
    (adds1 cap x y).Canon ∧ Fits cap (adds1 cap x y) ∧
    ((adds1 cap x y).toInt = x.toInt + y.toInt ∨ ((adds1 cap x y).toInt = 0 ∧ cap.fits (x.ws.length + 1) = false)) := by
  have := addu1Go_spec cap x (cabs32 y) (decide (y.toInt < 0)) hx fx
  rw [signed_cabs] at this
  exact ⟨this.1, this.2.1, this.2.2.imp id fun h => ⟨h.1, h.2.2⟩⟩

theorem subs1_spec (cap : Cap) (x : Big) (y : BitVec 32) (hx : x.Canon) (fx : Fits cap x) :
    (subs1 cap x y).Canon ∧ Fits cap (subs1 cap x y) ∧
    ((subs1 cap x y).toInt = x.toInt - y.toInt ∨ ((subs1 cap x y).toInt = 0 ∧ cap.fits (x.ws.length + 1) = false)) := by
  have := addu1Go_spec cap x (cabs32 y) (!decide (y.toInt < 0)) hx fx
  have e : (if (!decide (y.toInt < 0)) then -((cabs32 y).toNat : Int) else ((cabs32 y).toNat : Int)) = -y.toInt := by
    rw [← signed_cabs y]; by_cases h : y.toInt < 0 <;> simp [h]
  rw [e] at this
  exact ⟨this.1, this.2.1, this.2.2.imp id fun h => ⟨h.1, h.2.2⟩⟩

theorem addu1_spec (cap : Cap) (x : Big) (y : Word) (hx : x.Canon) (fx : Fits cap x) :
    (addu1 cap x y).Canon ∧ Fits cap (addu1 cap x y) ∧
    ((addu1 cap x y).toInt = x.toInt + y.toNat ∨ ((addu1 cap x y).toInt = 0 ∧ cap.fits (x.ws.length + 1) = false)) := by
  have := addu1Go_spec cap x y false hx fx
  exact ⟨this.1, this.2.1, this.2.2.imp id fun h => ⟨h.1, h.2.2⟩⟩

theorem subu1_spec (cap : Cap) (x : Big) (y : Word) (hx : x.Canon) (fx : Fits cap x) :
    (subu1 cap x y).Canon ∧ Fits cap (subu1 cap x y) ∧
    ((subu1 cap x y).toInt = x.toInt - y.toNat ∨ ((subu1 cap x y).toInt = 0 ∧ cap.fits (x.ws.length + 1) = false)) := by
  have := addu1Go_spec cap x y true hx fx
  exact ⟨this.1, this.2.1, this.2.2.imp (fun h => by rw [sub_eq_add_neg]; exact h) fun h => ⟨h.1, h.2.2⟩⟩

/-! ## multiplication -/

theorem signed_mul (a b : Bool) (m n : Nat) :
    (if (a ^^ b) then -((m * n : Nat) : Int) else ((m * n : Nat) : Int)) =
    (if a then -(m : Int) else m) * (if b then -(n : Int) else n) := by
  cases a <;> cases b <;> simp

theorem mul?_spec (cap : Cap) (x y : Big) (hx : x.Canon) (hy : y.Canon) :
    (∃ z, mul? cap x y = some z ∧ z.Canon ∧ Fits cap z ∧ z.toInt = x.toInt * y.toInt ∧
        z.ws.length ≤ x.ws.length + y.ws.length ∧ cap.fits (x.ws.length + y.ws.length) = true) ∨
    (mul? cap x y = none ∧ cap.fits (x.ws.length + y.ws.length) = false) := by
  obtain ⟨l, v⟩ := mulNM_spec x.ws y.ws hx.1 hy.1
  have hp := List.length_pos_iff.2 hx.1
  have hne : mulNM x.ws y.ws ≠ [] := by intro h; rw [h] at l; simp at l; omega
  unfold mul?
  by_cases hf : cap.fits (x.ws.length + y.ws.length) = true
  · left
    rw [if_pos hf]
    have hl := trim_length_le false _ hne
    refine ⟨_, rfl, trim_canonW false _ hne, ?_, ?_, ?_, hf⟩
    · intro N hN
      have := fits_iff.1 hf N hN
      simp only; omega
    · rw [toInt_mk, trim_val _ _ hne, v]; exact signed_mul _ _ _ _
    · simp only; omega
  · right
    rw [if_neg hf]
    exact ⟨rfl, by simpa using hf⟩

theorem mulu1_spec (cap : Cap) (x : Big) (y : Word) (hx : x.Canon) (fx : Fits cap x) :
    (mulu1 cap x y).Canon ∧ Fits cap (mulu1 cap x y) ∧
    ((mulu1 cap x y).toInt = x.toInt * y.toNat ∨ ((mulu1 cap x y).toInt = 0 ∧ cap.fits (x.ws.length + 1) = false)) := by
  have hl := mulWordN_length x.ws y
  have hs := mulWordN_spec x.ws y
  have hp := List.length_pos_iff.2 hx.1
  unfold mulu1
  by_cases hf : cap.fits (x.ws.length + 1) = true
  · rw [if_pos hf]
    have hne : (mulWordN x.ws y).1 ++ [(mulWordN x.ws y).2] ≠ [] := by simp
    refine ⟨trim_canon _ _ hne, ?_, Or.inl ?_⟩
    · intro N hN
      have := fits_iff.1 hf N hN
      have h2 := trim_length_le x.neg _ hne
      simp only [List.length_append, hl, List.length_singleton] at h2
      simp only; omega
    · simp only
      rw [trim_toInt _ _ hne, val_append, val_singleton, hl, hs]
      unfold toInt
      cases x.neg <;> simp
  · rw [if_neg hf]
    refine ⟨canonW_zero, ?_, Or.inr ⟨rfl, by simpa using hf⟩⟩
    intro N hN
    have := fx N hN
    simp only [zero, List.length_singleton]; omega

theorem muls1_spec (cap : Cap) (x : Big) (y : BitVec 32) (hx : x.Canon) (fx : Fits cap x) :
    (muls1 cap x y).Canon ∧ Fits cap (muls1 cap x y) ∧
    ((muls1 cap x y).toInt = x.toInt * y.toInt ∨ ((muls1 cap x y).toInt = 0 ∧ cap.fits (x.ws.length + 1) = false)) := by
  obtain ⟨c, f, h⟩ := mulu1_spec cap x (cabs32 y) hx fx
  have hs : (muls1 cap x y).toInt = (if y.toInt < 0 then -1 else 1) * (mulu1 cap x (cabs32 y)).toInt := by
    unfold muls1 toInt
    simp only
    by_cases h0 : y.toInt < 0 <;> cases (mulu1 cap x (cabs32 y)).neg <;> simp [h0]
  refine ⟨c, f, ?_⟩
  rw [hs]
  rcases h with h | h
  · left
    rw [h, cabs32_toNat]
    by_cases h0 : y.toInt < 0
    · rw [if_pos h0, abs_of_neg h0]; ring
    · rw [if_neg h0, abs_of_nonneg (not_lt.1 h0)]; ring
  · right
    rw [h.1, mul_zero]; exact ⟨rfl, h.2⟩

/-! ## division -/

theorem udiv_spec (cap : Cap) (x y : List Word) (hx : CanonW x) (hy : CanonW y) (fx : cap.fits x.length = true)
    (hy0 : val y ≠ 0) :
    ∃ q r, udiv cap x y = .ok (some (q, r)) ∧ CanonW q ∧ CanonW r ∧ q.length ≤ x.length ∧ r.length ≤ x.length ∧
      val q = val x / val y ∧ val r = val x % val y := by
  have hp := List.length_pos_iff.2 hx.1
  unfold udiv
  by_cases hlt : x.length < y.length
  · rw [if_pos hlt]
    have hv := hy.val_lt_of_length hx.1 hlt
    refine ⟨_, _, rfl, canonW_zero, trim_canonW _ _ hx.1, by simp; omega, trim_length_le _ _ hx.1, ?_, ?_⟩
    · simp [Nat.div_eq_of_lt hv]
    · rw [trim_val _ _ hx.1, Nat.mod_eq_of_lt hv]
  · rw [if_neg hlt]
    obtain ⟨q, r, e, ql, r0, rl, qv, rv⟩ := divArr_spec x y hx.1 hy.1 hy0 hy.top (by omega)
    have hyp := List.length_pos_iff.2 hy.1
    simp only
    rw [if_pos (fits_mono fx (by omega)), e]
    have hq0 : q ≠ [] := by intro h; rw [h] at ql; simp at ql
    refine ⟨(trim false q).ws, (trim false r).ws, ?_, trim_canonW _ _ hq0, trim_canonW _ _ r0, ?_, ?_, ?_, ?_⟩
    · show (if cap.fits r.length = true then _ else _) = _
      rw [if_pos (fits_mono fx rl)]
    · have := trim_length_le false _ hq0; omega
    · have := trim_length_le false _ r0; omega
    · rw [trim_val _ _ hq0, qv]
    · rw [trim_val _ _ r0, rv]

theorem udiv_zero (cap : Cap) (x : List Word) (hx : x ≠ []) (fx : cap.fits x.length = true) :
    udiv cap x [0] = .error .abort := by
  have hp := List.length_pos_iff.2 hx
  unfold udiv
  rw [if_neg (by simp; omega)]
  simp only
  rw [if_pos (fits_mono fx (by simp; omega)), divArr_zero]; rfl

theorem canonW_val_zero {y : List Word} (hy : CanonW y) (h : val y = 0) : y = [0] :=
  hy.ext canonW_zero (by simpa using h)

theorem divMod?_spec (cap : Cap) (x y : Big) (hx : x.Canon) (hy : y.Canon) (fx : Fits cap x) (hy0 : y.toInt ≠ 0) :
    ∃ q r, divMod? cap x y = .ok (some (q, r)) ∧ q.Canon ∧ r.Canon ∧ Fits cap q ∧ Fits cap r ∧
      q.toInt = x.toInt.tdiv y.toInt ∧ r.toInt = x.toInt.tmod y.toInt ∧ r.neg = x.neg ∧ q.neg = (x.neg ^^ y.neg) := by
  have hv0 : val y.ws ≠ 0 := by rwa [ne_eq, ← toInt_zero_iff]
  obtain ⟨q, r, e, cq, cr, lq, lr, vq, vr⟩ := udiv_spec cap x.ws y.ws hx.w hy.w fx.fits hv0
  refine ⟨⟨x.neg ^^ y.neg, q⟩, ⟨x.neg, r⟩, ?_, cq, cr, ?_, ?_, ?_, ?_, rfl, rfl⟩
  · unfold divMod?; rw [e]; rfl
  · intro N hN; have := fx N hN; simp only; omega
  · intro N hN; have := fx N hN; simp only; omega
  · rw [toInt_mk, vq]; unfold toInt
    cases x.neg <;> cases y.neg <;> simp [Int.neg_tdiv, Int.tdiv_neg]
  · rw [toInt_mk, vr]; unfold toInt
    cases x.neg <;> cases y.neg <;> simp only [Int.neg_tmod, Int.tmod_neg, Int.ofNat_tmod, Bool.false_eq_true, if_true, if_false]

theorem divMod?_zero (cap : Cap) (x y : Big) (hx : x.Canon) (hy : y.Canon) (fx : Fits cap x) (hy0 : y.toInt = 0) :
    divMod? cap x y = .error .abort := by
  have := canonW_val_zero hy.w ((toInt_zero_iff y).1 hy0)
  unfold divMod?
  rw [this, udiv_zero cap x.ws hx.1 fx.fits]; rfl

theorem div_spec (cap : Cap) (x y : Big) (hx : x.Canon) (hy : y.Canon) (fx : Fits cap x) (hy0 : y.toInt ≠ 0) :
    ∃ q, div cap x y = .ok q ∧ q.Canon ∧ Fits cap q ∧ q.toInt = x.toInt.tdiv y.toInt := by
  obtain ⟨q, r, e, cq, cr, fq, fr, vq, vr, -⟩ := divMod?_spec cap x y hx hy fx hy0
  exact ⟨q, by unfold div; rw [e]; rfl, cq, fq, vq⟩

theorem mod_spec (cap : Cap) (x y : Big) (hx : x.Canon) (hy : y.Canon) (fx : Fits cap x) (hy0 : y.toInt ≠ 0) :
    ∃ r, mod cap x y = .ok r ∧ r.Canon ∧ Fits cap r ∧ r.toInt = x.toInt.tmod y.toInt ∧ r.neg = x.neg := by
  obtain ⟨q, r, e, cq, cr, fq, fr, vq, vr, nr, -⟩ := divMod?_spec cap x y hx hy fx hy0
  exact ⟨r, by unfold mod; rw [e]; rfl, cr, fr, vr, nr⟩

theorem div_zero (cap : Cap) (x y : Big) (hx : x.Canon) (hy : y.Canon) (fx : Fits cap x) (hy0 : y.toInt = 0) :
    div cap x y = .error .abort := by unfold div; rw [divMod?_zero cap x y hx hy fx hy0]; rfl

theorem mod_zero (cap : Cap) (x y : Big) (hx : x.Canon) (hy : y.Canon) (fx : Fits cap x) (hy0 : y.toInt = 0) :
    mod cap x y = .error .abort := by unfold mod; rw [divMod?_zero cap x y hx hy fx hy0]; rfl

/-- Floor division: needs one more quotient word only when the quotient is negative and inexact. -/
theorem quotRem_exact (cap : Cap) (x y : Big) (hx : x.Canon) (hy : y.Canon) (fx : Fits cap x) (fy : Fits cap y)
    (hy0 : y.toInt ≠ 0) :
    ∃ (q r d : Big), quotRem cap x y = .ok (q, r) ∧ q.Canon ∧ r.Canon ∧ Fits cap q ∧ Fits cap r ∧
      r.toInt = x.toInt.fmod y.toInt ∧ r.neg = y.neg ∧ d.Canon ∧ d.toInt = x.toInt.tdiv y.toInt ∧
      d.ws.length ≤ x.ws.length ∧
      ((x.toInt.fmod y.toInt ≠ 0 ∧ x.neg ≠ y.neg ∧ cap.fits (d.ws.length + 1) = false) ∧ q = zero ∨
       ¬ (x.toInt.fmod y.toInt ≠ 0 ∧ x.neg ≠ y.neg ∧ cap.fits (d.ws.length + 1) = false) ∧
        q.toInt = x.toInt.fdiv y.toInt) := by
  have hv0 : val y.ws ≠ 0 := by rwa [ne_eq, ← toInt_zero_iff]
  obtain ⟨q, r, e, cq, cr, lq, lr, vq, vr⟩ := udiv_spec cap x.ws y.ws hx.w hy.w fx.fits hv0
  have hrlt : val r < val y.ws := by rw [vr]; exact Nat.mod_lt _ (by omega)
  have hdm := Nat.div_add_mod (val x.ws) (val y.ws)
  rw [← vq, ← vr] at hdm
  have fitq : ∀ b : Big, b.ws.length ≤ x.ws.length → Fits cap b := by
    intro b hb N hN; have := fx N hN; omega
  -- characterisation of floor division
  have key : ∀ a b q r : Int, b ≠ 0 → a = b * q + r → (0 < b → 0 ≤ r ∧ r < b) → (b < 0 → b < r ∧ r ≤ 0) →
      a.fdiv b = q ∧ a.fmod b = r := by
    intro a b q r hb h h1 h2
    have hd := Int.mul_fdiv_add_fmod a b
    have hb1 : 0 < b → 0 ≤ a.fmod b ∧ a.fmod b < b := fun hpos => ⟨Int.fmod_nonneg_of_pos a hpos, Int.fmod_lt_of_pos a hpos⟩
    have hb2 : b < 0 → b < a.fmod b ∧ a.fmod b ≤ 0 := by
      intro hneg
      have e1 : a.fmod b = -((-a).fmod (-b)) := by
        rw [Int.fmod_def, Int.fmod_def, Int.neg_fdiv_neg]; ring
      have := Int.fmod_nonneg_of_pos (-a) (show 0 < -b by omega)
      have := Int.fmod_lt_of_pos (-a) (show 0 < -b by omega)
      omega
    have hq : a.fdiv b = q := by
      have hdiff : b * (a.fdiv b - q) = r - a.fmod b := by rw [mul_sub]; omega
      rcases lt_or_gt_of_ne hb with hneg | hpos
      · have := h2 hneg; have := hb2 hneg
        rcases lt_trichotomy (a.fdiv b - q) 0 with h3 | h3 | h3
        · nlinarith
        · omega
        · nlinarith
      · have := h1 hpos; have := hb1 hpos
        rcases lt_trichotomy (a.fdiv b - q) 0 with h3 | h3 | h3
        · nlinarith
        · omega
        · nlinarith
    refine ⟨hq, ?_⟩
    rw [hq] at hd; omega
  have hR : (⟨y.neg, r⟩ : Big).isZero = true ↔ val r = 0 := by
    rw [isZero_iff (x := ⟨y.neg, r⟩) cr, toInt_zero_iff]
  unfold quotRem
  rw [e]
  show ∃ q_1 r_1 d_1, (if (!(⟨y.neg, r⟩ : Big).isZero && (x.neg ^^ y.neg)) = true then _ else _) = _ ∧ _
  have hyi : y.toInt ≠ 0 := hy0
  have hxi : x.toInt = if x.neg then -((val y.ws * val q + val r : Nat) : Int) else ((val y.ws * val q + val r : Nat) : Int) := by
    unfold toInt; rw [hdm]
  have hd : (⟨x.neg ^^ y.neg, q⟩ : Big).toInt = x.toInt.tdiv y.toInt := by
    unfold toInt
    simp only [vq]
    cases x.neg <;> cases y.neg <;> simp [Int.neg_tdiv, Int.tdiv_neg, Int.ofNat_tdiv]
  by_cases hadj : (!(⟨y.neg, r⟩ : Big).isZero && (x.neg ^^ y.neg)) = true
  · rw [if_pos hadj]
    rw [Bool.and_eq_true, Bool.not_eq_true', ← Bool.not_eq_true, hR] at hadj
    obtain ⟨hr0, hsg⟩ := hadj
    obtain ⟨cq1, hq1⟩ := uadd1_spec cap q 1 cq.1
    obtain ⟨cr1, vr1, lr1⟩ := usub_spec cap y.ws r hy.1 (cr.length_le hy.1 hrlt.le) hrlt.le fy.fits
    have hk := key x.toInt y.toInt (-(val q + 1 : Int)) (if y.neg then -((val y.ws : Int) - val r) else (val y.ws : Int) - val r) hyi
      (by
        rw [hxi]; unfold toInt
        revert hsg
        cases x.neg <;> cases y.neg <;> simp <;> ring)
      (by unfold toInt; cases y.neg <;> simp <;> omega) (by unfold toInt; cases y.neg <;> simp <;> omega)
    have hne : x.neg ≠ y.neg := by
      intro h; rw [h] at hsg; simp at hsg
    have hm : x.toInt.fmod y.toInt ≠ 0 := by
      rw [hk.2]; cases y.neg <;> simp <;> omega
    refine ⟨_, _, ⟨x.neg ^^ y.neg, q⟩, rfl, cq1, cr1, ?_, ?_, ?_, rfl, cq, hd, lq, ?_⟩
    · rcases hq1 with h | h
      · intro N hN
        have := fits_iff.1 h.1 N hN
        exact le_trans h.2.2 this
      · apply fitq; simp only [h.2, List.length_singleton]
        exact List.length_pos_iff.2 hx.1
    · intro N hN; have := fy N hN; simp only; omega
    · rw [hk.2, toInt_mk, vr1]
      cases y.neg <;> simp <;> omega
    · rcases hq1 with h | h
      · right
        refine ⟨fun hh => by rw [h.1] at hh; exact absurd hh.2.2 (by simp), ?_⟩
        rw [hk.1, toInt_mk, hsg, h.1, h.2.1]; simp
      · left
        refine ⟨⟨hm, hne, h.1⟩, ?_⟩
        rw [h.1, h.2, Bool.and_false]; rfl
  · rw [if_neg hadj]
    have hadj' : val r = 0 ∨ x.neg = y.neg := by
      by_contra hcon
      rw [not_or] at hcon
      apply hadj
      rw [Bool.and_eq_true, Bool.not_eq_true', ← Bool.not_eq_true, hR]
      refine ⟨hcon.1, ?_⟩
      have := hcon.2
      revert this; cases x.neg <;> cases y.neg <;> simp
    have hk := key x.toInt y.toInt (if (x.neg ^^ y.neg) then -(val q : Int) else val q) (if y.neg then -(val r : Int) else val r) hyi
      (by
        rw [hxi]; unfold toInt
        rcases hadj' with h | h
        · rw [h]; cases x.neg <;> cases y.neg <;> simp
        · rw [h]; cases y.neg <;> simp; ring)
      (by unfold toInt; cases y.neg <;> simp <;> omega) (by unfold toInt; cases y.neg <;> simp <;> omega)
    refine ⟨_, _, ⟨x.neg ^^ y.neg, q⟩, rfl, cq, cr, fitq _ lq, fitq _ lr, ?_, rfl, cq, hd, lq, Or.inr ⟨?_, ?_⟩⟩
    · rw [hk.2, toInt_mk]
    · rintro ⟨h1, h2, -⟩
      rcases hadj' with h | h
      · exact h1 (by rw [hk.2, h]; simp)
      · exact h2 h
    · rw [hk.1, toInt_mk]

theorem quotRem_spec (cap : Cap) (x y : Big) (hx : x.Canon) (hy : y.Canon) (fx : Fits cap x) (fy : Fits cap y)
    (hy0 : y.toInt ≠ 0) :
    ∃ q r, quotRem cap x y = .ok (q, r) ∧ q.Canon ∧ r.Canon ∧ Fits cap q ∧ Fits cap r ∧
      r.toInt = x.toInt.fmod y.toInt ∧ r.neg = y.neg ∧
      (q.toInt = x.toInt.fdiv y.toInt ∨ (q.toInt = 0 ∧ cap.fits (x.ws.length + 1) = false)) := by
  obtain ⟨q, r, d, h1, h2, h3, h4, h5, h6, h7, h8, h9, h10, h11⟩ := quotRem_exact cap x y hx hy fx fy hy0
  refine ⟨q, r, h1, h2, h3, h4, h5, h6, h7, ?_⟩
  rcases h11 with ⟨⟨-, -, hf⟩, h⟩ | ⟨-, h⟩
  · refine Or.inr ⟨by rw [h]; rfl, ?_⟩
    by_contra hcon
    rw [Bool.not_eq_false] at hcon
    have := fits_mono hcon (n := d.ws.length + 1) (by omega)
    rw [hf] at this; exact absurd this (by simp)
  · exact Or.inl h

/-! ## shifts -/

theorem shl_spec (cap : Cap) (x : Big) (n : Nat) (hx : x.Canon) (hf : cap.fits (x.ws.length + (n + 31) / 32) = true) :
    ∃ z, shl cap x n = .ok z ∧ z.Canon ∧ Fits cap z ∧ z.toInt = x.toInt * 2 ^ n := by
  have hp := List.length_pos_iff.2 hx.1
  have hl := shiftLeft_length x.ws n
  have hne : shiftLeft x.ws n ≠ [] := by intro h; rw [h] at hl; simp at hl; omega
  refine ⟨trim x.neg (shiftLeft x.ws n), ?_, trim_canon _ _ hne, ?_, ?_⟩
  · unfold shl; simp only; rw [if_pos hf]
  · intro N hN
    have := fits_iff.1 hf N hN
    have := trim_length_le x.neg _ hne
    omega
  · rw [trim_toInt _ _ hne, shiftLeft_spec]; unfold toInt
    cases x.neg <;> simp

theorem shr_spec (x : Big) (n : Nat) (hx : x.Canon) :
    (shr x n).Canon ∧ (shr x n).toInt = x.toInt.tdiv (2 ^ n) ∧ (shr x n).ws.length ≤ x.ws.length := by
  have hp := List.length_pos_iff.2 hx.1
  have hcast : ((2:Int)^n) = ((2^n : Nat) : Int) := by push_cast; rfl
  unfold shr
  split
  · rename_i h
    refine ⟨canonW_zero, ?_, by simp [zero]; omega⟩
    have hlt : val x.ws < 2^n := by
      have := val_lt x.ws
      rw [B_eq] at this
      exact lt_of_lt_of_le this (Nat.pow_le_pow_right (by norm_num) (by omega))
    have : (zero).toInt = 0 := rfl
    rw [this, hcast]
    unfold toInt
    cases x.neg <;> simp only [Bool.false_eq_true, if_false, if_true, Int.neg_tdiv, ← Int.ofNat_tdiv, Nat.div_eq_of_lt hlt] <;> simp
  · rename_i h
    have hl := shiftRight_length x.ws n
    have hne : shiftRight x.ws n ≠ [] := by
      intro h'; rw [h'] at hl; simp at hl
      have := Nat.div_mul_le_self n 32
      have : x.ws.length * 32 ≤ n / 32 * 32 := Nat.mul_le_mul_right _ (by omega)
      omega
    refine ⟨trim_canon _ _ hne, ?_, ?_⟩
    · rw [trim_toInt _ _ hne, shiftRight_spec, hcast]; unfold toInt
      cases x.neg <;> simp [Int.neg_tdiv]
    · have := trim_length_le x.neg _ hne; omega

end Big
end Ack
