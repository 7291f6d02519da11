import Verif.Model.Native
import Verif.Proof.Fp
import Verif.Proof.BigNative
import Verif.Proof.BigCtor
/-!
# Lemmas for operators with a native operand
-/
namespace Ack
open Big

/-- Words needed to hold any value of the type. -/
def Native.words : Native → Nat
  | .s32 _ | .u32 _ => 1 | .s64 _ | .u64 _ => 2

theorem ofU64_len {cap : Cap} {x : BitVec 64} {z : Big} (e : ofU64 cap x = .ok z) : z.ws.length ≤ 2 := by
  unfold ofU64 at e
  cases h : cap.fits 2
  · rw [check_false h] at e; cases e
  · rw [check_true h, ok_bind] at e
    simp only at e
    split at e <;> cases e
    · exact le_trans (trim_length_le _ _ (by simp)) (by simp)
    · exact le_trans (trim_length_le _ _ (by simp)) (by simp)

theorem ofInt64_len {cap : Cap} {x : BitVec 64} {z : Big} (e : ofInt64 cap x = .ok z) : z.ws.length ≤ 2 := by
  unfold ofInt64 at e
  cases h : ofU64 cap (cabs64 x) with
  | error => rw [h] at e; cases e
  | ok r => rw [h, ok_bind] at e; cases e; exact (ofU64_len h : r.ws.length ≤ 2)

theorem Native.toBig_spec (cap : Cap) (n : Native) (h : cap.fits n.words = true) :
    ∃ z, n.toBig cap = .ok z ∧ z.Canon ∧ Fits cap z ∧ z.toInt = n.toInt ∧ z.ws.length ≤ n.words ∧ z.neg = decide (n.toInt < 0) := by
  cases n with
  | s32 v => exact ⟨_, rfl, canonW_single _, fits_iff.1 h, ofInt32_toInt v, le_refl _, rfl⟩
  | u32 v =>
    refine ⟨_, rfl, canonW_single _, fits_iff.1 h, ofWord_toInt v, le_refl _, ?_⟩
    have : ¬ ((v.toNat : Int) < 0) := by omega
    simp only [Native.toInt, this, decide_false]; rfl
  | s64 v =>
    obtain ⟨z, e, c, f, t, m⟩ := ofInt64_spec cap v h
    exact ⟨z, e, c, f, t, ofInt64_len e, m⟩
  | u64 v =>
    obtain ⟨z, e, c, f, t, m⟩ := ofU64_spec cap v h
    have : ¬ ((v.toNat : Int) < 0) := by omega
    exact ⟨z, e, c, f, m, ofU64_len e, by rw [t]; simp only [Native.toInt, this, decide_false]⟩

theorem wide_abort (cap : Cap) (h : cap.fits 2 = false) :
    (∀ x, ofU64 cap x = .error .abort) ∧ (∀ x, ofInt64 cap x = .error .abort) := by
  have a : ∀ x, ofU64 cap x = .error .abort := by intro x; unfold ofU64; rw [check_false h]; rfl
  exact ⟨a, fun x => by unfold ofInt64; rw [a]; rfl⟩

/-- The sign of a comparison. -/
def Sgn (s a b : Int) : Prop := (s < 0 ↔ a < b) ∧ (s = 0 ↔ a = b) ∧ (s > 0 ↔ b < a)

theorem sgn_of {s a b : Int} (h : s = if a < b then -1 else if a = b then 0 else 1) : Sgn s a b := by
  unfold Sgn; subst h; split
  · omega
  · split <;> omega

theorem cmpNative_spec {cap : Cap} {x : Big} (hx : x.Canon) (n : Native) (h : cap.fits n.words = true)
    (h0 : ¬ (n = .u32 0 ∧ x.neg = true ∧ x.toInt = 0)) :
    ∃ s, cmpNative cap x n = .ok s ∧ Sgn s x.toInt n.toInt := by
  cases n with
  | s32 v => exact ⟨_, rfl, sgn_of (compares1_spec hx v)⟩
  | u32 v =>
    refine ⟨_, rfl, sgn_of (compareu1_spec hx v fun hn => ?_)⟩
    by_cases hv : v = 0
    · left; intro e; exact h0 ⟨by rw [hv], hn, e⟩
    · exact Or.inr hv
  | s64 v =>
    obtain ⟨z, e, c, -, t, -⟩ := ofInt64_spec cap v h
    refine ⟨compare x z, by unfold cmpNative; simp only [e, ok_bind], ?_⟩
    have := sgn_of (compare_spec hx c); rw [t] at this; exact this
  | u64 v =>
    obtain ⟨z, e, c, -, -, t⟩ := ofU64_spec cap v h
    refine ⟨compare x z, by unfold cmpNative; simp only [e, ok_bind], ?_⟩
    have := sgn_of (compare_spec hx c); rw [t] at this; exact this

/-- The value is exact, canonical and within capacity. -/
def Exact (cap : Cap) (z : Big) (v : Int) : Prop := z.Canon ∧ Fits cap z ∧ z.toInt = v

theorem addNat_spec {cap : Cap} {x : Big} (hx : x.Canon) (n : Native) (h : cap.fits (x.ws.length + n.words) = true) :
    ∃ z, Big.addN cap x n = .ok z ∧ Exact cap z (x.toInt + n.toInt) := by
  have hp := List.length_pos_iff.2 hx.1
  have fx : Fits cap x := fits_iff.1 (fits_mono h (by omega))
  cases n with
  | s32 v =>
    obtain ⟨c, f, e | e⟩ := adds1_spec cap x v hx fx
    · exact ⟨_, rfl, c, f, e⟩
    · have := e.2; rw [show cap.fits (x.ws.length + 1) = true from h] at this; cases this
  | u32 v =>
    obtain ⟨c, f, e | e⟩ := addu1_spec cap x v hx fx
    · exact ⟨_, rfl, c, f, e⟩
    · have := e.2; rw [show cap.fits (x.ws.length + 1) = true from h] at this; cases this
  | s64 v =>
    obtain ⟨y, e, cy, fy, t, -⟩ := ofInt64_spec cap v (fits_mono h (by simp only [Native.words]; omega))
    have hl := ofInt64_len e
    obtain ⟨c, f, g | g⟩ := add_spec cap x y hx cy fx fy
    · exact ⟨_, by unfold Big.addN addS64; simp only [e, ok_bind], c, f, by rw [g, t]; rfl⟩
    · have := g.2.2; rw [fits_mono h (by simp only [Native.words]; omega)] at this; cases this
  | u64 v =>
    obtain ⟨y, e, cy, fy, -, t⟩ := ofU64_spec cap v (fits_mono h (by simp only [Native.words]; omega))
    have hl := ofU64_len e
    obtain ⟨c, f, g | g⟩ := add_spec cap x y hx cy fx fy
    · exact ⟨_, by unfold Big.addN addU64; simp only [e, ok_bind], c, f, by rw [g, t]; rfl⟩
    · have := g.2.2; rw [fits_mono h (by simp only [Native.words]; omega)] at this; cases this

theorem subNat_spec {cap : Cap} {x : Big} (hx : x.Canon) (n : Native) (h : cap.fits (x.ws.length + n.words) = true) :
    ∃ z, Big.subN' cap x n = .ok z ∧ Exact cap z (x.toInt - n.toInt) := by
  have hp := List.length_pos_iff.2 hx.1
  have fx : Fits cap x := fits_iff.1 (fits_mono h (by omega))
  cases n with
  | s32 v =>
    obtain ⟨c, f, e | e⟩ := subs1_spec cap x v hx fx
    · exact ⟨_, rfl, c, f, e⟩
    · have := e.2; rw [show cap.fits (x.ws.length + 1) = true from h] at this; cases this
  | u32 v =>
    obtain ⟨c, f, e | e⟩ := subu1_spec cap x v hx fx
    · exact ⟨_, rfl, c, f, e⟩
    · have := e.2; rw [show cap.fits (x.ws.length + 1) = true from h] at this; cases this
  | s64 v =>
    obtain ⟨y, e, cy, fy, t, -⟩ := ofInt64_spec cap v (fits_mono h (by simp only [Native.words]; omega))
    have hl := ofInt64_len e
    obtain ⟨c, f, g | g⟩ := sub_spec cap x y hx cy fx fy
    · exact ⟨_, by unfold Big.subN' subS64; simp only [e, ok_bind], c, f, by rw [g, t]; rfl⟩
    · have := g.2.2; rw [fits_mono h (by simp only [Native.words]; omega)] at this; cases this
  | u64 v =>
    obtain ⟨y, e, cy, fy, -, t⟩ := ofU64_spec cap v (fits_mono h (by simp only [Native.words]; omega))
    have hl := ofU64_len e
    obtain ⟨c, f, g | g⟩ := sub_spec cap x y hx cy fx fy
    · exact ⟨_, by unfold Big.subN' subU64; simp only [e, ok_bind], c, f, by rw [g, t]; rfl⟩
    · have := g.2.2; rw [fits_mono h (by simp only [Native.words]; omega)] at this; cases this

theorem mul_fits {cap : Cap} {x y : Big} (hx : x.Canon) (hy : y.Canon) (h : cap.fits (x.ws.length + y.ws.length) = true) :
    Exact cap (Big.mul cap x y) (x.toInt * y.toInt) := by
  obtain ⟨z, e, c, f, v, -, -⟩ | ⟨-, g⟩ := mul?_spec cap x y hx hy
  · unfold Big.mul; rw [e]; exact ⟨c, f, v⟩
  · rw [h] at g; cases g

theorem mulNat_spec {cap : Cap} {x : Big} (hx : x.Canon) (n : Native) (h : cap.fits (x.ws.length + n.words) = true) :
    ∃ z, Big.mulN cap x n = .ok z ∧ Exact cap z (x.toInt * n.toInt) := by
  have hp := List.length_pos_iff.2 hx.1
  have fx : Fits cap x := fits_iff.1 (fits_mono h (by omega))
  cases n with
  | s32 v =>
    obtain ⟨c, f, e | e⟩ := muls1_spec cap x v hx fx
    · exact ⟨_, rfl, c, f, e⟩
    · have := e.2; rw [show cap.fits (x.ws.length + 1) = true from h] at this; cases this
  | u32 v =>
    obtain ⟨c, f, e | e⟩ := mulu1_spec cap x v hx fx
    · exact ⟨_, rfl, c, f, e⟩
    · have := e.2; rw [show cap.fits (x.ws.length + 1) = true from h] at this; cases this
  | s64 v =>
    obtain ⟨y, e, cy, fy, t, -⟩ := ofInt64_spec cap v (fits_mono h (by simp only [Native.words]; omega))
    have hl := ofInt64_len e
    obtain ⟨c, f, g⟩ := mul_fits hx cy (fits_mono h (by simp only [Native.words]; omega))
    exact ⟨_, by unfold Big.mulN mulS64; simp only [e, ok_bind], c, f, by rw [g, t]; rfl⟩
  | u64 v =>
    obtain ⟨y, e, cy, fy, -, t⟩ := ofU64_spec cap v (fits_mono h (by simp only [Native.words]; omega))
    have hl := ofU64_len e
    obtain ⟨c, f, g⟩ := mul_fits hx cy (fits_mono h (by simp only [Native.words]; omega))
    exact ⟨_, by unfold Big.mulN mulU64; simp only [e, ok_bind], c, f, by rw [g, t]; rfl⟩

/-! ## signs -/

theorem plain_of_pos {x : Big} (h : 0 < x.toInt) : x.neg = false := by
  cases hn : x.neg with
  | false => rfl
  | true => unfold toInt at h; rw [hn] at h; simp at h; omega

theorem minus_of_neg {x : Big} (h : x.toInt < 0) : x.neg = true := by
  cases hn : x.neg with
  | true => rfl
  | false => unfold toInt at h; rw [hn] at h; simp at h; omega

/-- A difference of equal values has the sign of the first operand. -/
theorem sub_exact {cap : Cap} {x y : Big} (hx : x.Canon) (hy : y.Canon) (fx : Fits cap x) (fy : Fits cap y) (e : x.neg = y.neg) :
    Exact cap (Big.sub cap x y) (x.toInt - y.toInt) := by
  obtain ⟨c, f, g | g⟩ := sub_spec cap x y hx hy fx fy
  · exact ⟨c, f, g⟩
  · rw [e] at g; have := g.2.1; cases y.neg <;> simp at this

theorem add_exact {cap : Cap} {x y : Big} (hx : x.Canon) (hy : y.Canon) (fx : Fits cap x) (fy : Fits cap y) (e : x.neg ≠ y.neg) :
    Exact cap (Big.add cap x y) (x.toInt + y.toInt) := by
  obtain ⟨c, f, g | g⟩ := add_spec cap x y hx hy fx fy
  · exact ⟨c, f, g⟩
  · exact absurd g.2.1 e

theorem addFin_exact {cap : Cap} {r p : Big} (cr : r.Canon) (fr : Fits cap r) (cp : p.Canon) (fp : Fits cap p) (p0 : 0 < p.toInt) :
    Exact cap (Fp.addFin cap r p) (if p.toInt ≤ r.toInt then r.toInt - p.toInt else r.toInt) := by
  unfold Fp.addFin
  by_cases h : p.toInt ≤ r.toInt
  · rw [if_pos ((opGe_iff cr cp).2 h), if_pos h]
    exact sub_exact cr cp fr fp (by rw [plain_of_pos p0, plain_of_pos (by omega)])
  · rw [if_neg (fun e => h ((opGe_iff cr cp).1 e)), if_neg h]
    exact ⟨cr, fr, rfl⟩

theorem subFin_exact {cap : Cap} {r p : Big} (cr : r.Canon) (fr : Fits cap r) (cp : p.Canon) (fp : Fits cap p) (p0 : 0 < p.toInt) :
    Exact cap (Fp.subFin cap r p) (if r.toInt < 0 then r.toInt + p.toInt else r.toInt) := by
  unfold Fp.subFin
  have h0 := ltS_iff cr 0
  rw [show (0 : BitVec 32).toInt = 0 from rfl] at h0
  by_cases h : r.toInt < 0
  · rw [if_pos (h0.2 h), if_pos h]
    exact add_exact cr cp fr fp (by rw [plain_of_pos p0, minus_of_neg h]; simp)
  · rw [if_neg (fun e => h (h0.1 e)), if_neg h]
    exact ⟨cr, fr, rfl⟩

/-! ## which zero -/

theorem toInt_zero_mk {b : Bool} {ws : List Word} (h : (⟨b, ws⟩ : Big).toInt = 0) : val ws = 0 := by
  rw [toInt_mk] at h; cases b <;> simp at h <;> exact h

theorem addSigned_zero {cap : Cap} {x y : Big} {xn yn : Bool} (hx : x.Canon) (hy : y.Canon) (fy : Fits cap y)
    (h : (addSigned cap x xn y yn).toInt = 0) : (addSigned cap x xn y yn).neg = xn := by
  unfold addSigned at h ⊢
  split
  · rfl
  · rename_i h1
    rw [if_neg h1] at h
    split
    · rfl
    · rename_i h2
      rw [if_neg h2] at h
      exfalso
      rw [ucompare_spec hx.w hy.w] at h2
      have hlt : val x.ws < val y.ws := by
        by_contra hc
        rw [if_neg hc] at h2
        split at h2 <;> simp at h2
      obtain ⟨c, v, l⟩ := usub_spec cap y.ws x.ws hy.1 (hx.w.length_le hy.1 hlt.le) hlt.le fy.fits
      have := toInt_zero_mk h
      rw [v] at this; omega

theorem addu1Go_zero {cap : Cap} {x : Big} {y : Word} {yn : Bool} (hx : x.Canon)
    (h : (addu1Go cap x y yn).toInt = 0) : (addu1Go cap x y yn).neg = x.neg := by
  unfold addu1Go at h ⊢
  split
  · rename_i h1
    show yn = x.neg
    cases hn : x.neg <;> cases yn <;> simp_all
  · rename_i h1
    rw [if_neg h1] at h
    split
    · rfl
    · rename_i h2
      rw [if_neg h2] at h
      exfalso
      have := toInt_zero_mk h
      rw [val_singleton] at this
      rw [not_or, BitVec.not_le] at h2
      have h3 := h2.2
      rw [BitVec.lt_def] at h3
      rw [BitVec.toNat_sub_of_le (BitVec.le_of_lt h2.2)] at this
      omega

/-- Zero results of native additions, subtractions and products of plain values are plain. -/
theorem addNat_zero {cap : Cap} {x : Big} (hx : x.Canon) (n : Native) (h : cap.fits n.words = true) {z : Big}
    (e : Big.addN cap x n = .ok z) (h0 : z.toInt = 0) : z.neg = x.neg := by
  cases n with
  | s32 v => cases e; exact addu1Go_zero hx h0
  | u32 v => cases e; exact addu1Go_zero hx h0
  | s64 v =>
    obtain ⟨y, e1, cy, fy, t, -⟩ := ofInt64_spec cap v h
    unfold Big.addN addS64 at e; simp only [e1, ok_bind] at e; cases e
    exact addSigned_zero hx cy fy h0
  | u64 v =>
    obtain ⟨y, e1, cy, fy, t, -⟩ := ofU64_spec cap v h
    unfold Big.addN addU64 at e; simp only [e1, ok_bind] at e; cases e
    exact addSigned_zero hx cy fy h0

theorem subNat_zero {cap : Cap} {x : Big} (hx : x.Canon) (n : Native) (h : cap.fits n.words = true) {z : Big}
    (e : Big.subN' cap x n = .ok z) (h0 : z.toInt = 0) : z.neg = x.neg := by
  cases n with
  | s32 v => cases e; exact addu1Go_zero hx h0
  | u32 v => cases e; exact addu1Go_zero hx h0
  | s64 v =>
    obtain ⟨y, e1, cy, fy, t, -⟩ := ofInt64_spec cap v h
    unfold Big.subN' subS64 at e; simp only [e1, ok_bind] at e; cases e
    exact addSigned_zero hx cy fy h0
  | u64 v =>
    obtain ⟨y, e1, cy, fy, t, -⟩ := ofU64_spec cap v h
    unfold Big.subN' subU64 at e; simp only [e1, ok_bind] at e; cases e
    exact addSigned_zero hx cy fy h0

theorem mulu1_plain {cap : Cap} {x : Big} (hn : x.neg = false) (y : Word) : (mulu1 cap x y).neg = false := by
  unfold mulu1; split
  · simp only [trim, hn, ite_self]
  · rfl

theorem mul_plain {cap : Cap} {x y : Big} (hx : x.neg = false) (hy : y.neg = false) : (Big.mul cap x y).neg = false := by
  unfold Big.mul mul?; split
  · simp [hx, hy]
  · rfl

theorem mulNat_plain {cap : Cap} {x : Big} (hn : x.neg = false) (n : Native) (n0 : 0 ≤ n.toInt) (h : cap.fits n.words = true)
    {z : Big} (e : Big.mulN cap x n = .ok z) : z.neg = false := by
  have n1 : decide (n.toInt < 0) = false := by simp; exact n0
  cases n with
  | s32 v =>
    cases e
    show ((mulu1 cap x (cabs32 v)).neg ^^ decide (v.toInt < 0)) = false
    rw [mulu1_plain hn, show decide (v.toInt < 0) = false from n1]; rfl
  | u32 v => cases e; exact mulu1_plain hn v
  | s64 v =>
    obtain ⟨y, e1, cy, fy, t, m⟩ := ofInt64_spec cap v h
    unfold Big.mulN mulS64 at e; simp only [e1, ok_bind] at e; cases e
    exact mul_plain hn (m.trans n1)
  | u64 v =>
    obtain ⟨y, e1, cy, fy, m, t⟩ := ofU64_spec cap v h
    unfold Big.mulN mulU64 at e; simp only [e1, ok_bind] at e; cases e
    exact mul_plain hn m

theorem plain_of_nonneg {x : Big} (h : 0 ≤ x.toInt) (z : x.toInt = 0 → x.neg = false) : x.neg = false := by
  rcases h.lt_or_eq with h | h
  · exact plain_of_pos h
  · exact z h.symm

/-! ## the field functions -/

theorem fp_addN {cap : Cap} {a p : Big} (ca : a.Canon) (cp : p.Canon) (fp : Fits cap p) (p0 : 0 < p.toInt) (n : Native)
    (h : cap.fits (a.ws.length + n.words) = true) :
    ∃ z, Fp.addN cap a n p = .ok z ∧
      Exact cap z (if p.toInt ≤ a.toInt + n.toInt then a.toInt + n.toInt - p.toInt else a.toInt + n.toInt) ∧
      (a.neg = false → 0 ≤ a.toInt + n.toInt → z.neg = false) := by
  obtain ⟨r, e, c, f, v⟩ := addNat_spec ca n h
  have E := addFin_exact c f cp fp p0
  rw [v] at E
  refine ⟨_, by unfold Fp.addN; rw [e, ok_bind], E, fun hn h0 => ?_⟩
  have rn : r.neg = false := plain_of_nonneg (by rw [v]; exact h0) fun hz => by rw [addNat_zero ca n (fits_mono h (by omega)) e hz, hn]
  refine plain_of_nonneg (by rw [E.2.2]; split <;> omega) fun hz => ?_
  unfold Fp.addFin at hz ⊢
  split
  · rename_i hg
    rw [if_pos hg] at hz
    exact (addSigned_zero c cp fp hz).trans rn
  · exact rn

theorem fp_subN {cap : Cap} {a p : Big} (ca : a.Canon) (cp : p.Canon) (fp : Fits cap p) (p0 : 0 < p.toInt) (n : Native)
    (h : cap.fits (a.ws.length + n.words) = true) :
    ∃ z, Fp.subN cap a n p = .ok z ∧
      Exact cap z (if a.toInt - n.toInt < 0 then a.toInt - n.toInt + p.toInt else a.toInt - n.toInt) ∧
      (a.neg = false → 0 < a.toInt - n.toInt + p.toInt → z.neg = false) := by
  obtain ⟨r, e, c, f, v⟩ := subNat_spec ca n h
  have E := subFin_exact c f cp fp p0
  rw [v] at E
  refine ⟨_, by unfold Fp.subN; rw [e, ok_bind], E, fun hn h0 => ?_⟩
  refine plain_of_nonneg (by rw [E.2.2]; split <;> omega) fun hz => ?_
  have hz' := hz
  rw [E.2.2] at hz'
  have hr : ¬ a.toInt - n.toInt < 0 := by intro hh; rw [if_pos hh] at hz'; omega
  rw [if_neg hr, ← v] at hz'
  have h0 := ltS_iff c 0
  rw [show (0 : BitVec 32).toInt = 0 from rfl] at h0
  unfold Fp.subFin
  rw [if_neg (fun hh => hr (by rw [← v]; exact h0.1 hh))]
  rw [subNat_zero ca n (fits_mono h (by omega)) e hz', hn]

theorem fp_mulN {cap : Cap} {a p : Big} (ca : a.Canon) (cp : p.Canon) (p0 : p.toInt ≠ 0) (n : Native)
    (h : cap.fits (a.ws.length + n.words) = true) :
    ∃ z, Fp.mulN cap a n p = .ok z ∧ Exact cap z ((a.toInt * n.toInt).tmod p.toInt) ∧
      (a.neg = false → 0 ≤ n.toInt → z.neg = false) := by
  obtain ⟨r, e, c, f, v⟩ := mulNat_spec ca n h
  obtain ⟨z, e2, c2, f2, v2, n2⟩ := mod_spec cap r p c cp f p0
  refine ⟨z, by unfold Fp.mulN; rw [e, ok_bind, e2], ⟨c2, f2, by rw [v2, v]⟩, fun hn h0 => ?_⟩
  rw [n2, mulNat_plain hn n h0 (fits_mono h (by omega)) e]

end Ack
