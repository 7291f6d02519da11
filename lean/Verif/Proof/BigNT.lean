import Verif.Proof.BigPow
import Mathlib.Data.Int.GCD
import Mathlib.NumberTheory.LegendreSymbol.JacobiSymbol
/-! # gcd, modular inverse, Jacobi symbol -/
namespace Ack
namespace Big

theorem natAbs_toInt (x : Big) : x.toInt.natAbs = val x.ws := by
  unfold toInt; cases x.neg <;> simp

theorem abs_toInt (x : Big) : |x.toInt| = val x.ws := by
  unfold toInt; cases x.neg <;> simp

/-! ## gcd -/

/-- Passes of Euclid's algorithm. -/
def gcdSteps (x y : Nat) : Nat := if h : y = 0 then 1 else gcdSteps y (x % y) + 1
termination_by y
decreasing_by exact Nat.mod_lt _ (Nat.pos_of_ne_zero h)

theorem size_val (l : List Word) : (val l).size ≤ 32 * l.length := by
  rw [Nat.size_le]
  have := val_lt l
  unfold B at this
  rwa [pow_mul]

theorem gcdSteps_zero (x : Nat) : gcdSteps x 0 = 1 := by rw [gcdSteps, dif_pos rfl]

theorem gcdSteps_pos {x y : Nat} (h : y ≠ 0) : gcdSteps x y = gcdSteps y (x % y) + 1 := by rw [gcdSteps, dif_neg h]

theorem one_le_gcdSteps (x y : Nat) : 1 ≤ gcdSteps x y := by
  by_cases h : y = 0
  · rw [h, gcdSteps_zero]
  · rw [gcdSteps_pos h]; omega

theorem two_mod_lt {x y : Nat} (h0 : y ≠ 0) (h : y ≤ x) : 2 * (x % y) < x := by
  have h1 := Nat.mod_lt x (Nat.pos_of_ne_zero h0)
  have h2 := Nat.mod_add_div x y
  have h3 : 1 ≤ x / y := Nat.div_pos h (Nat.pos_of_ne_zero h0)
  have h4 : y * 1 ≤ y * (x / y) := Nat.mul_le_mul_left _ h3
  omega

/-- No more passes than the second number says, plus one. -/
theorem gcdSteps_le (x y : Nat) : gcdSteps x y ≤ y + 1 := by
  induction y using Nat.strong_induction_on generalizing x with
  | _ y ih =>
    by_cases h : y = 0
    · rw [h, gcdSteps_zero]
    · rw [gcdSteps_pos h]
      have h1 := Nat.mod_lt x (Nat.pos_of_ne_zero h)
      have := ih _ h1 y
      omega

/-- Two passes for every bit of the second number, plus one. -/
theorem gcdSteps_le_size (x y : Nat) : gcdSteps x y ≤ 2 * y.size + 1 := by
  induction y using Nat.strong_induction_on generalizing x with
  | _ y ih =>
    by_cases h : y = 0
    · rw [h, gcdSteps_zero]; omega
    · rw [gcdSteps_pos h]
      have hs : 0 < y.size := Nat.size_pos.2 (Nat.pos_of_ne_zero h)
      have h1 := Nat.mod_lt x (Nat.pos_of_ne_zero h)
      by_cases h2 : x % y = 0
      · rw [h2, gcdSteps_zero]; omega
      · rw [gcdSteps_pos h2]
        have h3 := two_mod_lt h2 h1.le
        have h4 := ih (y % (x % y)) (by omega) (x % y)
        have h5 : (y % (x % y)).size ≤ y.size - 1 := by
          rw [Nat.size_le]
          have h6 := Nat.lt_size_self y
          have h7 : 2 ^ y.size = 2 * 2 ^ (y.size - 1) := by
            rw [← Nat.pow_succ']; congr 1; omega
          omega
        omega

theorem sq_lt_two_pow (n : Nat) : n * n < 2 ^ (n + 1) := by
  induction n with
  | zero => decide
  | succ n ih =>
    rw [Nat.pow_succ]
    by_cases h : n ≤ 2
    · interval_cases n <;> decide
    · nlinarith

theorem mul_mod_lt_pow {m n f : Nat} (h : m ≤ n) (hf : n + 1 ≤ f) : m * (n % m) < 2 ^ f :=
  lt_of_le_of_lt (Nat.mul_le_mul h (Nat.mod_le n m)) (lt_of_lt_of_le (sq_lt_two_pow n) (Nat.pow_le_pow_right (by decide) hf))

theorem mul_mod_lt_size {m n f : Nat} (h : m ≤ n) (hf : 2 * n.size ≤ f) : m * (n % m) < 2 ^ f := by
  have h1 := Nat.lt_size_self n
  refine lt_of_le_of_lt (Nat.mul_le_mul h (Nat.mod_le n m)) (lt_of_lt_of_le ?_ (Nat.pow_le_pow_right (by decide) hf))
  rw [Nat.two_mul, Nat.pow_add]
  exact Nat.mul_lt_mul'' h1 h1

theorem gcdGo_spec (cap : Cap) : ∀ (f : Nat) (x y : Big), x.Canon → y.Canon → Fits cap x → Fits cap y →
    gcdSteps (val x.ws) (val y.ws) ≤ f →
    ∃ z, gcdGo cap f x y = .ok z ∧ z.Canon ∧ Fits cap z ∧ val z.ws = Nat.gcd (val x.ws) (val y.ws) ∧
      (x.neg = false → y.neg = false → z.neg = false) := by
  intro f
  induction f with
  | zero => intro x y _ _ _ _ h; have := one_le_gcdSteps (val x.ws) (val y.ws); omega
  | succ f ih =>
    intro x y cx cy fx fy h
    rw [gcdGo]
    by_cases hz : y.isZero = true
    · rw [if_pos hz]
      rw [isZero_iff cy, toInt_zero_iff] at hz
      exact ⟨x, rfl, cx, fx, by rw [hz, Nat.gcd_zero_right], fun h _ => h⟩
    · rw [if_neg hz]
      rw [isZero_iff cy] at hz
      obtain ⟨q, r, e, cq, cr, fq, fr, vq, vr, nr, -⟩ := divMod?_spec cap x y cx cy fx hz
      have hrv : val r.ws = val x.ws % val y.ws := by
        rw [← natAbs_toInt, vr, Int.natAbs_tmod, natAbs_toInt, natAbs_toInt]
      rw [gcdSteps_pos (by rw [toInt_zero_iff] at hz; exact hz), ← hrv] at h
      obtain ⟨z, ez, cz, fz, vz, nz⟩ := ih y r cy cr fy fr (by omega)
      simp only [e, ok_bind]
      refine ⟨z, ez, cz, fz, ?_, fun h1 h2 => nz h2 (by rw [nr, h1])⟩
      rw [vz, hrv, Nat.gcd_comm (val x.ws), Nat.gcd_comm (val y.ws) (val x.ws % val y.ws), ← Nat.gcd_rec]

theorem gcd_spec (cap : Cap) (x y : Big) (cx : x.Canon) (cy : y.Canon) (fx : Fits cap x) (fy : Fits cap y) :
    ∃ z, gcd cap x y = .ok z ∧ z.Canon ∧ Fits cap z ∧ z.toInt.natAbs = Int.gcd x.toInt y.toInt ∧
      (x.neg = false → y.neg = false → z.neg = false) := by
  obtain ⟨z, e, cz, fz, vz, nz⟩ := gcdGo_spec cap (64 * y.ws.length + 1) x y cx cy fx fy
    (by have := gcdSteps_le_size (val x.ws) (val y.ws); have := size_val y.ws; omega)
  refine ⟨z, e, cz, fz, ?_, nz⟩
  rw [natAbs_toInt, vz, Int.gcd, natAbs_toInt, natAbs_toInt]

/-! ## modular inverse -/

theorem neg_of_toInt_neg {x : Big} (h : x.toInt < 0) : x.neg = true := by
  unfold toInt at h; by_contra hn; rw [Bool.not_eq_true] at hn; rw [hn] at h; simp at h; omega

theorem neg_of_toInt_pos {x : Big} (h : 0 < x.toInt) : x.neg = false := by
  unfold toInt at h; by_contra hn; rw [Bool.not_eq_false] at hn; rw [hn] at h; simp at h; omega

/-- The product of two numbers needs at most one word more than its value does. -/
theorem mul_length {x y : Big} (cx : x.Canon) (cy : y.Canon) (M : List Word) (hM : M ≠ []) (h0 : val x.ws ≠ 0) (h1 : val y.ws ≠ 0)
    (h : val x.ws * val y.ws ≤ val M) : x.ws.length + y.ws.length ≤ M.length + 1 := by
  have hx : B (x.ws.length - 1) ≤ val x.ws := by
    by_cases hl : 1 < x.ws.length
    · exact cx.w.ge hl
    · have : x.ws.length - 1 = 0 := by omega
      rw [this, B_zero]; omega
  have hy : B (y.ws.length - 1) ≤ val y.ws := by
    by_cases hl : 1 < y.ws.length
    · exact cy.w.ge hl
    · have : y.ws.length - 1 = 0 := by omega
      rw [this, B_zero]; omega
  have h2 := Nat.mul_le_mul hx hy
  rw [← B_add] at h2
  have h3 := val_lt M
  by_contra hcon
  have := B_le (n := M.length) (m := x.ws.length - 1 + (y.ws.length - 1)) (by omega)
  omega

/-- One coefficient update `a - b*q` of the extended Euclidean algorithm. -/
theorem coeff_step (cap : Cap) (a b q m : Big) (K : Nat) (hK : cap.fits (K + 1) = true) (ca : a.Canon) (cb : b.Canon) (cq : q.Canon)
    (fa : Fits cap a) (cm : m.Canon) (hmK : m.ws.length ≤ K) (hqK : q.ws.length ≤ K)
    (hbK : b.ws.length ≤ K) (ha : a.ws.length ≤ K)
    (hbq : val b.ws * val q.ws ≤ val m.ws) :
    (sub cap a (mul cap b q)).Canon ∧ Fits cap (sub cap a (mul cap b q)) ∧
      (sub cap a (mul cap b q)).toInt = a.toInt - b.toInt * q.toInt := by
  have hp1 := List.length_pos_iff.2 cb.1
  have hp2 := List.length_pos_iff.2 cq.1
  have hlen : b.ws.length + q.ws.length ≤ K + 1 := by
    by_cases h0 : val b.ws = 0
    · have := canonW_val_zero cb.w h0
      rw [this]; simp; omega
    · by_cases h1 : val q.ws = 0
      · have := canonW_val_zero cq.w h1
        rw [this]; simp; omega
      · have := mul_length cb cq m.ws cm.1 h0 h1 hbq
        omega
  rcases mul?_spec cap b q cb cq with ⟨z, e, cz, fz, vz, -, -⟩ | ⟨e, hf⟩
  · have hz : mul cap b q = z := by unfold mul; rw [e]; rfl
    rw [hz]
    obtain ⟨c, f, h⟩ := sub_spec cap a z ca cz fa fz
    refine ⟨c, f, ?_⟩
    rcases h with h | h
    · rw [h, vz]
    · exfalso
      have hzl : z.ws.length ≤ K := by
        have : val z.ws ≤ val m.ws := by
          have h2 : val z.ws = val b.ws * val q.ws := by
            rw [← natAbs_toInt, vz, Int.natAbs_mul, natAbs_toInt, natAbs_toInt]
          omega
        have := cz.w.length_le cm.1 this
        omega
      have := fits_mono hK (n := max a.ws.length z.ws.length + 1) (by omega)
      rw [h.2.2] at this; exact absurd this (by simp)
  · exfalso
    have := fits_mono hK hlen
    rw [hf] at this; exact absurd this (by simp)

/-- State of the extended Euclidean algorithm. -/
structure Inv (cap : Cap) (x m : Big) (K : Nat) (a b s t : Big) : Prop where
  ca : a.Canon
  cb : b.Canon
  cs : s.Canon
  ct : t.Canon
  fa : Fits cap a
  fb : Fits cap b
  fs : Fits cap s
  ft : Fits cap t
  sK : s.ws.length ≤ K
  tK : t.ws.length ≤ K
  a0 : 0 < a.toInt
  b0 : b.toInt ≤ 0
  s0 : 0 < s.toInt
  t0 : 0 < t.toInt
  sum : s.toInt * -b.toInt + t.toInt * a.toInt = m.toInt
  as : s.toInt ≡ a.toInt * x.toInt [ZMOD m.toInt]
  bt : t.toInt ≡ b.toInt * x.toInt [ZMOD m.toInt]
  gcd : Int.gcd s.toInt t.toInt = Int.gcd x.toInt m.toInt

theorem length_le_of_le {x m : Big} {K : Nat} (cx : x.Canon) (cm : m.Canon) (h : |x.toInt| ≤ m.toInt) (hK : m.ws.length ≤ K) :
    x.ws.length ≤ K := by
  have : val x.ws ≤ val m.ws := by
    have h1 := abs_toInt x
    have h2 := abs_toInt m
    have := le_abs_self m.toInt
    omega
  exact le_trans (cx.w.length_le cm.1 this) hK

/-- Quotient and remainder of positive numbers. -/
theorem divMod_pos (cap : Cap) (s t : Big) (cs : s.Canon) (ct : t.Canon) (fs : Fits cap s) (hs : 0 ≤ s.toInt) (ht : 0 < t.toInt) :
    ∃ q r, divMod? cap s t = .ok (some (q, r)) ∧ q.Canon ∧ r.Canon ∧ Fits cap q ∧ Fits cap r ∧
      0 ≤ q.toInt ∧ 0 ≤ r.toInt ∧ r.toInt < t.toInt ∧ s.toInt = t.toInt * q.toInt + r.toInt ∧
      q.ws.length ≤ s.ws.length ∧ r.ws.length ≤ s.ws.length := by
  obtain ⟨q, r, e, cq, cr, fq, fr, vq, vr, -⟩ := divMod?_spec cap s t cs ct fs (by omega)
  rw [Int.tdiv_eq_ediv_of_nonneg hs] at vq
  rw [Int.tmod_eq_emod_of_nonneg hs] at vr
  have h1 := Int.mul_ediv_add_emod s.toInt t.toInt
  have hq0 : 0 ≤ q.toInt := by rw [vq]; exact Int.ediv_nonneg hs ht.le
  have hr0 : 0 ≤ r.toInt := by rw [vr]; exact Int.emod_nonneg _ (by omega)
  have hqs : q.toInt ≤ s.toInt := by rw [vq]; exact Int.ediv_le_self _ hs
  have hrs : r.toInt ≤ s.toInt := by
    rw [← vr, ← vq] at h1
    have := mul_nonneg ht.le hq0
    omega
  refine ⟨q, r, e, cq, cr, fq, fr, hq0, hr0, ?_, ?_, ?_, ?_⟩
  · rw [vr]; exact Int.emod_lt_of_pos _ ht
  · rw [vq, vr]; exact h1.symm
  · exact length_le_of_le cq cs (by rw [abs_of_nonneg hq0]; exact hqs) le_rfl
  · exact length_le_of_le cr cs (by rw [abs_of_nonneg hr0]; exact hrs) le_rfl

section
variable {cap : Cap} {x m : Big} {K : Nat} (hK : cap.fits (K + 1) = true) (cm : m.Canon) (hmK : m.ws.length ≤ K)

theorem Inv.absb {a b s t : Big} (h : Inv cap x m K a b s t) : -b.toInt * s.toInt ≤ m.toInt ∧ -b.toInt ≤ m.toInt ∧
    a.toInt * t.toInt ≤ m.toInt ∧ a.toInt ≤ m.toInt := by
  have h1 := h.sum; have h2 := h.a0; have h3 := h.b0; have h4 := h.s0; have h5 := h.t0
  have h6 : 0 < t.toInt * a.toInt := mul_pos h5 h2
  have h7 : 0 ≤ s.toInt * -b.toInt := mul_nonneg h4.le (by omega)
  refine ⟨by nlinarith, by nlinarith, by nlinarith, by nlinarith⟩

include hK cm hmK

theorem Inv.step1 {a b s t q r : Big} (h : Inv cap x m K a b s t) (cq : q.Canon) (cr : r.Canon) (fr : Fits cap r)
    (q0 : 0 ≤ q.toInt) (r0 : 0 < r.toInt) (e : s.toInt = t.toInt * q.toInt + r.toInt)
    (lq : q.ws.length ≤ s.ws.length) (lr : r.ws.length ≤ s.ws.length) :
    Inv cap x m K (sub cap a (mul cap b q)) b r t := by
  obtain ⟨b1, b2, b3, b4⟩ := h.absb
  have hqs : q.toInt ≤ s.toInt := by have := h.t0; nlinarith
  have hbq : -b.toInt * q.toInt ≤ m.toInt := le_trans (mul_le_mul_of_nonneg_left hqs (by have := h.b0; omega)) b1
  have hbq' : val b.ws * val q.ws ≤ val m.ws := by
    zify
    rw [← abs_toInt, ← abs_toInt, ← abs_toInt, abs_of_nonpos h.b0, abs_of_nonneg q0]
    exact le_trans hbq (le_abs_self _)
  have hbK := length_le_of_le h.cb cm (by rw [abs_of_nonpos h.b0]; exact b2) hmK
  have haK := length_le_of_le h.ca cm (by rw [abs_of_pos h.a0]; exact b4) hmK
  obtain ⟨c1, c2, c3⟩ := coeff_step cap a b q m K hK h.ca h.cb cq h.fa cm hmK (le_trans lq h.sK) hbK haK hbq'
  exact {
    ca := c1, cb := h.cb, cs := cr, ct := h.ct, fa := c2, fb := h.fb, fs := fr, ft := h.ft
    sK := le_trans lr h.sK, tK := h.tK
    a0 := by rw [c3]; have := h.a0; have := h.b0; nlinarith
    b0 := h.b0, s0 := r0, t0 := h.t0
    sum := by rw [c3, ← h.sum, e]; ring
    as := by
      rw [c3, sub_mul]
      have h1 := h.as.sub (h.bt.mul_right q.toInt)
      have e2 : r.toInt = s.toInt - t.toInt * q.toInt := by omega
      rw [e2, mul_assoc, mul_comm q.toInt x.toInt, ← mul_assoc]; exact h1
    bt := h.bt
    gcd := by
      rw [← h.gcd, e, add_comm, Int.gcd_comm (_ + _), Int.gcd_add_mul_left_right, Int.gcd_comm] }

theorem Inv.step2 {a b s t q r : Big} (h : Inv cap x m K a b s t) (cq : q.Canon) (cr : r.Canon) (fr : Fits cap r)
    (q0 : 0 ≤ q.toInt) (r0 : 0 < r.toInt) (e : t.toInt = s.toInt * q.toInt + r.toInt)
    (lq : q.ws.length ≤ t.ws.length) (lr : r.ws.length ≤ t.ws.length) :
    Inv cap x m K a (sub cap b (mul cap a q)) s r := by
  obtain ⟨b1, b2, b3, b4⟩ := h.absb
  have hqs : q.toInt ≤ t.toInt := by have := h.s0; nlinarith
  have hbq : a.toInt * q.toInt ≤ m.toInt := le_trans (mul_le_mul_of_nonneg_left hqs (by have := h.a0; omega)) b3
  have hbq' : val a.ws * val q.ws ≤ val m.ws := by
    zify
    rw [← abs_toInt, ← abs_toInt, ← abs_toInt, abs_of_pos h.a0, abs_of_nonneg q0]
    exact le_trans hbq (le_abs_self _)
  have hbK := length_le_of_le h.cb cm (by rw [abs_of_nonpos h.b0]; exact b2) hmK
  have haK := length_le_of_le h.ca cm (by rw [abs_of_pos h.a0]; exact b4) hmK
  obtain ⟨c1, c2, c3⟩ := coeff_step cap b a q m K hK h.cb h.ca cq h.fb cm hmK (le_trans lq h.tK) haK hbK hbq'
  exact {
    ca := h.ca, cb := c1, cs := h.cs, ct := cr, fa := h.fa, fb := c2, fs := h.fs, ft := fr
    sK := h.sK, tK := le_trans lr h.tK
    a0 := h.a0
    b0 := by rw [c3]; have := h.a0; have := h.b0; nlinarith
    s0 := h.s0, t0 := r0
    sum := by rw [c3, ← h.sum, e]; ring
    as := h.as
    bt := by
      rw [c3, sub_mul]
      have h1 := h.bt.sub (h.as.mul_right q.toInt)
      have e2 : r.toInt = t.toInt - s.toInt * q.toInt := by omega
      rw [e2, mul_assoc, mul_comm q.toInt x.toInt, ← mul_assoc]; exact h1
    gcd := by
      rw [← h.gcd, e, add_comm, Int.gcd_add_mul_left_right] }

theorem modinvGo_spec (fm : Fits cap m) (hm1 : 1 < m.toInt) : ∀ (f : Nat) (a b s t : Big), Inv cap x m K a b s t → t.toInt < s.toInt →
    val s.ws < 2 ^ f →
    (modinvGo cap m f a b s t = .ok none ∧ Int.gcd x.toInt m.toInt ≠ 1) ∨
    ∃ z, modinvGo cap m f a b s t = .ok (some z) ∧ Int.gcd x.toInt m.toInt = 1 ∧ z.Canon ∧ Fits cap z ∧ 0 < z.toInt ∧
      z.toInt < m.toInt ∧ z.toInt * x.toInt ≡ 1 [ZMOD m.toInt] := by
  intro f
  induction f with
  | zero =>
    intro a b s t h _ h0
    have h1 := abs_toInt s
    rw [abs_of_pos h.s0] at h1
    have := h.s0
    simp at h0
    omega
  | succ f ih =>
    intro a b s t h hts hf
    rw [modinvGo]
    obtain ⟨q, r, e, cq, cr, fq, fr, q0, r0, rlt, es, lq, lr⟩ := divMod_pos cap s t h.cs h.ct h.fs h.s0.le h.t0
    rw [e, obind_some]
    simp only
    by_cases hz : r.isZero = true
    · rw [if_pos hz]
      rw [isZero_iff cr] at hz
      have hg : Int.gcd x.toInt m.toInt = t.toInt.natAbs := by
        rw [← h.gcd, es, hz, add_zero]; simp
      by_cases ht1 : t.isOne = true
      · rw [ht1]
        simp only [Bool.not_true, Bool.false_eq_true, if_false]
        rw [isOne_iff h.ct] at ht1
        have hbt := h.bt
        rw [ht1] at hbt
        have hb : b.toInt < 0 := by
          rcases lt_or_eq_of_le h.b0 with hb | hb
          · exact hb
          · exfalso
            rw [hb, zero_mul] at hbt
            have := hbt.symm.dvd
            simp at this
            rcases Int.isUnit_iff.1 (isUnit_of_dvd_one this) with h | h <;> omega
        rw [neg_of_toInt_neg hb]
        simp only [if_true]
        obtain ⟨c1, c2, c3⟩ := add_spec cap b m h.cb cm h.fb fm
        have c3' : (add cap b m).toInt = b.toInt + m.toInt := by
          rcases c3 with h | h
          · exact h
          · exfalso
            rw [neg_of_toInt_neg hb, neg_of_toInt_pos (by omega : 0 < m.toInt)] at h
            exact absurd h.2.1 (by simp)
        refine Or.inr ⟨_, rfl, by rw [hg, ht1]; rfl, c1, c2, ?_, ?_, ?_⟩
        · rw [c3']
          have h1 := h.sum; have h2 := h.a0; have h3 := h.s0
          rw [ht1] at h1
          nlinarith
        · rw [c3']; omega
        · rw [c3', add_mul]
          have : b.toInt * x.toInt + m.toInt * x.toInt ≡ b.toInt * x.toInt [ZMOD m.toInt] := by
            exact Int.modEq_iff_dvd.2 ⟨-x.toInt, by ring⟩
          exact this.trans hbt.symm
      · have : t.isOne = false := by simpa using ht1
        rw [this]
        rw [if_pos (by rfl)]
        refine Or.inl ⟨rfl, ?_⟩
        rw [hg]
        rw [isOne_iff h.ct] at ht1
        have := h.t0
        omega
    · rw [if_neg hz]
      rw [isZero_iff cr] at hz
      have h1 := h.step1 hK cm hmK cq cr fr q0 (by omega) es lq lr
      set a' := sub cap a (mul cap b q) with ha'
      obtain ⟨q2, r2, e2, cq2, cr2, fq2, fr2, q20, r20, rlt2, es2, lq2, lr2⟩ :=
        divMod_pos cap t r h.ct cr h.ft h.t0.le (by omega)
      rw [e2, obind_some]
      simp only
      by_cases hz2 : r2.isZero = true
      · rw [if_pos hz2]
        rw [isZero_iff cr2] at hz2
        have hg : Int.gcd x.toInt m.toInt = r.toInt.natAbs := by
          rw [← h1.gcd, es2, hz2, add_zero]; simp
        by_cases hr1 : r.isOne = true
        · rw [hr1]
          simp only [Bool.not_true, Bool.false_eq_true, if_false]
          rw [isOne_iff cr] at hr1
          rw [neg_of_toInt_pos h1.a0]
          simp only [Bool.false_eq_true, if_false]
          have has := h1.as
          rw [hr1] at has
          refine Or.inr ⟨_, rfl, by rw [hg, hr1]; rfl, h1.ca, h1.fa, h1.a0, ?_, has.symm⟩
          have h2 := h1.absb
          have h3 := h1.a0
          nlinarith
        · have : r.isOne = false := by simpa using hr1
          rw [this]
          rw [if_pos (by rfl)]
          refine Or.inl ⟨rfl, ?_⟩
          rw [hg]
          rw [isOne_iff cr] at hr1
          omega
      · rw [if_neg hz2]
        rw [isZero_iff cr2] at hz2
        have h2 := h1.step2 hK cm hmK cq2 cr2 fr2 q20 (by omega) es2 lq2 lr2
        apply ih _ _ _ _ h2 rlt2
        have h3 := abs_toInt r
        have h4 := abs_toInt s
        rw [abs_of_pos h.s0] at h4
        rw [abs_of_pos (by omega)] at h3
        rw [pow_succ] at hf
        have h5 : 1 ≤ q.toInt := by
          by_contra hq
          have : q.toInt = 0 := by omega
          rw [this] at es
          omega
        have h6 : t.toInt * 1 ≤ t.toInt * q.toInt := mul_le_mul_of_nonneg_left h5 h.t0.le
        omega

/-- `modinv` of a non-negative number modulo `m > 1`. -/
theorem modinv?_spec (cx : x.Canon) (fx : Fits cap x) (fm : Fits cap m) (hx : 0 ≤ x.toInt) (hm1 : 1 < m.toInt) (hxK : x.ws.length ≤ K) :
    (modinv? cap x m = .ok none ∧ Int.gcd x.toInt m.toInt ≠ 1) ∨
    ∃ z, modinv? cap x m = .ok (some z) ∧ Int.gcd x.toInt m.toInt = 1 ∧ z.Canon ∧ Fits cap z ∧ 0 < z.toInt ∧
      z.toInt < m.toInt ∧ z.toInt * x.toInt ≡ 1 [ZMOD m.toInt] := by
  have hmz : m.isZero = false := by
    rw [← Bool.not_eq_true, isZero_iff cm]; omega
  have hmo : m.isOne = false := by
    rw [← Bool.not_eq_true, isOne_iff cm]; omega
  unfold modinv?
  rw [hmz]
  simp only [check, Bool.not_false, if_true, ok_bind]
  by_cases hx0 : x.isZero = true
  · rw [if_pos hx0, hmo]
    rw [isZero_iff cx] at hx0
    refine Or.inl ⟨rfl, ?_⟩
    rw [hx0]; simp; omega
  · rw [if_neg hx0]
    rw [isZero_iff cx] at hx0
    by_cases hx1 : x.isOne = true
    · rw [if_pos hx1, hmo]
      rw [isOne_iff cx] at hx1
      refine Or.inr ⟨_, rfl, by rw [hx1]; simp, one_canon, one_fits cx fx rfl, ?_, ?_, ?_⟩
      · simp only [Bool.false_eq_true, if_false]; rw [one_toInt]; norm_num
      · simp only [Bool.false_eq_true, if_false]; rw [one_toInt]; exact hm1
      · simp only [Bool.false_eq_true, if_false]; rw [one_toInt, hx1]; rfl
    · rw [if_neg hx1]
      rw [isOne_iff cx] at hx1
      obtain ⟨q, r, e, cq, cr, fq, fr, q0, r0, rlt, es, lq, lr⟩ := divMod_pos cap m x cm cx fm (by omega) (by omega)
      rw [e, obind_some]
      simp only
      by_cases hz : r.isZero = true
      · rw [if_pos hz]
        rw [isZero_iff cr] at hz
        refine Or.inl ⟨rfl, ?_⟩
        rw [es, hz, add_zero]; simp; omega
      · rw [if_neg hz]
        rw [isZero_iff cr] at hz
        have hnq : (negate q).toInt = -q.toInt := by
          unfold negate toInt; cases q.neg <;> simp
        apply modinvGo_spec hK cm hmK fm hm1 _ _ _ _ _ ?_ rlt (by
          exact Nat.size_le.1 (size_val x.ws))
        exact {
          ca := one_canon, cb := cq, cs := cx, ct := cr, fa := one_fits cx fx rfl, fb := fq, fs := fx, ft := fr
          sK := hxK, tK := le_trans lr hmK
          a0 := by rw [one_toInt]; norm_num
          b0 := by rw [hnq]; omega
          s0 := by omega, t0 := by omega
          sum := by rw [hnq, one_toInt, es]; ring
          as := by rw [one_toInt, one_mul]
          bt := by
            rw [hnq]
            have : r.toInt = -q.toInt * x.toInt + m.toInt * 1 := by rw [es]; ring
            rw [this]
            exact Int.modEq_iff_dvd.2 ⟨-1, by ring⟩
          gcd := by rw [es, add_comm, Int.gcd_add_mul_left_right] }

end

/-! ## Jacobi symbol -/

theorem val_shr1 (x : Big) (hx : x.Canon) : (shr x 1).Canon ∧ val (shr x 1).ws = val x.ws / 2 ∧
    (x.neg = false → (shr x 1).neg = false) ∧ (shr x 1).ws.length ≤ x.ws.length := by
  obtain ⟨c, v, l⟩ := shr_spec x 1 hx
  refine ⟨c, ?_, ?_, l⟩
  · rw [← natAbs_toInt, v, Int.natAbs_tdiv, natAbs_toInt]; rfl
  · intro hn
    unfold shr; split
    · rfl
    · unfold trim; rw [hn]; simp

theorem ctzGo_spec : ∀ (f : Nat) (x : Big) (s : Nat), x.Canon → x.neg = false → val x.ws ≠ 0 → val x.ws < 2^f →
    ∃ y k, ctzGo (f+1) x s = .ok (y, s + k) ∧ y.Canon ∧ y.neg = false ∧ val x.ws = 2^k * val y.ws ∧ val y.ws % 2 = 1 ∧
      y.ws.length ≤ x.ws.length := by
  intro f
  induction f with
  | zero => intro x s _ _ h0 h; simp at h; omega
  | succ f ih =>
    intro x s cx nx h0 h
    rw [ctzGo]
    have htoI : x.toInt = val x.ws := by unfold toInt; rw [nx]; rfl
    by_cases he : x.isEven = true
    · rw [if_pos he]
      rw [isEven_iff, htoI] at he
      obtain ⟨c, v, n, l⟩ := val_shr1 x cx
      obtain ⟨y, k, e, cy, ny, vy, oy, ly⟩ := ih (shr x 1) (s+1) c (n nx) (by omega) (by rw [v]; rw [pow_succ] at h; omega)
      refine ⟨y, k + 1, by rw [e]; congr 2; omega, cy, ny, ?_, oy, by omega⟩
      rw [v] at vy
      rw [pow_succ, mul_comm _ 2, mul_assoc, ← vy]; omega
    · rw [if_neg he]
      rw [isEven_iff, htoI] at he
      exact ⟨x, 0, rfl, cx, nx, by simp, by omega, le_rfl⟩

theorem countTrailingZero_spec (x : Big) (cx : x.Canon) (nx : x.neg = false) (h0 : val x.ws ≠ 0) :
    ∃ y k, countTrailingZero x = .ok (y, k) ∧ y.Canon ∧ y.neg = false ∧ val x.ws = 2^k * val y.ws ∧ val y.ws % 2 = 1 ∧
      y.ws.length ≤ x.ws.length := by
  have := val_lt x.ws
  rw [B_eq, mul_comm] at this
  obtain ⟨y, k, e, r⟩ := ctzGo_spec (x.ws.length * 32) x 0 cx nx h0 this
  exact ⟨y, k, by unfold countTrailingZero; rw [e]; simp, r⟩

theorem low32_mod (x : Big) (n : Nat) (hn : n ∣ 4294967296) : (low32 x).toNat % n = val x.ws % n := by
  unfold low32
  rw [headD_eq_mod, Nat.mod_mod_of_dvd _ hn]

theorem wmod_eq (w : Word) (n k : Nat) (hn : n < 4294967296) (hk : k < 4294967296) (h0 : 0 < n) :
    (w % BitVec.ofNat 32 n = BitVec.ofNat 32 k) ↔ w.toNat % n = k := by
  rw [← BitVec.toNat_inj, BitVec.toNat_umod, BitVec.toNat_ofNat, BitVec.toNat_ofNat]
  rw [Nat.mod_eq_of_lt (a := n) (by norm_num; omega), Nat.mod_eq_of_lt (a := k) (by norm_num; omega)]

/-- Removing factors of two: the second supplement. -/
theorem jacobi_pow_two (k a n : Nat) (hn : n % 2 = 1) :
    jacobiSym ((2^k * a : Nat) : Int) n = (if k % 2 ≠ 0 ∧ (n % 8 = 3 ∨ n % 8 = 5) then -1 else 1) * jacobiSym a n := by
  have hodd : Odd n := Nat.odd_iff.2 hn
  push_cast
  rw [jacobiSym.mul_left, jacobiSym.pow_left, jacobiSym.at_two hodd]
  congr 1
  have h8 : n % 8 = 1 ∨ n % 8 = 3 ∨ n % 8 = 5 ∨ n % 8 = 7 := by omega
  have hc : (ZMod.χ₈ (n : ZMod 8)) = if n % 8 = 3 ∨ n % 8 = 5 then -1 else 1 := by
    have : (n : ZMod 8) = ((n % 8 : Nat) : ZMod 8) := by simp
    rw [this]
    rcases h8 with h | h | h | h <;> rw [h] <;> decide
  rw [hc]
  by_cases h35 : n % 8 = 3 ∨ n % 8 = 5
  · rw [if_pos h35]
    rcases Nat.mod_two_eq_zero_or_one k with hk | hk
    · rw [if_neg (by omega), Even.neg_one_pow (Nat.even_iff.2 hk)]
    · rw [if_pos ⟨by omega, h35⟩, Odd.neg_one_pow (Nat.odd_iff.2 hk)]
  · rw [if_neg h35, one_pow, if_neg (by tauto)]

/-- Quadratic reciprocity in the form the loop uses. -/
theorem jacobi_flip (a n : Nat) (ha : a % 2 = 1) (hn : n % 2 = 1) :
    jacobiSym a n = (if a % 4 = 3 ∧ n % 4 = 3 then -1 else 1) * jacobiSym ((n % a : Nat) : Int) a := by
  have hodd : Odd n := Nat.odd_iff.2 hn
  have hodda : Odd a := Nat.odd_iff.2 ha
  have hmod : jacobiSym ((n % a : Nat) : Int) a = jacobiSym n a := by
    push_cast
    rw [← jacobiSym.mod_left]
  rw [hmod, jacobiSym.quadratic_reciprocity hodda hodd]
  congr 1
  have h1 : a % 4 = 1 ∨ a % 4 = 3 := by omega
  have h2 : n % 4 = 1 ∨ n % 4 = 3 := by omega
  rcases h1 with h1 | h1
  · rw [if_neg (by omega)]
    have : Even (a / 2) := Nat.even_iff.2 (by omega)
    exact (this.mul_right _).neg_one_pow
  · rcases h2 with h2 | h2
    · rw [if_neg (by omega)]
      have : Even (n / 2) := Nat.even_iff.2 (by omega)
      exact (this.mul_left _).neg_one_pow
    · rw [if_pos ⟨h1, h2⟩]
      have h3 : Odd (a / 2) := Nat.odd_iff.2 (by omega)
      have h4 : Odd (n / 2) := Nat.odd_iff.2 (by omega)
      exact (h3.mul h4).neg_one_pow

theorem toInt_of_nonneg {x : Big} (h : x.neg = false) : x.toInt = val x.ws := by unfold toInt; rw [h]; rfl

/-- The second part of a round of the loop: strip the factors of two of `m`, then go on or stop. -/
theorem jacobi_strip (cap : Cap) (f : Nat) (m n : Big) (j : Int) (cm : m.Canon) (nm : m.neg = false)
    (m0 : val m.ws ≠ 0) (on : val n.ws % 2 = 1)
    (cont : ∀ m' : Big, m'.Canon → m'.neg = false → m'.ws.length ≤ m.ws.length → val m'.ws % 2 = 1 → val m'.ws ≠ 1 → val m'.ws ∣ val m.ws → ∀ j',
      jacobiGo cap f false m' n j' = .ok (j' * jacobiSym (val m'.ws) (val n.ws))) :
    (do
      let (m, s) ← countTrailingZero m
      let nmod8 := n.low32 % 8
      let j := if s % 2 ≠ 0 ∧ (nmod8 = 3 ∨ nmod8 = 5) then -j else j
      if compares1 m 1 ≠ 0 then jacobiGo cap f false m n j else .ok j : Res Int) = .ok (j * jacobiSym (val m.ws) (val n.ws)) := by
  obtain ⟨y, k, e, cy, ny, vy, oy, ly⟩ := countTrailingZero_spec m cm nm m0
  simp only [e, ok_bind]
  have h3 : (n.low32 % 8 = 3) ↔ val n.ws % 8 = 3 := by
    rw [← low32_mod n 8 (by norm_num)]; exact wmod_eq _ 8 3 (by norm_num) (by norm_num) (by norm_num)
  have h5 : (n.low32 % 8 = 5) ↔ val n.ws % 8 = 5 := by
    rw [← low32_mod n 8 (by norm_num)]; exact wmod_eq _ 8 5 (by norm_num) (by norm_num) (by norm_num)
  simp only [h3, h5]
  have hj : j * jacobiSym (val m.ws) (val n.ws) =
      (if k % 2 ≠ 0 ∧ (val n.ws % 8 = 3 ∨ val n.ws % 8 = 5) then -j else j) * jacobiSym (val y.ws) (val n.ws) := by
    rw [vy, jacobi_pow_two k _ _ on]
    split <;> ring
  rw [hj]
  rw [compares1_spec cy]
  have h1 : (1 : BitVec 32).toInt = 1 := by decide
  rw [h1, toInt_of_nonneg ny]
  by_cases hy1 : val y.ws = 1
  · rw [hy1]; simp
  · have : (if (val y.ws : Int) < 1 then (-1 : Int) else if (val y.ws : Int) = 1 then 0 else 1) ≠ 0 := by
      have : (val y.ws : Int) ≠ 1 := by exact_mod_cast hy1
      rw [if_neg this]; split <;> simp
    rw [if_pos this]
    exact cont y cy ny ly oy hy1 ⟨2^k, by rw [vy]; ring⟩ _

theorem jacobiGo_spec (cap : Cap) : ∀ (f : Nat) (m n : Big) (j : Int), m.Canon → m.neg = false → n.Canon → n.neg = false →
    Fits cap n → Fits cap m → val m.ws % 2 = 1 → val n.ws % 2 = 1 → val m.ws ≠ 1 → Nat.Coprime (val m.ws) (val n.ws) →
    val m.ws * (val n.ws % val m.ws) < 2 ^ f →
    jacobiGo cap f false m n j = .ok (j * jacobiSym (val m.ws) (val n.ws)) := by
  intro f
  induction f with
  | zero =>
    intro m n j _ _ _ _ _ _ om _ m1 hc h
    simp at h
    rcases h with h | h
    · omega
    · exact absurd (Nat.Coprime.eq_one_of_dvd hc (Nat.dvd_of_mod_eq_zero h)) m1
  | succ f ih =>
    intro m n j cm nm cn nn fn fm om on m1 hc hf
    rw [jacobiGo]
    obtain ⟨t, e, ct, ft, vt, nt⟩ := mod_spec cap n m cn cm fn (by rw [toInt_of_nonneg nm]; omega)
    rw [nn] at nt
    rw [toInt_of_nonneg nt, toInt_of_nonneg nn, toInt_of_nonneg nm, ← Int.ofNat_tmod] at vt
    have vt' : val t.ws = val n.ws % val m.ws := by exact_mod_cast vt
    simp only [Bool.not_false, if_true, e, ok_bind]
    have h3 : (m.low32 % 4 = 3) ↔ val m.ws % 4 = 3 := by
      rw [← low32_mod m 4 (by norm_num)]; exact wmod_eq _ 4 3 (by norm_num) (by norm_num) (by norm_num)
    have h4 : (n.low32 % 4 = 3) ↔ val n.ws % 4 = 3 := by
      rw [← low32_mod n 4 (by norm_num)]; exact wmod_eq _ 4 3 (by norm_num) (by norm_num) (by norm_num)
    simp only [h3, h4]
    have ht0 : val t.ws ≠ 0 := by
      rw [vt']
      intro h0
      have hd := Nat.dvd_of_mod_eq_zero h0
      have := Nat.Coprime.eq_one_of_dvd hc hd
      exact m1 this
    have hlt : val t.ws < val m.ws := by rw [vt']; exact Nat.mod_lt _ (by omega)
    have hfin : j * jacobiSym (val m.ws) (val n.ws) =
        (if val m.ws % 4 = 3 ∧ val n.ws % 4 = 3 then -j else j) * jacobiSym (val t.ws) (val m.ws) := by
      rw [jacobi_flip _ _ om on, vt']
      split <;> ring
    rw [hfin]
    refine jacobi_strip cap f t m _ ct nt ht0 om ?_
    intro m' cm' nm' lm' om' hm1 hdvd j'
    have hle := Nat.le_of_dvd (by omega) hdvd
    have hct : Nat.Coprime (val t.ws) (val m.ws) := by
      rw [vt']
      have := hc.symm
      unfold Nat.Coprime at *
      rw [← this, Nat.gcd_comm (val n.ws), Nat.gcd_rec (val m.ws) (val n.ws)]
    refine ih m' m j' cm' nm' cm nm fm (fun N hN => by have := ft N hN; omega) om' om hm1 (hct.coprime_dvd_left hdvd) ?_
    rw [← vt', pow_succ] at hf
    have h5 := two_mod_lt (x := val m.ws) (y := val m'.ws) (by omega) (by omega)
    have h6 : val m'.ws * (2 * (val m.ws % val m'.ws)) ≤ val t.ws * val m.ws := Nat.mul_le_mul hle h5.le
    have h7 : val m'.ws * (2 * (val m.ws % val m'.ws)) = (val m'.ws * (val m.ws % val m'.ws)) * 2 := by ring
    rw [mul_comm (val m.ws)] at hf
    omega

/-- `jacobi` for an odd positive modulus. -/
theorem jacobi_spec (cap : Cap) (m n : Big) (cm : m.Canon) (cn : n.Canon) (fm : Fits cap m) (fn : Fits cap n)
    (n0 : 0 < n.toInt) (on : n.toInt % 2 = 1) :
    jacobi cap m n = .ok (jacobiSym m.toInt n.toInt.natAbs) := by
  have nn := neg_of_toInt_pos n0
  have hnv := toInt_of_nonneg nn
  have on' : val n.ws % 2 = 1 := by rw [hnv] at on; omega
  rw [natAbs_toInt]
  unfold jacobi
  by_cases h1 : n.isOne = true
  · rw [if_pos h1]
    rw [isOne_iff cn, hnv] at h1
    have : val n.ws = 1 := by exact_mod_cast h1
    rw [this, jacobiSym.one_right]
  · rw [if_neg h1]
    rw [isOne_iff cn, hnv] at h1
    -- the reduction of the argument
    obtain ⟨m', e, cm', fm', nm', hsym, hle, hmn⟩ : ∃ m' : Big, (if compares1 m 0 < 0 ∨ compare m n > 0 then do
          let (_, r) ← quotRem cap m n
          .ok r
        else .ok m : Res Big) = .ok m' ∧ m'.Canon ∧ Fits cap m' ∧ 0 ≤ m'.toInt ∧ (m'.neg = true → m'.toInt = 0) ∧
          m'.toInt ≡ m.toInt [ZMOD n.toInt] ∧ m'.toInt ≤ n.toInt := by
      split
      · obtain ⟨q, r, e, cq, cr, fq, fr, vr, nr, -⟩ := quotRem_spec cap m n cm cn fm fn (by omega)
        rw [e]
        have h2 : r.toInt = m.toInt % n.toInt := by rw [vr, Int.fmod_eq_emod_of_nonneg _ n0.le]
        refine ⟨r, rfl, cr, fr, by rw [h2]; exact Int.emod_nonneg _ (by omega), ?_, by rw [h2]; exact Int.mod_modEq _ _,
          by rw [h2]; exact (Int.emod_lt_of_pos _ n0).le⟩
        rw [nr, nn]; simp
      · rename_i hneg
        rw [not_or, compares1_spec cm] at hneg
        have h0 : (0 : BitVec 32).toInt = 0 := by decide
        rw [h0] at hneg
        have : 0 ≤ m.toInt := by
          by_contra hcon
          rw [if_pos (by omega)] at hneg
          exact hneg.1 (by norm_num)
        have hmn : m.toInt ≤ n.toInt := by
          by_contra hcon
          have h2 := hneg.2
          rw [compare_spec cm cn, if_neg (by omega), if_neg (by omega)] at h2
          exact h2 (by norm_num)
        refine ⟨m, rfl, cm, fm, this, ?_, Int.ModEq.refl _, hmn⟩
        intro hn
        unfold toInt at this ⊢
        rw [hn] at this ⊢
        simp only [if_true] at *
        omega
    have hJ : jacobiSym m.toInt (val n.ws) = jacobiSym m'.toInt (val n.ws) := by
      apply jacobiSym.mod_left'
      rw [hnv] at hle
      exact hle.symm
    rw [e, ok_bind, hJ]
    by_cases hz : m'.isZero = true
    · rw [if_pos hz]
      rw [isZero_iff cm'] at hz
      rw [hz, jacobiSym.zero_left (by omega)]
    · rw [if_neg hz]
      rw [isZero_iff cm'] at hz
      by_cases ho : m'.isOne = true
      · rw [if_pos ho]
        rw [isOne_iff cm'] at ho
        rw [ho, jacobiSym.one_left]
      · rw [if_neg ho]
        rw [isOne_iff cm'] at ho
        have nmf : m'.neg = false := neg_of_toInt_pos (by omega)
        have hmv := toInt_of_nonneg nmf
        obtain ⟨g, eg, cg, fg, vg, ng⟩ := gcd_spec cap m' n cm' cn fm' fn
        rw [eg, ok_bind]
        have hgv := toInt_of_nonneg (ng nmf nn)
        rw [natAbs_toInt, Int.gcd, natAbs_toInt, natAbs_toInt] at vg
        have h1i : (1 : BitVec 32).toInt = 1 := by decide
        rw [compares1_spec cg, h1i, hgv, vg]
        by_cases hg1 : Nat.gcd (val m'.ws) (val n.ws) = 1
        · rw [hg1]
          rw [if_neg (by simp)]
          rw [jacobiGo]
          simp only [Bool.not_true, Bool.false_eq_true, if_false, ok_bind]
          rw [hmv]
          have := jacobi_strip cap (64 * n.ws.length) m' n 1 cm' nmf (by omega) on' ?_
          · rw [one_mul] at this; exact this
          · intro m2 cm2 nm2 lm2 om2 hm1 hdvd j'
            have hc2 : Nat.Coprime (val m2.ws) (val n.ws) := Nat.Coprime.coprime_dvd_left hdvd hg1
            have hle2 := Nat.le_of_dvd (by omega) hdvd
            exact jacobiGo_spec cap _ m2 n j' cm2 nm2 cn nn fn (fun N hN => by have := fm' N hN; omega) om2 on' hm1 hc2
              (mul_mod_lt_size (by omega) (by have := size_val n.ws; omega))
        · have hne : (if ((Nat.gcd (val m'.ws) (val n.ws) : Nat) : Int) < 1 then (-1 : Int)
              else if ((Nat.gcd (val m'.ws) (val n.ws) : Nat) : Int) = 1 then 0 else 1) ≠ 0 := by
            have : ((Nat.gcd (val m'.ws) (val n.ws) : Nat) : Int) ≠ 1 := by exact_mod_cast hg1
            rw [if_neg this]; split <;> simp
          rw [if_pos hne, hmv]
          congr 1
          symm
          have : NeZero (val n.ws) := ⟨by omega⟩
          apply jacobiSym.eq_zero_iff_not_coprime.2
          simpa [Int.gcd] using hg1

end Big
end Ack
