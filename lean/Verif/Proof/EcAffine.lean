import Verif.Proof.Weier
import Verif.Proof.Fe
/-!
# Affine points: addition, doubling, negation
-/
namespace Ack
open WeierstrassCurve

/-- Run one field operation: `step c h := spec` replaces the first operation by its result. -/
macro "step " c:ident hc:ident " := " h:term : tactic =>
  `(tactic| (obtain ⟨$c, e, $hc⟩ := $h; rw [e, ok_bind]; clear e))

variable {P : ℕ} [Fact P.Prime] {cap : Cap} {C : Curve}

theorem CurveOk.two (K : CurveOk P cap C) : (2 : ZMod P) ≠ 0 := by
  have h3 := K.gt3
  intro h
  have : ((2 : ℕ) : ZMod P) = 0 := by exact_mod_cast h
  rw [ZMod.natCast_eq_zero_iff] at this
  have := Nat.le_of_dvd (by norm_num) this
  omega

theorem CurveOk.ns (K : CurveOk P cap C) {x y : ZMod P} :
    (C.W P).Nonsingular x y ↔ y ^ 2 = x ^ 3 + res P C.a * x + res P C.b := shortW_ns K.disc K.two

theorem CurveOk.not00 (K : CurveOk P cap C) {x y : ZMod P} (h : (C.W P).Nonsingular x y) : ¬ (x = 0 ∧ y = 0) := by
  rintro ⟨rfl, rfl⟩
  have := K.ns.1 h
  apply K.b0
  linear_combination -this

theorem CurveOk.lit (K : CurveOk P cap C) {k : BitVec 32} (h : k.toInt ≤ 3) : k.toInt < (P : ℤ) := by
  have := K.gt3; omega

theorem Rep.mul3 (K : CurveOk P cap C) {a : Fe} {x : ZMod P} (h : Rep P C.p a x) :
    ∃ c, Fe.mulS cap a 3 = .ok c ∧ Rep P C.p c (3 * x) := by
  have := h.mulS K.M (k := 3) (by decide) (K.lit (by decide))
  simpa using this

theorem Rep.mul2 (K : CurveOk P cap C) {a : Fe} {x : ZMod P} (h : Rep P C.p a x) :
    ∃ c, Fe.mulS cap a 2 = .ok c ∧ Rep P C.p c (2 * x) := by
  have := h.mulS K.M (k := 2) (by decide) (K.lit (by decide))
  simpa using this

theorem isZero_false (K : CurveOk P cap C) {a : Fe} {x : ZMod P} (h : Rep P C.p a x) (hx : x ≠ 0) : a.isZero = false := by
  rw [← Bool.not_eq_true, h.isZero_iff K.M]; exact hx

theorem isZero_true (K : CurveOk P cap C) {a : Fe} {x : ZMod P} (h : Rep P C.p a x) (hx : x = 0) : a.isZero = true :=
  (h.isZero_iff K.M).2 hx

theorem identity_rep (C : Curve) : APt.Rep (P := P) C APt.identity 0 := rfl

theorem APt.Rep.zero_iff (K : CurveOk P cap C) {q : APt} {Q : C.Pt P} (h : q.Rep C Q) : q.isIdentity = true ↔ Q = 0 := by
  cases Q with
  | zero => exact ⟨fun _ => rfl, fun _ => h⟩
  | some x y hn =>
    obtain ⟨hc, hx, hy⟩ := h
    refine ⟨fun hi => ?_, fun h0 => absurd h0 (Affine.Point.some_ne_zero hn)⟩
    unfold APt.isIdentity at hi
    rw [hc] at hi
    simp only [Option.isNone_some, Bool.false_or, Bool.and_eq_true] at hi
    rw [hx.isZero_iff K.M, hy.isZero_iff K.M] at hi
    exact absurd hi (K.not00 hn)

theorem APt.Rep.not_id (K : CurveOk P cap C) {q : APt} {x y : ZMod P} {hn} (h : q.Rep C (.some x y hn)) : q.isIdentity = false := by
  rw [← Bool.not_eq_true, h.zero_iff K]; exact Affine.Point.some_ne_zero hn

theorem APt.inverted_spec (K : CurveOk P cap C) {q : APt} {Q : C.Pt P} (h : q.Rep C Q) :
    ∃ r, q.inverted cap = .ok r ∧ r.Rep C (-Q) := by
  unfold APt.inverted
  cases Q with
  | zero => rw [if_pos (show q.isIdentity = true from h)]; exact ⟨q, rfl, h⟩
  | some x y hn =>
    rw [if_neg (by rw [h.not_id K]; simp)]
    obtain ⟨hc, hx, hy⟩ := h
    rw [hc]; unfold curveOf; rw [ok_bind]
    step r hr := hy.neg K.M
    obtain ⟨h', e⟩ := neg_at hn
    exact ⟨_, rfl, by rw [e]; exact ⟨rfl, hx, hr⟩⟩

theorem APt.doubled_spec (K : CurveOk P cap C) {q : APt} {Q : C.Pt P} (h : q.Rep C Q) :
    ∃ r, q.doubled cap = .ok r ∧ r.Rep C (Q + Q) := by
  unfold APt.doubled
  cases Q with
  | zero =>
    rw [if_pos (by rw [show q.isIdentity = true from h]; rfl)]
    exact ⟨_, rfl, rfl⟩
  | some x y hn =>
    have hi := h.not_id K
    obtain ⟨hc, hx, hy⟩ := h
    by_cases h0 : y = 0
    · rw [if_pos (by rw [isZero_true K hy h0]; simp)]
      exact ⟨_, rfl, by rw [dbl_at_zero hn h0]; rfl⟩
    · rw [if_neg (by rw [hi, isZero_false K hy h0]; simp)]
      step x2 r1 := hx.sqr K.M
      step t1 r2 := r1.mul3 K
      rw [hc]; unfold curveOf; rw [ok_bind]
      step t2 r3 := r2.addB K.M K.a
      step d1 r4 := hy.mul2 K
      have hd : 2 * y ≠ 0 := mul_ne_zero K.two h0
      step s r5 := r3.div K.M r4 hd
      step s2 r6 := r5.sqr K.M
      step dx r7 := hx.mul2 K
      step rx r8 := r6.sub K.M r7
      step e1 r9 := hx.sub K.M r8
      step f1 r10 := r5.mul K.M r9
      step ry r11 := r10.sub K.M hy
      obtain ⟨h', e⟩ := dbl_at K.two hn h0 (l := (3 * x ^ 2 + res P C.a) / (2 * y)) (div_mul_cancel₀ _ hd) rfl rfl
      exact ⟨_, rfl, by rw [e]; exact ⟨rfl, r8, r11⟩⟩

theorem APt.add_spec (K : CurveOk P cap C) {p q : APt} {A B : C.Pt P} (hp : p.Rep C A) (hq : q.Rep C B) :
    ∃ r, p.add cap q = .ok r ∧ r.Rep C (A + B) := by
  unfold APt.add
  cases A with
  | zero => rw [if_pos (show p.isIdentity = true from hp)]; exact ⟨q, rfl, by rw [← Affine.Point.zero_def, zero_add]; exact hq⟩
  | some x1 y1 h1 =>
    have hpr := hp
    rw [if_neg (by rw [hp.not_id K]; simp)]
    obtain ⟨pc, px, py⟩ := hp
    cases B with
    | zero => rw [if_pos (show q.isIdentity = true from hq)]; exact ⟨p, rfl, by rw [← Affine.Point.zero_def, add_zero]; exact hpr⟩
    | some x2 y2 h2 =>
      rw [if_neg (by rw [hq.not_id K]; simp)]
      obtain ⟨qc, qx, qy⟩ := hq
      step s r1 := qx.sub K.M px
      by_cases hx : x1 = x2
      · rw [if_pos (isZero_true K r1 (by rw [hx, sub_self]))]
        by_cases hy : y1 = y2
        · rw [if_pos ((py.eq_iff K.M qy).2 hy)]
          subst hx; subst hy
          exact APt.doubled_spec K hpr
        · rw [if_neg (by rw [py.eq_iff K.M qy]; exact hy)]
          exact ⟨_, rfl, by rw [add_at_opp h1 h2 hx hy]; rfl⟩
      · have hd : x2 - x1 ≠ 0 := sub_ne_zero.2 (Ne.symm hx)
        rw [if_neg (by rw [isZero_false K r1 hd]; simp)]
        step d r2 := qy.sub K.M py
        step l r3 := r2.div K.M r1 hd
        step s2 r4 := r3.sqr K.M
        step t r5 := r4.sub K.M px
        step x3 r6 := r5.sub K.M qx
        step e r7 := px.sub K.M r6
        step f r8 := r3.mul K.M r7
        step y3 r9 := r8.sub K.M py
        rw [pc]; unfold curveOf; rw [ok_bind]
        obtain ⟨h', e⟩ := add_at h1 h2 hx (l := (y2 - y1) / (x2 - x1)) (div_mul_cancel₀ _ hd) rfl rfl
        exact ⟨_, rfl, by rw [e]; exact ⟨rfl, r6, r9⟩⟩

end Ack
