import Verif.Proof.EcAffine
/-!
# Homogeneous and Jacobian points: addition, doubling, negation, conversions
-/
namespace Ack
open WeierstrassCurve

variable {P : ℕ} [Fact P.Prime] {cap : Cap} {C : Curve}

theorem Rep.congr {p : Big} {c : Fe} {x y : ZMod P} (h : Rep P p c x) (e : x = y) : Rep P p c y := e ▸ h

theorem curveOf_some (C : Curve) : curveOf (some C) = .ok C := rfl

/-! ## Homogeneous coordinates -/

theorem PPt.Rep.zero_iff (K : CurveOk P cap C) {q : PPt} {Q : C.Pt P} (h : q.Rep C Q) : q.isIdentity = true ↔ Q = 0 := by
  cases Q with
  | zero => exact ⟨fun _ => rfl, fun _ => h⟩
  | some x y hn =>
    obtain ⟨hc, Z, hZ, -, -, hz⟩ := h
    refine ⟨fun hi => ?_, fun h0 => absurd h0 (Affine.Point.some_ne_zero hn)⟩
    unfold PPt.isIdentity at hi
    rw [hc, isZero_false K hz hZ] at hi
    simp at hi

theorem PPt.Rep.not_id (K : CurveOk P cap C) {q : PPt} {x y : ZMod P} {hn} (h : q.Rep C (.some x y hn)) : q.isIdentity = false := by
  rw [← Bool.not_eq_true, h.zero_iff K]; exact Affine.Point.some_ne_zero hn

theorem PPt.inverted_spec (K : CurveOk P cap C) {q : PPt} {Q : C.Pt P} (h : q.Rep C Q) :
    ∃ r, q.inverted cap = .ok r ∧ r.Rep C (-Q) := by
  unfold PPt.inverted
  cases Q with
  | zero => rw [if_pos (show q.isIdentity = true from h)]; exact ⟨q, rfl, h⟩
  | some x y hn =>
    rw [if_neg (by rw [h.not_id K]; simp)]
    obtain ⟨hc, Z, hZ, hx, hy, hz⟩ := h
    rw [hc, curveOf_some, ok_bind]
    step r hr := hy.neg K.M
    obtain ⟨h', e⟩ := neg_at hn
    exact ⟨_, rfl, by rw [e]; exact ⟨rfl, Z, hZ, hx, hr.congr (by ring), hz⟩⟩

theorem PPt.tangent_spec (K : CurveOk P cap C) {q : PPt} {X Z : ZMod P} (hc : q.curve = some C) (hx : Ack.Rep P C.p q.x X)
    (hz : Ack.Rep P C.p q.z Z) : ∃ t, q.tangent cap = .ok t ∧ Ack.Rep P C.p t (3 * X ^ 2 + res P C.a * Z ^ 2) := by
  unfold PPt.tangent
  step x2 r1 := hx.sqr K.M
  rw [hc, curveOf_some, ok_bind]
  by_cases h1 : C.aIsZero = true
  · rw [if_pos h1]
    obtain ⟨t, e, r⟩ := r1.mul3 K
    exact ⟨t, e, r.congr (by rw [K.z h1]; ring)⟩
  rw [if_neg h1]
  by_cases h2 : C.aIsMinus3 = true
  · rw [if_pos h2]
    step z2 r2 := hz.sqr K.M
    step d r3 := r1.sub K.M r2
    obtain ⟨t, e, r⟩ := r3.mul3 K
    exact ⟨t, e, r.congr (by rw [K.m3 h2]; ring)⟩
  rw [if_neg h2]
  step t r2 := r1.mul3 K
  step z2 r3 := hz.sqr K.M
  unfold Fe.bigMul
  step az r4 := r3.mulB K.M K.a
  obtain ⟨t, e, r⟩ := r2.add K.M r4
  exact ⟨t, e, r.congr (by ring)⟩

theorem eqS_false (K : CurveOk P cap C) {a : Fe} {x : ZMod P} (h : Rep P C.p a x) (hx : x ≠ 0) : a.eqS 0 = false := by
  rw [← Bool.not_eq_true, h.eqS_zero_iff K.M]; exact hx

theorem tangent_sub {a x y l : ZMod P} (hl : l * (2 * y) = 3 * x ^ 2 + a) : a = l * (2 * y) - 3 * x ^ 2 := by
  linear_combination -hl

theorem PPt.doubled_spec (K : CurveOk P cap C) {q : PPt} {Q : C.Pt P} (h : q.Rep C Q) :
    ∃ r, q.doubled cap = .ok r ∧ r.Rep C (Q + Q) := by
  unfold PPt.doubled
  cases Q with
  | zero =>
    rw [if_pos (by rw [show q.isIdentity = true from h]; rfl)]
    exact ⟨_, rfl, rfl⟩
  | some x y hn =>
    have hi := h.not_id K
    obtain ⟨hc, Z, hZ, hx, hy, hz⟩ := h
    by_cases h0 : y = 0
    · rw [if_pos (by rw [(hy.eqS_zero_iff K.M).2 (by rw [h0, zero_mul])]; simp)]
      exact ⟨_, rfl, by rw [dbl_at_zero hn h0]; rfl⟩
    · rw [if_neg (by rw [hi, eqS_false K hy (mul_ne_zero h0 hZ)]; simp)]
      have hd : 2 * y ≠ 0 := mul_ne_zero K.two h0
      have hl : (3 * x ^ 2 + res P C.a) / (2 * y) * (2 * y) = 3 * x ^ 2 + res P C.a := div_mul_cancel₀ _ hd
      generalize (3 * x ^ 2 + res P C.a) / (2 * y) = l at hl
      obtain ⟨h', e⟩ := dbl_at K.two hn h0 hl rfl rfl
      have ha := tangent_sub hl
      step t r1 := PPt.tangent_spec K hc hx hz
      replace r1 := r1.congr (show _ = l * (2 * y) * Z ^ 2 by rw [ha]; ring)
      step dy r2 := hy.mul2 K
      step u r3 := r2.mul K.M hz
      step ux r4 := r3.mul K.M hx
      step v r5 := r4.mul K.M r2
      step t2 r6 := r1.sqr K.M
      step v2 r7 := r5.mul2 K
      step w r8 := r6.sub K.M r7
      step rx r9 := r3.mul K.M r8
      step u2 r10 := r3.sqr K.M
      step e1 r11 := r5.sub K.M r8
      step te r12 := r1.mul K.M r11
      step y2 r13 := hy.sqr K.M
      step k r14 := r10.mul K.M r13
      step k2 r15 := r14.mul2 K
      step ry r16 := r12.sub K.M r15
      step rz r17 := r10.mul K.M r3
      rw [hc, curveOf_some, ok_bind]
      refine ⟨_, rfl, ?_⟩
      rw [e]
      refine ⟨rfl, (2 * y * Z ^ 2) ^ 3, pow_ne_zero _ (mul_ne_zero hd (pow_ne_zero _ hZ)), r9.congr ?_, r16.congr ?_, r17.congr ?_⟩ <;> ring

theorem PPt.add_spec (K : CurveOk P cap C) {p q : PPt} {A B : C.Pt P} (hp : p.Rep C A) (hq : q.Rep C B) :
    ∃ r, p.add cap q = .ok r ∧ r.Rep C (A + B) := by
  unfold PPt.add
  cases A with
  | zero => rw [if_pos (show p.isIdentity = true from hp)]; exact ⟨q, rfl, by rw [← Affine.Point.zero_def, zero_add]; exact hq⟩
  | some x1 y1 h1 =>
    have hpr := hp
    rw [if_neg (by rw [hp.not_id K]; simp)]
    obtain ⟨pc, Z1, hZ1, px, py, pz⟩ := hp
    cases B with
    | zero => rw [if_pos (show q.isIdentity = true from hq)]; exact ⟨p, rfl, by rw [← Affine.Point.zero_def, add_zero]; exact hpr⟩
    | some x2 y2 h2 =>
      rw [if_neg (by rw [hq.not_id K]; simp)]
      obtain ⟨qc, Z2, hZ2, qx, qy, qz⟩ := hq
      step t0 r1 := py.mul K.M qz
      step t1 r2 := qy.mul K.M pz
      step u0 r3 := px.mul K.M qz
      step u1 r4 := qx.mul K.M pz
      have key : ∀ a b : ZMod P, a * Z1 * Z2 = b * Z2 * Z1 ↔ a = b := by
        intro a b
        constructor
        · intro h
          have : (a - b) * (Z1 * Z2) = 0 := by linear_combination h
          exact sub_eq_zero.1 ((mul_eq_zero.1 this).resolve_right (mul_ne_zero hZ1 hZ2))
        · rintro rfl; ring
      by_cases hx : x1 = x2
      · rw [if_pos ((r3.eq_iff K.M r4).2 ((key _ _).2 hx))]
        by_cases hy : y1 = y2
        · rw [if_pos ((r1.eq_iff K.M r2).2 ((key _ _).2 hy))]
          subst hx; subst hy
          exact PPt.doubled_spec K hpr
        · rw [if_neg (by rw [r1.eq_iff K.M r2, key]; exact hy)]
          exact ⟨_, rfl, by rw [add_at_opp h1 h2 hx hy]; rfl⟩
      · rw [if_neg (by rw [r3.eq_iff K.M r4, key]; exact hx)]
        have hd : x2 - x1 ≠ 0 := sub_ne_zero.2 (Ne.symm hx)
        have hl : (y2 - y1) / (x2 - x1) * (x2 - x1) = y2 - y1 := div_mul_cancel₀ _ hd
        generalize (y2 - y1) / (x2 - x1) = l at hl
        obtain ⟨h', e⟩ := add_at h1 h2 hx hl rfl rfl
        have hy2 : y2 = y1 + l * (x2 - x1) := by linear_combination -hl
        step t s1 := r1.sub K.M r2
        replace s1 := s1.congr (show _ = l * (x1 - x2) * Z1 * Z2 by rw [hy2]; ring)
        step u s2 := r3.sub K.M r4
        step u2 s3 := s2.sqr K.M
        step u3 s4 := s2.mul K.M s3
        step v s5 := pz.mul K.M qz
        step t2 s6 := s1.sqr K.M
        step tv s7 := s6.mul K.M s5
        step us s8 := r3.add K.M r4
        step uu s9 := s3.mul K.M s8
        step w s10 := s7.sub K.M s9
        step rx s11 := s2.mul K.M s10
        step m1 s12 := r3.mul K.M s3
        step m2 s13 := s12.sub K.M s10
        step m3 s14 := s1.mul K.M s13
        step k s15 := r1.mul K.M s4
        step ry s16 := s14.sub K.M s15
        step rz s17 := s4.mul K.M s5
        rw [pc, curveOf_some, ok_bind]
        refine ⟨_, rfl, ?_⟩
        rw [e]
        refine ⟨rfl, (x1 - x2) ^ 3 * (Z1 * Z2) ^ 4, ?_, s11.congr ?_, s16.congr ?_, s17.congr ?_⟩
        · exact mul_ne_zero (pow_ne_zero _ (sub_ne_zero.2 hx)) (pow_ne_zero _ (mul_ne_zero hZ1 hZ2))
        all_goals ring

theorem PPt.ofAffine_spec (K : CurveOk P cap C) {q : APt} {Q : C.Pt P} (h : q.Rep C Q) :
    ∃ r, PPt.ofAffine q = .ok r ∧ r.Rep C Q := by
  unfold PPt.ofAffine
  cases Q with
  | zero => rw [show q.isIdentity = true from h]; exact ⟨_, rfl, rfl⟩
  | some x y hn =>
    rw [h.not_id K]
    obtain ⟨hc, hx, hy⟩ := h
    rw [hc, if_pos (by rfl), curveOf_some, ok_bind]
    refine ⟨_, rfl, rfl, 1, one_ne_zero, ?_, ?_, ?_⟩
    · rw [mul_one]; exact hx
    · rw [mul_one]; exact hy
    · exact ⟨rfl, one_elt K.M.one_lt, res_one⟩

theorem PPt.toAffine_spec (K : CurveOk P cap C) {q : PPt} {Q : C.Pt P} (h : q.Rep C Q) :
    ∃ r, q.toAffine cap = .ok r ∧ r.Rep C Q := by
  unfold PPt.toAffine
  cases Q with
  | zero => rw [if_pos (show q.isIdentity = true from h)]; exact ⟨_, rfl, rfl⟩
  | some x y hn =>
    rw [if_neg (by rw [h.not_id K]; simp)]
    obtain ⟨hc, Z, hZ, hx, hy, hz⟩ := h
    by_cases h1 : Z = 1
    · rw [if_pos ((hz.isOne_iff K.M).2 h1), hc, curveOf_some, ok_bind]
      exact ⟨_, rfl, rfl, hx.congr (by rw [h1, mul_one]), hy.congr (by rw [h1, mul_one])⟩
    · rw [if_neg (by rw [hz.isOne_iff K.M]; exact h1)]
      step zi r1 := hz.inv K.M hZ
      rw [hc, curveOf_some, ok_bind]
      step x' r2 := hx.mul K.M r1
      step y' r3 := hy.mul K.M r1
      exact ⟨_, rfl, rfl, r2.congr (mul_inv_cancel_right₀ hZ _), r3.congr (mul_inv_cancel_right₀ hZ _)⟩

theorem assign_one {a : Fe} {p : Big} (h : a.pm = some p) : a.assign (Big.ofInt32 1) false = .ok ⟨Big.ofInt32 1, some p⟩ := by
  unfold Fe.assign; rw [h]; rfl

theorem PPt.normalized_spec (K : CurveOk P cap C) {q : PPt} {Q : C.Pt P} (h : q.Rep C Q) :
    ∃ r, q.normalized cap = .ok r ∧ r.Rep C Q ∧ (Q ≠ 0 → r.z.isOne = true) := by
  unfold PPt.normalized
  cases Q with
  | zero => rw [show q.isIdentity = true from h]; exact ⟨_, rfl, h, fun hc => absurd rfl hc⟩
  | some x y hn =>
    rw [h.not_id K]
    have hr := h
    obtain ⟨hc, Z, hZ, hx, hy, hz⟩ := h
    by_cases h1 : Z = 1
    · rw [(hz.isOne_iff K.M).2 h1]
      exact ⟨_, rfl, hr, fun _ => (hz.isOne_iff K.M).2 h1⟩
    · rw [if_pos (by rw [show q.z.isOne = false by rw [← Bool.not_eq_true, hz.isOne_iff K.M]; exact h1]; rfl)]
      step zi r1 := hz.inv K.M hZ
      step x' r2 := hx.mul K.M r1
      step y' r3 := hy.mul K.M r1
      rw [assign_one hz.pm, ok_bind]
      refine ⟨_, rfl, ⟨hc, 1, one_ne_zero, ?_, ?_, rfl, one_elt K.M.one_lt, res_one⟩, fun _ => rfl⟩
      · exact r2.congr (by rw [mul_inv_cancel_right₀ hZ, mul_one])
      · exact r3.congr (by rw [mul_inv_cancel_right₀ hZ, mul_one])

/-! ## Jacobian coordinates -/

theorem JPt.Rep.zero_iff (K : CurveOk P cap C) {q : JPt} {Q : C.Pt P} (h : q.Rep C Q) : q.isIdentity = true ↔ Q = 0 := by
  cases Q with
  | zero => exact ⟨fun _ => rfl, fun _ => h⟩
  | some x y hn =>
    obtain ⟨hc, Z, hZ, -, -, hz⟩ := h
    refine ⟨fun hi => ?_, fun h0 => absurd h0 (Affine.Point.some_ne_zero hn)⟩
    unfold JPt.isIdentity at hi
    rw [hc, isZero_false K hz hZ] at hi
    simp at hi

theorem JPt.Rep.not_id (K : CurveOk P cap C) {q : JPt} {x y : ZMod P} {hn} (h : q.Rep C (.some x y hn)) : q.isIdentity = false := by
  rw [← Bool.not_eq_true, h.zero_iff K]; exact Affine.Point.some_ne_zero hn

theorem JPt.inverted_spec (K : CurveOk P cap C) {q : JPt} {Q : C.Pt P} (h : q.Rep C Q) :
    ∃ r, q.inverted cap = .ok r ∧ r.Rep C (-Q) := by
  unfold JPt.inverted
  cases Q with
  | zero => rw [if_pos (show q.isIdentity = true from h)]; exact ⟨q, rfl, h⟩
  | some x y hn =>
    rw [if_neg (by rw [h.not_id K]; simp)]
    obtain ⟨hc, Z, hZ, hx, hy, hz⟩ := h
    rw [hc, curveOf_some, ok_bind]
    step r hr := hy.neg K.M
    obtain ⟨h', e⟩ := neg_at hn
    exact ⟨_, rfl, by rw [e]; exact ⟨rfl, Z, hZ, hx, hr.congr (by ring), hz⟩⟩

theorem JPt.tangent_spec (K : CurveOk P cap C) {q : JPt} {X Z : ZMod P} (hc : q.curve = some C) (hx : Ack.Rep P C.p q.x X)
    (hz : Ack.Rep P C.p q.z Z) : ∃ t, q.tangent cap = .ok t ∧ Ack.Rep P C.p t (3 * X ^ 2 + res P C.a * Z ^ 4) := by
  unfold JPt.tangent
  rw [hc, curveOf_some, ok_bind]
  by_cases h1 : C.aIsZero = true
  · rw [if_pos h1]
    step x2 r1 := hx.sqr K.M
    obtain ⟨t, e, r⟩ := r1.mul3 K
    exact ⟨t, e, r.congr (by rw [K.z h1]; ring)⟩
  rw [if_neg h1]
  by_cases h2 : C.aIsMinus3 = true
  · rw [if_pos h2]
    have hz2 : ∃ c, (if q.z.isOne then .ok q.z else q.z.sqr cap) = .ok c ∧ Ack.Rep P C.p c (Z ^ 2) := by
      by_cases hz1 : Z = 1
      · rw [if_pos ((hz.isOne_iff K.M).2 hz1)]; exact ⟨_, rfl, hz.congr (by rw [hz1, one_pow])⟩
      · rw [if_neg (by rw [hz.isOne_iff K.M]; exact hz1)]; exact hz.sqr K.M
    step z2 r2 := hz2
    step d r3 := hx.sub K.M r2
    step d' r4 := r3.mul3 K
    step e' r5 := hx.add K.M r2
    obtain ⟨t, e, r⟩ := r4.mul K.M r5
    exact ⟨t, e, r.congr (by rw [K.m3 h2]; ring)⟩
  rw [if_neg h2]
  have hz4 : ∃ c, (if q.z.isOne then .ok q.z else do
      let z2 ← q.z.sqr cap
      z2.sqr cap) = .ok c ∧ Ack.Rep P C.p c (Z ^ 4) := by
    by_cases hz1 : Z = 1
    · rw [if_pos ((hz.isOne_iff K.M).2 hz1)]; exact ⟨_, rfl, hz.congr (by rw [hz1, one_pow])⟩
    · rw [if_neg (by rw [hz.isOne_iff K.M]; exact hz1)]
      step z2 r1 := hz.sqr K.M
      obtain ⟨t, e, r⟩ := r1.sqr K.M
      exact ⟨t, e, r.congr (by ring)⟩
  step z4 r1 := hz4
  step x2 r2 := hx.sqr K.M
  step t r3 := r2.mul3 K
  unfold Fe.bigMul
  step az r4 := r1.mulB K.M K.a
  obtain ⟨t, e, r⟩ := r3.add K.M r4
  exact ⟨t, e, r.congr (by ring)⟩

theorem Rep.mulLit (K : CurveOk P cap C) (h8 : 8 < P) {a : Fe} {x : ZMod P} (h : Rep P C.p a x) {k : BitVec 32} (h0 : 0 ≤ k.toInt) (hk : k.toInt ≤ 8) :
    ∃ c, Fe.mulS cap a k = .ok c ∧ Rep P C.p c (k.toInt * x) := h.mulS K.M h0 (by omega)

theorem JPt.doubled_spec (K : CurveOk P cap C) (h8 : 8 < P) {q : JPt} {Q : C.Pt P} (h : q.Rep C Q) :
    ∃ r, q.doubled cap = .ok r ∧ r.Rep C (Q + Q) := by
  unfold JPt.doubled
  cases Q with
  | zero =>
    rw [if_pos (show q.isIdentity = true from h)]
    exact ⟨_, rfl, h⟩
  | some x y hn =>
    rw [if_neg (by rw [h.not_id K]; simp)]
    obtain ⟨hc, Z, hZ, hx, hy, hz⟩ := h
    by_cases h0 : y = 0
    · rw [if_pos ((hy.eqS_zero_iff K.M).2 (by rw [h0, zero_mul]))]
      exact ⟨_, rfl, by rw [dbl_at_zero hn h0]; rfl⟩
    · rw [if_neg (by rw [eqS_false K hy (mul_ne_zero h0 (pow_ne_zero _ hZ))]; simp)]
      have hd : 2 * y ≠ 0 := mul_ne_zero K.two h0
      have hl : (3 * x ^ 2 + res P C.a) / (2 * y) * (2 * y) = 3 * x ^ 2 + res P C.a := div_mul_cancel₀ _ hd
      generalize (3 * x ^ 2 + res P C.a) / (2 * y) = l at hl
      obtain ⟨h', e⟩ := dbl_at K.two hn h0 hl rfl rfl
      have ha := tangent_sub hl
      step m r1 := JPt.tangent_spec K hc hx hz
      replace r1 := r1.congr (show _ = l * (2 * y) * Z ^ 4 by rw [ha]; ring)
      step y2 r2 := hy.sqr K.M
      step x4 r3 := hx.mulLit K h8 (k := 4) (by decide) (by decide)
      replace r3 := r3.congr (show _ = 4 * (x * Z ^ 2) by simp)
      step s r4 := r3.mul K.M r2
      step m2 r5 := r1.sqr K.M
      step s2 r6 := r4.mul2 K
      step x3 r7 := r5.sub K.M r6
      step d r8 := r4.sub K.M r7
      step md r9 := r1.mul K.M r8
      step y4 r10 := r2.sqr K.M
      step y8 r11 := r10.mulLit K h8 (k := 8) (by decide) (by decide)
      replace r11 := r11.congr (show _ = 8 * ((y * Z ^ 3) ^ 2) ^ 2 by simp)
      step y3 r12 := r9.sub K.M r11
      step dy r13 := hy.mul2 K
      step z3 r14 := r13.mul K.M hz
      rw [hc, curveOf_some, ok_bind]
      refine ⟨_, rfl, ?_⟩
      rw [e]
      refine ⟨rfl, 2 * y * Z ^ 4, mul_ne_zero hd (pow_ne_zero _ hZ), r7.congr ?_, r12.congr ?_, r14.congr ?_⟩ <;> ring

theorem mul_unless_one (K : CurveOk P cap C) {h z : Fe} {H Z : ZMod P} (hh : Rep P C.p h H) (hz : Rep P C.p z Z) :
    ∃ c, (if !z.isOne then h.mul cap z else .ok h) = .ok c ∧ Rep P C.p c (H * Z) := by
  by_cases h1 : Z = 1
  · rw [(hz.isOne_iff K.M).2 h1]
    exact ⟨_, rfl, hh.congr (by rw [h1, mul_one])⟩
  · rw [if_pos (by rw [show z.isOne = false by rw [← Bool.not_eq_true, hz.isOne_iff K.M]; exact h1]; rfl)]
    exact hh.mul K.M hz

theorem JPt.addex_spec (K : CurveOk P cap C) (h8 : 8 < P) {p q : JPt} {x1 y1 x2 y2 Z1 Z2 : ZMod P} {U1 U2 S1 S2 : Fe}
    {h1 : (C.W P).Nonsingular x1 y1} {h2 : (C.W P).Nonsingular x2 y2} (hp : p.Rep C (.some x1 y1 h1)) (pz : Ack.Rep P C.p p.z Z1)
    (qz : Ack.Rep P C.p q.z Z2) (hZ1 : Z1 ≠ 0) (hZ2 : Z2 ≠ 0)
    (u1 : Ack.Rep P C.p U1 (x1 * (Z1 * Z2) ^ 2)) (u2 : Ack.Rep P C.p U2 (x2 * (Z1 * Z2) ^ 2))
    (s1 : Ack.Rep P C.p S1 (y1 * (Z1 * Z2) ^ 3)) (s2 : Ack.Rep P C.p S2 (y2 * (Z1 * Z2) ^ 3)) :
    ∃ r, JPt.addex cap p q U1 U2 S1 S2 = .ok r ∧ r.Rep C (Affine.Point.some x1 y1 h1 + Affine.Point.some x2 y2 h2) := by
  unfold JPt.addex
  have hs : Z1 * Z2 ≠ 0 := mul_ne_zero hZ1 hZ2
  have pc : p.curve = some C := hp.1
  generalize hse : Z1 * Z2 = s at *
  step H r1 := u2.sub K.M u1
  step R r2 := s2.sub K.M s1
  have key : ∀ (a b : ZMod P) (n : ℕ), b * s ^ n - a * s ^ n = 0 ↔ a = b := by
    intro a b n
    rw [← sub_mul, mul_eq_zero, or_iff_left (pow_ne_zero _ hs), sub_eq_zero, eq_comm]
  by_cases hx : x1 = x2
  · rw [if_pos (isZero_true K r1 ((key _ _ _).2 hx))]
    by_cases hy : y1 = y2
    · rw [if_pos (isZero_true K r2 ((key _ _ _).2 hy))]
      subst hx; subst hy
      exact JPt.doubled_spec K h8 hp
    · rw [if_neg (by rw [isZero_false K r2 (by rw [Ne, key]; exact hy)]; simp)]
      exact ⟨_, rfl, by rw [add_at_opp h1 h2 hx hy]; rfl⟩
  · rw [if_neg (by rw [isZero_false K r1 (by rw [Ne, key]; exact hx)]; simp)]
    have hd : x2 - x1 ≠ 0 := sub_ne_zero.2 (Ne.symm hx)
    have hl : (y2 - y1) / (x2 - x1) * (x2 - x1) = y2 - y1 := div_mul_cancel₀ _ hd
    generalize (y2 - y1) / (x2 - x1) = l at hl
    obtain ⟨h', e⟩ := add_at h1 h2 hx hl rfl rfl
    replace r2 := r2.congr (show _ = l * (x2 - x1) * s ^ 3 by linear_combination -s ^ 3 * hl)
    step H2 r3 := r1.sqr K.M
    step H3 r4 := r3.mul K.M r1
    step V r5 := u1.mul K.M r3
    step R2 r6 := r2.sqr K.M
    step t r7 := r6.sub K.M r4
    step V2 r8 := r5.mul2 K
    step X3 r9 := r7.sub K.M r8
    step d r10 := r5.sub K.M r9
    step rd r11 := r2.mul K.M r10
    step sh r12 := s1.mul K.M r4
    step Y3 r13 := r11.sub K.M r12
    step Z3 r14 := mul_unless_one K r1 pz
    step Z3' r15 := mul_unless_one K r14 qz
    rw [pc, curveOf_some, ok_bind]
    refine ⟨_, rfl, ?_⟩
    rw [e]
    refine ⟨rfl, (x2 - x1) * s ^ 3, mul_ne_zero hd (pow_ne_zero _ hs), r9.congr ?_, r13.congr ?_, r15.congr ?_⟩
    · ring
    · ring
    · rw [mul_assoc, hse]; ring

theorem JPt.addZ2One_spec (K : CurveOk P cap C) (h8 : 8 < P) {p q : JPt} {x1 y1 x2 y2 : ZMod P}
    {h1 : (C.W P).Nonsingular x1 y1} {h2 : (C.W P).Nonsingular x2 y2} (hp : p.Rep C (.some x1 y1 h1)) (hq : q.Rep C (.some x2 y2 h2))
    (h : q.z.isOne = true) :
    ∃ r, JPt.addZ2One cap p q = .ok r ∧ r.Rep C (Affine.Point.some x1 y1 h1 + Affine.Point.some x2 y2 h2) := by
  unfold JPt.addZ2One
  have hpr := hp
  obtain ⟨pc, Z1, hZ1, px, py, pz⟩ := hp
  obtain ⟨qc, Z2, hZ2, qx, qy, qz⟩ := hq
  have hz := (qz.isOne_iff K.M).1 h
  step pz2 r1 := pz.sqr K.M
  step u2 r2 := qx.mul K.M r1
  step s2 r3 := qy.mul K.M r1
  step s2' r4 := r3.mul K.M pz
  refine JPt.addex_spec K h8 hpr pz qz hZ1 hZ2 (px.congr ?_) (r2.congr ?_) (py.congr ?_) (r4.congr ?_) <;> rw [hz] <;> ring

theorem JPt.add_spec (K : CurveOk P cap C) (h8 : 8 < P) {p q : JPt} {A B : C.Pt P} (hp : p.Rep C A) (hq : q.Rep C B) :
    ∃ r, p.add cap q = .ok r ∧ r.Rep C (A + B) := by
  unfold JPt.add
  cases A with
  | zero => rw [if_pos (show p.isIdentity = true from hp)]; exact ⟨q, rfl, by rw [← Affine.Point.zero_def, zero_add]; exact hq⟩
  | some x1 y1 h1 =>
    have hpr := hp
    rw [if_neg (by rw [hp.not_id K]; simp)]
    obtain ⟨pc, Z1, hZ1, px, py, pz⟩ := hp
    cases B with
    | zero => rw [if_pos (show q.isIdentity = true from hq)]; exact ⟨p, rfl, by rw [← Affine.Point.zero_def, add_zero]; exact hpr⟩
    | some x2 y2 h2 =>
      rw [if_neg (by rw [hq.not_id K]; simp)]
      have hqr := hq
      obtain ⟨qc, Z2, hZ2, qx, qy, qz⟩ := hq
      by_cases z1 : p.z.isOne = true
      · by_cases z2 : q.z.isOne = true
        · rw [if_pos (by rw [z1, z2]; rfl)]
          have e1 := (pz.isOne_iff K.M).1 z1
          have e2 := (qz.isOne_iff K.M).1 z2
          refine JPt.addex_spec K h8 hpr pz qz hZ1 hZ2 (px.congr ?_) (qx.congr ?_) (py.congr ?_) (qy.congr ?_) <;> rw [e1, e2] <;> ring
        · rw [if_neg (by rw [z1]; simpa using z2), if_pos z1, add_comm]
          exact JPt.addZ2One_spec K h8 hqr hpr z1
      · by_cases z2 : q.z.isOne = true
        · rw [if_neg (by rw [z2]; simpa using z1), if_neg z1, if_pos z2]
          exact JPt.addZ2One_spec K h8 hpr hqr z2
        · rw [if_neg (by simp [z1]), if_neg z1, if_neg z2]
          unfold JPt.addNe
          step pz2 r1 := pz.sqr K.M
          step qz2 r2 := qz.sqr K.M
          step u1 r3 := px.mul K.M r2
          step u2 r4 := qx.mul K.M r1
          step s1 r5 := py.mul K.M r2
          step s1' r6 := r5.mul K.M qz
          step s2 r7 := qy.mul K.M r1
          step s2' r8 := r7.mul K.M pz
          refine JPt.addex_spec K h8 hpr pz qz hZ1 hZ2 (r3.congr ?_) (r4.congr ?_) (r6.congr ?_) (r8.congr ?_) <;> ring

theorem JPt.ofAffine_spec (K : CurveOk P cap C) {q : APt} {Q : C.Pt P} (h : q.Rep C Q) :
    ∃ r, JPt.ofAffine q = .ok r ∧ r.Rep C Q := by
  unfold JPt.ofAffine
  cases Q with
  | zero => rw [show q.isIdentity = true from h]; exact ⟨_, rfl, rfl⟩
  | some x y hn =>
    rw [h.not_id K]
    obtain ⟨hc, hx, hy⟩ := h
    rw [hc, if_pos (by rfl), curveOf_some, ok_bind]
    refine ⟨_, rfl, rfl, 1, one_ne_zero, ?_, ?_, ?_⟩
    · rw [one_pow, mul_one]; exact hx
    · rw [one_pow, mul_one]; exact hy
    · exact ⟨rfl, one_elt K.M.one_lt, res_one⟩

theorem cancel2 {x Z : ZMod P} (hZ : Z ≠ 0) : x * Z ^ 2 * Z⁻¹ ^ 2 = x := by
  rw [mul_assoc, ← mul_pow, mul_inv_cancel₀ hZ, one_pow, mul_one]
theorem cancel3 {x Z : ZMod P} (hZ : Z ≠ 0) : x * Z ^ 3 * Z⁻¹ ^ 2 * Z⁻¹ = x := by
  rw [mul_assoc, ← pow_succ, mul_assoc, ← mul_pow, mul_inv_cancel₀ hZ, one_pow, mul_one]

theorem JPt.toAffine_spec (K : CurveOk P cap C) {q : JPt} {Q : C.Pt P} (h : q.Rep C Q) :
    ∃ r, q.toAffine cap = .ok r ∧ r.Rep C Q := by
  unfold JPt.toAffine
  cases Q with
  | zero => rw [if_pos (show q.isIdentity = true from h)]; exact ⟨_, rfl, rfl⟩
  | some x y hn =>
    rw [if_neg (by rw [h.not_id K]; simp)]
    obtain ⟨hc, Z, hZ, hx, hy, hz⟩ := h
    by_cases h1 : Z = 1
    · rw [if_pos ((hz.isOne_iff K.M).2 h1), hc, curveOf_some, ok_bind]
      exact ⟨_, rfl, rfl, hx.congr (by rw [h1, one_pow, mul_one]), hy.congr (by rw [h1, one_pow, mul_one])⟩
    · rw [if_neg (by rw [hz.isOne_iff K.M]; exact h1)]
      step zi r1 := hz.inv K.M hZ
      step zi2 r2 := r1.sqr K.M
      rw [hc, curveOf_some, ok_bind]
      step x' r3 := hx.mul K.M r2
      step y' r4 := hy.mul K.M r2
      step y'' r5 := r4.mul K.M r1
      exact ⟨_, rfl, rfl, r3.congr (cancel2 hZ), r5.congr (cancel3 hZ)⟩

theorem JPt.normalized_spec (K : CurveOk P cap C) {q : JPt} {Q : C.Pt P} (h : q.Rep C Q) :
    ∃ r, q.normalized cap = .ok r ∧ r.Rep C Q ∧ (Q ≠ 0 → r.z.isOne = true) := by
  unfold JPt.normalized
  cases Q with
  | zero => rw [show q.isIdentity = true from h]; exact ⟨_, rfl, h, fun hc => absurd rfl hc⟩
  | some x y hn =>
    rw [h.not_id K]
    have hr := h
    obtain ⟨hc, Z, hZ, hx, hy, hz⟩ := h
    by_cases h1 : Z = 1
    · rw [(hz.isOne_iff K.M).2 h1]
      exact ⟨_, rfl, hr, fun _ => (hz.isOne_iff K.M).2 h1⟩
    · rw [if_pos (by rw [show q.z.isOne = false by rw [← Bool.not_eq_true, hz.isOne_iff K.M]; exact h1]; rfl)]
      step zi r1 := hz.inv K.M hZ
      step zi2 r2 := r1.mul K.M r1
      step x' r3 := hx.mul K.M r2
      step zi3 r4 := r2.mul K.M r1
      step y' r5 := hy.mul K.M r4
      rw [assign_one hz.pm, ok_bind]
      refine ⟨_, rfl, ⟨hc, 1, one_ne_zero, ?_, ?_, rfl, one_elt K.M.one_lt, res_one⟩, fun _ => rfl⟩
      · exact r3.congr (by rw [← sq, cancel2 hZ, one_pow, mul_one])
      · exact r5.congr (by rw [← sq, ← mul_assoc, cancel3 hZ, one_pow, mul_one])

end Ack
