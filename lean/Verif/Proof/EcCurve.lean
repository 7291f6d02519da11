import Verif.Proof.EcMul
/-!
# On-curve tests, validity, equality
-/
namespace Ack
open Big WeierstrassCurve

section
variable {P : ℕ} [Fact P.Prime] {cap : Cap} {C : Curve}

/-- The curve equation. -/
def OnW (C : Curve) (x y : ZMod P) : Prop := y ^ 2 = x ^ 3 + res P C.a * x + res P C.b

theorem APt.isIdentity_iff (K : CurveOk P cap C) {q : APt} {x y : ZMod P} (hc : q.curve = some C) (hx : Ack.Rep P C.p q.x x)
    (hy : Ack.Rep P C.p q.y y) : q.isIdentity = true ↔ x = 0 ∧ y = 0 := by
  unfold APt.isIdentity
  rw [hc]
  simp only [Option.isNone_some, Bool.false_or, Bool.and_eq_true]
  rw [hx.isZero_iff K.M, hy.isZero_iff K.M]

theorem APt.isOnCurve_spec (K : CurveOk P cap C) {q : APt} {x y : ZMod P} (hc : q.curve = some C) (hx : Ack.Rep P C.p q.x x)
    (hy : Ack.Rep P C.p q.y y) :
    ∃ b, q.isOnCurve cap = .ok b ∧ (b = true ↔ (x = 0 ∧ y = 0) ∨ y ^ 2 = x ^ 3 + res P C.a * x + res P C.b) := by
  unfold APt.isOnCurve
  by_cases h : q.isIdentity = true
  · rw [if_pos h]; exact ⟨true, rfl, by simp [(isIdentity_iff K hc hx hy).1 h]⟩
  · rw [if_neg h]
    rw [isIdentity_iff K hc hx hy] at h
    step y2 r1 := hy.sqr K.M
    step x2 r2 := hx.sqr K.M
    rw [hc, curveOf_some, ok_bind]
    step t r3 := r2.addB K.M K.a
    step t2 r4 := r3.mul K.M hx
    step t3 r5 := r4.addB K.M K.b
    step d r6 := r1.sub K.M r5
    refine ⟨_, rfl, ?_⟩
    rw [r6.eqS_zero_iff K.M, or_iff_right h, sub_eq_zero]
    constructor <;> intro e <;> linear_combination e

theorem PPt.isIdentity_iff (K : CurveOk P cap C) {q : PPt} {z : ZMod P} (hc : q.curve = some C) (hz : Ack.Rep P C.p q.z z) :
    q.isIdentity = true ↔ z = 0 := by
  unfold PPt.isIdentity
  rw [hc]
  simp only [Option.isNone_some, Bool.false_or]
  rw [hz.isZero_iff K.M]

theorem JPt.isIdentity_iff (K : CurveOk P cap C) {q : JPt} {z : ZMod P} (hc : q.curve = some C) (hz : Ack.Rep P C.p q.z z) :
    q.isIdentity = true ↔ z = 0 := by
  unfold JPt.isIdentity
  rw [hc]
  simp only [Option.isNone_some, Bool.false_or]
  rw [hz.isZero_iff K.M]

theorem PPt.isOnCurve_spec (K : CurveOk P cap C) {q : PPt} {x y z : ZMod P} (hc : q.curve = some C) (hx : Ack.Rep P C.p q.x x)
    (hy : Ack.Rep P C.p q.y y) (hz : Ack.Rep P C.p q.z z) :
    ∃ b, q.isOnCurve cap = .ok b ∧ (b = true ↔ z = 0 ∨ y ^ 2 * z = x ^ 3 + res P C.a * x * z ^ 2 + res P C.b * z ^ 3) := by
  unfold PPt.isOnCurve
  by_cases h : q.isIdentity = true
  · rw [if_pos h]; exact ⟨true, rfl, by simp [(isIdentity_iff K hc hz).1 h]⟩
  · rw [if_neg h]
    rw [isIdentity_iff K hc hz] at h
    step z2 r1 := hz.sqr K.M
    step y2 r2 := hy.sqr K.M
    step l r3 := r2.mul K.M hz
    step x2 r4 := hx.sqr K.M
    rw [hc, curveOf_some, ok_bind]
    unfold Fe.bigMul
    step az r5 := r1.mulB K.M K.a
    step t r6 := r4.add K.M r5
    step t2 r7 := r6.mul K.M hx
    step bz r8 := hz.mulB K.M K.b
    step bz2 r9 := r8.mul K.M r1
    step t3 r10 := r7.add K.M r9
    step d r11 := r3.sub K.M r10
    refine ⟨_, rfl, ?_⟩
    rw [r11.eqS_zero_iff K.M, or_iff_right h, sub_eq_zero]
    constructor <;> intro e <;> linear_combination e

theorem JPt.isOnCurve_spec (K : CurveOk P cap C) {q : JPt} {x y z : ZMod P} (hc : q.curve = some C) (hx : Ack.Rep P C.p q.x x)
    (hy : Ack.Rep P C.p q.y y) (hz : Ack.Rep P C.p q.z z) :
    ∃ b, q.isOnCurve cap = .ok b ∧ (b = true ↔ z = 0 ∨ y ^ 2 = x ^ 3 + res P C.a * x * z ^ 4 + res P C.b * z ^ 6) := by
  unfold JPt.isOnCurve
  by_cases h : q.isIdentity = true
  · rw [if_pos h]; exact ⟨true, rfl, by simp [(isIdentity_iff K hc hz).1 h]⟩
  · rw [if_neg h]
    rw [isIdentity_iff K hc hz] at h
    step z2 r1 := hz.sqr K.M
    step z4 r2 := r1.sqr K.M
    step z6 r3 := r1.mul K.M r2
    step y2 r4 := hy.sqr K.M
    step x2 r5 := hx.sqr K.M
    rw [hc, curveOf_some, ok_bind]
    unfold Fe.bigMul
    step az r6 := r2.mulB K.M K.a
    step t r7 := r5.add K.M r6
    step t2 r8 := r7.mul K.M hx
    step bz r9 := r3.mulB K.M K.b
    step t3 r10 := r8.add K.M r9
    refine ⟨_, rfl, ?_⟩
    rw [r4.eq_iff K.M r10, or_iff_right h]
    constructor <;> intro e <;> linear_combination e

/-! ## Every reduced coordinate tuple on the curve denotes a point -/

theorem APt.rep_of_on (K : CurveOk P cap C) {q : APt} {x y : ZMod P} (hc : q.curve = some C) (hx : Ack.Rep P C.p q.x x)
    (hy : Ack.Rep P C.p q.y y) (h : y ^ 2 = x ^ 3 + res P C.a * x + res P C.b) :
    q.Rep C (.some x y (K.ns.2 h)) := ⟨hc, hx, hy⟩

theorem PPt.rep_of_on (K : CurveOk P cap C) {q : PPt} {x y z : ZMod P} (hc : q.curve = some C) (hx : Ack.Rep P C.p q.x x)
    (hy : Ack.Rep P C.p q.y y) (hz : Ack.Rep P C.p q.z z) (h0 : z ≠ 0)
    (h : y ^ 2 * z = x ^ 3 + res P C.a * x * z ^ 2 + res P C.b * z ^ 3) :
    ∃ Q : C.Pt P, q.Rep C Q ∧ Q ≠ 0 := by
  have hn : (y / z) ^ 2 = (x / z) ^ 3 + res P C.a * (x / z) + res P C.b := by
    field_simp
    linear_combination h
  exact ⟨.some _ _ (K.ns.2 hn), ⟨hc, z, h0, hx.congr (div_mul_cancel₀ _ h0).symm, hy.congr (div_mul_cancel₀ _ h0).symm, hz⟩,
    Affine.Point.some_ne_zero _⟩

theorem JPt.rep_of_on (K : CurveOk P cap C) {q : JPt} {x y z : ZMod P} (hc : q.curve = some C) (hx : Ack.Rep P C.p q.x x)
    (hy : Ack.Rep P C.p q.y y) (hz : Ack.Rep P C.p q.z z) (h0 : z ≠ 0)
    (h : y ^ 2 = x ^ 3 + res P C.a * x * z ^ 4 + res P C.b * z ^ 6) :
    ∃ Q : C.Pt P, q.Rep C Q ∧ Q ≠ 0 := by
  have hn : (y / z ^ 3) ^ 2 = (x / z ^ 2) ^ 3 + res P C.a * (x / z ^ 2) + res P C.b := by
    field_simp
    linear_combination h
  exact ⟨.some _ _ (K.ns.2 hn), ⟨hc, z, h0, hx.congr (div_mul_cancel₀ _ (pow_ne_zero _ h0)).symm,
    hy.congr (div_mul_cancel₀ _ (pow_ne_zero _ h0)).symm, hz⟩, Affine.Point.some_ne_zero _⟩

/-! ## Representation is functional -/

theorem some_eq_iff {x y x' y' : ZMod P} {h : (C.W P).Nonsingular x y} {h' : (C.W P).Nonsingular x' y'} :
    (Affine.Point.some x y h : C.Pt P) = Affine.Point.some x' y' h' ↔ x = x' ∧ y = y' := by
  constructor
  · intro e; injection e with e1 e2; exact ⟨e1, e2⟩
  · rintro ⟨rfl, rfl⟩; rfl

theorem APt.Rep.unique (K : CurveOk P cap C) {q : APt} {A B : C.Pt P} (ha : q.Rep C A) (hb : q.Rep C B) : A = B := by
  cases A with
  | zero => exact ((hb.zero_iff K).1 ha).symm
  | some x y h1 =>
    cases B with
    | zero => exact (ha.zero_iff K).1 hb
    | some x' y' h2 =>
      obtain ⟨-, a1, a2⟩ := ha
      obtain ⟨-, b1, b2⟩ := hb
      exact some_eq_iff.2 ⟨a1.val.symm.trans b1.val, a2.val.symm.trans b2.val⟩

theorem PPt.Rep.unique (K : CurveOk P cap C) {q : PPt} {A B : C.Pt P} (ha : q.Rep C A) (hb : q.Rep C B) : A = B := by
  cases A with
  | zero => exact ((hb.zero_iff K).1 ha).symm
  | some x y h1 =>
    cases B with
    | zero => exact (ha.zero_iff K).1 hb
    | some x' y' h2 =>
      obtain ⟨-, Z, hZ, a1, a2, a3⟩ := ha
      obtain ⟨-, Z', hZ', b1, b2, b3⟩ := hb
      have e := a3.val.symm.trans b3.val
      subst e
      exact some_eq_iff.2 ⟨mul_right_cancel₀ hZ (a1.val.symm.trans b1.val), mul_right_cancel₀ hZ (a2.val.symm.trans b2.val)⟩

theorem JPt.Rep.unique (K : CurveOk P cap C) {q : JPt} {A B : C.Pt P} (ha : q.Rep C A) (hb : q.Rep C B) : A = B := by
  cases A with
  | zero => exact ((hb.zero_iff K).1 ha).symm
  | some x y h1 =>
    cases B with
    | zero => exact (ha.zero_iff K).1 hb
    | some x' y' h2 =>
      obtain ⟨-, Z, hZ, a1, a2, a3⟩ := ha
      obtain ⟨-, Z', hZ', b1, b2, b3⟩ := hb
      have e := a3.val.symm.trans b3.val
      subst e
      exact some_eq_iff.2 ⟨mul_right_cancel₀ (pow_ne_zero 2 hZ) (a1.val.symm.trans b1.val),
        mul_right_cancel₀ (pow_ne_zero 3 hZ) (a2.val.symm.trans b2.val)⟩

/-! ## Validity -/

theorem APt.isValid_spec (K : CurveOk P cap C) (hn : C.n.Canon) {q : APt} {x y : ZMod P} (hc : q.curve = some C)
    (hx : Ack.Rep P C.p q.x x) (hy : Ack.Rep P C.p q.y y) :
    ∃ b, q.isValid cap = .ok b ∧ (b = true ↔ ∃ Q : C.Pt P, q.Rep C Q ∧ Q ≠ 0 ∧ C.n.toInt • Q = 0) := by
  unfold APt.isValid
  by_cases h : q.isIdentity = true
  · rw [if_pos h]
    refine ⟨false, rfl, by simp, ?_⟩
    rintro ⟨Q, hQ, h0, -⟩
    exact absurd ((hQ.zero_iff K).1 h) h0
  rw [if_neg h]
  obtain ⟨b, e, hb⟩ := APt.isOnCurve_spec K hc hx hy
  rw [e, ok_bind]
  rw [APt.isIdentity_iff K hc hx hy] at h
  rw [or_iff_right h] at hb
  cases b with
  | false =>
    refine ⟨false, rfl, by simp, ?_⟩
    rintro ⟨Q, hQ, h0, -⟩
    cases Q with
    | zero => exact absurd rfl h0
    | some x' y' h' =>
      have e1 := hQ.2.1.val.symm.trans hx.val
      have e2 := hQ.2.2.val.symm.trans hy.val
      rw [e1, e2] at h'
      exact hb.2 (K.ns.1 h')
  | true =>
    have hr := APt.rep_of_on K hc hx hy (hb.1 rfl)
    rw [hc, curveOf_some]
    simp only [Bool.not_true, Bool.false_eq_true, if_false]
    rw [ok_bind]
    step m hm := APt.mul_spec K hr hn
    have key : m.isIdentity = true ↔ C.n.toInt • (Affine.Point.some x y (K.ns.2 (hb.1 rfl)) : C.Pt P) = 0 := hm.zero_iff K
    by_cases h1 : m.isIdentity = true
    · rw [h1]
      exact ⟨true, rfl, fun _ => ⟨_, hr, Affine.Point.some_ne_zero _, key.1 h1⟩, fun _ => rfl⟩
    · rw [if_pos (by simpa using h1)]
      refine ⟨false, rfl, by simp, ?_⟩
      rintro ⟨Q, hQ, h0, hQn⟩
      rw [hQ.unique K hr] at hQn
      exact absurd (key.2 hQn) h1

theorem PPt.isValid_spec (K : CurveOk P cap C) (hn : C.n.Canon) {q : PPt} {x y z : ZMod P} (hc : q.curve = some C)
    (hx : Ack.Rep P C.p q.x x) (hy : Ack.Rep P C.p q.y y) (hz : Ack.Rep P C.p q.z z) :
    ∃ b, q.isValid cap = .ok b ∧ (b = true ↔ ∃ Q : C.Pt P, q.Rep C Q ∧ Q ≠ 0 ∧ C.n.toInt • Q = 0) := by
  unfold PPt.isValid
  by_cases h : q.isIdentity = true
  · rw [if_pos h]
    refine ⟨false, rfl, by simp, ?_⟩
    rintro ⟨Q, hQ, h0, -⟩
    exact absurd ((hQ.zero_iff K).1 h) h0
  rw [if_neg h]
  obtain ⟨b, e, hb⟩ := PPt.isOnCurve_spec K hc hx hy hz
  rw [e, ok_bind]
  rw [PPt.isIdentity_iff K hc hz] at h
  rw [or_iff_right h] at hb
  cases b with
  | false =>
    refine ⟨false, rfl, by simp, ?_⟩
    rintro ⟨Q, hQ, h0, -⟩
    cases Q with
    | zero => exact absurd rfl h0
    | some x' y' h' =>
      obtain ⟨-, Z, hZ, a1, a2, a3⟩ := hQ
      apply hb.2
      rw [← hx.val, ← hy.val, ← hz.val, a1.val, a2.val, a3.val]
      linear_combination Z ^ 3 * (K.ns.1 h')
  | true =>
    obtain ⟨R, hr, hR⟩ := PPt.rep_of_on K hc hx hy hz h (hb.1 rfl)
    rw [hc, curveOf_some]
    simp only [Bool.not_true, Bool.false_eq_true, if_false]
    rw [ok_bind]
    step m hm := PPt.mul_spec K hr hn
    have key : m.isIdentity = true ↔ C.n.toInt • R = 0 := hm.zero_iff K
    by_cases h1 : m.isIdentity = true
    · rw [h1]
      exact ⟨true, rfl, fun _ => ⟨_, hr, hR, key.1 h1⟩, fun _ => rfl⟩
    · rw [if_pos (by simpa using h1)]
      refine ⟨false, rfl, by simp, ?_⟩
      rintro ⟨Q, hQ, h0, hQn⟩
      rw [hQ.unique K hr] at hQn
      exact absurd (key.2 hQn) h1

theorem JPt.isValid_spec (K : CurveOk P cap C) (h8 : 8 < P) (hn : C.n.Canon) (fn : cap.fits (C.n.ws.length + 1) = true) {q : JPt}
    {x y z : ZMod P} (hc : q.curve = some C)
    (hx : Ack.Rep P C.p q.x x) (hy : Ack.Rep P C.p q.y y) (hz : Ack.Rep P C.p q.z z) :
    ∃ b, q.isValid cap = .ok b ∧ (b = true ↔ ∃ Q : C.Pt P, q.Rep C Q ∧ Q ≠ 0 ∧ C.n.toInt • Q = 0) := by
  unfold JPt.isValid
  by_cases h : q.isIdentity = true
  · rw [if_pos h]
    refine ⟨false, rfl, by simp, ?_⟩
    rintro ⟨Q, hQ, h0, -⟩
    exact absurd ((hQ.zero_iff K).1 h) h0
  rw [if_neg h]
  obtain ⟨b, e, hb⟩ := JPt.isOnCurve_spec K hc hx hy hz
  rw [e, ok_bind]
  rw [JPt.isIdentity_iff K hc hz] at h
  rw [or_iff_right h] at hb
  cases b with
  | false =>
    refine ⟨false, rfl, by simp, ?_⟩
    rintro ⟨Q, hQ, h0, -⟩
    cases Q with
    | zero => exact absurd rfl h0
    | some x' y' h' =>
      obtain ⟨-, Z, hZ, a1, a2, a3⟩ := hQ
      apply hb.2
      rw [← hx.val, ← hy.val, ← hz.val, a1.val, a2.val, a3.val]
      linear_combination Z ^ 6 * (K.ns.1 h')
  | true =>
    obtain ⟨R, hr, hR⟩ := JPt.rep_of_on K hc hx hy hz h (hb.1 rfl)
    rw [hc, curveOf_some]
    simp only [Bool.not_true, Bool.false_eq_true, if_false]
    rw [ok_bind]
    step m hm := JPt.mul_spec K h8 hr hn fn
    have key : m.isIdentity = true ↔ C.n.toInt • R = 0 := hm.zero_iff K
    by_cases h1 : m.isIdentity = true
    · rw [h1]
      exact ⟨true, rfl, fun _ => ⟨_, hr, hR, key.1 h1⟩, fun _ => rfl⟩
    · rw [if_pos (by simpa using h1)]
      refine ⟨false, rfl, by simp, ?_⟩
      rintro ⟨Q, hQ, h0, hQn⟩
      rw [hQ.unique K hr] at hQn
      exact absurd (key.2 hQn) h1

/-! ## Equality -/

theorem samePtr_self (C : Curve) : samePtr (some C) (some C) = true := by simp [samePtr]

theorem APt.eq_spec (K : CurveOk P cap C) {p q : APt} {A B : C.Pt P} (hp : p.Rep C A) (hq : q.Rep C B)
    (zp : p.isIdentity = true → p.x.v.Canon ∧ p.x.v.toInt = 0 ∧ p.y.v.Canon ∧ p.y.v.toInt = 0)
    (zq : q.isIdentity = true → q.x.v.Canon ∧ q.x.v.toInt = 0 ∧ q.y.v.Canon ∧ q.y.v.toInt = 0) :
    p.eq q = true ↔ A = B := by
  unfold APt.eq
  have val0 : ∀ {f : Fe} {x : ZMod P}, Ack.Rep P C.p f x → (f.v.toInt = 0 ↔ x = 0) := by
    intro f x h; rw [← h.val, res_eq_zero_iff K.M h.elt]
  cases A with
  | zero =>
    obtain ⟨cx, vx, cy, vy⟩ := zp hp
    cases B with
    | zero =>
      obtain ⟨cx', vx', cy', vy'⟩ := zq hq
      have e1 : p.x.eq q.x = true := (opEq_iff cx cx').2 (by rw [vx, vx'])
      have e2 : p.y.eq q.y = true := (opEq_iff cy cy').2 (by rw [vy, vy'])
      have e3 : p.x.eqS 0 = true := (eqS_iff cx 0).2 (by rw [vx]; rfl)
      rw [e1, e2, e3]; simp
    | some x y h =>
      obtain ⟨qc, qx, qy⟩ := hq
      have : ¬ ((p.x.eq q.x && p.y.eq q.y) = true) := by
        rw [Bool.and_eq_true]
        unfold Fe.eq
        rw [opEq_iff cx qx.elt.c, opEq_iff cy qy.elt.c, vx, vy]
        rintro ⟨e1, e2⟩
        exact K.not00 h ⟨(val0 qx).1 e1.symm, (val0 qy).1 e2.symm⟩
      rw [if_neg this]
      simp only [Bool.false_eq_true, false_iff]
      exact fun e => Affine.Point.some_ne_zero h e.symm
  | some x y h =>
    obtain ⟨pc, px, py⟩ := hp
    cases B with
    | zero =>
      obtain ⟨cx', vx', cy', vy'⟩ := zq hq
      have : ¬ ((p.x.eq q.x && p.y.eq q.y) = true) := by
        rw [Bool.and_eq_true]
        unfold Fe.eq
        rw [opEq_iff px.elt.c cx', opEq_iff py.elt.c cy', vx', vy', val0 px, val0 py]
        exact K.not00 h
      rw [if_neg this]
      simp only [Bool.false_eq_true, false_iff]
      exact fun e => Affine.Point.some_ne_zero h e
    | some x' y' h' =>
      obtain ⟨qc, qx, qy⟩ := hq
      rw [pc, qc, samePtr_self, some_eq_iff, ← px.eq_iff K.M qx, ← py.eq_iff K.M qy, ← Bool.and_eq_true]
      cases (p.x.eq q.x && p.y.eq q.y) <;> simp

theorem PPt.eq_spec (K : CurveOk P cap C) {p q : PPt} {A B : C.Pt P} (hp : p.Rep C A) (hq : q.Rep C B) :
    ∃ b, p.eq cap q = .ok b ∧ (b = true ↔ A = B) := by
  unfold PPt.eq
  by_cases h : (p.isIdentity || q.isIdentity) = true
  · rw [if_pos h]
    refine ⟨_, rfl, ?_⟩
    rw [Bool.and_eq_true, hp.zero_iff K, hq.zero_iff K]
    rw [Bool.or_eq_true, hp.zero_iff K, hq.zero_iff K] at h
    rcases h with rfl | rfl
    · simp [eq_comm]
    · simp
  rw [if_neg h]
  rw [Bool.or_eq_true, hp.zero_iff K, hq.zero_iff K] at h
  cases A with
  | zero => exact absurd (Or.inl rfl) h
  | some x y hn =>
    cases B with
    | zero => exact absurd (Or.inr rfl) h
    | some x' y' hn' =>
      obtain ⟨pc, Z, hZ, px, py, pz⟩ := hp
      obtain ⟨qc, Z', hZ', qx, qy, qz⟩ := hq
      rw [pc, qc, samePtr_self, if_neg (by simp)]
      have key : ∀ a b : ZMod P, a * Z * Z' = b * Z' * Z ↔ a = b := by
        intro a b
        constructor
        · intro h
          have : (a - b) * (Z * Z') = 0 := by linear_combination h
          exact sub_eq_zero.1 ((mul_eq_zero.1 this).resolve_right (mul_ne_zero hZ hZ'))
        · rintro rfl; ring
      step l r1 := px.mul K.M qz
      step r r2 := qx.mul K.M pz
      have e1 := r1.eq_iff K.M r2
      rw [key] at e1
      rw [some_eq_iff, ← e1]
      by_cases hx : l.eq r = true
      · rw [hx]
        rw [if_neg (by simp)]
        step l' r3 := py.mul K.M qz
        step r' r4 := qy.mul K.M pz
        refine ⟨_, rfl, ?_⟩
        rw [r3.eq_iff K.M r4, key]; simp
      · rw [if_pos (by simpa using hx)]
        exact ⟨false, rfl, by simp [hx]⟩

theorem JPt.eq_spec (K : CurveOk P cap C) {p q : JPt} {A B : C.Pt P} (hp : p.Rep C A) (hq : q.Rep C B) :
    ∃ b, p.eq cap q = .ok b ∧ (b = true ↔ A = B) := by
  unfold JPt.eq
  by_cases h : (p.isIdentity || q.isIdentity) = true
  · rw [if_pos h]
    refine ⟨_, rfl, ?_⟩
    rw [Bool.and_eq_true, hp.zero_iff K, hq.zero_iff K]
    rw [Bool.or_eq_true, hp.zero_iff K, hq.zero_iff K] at h
    rcases h with rfl | rfl
    · simp [eq_comm]
    · simp
  rw [if_neg h]
  rw [Bool.or_eq_true, hp.zero_iff K, hq.zero_iff K] at h
  cases A with
  | zero => exact absurd (Or.inl rfl) h
  | some x y hn =>
    cases B with
    | zero => exact absurd (Or.inr rfl) h
    | some x' y' hn' =>
      obtain ⟨pc, Z, hZ, px, py, pz⟩ := hp
      obtain ⟨qc, Z', hZ', qx, qy, qz⟩ := hq
      step az r1 := pz.sqr K.M
      step bz r2 := qz.sqr K.M
      rw [pc, qc, samePtr_self, if_neg (by simp)]
      have key : ∀ (n : ℕ) (a b : ZMod P), a * (Z * Z') ^ n = b * (Z * Z') ^ n ↔ a = b := fun n a b =>
        ⟨fun h => mul_right_cancel₀ (pow_ne_zero n (mul_ne_zero hZ hZ')) h, fun h => by rw [h]⟩
      step l r3 := px.mul K.M r2
      step r r4 := qx.mul K.M r1
      have e1 := r3.eq_iff K.M r4
      rw [show x * Z ^ 2 * Z' ^ 2 = x * (Z * Z') ^ 2 by ring, show x' * Z' ^ 2 * Z ^ 2 = x' * (Z * Z') ^ 2 by ring, key] at e1
      rw [some_eq_iff, ← e1]
      by_cases hx : l.eq r = true
      · rw [hx]
        rw [if_neg (by simp)]
        step l1 r5 := py.mul K.M r2
        step l2 r6 := r5.mul K.M qz
        step r1 r7 := qy.mul K.M r1
        step r2 r8 := r7.mul K.M pz
        refine ⟨_, rfl, ?_⟩
        rw [r6.eq_iff K.M r8, show y * Z ^ 3 * Z' ^ 2 * Z' = y * (Z * Z') ^ 3 by ring,
          show y' * Z' ^ 3 * Z ^ 2 * Z = y' * (Z * Z') ^ 3 by ring, key]; simp
      · rw [if_pos (by simpa using hx)]
        exact ⟨false, rfl, by simp [hx]⟩

end
end Ack
