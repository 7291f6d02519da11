import Verif.Spec.EcProg
import Verif.Proof.EcProg
import Verif.Proof.EcCode
import Verif.Proof.Ecdsa
/-! # Programs on curves: what the value model computes, as elements of the group -/
namespace Ack.Mem
open Big (Byte) 
open Ack.Spec.Ec

section
variable {P : ℕ} [Fact P.Prime] {N : ℕ} {cap : Cap} {C : Curve} {G : C.Pt P}

/-- The affine point object denotes the group element, and the point at infinity is the default object. -/
def RepZ (C : Curve) (q : APt) (Q : C.Pt P) : Prop := q.Rep C Q ∧ (Q = 0 → q = APt.identity)

theorem two_zero (K : CurveOk P cap C) {x y : ZMod P} {hn : (C.W P).Nonsingular x y} (h : (.some x y hn : C.Pt P) + .some x y hn = 0) : y = 0 := by
  obtain ⟨h', e⟩ := neg_at hn
  have h1 := eq_neg_of_add_eq_zero_left h
  rw [e] at h1
  have h2 : y = -y := by injection h1
  have h3 : 2 * y = 0 := by linear_combination h2
  rcases mul_eq_zero.1 h3 with h4 | h4
  · exact absurd h4 K.two
  · exact h4

theorem RepZ.inverted (K : CurveOk P cap C) {q : APt} {Q : C.Pt P} (h : RepZ C q Q) : ∃ r, q.inverted cap = .ok r ∧ RepZ C r (-Q) := by
  obtain ⟨r, e, hr⟩ := APt.inverted_spec K h.1
  refine ⟨r, e, hr, fun h0 => ?_⟩
  have hq := h.2 (neg_eq_zero.1 h0)
  subst hq
  cases e; rfl

theorem RepZ.doubled (K : CurveOk P cap C) {q : APt} {Q : C.Pt P} (h : RepZ C q Q) : ∃ r, q.doubled cap = .ok r ∧ RepZ C r (Q + Q) := by
  obtain ⟨r, e, hr⟩ := APt.doubled_spec K h.1
  refine ⟨r, e, hr, fun h0 => ?_⟩
  unfold APt.doubled at e
  rw [if_pos ?_] at e
  · cases e; rfl
  · obtain ⟨h, -⟩ := h
    cases Q with
    | zero => rw [show q.isIdentity = true from h]; rfl
    | some x y hn => rw [isZero_true K h.2.2 (two_zero K h0), Bool.or_true]

theorem RepZ.add (K : CurveOk P cap C) {q a : APt} {Q A : C.Pt P} (h : RepZ C q Q) (h' : RepZ C a A) :
    ∃ r, q.add cap a = .ok r ∧ RepZ C r (Q + A) := by
  obtain ⟨r, e, hr⟩ := APt.add_spec K h.1 h'.1
  refine ⟨r, e, hr, fun h0 => ?_⟩
  have hA : A = -Q := eq_neg_of_add_eq_zero_right h0
  subst hA
  unfold APt.add at e
  by_cases hQ : Q = 0
  · have hq := h.2 hQ
    have ha := h'.2 (by rw [hQ, neg_zero])
    subst hq ha
    cases e; rfl
  · rw [if_neg (by rw [h.1.zero_iff K]; exact hQ), if_neg (by rw [h'.1.zero_iff K, neg_eq_zero]; exact hQ)] at e
    cases Q with
    | zero => exact absurd rfl hQ
    | some x y hn =>
      obtain ⟨hn', en⟩ := neg_at hn
      have h1 := h'.1
      rw [en] at h1
      obtain ⟨s, es, rs⟩ := h1.2.1.sub K.M h.1.2.1
      rw [es, ok_bind, if_pos (isZero_true K rs (sub_self x))] at e
      by_cases hy : q.y.eq a.y = true
      · rw [if_pos hy] at e
        have hy := (h.1.2.2.eq_iff K.M h1.2.2).1 hy
        have h2 : (2 : ZMod P) * y = 0 := by linear_combination hy
        have y0 : y = 0 := (mul_eq_zero.1 h2).resolve_left K.two
        obtain ⟨r', e', hr'⟩ := h.doubled K
        rw [e] at e'
        cases e'
        exact hr'.2 (dbl_at_zero hn y0)
      · rw [if_neg hy] at e
        cases e; rfl

theorem RepZ.sub (K : CurveOk P cap C) {q a : APt} {Q A : C.Pt P} (h : RepZ C q Q) (h' : RepZ C a A) :
    ∃ r, q.sub cap a = .ok r ∧ RepZ C r (Q - A) := by
  obtain ⟨n, e, hn⟩ := h'.inverted K
  unfold APt.sub
  rw [e, ok_bind, sub_eq_add_neg]
  exact h.add K hn

theorem RepZ.only {q : APt} {Q : C.Pt P} {m : Res APt} (K : CurveOk P cap C) (h : Only (fun r => ∃ R : C.Pt P, RepZ C r R) m)
    (hs : ∃ r, m = .ok r ∧ r.Rep C Q) : ∃ r, m = .ok r ∧ RepZ C r Q := by
  obtain ⟨r, e, hr⟩ := hs
  obtain ⟨R, h1, h2⟩ := h r e
  have := h1.unique K hr
  subst this
  exact ⟨r, e, h1, h2⟩

theorem only_of {α : Type} {S : α → Prop} {m : Res α} (h : ∃ r, m = .ok r ∧ S r) : Only S m := by
  obtain ⟨r, e, hr⟩ := h
  rw [e]
  exact Only.ok hr

theorem zA_mulNN (K : CurveOk P cap C) {q : APt} {Q : C.Pt P} (h : RepZ C q Q) (x : Big) :
    Only (fun r => ∃ R : C.Pt P, RepZ C r R) (q.mulNN cap x) := by
  have := own_ladder (S := fun r => ∃ R : C.Pt P, RepZ C r R)
    (fun a b ⟨A, ha⟩ ⟨B, hb⟩ => only_of (let ⟨r, e, hr⟩ := ha.add K hb; ⟨r, e, _, hr⟩))
    (fun a ⟨A, ha⟩ => only_of (let ⟨r, e, hr⟩ := ha.doubled K; ⟨r, e, _, hr⟩)) (x.bitLength + 1) APt.identity q x
    ⟨0, rfl, fun _ => rfl⟩ ⟨Q, h⟩
  unfold APt.mulNN
  exact Only.ite (Only.ok ⟨Q, h⟩) (Only.ite (Only.ok ⟨0, rfl, fun _ => rfl⟩) this)

theorem RepZ.mul (K : CurveOk P cap C) {q : APt} {Q : C.Pt P} (h : RepZ C q Q) {x : Big} (cx : x.Canon) :
    ∃ r, q.mul cap x = .ok r ∧ RepZ C r (x.toInt • Q) := by
  refine RepZ.only (q := q) K ?_ (APt.mul_spec K h.1 cx)
  unfold APt.mul
  refine Only.ite (Only.ok ⟨Q, h⟩) (Only.ite (Only.ok ⟨0, rfl, fun _ => rfl⟩) (Only.ite ?_ (zA_mulNN K h x)))
  obtain ⟨i, e, hi⟩ := h.inverted K
  rw [e, ok_bind]
  exact zA_mulNN K hi _

theorem RepZ.toAffineP (K : CurveOk P cap C) {q : PPt} {Q : C.Pt P} (h : q.Rep C Q) : ∃ r, q.toAffine cap = .ok r ∧ RepZ C r Q := by
  obtain ⟨r, e, hr⟩ := PPt.toAffine_spec K h
  refine ⟨r, e, hr, fun h0 => ?_⟩
  unfold PPt.toAffine at e
  rw [if_pos ((h.zero_iff K).2 h0)] at e
  cases e; rfl

theorem RepZ.toAffineJ (K : CurveOk P cap C) {q : JPt} {Q : C.Pt P} (h : q.Rep C Q) : ∃ r, q.toAffine cap = .ok r ∧ RepZ C r Q := by
  obtain ⟨r, e, hr⟩ := JPt.toAffine_spec K h
  refine ⟨r, e, hr, fun h0 => ?_⟩
  unfold JPt.toAffine at e
  rw [if_pos ((h.zero_iff K).2 h0)] at e
  cases e; rfl

theorem RepZ.zero (K : CurveOk P cap C) {q : APt} {Q : C.Pt P} (h : RepZ C q Q) (hi : q.isIdentity = true) :
    q.x.v.Canon ∧ q.x.v.toInt = 0 ∧ q.y.v.Canon ∧ q.y.v.toInt = 0 := by
  rw [h.2 ((h.1.zero_iff K).1 hi)]
  decide

/-- The point object denotes the group element, and is of the class. -/
def PtDen (C : Curve) : PtV → Kd × C.Pt P → Prop
  | .aff q, (.aff, Q) => RepZ C q Q
  | .proj q, (.proj, Q) => q.Rep C Q
  | .jac q, (.jac, Q) => q.Rep C Q
  | _, _ => False

/-- Split on the class. -/
macro "kinds" q:ident k:ident h:ident : tactic => `(tactic|
  (cases $q:ident <;> cases $k:ident <;> first | exact False.elim $h:ident | skip))

theorem PtDen.conv (K : CurveOk P cap C) {q : PtV} {k' : Kd} {Q : C.Pt P} (h : PtDen C q (k', Q)) (k : Kd) (hk : k = .aff ∨ k' = .aff) :
    ∃ r, q.conv cap k = .ok r ∧ PtDen C r (k, Q) := by
  kinds q k' h
  · cases k
    · exact ⟨_, rfl, h⟩
    · obtain ⟨r, e, hr⟩ := PPt.ofAffine_spec K h.1
      exact ⟨.proj r, by simp only [PtV.conv, e, ok_bind]; rfl, hr⟩
    · obtain ⟨r, e, hr⟩ := JPt.ofAffine_spec K h.1
      exact ⟨.jac r, by simp only [PtV.conv, e, ok_bind]; rfl, hr⟩
  · have hk : k = .aff := by simpa using hk
    subst hk
    obtain ⟨r, e, hr⟩ := RepZ.toAffineP K h
    exact ⟨.aff r, by simp only [PtV.conv, e, ok_bind]; rfl, hr⟩
  · have hk : k = .aff := by simpa using hk
    subst hk
    obtain ⟨r, e, hr⟩ := RepZ.toAffineJ K h
    exact ⟨.aff r, by simp only [PtV.conv, e, ok_bind]; rfl, hr⟩

theorem PtDen.doubled (K : CurveOk P cap C) (h8 : 8 < P) {q : PtV} {k : Kd} {Q : C.Pt P} (h : PtDen C q (k, Q)) :
    ∃ r, q.doubled cap = .ok r ∧ PtDen C r (k, Q + Q) := by
  kinds q k h
  · obtain ⟨r, e, hr⟩ := RepZ.doubled K h
    exact ⟨.aff r, by simp only [PtV.doubled, e, ok_bind]; rfl, hr⟩
  · obtain ⟨r, e, hr⟩ := PPt.doubled_spec K h
    exact ⟨.proj r, by simp only [PtV.doubled, e, ok_bind]; rfl, hr⟩
  · obtain ⟨r, e, hr⟩ := JPt.doubled_spec K h8 h
    exact ⟨.jac r, by simp only [PtV.doubled, e, ok_bind]; rfl, hr⟩

theorem PtDen.inverted (K : CurveOk P cap C) {q : PtV} {k : Kd} {Q : C.Pt P} (h : PtDen C q (k, Q)) :
    ∃ r, q.inverted cap = .ok r ∧ PtDen C r (k, -Q) := by
  kinds q k h
  · obtain ⟨r, e, hr⟩ := RepZ.inverted K h
    exact ⟨.aff r, by simp only [PtV.inverted, e, ok_bind]; rfl, hr⟩
  · obtain ⟨r, e, hr⟩ := PPt.inverted_spec K h
    exact ⟨.proj r, by simp only [PtV.inverted, e, ok_bind]; rfl, hr⟩
  · obtain ⟨r, e, hr⟩ := JPt.inverted_spec K h
    exact ⟨.jac r, by simp only [PtV.inverted, e, ok_bind]; rfl, hr⟩

theorem PtDen.add (K : CurveOk P cap C) (h8 : 8 < P) {q r : PtV} {k : Kd} {Q R : C.Pt P} (h : PtDen C q (k, Q)) (h' : PtDen C r (k, R)) :
    ∃ t, q.add cap r = .ok t ∧ PtDen C t (k, Q + R) := by
  kinds q k h <;> cases r <;> first | exact False.elim h' | skip
  · obtain ⟨r, e, hr⟩ := RepZ.add K h h'
    exact ⟨.aff r, by simp only [PtV.add, e, ok_bind]; rfl, hr⟩
  · obtain ⟨r, e, hr⟩ := PPt.add_spec K h h'
    exact ⟨.proj r, by simp only [PtV.add, e, ok_bind]; rfl, hr⟩
  · obtain ⟨r, e, hr⟩ := JPt.add_spec K h8 h h'
    exact ⟨.jac r, by simp only [PtV.add, e, ok_bind]; rfl, hr⟩

theorem PtDen.sub (K : CurveOk P cap C) (h8 : 8 < P) {q r : PtV} {k : Kd} {Q R : C.Pt P} (h : PtDen C q (k, Q)) (h' : PtDen C r (k, R)) :
    ∃ t, q.sub cap r = .ok t ∧ PtDen C t (k, Q - R) := by
  kinds q k h <;> cases r <;> first | exact False.elim h' | skip
  · obtain ⟨r, e, hr⟩ := RepZ.sub K h h'
    exact ⟨.aff r, by simp only [PtV.sub, e, ok_bind]; rfl, hr⟩
  · obtain ⟨r, e, hr⟩ := PPt.sub_spec K h h'
    exact ⟨.proj r, by simp only [PtV.sub, e, ok_bind]; rfl, hr⟩
  · obtain ⟨r, e, hr⟩ := JPt.sub_spec K h8 h h'
    exact ⟨.jac r, by simp only [PtV.sub, e, ok_bind]; rfl, hr⟩

theorem PtDen.mul (K : CurveOk P cap C) (h8 : 8 < P) {q : PtV} {k : Kd} {Q : C.Pt P} (h : PtDen C q (k, Q)) {x : Big} (cx : x.Canon)
    (f : k = .jac → cap.fits (x.ws.length + 1) = true) : ∃ t, q.mul cap x = .ok t ∧ PtDen C t (k, x.toInt • Q) := by
  kinds q k h
  · obtain ⟨r, e, hr⟩ := RepZ.mul K h cx
    exact ⟨.aff r, by simp only [PtV.mul, e, ok_bind]; rfl, hr⟩
  · obtain ⟨r, e, hr⟩ := PPt.mul_spec K h cx
    exact ⟨.proj r, by simp only [PtV.mul, e, ok_bind]; rfl, hr⟩
  · obtain ⟨r, e, hr⟩ := JPt.mul_spec K h8 h cx (f rfl)
    exact ⟨.jac r, by simp only [PtV.mul, e, ok_bind]; rfl, hr⟩

theorem PtDen.mulAdd (K : CurveOk P cap C) (h8 : 8 < P) {q r : PtV} {Q R : C.Pt P} (h : PtDen C q (.jac, Q)) (h' : PtDen C r (.jac, R))
    {x y : Big} (cx : x.Canon) (cy : y.Canon) (fx : cap.fits (x.ws.length + 1) = true) (fy : cap.fits (y.ws.length + 1) = true) :
    ∃ t, PtV.mulAdd cap x q y r = .ok t ∧ PtDen C t (.jac, max x.toInt 0 • Q + max y.toInt 0 • R) := by
  cases q <;> first | exact False.elim h | skip
  cases r <;> first | exact False.elim h' | skip
  obtain ⟨r, e, hr⟩ := mulAddFast_exact (JPt.opsOk K h8) cap h h' cx cy fx fy
  exact ⟨.jac r, by simp only [PtV.mulAdd, e, ok_bind]; rfl, hr⟩

theorem PtDen.generate (K : CurveOk P cap C) (h8 : 8 < P) (cn : C.n.Canon) (hG : C.g.Rep C G) (hG0 : G ≠ 0) {x : Big} (cx : x.Canon)
    (h : 0 < x.toInt ∧ x.toInt < C.n.toInt) (k : Kd) (f : k = .jac → cap.fits (C.n.ws.length + 1) = true) :
    ∃ t, PtV.generate cap C k x = .ok t ∧ PtDen C t (k, x.toInt • G) := by
  obtain ⟨⟨ra, ea, ha⟩, ⟨rp, ep, hp⟩, hj⟩ := generate_ok K cx cn h hG
  cases k
  · have hz : RepZ C C.g G := ⟨hG, fun h0 => absurd h0 hG0⟩
    obtain ⟨r, e, hr⟩ := hz.mul K cx
    have e' : C.generateA cap x = C.g.mul cap x := by
      unfold Curve.generateA
      rw [check_true ((inRange_iff cx cn).2 h), ok_bind]
    exact ⟨.aff r, by simp only [PtV.generate, e', e, ok_bind]; rfl, hr⟩
  · exact ⟨.proj rp, by simp only [PtV.generate, ep, ok_bind]; rfl, hp⟩
  · obtain ⟨rj, ej, hj⟩ := hj h8 (f rfl)
    exact ⟨.jac rj, by simp only [PtV.generate, ej, ok_bind]; rfl, hj⟩

theorem PtDen.isIdentity (K : CurveOk P cap C) {q : PtV} {k : Kd} {Q : C.Pt P} (h : PtDen C q (k, Q)) :
    q.isIdentity = true ↔ Q = 0 := by
  kinds q k h
  · exact APt.Rep.zero_iff K h.1
  · exact PPt.Rep.zero_iff K h
  · exact JPt.Rep.zero_iff K h

theorem PtDen.isOnCurve (K : CurveOk P cap C) {q : PtV} {k : Kd} {Q : C.Pt P} (h : PtDen C q (k, Q)) : q.isOnCurve cap = .ok true := by
  kinds q k h
  · show APt.isOnCurve cap _ = _
    cases Q with
    | zero => unfold APt.isOnCurve; rw [if_pos (show APt.isIdentity _ = true from h.1)]
    | some x y n =>
      obtain ⟨b, e, hb⟩ := APt.isOnCurve_spec K h.1.1 h.1.2.1 h.1.2.2
      rw [e, hb.2 (Or.inr (K.ns.1 n))]
  · show PPt.isOnCurve cap _ = _
    cases Q with
    | zero => unfold PPt.isOnCurve; rw [if_pos (show PPt.isIdentity _ = true from h)]
    | some x y n =>
      obtain ⟨hc, Z, -, hx, hy, hz⟩ := h
      obtain ⟨b, e, hb⟩ := PPt.isOnCurve_spec K hc hx hy hz
      rw [e, hb.2 (Or.inr ?_)]
      linear_combination Z ^ 3 * K.ns.1 n
  · show JPt.isOnCurve cap _ = _
    cases Q with
    | zero => unfold JPt.isOnCurve; rw [if_pos (show JPt.isIdentity _ = true from h)]
    | some x y n =>
      obtain ⟨hc, Z, -, hx, hy, hz⟩ := h
      obtain ⟨b, e, hb⟩ := JPt.isOnCurve_spec K hc hx hy hz
      rw [e, hb.2 (Or.inr ?_)]
      linear_combination Z ^ 6 * K.ns.1 n

theorem PtDen.isValid (K : CurveOk P cap C) (h8 : 8 < P) (cn : C.n.Canon) {q : PtV} {k : Kd} {Q : C.Pt P} (h : PtDen C q (k, Q))
    (f : k = .jac → cap.fits (C.n.ws.length + 1) = true) {b : Bool} (hb : b = true ↔ Q ≠ 0 ∧ C.n.toInt • Q = 0) : q.isValid cap = .ok b := by
  have fin : ∀ {b' : Bool} {S : C.Pt P → Prop}, (∀ A, S A → A = Q) → S Q → (b' = true ↔ ∃ A, S A ∧ A ≠ 0 ∧ C.n.toInt • A = 0) → b' = b := by
    intro b' S u hQ hb'
    rw [Bool.eq_iff_iff, hb', hb]
    exact ⟨fun ⟨A, h1, h2⟩ => u A h1 ▸ h2, fun h => ⟨Q, hQ, h⟩⟩
  have f0 : Q = .zero → b = false := fun h => by
    rw [← Bool.not_eq_true, hb]; exact fun x => x.1 h
  kinds q k h
  · show APt.isValid cap _ = _
    cases Q with
    | zero => unfold APt.isValid; rw [if_pos (show APt.isIdentity _ = true from h.1), f0 rfl]
    | some x y n =>
      obtain ⟨b', e, hb'⟩ := APt.isValid_spec K cn h.1.1 h.1.2.1 h.1.2.2
      rw [e, fin (fun A hA => hA.unique K h.1) h.1 hb']
  · show PPt.isValid cap _ = _
    cases Q with
    | zero => unfold PPt.isValid; rw [if_pos (show PPt.isIdentity _ = true from h), f0 rfl]
    | some x y n =>
      obtain ⟨hc, Z, -, hx, hy, hz⟩ := id h
      obtain ⟨b', e, hb'⟩ := PPt.isValid_spec K cn hc hx hy hz
      rw [e, fin (fun A hA => hA.unique K h) h hb']
  · show JPt.isValid cap _ = _
    cases Q with
    | zero => unfold JPt.isValid; rw [if_pos (show JPt.isIdentity _ = true from h), f0 rfl]
    | some x y n =>
      obtain ⟨hc, Z, -, hx, hy, hz⟩ := id h
      obtain ⟨b', e, hb'⟩ := JPt.isValid_spec K h8 cn (f rfl) hc hx hy hz
      rw [e, fin (fun A hA => hA.unique K h) h hb']

theorem PtDen.eq (K : CurveOk P cap C) {q r : PtV} {k : Kd} {Q R : C.Pt P} (h : PtDen C q (k, Q)) (h' : PtDen C r (k, R))
    {same : Bool} (hs : same = true → Q = R) {b : Bool} (hb : b = true ↔ Q = R) : q.eq cap same r = .ok b := by
  kinds q k h <;> cases r <;> first | exact False.elim h' | skip
  · show Except.ok _ = _
    rw [Bool.eq_iff_iff.2 ((APt.eq_spec K h.1 h'.1 (h.zero K) (h'.zero K)).trans hb.symm)]
  · obtain ⟨b', e, hb'⟩ := PPt.eq_spec K h h'
    exact e.trans (by rw [Bool.eq_iff_iff.2 (hb'.trans hb.symm)])
  · obtain ⟨b', e, hb'⟩ := JPt.eq_spec K h h'
    show (if same = true then _ else _) = _
    cases same with
    | true => rw [if_pos rfl, hb.2 (hs rfl)]
    | false => exact e.trans (by rw [Bool.eq_iff_iff.2 (hb'.trans hb.symm)])

/-- The variables denote the environment. -/
structure Den (C : Curve) (V : EcVals) (e : EcEnv (C.W P)) : Prop where
  ints : List.Forall₂ (fun X x => X.Canon ∧ X.toInt = x) V.ints e.ints
  pts : List.Forall₂ (PtDen C) V.pts e.pts
  bools : V.bools = e.bools

variable {V : EcVals} {e : EcEnv (C.W P)}

theorem Den.int (h : Den C V e) {i : ℕ} {x : ℤ} (hi : e.ints[i]? = some x) : ∃ X, V.int i = .ok X ∧ X.Canon ∧ X.toInt = x := by
  rcases forall₂_get h.ints i with ⟨-, h2⟩ | ⟨X, x', h1, h2, h3⟩
  · rw [h2] at hi; cases hi
  · rw [h2] at hi; cases hi
    exact ⟨X, by unfold EcVals.int; rw [h1], h3⟩

theorem Den.pt (h : Den C V e) {i : ℕ} {k : Kd} {Q : C.Pt P} (hi : e.pts[i]? = some (k, Q)) :
    ∃ q, V.pt i = .ok q ∧ PtDen C q (k, Q) := by
  rcases forall₂_get h.pts i with ⟨-, h2⟩ | ⟨q, x', h1, h2, h3⟩
  · rw [h2] at hi; cases hi
  · rw [h2] at hi; cases hi
    exact ⟨q, by unfold EcVals.pt; rw [h1], h3⟩

theorem Den.addInt (h : Den C V e) {X : Big} (c : X.Canon) : Den C { V with ints := V.ints ++ [X] } { e with ints := e.ints ++ [X.toInt] } :=
  ⟨List.rel_append h.ints (.cons ⟨c, rfl⟩ .nil), h.pts, h.bools⟩

theorem Den.addPt (h : Den C V e) {q : PtV} {k : Kd} {Q : C.Pt P} (d : PtDen C q (k, Q)) :
    Den C { V with pts := V.pts ++ [q] } { e with pts := e.pts ++ [(k, Q)] } :=
  ⟨h.ints, List.rel_append h.pts (.cons d .nil), h.bools⟩

theorem Den.addBool (h : Den C V e) (b : Bool) : Den C { V with bools := V.bools ++ [b] } { e with bools := e.bools ++ [b] } :=
  ⟨h.ints, h.pts, by rw [h.bools]⟩

theorem words_nat {X : Big} {M : ℕ} (c : X.Canon) (h : X.toInt = M) : X.ws.length = Spec.Prog.words M := by
  rw [words_eq c, h]

theorem cap_fit1 {n : Big} (M : Mod cap n N) : cap.fits 1 = true :=
  Big.fits_mono M.room (by have := List.length_pos_iff.2 M.canon.1; omega)

theorem rep_val (K : CurveOk P cap C) {X : Big} {x : ZMod P} (cx : X.Canon) (h : X.toInt = (x.val : ℤ)) : Ack.Rep P C.p ⟨X, some C.p⟩ x := by
  refine ⟨rfl, ⟨cx, by rw [h]; exact Int.natCast_nonneg _, by rw [h, K.M.eq]; exact_mod_cast x.val_lt⟩, ?_⟩
  show res P X = x
  unfold res
  rw [h]
  push_cast
  exact ZMod.natCast_zmod_val x

theorem val_range {X Y : Big} {x y : ZMod P} (hx : X.toInt = (x.val : ℤ)) (hy : Y.toInt = (y.val : ℤ)) :
    0 ≤ X.toInt ∧ X.toInt < P ∧ 0 ≤ Y.toInt ∧ Y.toInt < P := by
  have h1 := x.val_lt
  have h2 := y.val_lt
  omega

/-- **One statement within its domain.** -/
theorem den_step (D : AnyDomain N cap C G) (h : Den C V e) {t : EcStmt} {e' : EcEnv (C.W P)} (ht : EcDoes cap N G e t e') :
    ∃ V', evStep cap C V t = .ok V' ∧ Den C V' e' := by
  have K := D.K
  have h8 := D.P8
  have cn := D.Mn.canon
  have wn := words_nat cn D.Mn.eq
  have f1 : cap.fits 1 = true := cap_fit1 D.Mn
  cases ht with
  | int d hd =>
    rcases Ack.ofBytes_fits cap d f1 with ⟨-, x, ex, cx, vx⟩ | ⟨hn, -⟩
    · simp only [evStep, ex, ok_bind]
      refine ⟨_, rfl, ?_⟩
      rw [← vx]
      exact h.addInt cx
    · exact absurd hd hn
  | neg hi =>
    obtain ⟨X, ex, cx, rfl⟩ := h.int hi
    simp only [evStep, ex, ok_bind]
    refine ⟨_, rfl, ?_⟩
    rw [show -X.toInt = (Big.negate X).toInt from (negate_toInt X).symm]
    exact h.addInt cx
  | @point i j x y hn ver hx hy hv =>
    obtain ⟨X, ex, cx, vx⟩ := h.int hx
    obtain ⟨Y, ey, cy, vy⟩ := h.int hy
    have hr : APt.Rep C ⟨some C, ⟨X, some C.p⟩, ⟨Y, some C.p⟩⟩ (.some x y hn) := ⟨rfl, rep_val K cx vx, rep_val K cy vy⟩
    obtain ⟨e0, e1⟩ := (makePoint_spec K cn cx cy).2 (val_range vx vy)
    have em : Curve.makePoint cap C X Y ver = .ok ⟨some C, ⟨X, some C.p⟩, ⟨Y, some C.p⟩⟩ := by
      cases ver with
      | false => exact e0
      | true => rw [e1, if_pos ⟨_, hr, WeierstrassCurve.Affine.Point.some_ne_zero hn, by rw [D.Mn.eq]; exact hv rfl⟩]
    simp only [evStep, ex, ey, ok_bind, em]
    exact ⟨_, rfl, h.addPt (q := .aff _) (k := .aff) ⟨hr, fun h0 => absurd h0 (WeierstrassCurve.Affine.Point.some_ne_zero hn)⟩⟩
  | generate k hi h0 h1 f =>
    obtain ⟨X, ex, cx, rfl⟩ := h.int hi
    obtain ⟨r, er, hr⟩ := PtDen.generate K h8 cn D.g D.g0 cx ⟨h0, by rw [D.Mn.eq]; exact h1⟩ k (fun hk => by rw [wn]; exact f hk)
    simp only [evStep, ex, ok_bind, er]
    exact ⟨_, rfl, h.addPt hr⟩
  | conv k hq hk =>
    obtain ⟨q, eq, dq⟩ := h.pt hq
    obtain ⟨r, er, hr⟩ := dq.conv K k hk
    simp only [evStep, eq, ok_bind, er]
    exact ⟨_, rfl, h.addPt hr⟩
  | dbl hq =>
    obtain ⟨q, eq, dq⟩ := h.pt hq
    obtain ⟨r, er, hr⟩ := dq.doubled K h8
    simp only [evStep, eq, ok_bind, er]
    exact ⟨_, rfl, h.addPt hr⟩
  | opp hq =>
    obtain ⟨q, eq, dq⟩ := h.pt hq
    obtain ⟨r, er, hr⟩ := dq.inverted K
    simp only [evStep, eq, ok_bind, er]
    exact ⟨_, rfl, h.addPt hr⟩
  | add hq hr =>
    obtain ⟨q, eq, dq⟩ := h.pt hq
    obtain ⟨r, eqr, dr⟩ := h.pt hr
    obtain ⟨t, er, ht⟩ := dq.add K h8 dr
    simp only [evStep, eq, eqr, ok_bind, er]
    exact ⟨_, rfl, h.addPt ht⟩
  | sub hq hr =>
    obtain ⟨q, eq, dq⟩ := h.pt hq
    obtain ⟨r, eqr, dr⟩ := h.pt hr
    obtain ⟨t, er, ht⟩ := dq.sub K h8 dr
    simp only [evStep, eq, eqr, ok_bind, er]
    exact ⟨_, rfl, h.addPt ht⟩
  | mul hq hi f =>
    obtain ⟨q, eq, dq⟩ := h.pt hq
    obtain ⟨X, ex, cx, rfl⟩ := h.int hi
    obtain ⟨t, er, ht⟩ := dq.mul K h8 cx (fun hk => by rw [words_eq cx]; exact f hk)
    simp only [evStep, eq, ex, ok_bind, er]
    exact ⟨_, rfl, h.addPt ht⟩
  | mulAdd hq hr hi hj fx fy =>
    obtain ⟨q, eq, dq⟩ := h.pt hq
    obtain ⟨r, eqr, dr⟩ := h.pt hr
    obtain ⟨X, ex, cx, rfl⟩ := h.int hi
    obtain ⟨Y, ey, cy, rfl⟩ := h.int hj
    obtain ⟨t, er, ht⟩ := dq.mulAdd K h8 dr cx cy (by rw [words_eq cx]; exact fx) (by rw [words_eq cy]; exact fy)
    simp only [evStep, eq, eqr, ex, ey, ok_bind, er]
    exact ⟨_, rfl, h.addPt ht⟩
  | isIdentity hq hb =>
    obtain ⟨q, eq, dq⟩ := h.pt hq
    simp only [evStep, eq, ok_bind]
    refine ⟨_, rfl, ?_⟩
    rw [Bool.eq_iff_iff.2 (hb.trans (dq.isIdentity K).symm)]
    exact h.addBool _
  | isOnCurve hq =>
    obtain ⟨q, eq, dq⟩ := h.pt hq
    simp only [evStep, eq, ok_bind, dq.isOnCurve K]
    exact ⟨_, rfl, h.addBool _⟩
  | isValid hq hb f =>
    obtain ⟨q, eq, dq⟩ := h.pt hq
    rw [← D.Mn.eq] at hb
    simp only [evStep, eq, ok_bind, dq.isValid K h8 cn (fun hk => by rw [wn]; exact f hk) hb]
    exact ⟨_, rfl, h.addBool _⟩
  | @eq i j k Q R b hq hr hb =>
    obtain ⟨q, eq, dq⟩ := h.pt hq
    obtain ⟨r, eqr, dr⟩ := h.pt hr
    have hs : (i == j) = true → Q = R := by
      intro hij
      rw [beq_iff_eq] at hij
      subst hij
      rw [hq] at hr
      cases hr; rfl
    simp only [evStep, eq, eqr, ok_bind, dq.eq K dr hs hb]
    exact ⟨_, rfl, h.addBool _⟩
  | verify msg hq hi hj hb =>
    obtain ⟨q, eq, dq⟩ := h.pt hq
    obtain ⟨X, ex, cx, rfl⟩ := h.int hi
    obtain ⟨Y, ey, cy, rfl⟩ := h.int hj
    cases q <;> first | exact False.elim dq | skip
    obtain ⟨b', eb, hb'⟩ := ecdsaVerify_exact D dq.1 msg cx cy
    simp only [evStep, eq, ex, ey, ok_bind, PtV.verify, eb]
    refine ⟨_, rfl, ?_⟩
    rw [Bool.eq_iff_iff.2 (hb.trans hb'.symm)]
    exact h.addBool _

/-- **A statement that ends the program.** -/
theorem den_stop (D : AnyDomain N cap C G) (h : Den C V e) {t : EcStmt} (ht : EcStops cap N e t) : evStep cap C V t = .error .abort := by
  have K := D.K
  have cn := D.Mn.canon
  have f1 : cap.fits 1 = true := cap_fit1 D.Mn
  cases ht with
  | int d hd =>
    rcases Ack.ofBytes_fits cap d f1 with ⟨hn, -⟩ | ⟨-, ex⟩
    · exact absurd hn hd
    · simp only [evStep, ex]; rfl
  | range ver hi hj hr =>
    obtain ⟨X, ex, cx, rfl⟩ := h.int hi
    obtain ⟨Y, ey, cy, rfl⟩ := h.int hj
    simp only [evStep, ex, ey, ok_bind, (makePoint_spec K cn cx cy).1 hr ver]
    rfl
  | @invalid i j x y hi hj hr =>
    obtain ⟨X, ex, cx, vx⟩ := h.int hi
    obtain ⟨Y, ey, cy, vy⟩ := h.int hj
    obtain ⟨-, e1⟩ := (makePoint_spec K cn cx cy).2 (val_range vx vy)
    have em : Curve.makePoint cap C X Y true = .error .abort := by
      rw [e1, if_neg]
      rintro ⟨Q, hQ, h0, hn⟩
      cases Q with
      | zero => exact h0 rfl
      | some x' y' h' =>
        obtain ⟨-, rx, ry⟩ := hQ
        have e1 : x' = x := rx.val.symm.trans (rep_val K cx vx).val
        have e2 : y' = y := ry.val.symm.trans (rep_val K cy vy).val
        subst e1 e2
        rw [D.Mn.eq] at hn
        exact hr h' hn
    simp only [evStep, ex, ey, ok_bind, em]
    rfl
  | generate k hi hr =>
    obtain ⟨X, ex, cx, rfl⟩ := h.int hi
    obtain ⟨ea, ep, ej⟩ := generate_abort (cap := cap) cx cn (by rw [D.Mn.eq]; exact hr)
    cases k <;> simp only [evStep, ex, ok_bind, PtV.generate, ea, ep, ej] <;> rfl

/-- **Statements in order.** -/
theorem den_runs (D : AnyDomain N cap C G) {ts : List EcStmt} {e' : EcEnv (C.W P)} (ht : EcRuns cap N G e ts e') :
    ∀ V, Den C V e → ∃ V', evExec cap C ts V = .ok V' ∧ Den C V' e' := by
  induction ht with
  | nil e => exact fun V h => ⟨V, rfl, h⟩
  | cons h1 _ ih =>
    intro V h
    obtain ⟨V1, e1, d1⟩ := den_step D h h1
    obtain ⟨V2, e2, d2⟩ := ih V1 d1
    exact ⟨V2, by unfold evExec; rw [e1]; exact e2, d2⟩

end
end Ack.Mem
