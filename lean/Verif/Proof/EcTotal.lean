import Verif.Proof.EcAny2
import Verif.Proof.EcWhole
/-! # Programs on curves, with points that need not be on the curve: every well-formed program completes or is stopped by a check -/
namespace Ack.Mem
open Ack.Spec.Ec Ack.Spec.Prog
open Big (Byte)

section
variable {P : ℕ} [Fact P.Prime] {N : ℕ} {cap : Cap} {C : Curve} {G : C.Pt P}

/-- The point object is of the class, and its coordinates are field elements. -/
def PtAny (P : ℕ) (C : Curve) : PtV → Kd → Prop
  | .aff q, .aff => q.Any P C
  | .proj q, .proj => q.Any P C
  | .jac q, .jac => q.Any P C
  | _, _ => False

theorem PtAny.conv (K : CurveOk P cap C) {q : PtV} {k' : Kd} (h : PtAny P C q k') (k : Kd) (hk : k = .aff ∨ k' = .aff) :
    ∃ r, q.conv cap k = .ok r ∧ PtAny P C r k := by
  kinds q k' h
  · cases k
    · exact ⟨_, rfl, h⟩
    · obtain ⟨r, e, hr⟩ := PPt.ofAffine_any K h
      exact ⟨.proj r, by simp only [PtV.conv, e, ok_bind]; rfl, hr⟩
    · obtain ⟨r, e, hr⟩ := JPt.ofAffine_any K h
      exact ⟨.jac r, by simp only [PtV.conv, e, ok_bind]; rfl, hr⟩
  · have hk : k = .aff := by simpa using hk
    subst hk
    obtain ⟨r, e, hr⟩ := PPt.toAffine_any K h
    exact ⟨.aff r, by simp only [PtV.conv, e, ok_bind]; rfl, hr⟩
  · have hk : k = .aff := by simpa using hk
    subst hk
    obtain ⟨r, e, hr⟩ := JPt.toAffine_any K h
    exact ⟨.aff r, by simp only [PtV.conv, e, ok_bind]; rfl, hr⟩

theorem PtAny.doubled (K : CurveOk P cap C) (h8 : 8 < P) {q : PtV} {k : Kd} (h : PtAny P C q k) : ∃ r, q.doubled cap = .ok r ∧ PtAny P C r k := by
  kinds q k h
  · obtain ⟨r, e, hr⟩ := APt.doubled_any K h
    exact ⟨.aff r, by simp only [PtV.doubled, e, ok_bind]; rfl, hr⟩
  · obtain ⟨r, e, hr⟩ := PPt.doubled_any K h
    exact ⟨.proj r, by simp only [PtV.doubled, e, ok_bind]; rfl, hr⟩
  · obtain ⟨r, e, hr⟩ := JPt.doubled_any K h8 h
    exact ⟨.jac r, by simp only [PtV.doubled, e, ok_bind]; rfl, hr⟩

theorem PtAny.inverted (K : CurveOk P cap C) {q : PtV} {k : Kd} (h : PtAny P C q k) : ∃ r, q.inverted cap = .ok r ∧ PtAny P C r k := by
  kinds q k h
  · obtain ⟨r, e, hr⟩ := APt.inverted_any K h
    exact ⟨.aff r, by simp only [PtV.inverted, e, ok_bind]; rfl, hr⟩
  · obtain ⟨r, e, hr⟩ := PPt.inverted_any K h
    exact ⟨.proj r, by simp only [PtV.inverted, e, ok_bind]; rfl, hr⟩
  · obtain ⟨r, e, hr⟩ := JPt.inverted_any K h
    exact ⟨.jac r, by simp only [PtV.inverted, e, ok_bind]; rfl, hr⟩

theorem PtAny.add (K : CurveOk P cap C) (h8 : 8 < P) {q r : PtV} {k : Kd} (h : PtAny P C q k) (h' : PtAny P C r k) :
    ∃ t, q.add cap r = .ok t ∧ PtAny P C t k := by
  kinds q k h <;> cases r <;> first | exact False.elim h' | skip
  · obtain ⟨r, e, hr⟩ := APt.add_any K h h'
    exact ⟨.aff r, by simp only [PtV.add, e, ok_bind]; rfl, hr⟩
  · obtain ⟨r, e, hr⟩ := PPt.add_any K h h'
    exact ⟨.proj r, by simp only [PtV.add, e, ok_bind]; rfl, hr⟩
  · obtain ⟨r, e, hr⟩ := JPt.add_any K h8 h h'
    exact ⟨.jac r, by simp only [PtV.add, e, ok_bind]; rfl, hr⟩

theorem PtAny.sub (K : CurveOk P cap C) (h8 : 8 < P) {q r : PtV} {k : Kd} (h : PtAny P C q k) (h' : PtAny P C r k) :
    ∃ t, q.sub cap r = .ok t ∧ PtAny P C t k := by
  kinds q k h <;> cases r <;> first | exact False.elim h' | skip
  · obtain ⟨r, e, hr⟩ := APt.sub_any K h h'
    exact ⟨.aff r, by simp only [PtV.sub, e, ok_bind]; rfl, hr⟩
  · obtain ⟨r, e, hr⟩ := PPt.sub_any K h h'
    exact ⟨.proj r, by simp only [PtV.sub, e, ok_bind]; rfl, hr⟩
  · obtain ⟨r, e, hr⟩ := JPt.sub_any K h8 h h'
    exact ⟨.jac r, by simp only [PtV.sub, e, ok_bind]; rfl, hr⟩

theorem PtAny.mul (K : CurveOk P cap C) (h8 : 8 < P) {q : PtV} {k : Kd} (h : PtAny P C q k) {x : Big} (cx : x.Canon)
    (f : Big.Fits cap x) : ∃ t, q.mul cap x = .ok t ∧ PtAny P C t k := by
  kinds q k h
  · obtain ⟨r, e, hr⟩ := APt.mul_any K h cx
    exact ⟨.aff r, by simp only [PtV.mul, e, ok_bind]; rfl, hr⟩
  · obtain ⟨r, e, hr⟩ := PPt.mul_any K h cx
    exact ⟨.proj r, by simp only [PtV.mul, e, ok_bind]; rfl, hr⟩
  · obtain ⟨r, e, hr⟩ := JPt.mul_any K h8 h cx f
    exact ⟨.jac r, by simp only [PtV.mul, e, ok_bind]; rfl, hr⟩

theorem PtAny.mulAdd (K : CurveOk P cap C) (h8 : 8 < P) {q r : PtV} (h : PtAny P C q .jac) (h' : PtAny P C r .jac)
    {x y : Big} (cx : x.Canon) (cy : y.Canon) (fx : Big.Fits cap x) (fy : Big.Fits cap y) :
    ∃ t, PtV.mulAdd cap x q y r = .ok t ∧ PtAny P C t .jac := by
  cases q <;> first | exact False.elim h | skip
  cases r <;> first | exact False.elim h' | skip
  obtain ⟨an, ea, da⟩ := toRnaf_total cap x cx fx
  obtain ⟨bn, eb, db⟩ := toRnaf_total cap y cy fy
  obtain ⟨r, e, hr⟩ := mulAddFast_digits (JPt.opsAny K h8) cap (g := PUnit.unit) (h := PUnit.unit) h h' ea eb da db
  exact ⟨.jac r, by simp only [PtV.mulAdd, e, ok_bind]; rfl, hr⟩

theorem PtAny.isOnCurve (K : CurveOk P cap C) {q : PtV} {k : Kd} (h : PtAny P C q k) : ∃ b, q.isOnCurve cap = .ok b := by
  kinds q k h
  · exact APt.isOnCurve_any K h
  · exact PPt.isOnCurve_any K h
  · exact JPt.isOnCurve_any K h

theorem PtAny.isValid (K : CurveOk P cap C) (h8 : 8 < P) (cn : C.n.Canon) {q : PtV} {k : Kd} (h : PtAny P C q k)
    (f : Big.Fits cap C.n) : ∃ b, q.isValid cap = .ok b := by
  kinds q k h
  · exact APt.isValid_any K cn h
  · exact PPt.isValid_any K cn h
  · exact JPt.isValid_any K h8 cn f h

theorem PtAny.eq (K : CurveOk P cap C) {q r : PtV} {k : Kd} (h : PtAny P C q k) (h' : PtAny P C r k) (same : Bool) :
    ∃ b, q.eq cap same r = .ok b := by
  kinds q k h <;> cases r <;> first | exact False.elim h' | skip
  · exact ⟨_, rfl⟩
  · exact PPt.eq_any K h h'
  · show ∃ b, (if same = true then _ else _) = _
    cases same with
    | true => exact ⟨_, rfl⟩
    | false => exact JPt.eq_any K h h'

theorem PtDen.any (K : CurveOk P cap C) {q : PtV} {k : Kd} {Q : C.Pt P} (h : PtDen C q (k, Q)) : PtAny P C q k := by
  kinds q k h
  · exact h.1.any K
  · intro hi
    cases Q with
    | zero => rw [show PPt.isIdentity _ = true from h] at hi; cases hi
    | some x y hn => obtain ⟨hc, Z, hZ, hx, hy, hz⟩ := h; exact ⟨hc, _, _, Z, hx, hy, hz, hZ⟩
  · intro hi
    cases Q with
    | zero => rw [show JPt.isIdentity _ = true from h] at hi; cases hi
    | some x y hn => obtain ⟨hc, Z, hZ, hx, hy, hz⟩ := h; exact ⟨hc, _, _, Z, hx, hy, hz, hZ⟩

theorem PtAny.generate (K : CurveOk P cap C) (h8 : 8 < P) (cn : C.n.Canon) (hG : C.g.Any P C) {x : Big} (cx : x.Canon) (fx : Big.Fits cap x)
    (h : 0 < x.toInt ∧ x.toInt < C.n.toInt) (k : Kd) : ∃ t, PtV.generate cap C k x = .ok t ∧ PtAny P C t k := by
  have hc := check_true ((inRange_iff cx cn).2 h)
  cases k
  · obtain ⟨r, e, hr⟩ := APt.mul_any K hG cx
    exact ⟨.aff r, by simp only [PtV.generate, Curve.generateA, hc, ok_bind, e]; rfl, hr⟩
  · obtain ⟨q, eq, hq⟩ := PPt.ofAffine_any K hG
    obtain ⟨r, e, hr⟩ := PPt.mul_any K hq cx
    exact ⟨.proj r, by simp only [PtV.generate, Curve.generateP, hc, ok_bind, eq, e]; rfl, hr⟩
  · obtain ⟨q, eq, hq⟩ := JPt.ofAffine_any K hG
    obtain ⟨r, e, hr⟩ := JPt.mul_any K h8 hq cx fx
    exact ⟨.jac r, by simp only [PtV.generate, Curve.generateJ, hc, ok_bind, eq, e]; rfl, hr⟩

/-- The integer variables have the values, the points the classes. -/
structure Shape (P : ℕ) (cap : Cap) (C : Curve) (V : EcVals) (xs : List ℤ) (ks : List Kd) : Prop where
  ints : List.Forall₂ (fun X x => X.Canon ∧ Big.Fits cap X ∧ X.toInt = x) V.ints xs
  pts : List.Forall₂ (PtAny P C) V.pts ks

variable {V : EcVals} {xs : List ℤ} {ks : List Kd}

omit [Fact P.Prime] in
theorem Shape.int (h : Shape P cap C V xs ks) {i : ℕ} {x : ℤ} (hi : xs[i]? = some x) : ∃ X, V.int i = .ok X ∧ X.Canon ∧ Big.Fits cap X ∧ X.toInt = x := by
  rcases forall₂_get h.ints i with ⟨-, h2⟩ | ⟨X, x', h1, h2, h3⟩
  · rw [h2] at hi; cases hi
  · rw [h2] at hi; cases hi
    exact ⟨X, by unfold EcVals.int; rw [h1], h3⟩

omit [Fact P.Prime] in
theorem Shape.pt (h : Shape P cap C V xs ks) {i : ℕ} {k : Kd} (hi : ks[i]? = some k) : ∃ q, V.pt i = .ok q ∧ PtAny P C q k := by
  rcases forall₂_get h.pts i with ⟨-, h2⟩ | ⟨q, x', h1, h2, h3⟩
  · rw [h2] at hi; cases hi
  · rw [h2] at hi; cases hi
    exact ⟨q, by unfold EcVals.pt; rw [h1], h3⟩

omit [Fact P.Prime] in
theorem Shape.addInt (h : Shape P cap C V xs ks) {X : Big} (c : X.Canon) (f : Big.Fits cap X) : Shape P cap C { V with ints := V.ints ++ [X] } (xs ++ [X.toInt]) ks :=
  ⟨List.rel_append h.ints (.cons ⟨c, f, rfl⟩ .nil), h.pts⟩

omit [Fact P.Prime] in
theorem Shape.addPt (h : Shape P cap C V xs ks) {q : PtV} {k : Kd} (d : PtAny P C q k) :
    Shape P cap C { V with pts := V.pts ++ [q] } xs (ks ++ [k]) :=
  ⟨h.ints, List.rel_append h.pts (.cons d .nil)⟩

omit [Fact P.Prime] in
theorem Shape.addBool (h : Shape P cap C V xs ks) (b : Bool) : Shape P cap C { V with bools := V.bools ++ [b] } xs ks := ⟨h.ints, h.pts⟩

theorem ofBytes_room (cap : Cap) (d : List Byte) (h1 : cap.fits 1 = true) :
    (FitsBytes cap d ∧ ∃ x, Big.ofBytes cap d = .ok x ∧ x.Canon ∧ Big.Fits cap x ∧ x.toInt = beVal d) ∨
      (¬ FitsBytes cap d ∧ Big.ofBytes cap d = .error .abort) := by
  rcases Ack.ofBytes_fits cap d h1 with ⟨h, x, ex, cx, vx⟩ | h
  · refine .inl ⟨h, x, ex, cx, ?_, vx⟩
    have hf : cap.fits (Big.wordSize d.length) = true := by
      rw [Big.fits_iff]
      intro M hM
      have := h M hM
      unfold Big.wordSize; omega
    obtain ⟨y, e, -, f, -⟩ := Big.setBytes_spec cap d hf h1
    unfold Big.ofBytes at ex
    rw [e] at ex
    cases ex
    exact f
  · exact .inr h

theorem rep_nat (K : CurveOk P cap C) {X : Big} (cx : X.Canon) (h0 : 0 ≤ X.toInt) (h1 : X.toInt < P) :
    Ack.Rep P C.p ⟨X, some C.p⟩ (res P X) := ⟨rfl, ⟨cx, h0, by rw [K.M.eq]; exact h1⟩, rfl⟩

/-- **One statement**: it completes or a check of the library stops the program; if the arguments pass the checks, it completes. -/
theorem form_step (D : AnyDomain N cap C G) (h : Shape P cap C V xs ks) {t : EcStmt} {ys : List ℤ} {ls : List Kd}
    (ht : EcForm xs ks t ys ls) :
    (∃ V', evStep cap C V t = .ok V' ∧ Shape P cap C V' ys ls) ∨ evStep cap C V t = .error .abort ∧ ¬ EcPasses cap P N xs t := by
  have K := D.K
  have h8 := D.P8
  have cn := D.Mn.canon
  have fn : Big.Fits cap C.n := fun M hM => by
    have := Big.fits_iff.1 D.Mn.room M hM
    omega
  have f1 : cap.fits 1 = true := cap_fit1 D.Mn
  cases ht with
  | int d =>
    rcases ofBytes_room cap d f1 with ⟨-, x, ex, cx, fx, vx⟩ | ⟨hn, ex⟩
    · left
      simp only [evStep, ex, ok_bind]
      refine ⟨_, rfl, ?_⟩
      rw [← vx]
      exact h.addInt cx fx
    · right
      simp only [evStep, ex]
      exact ⟨rfl, hn⟩
  | neg hi =>
    left
    obtain ⟨X, ex, cx, fx, rfl⟩ := h.int hi
    simp only [evStep, ex, ok_bind]
    refine ⟨_, rfl, ?_⟩
    rw [show -X.toInt = (Big.negate X).toInt from (negate_toInt X).symm]
    exact h.addInt cx fx
  | @point i j x y ver hx hy =>
    obtain ⟨X, ex, cx, fx, rfl⟩ := h.int hx
    obtain ⟨Y, ey, cy, fy, rfl⟩ := h.int hy
    by_cases hr : 0 ≤ X.toInt ∧ X.toInt < P ∧ 0 ≤ Y.toInt ∧ Y.toInt < P
    · obtain ⟨e0, e1⟩ := (makePoint_spec K cn cx cy).2 hr
      have ha : PtAny P C (.aff ⟨some C, ⟨X, some C.p⟩, ⟨Y, some C.p⟩⟩) .aff :=
        APt.Any.mk (rep_nat K cx hr.1 hr.2.1) (rep_nat K cy hr.2.2.1 hr.2.2.2)
      cases ver with
      | false =>
        left
        simp only [evStep, ex, ey, ok_bind, e0]
        exact ⟨_, rfl, h.addPt ha⟩
      | true =>
        by_cases hq : ∃ Q : C.Pt P, APt.Rep C ⟨some C, ⟨X, some C.p⟩, ⟨Y, some C.p⟩⟩ Q ∧ Q ≠ 0 ∧ C.n.toInt • Q = 0
        · left
          rw [if_pos hq] at e1
          simp only [evStep, ex, ey, ok_bind, e1]
          exact ⟨_, rfl, h.addPt ha⟩
        · right
          rw [if_neg hq] at e1
          simp only [evStep, ex, ey, ok_bind, e1]
          exact ⟨rfl, fun hp => by cases hp.1⟩
    · right
      simp only [evStep, ex, ey, ok_bind, (makePoint_spec K cn cx cy).1 hr ver]
      refine ⟨rfl, ?_⟩
      rintro ⟨-, x, y, h1, h2, h3, h4⟩
      rw [hx] at h3; rw [hy] at h4
      injection h3 with h3; injection h4 with h4
      omega
  | @generate k i x hi =>
    obtain ⟨X, ex, cx, fx, rfl⟩ := h.int hi
    by_cases hr : 0 < X.toInt ∧ X.toInt < N
    · left
      obtain ⟨r, er, hr⟩ := PtAny.generate K h8 cn (D.g.any K) cx fx (by rw [D.Mn.eq]; exact hr) k
      simp only [evStep, ex, ok_bind, er]
      exact ⟨_, rfl, h.addPt hr⟩
    · right
      obtain ⟨ea, ep, ej⟩ := generate_abort (cap := cap) cx cn (by rw [D.Mn.eq]; exact hr)
      refine ⟨by cases k <;> simp only [evStep, ex, ok_bind, PtV.generate, ea, ep, ej] <;> rfl, ?_⟩
      rintro ⟨x, h1, h2⟩
      rw [hi] at h1
      cases h1
      exact hr h2
  | conv k hq hk =>
    left
    obtain ⟨q, eq, dq⟩ := h.pt hq
    obtain ⟨r, er, hr⟩ := dq.conv K k hk
    simp only [evStep, eq, ok_bind, er]
    exact ⟨_, rfl, h.addPt hr⟩
  | dbl hq =>
    left
    obtain ⟨q, eq, dq⟩ := h.pt hq
    obtain ⟨r, er, hr⟩ := dq.doubled K h8
    simp only [evStep, eq, ok_bind, er]
    exact ⟨_, rfl, h.addPt hr⟩
  | opp hq =>
    left
    obtain ⟨q, eq, dq⟩ := h.pt hq
    obtain ⟨r, er, hr⟩ := dq.inverted K
    simp only [evStep, eq, ok_bind, er]
    exact ⟨_, rfl, h.addPt hr⟩
  | add hq hr =>
    left
    obtain ⟨q, eq, dq⟩ := h.pt hq
    obtain ⟨r, eqr, dr⟩ := h.pt hr
    obtain ⟨t, er, ht⟩ := dq.add K h8 dr
    simp only [evStep, eq, eqr, ok_bind, er]
    exact ⟨_, rfl, h.addPt ht⟩
  | sub hq hr =>
    left
    obtain ⟨q, eq, dq⟩ := h.pt hq
    obtain ⟨r, eqr, dr⟩ := h.pt hr
    obtain ⟨t, er, ht⟩ := dq.sub K h8 dr
    simp only [evStep, eq, eqr, ok_bind, er]
    exact ⟨_, rfl, h.addPt ht⟩
  | mul hq hi =>
    left
    obtain ⟨q, eq, dq⟩ := h.pt hq
    obtain ⟨X, ex, cx, fx, rfl⟩ := h.int hi
    obtain ⟨t, er, ht⟩ := dq.mul K h8 cx fx
    simp only [evStep, eq, ex, ok_bind, er]
    exact ⟨_, rfl, h.addPt ht⟩
  | mulAdd hq hr hi hj =>
    left
    obtain ⟨q, eq, dq⟩ := h.pt hq
    obtain ⟨r, eqr, dr⟩ := h.pt hr
    obtain ⟨X, ex, cx, fx, rfl⟩ := h.int hi
    obtain ⟨Y, ey, cy, fy, rfl⟩ := h.int hj
    obtain ⟨t, er, ht⟩ := dq.mulAdd K h8 dr cx cy fx fy
    simp only [evStep, eq, eqr, ex, ey, ok_bind, er]
    exact ⟨_, rfl, h.addPt ht⟩
  | isIdentity hq =>
    left
    obtain ⟨q, eq, dq⟩ := h.pt hq
    simp only [evStep, eq, ok_bind]
    exact ⟨_, rfl, h.addBool _⟩
  | isOnCurve hq =>
    left
    obtain ⟨q, eq, dq⟩ := h.pt hq
    obtain ⟨b, eb⟩ := dq.isOnCurve K
    simp only [evStep, eq, ok_bind, eb]
    exact ⟨_, rfl, h.addBool _⟩
  | isValid hq =>
    left
    obtain ⟨q, eq, dq⟩ := h.pt hq
    obtain ⟨b, eb⟩ := dq.isValid K h8 cn fn
    simp only [evStep, eq, ok_bind, eb]
    exact ⟨_, rfl, h.addBool _⟩
  | @eq i j k hq hr =>
    left
    obtain ⟨q, eq, dq⟩ := h.pt hq
    obtain ⟨r, eqr, dr⟩ := h.pt hr
    obtain ⟨b, eb⟩ := dq.eq K dr (i == j)
    simp only [evStep, eq, eqr, ok_bind, eb]
    exact ⟨_, rfl, h.addBool _⟩
  | verify msg hq hi hj =>
    left
    obtain ⟨q, eq, dq⟩ := h.pt hq
    obtain ⟨X, ex, cx, fx, rfl⟩ := h.int hi
    obtain ⟨Y, ey, cy, fy, rfl⟩ := h.int hj
    cases q <;> first | exact False.elim dq | skip
    obtain ⟨b, eb, -⟩ := ecdsaVerify_total D dq msg cx cy
    simp only [evStep, eq, ex, ey, ok_bind, PtV.verify, eb]
    exact ⟨_, rfl, h.addBool _⟩

/-- **Statements in order.** -/
theorem form_runs (D : AnyDomain N cap C G) {A : List ℤ → EcStmt → Prop} {ts : List EcStmt} {ys : List ℤ} {ls : List Kd}
    (ht : EcForms A xs ks ts ys ls) :
    ∀ V, Shape P cap C V xs ks → (∃ V', evExec cap C ts V = .ok V' ∧ Shape P cap C V' ys ls) ∨
      evExec cap C ts V = .error .abort ∧ ¬ ∀ xs t, A xs t → EcPasses cap P N xs t := by
  induction ht with
  | nil xs ks => exact fun V h => .inl ⟨V, rfl, h⟩
  | cons h1 hA _ ih =>
    intro V h
    rcases form_step D h h1 with ⟨V1, e1, d1⟩ | ⟨e1, n1⟩
    · unfold evExec; rw [e1]; exact ih V1 d1
    · unfold evExec; rw [e1]; exact .inr ⟨rfl, fun hp => n1 (hp _ _ hA)⟩

variable {K : Kind}

/-- **What a program can read of any point.** -/
theorem read_any {p : Big} {fuel : ℕ} (H : PC K p P N fuel C) (hC : CurveOk P K.lim C) {s : BigSt} (X : Ctx K D0 s)
    {q : PtR} {Q : PtV} (h : PtSim D0 D0 p s q Q) {k : Kd} (hd : PtAny P C Q k) :
    ∃ c s', q.read K fuel s = .ok (c, s') ∧ Grow K s s' ∧ Residues P c := by
  obtain ⟨A, eA, hA⟩ := hd.conv hC .aff (Or.inl rfl)
  have hs := ptr_conv H X h .aff
  rw [eA] at hs
  obtain ⟨a, s', e, g, ha⟩ := hs
  cases A <;> first | exact False.elim hA | skip
  cases a <;> first | exact False.elim ha | skip
  rename_i A a
  unfold PtR.read
  rw [bind_run e]
  show ∃ c s'', (a.isIdentity >>= _) s' = _ ∧ _
  rw [bind_run (apt_isIdentity ha)]
  cases hi : A.isIdentity with
  | true => exact ⟨none, s', rfl, g, fun _ _ h => by cases h⟩
  | false =>
    obtain ⟨-, x, y, hx, hy⟩ := hA hi
    have v1 := Ack.Props.value_of ha.x.v.rep
    have v2 := Ack.Props.value_of ha.y.v.rep
    refine ⟨some (A.x.v.toInt, A.y.v.toInt), s', ?_, g, ?_⟩
    · simp only [Bool.false_eq_true, if_false]
      rw [bind_run (Is.ask v1), bind_run (Is.ask v2)]
      rfl
    · intro x' y' e'
      cases e'
      have l1 := hx.elt.lt
      have l2 := hy.elt.lt
      rw [hC.M.eq] at l1 l2
      exact ⟨⟨hx.elt.nn, l1⟩, ⟨hy.elt.nn, l2⟩⟩

theorem readPts_any {p : Big} {fuel : ℕ} (H : PC K p P N fuel C) (hC : CurveOk P K.lim C) :
    ∀ {l : List PtR} {L : List PtV} {e : List Kd} {s : BigSt}, Ctx K D0 s → List.Forall₂ (PtSim D0 D0 p s) l L →
    List.Forall₂ (PtAny P C) L e → ∃ cs s', readPts K fuel l s = .ok (cs, s') ∧ Grow K s s' ∧ cs.length = e.length ∧ ∀ c ∈ cs, Residues P c
  | [], L, e, s, X, h, d => by
    cases h; cases d
    exact ⟨[], s, rfl, Grow.refl X.inv, rfl, by simp⟩
  | _ :: _, L, e, s, X, h, d => by
    cases h with
    | cons h1 h2 =>
      cases d with
      | cons d1 d2 =>
        obtain ⟨c, s1, e1, g1, r1⟩ := read_any H hC X h1 d1
        obtain ⟨cs, s2, e2, g2, l2, r2⟩ := readPts_any H hC (X.mono g1) (h2.imp fun _ _ r => r.mono g1) d2
        refine ⟨c :: cs, s2, ?_, g1.trans g2, by simp [l2], by simpa using ⟨r1, r2⟩⟩
        unfold readPts
        rw [bind_run e1, bind_run e2]
        rfl

end
end Ack.Mem
