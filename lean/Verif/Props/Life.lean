import Verif.Props.Ec
import Verif.Proof.Life
/-!
# Properties of the lifetimes of curve objects (C82)

A point refers to the curve object it was made with.  `Steps C G e t e'` (Spec/Life.lean) says that the program `t` uses
every curve object and every point only while the objects live to which these refer.
-/
namespace Ack.Props
open Ack Ack.Big Ack.Life WeierstrassCurve

/-! ## Concrete case: two objects of y² = x³ + 2x + 2 over GF(17) -/

/-- The arguments of the constructor. -/
def par17 : Params := ⟨ofInt32 17, ofInt32 2, ofInt32 2, ofInt32 5, ofInt32 1, ofInt32 19, 1⟩

/-- The first curve object of a program. -/
def ex17z : Curve := { ex17 with addr := 0 }

theorem ex17z_ok : CurveOk 17 (some 2) ex17z :=
  ⟨ex17_ok.M, ex17_ok.gt3, ex17_ok.a, ex17_ok.b, ex17_ok.b0, ex17_ok.disc, ex17_ok.m3, ex17_ok.z⟩

theorem ns17z : (ex17z.W 17).Nonsingular 5 1 := ns17

/-- G = (5,1). -/
def G17z : ex17z.Pt 17 := .some 5 1 ns17z

theorem dom17 : DomainOk (some 2) par17 ex17z G17z :=
  ⟨by decide, ex17z_ok, canon1 _, rfl, rep17 (x := 5) (by decide) (by decide), rep17 (x := 1) (by decide) (by decide)⟩

section
variable {P : ℕ} [Fact P.Prime] {cap : Cap} {D : Params} {C : Curve} {G : C.Pt P}

/-! ## C82: points while their curve objects live -/

/-- **C82.** Every program that uses curve objects and points only while the objects live to which they refer runs to its
end without undefined behaviour and without an abort, whichever objects it makes, copies and ends, and every point it
computes denotes its element of the group and refers to no other objects than the abstract state says: those of the
operands of a sum, the object of `make_point`, and for the generator of a copy the object the copy was made from.

Not proved: that copying a curve object gives an object that can be used on its own (`C82_copy_wrong`, `C82_dangling`). -/
theorem C82_partial (H : DomainOk cap D C G) {t : List Stmt} {e : Env (C.Pt P)} (h : Steps C G ⟨[], []⟩ t e) :
    ∃ s, run cap D ⟨[], []⟩ t = .ok s ∧ s.w.length = e.objs.length ∧
      (∀ a r : Nat, e.objs[a]? = some (⟨true, r⟩ : Obj) → ∃ c : LCurve, s.w[a]? = some (some c) ∧ c.view = C ∧ c.g.refs ⊆ [r]) ∧
      List.Forall₂ (fun q x => (er C q).Rep C x.1 ∧ q.refs ⊆ x.2) s.pts e.pts := by
  obtain ⟨s, e1, I⟩ := run_spec H h _ (holds_init C)
  refine ⟨s, e1, I.len, fun a r ha => ?_, I.pts⟩
  obtain ⟨c, h1, h2, h3⟩ := I.live a r ha
  exact ⟨c, h1, h2, h3 ▸ genAt_refs C r⟩

/-- Two objects, the second a copy; sums of points of both; the copy ends and the points of the first object go on. -/
example : DomainOk (some 2) par17 ex17z G17z ∧
    (∃ e, Steps ex17z G17z ⟨[], []⟩ [.newCurve, .copyCurve 0, .makePoint 1 (ofInt32 5) (ofInt32 1) false, .base 1, .add 0 1, .endCurve 1, .generate 0 (ofInt32 3), .neg 3, .sub 1 1] e) ∧
    (run (some 2) par17 ⟨[], []⟩ [.newCurve, .copyCurve 0, .makePoint 1 (ofInt32 5) (ofInt32 1) true, .base 1, .add 0 1, .endCurve 1, .generate 0 (ofInt32 3), .neg 3]).map (·.pts) =
      .ok [⟨some 1, ⟨ofInt32 5, some 1⟩, ⟨ofInt32 1, some 1⟩⟩, ⟨some 0, ⟨ofInt32 5, some 0⟩, ⟨ofInt32 1, some 0⟩⟩, ⟨some 1, ⟨ofInt32 6, some 1⟩, ⟨ofInt32 3, some 1⟩⟩,
        ⟨some 0, ⟨ofInt32 10, some 0⟩, ⟨ofInt32 6, some 0⟩⟩, ⟨some 0, ⟨ofInt32 10, some 0⟩, ⟨ofInt32 11, some 0⟩⟩] := by
  refine ⟨dom17, ⟨_, .cons .newCurve <| .cons (.copyCurve (r := 0) rfl) <|
    .cons (.makePoint (x := ofInt32 5) (y := ofInt32 1) false (X := 5) (Y := 1) ns17z ?_ (canon1 _) (canon1 _) (by decide) (by decide) (by decide)) <| .cons (.base (r := 0) rfl ?_) <|
    .cons (.add rfl rfl ?_ ?_) <| .cons (.endCurve (r := 0) rfl) <| .cons (.generate (r := 0) rfl ?_ (canon1 _) (by decide) (by decide)) <|
    .cons (.neg rfl ?_) <| .cons (.sub rfl rfl ?_ ?_) .nil⟩, by decide +kernel⟩
  all_goals
    intro a ha
    simp only [List.mem_cons, List.not_mem_nil, or_false] at ha
    subst ha
    exact ⟨0, rfl⟩

/-- **C82, copies.** In every state reached by an allowed program: when an object lives but the object has ended that it
was copied from, `generate_point` through it is undefined behaviour for every scalar in range but one, provided the
first coordinate of the generator is not one. -/
theorem C82_dangling (H : DomainOk cap D C G) {t : List Stmt} {e : Env (C.Pt P)} (h : Steps C G ⟨[], []⟩ t e) {c r r' : Nat}
    (hc : e.objs[c]? = some (⟨true, r⟩ : Obj)) (hr : e.objs[r]? = some (⟨false, r'⟩ : Obj)) (hx : C.gx.v.toInt ≠ 1)
    {k : Big} (ck : k.Canon) (h1 : 1 < k.toInt) (h2 : k.toInt < C.n.toInt) :
    run cap D ⟨[], []⟩ (t ++ [.generate c k]) = .error .ub := by
  obtain ⟨s, e1, I⟩ := run_spec H h _ (holds_init C)
  obtain ⟨kc, w1, w2, w3⟩ := I.get hc
  have en : kc.n = C.n := congrArg Curve.n w2
  have gx1 : C.gx.v.isOne = false := by
    rw [← Bool.not_eq_true]
    intro h
    obtain ⟨h3, h4⟩ := isOne_eq h
    exact hx (by rw [h3, h4])
  have step : s.w.generate cap c k = .error .ub :=
    generate_dangling w1 w3 (I.dead _ _ hr) gx1 ck (en ▸ H.n) h1 (en ▸ h2)
  rw [run_append, e1, ok_bind]
  simp only [run, St.step]
  rw [step]; rfl

/-- A copy outlives its original. -/
example : (∃ e, Steps ex17z G17z ⟨[], []⟩ [.newCurve, .copyCurve 0, .endCurve 0] e ∧ e.objs[1]? = some ⟨true, 0⟩ ∧ e.objs[0]? = some ⟨false, 0⟩) ∧
    ex17z.gx.v.toInt ≠ 1 ∧ 1 < (ofInt32 2).toInt ∧ (ofInt32 2).toInt < ex17z.n.toInt :=
  ⟨⟨_, .cons .newCurve <| .cons (.copyCurve (r := 0) rfl) <| .cons (.endCurve (r := 0) rfl) .nil, rfl, rfl⟩, by decide⟩

/-- **C82, the copy is not a curve of its own.** A copy of a curve object lives, its original has ended: points can be made
with the copy and doubled, but `generate_point` through the copy follows a dangling pointer. -/
theorem C82_copy_wrong :
    run (some 2) par17 ⟨[], []⟩ [.newCurve, .copyCurve 0, .endCurve 0, .generate 1 (ofInt32 2)] = .error .ub ∧
    (run (some 2) par17 ⟨[], []⟩ [.newCurve, .copyCurve 0, .endCurve 0, .makePoint 1 (ofInt32 5) (ofInt32 1) true, .dbl 0]).map (·.pts) =
      .ok [⟨some 1, ⟨ofInt32 5, some 1⟩, ⟨ofInt32 1, some 1⟩⟩, ⟨some 1, ⟨ofInt32 6, some 1⟩, ⟨ofInt32 3, some 1⟩⟩] := by
  refine ⟨?_, by decide +kernel⟩
  exact C82_dangling dom17 (.cons .newCurve <| .cons (.copyCurve (r := 0) rfl) <| .cons (.endCurve (r := 0) rfl) .nil) (c := 1) (r := 0) (r' := 0) rfl rfl (by decide) (canon1 _)
    (by decide) (by decide)

/-- **C82, points left behind.** Every operation on a point is undefined behaviour once the object has ended that holds
the modulus of its first coordinate, provided this coordinate is not one: as left operand of a sum or a difference,
negated, doubled, checked, and multiplied with any scalar but one. -/
theorem C82_left_behind {w : World} {q : LPt} {a c : Ptr} (hc : q.curve = some c) (hp : q.x.pm = some a) (ha : w[a]? = some none) (hx : q.x.v.toInt ≠ 1) :
    (∀ p, q.add cap w p = .error .ub) ∧ q.inverted cap w = .error .ub ∧ q.doubled cap w = .error .ub ∧ q.isOnCurve cap w = .error .ub ∧
    q.isValid cap w = .error .ub ∧ (∀ k : Big, k.Canon → k.toInt ≠ 1 → q.mul cap w k = .error .ub) ∧ ∀ p : LPt, p.sub cap w q = .error .ub := by
  have h1 : q.x.v.isOne = false := by
    rw [← Bool.not_eq_true]
    intro h
    obtain ⟨h3, h4⟩ := isOne_eq h
    exact hx (by rw [h3, h4])
  have h := isIdentity_dangling hc hp h1 ha
  have inv : q.inverted cap w = .error .ub := by unfold LPt.inverted; rw [h]; rfl
  refine ⟨fun p => ?_, inv, ?_, ?_, ?_, fun k ck hk => ?_, fun p => ?_⟩
  · unfold LPt.add; rw [h]; rfl
  · unfold LPt.doubled; rw [h]; rfl
  · unfold LPt.isOnCurve; rw [h]; rfl
  · unfold LPt.isValid; rw [h]; rfl
  · have : k.isOne = false := by rw [← Bool.not_eq_true, isOne_iff ck]; exact hk
    unfold LPt.mul
    rw [this, h]; rfl
  · unfold LPt.sub; rw [inv]; rfl

/-- A point of a curve object that has ended. -/
example : (⟨some 0, ⟨ofInt32 5, some 0⟩, ⟨ofInt32 1, some 0⟩⟩ : LPt).curve = some 0 ∧ ([none] : World)[0]? = some none ∧ (ofInt32 5).toInt ≠ 1 := by decide

/-- **C82, equality.** For points that denote elements other than zero, `==` holds exactly when the elements are equal and
either both points were made with the same curve object or their first coordinate is zero.  It follows no pointer. -/
theorem C82_eq (K : CurveOk P cap C) {p q : LPt} {A B : C.Pt P} (hp : (er C p).Rep C A) (hq : (er C q).Rep C B) (hA : A ≠ 0) (hB : B ≠ 0) :
    LPt.eq p q = true ↔ A = B ∧ (p.curve = q.curve ∨ p.x.v.toInt = 0) := Life.eq_spec K hp hq hA hB

example : (er ex17z ⟨some 0, ⟨ofInt32 5, some 0⟩, ⟨ofInt32 1, some 0⟩⟩).Rep ex17z G17z ∧ (er ex17z ⟨some 1, ⟨ofInt32 5, some 1⟩, ⟨ofInt32 1, some 1⟩⟩).Rep ex17z G17z ∧ G17z ≠ 0 :=
  ⟨dom17.g, dom17.g, by intro h; cases h⟩

/-- **C82, equality of a copy's points.** The generator of a copy and the point the copy makes from the coordinates of its
generator compare unequal, while both objects live. -/
theorem C82_eq_wrong : ∃ p q, (run (some 2) par17 ⟨[], []⟩ [.newCurve, .copyCurve 0, .base 1, .makePoint 1 (ofInt32 5) (ofInt32 1) true]).map (·.pts) = .ok [p, q] ∧
    p.x.v = q.x.v ∧ p.y.v = q.y.v ∧ LPt.eq p q = false :=
  ⟨⟨some 0, ⟨ofInt32 5, some 0⟩, ⟨ofInt32 1, some 0⟩⟩, ⟨some 1, ⟨ofInt32 5, some 1⟩, ⟨ofInt32 1, some 1⟩⟩, by decide +kernel, by decide⟩

end
end Ack.Props
