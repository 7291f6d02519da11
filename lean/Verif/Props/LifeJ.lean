import Verif.Props.Life
import Verif.Proof.LifeJ
/-!
# Properties of the lifetimes of curve objects: Jacobian and homogeneous points (C82)

`StepsJ cap C G e t e'` (Spec/LifeJ.lean) says that the program `t` uses every curve object and every point, affine,
Jacobian or homogeneous, only while the objects live to which these refer.
-/
namespace Ack.Props
open Ack Ack.Big Ack.Life WeierstrassCurve

section
variable {P : ℕ} [Fact P.Prime] {cap : Cap} {D : Params} {C : Curve} {G : C.Pt P}

/-- **C82, the other kinds of points.** Every program on affine, Jacobian and homogeneous points, with conversions between them, that uses
curve objects and points only while the objects live to which they refer runs to its end without undefined behaviour and without an abort; every
point it computes denotes its element of the group and refers to no other objects than the abstract state says.

Not proved: that a copy of a curve object can be used on its own, which is false (`C82_jacobian_dangling`, `C82_homogeneous_dangling`).  For programs with
Jacobian points fields of at most seven elements are left out, because doubling is wrong there (C29), and scalars that fill the storage because the
recoding of the scalar is (C85). -/
theorem C82_kinds_partial (H : DomainOk cap D C G) {t : List StmtJ} {e : EnvJ (C.Pt P)} (h8 : ∀ d, .jac d ∈ t → 8 < P) (h : StepsJ cap C G ⟨⟨[], []⟩, [], []⟩ t e) :
    ∃ s, runJ cap D ⟨⟨[], []⟩, [], []⟩ t = .ok s ∧ s.s.w.length = e.e.objs.length ∧
      List.Forall₂ (fun q x => (er C q).Rep C x.1 ∧ q.refs ⊆ x.2) s.s.pts e.e.pts ∧
      List.Forall₂ (fun q x => (erJ C q).Rep C x.1 ∧ q.refs ⊆ x.2) s.js e.js ∧
      List.Forall₂ (fun q x => (erH C q).Rep C x.1 ∧ q.refs ⊆ x.2) s.hs e.hs := by
  obtain ⟨s, e1, I⟩ := runJ_spec H h8 h ⟨⟨[], []⟩, [], []⟩ ⟨holds_init C, .nil, .nil⟩
  exact ⟨s, e1, I.base.len, I.base.pts, I.js, I.hs⟩

/-- Points of an object and of its copy in both kinds; the copy ends and the points of the first object go on. -/
example : DomainOk (some 2) par17 ex17z G17z ∧ 8 < 17 ∧
    (∃ e, StepsJ (some 2) ex17z G17z ⟨⟨[], []⟩, [], []⟩
      [.aff .newCurve, .aff (.copyCurve 0), .aff (.base 1), .aff (.endCurve 1), .jac (.ofAffine 0), .hom (.ofAffine 0), .jac (.dbl 0), .hom (.dbl 0),
        .jac (.add 0 1), .hom (.add 0 1), .jac (.toAffine 2), .hom (.toAffine 2), .jac (.generate 0 (ofInt32 5)), .hom (.mul 2 (ofInt32 (-4)))] e) ∧
    (runJ (some 2) par17 ⟨⟨[], []⟩, [], []⟩
      [.aff .newCurve, .aff (.base 0), .jac (.ofAffine 0), .hom (.ofAffine 0), .jac (.dbl 0), .hom (.dbl 0), .jac (.add 0 1), .hom (.add 0 1), .jac (.toAffine 2),
        .hom (.toAffine 2)]).map (fun s => (s.s.pts, s.js.length, s.hs.length)) =
      .ok ([⟨some 0, ⟨ofInt32 5, some 0⟩, ⟨ofInt32 1, some 0⟩⟩, ⟨some 0, ⟨ofInt32 10, some 0⟩, ⟨ofInt32 6, some 0⟩⟩,
        ⟨some 0, ⟨ofInt32 10, some 0⟩, ⟨ofInt32 6, some 0⟩⟩], 3, 3) := by
  refine ⟨dom17, by decide, ⟨_, .cons (.aff .newCurve) <| .cons (.aff (.copyCurve (r := 0) rfl)) <| .cons (.aff (.base (r := 0) rfl ?_)) <|
    .cons (.aff (.endCurve (r := 0) rfl)) <| .cons (.jac (.ofAffine rfl ?_)) <| .cons (.hom (.ofAffine rfl ?_)) <| .cons (.jac (.dbl rfl ?_)) <|
    .cons (.hom (.dbl rfl ?_)) <| .cons (.jac (.add rfl rfl ?_ ?_)) <| .cons (.hom (.add rfl rfl ?_ ?_)) <| .cons (.jac (.toAffine rfl ?_)) <|
    .cons (.hom (.toAffine rfl ?_)) <| .cons (.jac (.generate (r := 0) rfl ?_ (canon1 _) (by decide) (by decide) (by decide))) <|
    .cons (.hom (.mul rfl ?_ (canon1 _) trivial)) .nil⟩, by decide +kernel⟩
  all_goals
    intro a ha
    simp only [List.mem_cons, List.mem_append, List.not_mem_nil, or_false, or_self] at ha
    subst ha
    exact ⟨0, rfl⟩

/-- The generator of a copy whose original has ended cannot be converted. -/
theorem ofAffine_dangling {w : World} {q : LPt} {a c : Ptr} (hc : q.curve = some c) (hp : q.x.pm = some a) (ha : w[a]? = some none) (hx : q.x.v.toInt ≠ 1) :
    LJPt.ofAffine w q = .error .ub ∧ LHPt.ofAffine w q = .error .ub := by
  have h1 : q.x.v.isOne = false := by
    rw [← Bool.not_eq_true]
    intro h
    obtain ⟨h3, h4⟩ := isOne_eq h
    exact hx (by rw [h3, h4])
  have h := isIdentity_dangling hc hp h1 ha
  constructor
  · unfold LJPt.ofAffine; rw [h]; rfl
  · unfold LHPt.ofAffine; rw [h]; rfl

theorem kinds_dangling (H : DomainOk cap D C G) {t : List StmtJ} {e : EnvJ (C.Pt P)} (h8 : ∀ d, .jac d ∈ t → 8 < P) (h : StepsJ cap C G ⟨⟨[], []⟩, [], []⟩ t e) {c r r' : Nat}
    (hc : e.e.objs[c]? = some (⟨true, r⟩ : Obj)) (hr : e.e.objs[r]? = some (⟨false, r'⟩ : Obj)) (hx : C.gx.v.toInt ≠ 1)
    {k : Big} (ck : k.Canon) (h1 : 0 < k.toInt) (h2 : k.toInt < C.n.toInt) :
    runJ cap D ⟨⟨[], []⟩, [], []⟩ (t ++ [.jac (.generate c k)]) = .error .ub ∧ runJ cap D ⟨⟨[], []⟩, [], []⟩ (t ++ [.hom (.generate c k)]) = .error .ub := by
  obtain ⟨s, e1, I⟩ := runJ_spec H h8 h ⟨⟨[], []⟩, [], []⟩ ⟨holds_init C, .nil, .nil⟩
  obtain ⟨kc, w1, w2, w3⟩ := I.base.get hc
  have en : kc.n = C.n := congrArg Curve.n w2
  have g := ofAffine_dangling (w := s.s.w) (q := genAt C r) (a := r) (c := r) rfl rfl (I.base.dead _ _ hr) hx
  rw [runJ_append, runJ_append, e1, ok_bind, ok_bind]
  simp only [runJ, StJ.step, StJ.jstep, StJ.hstep, World.generateJ, World.generateH]
  rw [w1, ok_bind, ok_bind, en, check_true ((inRange_iff ck H.n).2 ⟨h1, h2⟩), ok_bind, ok_bind, w3, g.1, g.2]
  exact ⟨rfl, rfl⟩

/-- **C82, copies, Jacobian points.** In every state reached by an allowed program: when an object lives but the object has ended that it was copied
from, `generate_point` of a Jacobian point through it is undefined behaviour for every scalar in range, provided the first coordinate of the
generator is not one.  For affine points the scalar one is an exception (`C82_dangling`); here it is not. -/
theorem C82_jacobian_dangling (H : DomainOk cap D C G) {t : List StmtJ} {e : EnvJ (C.Pt P)} (h8 : ∀ d, .jac d ∈ t → 8 < P) (h : StepsJ cap C G ⟨⟨[], []⟩, [], []⟩ t e) {c r r' : Nat}
    (hc : e.e.objs[c]? = some (⟨true, r⟩ : Obj)) (hr : e.e.objs[r]? = some (⟨false, r'⟩ : Obj)) (hx : C.gx.v.toInt ≠ 1)
    {k : Big} (ck : k.Canon) (h1 : 0 < k.toInt) (h2 : k.toInt < C.n.toInt) :
    runJ cap D ⟨⟨[], []⟩, [], []⟩ (t ++ [.jac (.generate c k)]) = .error .ub := (kinds_dangling H h8 h hc hr hx ck h1 h2).1

/-- **C82, copies, homogeneous points.** The same for homogeneous points. -/
theorem C82_homogeneous_dangling (H : DomainOk cap D C G) {t : List StmtJ} {e : EnvJ (C.Pt P)} (h8 : ∀ d, .jac d ∈ t → 8 < P) (h : StepsJ cap C G ⟨⟨[], []⟩, [], []⟩ t e) {c r r' : Nat}
    (hc : e.e.objs[c]? = some (⟨true, r⟩ : Obj)) (hr : e.e.objs[r]? = some (⟨false, r'⟩ : Obj)) (hx : C.gx.v.toInt ≠ 1)
    {k : Big} (ck : k.Canon) (h1 : 0 < k.toInt) (h2 : k.toInt < C.n.toInt) :
    runJ cap D ⟨⟨[], []⟩, [], []⟩ (t ++ [.hom (.generate c k)]) = .error .ub := (kinds_dangling H h8 h hc hr hx ck h1 h2).2

/-- A copy outlives its original. -/
example : (∃ e, StepsJ (some 2) ex17z G17z ⟨⟨[], []⟩, [], []⟩ [.aff .newCurve, .aff (.copyCurve 0), .aff (.endCurve 0)] e ∧ e.e.objs[1]? = some ⟨true, 0⟩ ∧
      e.e.objs[0]? = some ⟨false, 0⟩) ∧ ex17z.gx.v.toInt ≠ 1 ∧ 0 < (ofInt32 1).toInt ∧ (ofInt32 1).toInt < ex17z.n.toInt :=
  ⟨⟨_, .cons (.aff .newCurve) <| .cons (.aff (.copyCurve (r := 0) rfl)) <| .cons (.aff (.endCurve (r := 0) rfl)) .nil, rfl, rfl⟩, by decide⟩

/-- `is_zero` of an element follows the pointer to the modulus unless the value is one. -/
theorem isZero_dangling {w : World} {z : LFe} {a : Ptr} (hp : z.pm = some a) (ha : w[a]? = some none) (hz : z.v.toInt ≠ 1) : z.isZero w = .error .ub := by
  have h1 : z.v.isOne = false := by
    rw [← Bool.not_eq_true]
    intro h
    obtain ⟨h3, h4⟩ := isOne_eq h
    exact hz (by rw [h3, h4])
  have h := isIdentity_dangling (w := w) (q := ⟨some 0, z, z⟩) (c := 0) rfl hp h1 ha
  cases e : z.isZero w with
  | error x =>
    simp only [LPt.isIdentity, e] at h
    exact h
  | ok b => cases b <;> simp [LPt.isIdentity, e] at h <;> cases h

/-- **C82, Jacobian points left behind.** Every operation on a Jacobian point is undefined behaviour once the object has ended that holds the modulus
of its third coordinate, provided this coordinate is not one: converted, as left operand of a sum, on either side of a difference, negated, doubled. -/
theorem C82_jacobian_left_behind {w : World} {q : LJPt} {a c : Ptr} (hc : q.curve = some c) (hp : q.z.pm = some a) (ha : w[a]? = some none) (hz : q.z.v.toInt ≠ 1) :
    q.toAffine cap w = .error .ub ∧ (∀ p, q.add cap w p = .error .ub) ∧ q.inverted cap w = .error .ub ∧ q.doubled cap w = .error .ub ∧
    ∀ p : LJPt, p.sub cap w q = .error .ub := by
  have h : q.isIdentity w = .error .ub := by unfold LJPt.isIdentity; rw [hc]; exact isZero_dangling hp ha hz
  have inv : q.inverted cap w = .error .ub := by unfold LJPt.inverted; rw [h]; rfl
  refine ⟨?_, fun p => ?_, inv, ?_, fun p => ?_⟩
  · unfold LJPt.toAffine; rw [h]; rfl
  · unfold LJPt.add; rw [h]; rfl
  · unfold LJPt.doubled; rw [h]; rfl
  · unfold LJPt.sub; rw [inv]; rfl

/-- **C82, homogeneous points left behind.** The same for homogeneous points, and for their multiples with any scalar but one. -/
theorem C82_homogeneous_left_behind {w : World} {q : LHPt} {a c : Ptr} (hc : q.curve = some c) (hp : q.z.pm = some a) (ha : w[a]? = some none) (hz : q.z.v.toInt ≠ 1) :
    q.toAffine cap w = .error .ub ∧ (∀ p, q.add cap w p = .error .ub) ∧ q.inverted cap w = .error .ub ∧ q.doubled cap w = .error .ub ∧
    (∀ p : LHPt, p.sub cap w q = .error .ub) ∧ ∀ k : Big, k.Canon → k.toInt ≠ 1 → q.mul cap w k = .error .ub := by
  have h : q.isIdentity w = .error .ub := by unfold LHPt.isIdentity; rw [hc]; exact isZero_dangling hp ha hz
  have inv : q.inverted cap w = .error .ub := by unfold LHPt.inverted; rw [h]; rfl
  refine ⟨?_, fun p => ?_, inv, ?_, fun p => ?_, fun k ck hk => ?_⟩
  · unfold LHPt.toAffine; rw [h]; rfl
  · unfold LHPt.add; rw [h]; rfl
  · unfold LHPt.doubled; rw [h]; rfl
  · unfold LHPt.sub; rw [inv]; rfl
  · have : k.isOne = false := by rw [← Bool.not_eq_true, isOne_iff ck]; exact hk
    unfold LHPt.mul
    rw [this, h]; rfl

/-- The double of the generator (5,1) of an object that has ended: z = 2. -/
example : (⟨some 0, ⟨ofInt32 7, some 0⟩, ⟨ofInt32 7, some 0⟩, ⟨ofInt32 2, some 0⟩⟩ : LJPt).curve = some 0 ∧ ([none] : World)[0]? = some none ∧ (ofInt32 2).toInt ≠ 1 := by decide

/-- **C82, the first double.** A program that ends the only object between two statements on the double of a point: undefined behaviour in both kinds;
the same program without the end of the object runs. -/
theorem C82_kinds_end_wrong :
    runJ (some 2) par17 ⟨⟨[], []⟩, [], []⟩ [.aff .newCurve, .aff (.base 0), .jac (.ofAffine 0), .jac (.dbl 0), .aff (.endCurve 0), .jac (.toAffine 1)] = .error .ub ∧
    runJ (some 2) par17 ⟨⟨[], []⟩, [], []⟩ [.aff .newCurve, .aff (.base 0), .hom (.ofAffine 0), .hom (.dbl 0), .aff (.endCurve 0), .hom (.toAffine 1)] = .error .ub ∧
    (runJ (some 2) par17 ⟨⟨[], []⟩, [], []⟩ [.aff .newCurve, .aff (.base 0), .jac (.ofAffine 0), .jac (.dbl 0), .jac (.toAffine 1), .hom (.ofAffine 0), .hom (.dbl 0),
      .hom (.toAffine 1)]).map (·.s.pts) = .ok [⟨some 0, ⟨ofInt32 5, some 0⟩, ⟨ofInt32 1, some 0⟩⟩, ⟨some 0, ⟨ofInt32 6, some 0⟩, ⟨ofInt32 3, some 0⟩⟩,
        ⟨some 0, ⟨ofInt32 6, some 0⟩, ⟨ofInt32 3, some 0⟩⟩] := by
  refine ⟨?_, ?_, by decide +kernel⟩
  · have h : (runJ (some 2) par17 ⟨⟨[], []⟩, [], []⟩ [.aff .newCurve, .aff (.base 0), .jac (.ofAffine 0), .jac (.dbl 0), .aff (.endCurve 0), .jac (.toAffine 1)]).map
        (fun s => s.s.pts) = .error .ub := by decide +kernel
    revert h
    generalize runJ _ _ _ _ = x
    cases x <;> intro h <;> first | (cases h; rfl) | cases h
  · have h : (runJ (some 2) par17 ⟨⟨[], []⟩, [], []⟩ [.aff .newCurve, .aff (.base 0), .hom (.ofAffine 0), .hom (.dbl 0), .aff (.endCurve 0), .hom (.toAffine 1)]).map
        (fun s => s.s.pts) = .error .ub := by decide +kernel
    revert h
    generalize runJ _ _ _ _ = x
    cases x <;> intro h <;> first | (cases h; rfl) | cases h

end
end Ack.Props
