import Verif.Spec.LifeJ
import Verif.Proof.Life
/-!
# Lifetimes, Jacobian and homogeneous points: the pointer model refines the value model while the objects live
-/
namespace Ack.Life
open Big

def JR (C : Curve) (R : List Ptr) (a : LJPt) (b : JPt) : Prop := erJ C a = b ∧ a.refs ⊆ R

theorem JR.x {C : Curve} {R : List Ptr} {a : LJPt} {b : JPt} (h : JR C R a b) : FR C R a.x b.x :=
  ⟨congrArg JPt.x h.1, fun t ht => h.2 (by unfold LJPt.refs; simp [ht])⟩

theorem JR.y {C : Curve} {R : List Ptr} {a : LJPt} {b : JPt} (h : JR C R a b) : FR C R a.y b.y :=
  ⟨congrArg JPt.y h.1, fun t ht => h.2 (by unfold LJPt.refs; simp [ht])⟩

theorem JR.z {C : Curve} {R : List Ptr} {a : LJPt} {b : JPt} (h : JR C R a b) : FR C R a.z b.z :=
  ⟨congrArg JPt.z h.1, fun t ht => h.2 (by unfold LJPt.refs; simp [ht])⟩

theorem JR.c {C : Curve} {R : List Ptr} {a : LJPt} {b : JPt} (h : JR C R a b) : (a.curve.map fun _ => C) = b.curve ∧ a.curve.toList ⊆ R :=
  ⟨congrArg JPt.curve h.1, fun t ht => h.2 (by unfold LJPt.refs; simp only [List.mem_append]; exact .inl (.inl (.inl ht)))⟩

def HR (C : Curve) (R : List Ptr) (a : LHPt) (b : PPt) : Prop := erH C a = b ∧ a.refs ⊆ R

theorem HR.x {C : Curve} {R : List Ptr} {a : LHPt} {b : PPt} (h : HR C R a b) : FR C R a.x b.x :=
  ⟨congrArg PPt.x h.1, fun t ht => h.2 (by unfold LHPt.refs; simp [ht])⟩

theorem HR.y {C : Curve} {R : List Ptr} {a : LHPt} {b : PPt} (h : HR C R a b) : FR C R a.y b.y :=
  ⟨congrArg PPt.y h.1, fun t ht => h.2 (by unfold LHPt.refs; simp [ht])⟩

theorem HR.z {C : Curve} {R : List Ptr} {a : LHPt} {b : PPt} (h : HR C R a b) : FR C R a.z b.z :=
  ⟨congrArg PPt.z h.1, fun t ht => h.2 (by unfold LHPt.refs; simp [ht])⟩

theorem HR.c {C : Curve} {R : List Ptr} {a : LHPt} {b : PPt} (h : HR C R a b) : (a.curve.map fun _ => C) = b.curve ∧ a.curve.toList ⊆ R :=
  ⟨congrArg PPt.curve h.1, fun t ht => h.2 (by unfold LHPt.refs; simp only [List.mem_append]; exact .inl (.inl (.inl ht)))⟩

theorem PR.c {C : Curve} {R : List Ptr} {a : LPt} {b : APt} (h : PR C R a b) : (a.curve.map fun _ => C) = b.curve ∧ a.curve.toList ⊆ R :=
  ⟨congrArg APt.curve h.1, fun t ht => h.2 (by unfold LPt.refs; simp only [List.mem_append]; exact .inl (.inl ht))⟩

theorem FR.one {C : Curve} {R : List Ptr} {a : LFe} {b : Fe} (h : FR C R a b) : a.v.isOne = b.isOne := by
  unfold Fe.isOne; rw [h.v]

theorem mk_jr {C : Curve} {R : List Ptr} {a : Ptr} (ha : a ∈ R) {x y z : LFe} {X Y Z : Fe} (hx : FR C R x X) (hy : FR C R y Y) (hz : FR C R z Z) :
    JR C R ⟨some a, x, y, z⟩ ⟨some C, X, Y, Z⟩ := by
  obtain ⟨rfl, rx⟩ := hx
  obtain ⟨rfl, ry⟩ := hy
  obtain ⟨rfl, rz⟩ := hz
  refine ⟨rfl, ?_⟩
  intro t ht
  simp only [LJPt.refs, Option.toList_some, List.mem_append, List.mem_singleton] at ht
  rcases ht with ((ht | ht) | ht) | ht
  · exact ht ▸ ha
  · exact rx ht
  · exact ry ht
  · exact rz ht

theorem mk_hr {C : Curve} {R : List Ptr} {a : Ptr} (ha : a ∈ R) {x y z : LFe} {X Y Z : Fe} (hx : FR C R x X) (hy : FR C R y Y) (hz : FR C R z Z) :
    HR C R ⟨some a, x, y, z⟩ ⟨some C, X, Y, Z⟩ := by
  obtain ⟨rfl, rx⟩ := hx
  obtain ⟨rfl, ry⟩ := hy
  obtain ⟨rfl, rz⟩ := hz
  refine ⟨rfl, ?_⟩
  intro t ht
  simp only [LHPt.refs, Option.toList_some, List.mem_append, List.mem_singleton] at ht
  rcases ht with ((ht | ht) | ht) | ht
  · exact ht ▸ ha
  · exact rx ht
  · exact ry ht
  · exact rz ht

theorem mk_fr {C : Curve} {R : List Ptr} {a : Ptr} (ha : a ∈ R) (v : Big) : FR C R ⟨v, some a⟩ ⟨v, some C.p⟩ :=
  ⟨rfl, fun t ht => by
    simp only [LFe.refs, Option.toList_some, List.mem_singleton] at ht
    exact ht ▸ ha⟩

theorem mk_ar {C : Curve} {R : List Ptr} {a : Ptr} (ha : a ∈ R) {x y : LFe} {X Y : Fe} (hx : FR C R x X) (hy : FR C R y Y) :
    PR C R ⟨some a, x, y⟩ ⟨some C, X, Y⟩ := by
  obtain ⟨rfl, rx⟩ := hx
  obtain ⟨rfl, ry⟩ := hy
  refine ⟨rfl, ?_⟩
  intro t ht
  simp only [LPt.refs, Option.toList_some, List.mem_append, List.mem_singleton] at ht
  rcases ht with (ht | ht) | ht
  · exact ht ▸ ha
  · exact rx ht
  · exact ry ht

theorem identity_jr {C : Curve} {R : List Ptr} : JR C R LJPt.identity JPt.identity := ⟨rfl, fun t ht => by cases ht⟩

theorem identity_hr {C : Curve} {R : List Ptr} : HR C R LHPt.identity PPt.identity := ⟨rfl, fun t ht => by cases ht⟩

theorem keeps_inv (cap : Cap) : Keeps (·.inv cap) := by
  rintro ⟨v, _ | p⟩ r h
  · cases h
  · simp only [Fe.inv, Fe.deref, ok_bind] at h
    cases e : modinv cap v p with
    | error e' => rw [e] at h; cases h
    | ok u => rw [e] at h; cases h; rfl

/-- Sequencing behind a choice that agrees. -/
theorem Sim.ite {α β : Type} {r : α → β → Prop} {b : Bool} {x x' : Res α} {y y' : Res β} (h : Sim r x y) (h' : Sim r x' y') :
    Sim r (if b = true then x else x') (if b = true then y else y') := by
  cases b
  · exact h'
  · exact h

section
variable {w : World} {C : Curve} {R : List Ptr} (L : Live w C R) (cap : Cap)
include L

theorem inv_sim {a : LFe} {b : Fe} (h : FR C R a b) : Sim (FR C R) (a.inv cap w) (b.inv cap) := lift_sim L (keeps_inv cap) h

theorem addF_sim {a x : LFe} {b y : Fe} (h : FR C R a b) (hx : FR C R x y) : Sim (FR C R) (a.add cap w x) (b.add cap y) := by
  unfold LFe.add Fe.add
  rw [hx.v]
  exact lift_sim L (keeps_addB cap _) h

theorem bigMul_sim {a : LFe} {b : Fe} (h : FR C R a b) (x : Big) : Sim (FR C R) (LFe.bigMul cap w x a) (Fe.bigMul cap x b) :=
  lift_sim L (keeps_mulB cap x) h

/-- Reading the curve of a point: its address is one of `R`. -/
theorem curve_sim {q : Option Ptr} {r : Option Curve} (h : (q.map fun _ => C) = r ∧ q.toList ⊆ R) :
    Sim (fun a b => a.2 = C ∧ b = C ∧ a.1 ∈ R) (getCurve w q) (curveOf r) := by
  obtain ⟨rfl, hr⟩ := h
  unfold getCurve
  cases q with
  | none => rfl
  | some t =>
    have ht : t ∈ R := hr (by simp)
    obtain ⟨c, e1, e2⟩ := world_curve L ht
    simp only [e1, ok_bind, Option.map_some]
    exact ⟨e2, rfl, ht⟩

theorem isIdentityJ_ok {q : LJPt} {r : JPt} (h : JR C R q r) : q.isIdentity w = .ok r.isIdentity := by
  unfold LJPt.isIdentity JPt.isIdentity
  rw [← h.c.1]
  cases e : q.curve with
  | none => rfl
  | some t => exact isZeroF_ok L h.z

theorem ofAffine_sim {q : LPt} {r : APt} (h : PR C R q r) : Sim (JR C R) (LJPt.ofAffine w q) (JPt.ofAffine r) := by
  unfold LJPt.ofAffine JPt.ofAffine
  rw [isIdentity_ok L h, ok_bind]
  refine Sim.ite ?_ identity_jr
  refine (curve_sim L h.c).bind fun a b ⟨_, e, ha⟩ => ?_
  subst e
  exact mk_jr ha h.x h.y (mk_fr ha _)

theorem toAffine_sim {q : LJPt} {r : JPt} (h : JR C R q r) : Sim (PR C R) (q.toAffine cap w) (r.toAffine cap) := by
  unfold LJPt.toAffine JPt.toAffine
  rw [isIdentityJ_ok L h, ok_bind, h.z.one]
  refine Sim.ite identity_pr (Sim.ite ?_ ?_)
  · refine (curve_sim L h.c).bind fun a b ⟨_, e, ha⟩ => ?_
    subst e
    exact mk_ar ha h.x h.y
  · refine (inv_sim L cap h.z).bind fun _ _ h1 => (sqr_sim L cap h1).bind fun _ _ h2 => (curve_sim L h.c).bind fun a b ⟨_, e, ha⟩ => ?_
    subst e
    exact (mul_sim L cap h.x h2).bind fun _ _ h3 => (mul_sim L cap h.y h2).bind fun _ _ h4 => (mul_sim L cap h4 h1).bind fun _ _ h5 =>
      mk_ar ha h3 h5

theorem invertedJ_sim {q : LJPt} {r : JPt} (h : JR C R q r) : Sim (JR C R) (q.inverted cap w) (r.inverted cap) := by
  unfold LJPt.inverted JPt.inverted
  rw [isIdentityJ_ok L h, ok_bind]
  refine Sim.ite h ?_
  refine (curve_sim L h.c).bind fun a b ⟨_, e, ha⟩ => ?_
  subst e
  exact (neg_sim L cap h.y).bind fun _ _ hy => mk_jr ha h.x hy h.z

theorem tangent_sim {q : LJPt} {r : JPt} (h : JR C R q r) : Sim (FR C R) (q.tangent cap w) (r.tangent cap) := by
  unfold LJPt.tangent JPt.tangent
  refine (curve_sim L h.c).bind fun a b ⟨e1, e, ha⟩ => ?_
  obtain ⟨a, c⟩ := a
  simp only at e1
  subst e1; subst e
  simp only [h.z.one]
  refine Sim.ite ?_ (Sim.ite ?_ ?_)
  · exact (sqr_sim L cap h.x).bind fun _ _ h1 => mulS_sim L cap h1 3
  · exact (Sim.ite (show Sim (FR _ R) (.ok q.z) (.ok r.z) from h.z) (sqr_sim L cap h.z)).bind fun _ _ h1 => (sub_sim L cap h.x h1).bind fun _ _ h2 =>
      (mulS_sim L cap h2 3).bind fun _ _ h3 => (addF_sim L cap h.x h1).bind fun _ _ h4 => mul_sim L cap h3 h4
  · exact (Sim.ite (show Sim (FR _ R) (.ok q.z) (.ok r.z) from h.z) ((sqr_sim L cap h.z).bind fun _ _ h0 => sqr_sim L cap h0)).bind fun _ _ h1 =>
      (sqr_sim L cap h.x).bind fun _ _ h2 => (mulS_sim L cap h2 3).bind fun _ _ h3 => (bigMul_sim L cap h1 _).bind fun _ _ h4 => addF_sim L cap h3 h4

theorem doubledJ_sim {q : LJPt} {r : JPt} (h : JR C R q r) : Sim (JR C R) (q.doubled cap w) (r.doubled cap) := by
  unfold LJPt.doubled JPt.doubled
  rw [isIdentityJ_ok L h, ok_bind]
  unfold Fe.eqS
  rw [h.y.v]
  refine Sim.ite h (Sim.ite identity_jr ?_)
  refine (tangent_sim L cap h).bind fun _ _ m => (sqr_sim L cap h.y).bind fun _ _ y2 => (mulS_sim L cap h.x 4).bind fun _ _ x4 =>
    (mul_sim L cap x4 y2).bind fun _ _ s => (sqr_sim L cap m).bind fun _ _ m2 => (mulS_sim L cap s 2).bind fun _ _ s2 =>
    (sub_sim L cap m2 s2).bind fun _ _ x3 => (sub_sim L cap s x3).bind fun _ _ d => (mul_sim L cap m d).bind fun _ _ md =>
    (sqr_sim L cap y2).bind fun _ _ y4 => (mulS_sim L cap y4 8).bind fun _ _ y8 => (sub_sim L cap md y8).bind fun _ _ y3 =>
    (mulS_sim L cap h.y 2).bind fun _ _ dy => (mul_sim L cap dy h.z).bind fun _ _ z3 => (curve_sim L h.c).bind fun a b ⟨_, e, ha⟩ => ?_
  subst e
  exact mk_jr ha x3 y3 z3

theorem addex_sim {p q : LJPt} {a b : JPt} (hp : JR C R p a) (hq : JR C R q b) {u1 u2 s1 s2 : LFe} {U1 U2 S1 S2 : Fe} (hu1 : FR C R u1 U1)
    (hu2 : FR C R u2 U2) (hs1 : FR C R s1 S1) (hs2 : FR C R s2 S2) :
    Sim (JR C R) (p.addex cap w q u1 u2 s1 s2) (a.addex cap b U1 U2 S1 S2) := by
  unfold LJPt.addex JPt.addex
  refine (sub_sim L cap hu2 hu1).bind fun H H' hH => (sub_sim L cap hs2 hs1).bind fun Q Q' hQ => ?_
  rw [isZeroF_ok L hH, ok_bind, isZeroF_ok L hQ, ok_bind, hp.z.one, hq.z.one]
  refine Sim.ite (Sim.ite (doubledJ_sim L cap hp) identity_jr) ?_
  refine (sqr_sim L cap hH).bind fun _ _ H2 => (mul_sim L cap H2 hH).bind fun _ _ H3 => (mul_sim L cap hu1 H2).bind fun _ _ V =>
    (sqr_sim L cap hQ).bind fun _ _ R2 => (sub_sim L cap R2 H3).bind fun _ _ t => (mulS_sim L cap V 2).bind fun _ _ V2 =>
    (sub_sim L cap t V2).bind fun _ _ X3 => (sub_sim L cap V X3).bind fun _ _ d => (mul_sim L cap hQ d).bind fun _ _ rd =>
    (mul_sim L cap hs1 H3).bind fun _ _ sh => (sub_sim L cap rd sh).bind fun _ _ Y3 =>
    (Sim.ite (mul_sim L cap hH hp.z) (show Sim (FR C R) (.ok H) (.ok H') from hH)).bind fun Z Z' hZ =>
    (Sim.ite (mul_sim L cap hZ hq.z) (show Sim (FR C R) (.ok Z) (.ok Z') from hZ)).bind fun _ _ Z3 =>
    (curve_sim L hp.c).bind fun a b ⟨_, e, ha⟩ => ?_
  subst e
  exact mk_jr ha X3 Y3 Z3

theorem addZ2One_sim {p q : LJPt} {a b : JPt} (hp : JR C R p a) (hq : JR C R q b) : Sim (JR C R) (p.addZ2One cap w q) (a.addZ2One cap b) :=
  (sqr_sim L cap hp.z).bind fun _ _ z2 => (mul_sim L cap hq.x z2).bind fun _ _ u2 => (mul_sim L cap hq.y z2).bind fun _ _ s =>
    (mul_sim L cap s hp.z).bind fun _ _ s2 => addex_sim L cap hp hq hp.x u2 hp.y s2

theorem addNe_sim {p q : LJPt} {a b : JPt} (hp : JR C R p a) (hq : JR C R q b) : Sim (JR C R) (p.addNe cap w q) (a.addNe cap b) :=
  (sqr_sim L cap hp.z).bind fun _ _ pz => (sqr_sim L cap hq.z).bind fun _ _ qz => (mul_sim L cap hp.x qz).bind fun _ _ u1 =>
    (mul_sim L cap hq.x pz).bind fun _ _ u2 => (mul_sim L cap hp.y qz).bind fun _ _ t1 => (mul_sim L cap t1 hq.z).bind fun _ _ s1 =>
    (mul_sim L cap hq.y pz).bind fun _ _ t2 => (mul_sim L cap t2 hp.z).bind fun _ _ s2 => addex_sim L cap hp hq u1 u2 s1 s2

theorem addJ_sim {p q : LJPt} {a b : JPt} (hp : JR C R p a) (hq : JR C R q b) : Sim (JR C R) (p.add cap w q) (a.add cap b) := by
  unfold LJPt.add JPt.add
  rw [isIdentityJ_ok L hp, ok_bind, isIdentityJ_ok L hq, ok_bind, hp.z.one, hq.z.one]
  exact Sim.ite hq (Sim.ite hp (Sim.ite (addex_sim L cap hp hq hp.x hq.x hp.y hq.y) (Sim.ite (addZ2One_sim L cap hq hp)
    (Sim.ite (addZ2One_sim L cap hp hq) (addNe_sim L cap hp hq)))))

theorem subJ_sim {p q : LJPt} {a b : JPt} (hp : JR C R p a) (hq : JR C R q b) : Sim (JR C R) (p.sub cap w q) (a.sub cap b) :=
  (invertedJ_sim L cap hq).bind fun _ _ h => addJ_sim L cap hp h

theorem nafLoop_sim {p n : LJPt} {a m : JPt} (hp : JR C R p a) (hn : JR C R n m) : ∀ (ds : List (BitVec 8)) {r : LJPt} {s : JPt}, JR C R r s →
    Sim (JR C R) (LJPt.nafLoop cap w p n ds r) (JPt.nafLoop cap a m ds s) := by
  intro ds
  induction ds with
  | nil => exact fun h => h
  | cons d t ih =>
    intro r s h
    unfold LJPt.nafLoop JPt.nafLoop
    refine (doubledJ_sim L cap h).bind fun r' s' h' => Sim.bind (r := JR C R) ?_ fun _ _ h2 => ih h2
    split
    · exact addJ_sim L cap h' hp
    · split
      · exact addJ_sim L cap h' hn
      · exact h'

theorem mulNNJ_sim {q : LJPt} {r : JPt} (h : JR C R q r) (s : Big) : Sim (JR C R) (q.mulNN cap w s) (r.mulNN cap s) := by
  unfold LJPt.mulNN JPt.mulNN
  cases s.isOne
  · rw [isIdentityJ_ok L h]
    simp only [Bool.false_eq_true, if_false, Bool.false_or, ok_bind]
    refine Sim.ite h (Sim.ite identity_jr ?_)
    refine (invertedJ_sim L cap h).bind fun _ _ hn => (curve_sim L h.c).bind fun a b ⟨_, e, ha⟩ => ?_
    subst e
    exact Sim.bind (r := Eq) (by cases toRnaf cap s <;> rfl) fun ds ds' e => e ▸ nafLoop_sim L cap h hn ds (mk_jr ha (mk_fr ha _) (mk_fr ha _) (mk_fr ha _))
  · exact h

theorem mulJ_sim {q : LJPt} {r : JPt} (h : JR C R q r) (s : Big) : Sim (JR C R) (q.mul cap w s) (r.mul cap s) := by
  unfold LJPt.mul JPt.mul
  cases s.isOne
  · rw [isIdentityJ_ok L h]
    simp only [Bool.false_eq_true, if_false, Bool.false_or, ok_bind]
    exact Sim.ite h (Sim.ite identity_jr (Sim.ite ((invertedJ_sim L cap h).bind fun _ _ hi => mulNNJ_sim L cap hi _) (mulNNJ_sim L cap h _)))
  · exact h

theorem isIdentityH_ok {q : LHPt} {r : PPt} (h : HR C R q r) : q.isIdentity w = .ok r.isIdentity := by
  unfold LHPt.isIdentity PPt.isIdentity
  rw [← h.c.1]
  cases e : q.curve with
  | none => rfl
  | some t => exact isZeroF_ok L h.z

theorem ofAffineH_sim {q : LPt} {r : APt} (h : PR C R q r) : Sim (HR C R) (LHPt.ofAffine w q) (PPt.ofAffine r) := by
  unfold LHPt.ofAffine PPt.ofAffine
  rw [isIdentity_ok L h, ok_bind]
  refine Sim.ite ?_ identity_hr
  refine (curve_sim L h.c).bind fun a b ⟨_, e, ha⟩ => ?_
  subst e
  exact mk_hr ha h.x h.y (mk_fr ha _)

theorem toAffineH_sim {q : LHPt} {r : PPt} (h : HR C R q r) : Sim (PR C R) (q.toAffine cap w) (r.toAffine cap) := by
  unfold LHPt.toAffine PPt.toAffine
  rw [isIdentityH_ok L h, ok_bind, h.z.one]
  refine Sim.ite identity_pr (Sim.ite ?_ ?_)
  · refine (curve_sim L h.c).bind fun a b ⟨_, e, ha⟩ => ?_
    subst e
    exact mk_ar ha h.x h.y
  · refine (inv_sim L cap h.z).bind fun _ _ h1 => (curve_sim L h.c).bind fun a b ⟨_, e, ha⟩ => ?_
    subst e
    exact (mul_sim L cap h.x h1).bind fun _ _ h3 => (mul_sim L cap h.y h1).bind fun _ _ h4 => mk_ar ha h3 h4

theorem invertedH_sim {q : LHPt} {r : PPt} (h : HR C R q r) : Sim (HR C R) (q.inverted cap w) (r.inverted cap) := by
  unfold LHPt.inverted PPt.inverted
  rw [isIdentityH_ok L h, ok_bind]
  refine Sim.ite h ?_
  refine (curve_sim L h.c).bind fun a b ⟨_, e, ha⟩ => ?_
  subst e
  exact (neg_sim L cap h.y).bind fun _ _ hy => mk_hr ha h.x hy h.z

theorem tangentH_sim {q : LHPt} {r : PPt} (h : HR C R q r) : Sim (FR C R) (q.tangent cap w) (r.tangent cap) := by
  unfold LHPt.tangent PPt.tangent
  refine (sqr_sim L cap h.x).bind fun _ _ x2 => (curve_sim L h.c).bind fun a b ⟨e1, e, ha⟩ => ?_
  obtain ⟨a, c⟩ := a
  simp only at e1
  subst e1; subst e
  refine Sim.ite (mulS_sim L cap x2 3) (Sim.ite ?_ ?_)
  · exact (sqr_sim L cap h.z).bind fun _ _ h1 => (sub_sim L cap x2 h1).bind fun _ _ h2 => mulS_sim L cap h2 3
  · exact (mulS_sim L cap x2 3).bind fun _ _ t => (sqr_sim L cap h.z).bind fun _ _ z2 => (bigMul_sim L cap z2 _).bind fun _ _ az => addF_sim L cap t az

theorem doubledH_sim {q : LHPt} {r : PPt} (h : HR C R q r) : Sim (HR C R) (q.doubled cap w) (r.doubled cap) := by
  unfold LHPt.doubled PPt.doubled
  rw [isIdentityH_ok L h, ok_bind]
  unfold Fe.eqS
  rw [h.y.v]
  cases r.isIdentity
  · simp only [Bool.false_eq_true, if_false, Bool.false_or]
    refine Sim.ite identity_hr ?_
    refine (tangentH_sim L cap h).bind fun _ _ t => (mulS_sim L cap h.y 2).bind fun _ _ dy => (mul_sim L cap dy h.z).bind fun _ _ u =>
      (mul_sim L cap u h.x).bind fun _ _ ux => (mul_sim L cap ux dy).bind fun _ _ v => (sqr_sim L cap t).bind fun _ _ t2 =>
      (mulS_sim L cap v 2).bind fun _ _ v2 => (sub_sim L cap t2 v2).bind fun _ _ m => (mul_sim L cap u m).bind fun _ _ rx =>
      (sqr_sim L cap u).bind fun _ _ u2 => (sub_sim L cap v m).bind fun _ _ e => (mul_sim L cap t e).bind fun _ _ te =>
      (sqr_sim L cap h.y).bind fun _ _ y2 => (mul_sim L cap u2 y2).bind fun _ _ k => (mulS_sim L cap k 2).bind fun _ _ k2 =>
      (sub_sim L cap te k2).bind fun _ _ ry => (mul_sim L cap u2 u).bind fun _ _ rz => (curve_sim L h.c).bind fun a b ⟨_, e, ha⟩ => ?_
    subst e
    exact mk_hr ha rx ry rz
  · exact identity_hr

theorem addH_sim {p q : LHPt} {a b : PPt} (hp : HR C R p a) (hq : HR C R q b) : Sim (HR C R) (p.add cap w q) (a.add cap b) := by
  unfold LHPt.add PPt.add
  rw [isIdentityH_ok L hp, ok_bind, isIdentityH_ok L hq, ok_bind]
  refine Sim.ite hq (Sim.ite hp ?_)
  refine (mul_sim L cap hp.y hq.z).bind fun _ _ t0 => (mul_sim L cap hq.y hp.z).bind fun _ _ t1 => (mul_sim L cap hp.x hq.z).bind fun _ _ u0 =>
    (mul_sim L cap hq.x hp.z).bind fun _ _ u1 => ?_
  unfold Fe.eq
  rw [u0.v, u1.v, t0.v, t1.v]
  refine Sim.ite (Sim.ite (doubledH_sim L cap hp) identity_hr) ?_
  refine (sub_sim L cap t0 t1).bind fun _ _ t => (sub_sim L cap u0 u1).bind fun _ _ u => (sqr_sim L cap u).bind fun _ _ u2 =>
    (mul_sim L cap u u2).bind fun _ _ u3 => (mul_sim L cap hp.z hq.z).bind fun _ _ v => (sqr_sim L cap t).bind fun _ _ t2 =>
    (mul_sim L cap t2 v).bind fun _ _ tv => (addF_sim L cap u0 u1).bind fun _ _ us => (mul_sim L cap u2 us).bind fun _ _ uu =>
    (sub_sim L cap tv uu).bind fun _ _ m => (mul_sim L cap u m).bind fun _ _ rx => (mul_sim L cap u0 u2).bind fun _ _ k1 =>
    (sub_sim L cap k1 m).bind fun _ _ k2 => (mul_sim L cap t k2).bind fun _ _ k3 => (mul_sim L cap t0 u3).bind fun _ _ l =>
    (sub_sim L cap k3 l).bind fun _ _ ry => (mul_sim L cap u3 v).bind fun _ _ rz => (curve_sim L hp.c).bind fun a b ⟨_, e, ha⟩ => ?_
  subst e
  exact mk_hr ha rx ry rz

theorem subH_sim {p q : LHPt} {a b : PPt} (hp : HR C R p a) (hq : HR C R q b) : Sim (HR C R) (p.sub cap w q) (a.sub cap b) :=
  (invertedH_sim L cap hq).bind fun _ _ h => addH_sim L cap hp h

theorem ladderH_sim : ∀ (f : Nat) (s : Big) {p q : LHPt} {a b : PPt}, HR C R p a → HR C R q b →
    Sim (HR C R) (ladder (LHPt.add cap w) (LHPt.doubled cap w) f p q s) (ladder (PPt.add cap) (PPt.doubled cap) f a b s) := by
  intro f
  induction f with
  | zero => intro s p q a b _ _; rfl
  | succ f ih =>
    intro s p q a b hp hq
    unfold ladder
    split
    · refine Sim.bind (r := HR C R) ?_ fun r R' hr => (doubledH_sim L cap hq).bind fun _ _ ht => ih _ hr ht
      split
      · exact addH_sim L cap hp hq
      · exact hp
    · exact hp

theorem mulNNH_sim {q : LHPt} {r : PPt} (h : HR C R q r) (s : Big) : Sim (HR C R) (q.mulNN cap w s) (r.mulNN cap s) := by
  unfold LHPt.mulNN PPt.mulNN
  cases s.isOne
  · rw [isIdentityH_ok L h]
    simp only [Bool.false_eq_true, if_false, Bool.false_or, ok_bind]
    exact Sim.ite h (Sim.ite identity_hr (ladderH_sim L cap _ _ identity_hr h))
  · exact h

theorem mulH_sim {q : LHPt} {r : PPt} (h : HR C R q r) (s : Big) : Sim (HR C R) (q.mul cap w s) (r.mul cap s) := by
  unfold LHPt.mul PPt.mul
  cases s.isOne
  · rw [isIdentityH_ok L h]
    simp only [Bool.false_eq_true, if_false, Bool.false_or, ok_bind]
    exact Sim.ite h (Sim.ite identity_hr (Sim.ite ((invertedH_sim L cap h).bind fun _ _ hi => mulNNH_sim L cap hi _) (mulNNH_sim L cap h _)))
  · exact h

end

/-! ## Programs -/

section
variable {P : ℕ} [Fact P.Prime] {cap : Cap} {D : Params} {C : Curve} {G : C.Pt P}

structure HoldsJ (C : Curve) (s : StJ) (e : EnvJ (C.Pt P)) : Prop where
  base : Holds C s.s e.e
  js : List.Forall₂ (fun q x => (erJ C q).Rep C x.1 ∧ q.refs ⊆ x.2) s.js e.js
  hs : List.Forall₂ (fun q x => (erH C q).Rep C x.1 ∧ q.refs ⊆ x.2) s.hs e.hs

theorem HoldsJ.jpt {s : StJ} {e : EnvJ (C.Pt P)} (I : HoldsJ C s e) {i : Nat} {A : C.Pt P} {R : List Nat} (h : e.js[i]? = some (A, R)) :
    ∃ q, s.jpt i = .ok q ∧ (erJ C q).Rep C A ∧ q.refs ⊆ R := by
  have hl := I.js.length_eq
  obtain ⟨hi, ev⟩ := List.getElem?_eq_some_iff.1 h
  have := (List.forall₂_iff_get.1 I.js).2 i (by omega) hi
  simp only [List.get_eq_getElem, ev] at this
  refine ⟨s.js[i], ?_, this⟩
  unfold StJ.jpt
  rw [List.getElem?_eq_getElem (by omega)]

theorem finish_j {s : StJ} {e : EnvJ (C.Pt P)} (I : HoldsJ C s e) {R : List Nat} {x : Res LJPt} {y : Res JPt}
    (h : Sim (JR C R) x y) {A : C.Pt P} (hy : ∃ r, y = .ok r ∧ r.Rep C A) :
    ∃ s', (do .ok (s.pushJ (← x))) = (.ok s' : Res StJ) ∧ HoldsJ C s' ⟨e.e, e.js ++ [(A, R)], e.hs⟩ := by
  obtain ⟨r, e1, hr⟩ := hy
  obtain ⟨q, e2, h1, h2⟩ := h.ok e1
  have := List.rel_append (R := fun q (x : C.Pt P × List Nat) => (erJ C q).Rep C x.1 ∧ q.refs ⊆ x.2) I.js
    (.cons (show (erJ C q).Rep C ((A, R) : C.Pt P × List Nat).1 ∧ q.refs ⊆ ((A, R) : C.Pt P × List Nat).2 from ⟨h1 ▸ hr, h2⟩) .nil)
  exact ⟨s.pushJ q, by rw [e2]; rfl, ⟨I.base, this, I.hs⟩⟩

theorem jstep_spec (H : DomainOk cap D C G) (h8 : 8 < P) {s : StJ} {e : EnvJ (C.Pt P)} {c : PStmt} {pts' l' : List (C.Pt P × List Nat)} (I : HoldsJ C s e)
    (h : PStep (fun k => cap.fits (k.ws.length + 1) = true) C G e.e e.js c pts' l') :
    ∃ s', s.jstep cap c = .ok s' ∧ HoldsJ C s' ⟨⟨e.e.objs, pts'⟩, l', e.hs⟩ := by
  have K := H.K
  cases h with
  | ofAffine hi hR =>
    obtain ⟨a, e1, r1, f1⟩ := I.base.pt hi
    simp only [StJ.jstep]
    rw [e1, ok_bind]
    exact finish_j I (ofAffine_sim (I.base.liveR hR) ⟨rfl, f1⟩) (JPt.ofAffine_spec K r1)
  | toAffine hi hR =>
    obtain ⟨a, e1, r1, f1⟩ := I.jpt hi
    simp only [StJ.jstep]
    rw [e1, ok_bind]
    obtain ⟨r, e2, hr⟩ := JPt.toAffine_spec K r1
    obtain ⟨q, e3, h1, h2⟩ := (toAffine_sim (I.base.liveR hR) cap ⟨rfl, f1⟩).ok e2
    exact ⟨⟨s.s.push q, s.js, s.hs⟩, by rw [e3]; rfl, I.base.push (h1 ▸ hr) h2, I.js, I.hs⟩
  | @generate c r k h hr ck h0 h1 fk =>
    obtain ⟨kc, e1, e2, e3⟩ := I.base.get h
    have en : kc.n = C.n := congrArg Curve.n e2
    obtain ⟨q, e4, r4⟩ := JPt.ofAffine_spec K H.g
    refine finish_j I (R := [r]) (x := s.s.w.generateJ cap c k) (y := JPt.ofAffine C.g >>= fun q => q.mul cap k) ?_ ?_
    · unfold World.generateJ
      rw [e1, ok_bind, en, check_true ((inRange_iff ck H.n).2 ⟨h0, h1⟩), ok_bind, e3]
      exact (ofAffine_sim (I.base.liveR hr) ⟨er_genAt H r, genAt_refs C r⟩).bind fun _ _ hq => mulJ_sim (I.base.liveR hr) cap hq k
    · rw [e4, ok_bind]; exact JPt.mul_spec K h8 r4 ck fk
  | @add i j A B R S hi hj hR hS =>
    obtain ⟨a, e1, r1, f1⟩ := I.jpt hi
    obtain ⟨b, e2, r2, f2⟩ := I.jpt hj
    have L : Live s.s.w C (R ++ S) := I.base.liveR fun t ht => (List.mem_append.1 ht).elim (hR t) (hS t)
    simp only [StJ.jstep]
    rw [e1, ok_bind, e2, ok_bind]
    exact finish_j I (addJ_sim L cap ⟨rfl, fun _ h => List.mem_append_left _ (f1 h)⟩ ⟨rfl, fun _ h => List.mem_append_right _ (f2 h)⟩)
      (JPt.add_spec K h8 r1 r2)
  | @sub i j A B R S hi hj hR hS =>
    obtain ⟨a, e1, r1, f1⟩ := I.jpt hi
    obtain ⟨b, e2, r2, f2⟩ := I.jpt hj
    have L : Live s.s.w C (R ++ S) := I.base.liveR fun t ht => (List.mem_append.1 ht).elim (hR t) (hS t)
    simp only [StJ.jstep]
    rw [e1, ok_bind, e2, ok_bind]
    refine finish_j I (subJ_sim L cap ⟨rfl, fun _ h => List.mem_append_left _ (f1 h)⟩ ⟨rfl, fun _ h => List.mem_append_right _ (f2 h)⟩) ?_
    obtain ⟨n, e3, rn⟩ := JPt.inverted_spec K r2
    unfold JPt.sub
    rw [e3, ok_bind, sub_eq_add_neg]
    exact JPt.add_spec K h8 r1 rn
  | neg hi hR =>
    obtain ⟨a, e1, r1, f1⟩ := I.jpt hi
    simp only [StJ.jstep]
    rw [e1, ok_bind]
    exact finish_j I (invertedJ_sim (I.base.liveR hR) cap ⟨rfl, f1⟩) (JPt.inverted_spec K r1)
  | dbl hi hR =>
    obtain ⟨a, e1, r1, f1⟩ := I.jpt hi
    simp only [StJ.jstep]
    rw [e1, ok_bind]
    exact finish_j I (doubledJ_sim (I.base.liveR hR) cap ⟨rfl, f1⟩) (JPt.doubled_spec K h8 r1)
  | mul hi hR ck fk =>
    obtain ⟨a, e1, r1, f1⟩ := I.jpt hi
    simp only [StJ.jstep]
    rw [e1, ok_bind]
    exact finish_j I (mulJ_sim (I.base.liveR hR) cap ⟨rfl, f1⟩ _) (JPt.mul_spec K h8 r1 ck fk)

theorem HoldsJ.hpt {s : StJ} {e : EnvJ (C.Pt P)} (I : HoldsJ C s e) {i : Nat} {A : C.Pt P} {R : List Nat} (h : e.hs[i]? = some (A, R)) :
    ∃ q, s.hpt i = .ok q ∧ (erH C q).Rep C A ∧ q.refs ⊆ R := by
  have hl := I.hs.length_eq
  obtain ⟨hi, ev⟩ := List.getElem?_eq_some_iff.1 h
  have := (List.forall₂_iff_get.1 I.hs).2 i (by omega) hi
  simp only [List.get_eq_getElem, ev] at this
  refine ⟨s.hs[i], ?_, this⟩
  unfold StJ.hpt
  rw [List.getElem?_eq_getElem (by omega)]

theorem finish_h {s : StJ} {e : EnvJ (C.Pt P)} (I : HoldsJ C s e) {R : List Nat} {x : Res LHPt} {y : Res PPt}
    (h : Sim (HR C R) x y) {A : C.Pt P} (hy : ∃ r, y = .ok r ∧ r.Rep C A) :
    ∃ s', (do .ok (s.pushH (← x))) = (.ok s' : Res StJ) ∧ HoldsJ C s' ⟨e.e, e.js, e.hs ++ [(A, R)]⟩ := by
  obtain ⟨r, e1, hr⟩ := hy
  obtain ⟨q, e2, h1, h2⟩ := h.ok e1
  have := List.rel_append (R := fun q (x : C.Pt P × List Nat) => (erH C q).Rep C x.1 ∧ q.refs ⊆ x.2) I.hs
    (.cons (show (erH C q).Rep C ((A, R) : C.Pt P × List Nat).1 ∧ q.refs ⊆ ((A, R) : C.Pt P × List Nat).2 from ⟨h1 ▸ hr, h2⟩) .nil)
  exact ⟨s.pushH q, by rw [e2]; rfl, ⟨I.base, I.js, this⟩⟩

theorem hstep_spec (H : DomainOk cap D C G) {s : StJ} {e : EnvJ (C.Pt P)} {c : PStmt} {pts' l' : List (C.Pt P × List Nat)} (I : HoldsJ C s e)
    (h : PStep (fun _ => True) C G e.e e.hs c pts' l') :
    ∃ s', s.hstep cap c = .ok s' ∧ HoldsJ C s' ⟨⟨e.e.objs, pts'⟩, e.js, l'⟩ := by
  have K := H.K
  cases h with
  | ofAffine hi hR =>
    obtain ⟨a, e1, r1, f1⟩ := I.base.pt hi
    simp only [StJ.hstep]
    rw [e1, ok_bind]
    exact finish_h I (ofAffineH_sim (I.base.liveR hR) ⟨rfl, f1⟩) (PPt.ofAffine_spec K r1)
  | toAffine hi hR =>
    obtain ⟨a, e1, r1, f1⟩ := I.hpt hi
    simp only [StJ.hstep]
    rw [e1, ok_bind]
    obtain ⟨r, e2, hr⟩ := PPt.toAffine_spec K r1
    obtain ⟨q, e3, h1, h2⟩ := (toAffineH_sim (I.base.liveR hR) cap ⟨rfl, f1⟩).ok e2
    exact ⟨⟨s.s.push q, s.js, s.hs⟩, by rw [e3]; rfl, I.base.push (h1 ▸ hr) h2, I.js, I.hs⟩
  | @generate c r k h hr ck h0 h1 fk =>
    obtain ⟨kc, e1, e2, e3⟩ := I.base.get h
    have en : kc.n = C.n := congrArg Curve.n e2
    obtain ⟨q, e4, r4⟩ := PPt.ofAffine_spec K H.g
    refine finish_h I (R := [r]) (x := s.s.w.generateH cap c k) (y := PPt.ofAffine C.g >>= fun q => q.mul cap k) ?_ ?_
    · unfold World.generateH
      rw [e1, ok_bind, en, check_true ((inRange_iff ck H.n).2 ⟨h0, h1⟩), ok_bind, e3]
      exact (ofAffineH_sim (I.base.liveR hr) ⟨er_genAt H r, genAt_refs C r⟩).bind fun _ _ hq => mulH_sim (I.base.liveR hr) cap hq k
    · rw [e4, ok_bind]; exact PPt.mul_spec K  r4 ck 
  | @add i j A B R S hi hj hR hS =>
    obtain ⟨a, e1, r1, f1⟩ := I.hpt hi
    obtain ⟨b, e2, r2, f2⟩ := I.hpt hj
    have L : Live s.s.w C (R ++ S) := I.base.liveR fun t ht => (List.mem_append.1 ht).elim (hR t) (hS t)
    simp only [StJ.hstep]
    rw [e1, ok_bind, e2, ok_bind]
    exact finish_h I (addH_sim L cap ⟨rfl, fun _ h => List.mem_append_left _ (f1 h)⟩ ⟨rfl, fun _ h => List.mem_append_right _ (f2 h)⟩)
      (PPt.add_spec K  r1 r2)
  | @sub i j A B R S hi hj hR hS =>
    obtain ⟨a, e1, r1, f1⟩ := I.hpt hi
    obtain ⟨b, e2, r2, f2⟩ := I.hpt hj
    have L : Live s.s.w C (R ++ S) := I.base.liveR fun t ht => (List.mem_append.1 ht).elim (hR t) (hS t)
    simp only [StJ.hstep]
    rw [e1, ok_bind, e2, ok_bind]
    refine finish_h I (subH_sim L cap ⟨rfl, fun _ h => List.mem_append_left _ (f1 h)⟩ ⟨rfl, fun _ h => List.mem_append_right _ (f2 h)⟩) ?_
    obtain ⟨n, e3, rn⟩ := PPt.inverted_spec K r2
    unfold PPt.sub
    rw [e3, ok_bind, sub_eq_add_neg]
    exact PPt.add_spec K  r1 rn
  | neg hi hR =>
    obtain ⟨a, e1, r1, f1⟩ := I.hpt hi
    simp only [StJ.hstep]
    rw [e1, ok_bind]
    exact finish_h I (invertedH_sim (I.base.liveR hR) cap ⟨rfl, f1⟩) (PPt.inverted_spec K r1)
  | dbl hi hR =>
    obtain ⟨a, e1, r1, f1⟩ := I.hpt hi
    simp only [StJ.hstep]
    rw [e1, ok_bind]
    exact finish_h I (doubledH_sim (I.base.liveR hR) cap ⟨rfl, f1⟩) (PPt.doubled_spec K  r1)
  | mul hi hR ck fk =>
    obtain ⟨a, e1, r1, f1⟩ := I.hpt hi
    simp only [StJ.hstep]
    rw [e1, ok_bind]
    exact finish_h I (mulH_sim (I.base.liveR hR) cap ⟨rfl, f1⟩ _) (PPt.mul_spec K  r1 ck )

theorem stepJ_spec (H : DomainOk cap D C G) {s : StJ} {e e' : EnvJ (C.Pt P)} {c : StmtJ} (h8 : ∀ d, c = .jac d → 8 < P) (I : HoldsJ C s e) (h : StepJ cap C G e c e') :
    ∃ s', s.step cap D c = .ok s' ∧ HoldsJ C s' e' := by
  cases h with
  | aff h =>
    obtain ⟨s', e1, I'⟩ := step_spec H I.base h
    exact ⟨⟨s', s.js, s.hs⟩, by simp only [StJ.step]; rw [e1]; rfl, I', I.js, I.hs⟩
  | jac h => exact jstep_spec H (h8 _ rfl) I h
  | hom h => exact hstep_spec H I h

theorem runJ_spec (H : DomainOk cap D C G) {e e' : EnvJ (C.Pt P)} {t : List StmtJ} (h8 : ∀ d, .jac d ∈ t → 8 < P) (h : StepsJ cap C G e t e') :
    ∀ s, HoldsJ C s e → ∃ s', runJ cap D s t = .ok s' ∧ HoldsJ C s' e' := by
  induction h with
  | nil => exact fun s I => ⟨s, rfl, I⟩
  | cons h _ ih =>
    intro s I
    obtain ⟨s1, e1, I1⟩ := stepJ_spec H (fun d hd => h8 d (hd ▸ List.mem_cons_self ..)) I h
    obtain ⟨s2, e2, I2⟩ := ih (fun d hd => h8 d (List.mem_cons_of_mem _ hd)) s1 I1
    exact ⟨s2, by unfold runJ; rw [e1, ok_bind, e2], I2⟩

theorem runJ_append (s : StJ) (t u : List StmtJ) : runJ cap D s (t ++ u) = (do runJ cap D (← runJ cap D s t) u) := by
  induction t generalizing s with
  | nil => rfl
  | cons c t ih =>
    simp only [List.cons_append, runJ]
    cases s.step cap D c with
    | error e => rfl
    | ok s' => simp only [ok_bind]; exact ih s'

end
end Ack.Life
