import Verif.Spec.Life
import Verif.Proof.EcCode
/-!
# Lifetimes: the pointer model refines the value model while the objects live
-/
namespace Ack.Life
open Big

/-- Outcomes that agree up to a relation. -/
def Sim {α β : Type} (r : α → β → Prop) : Res α → Res β → Prop
  | .ok a, .ok b => r a b
  | .error e, .error f => e = f
  | _, _ => False

theorem Sim.bind {α β α' β' : Type} {r : α → β → Prop} {s : α' → β' → Prop} {x : Res α} {y : Res β} {f : α → Res α'} {g : β → Res β'}
    (h : Sim r x y) (hf : ∀ a b, r a b → Sim s (f a) (g b)) : Sim s (x >>= f) (y >>= g) := by
  cases x <;> cases y
  · exact h
  · exact h.elim
  · exact h.elim
  · exact hf _ _ h

theorem Sim.ok {α β : Type} {r : α → β → Prop} {x : Res α} {y : Res β} {b : β} (h : Sim r x y) (hy : y = .ok b) : ∃ a, x = .ok a ∧ r a b := by
  subst hy
  cases x with
  | error e => exact h.elim
  | ok a => exact ⟨a, rfl, h⟩

/-- The objects at the addresses `R` live and are the curve `C`. -/
def Live (w : World) (C : Curve) (R : List Ptr) : Prop := ∀ a ∈ R, ∃ c, w[a]? = some (some c) ∧ c.view = C

def FR (C : Curve) (R : List Ptr) (a : LFe) (b : Fe) : Prop := erF C.p a = b ∧ a.refs ⊆ R

def PR (C : Curve) (R : List Ptr) (a : LPt) (b : APt) : Prop := er C a = b ∧ a.refs ⊆ R

theorem PR.x {C : Curve} {R : List Ptr} {a : LPt} {b : APt} (h : PR C R a b) : FR C R a.x b.x :=
  ⟨congrArg APt.x h.1, fun t ht => h.2 (by unfold LPt.refs; simp [ht])⟩

theorem PR.y {C : Curve} {R : List Ptr} {a : LPt} {b : APt} (h : PR C R a b) : FR C R a.y b.y :=
  ⟨congrArg APt.y h.1, fun t ht => h.2 (by unfold LPt.refs; simp [ht])⟩

theorem FR.v {C : Curve} {R : List Ptr} {a : LFe} {b : Fe} (h : FR C R a b) : a.v = b.v := congrArg Fe.v h.1

theorem PR.mono {C : Curve} {R S : List Ptr} {a : LPt} {b : APt} (h : PR C R a b) (hs : R ⊆ S) : PR C S a b := ⟨h.1, fun _ ht => hs (h.2 ht)⟩

section
variable {w : World} {C : Curve} {R : List Ptr} (L : Live w C R)
include L

theorem world_curve {a : Ptr} (h : a ∈ R) : ∃ c, w.curve a = .ok c ∧ c.view = C := by
  obtain ⟨c, e, hc⟩ := L a h
  exact ⟨c, by unfold World.curve; rw [e], hc⟩

theorem load_ok {a : LFe} {b : Fe} (h : FR C R a b) : a.load w = .ok b := by
  obtain ⟨rfl, hr⟩ := h
  unfold LFe.load erF
  cases e : a.pm with
  | none => rfl
  | some t =>
    obtain ⟨c, e1, e2⟩ := world_curve L (a := t) (hr (by unfold LFe.refs; rw [e]; simp))
    simp only [e1, ok_bind, Option.map_some, ← e2]
    rfl

theorem isZeroF_ok {a : LFe} {b : Fe} (h : FR C R a b) : a.isZero w = .ok b.isZero := by
  unfold LFe.isZero
  rw [load_ok L h, ok_bind, h.v]
  split
  · rename_i h1
    unfold Fe.isZero
    rw [h1]; rfl
  · rfl

/-- Operations of `fp_element` keep the modulus of the left operand. -/
def Keeps (f : Fe → Res Fe) : Prop := ∀ A r, f A = .ok r → r.pm = A.pm

theorem lift_sim {f : Fe → Res Fe} (k : Keeps f) {a : LFe} {b : Fe} (h : FR C R a b) : Sim (FR C R) (a.lift w f) (f b) := by
  unfold LFe.lift
  rw [load_ok L h, ok_bind]
  obtain ⟨rfl, hr⟩ := h
  cases e : f (erF C.p a) with
  | error e => rfl
  | ok r =>
    have := k _ _ e
    refine ⟨?_, hr⟩
    obtain ⟨v, pm⟩ := r
    simp only [erF] at this ⊢
    rw [this]

end

theorem keeps_addB (cap : Cap) (x : Big) : Keeps (·.addB cap x) := by
  rintro ⟨v, _ | p⟩ r h
  · cases h
  · cases h; rfl

theorem keeps_subB (cap : Cap) (x : Big) : Keeps (·.subB cap x) := by
  rintro ⟨v, _ | p⟩ r h
  · cases h
  · cases h; rfl

theorem keeps_neg (cap : Cap) : Keeps (·.neg cap) := by
  rintro ⟨v, _ | p⟩ r h
  · cases h
  · cases h; rfl

private theorem bind_pm {p : Big} {x : Res Big} {r : Fe} (h : (do .ok ⟨← x, some p⟩) = (.ok r : Res Fe)) : r.pm = some p := by
  cases x with
  | error e => cases h
  | ok v => cases h; rfl

theorem keeps_mulB (cap : Cap) (x : Big) : Keeps (·.mulB cap x) := by
  rintro ⟨v, pm⟩ r h
  simp only [Fe.mulB] at h
  split at h
  · cases pm with
    | none => cases h
    | some p => cases h; rfl
  · split at h
    · cases h; rfl
    · cases pm with
      | none => cases h
      | some p => exact bind_pm h

theorem keeps_mulS (cap : Cap) (x : BitVec 32) : Keeps (·.mulS cap x) := by
  rintro ⟨v, pm⟩ r h
  simp only [Fe.mulS] at h
  split at h
  · cases pm with
    | none => cases h
    | some p => cases h; rfl
  · split at h
    · cases h; rfl
    · cases pm with
      | none => cases h
      | some p => exact bind_pm h

theorem keeps_sqr (cap : Cap) : Keeps (·.sqr cap) := by
  rintro ⟨v, pm⟩ r h
  simp only [Fe.sqr] at h
  split at h
  · cases h; rfl
  · cases pm with
    | none => cases h
    | some p => exact bind_pm h

theorem keeps_divB (cap : Cap) (x : Big) : Keeps (·.divB cap x) := by
  rintro ⟨v, pm⟩ r h
  simp only [Fe.divB] at h
  split at h
  · cases h; rfl
  · cases pm with
    | none => cases h
    | some p => exact bind_pm h

section
variable {w : World} {C : Curve} {R : List Ptr} (L : Live w C R) (cap : Cap)
include L

theorem addB_sim {a : LFe} {b : Fe} (h : FR C R a b) (x : Big) : Sim (FR C R) (a.addB cap w x) (b.addB cap x) := lift_sim L (keeps_addB cap x) h

theorem sub_sim {a x : LFe} {b y : Fe} (h : FR C R a b) (hx : FR C R x y) : Sim (FR C R) (a.sub cap w x) (b.sub cap y) := by
  unfold LFe.sub Fe.sub
  rw [hx.v]
  exact lift_sim L (keeps_subB cap _) h

theorem mul_sim {a x : LFe} {b y : Fe} (h : FR C R a b) (hx : FR C R x y) : Sim (FR C R) (a.mul cap w x) (b.mul cap y) := by
  unfold LFe.mul Fe.mul
  rw [hx.v]
  exact lift_sim L (keeps_mulB cap _) h

theorem div_sim {a x : LFe} {b y : Fe} (h : FR C R a b) (hx : FR C R x y) : Sim (FR C R) (a.div cap w x) (b.div cap y) := by
  unfold LFe.div Fe.div
  rw [hx.v]
  exact lift_sim L (keeps_divB cap _) h

theorem mulS_sim {a : LFe} {b : Fe} (h : FR C R a b) (x : BitVec 32) : Sim (FR C R) (a.mulS cap w x) (b.mulS cap x) :=
  lift_sim L (keeps_mulS cap x) h

theorem sqr_sim {a : LFe} {b : Fe} (h : FR C R a b) : Sim (FR C R) (a.sqr cap w) (b.sqr cap) := lift_sim L (keeps_sqr cap) h

theorem neg_sim {a : LFe} {b : Fe} (h : FR C R a b) : Sim (FR C R) (a.neg cap w) (b.neg cap) := lift_sim L (keeps_neg cap) h

theorem isIdentity_ok {q : LPt} {r : APt} (h : PR C R q r) : q.isIdentity w = .ok r.isIdentity := by
  unfold LPt.isIdentity APt.isIdentity
  have hc : r.curve = q.curve.map fun _ => C := (congrArg APt.curve h.1).symm
  cases e : q.curve with
  | none => rw [hc, e]; rfl
  | some t =>
    rw [hc, e]
    simp only [isZeroF_ok L h.x, ok_bind, Option.map_some, Option.isNone_some, Bool.false_or]
    cases r.x.isZero
    · rfl
    · simp only [if_true, Bool.true_and]
      exact isZeroF_ok L h.y

theorem getCurve_sim {q : LPt} {r : APt} (h : PR C R q r) : Sim (fun a b => a = b ∧ r.curve = some b ∧ b = C) (q.getCurve w) (curveOf r.curve) := by
  have hc : r.curve = q.curve.map fun _ => C := (congrArg APt.curve h.1).symm
  unfold LPt.getCurve
  cases e : q.curve with
  | none => rw [hc, e]; rfl
  | some t =>
    obtain ⟨c, e1, e2⟩ := world_curve L (a := t) (h.2 (by unfold LPt.refs; rw [e]; simp))
    rw [hc, e]
    simp only [e1, ok_bind, Option.map_some]
    exact ⟨e2, rfl, rfl⟩

theorem mk_pr {q : LPt} {r : APt} (h : PR C R q r) {x y : LFe} {X Y : Fe} (hx : FR C R x X) (hy : FR C R y Y) (hc : r.curve = some C) :
    PR C R ⟨q.curve, x, y⟩ ⟨some C, X, Y⟩ := by
  obtain ⟨rfl, hr⟩ := h
  obtain ⟨rfl, rx⟩ := hx
  obtain ⟨rfl, ry⟩ := hy
  refine ⟨?_, ?_⟩
  · show APt.mk (q.curve.map fun _ => C) _ _ = _
    rw [show (q.curve.map fun _ => C) = some C from hc]
  · intro t ht
    simp only [LPt.refs, List.mem_append] at ht hr
    rcases ht with (ht | ht) | ht
    · exact hr (by simp [LPt.refs, ht])
    · exact rx ht
    · exact ry ht

omit L in
theorem identity_pr : PR C R LPt.identity APt.identity := ⟨rfl, fun t ht => by cases ht⟩

theorem inverted_sim {q : LPt} {r : APt} (h : PR C R q r) : Sim (PR C R) (q.inverted cap w) (r.inverted cap) := by
  unfold LPt.inverted APt.inverted
  rw [isIdentity_ok L h, ok_bind]
  cases r.isIdentity
  · refine (getCurve_sim L h).bind fun _ c ⟨_, hc, e⟩ => ?_
    subst e
    exact (neg_sim L cap h.y).bind fun y Y hy => mk_pr L h h.x hy hc
  · exact h

theorem dblGo_sim {q : LPt} {r : APt} (h : PR C R q r) (h0 : (r.isIdentity || r.y.isZero) = false) :
    Sim (PR C R) (q.dblGo cap w) (r.doubled cap) := by
  unfold LPt.dblGo APt.doubled
  rw [h0]
  refine (sqr_sim L cap h.x).bind fun _ _ h1 => (mulS_sim L cap h1 3).bind fun _ _ h2 => (getCurve_sim L h).bind fun a c ⟨e1, hc, e⟩ => ?_
  subst e1; subst e
  exact (addB_sim L cap h2 _).bind fun _ _ h3 => (mulS_sim L cap h.y 2).bind fun _ _ h4 => (div_sim L cap h3 h4).bind fun _ _ h5 =>
    (sqr_sim L cap h5).bind fun _ _ h6 => (mulS_sim L cap h.x 2).bind fun _ _ h7 => (sub_sim L cap h6 h7).bind fun _ _ h8 =>
    (sub_sim L cap h.x h8).bind fun _ _ h9 => (mul_sim L cap h5 h9).bind fun _ _ h10 => (sub_sim L cap h10 h.y).bind fun _ _ h11 =>
    mk_pr L h h8 h11 hc

theorem doubled_sim {q : LPt} {r : APt} (h : PR C R q r) : Sim (PR C R) (q.doubled cap w) (r.doubled cap) := by
  unfold LPt.doubled
  rw [isIdentity_ok L h, ok_bind]
  cases e : r.isIdentity
  · simp only [Bool.false_eq_true, if_false]
    rw [isZeroF_ok L h.y, ok_bind]
    cases e' : r.y.isZero
    · simp only [Bool.false_eq_true, if_false]
      exact dblGo_sim L cap h (by rw [e, e']; rfl)
    · unfold APt.doubled
      rw [e, e']
      exact identity_pr
  · unfold APt.doubled
    rw [e]
    exact identity_pr

theorem add_sim {p q : LPt} {a b : APt} (hp : PR C R p a) (hq : PR C R q b) : Sim (PR C R) (p.add cap w q) (a.add cap b) := by
  unfold LPt.add APt.add
  rw [isIdentity_ok L hp, ok_bind]
  cases a.isIdentity
  · simp only [Bool.false_eq_true, if_false]
    rw [isIdentity_ok L hq, ok_bind]
    cases b.isIdentity
    · simp only [Bool.false_eq_true, if_false]
      refine (sub_sim L cap hq.x hp.x).bind fun s S hs => ?_
      rw [isZeroF_ok L hs, ok_bind]
      cases S.isZero
      · simp only [Bool.false_eq_true, if_false]
        refine (sub_sim L cap hq.y hp.y).bind fun _ _ h1 => (div_sim L cap h1 hs).bind fun _ _ h2 => (sqr_sim L cap h2).bind fun _ _ h3 =>
          (sub_sim L cap h3 hp.x).bind fun _ _ h4 => (sub_sim L cap h4 hq.x).bind fun _ _ h5 => (sub_sim L cap hp.x h5).bind fun _ _ h6 =>
          (mul_sim L cap h2 h6).bind fun _ _ h7 => (sub_sim L cap h7 hp.y).bind fun _ _ h8 => (getCurve_sim L hp).bind fun _ c ⟨_, hc, e⟩ => ?_
        subst e
        exact mk_pr L hp h5 h8 hc
      · simp only [if_true]
        unfold Fe.eq
        rw [hp.y.v, hq.y.v]
        split
        · exact doubled_sim L cap hp
        · exact identity_pr
    · exact hp
  · exact hq

theorem sub_simP {p q : LPt} {a b : APt} (hp : PR C R p a) (hq : PR C R q b) : Sim (PR C R) (p.sub cap w q) (a.sub cap b) :=
  (inverted_sim L cap hq).bind fun _ _ h => add_sim L cap hp h

theorem ladder_sim : ∀ (f : Nat) (s : Big) {p q : LPt} {a b : APt}, PR C R p a → PR C R q b →
    Sim (PR C R) (ladder (LPt.add cap w) (LPt.doubled cap w) f p q s) (ladder (APt.add cap) (APt.doubled cap) f a b s) := by
  intro f
  induction f with
  | zero => intro s p q a b _ _; rfl
  | succ f ih =>
    intro s p q a b hp hq
    unfold ladder
    split
    · refine Sim.bind (r := PR C R) ?_ fun r R' hr => (doubled_sim L cap hq).bind fun _ _ ht => ih _ hr ht
      split
      · exact add_sim L cap hp hq
      · exact hp
    · exact hp

theorem mulNN_sim {q : LPt} {r : APt} (h : PR C R q r) (s : Big) : Sim (PR C R) (q.mulNN cap w s) (r.mulNN cap s) := by
  unfold LPt.mulNN APt.mulNN
  cases s.isOne
  · rw [isIdentity_ok L h]
    simp only [Bool.false_eq_true, if_false, Bool.false_or, ok_bind]
    cases r.isIdentity
    · simp only [Bool.false_eq_true, if_false]
      split
      · exact identity_pr
      · exact ladder_sim L cap _ _ identity_pr h
    · exact h
  · exact h

theorem mul_simP {q : LPt} {r : APt} (h : PR C R q r) (s : Big) : Sim (PR C R) (q.mul cap w s) (r.mul cap s) := by
  unfold LPt.mul APt.mul
  cases s.isOne
  · rw [isIdentity_ok L h]
    simp only [Bool.false_eq_true, if_false, Bool.false_or, ok_bind]
    cases r.isIdentity
    · simp only [Bool.false_eq_true, if_false]
      split
      · exact identity_pr
      · split
        · exact (inverted_sim L cap h).bind fun _ _ hi => mulNN_sim L cap hi _
        · exact mulNN_sim L cap h _
    · exact h
  · exact h

theorem isOnCurve_sim {q : LPt} {r : APt} (h : PR C R q r) : Sim Eq (q.isOnCurve cap w) (r.isOnCurve cap) := by
  unfold LPt.isOnCurve APt.isOnCurve
  rw [isIdentity_ok L h, ok_bind]
  cases r.isIdentity
  · simp only [Bool.false_eq_true, if_false]
    refine (sqr_sim L cap h.y).bind fun _ _ h1 => (sqr_sim L cap h.x).bind fun _ _ h2 => (getCurve_sim L h).bind fun a c ⟨e1, hc, e⟩ => ?_
    subst e1; subst e
    refine (addB_sim L cap h2 _).bind fun _ _ h3 => (mul_sim L cap h3 h.x).bind fun _ _ h4 => (addB_sim L cap h4 _).bind fun _ _ h5 =>
      (sub_sim L cap h1 h5).bind fun _ _ h6 => ?_
    show _ = _
    unfold Fe.eqS
    rw [h6.v]
  · rfl

theorem isValid_sim {q : LPt} {r : APt} (h : PR C R q r) : Sim Eq (q.isValid cap w) (r.isValid cap) := by
  unfold LPt.isValid APt.isValid
  rw [isIdentity_ok L h, ok_bind]
  cases r.isIdentity
  · simp only [Bool.false_eq_true, if_false]
    refine (isOnCurve_sim L cap h).bind fun b b' e => ?_
    subst e
    cases b
    · rfl
    · simp only [Bool.not_true, Bool.false_eq_true, if_false]
      refine (getCurve_sim L h).bind fun a c ⟨e1, hc, e⟩ => ?_
      subst e1; subst e
      refine (mul_simP L cap h _).bind fun m m' hm => ?_
      rw [isIdentity_ok L hm, ok_bind]
      cases m'.isIdentity <;> rfl
  · rfl

end

/-! ## Programs -/

section
variable {P : ℕ} [Fact P.Prime] {cap : Cap} {D : Params} {C : Curve} {G : C.Pt P}

/-- The generator of an object as it points to the object `r`. -/
def genAt (C : Curve) (r : Ptr) : LPt := ⟨some r, ⟨C.gx.v, some r⟩, ⟨C.gy.v, some r⟩⟩

structure Holds (C : Curve) (s : St) (e : Env (C.Pt P)) : Prop where
  len : s.w.length = e.objs.length
  live : ∀ (a r : Nat), e.objs[a]? = some (⟨true, r⟩ : Obj) → ∃ c : LCurve, s.w[a]? = some (some c) ∧ c.view = C ∧ c.g = genAt C r
  dead : ∀ (a r : Nat), e.objs[a]? = some (⟨false, r⟩ : Obj) → s.w[a]? = some none
  pts : List.Forall₂ (fun q x => (er C q).Rep C x.1 ∧ q.refs ⊆ x.2) s.pts e.pts

theorem make_addr (cap : Cap) (a : Nat) (p x y gx gy n : Big) (h : Word) :
    Curve.make cap a p x y gx gy n h = (Curve.make cap 0 p x y gx gy n h).map fun c => { c with addr := a } := by
  unfold Curve.make
  show ((check _).bind fun _ => (check _).bind fun _ => .ok _) = ((check _).bind fun _ => (check _).bind fun _ => .ok _).map _
  show ((check (!gx.isNegative && opLt gx p)).bind fun _ => (check (!gy.isNegative && opLt gy p)).bind fun _ => _) = _
  cases e1 : (!gx.isNegative && opLt gx p)
  · simp only [Curve.isValidInteger, e1, check_false]; rfl
  · cases e2 : (!gy.isNegative && opLt gy p)
    · simp only [Curve.isValidInteger, e1, e2]; rfl
    · simp only [Curve.isValidInteger, e1, e2]; rfl

theorem make_gxy {a : Nat} {p x y gx gy n : Big} {h : Word} {c : Curve} (e : Curve.make cap a p x y gx gy n h = .ok c) :
    c.addr = a ∧ c.gx = ⟨c.gx.v, some c.p⟩ ∧ c.gy = ⟨c.gy.v, some c.p⟩ := by
  unfold Curve.make at e
  simp only [check, bind, Except.bind] at e
  split at e
  · cases e
  · split at e
    · cases e
    · cases e
      exact ⟨rfl, rfl, rfl⟩

theorem world_make (H : DomainOk cap D C G) (w : World) : ∃ c, w.make cap D = .ok (w ++ [some c]) ∧ c.view = C ∧ c.g = genAt C w.length := by
  unfold World.make
  rw [make_addr, H.make]
  obtain ⟨h1, h2, h3⟩ := make_gxy H.make
  refine ⟨_, rfl, ?_, rfl⟩
  unfold LCurve.view
  cases C
  simp only at h1 h2 h3 ⊢
  rw [← h2, ← h3, h1]

theorem er_genAt (H : DomainOk cap D C G) (r : Ptr) : er C (genAt C r) = C.g := by
  obtain ⟨h1, h2, h3⟩ := make_gxy H.make
  unfold er genAt erF Curve.g
  simp only [Option.map_some]
  rw [← h2, ← h3]

theorem genAt_refs (C : Curve) (r : Ptr) : (genAt C r).refs ⊆ [r] := by
  intro t ht
  simpa [genAt, LPt.refs, LFe.refs] using ht

theorem Holds.liveR {s : St} {e : Env (C.Pt P)} (I : Holds C s e) {R : List Nat} (h : e.usable R) : Live s.w C R := by
  intro a ha
  obtain ⟨r, hr⟩ := h a ha
  obtain ⟨c, h1, h2, -⟩ := I.live a r hr
  exact ⟨c, h1, h2⟩

theorem Holds.pt {s : St} {e : Env (C.Pt P)} (I : Holds C s e) {i : Nat} {A : C.Pt P} {R : List Nat} (h : e.pts[i]? = some (A, R)) :
    ∃ q, s.pt i = .ok q ∧ (er C q).Rep C A ∧ q.refs ⊆ R := by
  have hl := I.pts.length_eq
  obtain ⟨hi, ev⟩ := List.getElem?_eq_some_iff.1 h
  have := (List.forall₂_iff_get.1 I.pts).2 i (by omega) hi
  simp only [List.get_eq_getElem, ev] at this
  refine ⟨s.pts[i], ?_, this⟩
  unfold St.pt
  rw [List.getElem?_eq_getElem (by omega)]

theorem Holds.push {s : St} {e : Env (C.Pt P)} (I : Holds C s e) {q : LPt} {A : C.Pt P} {R : List Nat} (h : (er C q).Rep C A) (hr : q.refs ⊆ R) :
    Holds C (s.push q) ⟨e.objs, e.pts ++ [(A, R)]⟩ :=
  ⟨I.len, I.live, I.dead, List.rel_append (R := fun q (x : C.Pt P × List Nat) => (er C q).Rep C x.1 ∧ q.refs ⊆ x.2) I.pts (.cons ⟨h, hr⟩ .nil)⟩

theorem Holds.snoc {s : St} {e : Env (C.Pt P)} (I : Holds C s e) {c : LCurve} {r : Nat} (hv : c.view = C) (hg : c.g = genAt C r) :
    Holds C ⟨s.w ++ [some c], s.pts⟩ ⟨e.objs ++ [⟨true, r⟩], e.pts⟩ := by
  have split : ∀ {a : Nat} {o : Obj}, (e.objs ++ [⟨true, r⟩])[a]? = some o → e.objs[a]? = some o ∨ (a = e.objs.length ∧ o = ⟨true, r⟩) := by
    intro a o ha
    rw [List.getElem?_append] at ha
    split at ha
    · exact .inl ha
    · rcases hk : a - e.objs.length with _ | k
      · rw [hk] at ha
        simp only [List.getElem?_cons_zero, Option.some.injEq] at ha
        exact .inr ⟨by omega, ha.symm⟩
      · rw [hk] at ha; simp at ha
  have old : ∀ {a : Nat} {o : Option LCurve}, s.w[a]? = some o → (s.w ++ [some c])[a]? = some o := by
    intro a o h
    obtain ⟨hl, -⟩ := List.getElem?_eq_some_iff.1 h
    rw [List.getElem?_append_left hl]; exact h
  refine ⟨by simp [I.len], ?_, ?_, I.pts⟩
  · intro a r' ha
    rcases split ha with h | ⟨h, ho⟩
    · obtain ⟨c', h1, h2⟩ := I.live a r' h
      exact ⟨c', old h1, h2⟩
    · cases ho
      subst h
      refine ⟨c, ?_, hv, hg⟩
      show (s.w ++ [some c])[e.objs.length]? = _
      rw [← I.len]; simp
  · intro a r' ha
    rcases split ha with h | ⟨h, ho⟩
    · exact old (I.dead a r' h)
    · cases ho

theorem Holds.get {s : St} {e : Env (C.Pt P)} (I : Holds C s e) {c r : Nat} (h : e.objs[c]? = some ⟨true, r⟩) :
    ∃ k, s.w.curve c = .ok k ∧ k.view = C ∧ k.g = genAt C r := by
  obtain ⟨k, h1, h2, h3⟩ := I.live c r h
  exact ⟨k, by unfold World.curve; rw [h1], h2, h3⟩

theorem finish_pt {s : St} {e : Env (C.Pt P)} (I : Holds C s e) {R : List Nat} {x : Res LPt} {y : Res APt} (h : Sim (PR C R) x y) {A : C.Pt P}
    (hy : ∃ r, y = .ok r ∧ r.Rep C A) : ∃ s', (do .ok (s.push (← x))) = (.ok s' : Res St) ∧ Holds C s' ⟨e.objs, e.pts ++ [(A, R)]⟩ := by
  obtain ⟨r, e1, hr⟩ := hy
  obtain ⟨q, e2, h1, h2⟩ := h.ok e1
  refine ⟨s.push q, by rw [e2]; rfl, I.push (h1 ▸ hr) h2⟩

theorem step_spec (H : DomainOk cap D C G) {s : St} {e e' : Env (C.Pt P)} {c : Stmt} (I : Holds C s e) (h : Step C G e c e') :
    ∃ s', s.step cap D c = .ok s' ∧ Holds C s' e' := by
  have K := H.K
  cases h with
  | newCurve =>
    obtain ⟨c, e1, e2, e3⟩ := world_make H s.w
    rw [← I.len]
    exact ⟨_, by simp only [St.step]; rw [e1]; rfl, I.snoc e2 e3⟩
  | copyCurve h =>
    obtain ⟨k, e1, e2, e3⟩ := I.get h
    exact ⟨_, by simp only [St.step, World.copy]; rw [e1]; rfl, I.snoc e2 e3⟩
  | @endCurve c r h =>
    obtain ⟨k, e1, e2, e3⟩ := I.get h
    have hl : c < s.w.length := by rw [I.len]; exact (List.getElem?_eq_some_iff.1 h).1
    refine ⟨⟨s.w.set c none, s.pts⟩, by simp only [St.step, World.finish]; rw [e1]; rfl, by simp [I.len], ?_, ?_, I.pts⟩
    · intro a r' ha
      rw [List.getElem?_set] at ha
      split at ha
      · split at ha <;> cases ha
      · obtain ⟨k', h1, h2⟩ := I.live a r' ha
        exact ⟨k', by show (s.w.set c none)[a]? = _; rw [List.getElem?_set_ne (by assumption)]; exact h1, h2⟩
    · intro a r' ha
      show (s.w.set c none)[a]? = _
      rw [List.getElem?_set] at ha
      split at ha
      · rename_i hca
        subst hca
        rw [List.getElem?_set_self hl]
      · rw [List.getElem?_set_ne (by assumption)]; exact I.dead a r' ha
  | @makePoint c x y v X Y hn h cx cy hx hy hv =>
    have L := I.liveR h
    obtain ⟨k, e1, e2⟩ := world_curve L (a := c) (by simp)
    have hX := val_lt_P X
    have hY := val_lt_P Y
    obtain ⟨-, m⟩ := makePoint_spec (C := C) K H.n cx cy
    have rng : 0 ≤ x.toInt ∧ x.toInt < P ∧ 0 ≤ y.toInt ∧ y.toInt < P := by omega
    have rep : APt.Rep C ⟨some C, ⟨x, some C.p⟩, ⟨y, some C.p⟩⟩ (.some X Y hn : C.Pt P) := by
      refine ⟨rfl, ⟨rfl, ⟨cx, rng.1, by rw [K.M.eq]; exact rng.2.1⟩, ?_⟩, ⟨rfl, ⟨cy, rng.2.2.1, by rw [K.M.eq]; exact rng.2.2.2⟩, ?_⟩⟩
      · unfold res; rw [hx]; simp
      · unfold res; rw [hy]; simp
    have pr : PR C [c] ⟨some c, ⟨x, some c⟩, ⟨y, some c⟩⟩ ⟨some C, ⟨x, some C.p⟩, ⟨y, some C.p⟩⟩ :=
      ⟨rfl, by intro t ht; simpa [LPt.refs, LFe.refs] using ht⟩
    have v1 := (isValidInteger_iff K cx).2 ⟨rng.1, rng.2.1⟩
    have v2 := (isValidInteger_iff K cy).2 ⟨rng.2.2.1, rng.2.2.2⟩
    refine finish_pt I (R := [c]) (x := s.w.makePoint cap c x y v) (y := .ok ⟨some C, ⟨x, some C.p⟩, ⟨y, some C.p⟩⟩) ?_ ⟨_, rfl, rep⟩
    unfold World.makePoint
    rw [e1, ok_bind, e2, check_true v1, ok_bind, check_true v2, ok_bind]
    cases v
    · exact pr
    · simp only [if_true]
      obtain ⟨b, e3, hb⟩ := APt.isValid_spec (q := ⟨some C, ⟨x, some C.p⟩, ⟨y, some C.p⟩⟩) K H.n rfl rep.2.1 rep.2.2
      obtain ⟨b', e4, rfl⟩ := (isValid_sim L cap pr).ok e3
      have : b' = true := hb.2 ⟨_, rep, (by intro h; cases h), hv rfl⟩
      rw [e4, ok_bind, check_true this, ok_bind]
      exact pr
  | @base c r h hr =>
    obtain ⟨k, e1, e2, e3⟩ := I.get h
    refine ⟨s.push k.g, by simp only [St.step]; rw [e1]; rfl, I.push ?_ ?_⟩
    · rw [e3, er_genAt H]; exact H.g
    · rw [e3]; exact genAt_refs C r
  | @generate c r k h hr ck h0 h1 =>
    obtain ⟨kc, e1, e2, e3⟩ := I.get h
    have en : kc.n = C.n := congrArg Curve.n e2
    refine finish_pt I (R := [r]) (x := s.w.generate cap c k) ?_ (APt.mul_spec K H.g ck)
    unfold World.generate
    rw [e1, ok_bind, en, check_true ((inRange_iff ck H.n).2 ⟨h0, h1⟩), ok_bind, e3]
    exact mul_simP (I.liveR hr) cap ⟨er_genAt H r, genAt_refs C r⟩ k
  | @add i j A B R S hi hj hR hS =>
    obtain ⟨a, e1, r1, f1⟩ := I.pt hi
    obtain ⟨b, e2, r2, f2⟩ := I.pt hj
    have L : Live s.w C (R ++ S) := I.liveR fun t ht => (List.mem_append.1 ht).elim (hR t) (hS t)
    simp only [St.step]
    rw [e1, ok_bind, e2, ok_bind]
    exact finish_pt I (add_sim L cap ⟨rfl, fun _ h => List.mem_append_left _ (f1 h)⟩ ⟨rfl, fun _ h => List.mem_append_right _ (f2 h)⟩) (APt.add_spec K r1 r2)
  | @sub i j A B R S hi hj hR hS =>
    obtain ⟨a, e1, r1, f1⟩ := I.pt hi
    obtain ⟨b, e2, r2, f2⟩ := I.pt hj
    have L : Live s.w C (R ++ S) := I.liveR fun t ht => (List.mem_append.1 ht).elim (hR t) (hS t)
    simp only [St.step]
    rw [e1, ok_bind, e2, ok_bind]
    exact finish_pt I (sub_simP L cap ⟨rfl, fun _ h => List.mem_append_left _ (f1 h)⟩ ⟨rfl, fun _ h => List.mem_append_right _ (f2 h)⟩) (APt.sub_spec K r1 r2)
  | neg hi hR =>
    obtain ⟨a, e1, r1, f1⟩ := I.pt hi
    simp only [St.step]
    rw [e1, ok_bind]
    exact finish_pt I (inverted_sim (I.liveR hR) cap ⟨rfl, f1⟩) (APt.inverted_spec K r1)
  | dbl hi hR =>
    obtain ⟨a, e1, r1, f1⟩ := I.pt hi
    simp only [St.step]
    rw [e1, ok_bind]
    exact finish_pt I (doubled_sim (I.liveR hR) cap ⟨rfl, f1⟩) (APt.doubled_spec K r1)
  | mul hi hR ck =>
    obtain ⟨a, e1, r1, f1⟩ := I.pt hi
    simp only [St.step]
    rw [e1, ok_bind]
    exact finish_pt I (mul_simP (I.liveR hR) cap ⟨rfl, f1⟩ _) (APt.mul_spec K r1 ck)

theorem run_spec (H : DomainOk cap D C G) {e e' : Env (C.Pt P)} {t : List Stmt} (h : Steps C G e t e') :
    ∀ s, Holds C s e → ∃ s', run cap D s t = .ok s' ∧ Holds C s' e' := by
  induction h with
  | nil => exact fun s I => ⟨s, rfl, I⟩
  | cons h _ ih =>
    intro s I
    obtain ⟨s1, e1, I1⟩ := step_spec H I h
    obtain ⟨s2, e2, I2⟩ := ih s1 I1
    exact ⟨s2, by unfold run; rw [e1, ok_bind, e2], I2⟩

theorem run_append (s : St) (t u : List Stmt) : run cap D s (t ++ u) = (do run cap D (← run cap D s t) u) := by
  induction t generalizing s with
  | nil => rfl
  | cons c t ih =>
    simp only [List.cons_append, run]
    cases s.step cap D c with
    | error e => rfl
    | ok s' => simp only [ok_bind]; exact ih s'

theorem isOne_eq {x : Big} (h : x.isOne = true) : x = ⟨false, [1]⟩ ∧ (⟨false, [1]⟩ : Big).toInt = 1 := by
  refine ⟨?_, by decide⟩
  unfold isOne at h
  simp only [Bool.and_eq_true, beq_iff_eq, Bool.not_eq_true'] at h
  obtain ⟨⟨h1, h2⟩, h3⟩ := h
  obtain ⟨w, hw⟩ := List.length_eq_one_iff.1 h1
  obtain ⟨neg, ws⟩ := x
  simp only at h2 hw
  subst h2; subst hw
  simp only [List.headD_cons] at h3
  rw [h3]

theorem holds_init (C : Curve) : Holds (P := P) C ⟨[], []⟩ ⟨[], []⟩ :=
  ⟨rfl, fun a r h => (by cases h), fun a r h => (by cases h), .nil⟩

/-- Multiples of the generator through an object whose generator points to an ended object. -/
theorem generate_dangling {w : World} {c r : Ptr} {kc : LCurve} {k : Big} (h : w.curve c = .ok kc) (hg : kc.g = genAt C r)
    (hr : w[r]? = some none) (hx : C.gx.v.isOne = false) (ck : k.Canon) (cn : kc.n.Canon) (h1 : 1 < k.toInt) (h2 : k.toInt < kc.n.toInt) :
    w.generate cap c k = .error .ub := by
  have h1' : k.isOne = false := by
    rw [← Bool.not_eq_true, isOne_iff ck]
    omega
  unfold World.generate
  rw [h, ok_bind, check_true ((inRange_iff ck cn).2 ⟨by omega, h2⟩), ok_bind, hg]
  unfold LPt.mul LPt.isIdentity LFe.isZero LFe.load
  rw [h1']
  simp only [genAt, World.curve, hr, hx]
  rfl

/-- A point with a first coordinate that is not one and whose modulus has ended. -/
theorem isIdentity_dangling {w : World} {q : LPt} {a c : Ptr} (hc : q.curve = some c) (hp : q.x.pm = some a) (hx : q.x.v.isOne = false) (ha : w[a]? = some none) :
    q.isIdentity w = .error .ub := by
  unfold LPt.isIdentity LFe.isZero LFe.load
  simp only [hc, hp, hx, World.curve, ha]
  rfl

theorem eq_spec (K : CurveOk P cap C) {p q : LPt} {A B : C.Pt P} (hp : (er C p).Rep C A) (hq : (er C q).Rep C B) (hA : A ≠ 0) (hB : B ≠ 0) :
    LPt.eq p q = true ↔ A = B ∧ (p.curve = q.curve ∨ p.x.v.toInt = 0) := by
  have zp : ¬ (er C p).isIdentity = true := fun h => hA ((hp.zero_iff K).1 h)
  have zq : ¬ (er C q).isIdentity = true := fun h => hB ((hq.zero_iff K).1 h)
  have main := APt.eq_spec K hp hq (fun h => (zp h).elim) (fun h => (zq h).elim)
  have cp : p.x.v.Canon ∧ (er C p).curve = some C := by
    cases A with
    | zero => exact (hA rfl).elim
    | some x y h => exact ⟨hp.2.1.elt.c, hp.1⟩
  have cq : (er C q).curve = some C := by
    cases B with
    | zero => exact (hB rfl).elim
    | some x y h => exact hq.1
  have e : APt.eq (er C p) (er C q) = (opEq p.x.v q.x.v && opEq p.y.v q.y.v) := by
    unfold APt.eq
    rw [cp.2, cq, samePtr_self]
    show (if (opEq p.x.v q.x.v && opEq p.y.v q.y.v) = true then _ else _) = _
    cases (opEq p.x.v q.x.v && opEq p.y.v q.y.v) <;> rfl
  rw [e] at main
  unfold LPt.eq
  rw [← main]
  have z : Big.eqS p.x.v 0 = true ↔ p.x.v.toInt = 0 := by rw [eqS_iff cp.1]; rfl
  cases (opEq p.x.v q.x.v && opEq p.y.v q.y.v)
  · simp
  · simp only [if_true, Bool.or_eq_true, beq_iff_eq, z, true_and]

end
end Ack.Life
