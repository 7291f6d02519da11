import Verif.Proof.EcSim
/-! # Points on objects follow points on values -/
namespace Ack.Mem

attribute [local irreducible] FeR.add FeR.sub FeR.mul FeR.mulS FeR.sqr FeR.div FeR.neg FeR.inv FeR.bigMul FeR.addB FeR.subB
  Fe.add Fe.sub Fe.mul Fe.mulS Fe.sqr Fe.div Fe.neg Fe.inv Fe.bigMul Fe.addB Fe.subB

/-- A curve object: every member has its value, the modulus is `p`. -/
structure CSim (D : Nat → Prop) (p : Big) (s : BigSt) (c : CurveR) (C : Curve) : Prop where
  addr : c.addr = C.addr
  hp : C.p = p
  rp : RepD D s c.p p
  a : RepD D s c.a C.a
  b : RepD D s c.b C.b
  gx : FeSim D D p s c.gx C.gx
  gy : FeSim D D p s c.gy C.gy
  n : RepD D s c.n C.n
  h : c.h = C.h
  m3 : c.aIsMinus3 = C.aIsMinus3
  z : c.aIsZero = C.aIsZero
  pn : RepD D s c.pMinusN C.pMinusN
  ea : Elt p C.a
  eb : Elt p C.b
  ng : c.gx.v ≠ c.gy.v

theorem CSim.mono {K : Kind} {D : Nat → Prop} {p : Big} {s s' : BigSt} {c : CurveR} {C : Curve} (h : CSim D p s c C) (g : Grow K s s') :
    CSim D p s' c C :=
  ⟨h.addr, h.hp, h.rp.mono g, h.a.mono g, h.b.mono g, h.gx.mono g, h.gy.mono g, h.n.mono g, h.h, h.m3, h.z, h.pn.mono g, h.ea, h.eb, h.ng⟩

/-- Two null pointers, or two curves. -/
def OSim (D : Nat → Prop) (p : Big) (s : BigSt) (c : Option CurveR) (C : Option Curve) : Prop :=
  (c = none ∧ C = none) ∨ ∃ c' C', c = some c' ∧ C = some C' ∧ CSim D p s c' C'

theorem OSim.mono {K : Kind} {D : Nat → Prop} {p : Big} {s s' : BigSt} {c : Option CurveR} {C : Option Curve} (h : OSim D p s c C)
    (g : Grow K s s') : OSim D p s' c C :=
  h.imp id fun ⟨c', C', h1, h2, h3⟩ => ⟨c', C', h1, h2, h3.mono g⟩

theorem OSim.null {D : Nat → Prop} {p : Big} {s : BigSt} : OSim D p s none none := Or.inl ⟨rfl, rfl⟩
theorem OSim.some {D : Nat → Prop} {p : Big} {s : BigSt} {c : CurveR} {C : Curve} (h : CSim D p s c C) : OSim D p s (some c) (some C) :=
  Or.inr ⟨c, C, rfl, rfl, h⟩

theorem OSim.isNone {D : Nat → Prop} {p : Big} {s : BigSt} {c : Option CurveR} {C : Option Curve} (h : OSim D p s c C) :
    c.isNone = C.isNone := by
  rcases h with ⟨rfl, rfl⟩ | ⟨c', C', rfl, rfl, -⟩ <;> rfl

/-- An affine point. -/
structure ASim (D E : Nat → Prop) (p : Big) (s : BigSt) (q : APtR) (Q : APt) : Prop where
  c : OSim E p s q.curve Q.curve
  x : FeSim D E p s q.x Q.x
  y : FeSim D E p s q.y Q.y
  xy : q.x.v ≠ q.y.v

theorem ASim.mono {K : Kind} {D E : Nat → Prop} {p : Big} {s s' : BigSt} {q : APtR} {Q : APt} (h : ASim D E p s q Q) (g : Grow K s s') :
    ASim D E p s' q Q := ⟨h.c.mono g, h.x.mono g, h.y.mono g, h.xy⟩

/-- A projective point. -/
structure PSim (D E : Nat → Prop) (p : Big) (s : BigSt) (q : PPtR) (Q : PPt) : Prop where
  c : OSim E p s q.curve Q.curve
  x : FeSim D E p s q.x Q.x
  y : FeSim D E p s q.y Q.y
  z : FeSim D E p s q.z Q.z
  xy : q.x.v ≠ q.y.v
  xz : q.x.v ≠ q.z.v
  yz : q.y.v ≠ q.z.v

theorem PSim.mono {K : Kind} {D E : Nat → Prop} {p : Big} {s s' : BigSt} {q : PPtR} {Q : PPt} (h : PSim D E p s q Q) (g : Grow K s s') :
    PSim D E p s' q Q := ⟨h.c.mono g, h.x.mono g, h.y.mono g, h.z.mono g, h.xy, h.xz, h.yz⟩

/-- A Jacobian point. -/
structure JSim (D E : Nat → Prop) (p : Big) (s : BigSt) (q : JPtR) (Q : JPt) : Prop where
  c : OSim E p s q.curve Q.curve
  x : FeSim D E p s q.x Q.x
  y : FeSim D E p s q.y Q.y
  z : FeSim D E p s q.z Q.z
  xy : q.x.v ≠ q.y.v
  xz : q.x.v ≠ q.z.v
  yz : q.y.v ≠ q.z.v

theorem JSim.mono {K : Kind} {D E : Nat → Prop} {p : Big} {s s' : BigSt} {q : JPtR} {Q : JPt} (h : JSim D E p s q Q) (g : Grow K s s') :
    JSim D E p s' q Q := ⟨h.c.mono g, h.x.mono g, h.y.mono g, h.z.mono g, h.xy, h.xz, h.yz⟩

/-- The objects below `n`. -/
def Since (n : Nat) : Nat → Prop := fun i => i < n

/-- The objects there are now. -/
theorem Ctx.mark {K : Kind} {D : Nat → Prop} {s : BigSt} (C : Ctx K D s) :
    ∃ n, n = s.mem.objs.length ∧ Ctx K (Since n) s ∧ ∀ i, D i → i < n := ⟨_, rfl, ⟨C.inv, fun _ h => h⟩, C.dlt⟩

section
variable {D E : Nat → Prop} {p : Big} {s : BigSt} {n : Nat}

theorem RepD.below {i : Nat} {X : Big} (h : RepD D s i X) (hn : n = s.mem.objs.length) : i < n := hn ▸ h.rep.lt
theorem RepD.old {i : Nat} {X : Big} (h : RepD (Since n) s i X) (w : ∀ i, D i → i < n) : RepD D s i X := ⟨h.rep, fun e => h.nd (w _ e)⟩
theorem RepD.after {j : Nat} {X : Big} (h : RepD (Since n) s j X) {i : Nat} (k : i < n) : i ≠ j :=
  fun e => h.nd (show j < n from e ▸ k)
theorem FeSim.below {a : FeR} {A : Fe} (h : FeSim D E p s a A) (hn : n = s.mem.objs.length) : a.v < n := hn ▸ h.v.rep.lt
theorem FeSim.old {a : FeR} {A : Fe} (h : FeSim (Since n) E p s a A) (w : ∀ i, D i → i < n) : FeSim D E p s a A :=
  ⟨⟨h.v.rep, fun e => h.v.nd (w _ e)⟩, h.elt, h.pm⟩
theorem FeSim.after {a : FeR} {A : Fe} (h : FeSim (Since n) E p s a A) {i : Nat} (k : i < n) : i ≠ a.v :=
  fun e => h.v.nd (show a.v < n from e ▸ k)
end

set_option hygiene false in
/-- One field operation of both programs; `Cn` says which objects the result is not. -/
macro "fec" Cn:ident h:ident : tactic => `(tactic|
  (refine Sim.bind (R := FeSim _ _ p) (by first
      | exact fe_mul F $Cn (by assumption) (by assumption)
      | exact fe_sub F $Cn (by assumption) (by assumption)
      | exact fe_sqr F $Cn (by assumption)
      | exact fe_mulS F $Cn (by assumption) (by decide) (by decide)
      | exact fe_add F $Cn (by assumption) (by assumption)
      | exact fe_div F $Cn (by assumption) (by assumption)
      | exact fe_neg F $Cn (by assumption)
      | exact fe_inv F $Cn (by assumption)) ?_
   intro s' _ _ g $h
   lift g))

set_option hygiene false in
/-- One field operation of both programs. -/
macro "fe" h:ident : tactic => `(tactic| fec C $h)

set_option hygiene false in
/-- A copy made by the code only. -/
macro "cpc" Cn:ident h:ident : tactic => `(tactic|
  (refine Sim.copy (p := p) $Cn (by assumption) ?_
   intro s' _ g $h
   lift g))

set_option hygiene false in
/-- A copy made by the code only. -/
macro "cp" h:ident : tactic => `(tactic| cpc C $h)

set_option hygiene false in
/-- From now on: the objects below `n` are those there are now. -/
macro "mark" n:ident Cn:ident w:ident : tactic => `(tactic| obtain ⟨$n, hn, $Cn, $w⟩ := C.mark)

section
variable {K : Kind} {D D1 D2 D3 E : Nat → Prop} {p : Big} {P fuel : ℕ} {s : BigSt} (F : FC K p P fuel) (C : Ctx K D s)

theorem curve_sim {c : Option CurveR} {C' : Option Curve} (I : Inv K s.mem) (h : OSim E p s c C') :
    Sim K (CSim E p) s (curveR c) (curveOf C') := by
  rcases h with ⟨rfl, rfl⟩ | ⟨c', C', rfl, rfl, h⟩
  · exact Sim.halt _
  · exact Sim.pure I h

set_option hygiene false in
/-- Following the pointer to the curve. -/
macro "cv" h:ident : tactic => `(tactic|
  (refine Sim.bind (R := CSim _ p) (curve_sim C.inv (by assumption)) ?_
   intro s' _ _ g $h
   lift g))

/-! ### Affine points -/

theorem apt_isIdentity {q : APtR} {Q : APt} (h : ASim D1 E p s q Q) : Is s q.isIdentity Q.isIdentity := by
  unfold APtR.isIdentity APt.isIdentity
  rw [h.c.isNone]
  exact Is.or (Is.bind (fe_isZero h.x) (Is.and (fe_isZero h.y)))

include C

theorem apt_copy {q : APtR} {Q : APt} (h : ASim D1 E p s q Q) : Sim K (ASim D E p) s (q.copy K) (.ok Q) := by
  obtain ⟨hc, hx, hy⟩ := h
  unfold APtR.copy
  cp h1
  mark n Cn w
  have k := h1.below hn
  cpc Cn h2
  exact Sim.pure C.inv ⟨hc, h1, h2.old w, h2.after k⟩

include F

theorem apt_identity : Sim K (ASim D E p) s (APtR.identity K) (.ok APt.identity) := by
  unfold APtR.identity
  refine Sim.zero (E := E) F C fun s' _ g h1 => ?_
  lift g
  mark n Cn w
  have k := h1.below hn
  refine Sim.zero (E := E) F Cn fun s' _ g h2 => ?_
  lift g
  exact Sim.pure C.inv ⟨OSim.null, h1, h2.old w, h2.after k⟩

theorem apt_isOnCurve {q : APtR} {Q : APt} (h : ASim D1 E p s q Q) :
    Sim K (fun _ a b => a = b) s (q.isOnCurve K) (Q.isOnCurve K.lim) := by
  unfold APtR.isOnCurve APt.isOnCurve
  refine Sim.test C.inv (apt_isIdentity h) (Sim.ite (fun _ => Sim.pure C.inv rfl) fun _ => ?_)
  obtain ⟨hc, hx, hy⟩ := h
  fe h1
  fe h2
  cv h3
  refine Sim.bind (fe_addB F C h2 h3.a h3.ea) ?_
  intro s' _ _ g h4
  lift g
  fe h5
  refine Sim.bind (fe_addB F C h5 h3.b h3.eb) ?_
  intro s' _ _ g h6
  lift g
  fe h7
  exact ⟨_, _, fe_eqS h7 0, Grow.refl C.inv, rfl⟩

theorem apt_inverted {q : APtR} {Q : APt} (h : ASim D1 E p s q Q) : Sim K (ASim D E p) s (q.inverted K) (Q.inverted K.lim) := by
  unfold APtR.inverted APt.inverted
  refine Sim.test C.inv (apt_isIdentity h) (Sim.ite (fun _ => apt_copy C h) fun _ => ?_)
  obtain ⟨hc, hx, hy⟩ := h
  cv h1
  cp h2
  mark n Cn w
  have k := h2.below hn
  fec Cn h3
  exact Sim.pure C.inv ⟨OSim.some h1, h2, h3.old w, h3.after k⟩

theorem apt_doubled {q : APtR} {Q : APt} (h : ASim D1 E p s q Q) : Sim K (ASim D E p) s (q.doubled K fuel) (Q.doubled K.lim) := by
  unfold APtR.doubled APt.doubled
  refine Sim.test C.inv (apt_isIdentity h) (Sim.test C.inv (Is.or (fe_isZero h.y)) (Sim.ite (fun _ => apt_identity F C) fun _ => ?_))
  obtain ⟨hc, hx, hy⟩ := h
  fe h1
  fe h2
  cv h3
  refine Sim.bind (fe_addB F C h2 h3.a h3.ea) ?_
  intro s' _ _ g h4
  lift g
  fe h5
  fe h6
  fe h7
  fe h8
  fe h9
  fe h10
  fe h11
  mark n Cn w
  have k := h9.below hn
  fec Cn h12
  exact Sim.pure C.inv ⟨OSim.some h3, h9, h12.old w, h12.after k⟩

theorem apt_add {q a : APtR} {Q A : APt} (h : ASim D1 E p s q Q) (h' : ASim D2 E p s a A) :
    Sim K (ASim D E p) s (q.add K fuel a) (Q.add K.lim A) := by
  unfold APtR.add APt.add
  refine Sim.test C.inv (apt_isIdentity h) (Sim.ite (fun _ => apt_copy C h') fun _ => ?_)
  refine Sim.test C.inv (apt_isIdentity h') (Sim.ite (fun _ => apt_copy C h) fun _ => ?_)
  have hx := h.x
  have hy := h.y
  have hx' := h'.x
  have hy' := h'.y
  fe h1
  refine Sim.test C.inv (fe_isZero h1) (Sim.ite (fun _ => ?_) fun _ => ?_)
  · exact Sim.test C.inv (fe_eq hy hy') (Sim.ite (fun _ => apt_doubled F C h) fun _ => apt_identity F C)
  · fe h2
    fe h3
    fe h4
    fe h5
    fe h6
    fe h7
    fe h8
    mark n Cn w
    have k := h6.below hn
    fec Cn h9
    have hc := h.c
    cv h10
    exact Sim.pure C.inv ⟨OSim.some h10, h6, h9.old w, h9.after k⟩

end

/-! ### The double-and-add loop: the local copy of the scalar, object `n`, is shifted in place -/

/-- `s'` has at least the objects of `s`; all but `n` have the values they had. -/
structure GrowN (K : Kind) (n : Nat) (s s' : BigSt) : Prop where
  inv : Inv K s'.mem
  keep : ∀ i X, i ≠ n → Rep s i X → Rep s' i X
  len : s.mem.objs.length ≤ s'.mem.objs.length

theorem GrowN.trans {K : Kind} {n : Nat} {s s1 s2 : BigSt} (g : GrowN K n s s1) (h : GrowN K n s1 s2) : GrowN K n s s2 :=
  ⟨h.inv, fun i X hi r => h.keep i X hi (g.keep i X hi r), Nat.le_trans g.len h.len⟩
theorem Grow.toN {K : Kind} {s s' : BigSt} (n : Nat) (g : Grow K s s') : GrowN K n s s' := ⟨g.inv, fun i X _ r => g.keep i X r, g.len⟩

/-- `Sim` for a function that also changes object `n`. -/
def SimN (K : Kind) (n : Nat) {α β : Type} (R : BigSt → α → β → Prop) (s : BigSt) (m : M α) (v : Res β) : Prop :=
  match v with
  | .ok b => ∃ a s', m s = .ok (a, s') ∧ GrowN K n s s' ∧ R s' a b
  | .error e => m s = .error e

section
variable {K : Kind} {n : Nat} {α β γ δ : Type} {R : BigSt → α → β → Prop} {R' : BigSt → γ → δ → Prop} {s : BigSt}

theorem Sim.toN {m : M α} {v : Res β} (h : Sim K R s m v) : SimN K n R s m v := by
  cases v with
  | error e => exact h
  | ok b => obtain ⟨a, s', h, g, r⟩ := h; exact ⟨a, s', h, g.toN n, r⟩

theorem SimN.step {m : M γ} {f : γ → M α} {v : Res β} {a : γ} {s' : BigSt} (h : m s = .ok (a, s')) (g : GrowN K n s s')
    (k : SimN K n R s' (f a) v) : SimN K n R s (m >>= f) v := by
  unfold SimN at *
  rw [bind_run h]
  cases v with
  | error e => exact k
  | ok b =>
    obtain ⟨a', s2, h2, g2, r2⟩ := k
    exact ⟨a', s2, h2, g.trans g2, r2⟩

theorem SimN.bind {m : M α} {v : Res β} {f : α → M γ} {g : β → Res δ} (h : Sim K R s m v)
    (k : ∀ s' a b, Grow K s s' → R s' a b → SimN K n R' s' (f a) (g b)) : SimN K n R' s (m >>= f) (v >>= g) := by
  cases v with
  | error e => exact bind_err h
  | ok b =>
    obtain ⟨a, s', h, gr, r⟩ := h
    exact SimN.step h (gr.toN n) (k s' a b gr r)
end

theorem ladder_sim {K : Kind} {α β : Type} {D : Nat → Prop} {n : Nat} {R : BigSt → α → β → Prop}
    {add : α → α → M α} {dbl : α → M α} {Add : β → β → Res β} {Dbl : β → Res β}
    (mono : ∀ s s' a b, GrowN K n s s' → R s a b → R s' a b)
    (hadd : ∀ s a b A B, Ctx K D s → R s a A → R s b B → Sim K R s (add a b) (Add A B))
    (hdbl : ∀ s a A, Ctx K D s → R s a A → Sim K R s (dbl a) (Dbl A)) : ∀ (f : Nat) (s : BigSt) (r tmp : α) (r' tmp' : β) (X : Big),
    Ctx K D s → Rep s n X → R s r r' → R s tmp tmp' → SimN K n R s (ladderR K add dbl f r tmp n) (ladder Add Dbl f r' tmp' X)
  | 0, s, r, tmp, r', tmp', X, _, _, _, _ => rfl
  | f + 1, s, r, tmp, r', tmp', X, C, hn, hr, ht => by
    rw [ladderR, ladder]
    refine SimN.step (a := Big.eqS X 0) (s' := s) (Is.ask (eqS_mem hn 0)) ((Grow.refl C.inv).toN n) ?_
    cases Big.eqS X 0 with
    | true => exact (Sim.pure C.inv hr).toN
    | false =>
      simp only [Bool.not_false, if_true]
      refine SimN.step (a := X.isOdd) (s' := s) (Is.ask (isOdd_mem hn)) ((Grow.refl C.inv).toN n) ?_
      refine SimN.bind (R := R) (Sim.ite (fun _ => hadd s _ _ _ _ C hr ht) fun _ => Sim.pure C.inv hr) ?_
      intro s1 r1 r1' g1 hr1
      have C1 := C.mono g1
      have ht1 := mono _ _ _ _ (g1.toN n) ht
      refine SimN.bind (hdbl s1 _ _ C1 ht1) ?_
      intro s2 t2 t2' g2 ht2
      have C2 := C1.mono g2
      have hr2 := mono _ _ _ _ (g2.toN n) hr1
      have hn2 := g2.keep _ _ (g1.keep _ _ hn)
      obtain ⟨s3, e3, P3⟩ := shr_spec C2.inv hn2 hn2 1
      have g3 : GrowN K n s2 s3 := ⟨P3.inv, P3.frame, Nat.le_of_eq P3.len.symm⟩
      have C3 : Ctx K D s3 := ⟨P3.inv, fun i h => by rw [P3.len]; exact C2.dlt i h⟩
      exact SimN.step (a := ()) (s' := s3) (by unfold change; dsimp only; rw [e3]; rfl) g3
        (ladder_sim mono hadd hdbl f s3 r1 t2 r1' t2' _ C3 P3.res (mono _ _ _ _ g3 hr2) (mono _ _ _ _ g3 ht2))

/-- `D` and the new object `n`. -/
def Plus (D : Nat → Prop) (n : Nat) : Nat → Prop := fun i => D i ∨ i = n

section weak
variable {K : Kind} {D E : Nat → Prop} {p : Big} {n : Nat} {s s' : BigSt}

theorem RepD.plus {i : Nat} {X : Big} (h : RepD D s i X) (hn : s.mem.objs.length ≤ n) : RepD (Plus D n) s i X :=
  ⟨h.rep, fun e => e.elim h.nd fun e => by have := h.rep.lt; omega⟩
theorem RepD.less {i : Nat} {X : Big} (h : RepD (Plus D n) s i X) : RepD D s i X := ⟨h.rep, fun e => h.nd (Or.inl e)⟩
theorem RepD.monoN {i : Nat} {X : Big} (h : RepD (Plus D n) s i X) (g : GrowN K n s s') : RepD (Plus D n) s' i X :=
  ⟨g.keep _ _ (fun e => h.nd (Or.inr e)) h.rep, h.nd⟩

theorem FeSim.plus {a : FeR} {A : Fe} (h : FeSim D E p s a A) (hn : s.mem.objs.length ≤ n) : FeSim (Plus D n) (Plus E n) p s a A :=
  ⟨h.v.plus hn, h.elt, h.pm.imp id fun ⟨i, h1, h2, h3⟩ => ⟨i, h1, h2, h3.plus hn⟩⟩
theorem FeSim.less {a : FeR} {A : Fe} (h : FeSim (Plus D n) (Plus E n) p s a A) : FeSim D E p s a A :=
  ⟨h.v.less, h.elt, h.pm.imp id fun ⟨i, h1, h2, h3⟩ => ⟨i, h1, h2, h3.less⟩⟩
theorem FeSim.monoN {a : FeR} {A : Fe} (h : FeSim (Plus D n) (Plus E n) p s a A) (g : GrowN K n s s') : FeSim (Plus D n) (Plus E n) p s' a A :=
  ⟨h.v.monoN g, h.elt, h.pm.imp id fun ⟨i, h1, h2, h3⟩ => ⟨i, h1, h2, h3.monoN g⟩⟩

theorem CSim.plus {c : CurveR} {C : Curve} (h : CSim D p s c C) (hn : s.mem.objs.length ≤ n) : CSim (Plus D n) p s c C :=
  ⟨h.addr, h.hp, h.rp.plus hn, h.a.plus hn, h.b.plus hn, h.gx.plus hn, h.gy.plus hn, h.n.plus hn, h.h, h.m3, h.z, h.pn.plus hn, h.ea, h.eb, h.ng⟩
theorem CSim.less {c : CurveR} {C : Curve} (h : CSim (Plus D n) p s c C) : CSim D p s c C :=
  ⟨h.addr, h.hp, h.rp.less, h.a.less, h.b.less, h.gx.less, h.gy.less, h.n.less, h.h, h.m3, h.z, h.pn.less, h.ea, h.eb, h.ng⟩
theorem CSim.monoN {c : CurveR} {C : Curve} (h : CSim (Plus D n) p s c C) (g : GrowN K n s s') : CSim (Plus D n) p s' c C :=
  ⟨h.addr, h.hp, h.rp.monoN g, h.a.monoN g, h.b.monoN g, h.gx.monoN g, h.gy.monoN g, h.n.monoN g, h.h, h.m3, h.z, h.pn.monoN g, h.ea, h.eb, h.ng⟩

theorem OSim.plus {c : Option CurveR} {C : Option Curve} (h : OSim D p s c C) (hn : s.mem.objs.length ≤ n) : OSim (Plus D n) p s c C :=
  h.imp id fun ⟨c', C', h1, h2, h3⟩ => ⟨c', C', h1, h2, h3.plus hn⟩
theorem OSim.less {c : Option CurveR} {C : Option Curve} (h : OSim (Plus D n) p s c C) : OSim D p s c C :=
  h.imp id fun ⟨c', C', h1, h2, h3⟩ => ⟨c', C', h1, h2, h3.less⟩
theorem OSim.monoN {c : Option CurveR} {C : Option Curve} (h : OSim (Plus D n) p s c C) (g : GrowN K n s s') : OSim (Plus D n) p s' c C :=
  h.imp id fun ⟨c', C', h1, h2, h3⟩ => ⟨c', C', h1, h2, h3.monoN g⟩

theorem ASim.plus {q : APtR} {Q : APt} (h : ASim D E p s q Q) (hn : s.mem.objs.length ≤ n) : ASim (Plus D n) (Plus E n) p s q Q :=
  ⟨h.c.plus hn, h.x.plus hn, h.y.plus hn, h.xy⟩
theorem ASim.less {q : APtR} {Q : APt} (h : ASim (Plus D n) (Plus E n) p s q Q) : ASim D E p s q Q := ⟨h.c.less, h.x.less, h.y.less, h.xy⟩
theorem ASim.monoN {q : APtR} {Q : APt} (h : ASim (Plus D n) (Plus E n) p s q Q) (g : GrowN K n s s') : ASim (Plus D n) (Plus E n) p s' q Q :=
  ⟨h.c.monoN g, h.x.monoN g, h.y.monoN g, h.xy⟩

theorem PSim.plus {q : PPtR} {Q : PPt} (h : PSim D E p s q Q) (hn : s.mem.objs.length ≤ n) : PSim (Plus D n) (Plus E n) p s q Q :=
  ⟨h.c.plus hn, h.x.plus hn, h.y.plus hn, h.z.plus hn, h.xy, h.xz, h.yz⟩
theorem PSim.less {q : PPtR} {Q : PPt} (h : PSim (Plus D n) (Plus E n) p s q Q) : PSim D E p s q Q := ⟨h.c.less, h.x.less, h.y.less, h.z.less, h.xy, h.xz, h.yz⟩
theorem PSim.monoN {q : PPtR} {Q : PPt} (h : PSim (Plus D n) (Plus E n) p s q Q) (g : GrowN K n s s') : PSim (Plus D n) (Plus E n) p s' q Q :=
  ⟨h.c.monoN g, h.x.monoN g, h.y.monoN g, h.z.monoN g, h.xy, h.xz, h.yz⟩
end weak

/-- The loop as it is called: on a new copy of the scalar. -/
theorem ladder_call {K : Kind} {α β : Type} {D D3 E : Nat → Prop} {s : BigSt} {R : (Nat → Prop) → (Nat → Prop) → BigSt → α → β → Prop}
    {add : α → α → M α} {dbl : α → M α} {Add : β → β → Res β} {Dbl : β → Res β} (C : Ctx K D s)
    (plus : ∀ n a b, s.mem.objs.length ≤ n → R D E s a b → R (Plus D n) (Plus E n) s a b)
    (less : ∀ n s' a b, R (Plus D n) (Plus E n) s' a b → R D E s' a b)
    (monoN : ∀ n s s' a b, GrowN K n s s' → R (Plus D n) (Plus E n) s a b → R (Plus D n) (Plus E n) s' a b)
    (hadd : ∀ D E s a b A B, Ctx K D s → R D E s a A → R D E s b B → Sim K (R D E) s (add a b) (Add A B))
    (hdbl : ∀ D E s a A, Ctx K D s → R D E s a A → Sim K (R D E) s (dbl a) (Dbl A)) {f k : Nat} {X : Big} {r tmp : α} {r' tmp' : β}
    (hk : RepD D3 s k X) (hr : R D E s r r') (ht : R D E s tmp tmp') :
    Sim K (R D E) s (do
      let b ← ask fun s => s.bitLength k
      let n ← newObj fun s => s.copyNew K k
      ladderR K add dbl (b + f) r tmp n) (ladder Add Dbl (X.bitLength + f) r' tmp' X) := by
  refine Sim.test C.inv (Is.ask (bitLength_eq hk.rep)) ?_
  obtain ⟨s1, e1, N⟩ := copyNew_new C.inv hk.rep
  have C1 : Ctx K (Plus D s.mem.objs.length) s1 :=
    ⟨N.inv, fun i h => by rw [N.len]; exact h.elim (fun h => Nat.lt_succ_of_lt (C.dlt i h)) (fun h => by omega)⟩
  have G := N.grow.toN s.mem.objs.length
  have h := ladder_sim (n := s.mem.objs.length) (fun t s' a b => monoN s.mem.objs.length t s' a b) (fun s a b A B => hadd _ _ s a b A B)
    (fun s a A => hdbl _ _ s a A) (X.bitLength + f) s1 r tmp r' tmp' X C1 N.res (monoN _ _ _ _ _ G (plus _ _ _ (Nat.le_refl _) hr))
    (monoN _ _ _ _ _ G (plus _ _ _ (Nat.le_refl _) ht))
  revert h
  unfold Sim SimN
  rw [bind_run (newObj_run e1)]
  cases ladder Add Dbl (X.bitLength + f) r' tmp' X with
  | error e => exact id
  | ok b =>
    rintro ⟨a, s', h, g, r⟩
    have hl := N.len
    exact ⟨a, s', h, ⟨g.inv, fun i X hX => g.keep i X (Nat.ne_of_lt hX.lt) (N.frame i X hX), by have := g.len; omega⟩, less _ _ _ _ r⟩

section
variable {K : Kind} {D D1 D2 D3 E : Nat → Prop} {p : Big} {P fuel : ℕ} {s : BigSt} (F : FC K p P fuel) (C : Ctx K D s)
include F C

theorem apt_mulNN {q : APtR} {Q : APt} {k : Nat} {X : Big} (h : ASim D1 E p s q Q) (hk : RepD D3 s k X) :
    Sim K (ASim D E p) s (q.mulNN K fuel k) (Q.mulNN K.lim X) := by
  unfold APtR.mulNN APt.mulNN
  refine Sim.test C.inv (Is.ask (isOne_eq hk.rep)) (Sim.test C.inv (Is.or (apt_isIdentity h)) (Sim.ite (fun _ => apt_copy C h) fun _ => ?_))
  refine Sim.test C.inv (Is.ask (isZero_eq hk.rep)) (Sim.ite (fun _ => apt_identity F C) fun _ => ?_)
  obtain ⟨a1, s1, e1, g1, h1⟩ := apt_identity (E := E) F C
  refine Sim.step e1 g1 ?_
  lift g1
  obtain ⟨a2, s2, e2, g2, h2⟩ := apt_copy C h
  refine Sim.step e2 g2 ?_
  lift g2
  exact ladder_call (R := fun D E => ASim D E p) C (fun n a b hn h => h.plus hn) (fun n s a b h => h.less) (fun n s s' a b g h => h.monoN g)
    (fun D E s a b A B C h h' => apt_add F C h h') (fun D E s a A C h => apt_doubled F C h) hk h1 h2

theorem apt_mul {q : APtR} {Q : APt} {k : Nat} {X : Big} (h : ASim D1 E p s q Q) (hk : RepD D3 s k X) :
    Sim K (ASim D E p) s (q.mul K fuel k) (Q.mul K.lim X) := by
  unfold APtR.mul APt.mul
  refine Sim.test C.inv (Is.ask (isOne_eq hk.rep)) (Sim.test C.inv (Is.or (apt_isIdentity h)) (Sim.ite (fun _ => apt_copy C h) fun _ => ?_))
  refine Sim.test C.inv (Is.ask (isZero_eq hk.rep)) (Sim.ite (fun _ => apt_identity F C) fun _ => ?_)
  refine Sim.test C.inv (Is.ask (ltS_mem hk.rep 0)) (Sim.ite (fun _ => ?_) fun _ => apt_mulNN F C h hk)
  refine Sim.bind (apt_inverted F C h) ?_
  intro s1 _ _ g h1
  lift g
  obtain ⟨s2, e2, N2⟩ := negNew_exact F.M C.inv hk.rep
  exact Sim.step (newObj_run e2) N2.grow (apt_mulNN F (C.mono N2.grow) (h1.mono N2.grow) (C.fresh N2))

theorem apt_isValid {q : APtR} {Q : APt} (h : ASim D1 E p s q Q) :
    Sim K (fun _ a b => a = b) s (q.isValid K fuel) (Q.isValid K.lim) := by
  unfold APtR.isValid APt.isValid
  refine Sim.test C.inv (apt_isIdentity h) (Sim.ite (fun _ => Sim.pure C.inv rfl) fun _ => ?_)
  refine Sim.bind (apt_isOnCurve F C h) ?_
  intro s1 b _ g hb
  subst hb
  lift g
  refine Sim.ite (fun _ => Sim.pure C.inv rfl) fun _ => ?_
  have hc := h.c
  cv h1
  refine Sim.bind (apt_mul F C h h1.n) ?_
  intro s2 m m' g h2
  lift g
  exact Sim.test C.inv (apt_isIdentity h2) (Sim.ite (fun _ => Sim.pure C.inv rfl) fun _ => Sim.pure C.inv rfl)

/-! ### Projective points -/

omit F C in
theorem ppt_isIdentity {q : PPtR} {Q : PPt} (h : PSim D1 E p s q Q) : Is s q.isIdentity Q.isIdentity := by
  unfold PPtR.isIdentity PPt.isIdentity
  rw [h.c.isNone]
  exact Is.or (fe_isZero h.z)

omit F in
theorem ppt_copy {q : PPtR} {Q : PPt} (h : PSim D1 E p s q Q) : Sim K (PSim D E p) s (q.copy K) (.ok Q) := by
  obtain ⟨hc, hx, hy, hz⟩ := h
  unfold PPtR.copy
  cp h1
  mark n Cn w
  have k := h1.below hn
  cpc Cn h2
  mark n' Cn' w'
  have k1 := h1.below hn
  have k2 := h2.below hn
  cpc Cn' h3
  exact Sim.pure C.inv ⟨hc, h1, h2.old w, h3.old w', h2.after k, h3.after k1, h3.after k2⟩

theorem ppt_identity : Sim K (PSim D E p) s (PPtR.identity K) (.ok PPt.identity) := by
  unfold PPtR.identity
  refine Sim.zero (E := E) F C fun s' _ g h1 => ?_
  lift g
  mark n Cn w
  have k := h1.below hn
  refine Sim.one (E := E) F Cn fun s' _ g h2 => ?_
  lift g
  mark n' Cn' w'
  have k1 := h1.below hn
  have k2 := h2.below hn
  refine Sim.zero (E := E) F Cn' fun s' _ g h3 => ?_
  lift g
  exact Sim.pure C.inv ⟨OSim.null, h1, h2.old w, h3.old w', h2.after k, h3.after k1, h3.after k2⟩

theorem ppt_ofAffine {q : APtR} {Q : APt} (h : ASim D1 E p s q Q) : Sim K (PSim D E p) s (PPtR.ofAffine K q) (PPt.ofAffine Q) := by
  unfold PPtR.ofAffine PPt.ofAffine
  refine Sim.test C.inv (apt_isIdentity h) (Sim.ite (fun _ => ?_) fun _ => ppt_identity F C)
  obtain ⟨hc, hx, hy⟩ := h
  cv h1
  cp h2
  mark n Cn w
  have k := h2.below hn
  cpc Cn h3
  mark n' Cn' w'
  have k2 := h2.below hn
  have k3 := h3.below hn
  refine Sim.ofWord F Cn' h1.rp (by decide) (k32 := 1) (by decide) fun s' _ g h4 => ?_
  lift g
  exact Sim.pure C.inv ⟨OSim.some h1, h2, h3.old w, by rw [h1.hp]; exact h4.old w', h3.after k, h4.after k2, h4.after k3⟩

theorem ppt_toAffine {q : PPtR} {Q : PPt} (h : PSim D1 E p s q Q) : Sim K (ASim D E p) s (q.toAffine K fuel) (Q.toAffine K.lim) := by
  unfold PPtR.toAffine PPt.toAffine
  refine Sim.test C.inv (ppt_isIdentity h) (Sim.ite (fun _ => apt_identity F C) fun _ => ?_)
  refine Sim.test C.inv (fe_isOne h.z) (Sim.ite (fun _ => ?_) fun _ => ?_)
  · obtain ⟨hc, hx, hy, hz⟩ := h
    cv h1
    cp h2
    mark n Cn w
    have k := h2.below hn
    cpc Cn h3
    exact Sim.pure C.inv ⟨OSim.some h1, h2, h3.old w, h3.after k⟩
  · obtain ⟨hc, hx, hy, hz⟩ := h
    fe h1
    cv h2
    fe h3
    mark n Cn w
    have k := h3.below hn
    fec Cn h4
    exact Sim.pure C.inv ⟨OSim.some h2, h3, h4.old w, h4.after k⟩

theorem ppt_inverted {q : PPtR} {Q : PPt} (h : PSim D1 E p s q Q) : Sim K (PSim D E p) s (q.inverted K) (Q.inverted K.lim) := by
  unfold PPtR.inverted PPt.inverted
  refine Sim.test C.inv (ppt_isIdentity h) (Sim.ite (fun _ => ppt_copy C h) fun _ => ?_)
  obtain ⟨hc, hx, hy, hz⟩ := h
  cv h1
  cp h2
  mark n Cn w
  have k := h2.below hn
  fec Cn h3
  mark n' Cn' w'
  have k2 := h2.below hn
  have k3 := h3.below hn
  cpc Cn' h4
  exact Sim.pure C.inv ⟨OSim.some h1, h2, h3.old w, h4.old w', h3.after k, h4.after k2, h4.after k3⟩

theorem ppt_tangent {q : PPtR} {Q : PPt} (h : PSim D1 E p s q Q) : Sim K (FeSim D E p) s (q.tangent K) (Q.tangent K.lim) := by
  unfold PPtR.tangent PPt.tangent
  obtain ⟨hc, hx, hy, hz⟩ := h
  fe h1
  cv h2
  rw [h2.z, h2.m3]
  refine Sim.ite (fun _ => fe_mulS F C h1 (by decide) (by decide)) fun _ => Sim.ite (fun _ => ?_) fun _ => ?_
  · fe h3
    fe h4
    exact fe_mulS F C h4 (by decide) (by decide)
  · fe h3
    fe h4
    refine Sim.bind (fe_bigMul F C h4 h2.a h2.ea) ?_
    intro s' _ _ g h5
    lift g
    exact fe_add F C h3 h5

theorem ppt_doubled {q : PPtR} {Q : PPt} (h : PSim D1 E p s q Q) : Sim K (PSim D E p) s (q.doubled K) (Q.doubled K.lim) := by
  unfold PPtR.doubled PPt.doubled
  refine Sim.test C.inv (ppt_isIdentity h) (Sim.test C.inv (Is.or (fe_eqS h.y 0)) (Sim.ite (fun _ => ppt_identity F C) fun _ => ?_))
  refine Sim.bind (ppt_tangent F C h) ?_
  intro s' _ _ g h1
  lift g
  obtain ⟨hc, hx, hy, hz⟩ := h
  fe h2
  fe h3
  fe h4
  fe h5
  fe h6
  fe h7
  fe h8
  fe h9
  fe h10
  fe h11
  fe h12
  fe h13
  fe h14
  fe h15
  mark n Cn w
  have k := h9.below hn
  fec Cn h16
  mark n' Cn' w'
  have k1 := h9.below hn
  have k2 := h16.below hn
  fec Cn' h17
  cv h18
  exact Sim.pure C.inv ⟨OSim.some h18, h9, h16.old w, h17.old w', h16.after k, h17.after k1, h17.after k2⟩

theorem ppt_add {q a : PPtR} {Q A : PPt} (h : PSim D1 E p s q Q) (h' : PSim D2 E p s a A) :
    Sim K (PSim D E p) s (q.add K a) (Q.add K.lim A) := by
  unfold PPtR.add PPt.add
  refine Sim.test C.inv (ppt_isIdentity h) (Sim.ite (fun _ => ppt_copy C h') fun _ => ?_)
  refine Sim.test C.inv (ppt_isIdentity h') (Sim.ite (fun _ => ppt_copy C h) fun _ => ?_)
  have hx := h.x
  have hy := h.y
  have hz := h.z
  have hx' := h'.x
  have hy' := h'.y
  have hz' := h'.z
  fe h1
  fe h2
  fe h3
  fe h4
  refine Sim.test C.inv (fe_eq h3 h4) (Sim.ite (fun _ => ?_) fun _ => ?_)
  · exact Sim.test C.inv (fe_eq h1 h2) (Sim.ite (fun _ => ppt_doubled F C h) fun _ => ppt_identity F C)
  · clear h' hx hy hx' hy'
    have hc := h.c
    clear h
    fe h5
    fe h6
    fe h7
    fe h8
    fe h9
    fe h10
    fe h11
    fe h12
    fe h13
    fe h14
    fe h15
    fe h16
    fe h17
    fe h18
    fe h19
    mark n Cn w
    have k := h15.below hn
    fec Cn h20
    mark n' Cn' w'
    have k1 := h15.below hn
    have k2 := h20.below hn
    fec Cn' h21
    cv h22
    exact Sim.pure C.inv ⟨OSim.some h22, h15, h20.old w, h21.old w', h20.after k, h21.after k1, h21.after k2⟩

theorem ppt_mulNN {q : PPtR} {Q : PPt} {k : Nat} {X : Big} (h : PSim D1 E p s q Q) (hk : RepD D3 s k X) :
    Sim K (PSim D E p) s (q.mulNN K k) (Q.mulNN K.lim X) := by
  unfold PPtR.mulNN PPt.mulNN
  refine Sim.test C.inv (Is.ask (isOne_eq hk.rep)) (Sim.test C.inv (Is.or (ppt_isIdentity h)) (Sim.ite (fun _ => ppt_copy C h) fun _ => ?_))
  refine Sim.test C.inv (Is.ask (isZero_eq hk.rep)) (Sim.ite (fun _ => ppt_identity F C) fun _ => ?_)
  obtain ⟨a1, s1, e1, g1, h1⟩ := ppt_identity (E := E) F C
  refine Sim.step e1 g1 ?_
  lift g1
  obtain ⟨a2, s2, e2, g2, h2⟩ := ppt_copy C h
  refine Sim.step e2 g2 ?_
  lift g2
  exact ladder_call (R := fun D E => PSim D E p) C (fun n a b hn h => h.plus hn) (fun n s a b h => h.less) (fun n s s' a b g h => h.monoN g)
    (fun D E s a b A B C h h' => ppt_add F C h h') (fun D E s a A C h => ppt_doubled F C h) hk h1 h2

theorem ppt_mul {q : PPtR} {Q : PPt} {k : Nat} {X : Big} (h : PSim D1 E p s q Q) (hk : RepD D3 s k X) :
    Sim K (PSim D E p) s (q.mul K k) (Q.mul K.lim X) := by
  unfold PPtR.mul PPt.mul
  refine Sim.test C.inv (Is.ask (isOne_eq hk.rep)) (Sim.test C.inv (Is.or (ppt_isIdentity h)) (Sim.ite (fun _ => ppt_copy C h) fun _ => ?_))
  refine Sim.test C.inv (Is.ask (isZero_eq hk.rep)) (Sim.ite (fun _ => ppt_identity F C) fun _ => ?_)
  refine Sim.test C.inv (Is.ask (ltS_mem hk.rep 0)) (Sim.ite (fun _ => ?_) fun _ => ppt_mulNN F C h hk)
  refine Sim.bind (ppt_inverted F C h) ?_
  intro s1 _ _ g h1
  lift g
  obtain ⟨s2, e2, N2⟩ := negNew_exact F.M C.inv hk.rep
  exact Sim.step (newObj_run e2) N2.grow (ppt_mulNN F (C.mono N2.grow) (h1.mono N2.grow) (C.fresh N2))

end
end Ack.Mem
