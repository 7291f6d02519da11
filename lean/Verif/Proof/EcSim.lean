import Verif.Proof.EcMem
import Verif.Spec.Passes
import Lean.Elab.Tactic
/-! # Functions on objects follow the functions on values: the relation and the field operations -/
namespace Ack.Mem

/-- `s'` has at least the objects of `s`, with the values they had. -/
structure Grow (K : Kind) (s s' : BigSt) : Prop where
  inv : Inv K s'.mem
  keep : ∀ i X, Rep s i X → Rep s' i X
  len : s.mem.objs.length ≤ s'.mem.objs.length

theorem Grow.refl {K : Kind} {s : BigSt} (I : Inv K s.mem) : Grow K s s := ⟨I, fun _ _ h => h, Nat.le_refl _⟩
theorem Grow.trans {K : Kind} {s s1 s2 : BigSt} (g : Grow K s s1) (h : Grow K s1 s2) : Grow K s s2 :=
  ⟨h.inv, fun i X r => h.keep i X (g.keep i X r), Nat.le_trans g.len h.len⟩
theorem New.grow {K : Kind} {s s' : BigSt} {R : Big} (N : New K s s' R) : Grow K s s' :=
  ⟨N.inv, N.frame, by rw [N.len]; omega⟩

/-- The objects in `D` (which may change) exist. -/
structure Ctx (K : Kind) (D : Nat → Prop) (s : BigSt) : Prop where
  inv : Inv K s.mem
  dlt : ∀ i, D i → i < s.mem.objs.length

theorem Ctx.mono {K : Kind} {D : Nat → Prop} {s s' : BigSt} (C : Ctx K D s) (g : Grow K s s') : Ctx K D s' :=
  ⟨g.inv, fun i h => Nat.lt_of_lt_of_le (C.dlt i h) g.len⟩

/-- Object `i` has the value `X` and will not be changed. -/
structure RepD (D : Nat → Prop) (s : BigSt) (i : Nat) (X : Big) : Prop where
  rep : Rep s i X
  nd : ¬ D i

theorem RepD.mono {K : Kind} {D : Nat → Prop} {s s' : BigSt} {i : Nat} {X : Big} (h : RepD D s i X) (g : Grow K s s') : RepD D s' i X :=
  ⟨g.keep _ _ h.rep, h.nd⟩

theorem Ctx.fresh {K : Kind} {D : Nat → Prop} {s s' : BigSt} {R : Big} (C : Ctx K D s) (N : New K s s' R) :
    RepD D s' s.mem.objs.length R := ⟨N.res, fun h => Nat.lt_irrefl _ (C.dlt _ h)⟩

/-- `m`, run on `s`, does what `v` says, with results related by `R`. -/
def Sim (K : Kind) {α β : Type} (R : BigSt → α → β → Prop) (s : BigSt) (m : M α) (v : Res β) : Prop :=
  match v with
  | .ok b => ∃ a s', m s = .ok (a, s') ∧ Grow K s s' ∧ R s' a b
  | .error e => m s = .error e

/-- `m` answers `b` and changes nothing. -/
def Is {α : Type} (s : BigSt) (m : M α) (b : α) : Prop := m s = .ok (b, s)

section
variable {K : Kind} {α β γ δ : Type} {R : BigSt → α → β → Prop} {R' : BigSt → γ → δ → Prop} {s : BigSt}

theorem Sim.pure {a : α} {b : β} (I : Inv K s.mem) (h : R s a b) : Sim K R s (Pure.pure a) (.ok b) :=
  ⟨a, s, rfl, Grow.refl I, h⟩

theorem Sim.halt (e : Err) : Sim K R s (Mem.halt e) (.error e) := rfl

theorem bind_run {m : M α} {f : α → M γ} {a : α} {s' : BigSt} (h : m s = .ok (a, s')) : (m >>= f) s = f a s' := by
  show (m s >>= fun x => f x.1 x.2) = _
  rw [h]; rfl

theorem bind_err {m : M α} {f : α → M γ} {e : Err} (h : m s = .error e) : (m >>= f) s = .error e := by
  show (m s >>= fun x => f x.1 x.2) = _
  rw [h]; rfl

theorem Sim.step {m : M γ} {f : γ → M α} {v : Res β} {a : γ} {s' : BigSt} (h : m s = .ok (a, s')) (g : Grow K s s')
    (k : Sim K R s' (f a) v) : Sim K R s (m >>= f) v := by
  unfold Sim at *
  rw [bind_run h]
  cases v with
  | error e => exact k
  | ok b =>
    obtain ⟨a', s2, h2, g2, r2⟩ := k
    exact ⟨a', s2, h2, g.trans g2, r2⟩

theorem Sim.bind {m : M α} {v : Res β} {f : α → M γ} {g : β → Res δ} (h : Sim K R s m v)
    (k : ∀ s' a b, Grow K s s' → R s' a b → Sim K R' s' (f a) (g b)) : Sim K R' s (m >>= f) (v >>= g) := by
  cases v with
  | error e => exact bind_err h
  | ok b =>
    obtain ⟨a, s', h, gr, r⟩ := h
    exact Sim.step h gr (k s' a b gr r)

theorem Sim.test {m : M γ} {f : γ → M α} {b : γ} {v : Res β} (I : Inv K s.mem) (h : Is s m b) (k : Sim K R s (f b) v) :
    Sim K R s (m >>= f) v := Sim.step h (Grow.refl I) k

theorem Sim.ite {c : Bool} {m n : M α} {v w : Res β} (h1 : c = true → Sim K R s m v) (h2 : c = false → Sim K R s n w) :
    Sim K R s (if c = true then m else n) (if c = true then v else w) := by
  cases c with
  | true => exact h1 rfl
  | false => exact h2 rfl

theorem Sim.mono {S : BigSt → α → β → Prop} {m : M α} {v : Res β} (h : Sim K R s m v) (hs : ∀ s' a b, R s' a b → S s' a b) :
    Sim K S s m v := by
  cases v with
  | error e => exact h
  | ok b => obtain ⟨a, s', h, g, r⟩ := h; exact ⟨a, s', h, g, hs _ _ _ r⟩

theorem Is.pure (a : α) : Is s (Pure.pure a) a := rfl
theorem Is.ask {f : BigSt → Res α} {b : α} (h : f s = .ok b) : Is s (Mem.ask f) b := by
  unfold Is Mem.ask; rw [h]; rfl
theorem Is.bind {m : M γ} {f : γ → M α} {a : γ} {b : α} (h : Is s m a) (k : Is s (f a) b) : Is s (m >>= f) b := by
  unfold Is at *; rw [bind_run h]; exact k
theorem Is.ite {c : Bool} {m n : M α} {a b : α} (h1 : c = true → Is s m a) (h2 : c = false → Is s n b) :
    Is s (if c = true then m else n) (if c = true then a else b) := by
  cases c with
  | true => exact h1 rfl
  | false => exact h2 rfl
/-- A test that answers `true` without looking further. -/
theorem Is.or {c d : Bool} {m : M Bool} (h : Is s m d) : Is s (if c = true then Pure.pure true else m) (c || d) := by
  cases c with
  | true => rfl
  | false => exact h
theorem Is.and {c d : Bool} {m : M Bool} (h : Is s m d) : Is s (if c = true then m else Pure.pure false) (c && d) := by
  cases c with
  | true => exact h
  | false => rfl
end

/-- What the field operations need of the modulus `p` and of the bound on the loops. -/
structure FC (K : Kind) (p : Big) (P fuel : ℕ) : Prop where
  M : Mod K.lim p P
  big : 8 < P
  hN : K.dyn = true → p.ws.length ≤ K.N
  hf : Spec.Passes P fuel

theorem FC.size {K : Kind} {p : Big} {P fuel : ℕ} (F : FC K p P fuel) : P.size ≤ fuel := by
  have := F.hf.1
  omega

/-- A field element: its value is reduced, and its pointer is null or to an object with the value `p`. -/
structure FeSim (D E : Nat → Prop) (p : Big) (s : BigSt) (a : FeR) (A : Fe) : Prop where
  v : RepD D s a.v A.v
  elt : Elt p A.v
  pm : (a.pm = none ∧ A.pm = none) ∨ ∃ i, a.pm = some i ∧ A.pm = some p ∧ RepD E s i p

theorem FeSim.mono {K : Kind} {D E : Nat → Prop} {p : Big} {s s' : BigSt} {a : FeR} {A : Fe} (h : FeSim D E p s a A) (g : Grow K s s') :
    FeSim D E p s' a A :=
  ⟨h.v.mono g, h.elt, h.pm.imp id fun ⟨i, h1, h2, h3⟩ => ⟨i, h1, h2, h3.mono g⟩⟩

open Lean Elab Tactic Meta in
/-- `lift g`: restate every hypothesis about the old state for the new one, by its `mono`. -/
elab "lift" g:ident : tactic => do
  let goal ← getMainGoal
  let (hs, old) ← goal.withContext do
    let gE ← elabTerm g none
    let env ← getEnv
    let mut hs : Array Hypothesis := #[]
    let mut old : Array FVarId := #[]
    for d in ← getLCtx do
      if d.isImplementationDetail then continue
      let ty ← instantiateMVars d.type
      if let some c := ty.getAppFn.constName? then
        let m := c ++ `mono
        if env.contains m then
          try
            let e ← mkAppM m #[mkFVar d.fvarId, gE]
            hs := hs.push { userName := d.userName, type := ← inferType e, value := e }
            old := old.push d.fvarId
          catch _ => pure ()
    return (hs, old)
  let (_, goal) ← goal.assertHypotheses hs
  let goal ← goal.tryClearMany old
  replaceMainGoal [goal]

section
variable {K : Kind} {D D1 D2 D3 E : Nat → Prop} {p : Big} {P fuel : ℕ} {s : BigSt} (F : FC K p P fuel) (C : Ctx K D s)

/-- Creating an object is a step. -/
theorem newObj_run {f : BigSt → Res BigSt} {s' : BigSt} (h : f s = .ok s') : newObj f s = .ok (s.mem.objs.length, s') := by
  unfold newObj; rw [h]; rfl
theorem newObj_err {f : BigSt → Res BigSt} {e : Err} (h : f s = .error e) : newObj f s = .error e := by
  unfold newObj; rw [h]; rfl

theorem fe_isOne {a : FeR} {A : Fe} (h : FeSim D1 E p s a A) : Is s a.isOne A.isOne := Is.ask (isOne_eq h.v.rep)
theorem fe_eq {a b : FeR} {A B : Fe} (h : FeSim D1 E p s a A) (h' : FeSim D2 E p s b B) : Is s (a.eq b) (A.eq B) :=
  Is.ask (opEq_mem h.v.rep h'.v.rep)
theorem fe_eqS {a : FeR} {A : Fe} (h : FeSim D1 E p s a A) (k : BitVec 32) : Is s (a.eqS k) (A.eqS k) := Is.ask (eqS_mem h.v.rep k)

theorem fe_isZero {a : FeR} {A : Fe} (h : FeSim D1 E p s a A) : Is s a.isZero A.isZero := by
  unfold FeR.isZero Fe.isZero
  refine Is.bind (fe_isOne h) ?_
  unfold Fe.isOne
  cases A.v.isOne with
  | true => exact Is.pure _
  | false =>
    rcases h.pm with ⟨e1, e2⟩ | ⟨i, e1, e2, r⟩
    · simp only [e1, e2]; exact Is.pure _
    · simp only [e1, e2]
      refine Is.bind (Is.ask (isZero_eq r.rep)) ?_
      cases p.isZero with
      | true => exact Is.pure _
      | false =>
        refine Is.bind (Is.ask (isOne_eq r.rep)) ?_
        cases p.isOne with
        | true => exact Is.pure _
        | false => exact Is.ask (isZero_eq h.v.rep)

include C

theorem fe_copy {a : FeR} {A : Fe} (h : FeSim D1 E p s a A) : Sim K (FeSim D E p) s (a.copy K) (.ok A) := by
  obtain ⟨s1, e1, N⟩ := copyNew_new C.inv h.v.rep
  refine ⟨_, s1, bind_run (newObj_run e1), N.grow, C.fresh N, h.elt, (h.mono N.grow).pm⟩

/-- A copy made by the code only. -/
theorem Sim.copy {α β : Type} {R : BigSt → α → β → Prop} {f : FeR → M α} {v : Res β} {a : FeR} {A : Fe} (h : FeSim D1 E p s a A)
    (k : ∀ s' a', Grow K s s' → FeSim D E p s' a' A → Sim K R s' (f a') v) : Sim K R s (a.copy K >>= f) v := by
  obtain ⟨a', s', e, g, r⟩ := fe_copy C h
  exact Sim.step e g (k s' a' g r)

include F

omit C in
theorem elt_word {w : Word} (hw : w.toNat ≤ 8) : Elt p ⟨false, [w]⟩ := by
  have := F.big
  have := F.M.eq
  have h : (⟨false, [w]⟩ : Big).toInt = w.toNat := by unfold Big.toInt; simp [val]
  refine ⟨Big.canonW_single _, ?_, ?_⟩ <;> rw [h] <;> omega

theorem fe_zero : Sim K (FeSim D E p) s (FeR.zero K) (.ok Fe.zero) := by
  obtain ⟨s1, e1, N⟩ := create_new C.inv (Mod.fit1 F.M) 0
  exact ⟨_, s1, bind_run (newObj_run e1), N.grow, C.fresh N, elt_word F (by decide), Or.inl ⟨rfl, rfl⟩⟩

theorem fe_one : Sim K (FeSim D E p) s (FeR.one K) (.ok Fe.one) := by
  obtain ⟨s1, e1, N⟩ := create_new C.inv (Mod.fit1 F.M) 1
  have h : (⟨false, [1]⟩ : Big) = Big.ofInt32 1 := by decide
  rw [h] at N
  exact ⟨_, s1, bind_run (newObj_run e1), N.grow, C.fresh N, (show Elt p (Big.ofInt32 1) from h ▸ elt_word F (by decide)), Or.inl ⟨rfl, rfl⟩⟩

theorem Sim.zero {α β : Type} {R : BigSt → α → β → Prop} {f : FeR → M α} {v : Res β}
    (k : ∀ s' a', Grow K s s' → FeSim D E p s' a' Fe.zero → Sim K R s' (f a') v) : Sim K R s (FeR.zero K >>= f) v := by
  obtain ⟨a', s', e, g, r⟩ := fe_zero F C
  exact Sim.step e g (k s' a' g r)

theorem Sim.one {α β : Type} {R : BigSt → α → β → Prop} {f : FeR → M α} {v : Res β}
    (k : ∀ s' a', Grow K s s' → FeSim D E p s' a' Fe.one → Sim K R s' (f a') v) : Sim K R s (FeR.one K >>= f) v := by
  obtain ⟨a', s', e, g, r⟩ := fe_one F C
  exact Sim.step e g (k s' a' g r)

theorem Sim.ofWord {α β : Type} {R : BigSt → α → β → Prop} {f : FeR → M α} {v : Res β} {ip : Nat} (hp : RepD E s ip p) {w : Word}
    (hw : w.toNat ≤ 8) {k32 : BitVec 32} (e32 : Big.ofInt32 k32 = ⟨false, [w]⟩)
    (k : ∀ s' a', Grow K s s' → FeSim D E p s' a' ⟨Big.ofInt32 k32, some p⟩ → Sim K R s' (f a') v) :
    Sim K R s (FeR.ofWord K w ip >>= f) v := by
  obtain ⟨s1, e1, N⟩ := create_new C.inv (Mod.fit1 F.M) w
  rw [← e32] at N
  refine Sim.step (bind_run (newObj_run e1)) N.grow (k s1 _ N.grow ⟨C.fresh N, e32 ▸ elt_word F hw, Or.inr ⟨ip, rfl, rfl, hp.mono N.grow⟩⟩)

omit F C in
/-- The pointer is followed by both or by neither. -/
theorem Sim.deref {α β : Type} {R : BigSt → α → β → Prop} {f : Nat → M α} {g : Big → Res β} {a : FeR} {A : Fe} (h : FeSim D1 E p s a A)
    (I : Inv K s.mem) (k : ∀ i, RepD E s i p → Sim K R s (f i) (g p)) : Sim K R s (a.deref >>= f) (A.deref >>= g) := by
  unfold FeR.deref Fe.deref
  rcases h.pm with ⟨e1, e2⟩ | ⟨i, e1, e2, r⟩
  · rw [e1, e2]; exact bind_err rfl
  · rw [e1, e2]; exact Sim.step (m := Pure.pure i) rfl (Grow.refl I) (k i r)

omit F in
/-- The last step of an operation. -/
theorem Sim.fin {f : BigSt → Res BigSt} {s' : BigSt} {R : Big} {i : Nat} (hp : RepD E s i p) (e : f s = .ok s') (N : New K s s' R)
    (er : Elt p R) : Sim K (FeSim D E p) s (do let v ← newObj f; Pure.pure ⟨v, some i⟩) (.ok ⟨R, some p⟩) :=
  ⟨_, s', bind_run (newObj_run e), N.grow, C.fresh N, er, Or.inr ⟨i, rfl, rfl, hp.mono N.grow⟩⟩

theorem fe_addB {a : FeR} {A : Fe} {x : Nat} {X : Big} (h : FeSim D1 E p s a A) (hx : RepD D2 s x X) (ex : Elt p X) :
    Sim K (FeSim D E p) s (a.addB K x) (A.addB K.lim X) := by
  unfold FeR.addB Fe.addB
  refine Sim.deref h C.inv fun i r => ?_
  obtain ⟨s', e, N⟩ := fpAdd_exact F.M C.inv h.v.rep hx.rep r.rep h.elt ex
  exact Sim.fin C r e N (fpAdd_spec F.M.room F.M.canon h.elt ex).1

theorem fe_add {a b : FeR} {A B : Fe} (h : FeSim D1 E p s a A) (h' : FeSim D2 E p s b B) :
    Sim K (FeSim D E p) s (a.add K b) (A.add K.lim B) := fe_addB F C h h'.v h'.elt

theorem fe_subB {a : FeR} {A : Fe} {x : Nat} {X : Big} (h : FeSim D1 E p s a A) (hx : RepD D2 s x X) (ex : Elt p X) :
    Sim K (FeSim D E p) s (a.subB K x) (A.subB K.lim X) := by
  unfold FeR.subB Fe.subB
  refine Sim.deref h C.inv fun i r => ?_
  obtain ⟨s', e, N⟩ := fpSub_exact F.M C.inv h.v.rep hx.rep r.rep h.elt.c ex.c (h.elt.fits F.M.room F.M.canon) (ex.fits F.M.room F.M.canon)
  exact Sim.fin C r e N (fpSub_spec F.M.room F.M.canon h.elt ex).1

theorem fe_sub {a b : FeR} {A B : Fe} (h : FeSim D1 E p s a A) (h' : FeSim D2 E p s b B) :
    Sim K (FeSim D E p) s (a.sub K b) (A.sub K.lim B) := fe_subB F C h h'.v h'.elt

theorem fe_fpMul {a b i : Nat} {A B : Big} (ra : RepD D1 s a A) (rb : RepD D2 s b B) (r : RepD E s i p) (ea : Elt p A) (eb : Elt p B) :
    Sim K (FeSim D E p) s (do let v ← newObj (fun s => s.fpMul K a b i); Pure.pure ⟨v, some i⟩)
      (do let v ← Fp.mul K.lim A B p; .ok ⟨v, some p⟩) := by
  obtain ⟨s', R, e, e', N⟩ := fpMul_exact F.M C.inv ra.rep rb.rep r.rep ea.c eb.c
    (F.M.room.fits (by have := ea.len F.M.canon; have := eb.len F.M.canon; omega))
  obtain ⟨z, h1, h2, -⟩ := fpMul_spec F.M.room F.M.canon ea eb
  rw [e'] at h1; cases h1
  rw [e']
  exact Sim.fin C r e N h2

theorem fe_mulB {a : FeR} {A : Fe} {x : Nat} {X : Big} (h : FeSim D1 E p s a A) (hx : RepD D2 s x X) (ex : Elt p X) :
    Sim K (FeSim D E p) s (a.mulB K x) (A.mulB K.lim X) := by
  unfold FeR.mulB Fe.mulB
  refine Sim.test C.inv (fe_isOne h) (Sim.ite (fun _ => ?_) fun _ => Sim.test C.inv (Is.ask (isOne_eq hx.rep)) (Sim.ite (fun _ => ?_) fun _ => ?_))
  · refine Sim.deref h C.inv fun i r => ?_
    obtain ⟨s', e, N⟩ := copyNew_new C.inv hx.rep
    exact Sim.fin C r e N ex
  · exact fe_copy C h
  · exact Sim.deref h C.inv fun i r => fe_fpMul F C h.v hx r h.elt ex

theorem fe_mul {a b : FeR} {A B : Fe} (h : FeSim D1 E p s a A) (h' : FeSim D2 E p s b B) :
    Sim K (FeSim D E p) s (a.mul K b) (A.mul K.lim B) := fe_mulB F C h h'.v h'.elt

theorem fe_bigMul {a : FeR} {A : Fe} {x : Nat} {X : Big} (h : FeSim D1 E p s a A) (hx : RepD D2 s x X) (ex : Elt p X) :
    Sim K (FeSim D E p) s (FeR.bigMul K x a) (Fe.bigMul K.lim X A) := fe_mulB F C h hx ex

theorem fe_sqr {a : FeR} {A : Fe} (h : FeSim D1 E p s a A) : Sim K (FeSim D E p) s (a.sqr K) (A.sqr K.lim) := by
  unfold FeR.sqr Fe.sqr
  refine Sim.test C.inv (fe_isOne h) (Sim.ite (fun _ => fe_copy C h) fun _ => ?_)
  exact Sim.deref h C.inv fun i r => fe_fpMul F C h.v h.v r h.elt h.elt

theorem fe_mulS {a : FeR} {A : Fe} (h : FeSim D1 E p s a A) {k : BitVec 32} (k0 : 0 ≤ k.toInt) (k8 : k.toInt ≤ 8) :
    Sim K (FeSim D E p) s (a.mulS K k) (A.mulS K.lim k) := by
  have hb := F.big
  unfold FeR.mulS Fe.mulS
  refine Sim.test C.inv (fe_isOne h) (Sim.ite (fun _ => ?_) fun _ => ?_)
  · refine Sim.deref h C.inv fun i r => ?_
    obtain ⟨s', e, N⟩ := create_new C.inv (Mod.fit1 F.M) (cabs32 k)
    exact Sim.fin (R := Big.ofInt32 k) C r (by unfold BigSt.createInt; rw [e, ok_bind]) (N.setNeg _)
      (elt_int F.M k0 (by omega))
  · by_cases hk : k = 1
    · rw [if_pos hk, if_pos hk]; exact fe_copy C h
    · rw [if_neg hk, if_neg hk]
      refine Sim.deref h C.inv fun i r => ?_
      obtain ⟨s', R, e, e', N⟩ := fpMulS_exact F.M C.inv h.v.rep r.rep h.elt.c (h.elt.fits F.M.room F.M.canon) k
      obtain ⟨z, h1, h2, -⟩ := fpMulS_spec (b := k) F.M.room F.M.canon h.elt k0
      rw [e'] at h1; cases h1
      rw [e']
      exact Sim.fin C r e N h2

theorem fe_neg {a : FeR} {A : Fe} (h : FeSim D1 E p s a A) : Sim K (FeSim D E p) s (a.neg K) (A.neg K.lim) := by
  unfold FeR.neg Fe.neg
  refine Sim.deref h C.inv fun i r => ?_
  obtain ⟨s', e, N⟩ := fpNeg_exact F.M C.inv h.v.rep r.rep
  exact Sim.fin C r e N (fpNeg_spec F.M.room F.M.canon h.elt).1

theorem fe_inv {a : FeR} {A : Fe} (h : FeSim D1 E p s a A) : Sim K (FeSim D E p) s (a.inv K fuel) (A.inv K.lim) := by
  unfold FeR.inv Fe.inv
  refine Sim.deref h C.inv fun i r => ?_
  rcases modinvNew_exact F.M C.inv F.hN F.size h.v.rep r.rep h.elt with ⟨e, e'⟩ | ⟨s', R, e, e', er, N⟩
  · rw [e']; exact bind_err (newObj_err e)
  · rw [e']; exact Sim.fin C r e N er

theorem fe_divB {a : FeR} {A : Fe} {x : Nat} {X : Big} (h : FeSim D1 E p s a A) (hx : RepD D2 s x X) (ex : Elt p X) :
    Sim K (FeSim D E p) s (a.divB K fuel x) (A.divB K.lim X) := by
  unfold FeR.divB Fe.divB
  refine Sim.test C.inv (Is.ask (isOne_eq hx.rep)) (Sim.ite (fun _ => fe_copy C h) fun _ => ?_)
  refine Sim.deref h C.inv fun i r => ?_
  rcases fpDiv_exact F.M C.inv F.hN F.size h.v.rep hx.rep r.rep h.elt ex with ⟨e, e'⟩ | ⟨s', R, e, e', N⟩
  · rw [e']; exact bind_err (newObj_err e)
  · rcases fpDiv_spec F.M.room F.M.canon F.M.one_lt h.elt ex with ⟨g, -⟩ | ⟨z, g, -, er, -⟩
    · rw [e'] at g; cases g
    · rw [e'] at g; cases g
      rw [e']; exact Sim.fin C r e N er

theorem fe_div {a b : FeR} {A B : Fe} (h : FeSim D1 E p s a A) (h' : FeSim D2 E p s b B) :
    Sim K (FeSim D E p) s (a.div K fuel b) (A.div K.lim B) := fe_divB F C h h'.v h'.elt

end
end Ack.Mem
