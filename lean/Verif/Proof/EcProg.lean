import Verif.Model.EcProg
import Verif.Proof.EcJac
import Verif.Proof.EcOwn
import Verif.Proof.Contract
/-! # Programs on curves: the remaining members, and whole programs, follow the value model -/
namespace Ack.Mem
open Big (Byte)

attribute [local irreducible] FeR.add FeR.sub FeR.mul FeR.mulS FeR.sqr FeR.div FeR.neg FeR.inv FeR.bigMul FeR.addB FeR.subB
  Fe.add Fe.sub Fe.mul Fe.mulS Fe.sqr Fe.div Fe.neg Fe.inv Fe.bigMul Fe.addB Fe.subB

section
variable {K : Kind} {D D1 D2 D3 E : Nat → Prop} {p : Big} {P fuel : ℕ} {s : BigSt}

theorem checkM_sim (I : Inv K s.mem) (b : Bool) : Sim K (fun _ _ _ => True) s (checkM b) (check b) := by
  cases b with
  | true => exact Sim.pure I trivial
  | false => exact Sim.halt _

theorem inScope_sim {α : Type} {m : M α} {v : Res α} (h : Sim K (fun _ a b => a = b) s m v) :
    match v with
    | .ok b => ∃ s', inScope m s = .ok (b, s') ∧ Grow K s s' ∧ s'.mem.objs.length = s.mem.objs.length
    | .error e => inScope m s = .error e := by
  unfold inScope
  cases v with
  | error e => have h : m s = .error e := h; dsimp only; rw [h]; rfl
  | ok b =>
    obtain ⟨a, s1, e, g, rfl⟩ := h
    dsimp only
    rw [e]
    have hl := drop_len (s := s1) g.len
    exact ⟨_, rfl, ⟨drop_inv g.inv _, fun i X r => drop_rep g.inv (g.keep i X r) r.lt, Nat.le_of_eq hl.symm⟩, hl⟩

theorem Sim.scope {α : Type} {m : M α} {v : Res α} (h : Sim K (fun _ a b => a = b) s m v) :
    Sim K (fun _ a b => a = b) s (inScope m) v := by
  have := inScope_sim h
  cases v with
  | error e => exact this
  | ok b => obtain ⟨s', e, g, -⟩ := this; exact ⟨b, s', e, g, rfl⟩

theorem isNegative_mem {x : Nat} {X : Big} (h : Rep s x X) : s.isNegative x = .ok X.isNegative := by
  unfold BigSt.isNegative Big.isNegative
  rw [isZero_eq h, ok_bind, h.neg_eq]

theorem gtS_mem {x : Nat} {X : Big} (h : Rep s x X) (k : BitVec 32) : s.gtS x k = .ok (Big.gtS X k) := by
  unfold BigSt.gtS; rw [compares1_eq h, ok_bind]; rfl

theorem sameR_eq {c d : Option CurveR} {C' D' : Option Curve} (h : OSim E p s c C') (h' : OSim E p s d D') :
    sameR c d = samePtr C' D' := by
  unfold sameR samePtr
  rcases h with ⟨rfl, rfl⟩ | ⟨c', C', rfl, rfl, h⟩ <;> rcases h' with ⟨rfl, rfl⟩ | ⟨d', D', rfl, rfl, h'⟩
  · rfl
  · rfl
  · rfl
  · simp only [Option.map_some, h.addr, h'.addr]

theorem apt_eq {a b : APtR} {A B : APt} (h : ASim D1 E p s a A) (h' : ASim D2 E p s b B) : Is s (a.eq b) (A.eq B) := by
  unfold APtR.eq APt.eq
  rw [sameR_eq h.c h'.c]
  refine Is.bind (fe_eq h.x h'.x) (Is.bind (Is.and (fe_eq h.y h'.y)) ?_)
  cases (A.x.eq B.x && A.y.eq B.y) with
  | false => exact Is.pure _
  | true => exact Is.or (fe_eqS h.x 0)

variable (F : FC K p P fuel) (C : Ctx K D s)
include F C

theorem apt_sub {q a : APtR} {Q A : APt} (h : ASim D1 E p s q Q) (h' : ASim D2 E p s a A) :
    Sim K (ASim D E p) s (q.sub K fuel a) (Q.sub K.lim A) := by
  unfold APtR.sub APt.sub
  refine Sim.bind (apt_inverted F C h') ?_
  intro s' _ _ g h1
  lift g
  exact apt_add F C h h1

theorem ppt_sub {q a : PPtR} {Q A : PPt} (h : PSim D1 E p s q Q) (h' : PSim D2 E p s a A) :
    Sim K (PSim D E p) s (q.sub K a) (Q.sub K.lim A) := by
  unfold PPtR.sub PPt.sub
  refine Sim.bind (ppt_inverted F C h') ?_
  intro s' _ _ g h1
  lift g
  exact ppt_add F C h h1

theorem jpt_sub {q a : JPtR} {Q A : JPt} (h : JSim D1 E p s q Q) (h' : JSim D2 E p s a A) :
    Sim K (JSim D E p) s (q.sub K a) (Q.sub K.lim A) := by
  unfold JPtR.sub JPt.sub
  refine Sim.bind (jpt_inverted F C h') ?_
  intro s' _ _ g h1
  lift g
  exact jpt_add F C h h1

theorem ppt_isOnCurve {q : PPtR} {Q : PPt} (h : PSim D1 E p s q Q) :
    Sim K (fun _ a b => a = b) s (q.isOnCurve K) (Q.isOnCurve K.lim) := by
  unfold PPtR.isOnCurve PPt.isOnCurve
  refine Sim.test C.inv (ppt_isIdentity h) (Sim.ite (fun _ => Sim.pure C.inv rfl) fun _ => ?_)
  obtain ⟨hc, hx, hy, hz⟩ := h
  fe h1
  fe h2
  fe h3
  fe h4
  cv h5
  refine Sim.bind (fe_bigMul F C h1 h5.a h5.ea) ?_
  intro s' _ _ g h6
  lift g
  fe h7
  fe h8
  refine Sim.bind (fe_bigMul F C hz h5.b h5.eb) ?_
  intro s' _ _ g h9
  lift g
  fe h10
  fe h11
  fe h12
  exact ⟨_, _, fe_eqS h12 0, Grow.refl C.inv, rfl⟩

theorem jpt_isOnCurve {q : JPtR} {Q : JPt} (h : JSim D1 E p s q Q) :
    Sim K (fun _ a b => a = b) s (q.isOnCurve K) (Q.isOnCurve K.lim) := by
  unfold JPtR.isOnCurve JPt.isOnCurve
  refine Sim.test C.inv (jpt_isIdentity h) (Sim.ite (fun _ => Sim.pure C.inv rfl) fun _ => ?_)
  obtain ⟨hc, hx, hy, hz⟩ := h
  fe h1
  fe h2
  fe h3
  fe h4
  fe h5
  cv h6
  refine Sim.bind (fe_bigMul F C h2 h6.a h6.ea) ?_
  intro s' _ _ g h7
  lift g
  fe h8
  fe h9
  refine Sim.bind (fe_bigMul F C h3 h6.b h6.eb) ?_
  intro s' _ _ g h10
  lift g
  fe h11
  exact ⟨_, _, fe_eq h4 h11, Grow.refl C.inv, rfl⟩

theorem ppt_isValid {q : PPtR} {Q : PPt} (h : PSim D1 E p s q Q) :
    Sim K (fun _ a b => a = b) s (q.isValid K) (Q.isValid K.lim) := by
  unfold PPtR.isValid PPt.isValid
  refine Sim.test C.inv (ppt_isIdentity h) (Sim.ite (fun _ => Sim.pure C.inv rfl) fun _ => ?_)
  refine Sim.bind (ppt_isOnCurve F C h) ?_
  intro s1 b _ g hb
  subst hb
  lift g
  refine Sim.ite (fun _ => Sim.pure C.inv rfl) fun _ => ?_
  have hc := h.c
  cv h1
  refine Sim.bind (ppt_mul F C h h1.n) ?_
  intro s2 m m' g h2
  lift g
  exact Sim.test C.inv (ppt_isIdentity h2) (Sim.ite (fun _ => Sim.pure C.inv rfl) fun _ => Sim.pure C.inv rfl)

theorem jpt_isValid {q : JPtR} {Q : JPt} (h : JSim D1 E p s q Q) :
    Sim K (fun _ a b => a = b) s (q.isValid K) (Q.isValid K.lim) := by
  unfold JPtR.isValid JPt.isValid
  refine Sim.test C.inv (jpt_isIdentity h) (Sim.ite (fun _ => Sim.pure C.inv rfl) fun _ => ?_)
  refine Sim.bind (jpt_isOnCurve F C h) ?_
  intro s1 b _ g hb
  subst hb
  lift g
  refine Sim.ite (fun _ => Sim.pure C.inv rfl) fun _ => ?_
  have hc := h.c
  cv h1
  refine Sim.bind (jpt_mul F C h h1.n) ?_
  intro s2 m m' g h2
  lift g
  exact Sim.test C.inv (jpt_isIdentity h2) (Sim.ite (fun _ => Sim.pure C.inv rfl) fun _ => Sim.pure C.inv rfl)

theorem ppt_eq {q r : PPtR} {Q R : PPt} (h : PSim D1 E p s q Q) (h' : PSim D2 E p s r R) :
    Sim K (fun _ a b => a = b) s (q.eq K r) (Q.eq K.lim R) := by
  unfold PPtR.eq PPt.eq
  refine Sim.test C.inv (ppt_isIdentity h) (Sim.test C.inv (ppt_isIdentity h') (Sim.ite (fun _ => Sim.pure C.inv rfl) fun _ => ?_))
  rw [sameR_eq h.c h'.c]
  refine Sim.ite (fun _ => Sim.pure C.inv rfl) fun _ => ?_
  obtain ⟨hc, hx, hy, hz⟩ := h
  obtain ⟨hc', hx', hy', hz'⟩ := h'
  refine Sim.bind (fe_mul F C hx hz') ?_
  intro s' _ _ g h1
  lift g
  refine Sim.bind (fe_mul F C hx' hz) ?_
  intro s' _ _ g h2
  lift g
  refine Sim.test C.inv (fe_eq h1 h2) (Sim.ite (fun _ => Sim.pure C.inv rfl) fun _ => ?_)
  refine Sim.bind (fe_mul F C hy hz') ?_
  intro s' _ _ g h3
  lift g
  refine Sim.bind (fe_mul F C hy' hz) ?_
  intro s' _ _ g h4
  lift g
  exact ⟨_, _, fe_eq h3 h4, Grow.refl C.inv, rfl⟩

theorem jpt_eq {q r : JPtR} {Q R : JPt} (h : JSim D1 E p s q Q) (h' : JSim D2 E p s r R) :
    Sim K (fun _ a b => a = b) s (q.eq K r) (Q.eq K.lim R) := by
  unfold JPtR.eq JPt.eq
  refine Sim.test C.inv (jpt_isIdentity h) (Sim.test C.inv (jpt_isIdentity h') (Sim.ite (fun _ => Sim.pure C.inv rfl) fun _ => ?_))
  have hco := sameR_eq h.c h'.c
  obtain ⟨hc, hx, hy, hz⟩ := h
  obtain ⟨hc', hx', hy', hz'⟩ := h'
  refine Sim.bind (fe_sqr F C hz) ?_
  intro s' _ _ g h1
  lift g
  refine Sim.bind (fe_sqr F C hz') ?_
  intro s' _ _ g h2
  lift g
  rw [hco]
  refine Sim.ite (fun _ => Sim.pure C.inv rfl) fun _ => ?_
  refine Sim.bind (fe_mul F C hx h2) ?_
  intro s' _ _ g h3
  lift g
  refine Sim.bind (fe_mul F C hx' h1) ?_
  intro s' _ _ g h4
  lift g
  refine Sim.test C.inv (fe_eq h3 h4) (Sim.ite (fun _ => Sim.pure C.inv rfl) fun _ => ?_)
  refine Sim.bind (fe_mul F C hy h2) ?_
  intro s' _ _ g h5
  lift g
  refine Sim.bind (fe_mul F C h5 hz') ?_
  intro s' _ _ g h6
  lift g
  refine Sim.bind (fe_mul F C hy' h1) ?_
  intro s' _ _ g h7
  lift g
  refine Sim.bind (fe_mul F C h7 hz) ?_
  intro s' _ _ g h8
  lift g
  exact ⟨_, _, fe_eq h6 h8, Grow.refl C.inv, rfl⟩

/-! ### Curves -/

omit F in
theorem valid_is {ip x : Nat} {X : Big} (hp : RepD D1 s ip p) (hx : RepD D2 s x X) :
    Is s (CurveR.isValidInteger ip x) (!X.isNegative && Big.opLt X p) := by
  unfold CurveR.isValidInteger
  exact Is.bind (Is.ask (isNegative_mem hx.rep)) (Is.and (Is.ask (opLt_mem hx.rep hp.rep)))

omit F in
theorem checkInteger_sim {ip x : Nat} {X : Big} (hp : RepD D1 s ip p) (hx : RepD D2 s x X) :
    Sim K (fun _ _ _ => True) s (CurveR.checkInteger ip x) (check (!X.isNegative && Big.opLt X p)) := by
  unfold CurveR.checkInteger
  exact Sim.test C.inv (valid_is C hp hx) (checkM_sim C.inv _)

theorem minus3_sim {ip ia : Nat} {A : Big} (hp : RepD D s ip p) (ha : RepD D s ia A) :
    Sim K (fun _ a b => a = b) s (CurveR.minus3 K ia ip) (.ok (Big.opEq A (Big.subs1 K.lim p 3))) := by
  have M := F.M
  unfold CurveR.minus3
  refine Sim.scope ?_
  obtain ⟨s1, e1, N1⟩ := create_new C.inv (Mod.fit1 M) 0
  obtain ⟨s2, R, e2, P2, S2⟩ := addu1Go_spec N1.inv (N1.frame _ _ hp.rep) N1.res 3 true
  have N2 := N1.post P2
  have hv := Big.addu1Go_spec K.lim p 3 true M.canon
    (fun N e => by have := hp.rep.fits C.inv (Nat.le_refl _); rw [e] at this; simpa [Cap.fits] using this)
  have hpos : 0 < p.toInt - 3 := by rw [M.eq]; have := F.big; omega
  have hR : R = Big.subs1 K.lim p 3 := by
    refine big_ext (S2.canon hv.1) hv.1 ?_ S2.toInt
    rw [S2.toInt]
    rcases hv.2.2 with h | ⟨-, h, -⟩
    · rw [h]; simpa using hpos
    · rw [neg_of_pos (by omega : 0 < p.toInt)] at h; exact absurd h (by decide)
  subst hR
  have e : s.subsNew K ip 3 = .ok s2 := by
    unfold BigSt.subsNew
    dsimp only
    rw [e1, ok_bind]; exact e2
  exact Sim.step (newObj_run e) N2.grow (Sim.ask N2.inv (Is.ask (opEq_mem (N2.frame _ _ ha.rep) N2.res)))

omit C in
theorem valid_elt {X : Big} (cx : X.Canon) (h : (!X.isNegative && Big.opLt X p) = true) : Elt p X := by
  rw [Bool.and_eq_true, Bool.not_eq_true', ← Bool.not_eq_true, Big.isNegative_iff cx, opLt_iff cx F.M.canon] at h
  exact ⟨cx, by omega, h.2⟩

omit F C in
theorem subNew_exact {x y : Nat} {X Y : Big} (hf : Cap.fits K.lim 1 = true) (I : Inv K s.mem) (hx : Rep s x X) (hy : Rep s y Y) :
    ∃ s', s.subNew K x y = .ok s' ∧ New K s s' (Big.sub K.lim X Y) := by
  obtain ⟨s1, e1, N1⟩ := create_new I hf 0
  obtain ⟨s2, e2, P2⟩ := sub_spec N1.inv (N1.frame _ _ hx) (N1.frame _ _ hy) N1.res
    (fun _ h => by rcases h with h | h <;> [have := hx.lt; have := hy.lt] <;> omega)
  refine ⟨s2, ?_, N1.post P2⟩
  unfold BigSt.subNew
  dsimp only
  rw [e1, ok_bind]; exact e2

omit F C in
theorem Sim.check {α β : Type} {R : BigSt → α → β → Prop} {m : M Unit} {b : Bool} {f : Unit → M α} {g : Unit → Res β}
    (h : Sim K (fun _ _ _ => True) s m (check b)) (k : b = true → ∀ s', Grow K s s' → Sim K R s' (f ()) (g ())) :
    Sim K R s (m >>= f) (check b >>= g) := by
  cases b with
  | false => exact bind_err h
  | true =>
    obtain ⟨a, s', e, gr, -⟩ := h
    exact Sim.step e gr (k rfl s' gr)

omit F in
theorem Sim.newCopy {α β : Type} {R : BigSt → α → β → Prop} {f : Nat → M α} {v : Res β} {x : Nat} {X : Big} (h : RepD D1 s x X)
    (k : ∀ s' y, Grow K s s' → RepD D s' y X → Sim K R s' (f y) v) : Sim K R s (newObj (fun s => s.copyNew K x) >>= f) v := by
  obtain ⟨s1, e1, N1⟩ := copyNew_new C.inv h.rep
  exact Sim.step (newObj_run e1) N1.grow (k s1 _ N1.grow (C.fresh N1))

theorem make_sim {ip ia ib ix iy i : Nat} {A B X Y N : Big} (addr : Nat) (h : Word) (hp : RepD D s ip p) (ha : RepD D s ia A)
    (hb : RepD D s ib B) (hx : RepD D s ix X) (hy : RepD D s iy Y) (hn : RepD D s i N) (ea : Elt p A) (eb : Elt p B)
    (cx : X.Canon) (cy : Y.Canon) :
    Sim K (CSim D p) s (CurveR.make K addr ip ia ib ix iy i h) (Curve.make K.lim addr p A B X Y N h) := by
  unfold CurveR.make Curve.make
  refine Sim.newCopy C hp fun s' _ g h1 => ?_
  lift g
  refine Sim.newCopy C ha fun s' _ g h2 => ?_
  lift g
  refine Sim.newCopy C hb fun s' _ g h3 => ?_
  lift g
  refine Sim.newCopy C hx fun s' _ g h4 => ?_
  lift g
  obtain ⟨n', hn', Cn, w⟩ := C.mark
  have k := h4.below hn'
  refine Sim.newCopy Cn hy fun s' _ g h5 => ?_
  lift g
  have k5 := h5.after k
  replace h5 := h5.old w
  dsimp only [Curve.isValidInteger]
  refine Sim.check (checkInteger_sim C h1 h4) fun v1 s' g => ?_
  lift g
  refine Sim.check (checkInteger_sim C h1 h5) fun v2 s' g => ?_
  lift g
  refine Sim.newCopy C hn fun s' _ g h6 => ?_
  lift g
  obtain ⟨b, s', e, g, rfl⟩ := minus3_sim F C h1 h2
  refine Sim.step e g ?_
  lift g
  refine Sim.test C.inv (Is.ask (isZero_eq h2.rep)) ?_
  obtain ⟨s', e, N1⟩ := subNew_exact (Mod.fit1 F.M) C.inv h1.rep h6.rep
  have g := N1.grow
  have h7 := C.fresh N1
  refine Sim.step (newObj_run e) g ?_
  lift g
  exact Sim.pure C.inv ⟨rfl, rfl, h1, h2, h3, ⟨h4, valid_elt F cx v1, Or.inr ⟨_, rfl, rfl, h1⟩⟩, ⟨h5, valid_elt F cy v2, Or.inr ⟨_, rfl, rfl, h1⟩⟩,
    h6, rfl, rfl, rfl, h7, ea, eb, k5⟩

theorem makePoint_sim {c : CurveR} {C' : Curve} {ix iy : Nat} {X Y : Big} (h : CSim E p s c C') (hx : RepD D1 s ix X) (hy : RepD D2 s iy Y)
    (cx : X.Canon) (cy : Y.Canon) (ver : Bool) :
    Sim K (ASim D E p) s (c.makePoint K fuel ix iy ver) (C'.makePoint K.lim X Y ver) := by
  unfold CurveR.makePoint Curve.makePoint
  dsimp only [Curve.isValidInteger]
  have hp := h.hp
  rw [hp]
  refine Sim.check (checkInteger_sim C h.rp hx) fun v1 s' g => ?_
  lift g
  refine Sim.check (checkInteger_sim C h.rp hy) fun v2 s' g => ?_
  lift g
  refine Sim.newCopy C hx fun s' _ g h1 => ?_
  lift g
  mark n Cn w
  have k := h1.below hn
  refine Sim.newCopy Cn hy fun s' _ g h2 => ?_
  lift g
  have hq : ASim D E p s' ⟨some c, ⟨_, some c.p⟩, ⟨_, some c.p⟩⟩ ⟨some C', ⟨X, some p⟩, ⟨Y, some p⟩⟩ :=
    ⟨OSim.some h, ⟨h1, valid_elt F cx v1, Or.inr ⟨_, rfl, rfl, h.rp⟩⟩, ⟨h2.old w, valid_elt F cy v2, Or.inr ⟨_, rfl, rfl, h.rp⟩⟩,
      h2.after k⟩
  cases ver with
  | false => exact Sim.pure C.inv hq
  | true =>
    simp only [if_true]
    refine Sim.bind (apt_isValid F C hq) ?_
    intro s' b _ g hb
    subst hb
    lift g
    exact Sim.check (checkM_sim C.inv b) fun _ s' g => Sim.pure g.inv (hq.mono g)

omit F in
theorem checkScalar_sim {c : CurveR} {C' : Curve} {i : Nat} {X : Big} (h : CSim E p s c C') (hx : RepD D1 s i X) :
    Sim K (fun _ _ _ => True) s (c.checkScalar i) (check (Big.gtS X 0 && Big.opLt X C'.n)) := by
  unfold CurveR.checkScalar
  exact Sim.test C.inv (Is.ask (gtS_mem hx.rep 0)) (Sim.test C.inv (Is.and (Is.ask (opLt_mem hx.rep h.n.rep))) (checkM_sim C.inv _))

omit F C in
theorem CSim.g {c : CurveR} {C' : Curve} (h : CSim D p s c C') : ASim D D p s c.g C'.g := ⟨OSim.some h, h.gx, h.gy, h.ng⟩

theorem generateA_sim {c : CurveR} {C' : Curve} {i : Nat} {X : Big} (h : CSim E p s c C') (hx : RepD D1 s i X) :
    Sim K (ASim D E p) s (c.generateA K fuel i) (C'.generateA K.lim X) := by
  unfold CurveR.generateA Curve.generateA
  refine Sim.check (checkScalar_sim C h hx) fun _ s' g => ?_
  lift g
  exact apt_mul F C h.g hx

theorem generateP_sim {c : CurveR} {C' : Curve} {i : Nat} {X : Big} (h : CSim E p s c C') (hx : RepD D1 s i X) :
    Sim K (PSim D E p) s (c.generateP K i) (C'.generateP K.lim X) := by
  unfold CurveR.generateP Curve.generateP
  refine Sim.check (checkScalar_sim C h hx) fun _ s' g => ?_
  lift g
  refine Sim.bind (ppt_ofAffine F C h.g) ?_
  intro s' _ _ g h1
  lift g
  exact ppt_mul F C h1 hx

theorem generateJ_sim {c : CurveR} {C' : Curve} {i : Nat} {X : Big} (h : CSim E p s c C') (hx : RepD D1 s i X) :
    Sim K (JSim D E p) s (c.generateJ K i) (C'.generateJ K.lim X) := by
  unfold CurveR.generateJ Curve.generateJ
  refine Sim.check (checkScalar_sim C h hx) fun _ s' g => ?_
  lift g
  refine Sim.bind (jpt_ofAffine F C h.g) ?_
  intro s' _ _ g h1
  lift g
  exact jpt_mul F C h1 hx

end

/-! ### Programs -/

/-- A point variable and its value. -/
def PtSim (D E : Nat → Prop) (p : Big) (s : BigSt) : PtR → PtV → Prop
  | .aff q, .aff Q => ASim D E p s q Q
  | .proj q, .proj Q => PSim D E p s q Q
  | .jac q, .jac Q => JSim D E p s q Q
  | _, _ => False

/-- The point refers to the curve `C`, or to none. -/
def OwnV (C : Curve) : PtV → Prop
  | .aff Q => OwnA C Q
  | .proj Q => OwnP C Q
  | .jac Q => OwnJ C Q

theorem PtSim.mono {K : Kind} {D E : Nat → Prop} {p : Big} {s s' : BigSt} {q : PtR} {Q : PtV} (h : PtSim D E p s q Q) (g : Grow K s s') :
    PtSim D E p s' q Q := by
  cases q <;> cases Q <;> first | exact ASim.mono h g | exact PSim.mono h g | exact JSim.mono h g | exact h

/-- The variables have the values `V`. -/
structure VSim (D E : Nat → Prop) (p : Big) (C : Curve) (s : BigSt) (v : EcVars) (V : EcVals) : Prop where
  ints : List.Forall₂ (RepD D s) v.ints V.ints
  canon : ∀ X ∈ V.ints, X.Canon
  pts : List.Forall₂ (PtSim D E p s) v.pts V.pts
  own : ∀ Q ∈ V.pts, OwnV C Q
  bools : v.bools = V.bools

theorem VSim.mono {K : Kind} {D E : Nat → Prop} {p : Big} {C : Curve} {s s' : BigSt} {v : EcVars} {V : EcVals} (h : VSim D E p C s v V)
    (g : Grow K s s') : VSim D E p C s' v V :=
  ⟨h.ints.imp fun _ _ r => r.mono g, h.canon, h.pts.imp fun _ _ r => r.mono g, h.own, h.bools⟩

/-- What a program relies on: a curve with an admissible field, and an order for which the functions modulo `n` have room. -/
structure PC (K : Kind) (p : Big) (P N fuel : ℕ) (C : Curve) : Prop where
  F : FC K p P fuel
  n : Mod K.lim C.n N
  hN : K.dyn = true → C.n.ws.length ≤ K.N
  hf : N.size ≤ fuel

section
variable {K : Kind} {D D1 D2 D3 D4 E : Nat → Prop} {p : Big} {P N fuel : ℕ} {s : BigSt} {C' : Curve} {v : EcVars} {V : EcVals}

theorem forall₂_get {α β : Type} {R : α → β → Prop} : ∀ {l : List α} {m : List β}, List.Forall₂ R l m → ∀ i : Nat,
    (l[i]? = none ∧ m[i]? = none) ∨ ∃ a b, l[i]? = some a ∧ m[i]? = some b ∧ R a b
  | _, _, .nil, i => Or.inl ⟨rfl, rfl⟩
  | _, _, .cons h _, 0 => Or.inr ⟨_, _, rfl, rfl, h⟩
  | _, _, .cons _ h, i + 1 => by simpa using forall₂_get h i

theorem Sim.int {α β : Type} {R : BigSt → α → β → Prop} {f : Nat → M α} {g : Big → Res β} (I : Inv K s.mem) (h : VSim D1 E p C' s v V) (i : Nat)
    (k : ∀ x X, RepD D1 s x X → X.Canon → X ∈ V.ints → Sim K R s (f x) (g X)) : Sim K R s (v.int i >>= f) (V.int i >>= g) := by
  unfold EcVars.int EcVals.int
  rcases forall₂_get h.ints i with ⟨e1, e2⟩ | ⟨a, b, e1, e2, r⟩
  · rw [e1, e2]; exact bind_err rfl
  · rw [e1, e2]
    exact Sim.step (a := a) (s' := s) rfl (Grow.refl I)
      (k a b r (h.canon b (List.mem_of_getElem? e2)) (List.mem_of_getElem? e2))

theorem Sim.pt {α β : Type} {R : BigSt → α → β → Prop} {f : PtR → M α} {g : PtV → Res β} (I : Inv K s.mem) (h : VSim D1 E p C' s v V) (i : Nat)
    (k : ∀ q Q, PtSim D1 E p s q Q → OwnV C' Q → Sim K R s (f q) (g Q)) : Sim K R s (v.pt i >>= f) (V.pt i >>= g) := by
  unfold EcVars.pt EcVals.pt
  rcases forall₂_get h.pts i with ⟨e1, e2⟩ | ⟨a, b, e1, e2, r⟩
  · rw [e1, e2]; exact bind_err rfl
  · rw [e1, e2]
    exact Sim.step (a := a) (s' := s) rfl (Grow.refl I) (k a b r (h.own b (List.mem_of_getElem? e2)))

theorem VSim.addInt (h : VSim D E p C' s v V) {x : Nat} {X : Big} (r : RepD D s x X) (c : X.Canon) :
    VSim D E p C' s { v with ints := v.ints ++ [x] } { V with ints := V.ints ++ [X] } :=
  ⟨List.rel_append h.ints (.cons r .nil), by
    intro Y hY
    rcases List.mem_append.1 hY with hY | hY
    · exact h.canon Y hY
    · rw [List.mem_singleton.1 hY]; exact c, h.pts, h.own, h.bools⟩

theorem VSim.addPt (h : VSim D E p C' s v V) {q : PtR} {Q : PtV} (r : PtSim D E p s q Q) (c : OwnV C' Q) :
    VSim D E p C' s { v with pts := v.pts ++ [q] } { V with pts := V.pts ++ [Q] } :=
  ⟨h.ints, h.canon, List.rel_append h.pts (.cons r .nil), by
    intro Y hY
    rcases List.mem_append.1 hY with hY | hY
    · exact h.own Y hY
    · rw [List.mem_singleton.1 hY]; exact c, h.bools⟩

/-- The statement has declared one variable, new with respect to `D`. -/
def Added (D E : Nat → Prop) (p : Big) (C' : Curve) (v : EcVars) (V : EcVals) (s : BigSt) (v' : EcVars) (V' : EcVals) : Prop :=
  (∃ x X, RepD D s x X ∧ X.Canon ∧ v' = { v with ints := v.ints ++ [x] } ∧ V' = { V with ints := V.ints ++ [X] }) ∨
  (∃ q Q, PtSim D E p s q Q ∧ OwnV C' Q ∧ v' = { v with pts := v.pts ++ [q] } ∧ V' = { V with pts := V.pts ++ [Q] }) ∨
  ∃ b, v' = { v with bools := v.bools ++ [b] } ∧ V' = { V with bools := V.bools ++ [b] }

theorem Added.vars {v' : EcVars} {V' : EcVals} (a : Added D E p C' v V s v' V') (h : VSim D E p C' s v V) : VSim D E p C' s v' V' := by
  rcases a with ⟨x, X, r, c, rfl, rfl⟩ | ⟨q, Q, r, o, rfl, rfl⟩ | ⟨b, rfl, rfl⟩
  · exact h.addInt r c
  · exact h.addPt r o
  · exact ⟨h.ints, h.canon, h.pts, h.own, by rw [h.bools]⟩

theorem Sim.lastPt {m : M PtR} {w : Res PtV} (hs : Sim K (PtSim D E p) s m w) (ho : Only (OwnV C') w) :
    Sim K (Added D E p C' v V) s (m >>= fun q => (Pure.pure { v with pts := v.pts ++ [q] } : M EcVars))
      (w >>= fun q => (Pure.pure { V with pts := V.pts ++ [q] } : Res EcVals)) := by
  cases w with
  | error e => exact bind_err hs
  | ok Q =>
    obtain ⟨q, s', e, g, r⟩ := hs
    exact Sim.step e g (Sim.pure g.inv (Or.inr (Or.inl ⟨q, Q, r, ho Q rfl, rfl, rfl⟩)))

theorem Sim.lastBool {m : M Bool} {w : Res Bool} (hs : Sim K (fun _ a b => a = b) s m w) :
    Sim K (Added D E p C' v V) s (m >>= fun b => (Pure.pure { v with bools := v.bools ++ [b] } : M EcVars))
      (w >>= fun b => (Pure.pure { V with bools := V.bools ++ [b] } : Res EcVals)) := by
  cases w with
  | error e => exact bind_err hs
  | ok b =>
    obtain ⟨a, s', e, g, rfl⟩ := hs
    exact Sim.step e g (Sim.pure g.inv (Or.inr (Or.inr ⟨_, rfl, rfl⟩)))

/-- Wrapping the result. -/
theorem Sim.wrap {α β γ δ : Type} {R : BigSt → α → β → Prop} {S : BigSt → γ → δ → Prop} {f : α → γ} {g : β → δ} {m : M α} {w : Res β}
    (h : Sim K R s m w) (hs : ∀ s' a b, R s' a b → S s' (f a) (g b)) :
    Sim K S s (m >>= fun a => (Pure.pure (f a) : M γ)) (w >>= fun b => (Pure.pure (g b) : Res δ)) := by
  cases w with
  | error e => exact bind_err h
  | ok b =>
    obtain ⟨a, s', e, gr, r⟩ := h
    exact Sim.step e gr (Sim.pure gr.inv (hs _ _ _ r))

theorem Only.wrap {α β : Type} {S : α → Prop} {T : β → Prop} {f : α → β} {w : Res α} (h : Only S w) (hs : ∀ a, S a → T (f a)) :
    Only T (w >>= fun a => (Pure.pure (f a) : Res β)) := Only.next h fun a ha => Only.pure (hs a ha)

variable (H : PC K p P N fuel C') (C : Ctx K D s)
include H C

theorem ptr_conv {q : PtR} {Q : PtV} (h : PtSim D1 E p s q Q) (k : Kd) :
    Sim K (PtSim D E p) s (q.conv K fuel k) (Q.conv K.lim k) := by
  cases q <;> cases Q <;> first | exact False.elim h | skip
  · cases k
    · exact Sim.wrap (f := PtR.aff) (g := PtV.aff) (w := .ok _) (apt_copy C h) (fun _ _ _ r => r)
    · exact Sim.wrap (ppt_ofAffine H.F C h) (fun _ _ _ r => r)
    · exact Sim.wrap (jpt_ofAffine H.F C h) (fun _ _ _ r => r)
  · cases k
    · exact Sim.wrap (ppt_toAffine H.F C h) (fun _ _ _ r => r)
    · exact Sim.halt _
    · exact Sim.halt _
  · cases k
    · exact Sim.wrap (jpt_toAffine H.F C h) (fun _ _ _ r => r)
    · exact Sim.halt _
    · exact Sim.halt _

theorem ptr_doubled {q : PtR} {Q : PtV} (h : PtSim D1 E p s q Q) : Sim K (PtSim D E p) s (q.doubled K fuel) (Q.doubled K.lim) := by
  cases q <;> cases Q <;> first | exact False.elim h | skip
  · exact Sim.wrap (apt_doubled H.F C h) (fun _ _ _ r => r)
  · exact Sim.wrap (ppt_doubled H.F C h) (fun _ _ _ r => r)
  · exact Sim.wrap (jpt_doubled H.F C h) (fun _ _ _ r => r)

theorem ptr_inverted {q : PtR} {Q : PtV} (h : PtSim D1 E p s q Q) : Sim K (PtSim D E p) s (q.inverted K) (Q.inverted K.lim) := by
  cases q <;> cases Q <;> first | exact False.elim h | skip
  · exact Sim.wrap (apt_inverted H.F C h) (fun _ _ _ r => r)
  · exact Sim.wrap (ppt_inverted H.F C h) (fun _ _ _ r => r)
  · exact Sim.wrap (jpt_inverted H.F C h) (fun _ _ _ r => r)

theorem ptr_add {q r : PtR} {Q R : PtV} (h : PtSim D1 E p s q Q) (h' : PtSim D2 E p s r R) :
    Sim K (PtSim D E p) s (q.add K fuel r) (Q.add K.lim R) := by
  cases q <;> cases Q <;> first | exact False.elim h | skip
  all_goals cases r <;> cases R <;> first | exact False.elim h' | exact Sim.halt _ | skip
  · exact Sim.wrap (apt_add H.F C h h') (fun _ _ _ r => r)
  · exact Sim.wrap (ppt_add H.F C h h') (fun _ _ _ r => r)
  · exact Sim.wrap (jpt_add H.F C h h') (fun _ _ _ r => r)

theorem ptr_sub {q r : PtR} {Q R : PtV} (h : PtSim D1 E p s q Q) (h' : PtSim D2 E p s r R) :
    Sim K (PtSim D E p) s (q.sub K fuel r) (Q.sub K.lim R) := by
  cases q <;> cases Q <;> first | exact False.elim h | skip
  all_goals cases r <;> cases R <;> first | exact False.elim h' | exact Sim.halt _ | skip
  · exact Sim.wrap (apt_sub H.F C h h') (fun _ _ _ r => r)
  · exact Sim.wrap (ppt_sub H.F C h h') (fun _ _ _ r => r)
  · exact Sim.wrap (jpt_sub H.F C h h') (fun _ _ _ r => r)

theorem ptr_mul {q : PtR} {Q : PtV} {x : Nat} {X : Big} (h : PtSim D1 E p s q Q) (hx : RepD D3 s x X) :
    Sim K (PtSim D E p) s (q.mul K fuel x) (Q.mul K.lim X) := by
  cases q <;> cases Q <;> first | exact False.elim h | skip
  · exact Sim.wrap (apt_mul H.F C h hx) (fun _ _ _ r => r)
  · exact Sim.wrap (ppt_mul H.F C h hx) (fun _ _ _ r => r)
  · exact Sim.wrap (jpt_mul H.F C h hx) (fun _ _ _ r => r)

theorem ptr_mulAdd {q r : PtR} {Q R : PtV} {x y : Nat} {X Y : Big} (hx : RepD D3 s x X) (h : PtSim D1 E p s q Q) (hy : RepD D4 s y Y)
    (h' : PtSim D2 E p s r R) : Sim K (PtSim D E p) s (PtR.mulAdd K x q y r) (PtV.mulAdd K.lim X Q Y R) := by
  cases q <;> cases Q <;> first | exact False.elim h | skip
  all_goals cases r <;> cases R <;> first | exact False.elim h' | exact Sim.halt _ | skip
  exact Sim.wrap (mulAddFast_sim H.F C hx hy h h') (fun _ _ _ r => r)

theorem ptr_generate {c : CurveR} {x : Nat} {X : Big} (h : CSim E p s c C') (hx : RepD D3 s x X) (k : Kd) :
    Sim K (PtSim D E p) s (c.generate K fuel k x) (PtV.generate K.lim C' k X) := by
  cases k
  · exact Sim.wrap (generateA_sim H.F C h hx) (fun _ _ _ r => r)
  · exact Sim.wrap (generateP_sim H.F C h hx) (fun _ _ _ r => r)
  · exact Sim.wrap (generateJ_sim H.F C h hx) (fun _ _ _ r => r)

omit H in
theorem ptr_isIdentity {q : PtR} {Q : PtV} (h : PtSim D1 E p s q Q) : Is s q.isIdentity Q.isIdentity := by
  cases q <;> cases Q <;> first | exact False.elim h | exact apt_isIdentity h | exact ppt_isIdentity h | exact jpt_isIdentity h

theorem ptr_isOnCurve {q : PtR} {Q : PtV} (h : PtSim D1 E p s q Q) : Sim K (fun _ a b => a = b) s (q.isOnCurve K) (Q.isOnCurve K.lim) := by
  cases q <;> cases Q <;> first | exact False.elim h | skip
  · exact Sim.scope (apt_isOnCurve H.F C h)
  · exact Sim.scope (ppt_isOnCurve H.F C h)
  · exact Sim.scope (jpt_isOnCurve H.F C h)

theorem ptr_isValid {q : PtR} {Q : PtV} (h : PtSim D1 E p s q Q) : Sim K (fun _ a b => a = b) s (q.isValid K fuel) (Q.isValid K.lim) := by
  cases q <;> cases Q <;> first | exact False.elim h | skip
  · exact Sim.scope (apt_isValid H.F C h)
  · exact Sim.scope (ppt_isValid H.F C h)
  · exact Sim.scope (jpt_isValid H.F C h)

theorem ptr_eq {q r : PtR} {Q R : PtV} (h : PtSim D1 E p s q Q) (h' : PtSim D2 E p s r R) (same : Bool) :
    Sim K (fun _ a b => a = b) s (q.eq K same r) (Q.eq K.lim same R) := by
  cases q <;> cases Q <;> first | exact False.elim h | skip
  all_goals cases r <;> cases R <;> first | exact False.elim h' | exact Sim.halt _ | skip
  · exact Sim.scope (Sim.ask C.inv (apt_eq h h'))
  · exact Sim.scope (ppt_eq H.F C h h')
  · exact Sim.ite (fun _ => Sim.pure C.inv rfl) fun _ => Sim.scope (jpt_eq H.F C h h')

theorem ptr_verify {q : PtR} {Q : PtV} {r t : Nat} {R T : Big} (h : PtSim D1 E p s q Q) (ho : OwnV C' Q) (hr : RepD D3 s r R) (ht : RepD D4 s t T)
    (cR : R.Canon) (cT : T.Canon) (msg : List Byte) :
    Sim K (fun _ a b => a = b) s (q.verify K fuel msg r t) (Q.verify K.lim msg R T) := by
  cases q <;> cases Q <;> first | exact False.elim h | exact Sim.halt _ | skip
  refine Sim.scope (verify_sim (n := N) H.F C h hr ht cR cT ?_ msg)
  intro C1 e
  have : C1 = C' := by
    rcases OwnA.c ho with h | h
    · rw [h] at e; cases e
    · rw [h] at e; cases e; rfl
  subst this
  exact ⟨H.n, H.hN, H.hf⟩

omit H C in
theorem own_conv {Q : PtV} (h : OwnV C' Q) (cap : Cap) (k : Kd) : Only (OwnV C') (Q.conv cap k) := by
  cases Q <;> cases k <;> first
    | exact Only.err
    | exact Only.ok h
    | exact Only.wrap (ownP_ofAffine h) (fun _ r => r)
    | exact Only.wrap (ownJ_ofAffine h) (fun _ r => r)
    | exact Only.wrap (ownP_toAffine h) (fun _ r => r)
    | exact Only.wrap (ownJ_toAffine h) (fun _ r => r)

omit H C in
theorem own_doubled {Q : PtV} (h : OwnV C' Q) (cap : Cap) : Only (OwnV C') (Q.doubled cap) := by
  cases Q
  · exact Only.wrap (ownA_doubled h) (fun _ r => r)
  · exact Only.wrap (ownP_doubled h) (fun _ r => r)
  · exact Only.wrap (ownJ_doubled h) (fun _ r => r)

omit H C in
theorem own_inverted {Q : PtV} (h : OwnV C' Q) (cap : Cap) : Only (OwnV C') (Q.inverted cap) := by
  cases Q
  · exact Only.wrap (ownA_inverted h) (fun _ r => r)
  · exact Only.wrap (ownP_inverted h) (fun _ r => r)
  · exact Only.wrap (ownJ_inverted h) (fun _ r => r)

omit H C in
theorem own_add {Q R : PtV} (h : OwnV C' Q) (h' : OwnV C' R) (cap : Cap) : Only (OwnV C') (Q.add cap R) := by
  cases Q <;> cases R <;> try exact Only.err
  · exact Only.wrap (ownA_add h h') (fun _ r => r)
  · exact Only.wrap (ownP_add h h') (fun _ r => r)
  · exact Only.wrap (ownJ_add h h') (fun _ r => r)

omit H C in
theorem own_sub {Q R : PtV} (h : OwnV C' Q) (h' : OwnV C' R) (cap : Cap) : Only (OwnV C') (Q.sub cap R) := by
  cases Q <;> cases R <;> try exact Only.err
  · exact Only.wrap (ownA_sub h h') (fun _ r => r)
  · exact Only.wrap (ownP_sub h h') (fun _ r => r)
  · exact Only.wrap (ownJ_sub h h') (fun _ r => r)

omit H C in
theorem own_mul {Q : PtV} (h : OwnV C' Q) (cap : Cap) (x : Big) : Only (OwnV C') (Q.mul cap x) := by
  cases Q
  · exact Only.wrap (ownA_mul h x) (fun _ r => r)
  · exact Only.wrap (ownP_mul h x) (fun _ r => r)
  · exact Only.wrap (ownJ_mul h x) (fun _ r => r)

omit H C in
theorem own_mulAdd {Q R : PtV} (h : OwnV C' Q) (h' : OwnV C' R) (cap : Cap) (x y : Big) : Only (OwnV C') (PtV.mulAdd cap x Q y R) := by
  cases Q <;> cases R <;> try exact Only.err
  exact Only.wrap (ownJ_mulAdd h h' x y) (fun _ r => r)

omit H C in
theorem own_generate (cap : Cap) (k : Kd) (x : Big) : Only (OwnV C') (PtV.generate cap C' k x) := by
  have hg : OwnA C' C'.g := Or.inr rfl
  cases k
  · exact Only.wrap (Only.bind fun _ _ => ownA_mul hg x) (fun _ r => r)
  · exact Only.wrap (Only.bind fun _ _ => Only.next (ownP_ofAffine hg) fun _ h => ownP_mul h x) (fun _ r => r)
  · exact Only.wrap (Only.bind fun _ _ => Only.next (ownJ_ofAffine hg) fun _ h => ownJ_mul h x) (fun _ r => r)

omit H C in
theorem own_makePoint (cap : Cap) (x y : Big) (ver : Bool) : Only (OwnA C') (C'.makePoint cap x y ver) := by
  unfold Curve.makePoint
  refine Only.bind fun _ _ => Only.bind fun _ _ => ?_
  dsimp only
  cases ver with
  | false => exact Only.ok (Or.inr rfl)
  | true => exact Only.bind fun _ _ => Only.bind fun _ _ => Only.ok (Or.inr rfl)

/-- One statement: what it declares. -/
theorem step_add {c : CurveR} (hc : CSim E p s c C') (h : VSim D1 E p C' s v V) (t : EcStmt) :
    Sim K (Added D E p C' v V) s (ecStep K fuel c v t) (evStep K.lim C' V t) := by
  cases t with
  | int d =>
    simp only [ecStep, evStep]
    have hd := ofBytes_exact C.inv (Mod.fit1 H.F.M) d
    rcases Ack.ofBytes_fits K.lim d (Mod.fit1 H.F.M) with ⟨-, x, e, cx, -⟩ | ⟨-, e⟩
    · rw [e] at hd ⊢
      obtain ⟨s', e', N1⟩ := hd
      exact Sim.step (newObj_run e') N1.grow (Sim.pure N1.inv (Or.inl ⟨_, _, C.fresh N1, cx, rfl, rfl⟩))
    · rw [e] at hd ⊢
      exact bind_err (newObj_err hd)
  | neg i =>
    unfold ecStep evStep
    refine Sim.int C.inv h i fun x X r cX _ => ?_
    obtain ⟨s', e', N1⟩ := negNew_exact H.F.M C.inv r.rep
    exact Sim.step (newObj_run e') N1.grow (Sim.pure N1.inv (Or.inl ⟨_, _, C.fresh N1, cX, rfl, rfl⟩))
  | point x y ver =>
    unfold ecStep evStep
    refine Sim.int C.inv h x fun x X r cX _ => Sim.int C.inv h y fun y Y r' cY _ => ?_
    have hs := makePoint_sim H.F C hc r r' cX cY ver
    have ho := own_makePoint (C' := C') K.lim X Y ver
    cases hw : C'.makePoint K.lim X Y ver with
    | error e => rw [hw] at hs; exact bind_err hs
    | ok Q =>
      rw [hw] at hs ho
      obtain ⟨q, s', e, g, r⟩ := hs
      exact Sim.step e g (Sim.pure g.inv (Or.inr (Or.inl ⟨.aff q, .aff Q, r, ho Q rfl, rfl, rfl⟩)))
  | generate k x =>
    unfold ecStep evStep
    exact Sim.int C.inv h x fun x X r cX _ => Sim.lastPt (ptr_generate H C hc r k) (own_generate _ _ _)
  | conv k q =>
    unfold ecStep evStep
    exact Sim.pt C.inv h q fun q Q r o => Sim.lastPt (ptr_conv H C r k) (own_conv o _ _)
  | dbl q =>
    unfold ecStep evStep
    exact Sim.pt C.inv h q fun q Q r o => Sim.lastPt (ptr_doubled H C r) (own_doubled o _)
  | opp q =>
    unfold ecStep evStep
    exact Sim.pt C.inv h q fun q Q r o => Sim.lastPt (ptr_inverted H C r) (own_inverted o _)
  | add q r =>
    unfold ecStep evStep
    exact Sim.pt C.inv h q fun q Q r o => Sim.pt C.inv h _ fun q' Q' r' o' => Sim.lastPt (ptr_add H C r r') (own_add o o' _)
  | sub q r =>
    unfold ecStep evStep
    exact Sim.pt C.inv h q fun q Q r o => Sim.pt C.inv h _ fun q' Q' r' o' => Sim.lastPt (ptr_sub H C r r') (own_sub o o' _)
  | mul q x =>
    unfold ecStep evStep
    exact Sim.pt C.inv h q fun q Q r o => Sim.int C.inv h x fun x X rx cX _ => Sim.lastPt (ptr_mul H C r rx) (own_mul o _ _)
  | mulAdd x q y r =>
    unfold ecStep evStep
    exact Sim.int C.inv h x fun x X rx cX _ => Sim.pt C.inv h q fun q Q r o => Sim.int C.inv h y fun y Y ry cY _ =>
      Sim.pt C.inv h _ fun q' Q' r' o' => Sim.lastPt (ptr_mulAdd H C rx r ry r') (own_mulAdd o o' _ _ _)
  | isIdentity q =>
    unfold ecStep evStep
    exact Sim.pt C.inv h q fun q Q r o => Sim.lastBool (w := .ok _) (Sim.ask C.inv (ptr_isIdentity C r))
  | isOnCurve q =>
    unfold ecStep evStep
    exact Sim.pt C.inv h q fun q Q r o => Sim.lastBool (ptr_isOnCurve H C r)
  | isValid q =>
    unfold ecStep evStep
    exact Sim.pt C.inv h q fun q Q r o => Sim.lastBool (ptr_isValid H C r)
  | eq q r =>
    unfold ecStep evStep
    exact Sim.pt C.inv h q fun q Q r o => Sim.pt C.inv h _ fun q' Q' r' o' => Sim.lastBool (ptr_eq H C r r' _)
  | verify q msg r t =>
    unfold ecStep evStep
    exact Sim.pt C.inv h q fun q Q r' o => Sim.int C.inv h r fun x X rx cX _ => Sim.int C.inv h t fun y Y ry cY _ =>
      Sim.lastBool (ptr_verify H C r' o rx ry cX cY msg)

/-- **One statement.** -/
theorem step_sim {c : CurveR} (hc : CSim E p s c C') (h : VSim D E p C' s v V) (t : EcStmt) :
    Sim K (VSim D E p C') s (ecStep K fuel c v t) (evStep K.lim C' V t) := by
  have hs := step_add H C hc h t
  cases hw : evStep K.lim C' V t with
  | error e => rw [hw] at hs; exact hs
  | ok V' =>
    rw [hw] at hs
    obtain ⟨v', s', e, g, a⟩ := hs
    exact ⟨v', s', e, g, a.vars (h.mono g)⟩

omit C in
/-- **Statements in order.** -/
theorem exec_sim {c : CurveR} : ∀ (ts : List EcStmt) (s : BigSt) (v : EcVars) (V : EcVals), Ctx K D s → CSim E p s c C' → VSim D E p C' s v V →
    Sim K (VSim D E p C') s (ecExec K fuel c ts v) (evExec K.lim C' ts V)
  | [], s, v, V, C, hc, h => by unfold ecExec evExec; exact Sim.pure C.inv h
  | t :: ts, s, v, V, C, hc, h => by
    unfold ecExec evExec
    refine Sim.bind (step_sim H C hc h t) ?_
    intro s' a b g h1
    exact exec_sim ts s' a b (C.mono g) (hc.mono g) h1

end
end Ack.Mem
