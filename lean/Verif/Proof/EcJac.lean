import Verif.Proof.EcPts
import Verif.Proof.EcNaf
import Verif.Proof.Ecdsa
/-! # Jacobian points, `ec_mul_add_fast` and `ecdsa_verify` on objects follow the value model -/
namespace Ack.Mem
open Big (Byte)

attribute [local irreducible] FeR.add FeR.sub FeR.mul FeR.mulS FeR.sqr FeR.div FeR.neg FeR.inv FeR.bigMul FeR.addB FeR.subB
  Fe.add Fe.sub Fe.mul Fe.mulS Fe.sqr Fe.div Fe.neg Fe.inv Fe.bigMul Fe.addB Fe.subB

section
variable {K : Kind} {D D1 D2 D3 D4 D5 D6 E : Nat → Prop} {p : Big} {P fuel : ℕ} {s : BigSt} (F : FC K p P fuel) (C : Ctx K D s)

theorem jpt_isIdentity {q : JPtR} {Q : JPt} (h : JSim D1 E p s q Q) : Is s q.isIdentity Q.isIdentity := by
  unfold JPtR.isIdentity JPt.isIdentity
  rw [h.c.isNone]
  exact Is.or (fe_isZero h.z)

include C

theorem jpt_copy {q : JPtR} {Q : JPt} (h : JSim D1 E p s q Q) : Sim K (JSim D E p) s (q.copy K) (.ok Q) := by
  obtain ⟨hc, hx, hy, hz⟩ := h
  unfold JPtR.copy
  cp h1
  mark n Cn w
  have k := h1.below hn
  cpc Cn h2
  mark n' Cn' w'
  have k1 := h1.below hn
  have k2 := h2.below hn
  cpc Cn' h3
  exact Sim.pure C.inv ⟨hc, h1, h2.old w, h3.old w', h2.after k, h3.after k1, h3.after k2⟩

include F

theorem jpt_identity : Sim K (JSim D E p) s (JPtR.identity K) (.ok JPt.identity) := by
  unfold JPtR.identity
  refine Sim.zero (E := E) F C fun s' _ g h1 => ?_
  lift g
  mark n Cn w
  have k := h1.below hn
  refine Sim.one (E := E) F Cn fun s' _ g h2 => ?_
  lift g
  mark n' Cn' w'
  have k1 := h1.below hn
  have k2 := h2.below hn
  refine Sim.zero (E := E) F Cn' fun s' _ g h3 => ?_
  lift g
  exact Sim.pure C.inv ⟨OSim.null, h1, h2.old w, h3.old w', h2.after k, h3.after k1, h3.after k2⟩

theorem jpt_ofAffine {q : APtR} {Q : APt} (h : ASim D1 E p s q Q) : Sim K (JSim D E p) s (JPtR.ofAffine K q) (JPt.ofAffine Q) := by
  unfold JPtR.ofAffine JPt.ofAffine
  refine Sim.test C.inv (apt_isIdentity h) (Sim.ite (fun _ => ?_) fun _ => jpt_identity F C)
  obtain ⟨hc, hx, hy⟩ := h
  cv h1
  cp h2
  mark n Cn w
  have k := h2.below hn
  cpc Cn h3
  mark n' Cn' w'
  have k2 := h2.below hn
  have k3 := h3.below hn
  refine Sim.ofWord F Cn' h1.rp (by decide) (k32 := 1) (by decide) fun s' _ g h4 => ?_
  lift g
  exact Sim.pure C.inv ⟨OSim.some h1, h2, h3.old w, by rw [h1.hp]; exact h4.old w', h3.after k, h4.after k2, h4.after k3⟩

theorem jpt_toAffine {q : JPtR} {Q : JPt} (h : JSim D1 E p s q Q) : Sim K (ASim D E p) s (q.toAffine K fuel) (Q.toAffine K.lim) := by
  unfold JPtR.toAffine JPt.toAffine
  refine Sim.test C.inv (jpt_isIdentity h) (Sim.ite (fun _ => apt_identity F C) fun _ => ?_)
  refine Sim.test C.inv (fe_isOne h.z) (Sim.ite (fun _ => ?_) fun _ => ?_)
  · obtain ⟨hc, hx, hy, hz⟩ := h
    cv h1
    cp h2
    mark n Cn w
    have k := h2.below hn
    cpc Cn h3
    exact Sim.pure C.inv ⟨OSim.some h1, h2, h3.old w, h3.after k⟩
  · obtain ⟨hc, hx, hy, hz⟩ := h
    fe h1
    fe h2
    cv h3
    fe h4
    fe h5
    mark n Cn w
    have k := h4.below hn
    fec Cn h6
    exact Sim.pure C.inv ⟨OSim.some h3, h4, h6.old w, h6.after k⟩

theorem jpt_inverted {q : JPtR} {Q : JPt} (h : JSim D1 E p s q Q) : Sim K (JSim D E p) s (q.inverted K) (Q.inverted K.lim) := by
  unfold JPtR.inverted JPt.inverted
  refine Sim.test C.inv (jpt_isIdentity h) (Sim.ite (fun _ => jpt_copy C h) fun _ => ?_)
  obtain ⟨hc, hx, hy, hz⟩ := h
  cv h1
  cp h2
  mark n Cn w
  have k := h2.below hn
  fec Cn h3
  mark n' Cn' w'
  have k2 := h2.below hn
  have k3 := h3.below hn
  cpc Cn' h4
  exact Sim.pure C.inv ⟨OSim.some h1, h2, h3.old w, h4.old w', h3.after k, h4.after k2, h4.after k3⟩

theorem jpt_tangent {q : JPtR} {Q : JPt} (h : JSim D1 E p s q Q) : Sim K (FeSim D E p) s (q.tangent K) (Q.tangent K.lim) := by
  unfold JPtR.tangent JPt.tangent
  obtain ⟨hc, hx, hy, hz⟩ := h
  cv h1
  rw [h1.z, h1.m3]
  refine Sim.ite (fun _ => ?_) fun _ => Sim.ite (fun _ => ?_) fun _ => ?_
  · fe h2
    exact fe_mulS F C h2 (by decide) (by decide)
  · refine Sim.test C.inv (fe_isOne hz) (Sim.bind (R := FeSim D E p) (Sim.ite (fun _ => fe_copy C hz) fun _ => fe_sqr F C hz) ?_)
    intro s' _ _ g h2
    lift g
    fe h3
    fe h4
    fe h5
    exact fe_mul F C h4 h5
  · refine Sim.test C.inv (fe_isOne hz) (Sim.bind (R := FeSim D E p) (Sim.ite (fun _ => fe_copy C hz) fun _ => ?_) ?_)
    · fe h2
      exact fe_sqr F C h2
    · intro s' _ _ g h2
      lift g
      fe h3
      fe h4
      refine Sim.bind (fe_bigMul F C h2 h1.a h1.ea) ?_
      intro s' _ _ g h5
      lift g
      exact fe_add F C h4 h5

theorem jpt_doubled {q : JPtR} {Q : JPt} (h : JSim D1 E p s q Q) : Sim K (JSim D E p) s (q.doubled K) (Q.doubled K.lim) := by
  unfold JPtR.doubled JPt.doubled
  refine Sim.test C.inv (jpt_isIdentity h) (Sim.ite (fun _ => jpt_copy C h) fun _ => ?_)
  refine Sim.test C.inv (fe_eqS h.y 0) (Sim.ite (fun _ => jpt_identity F C) fun _ => ?_)
  refine Sim.bind (jpt_tangent F C h) ?_
  intro s' _ _ g h1
  lift g
  obtain ⟨hc, hx, hy, hz⟩ := h
  fe h2
  fe h3
  fe h4
  fe h5
  fe h6
  fe h7
  fe h8
  fe h9
  fe h10
  fe h11
  mark n Cn w
  have k := h7.below hn
  fec Cn h12
  mark n' Cn' w'
  have k1 := h7.below hn
  have k2 := h12.below hn
  fe h13
  fec Cn' h14
  cv h15
  exact Sim.pure C.inv ⟨OSim.some h15, h7, h12.old w, h14.old w', h12.after k, h14.after k1, h14.after k2⟩

theorem jpt_addex {q a : JPtR} {Q A : JPt} {u1 u2 s1 s2 : FeR} {U1 U2 S1 S2 : Fe} (h : JSim D1 E p s q Q) (h' : JSim D2 E p s a A)
    (hu1 : FeSim D3 E p s u1 U1) (hu2 : FeSim D4 E p s u2 U2) (hs1 : FeSim D5 E p s s1 S1) (hs2 : FeSim D6 E p s s2 S2) :
    Sim K (JSim D E p) s (q.addex K a u1 u2 s1 s2) (Q.addex K.lim A U1 U2 S1 S2) := by
  unfold JPtR.addex JPt.addex
  fe h1
  fe h2
  refine Sim.test C.inv (fe_isZero h1) (Sim.ite (fun _ => ?_) fun _ => ?_)
  · exact Sim.test C.inv (fe_isZero h2) (Sim.ite (fun _ => jpt_doubled F C h) fun _ => jpt_identity F C)
  · have hz := h.z
    have hz' := h'.z
    have hc := h.c
    clear h h' hu2 hs2
    fe h3
    fe h4
    fe h5
    fe h6
    fe h7
    fe h8
    fe h9
    fe h10
    fe h11
    fe h12
    mark n Cn w
    have k := h9.below hn
    fec Cn h13
    mark n' Cn' w'
    have k1 := h9.below hn
    have k2 := h13.below hn
    cpc Cn' h14
    refine Sim.test C.inv (fe_isOne hz) (Sim.bind (R := FeSim (Since n') E p) (Sim.ite (fun _ => fe_mul F Cn' h14 hz) fun _ => Sim.pure C.inv h14) ?_)
    intro s' _ _ g h15
    lift g
    refine Sim.test C.inv (fe_isOne hz') (Sim.bind (R := FeSim (Since n') E p) (Sim.ite (fun _ => fe_mul F Cn' h15 hz') fun _ => Sim.pure C.inv h15) ?_)
    intro s' _ _ g h16
    lift g
    cv h17
    exact Sim.pure C.inv ⟨OSim.some h17, h9, h13.old w, h16.old w', h13.after k, h16.after k1, h16.after k2⟩

theorem jpt_addZ2One {q a : JPtR} {Q A : JPt} (h : JSim D1 E p s q Q) (h' : JSim D2 E p s a A) :
    Sim K (JSim D E p) s (q.addZ2One K a) (Q.addZ2One K.lim A) := by
  unfold JPtR.addZ2One JPt.addZ2One
  have hx := h'.x
  have hy := h'.y
  have hz := h.z
  fe h1
  fe h2
  fe h3
  fe h4
  exact jpt_addex F C h h' h.x h2 h.y h4

theorem jpt_addNe {q a : JPtR} {Q A : JPt} (h : JSim D1 E p s q Q) (h' : JSim D2 E p s a A) :
    Sim K (JSim D E p) s (q.addNe K a) (Q.addNe K.lim A) := by
  unfold JPtR.addNe JPt.addNe
  have hx := h.x
  have hy := h.y
  have hz := h.z
  have hx' := h'.x
  have hy' := h'.y
  have hz' := h'.z
  fe h1
  fe h2
  fe h3
  fe h4
  fe h5
  fe h6
  fe h7
  fe h8
  exact jpt_addex F C h h' h3 h4 h6 h8

theorem jpt_add {q a : JPtR} {Q A : JPt} (h : JSim D1 E p s q Q) (h' : JSim D2 E p s a A) :
    Sim K (JSim D E p) s (q.add K a) (Q.add K.lim A) := by
  unfold JPtR.add JPt.add
  refine Sim.test C.inv (jpt_isIdentity h) (Sim.ite (fun _ => jpt_copy C h') fun _ => ?_)
  refine Sim.test C.inv (jpt_isIdentity h') (Sim.ite (fun _ => jpt_copy C h) fun _ => ?_)
  refine Sim.test C.inv (fe_isOne h.z) (Sim.test C.inv (fe_isOne h'.z) ?_)
  exact Sim.ite (fun _ => jpt_addex F C h h' h.x h'.x h.y h'.y) fun _ => Sim.ite (fun _ => jpt_addZ2One F C h' h) fun _ =>
    Sim.ite (fun _ => jpt_addZ2One F C h h') fun _ => jpt_addNe F C h h'

omit C in
theorem jpt_nafLoop {q a : JPtR} {Q A : JPt} : ∀ (l : List (BitVec 8)) (s : BigSt) (r : JPtR) (R : JPt), Ctx K D s → JSim D1 E p s q Q →
    JSim D2 E p s a A → JSim D E p s r R → Sim K (JSim D E p) s (JPtR.nafLoop K q a l r) (JPt.nafLoop K.lim Q A l R)
  | [], s, r, R, C, _, _, hr => Sim.pure C.inv hr
  | d :: t, s, r, R, C, h, h', hr => by
    rw [JPtR.nafLoop, JPt.nafLoop]
    refine Sim.bind (jpt_doubled F C hr) ?_
    intro s1 r1 R1 g h1
    lift g
    refine Sim.bind (R := JSim D E p) (v := if d.toInt > 0 then R1.add K.lim Q else if d.toInt < 0 then R1.add K.lim A else .ok R1) ?_ ?_
    · split
      · exact jpt_add F C h1 h
      · split
        · exact jpt_add F C h1 h'
        · exact Sim.pure C.inv h1
    · intro s2 r2 R2 g2 h2
      lift g2
      exact jpt_nafLoop t s2 r2 R2 C h h' h2

theorem jpt_mulNN {q : JPtR} {Q : JPt} {k : Nat} {X : Big} (h : JSim D1 E p s q Q) (hk : RepD D3 s k X) :
    Sim K (JSim D E p) s (q.mulNN K k) (Q.mulNN K.lim X) := by
  unfold JPtR.mulNN JPt.mulNN
  refine Sim.test C.inv (Is.ask (isOne_eq hk.rep)) (Sim.test C.inv (Is.or (jpt_isIdentity h)) (Sim.ite (fun _ => jpt_copy C h) fun _ => ?_))
  refine Sim.test C.inv (Is.ask (isZero_eq hk.rep)) (Sim.ite (fun _ => jpt_identity F C) fun _ => ?_)
  refine Sim.bind (jpt_inverted F C h) ?_
  intro s1 _ _ g h1
  lift g
  have hc := h.c
  cv h2
  refine Sim.ofWord F C h2.rp (by decide) (k32 := 0) (by decide) fun s' _ g h3 => ?_
  lift g
  mark n Cn w
  have k := h3.below hn
  refine Sim.ofWord F Cn h2.rp (by decide) (k32 := 0) (by decide) fun s' _ g h4 => ?_
  lift g
  mark n' Cn' w'
  have k1 := h3.below hn
  have k2 := h4.below hn
  refine Sim.ofWord F Cn' h2.rp (by decide) (k32 := 1) (by decide) fun s' _ g h5 => ?_
  lift g
  refine Sim.bind (toRnaf_exact C (Mod.fit1 F.M) hk.rep) ?_
  intro s' l _ g hl
  lift g
  subst hl
  exact jpt_nafLoop F l s' _ _ C h h1 ⟨OSim.some h2, by rw [h2.hp]; exact h3, by rw [h2.hp]; exact h4.old w,
    by rw [h2.hp]; exact h5.old w', h4.after k, h5.after k1, h5.after k2⟩

theorem jpt_mul {q : JPtR} {Q : JPt} {k : Nat} {X : Big} (h : JSim D1 E p s q Q) (hk : RepD D3 s k X) :
    Sim K (JSim D E p) s (q.mul K k) (Q.mul K.lim X) := by
  unfold JPtR.mul JPt.mul
  refine Sim.test C.inv (Is.ask (isOne_eq hk.rep)) (Sim.test C.inv (Is.or (jpt_isIdentity h)) (Sim.ite (fun _ => jpt_copy C h) fun _ => ?_))
  refine Sim.test C.inv (Is.ask (isZero_eq hk.rep)) (Sim.ite (fun _ => jpt_identity F C) fun _ => ?_)
  refine Sim.test C.inv (Is.ask (ltS_mem hk.rep 0)) (Sim.ite (fun _ => ?_) fun _ => jpt_mulNN F C h hk)
  refine Sim.bind (jpt_inverted F C h) ?_
  intro s1 _ _ g h1
  lift g
  obtain ⟨s2, e2, N2⟩ := negNew_exact F.M C.inv hk.rep
  exact Sim.step (newObj_run e2) N2.grow (jpt_mulNN F (C.mono N2.grow) (h1.mono N2.grow) (C.fresh N2))

/-! ### `ec_mul_add_fast` -/

omit F C in
theorem JSim.any {q : JPtR} {Q : JPt} (h : JSim D E p s q Q) : JSim (fun _ => False) E p s q Q :=
  ⟨h.c, ⟨⟨h.x.v.rep, id⟩, h.x.elt, h.x.pm⟩, ⟨⟨h.y.v.rep, id⟩, h.y.elt, h.y.pm⟩, ⟨⟨h.z.v.rep, id⟩, h.z.elt, h.z.pm⟩, h.xy, h.xz, h.yz⟩

omit F C in
/-- The table of the loop. -/
structure TSim (D E : Nat → Prop) (p : Big) (s : BigSt) (t : MulAddTbl JPtR) (T : MulAddTbl JPt) : Prop where
  pp : JSim D E p s t.p T.p
  q : JSim D E p s t.q T.q
  pneg : JSim D E p s t.pneg T.pneg
  qneg : JSim D E p s t.qneg T.qneg
  pnegqneg : JSim D E p s t.pnegqneg T.pnegqneg
  pqneg : JSim D E p s t.pqneg T.pqneg
  pqnegInv : JSim D E p s t.pqnegInv T.pqnegInv
  pnegqnegInv : JSim D E p s t.pnegqnegInv T.pnegqnegInv

omit F C in
theorem TSim.mono {s' : BigSt} {t : MulAddTbl JPtR} {T : MulAddTbl JPt} (h : TSim D E p s t T) (g : Grow K s s') : TSim D E p s' t T :=
  ⟨h.pp.mono g, h.q.mono g, h.pneg.mono g, h.qneg.mono g, h.pnegqneg.mono g, h.pqneg.mono g, h.pqnegInv.mono g, h.pnegqnegInv.mono g⟩

omit F C in
theorem Sim.iteP {α β : Type} {R : BigSt → α → β → Prop} {c : Prop} [Decidable c] {m n : M α} {v w : Res β} (h1 : Sim K R s m v)
    (h2 : Sim K R s n w) : Sim K R s (if c then m else n) (if c then v else w) := by
  split
  · exact h1
  · exact h2

theorem mulAddStep_sim {t : MulAddTbl JPtR} {T : MulAddTbl JPt} {r : JPtR} {R : JPt} (h : TSim D1 E p s t T) (hr : JSim D E p s r R)
    (da db : BitVec 8) : Sim K (JSim D E p) s (mulAddStepR K t da db r) (mulAddStep (JPt.ops K.lim) T da db R) := by
  unfold mulAddStepR mulAddStep
  refine Sim.bind (jpt_doubled F C hr) ?_
  intro s' r1 R1 g h1
  lift g
  exact Sim.iteP (Sim.iteP (Sim.pure C.inv h1) (Sim.iteP (jpt_add F C h1 h.qneg) (jpt_add F C h1 h.q)))
    (Sim.iteP (Sim.iteP (jpt_add F C h1 h.pneg) (Sim.iteP (jpt_add F C h1 h.pnegqneg) (jpt_add F C h1 h.pqnegInv)))
      (Sim.iteP (jpt_add F C h1 h.pp) (Sim.iteP (jpt_add F C h1 h.pqneg) (jpt_add F C h1 h.pnegqnegInv))))

omit C in
theorem mulAddLoop_sim {t : MulAddTbl JPtR} {T : MulAddTbl JPt} : ∀ (a b : List (BitVec 8)) (s : BigSt) (r : JPtR) (R : JPt), Ctx K D s →
    TSim D1 E p s t T → JSim D E p s r R → Sim K (JSim D E p) s (mulAddLoopR K t a b r) (mulAddLoop (JPt.ops K.lim) T a b R)
  | da :: as, db :: bs, s, r, R, C, h, hr => by
    rw [mulAddLoopR, mulAddLoop]
    refine Sim.bind (mulAddStep_sim F C h hr da db) ?_
    intro s' r1 R1 g h1
    lift g
    exact mulAddLoop_sim as bs s' r1 R1 C h h1
  | [], _, s, r, R, C, h, hr => by simp only [mulAddLoopR, mulAddLoop]; exact Sim.pure C.inv hr
  | _ :: _, [], s, r, R, C, h, hr => by simp only [mulAddLoopR, mulAddLoop]; exact Sim.pure C.inv hr

theorem mulAddFast_sim {a b : Nat} {A B : Big} {q r : JPtR} {Q R : JPt} (ha : RepD D3 s a A) (hb : RepD D4 s b B) (hq : JSim D1 E p s q Q)
    (hr : JSim D2 E p s r R) : Sim K (JSim D E p) s (mulAddFastR K a q b r) (mulAddFast K.lim (JPt.ops K.lim) A Q B R) := by
  unfold mulAddFastR mulAddFast
  refine Sim.bind (toRnaf_exact C (Mod.fit1 F.M) ha.rep) ?_
  intro s1 an _ g hl
  lift g
  subst hl
  refine Sim.bind (toRnaf_exact C (Mod.fit1 F.M) hb.rep) ?_
  intro s1 bn _ g hl
  lift g
  subst hl
  dsimp only
  refine Sim.bind (jpt_inverted F C hq) ?_
  intro s1 _ _ g h1
  lift g
  refine Sim.bind (jpt_inverted F C hr) ?_
  intro s1 _ _ g h2
  lift g
  refine Sim.bind (jpt_add F C h1 h2) ?_
  intro s1 _ _ g h3
  lift g
  refine Sim.bind (jpt_add F C hq h2) ?_
  intro s1 _ _ g h4
  lift g
  refine Sim.bind (jpt_inverted F C h4) ?_
  intro s1 _ _ g h5
  lift g
  refine Sim.bind (jpt_inverted F C h3) ?_
  intro s1 _ _ g h6
  lift g
  obtain ⟨a7, s7, e7, g7, h7⟩ := jpt_identity (E := E) F C
  refine Sim.step e7 g7 ?_
  lift g7
  exact mulAddLoop_sim F _ _ _ _ _ C (D1 := fun _ => False) ⟨hq.any, hr.any, h1.any, h2.any, h3.any, h4.any, h5.any, h6.any⟩ h7

/-! ### `ecdsa_verify` -/

omit F C in
theorem Sim.ask {α : Type} {m : M α} {b : α} (I : Inv K s.mem) (h : Is s m b) : Sim K (fun _ a b => a = b) s m (.ok b) :=
  ⟨b, s, h, Grow.refl I, rfl⟩

omit F C in
theorem sigOut_is {n r t : Nat} {N R T : Big} (hn : Rep s n N) (hr : Rep s r R) (ht : Rep s t T) :
    Is s (sigOut n r t) (Big.ltS R 1 || Big.opGe R N || Big.ltS T 1 || Big.opGe T N) := by
  unfold sigOut
  rw [Bool.or_assoc, Bool.or_assoc]
  exact Is.bind (Is.ask (ltS_mem hr 1)) (Is.or (Is.bind (Is.ask (opGe_mem hr hn)) (Is.or (Is.bind (Is.ask (ltS_mem ht 1))
    (Is.or (Is.ask (opGe_mem ht hn)))))))

omit F in
theorem msgInt_exact {n : Nat} {N : Big} {NN : ℕ} (M : Mod K.lim N NN) (hn : RepD D1 s n N) (msg : List Byte) :
    Sim K (fun s' i X => RepD D s' i X) s (msgIntR K n msg) (msgInt K.lim N msg) := by
  unfold msgIntR msgInt
  refine Sim.test C.inv (Is.ask (byteLength_eq hn.rep)) ?_
  have ho := ofBytes_exact C.inv (Mod.fit1 M) (msg.take (min N.byteLength msg.length))
  revert ho
  cases hb : Big.ofBytes K.lim (msg.take (min N.byteLength msg.length)) with
  | error e => intro ho; exact bind_err (newObj_err ho)
  | ok E =>
    rintro ⟨s1, e1, N1⟩
    rw [ok_bind]
    have cE : E.Canon := by
      unfold Big.ofBytes at hb
      by_cases h0 : msg.take (min N.byteLength msg.length) = []
      · rw [h0] at hb
        cases hb
        exact Big.canonW_single _
      · cases hf : Cap.fits K.lim (Big.wordSize (msg.take (min N.byteLength msg.length)).length) with
        | false => rw [Big.setBytes_none _ _ h0 hf] at hb; cases hb
        | true =>
          obtain ⟨x, e, c, -⟩ := Big.setBytes_spec K.lim _ hf (Mod.fit1 M)
          rw [e] at hb; cases hb; exact c
    have ht := opGt_mem N1.res (N1.frame _ _ hn.rep)
    cases hg : Big.opGt E N with
    | false =>
      rw [hg] at ht
      exact Sim.step (newObj_run e1) N1.grow (Sim.test N1.inv (Is.ask ht) ⟨_, s1, rfl, Grow.refl N1.inv, C.fresh N1⟩)
    | true =>
      rw [hg] at ht
      have hgt := (opGt_iff cE M.canon).1 hg
      have hN : 0 < N.toInt := by rw [M.eq]; have := M.gt; omega
      obtain ⟨s2, e2, P2⟩ := sub_spec N1.inv N1.res (N1.frame _ _ hn.rep) N1.res
        (fun h => absurd (by rw [neg_of_pos hN, neg_of_pos (by omega : 0 < E.toInt)]) h)
      have N2 := N1.post P2
      refine ⟨s.mem.objs.length, s2, ?_, N2.grow, C.fresh N2⟩
      rw [bind_run (newObj_run e1), bind_run (Is.ask ht)]
      simp only [if_true]
      rw [bind_run (a := ()) (s' := s2) (by unfold change; dsimp only; rw [e2]; rfl)]
      rfl

theorem verify_sim {q : APtR} {Q : APt} {r t : Nat} {R T : Big} {n : ℕ} (h : ASim D1 E p s q Q) (hr : RepD D2 s r R) (ht : RepD D3 s t T)
    (cR : R.Canon) (cT : T.Canon) (hord : ∀ C, Q.curve = some C → Mod K.lim C.n n ∧ (K.dyn = true → C.n.ws.length ≤ K.N) ∧ n.size ≤ fuel)
    (msg : List Byte) : Sim K (fun _ a b => a = b) s (ecdsaVerifyGo K fuel q msg r t) (ecdsaVerify K.lim Q msg R T) := by
  unfold ecdsaVerifyGo ecdsaVerify
  refine Sim.test C.inv (apt_isIdentity h) (Sim.ite (fun _ => Sim.pure C.inv rfl) fun _ => ?_)
  have hc := h.c
  rcases hc with ⟨e1, e2⟩ | ⟨c, c', e1, e2, h1⟩
  · rw [e1, e2]; exact Sim.halt _
  obtain ⟨Mn, hnN, hnf⟩ := hord c' e2
  rw [e1, e2]
  refine Sim.step (a := c) (s' := s) rfl (Grow.refl C.inv) ?_
  rw [show curveOf (some c') = .ok c' from rfl, ok_bind]
  refine Sim.test C.inv (sigOut_is h1.n.rep hr.rep ht.rep) ?_
  cases hout : (Big.ltS R 1 || Big.opGe R c'.n || Big.ltS T 1 || Big.opGe T c'.n) with
  | true => exact Sim.pure C.inv rfl
  | false =>
    simp only [Bool.false_eq_true, if_false]
    rw [Bool.or_eq_false_iff, Bool.or_eq_false_iff, Bool.or_eq_false_iff] at hout
    simp only [← Bool.not_eq_true, ltS_iff cR, ltS_iff cT, opGe_iff cR Mn.canon, opGe_iff cT Mn.canon,
      show (1 : BitVec 32).toInt = 1 from rfl] at hout
    obtain ⟨⟨⟨r1, r2⟩, t1⟩, t2⟩ := hout
    have eR : Elt c'.n R := ⟨cR, by omega, by omega⟩
    have eT : Elt c'.n T := ⟨cT, by omega, by omega⟩
    obtain ⟨E, ee, cE, lE, -⟩ := msgInt_spec Mn msg
    have hm := msgInt_exact C Mn h1.n msg
    rw [ee] at hm ⊢
    obtain ⟨ie, s2, e2', g2, hE⟩ := hm
    refine Sim.step e2' g2 ?_
    rw [ok_bind]
    lift g2
    rcases modinvNew_exact Mn C.inv hnN hnf ht.rep h1.n.rep eT with ⟨e3, e3'⟩ | ⟨s3, W, e3, e3', eW, N3⟩
    · rw [e3']; exact bind_err (newObj_err e3)
    rw [e3', ok_bind]
    have g3 := N3.grow
    have hW := C.fresh N3
    refine Sim.step (newObj_run e3) g3 ?_
    lift g3
    obtain ⟨s4, U1, e4, e4', N4⟩ := fpMul_exact Mn C.inv hE.rep hW.rep h1.n.rep cE eW.c
      (Mn.room.fits (by have := eW.len Mn.canon; omega))
    rw [show Big.mod K.lim (Big.mul K.lim E W) c'.n = .ok U1 from e4', ok_bind]
    have g4 := N4.grow
    have hU1 := C.fresh N4
    refine Sim.step (newObj_run e4) g4 ?_
    lift g4
    obtain ⟨s5, U2, e5, e5', N5⟩ := fpMul_exact Mn C.inv hr.rep hW.rep h1.n.rep cR eW.c
      (Mn.room.fits (by have := eW.len Mn.canon; have := eR.len Mn.canon; omega))
    rw [show Big.mod K.lim (Big.mul K.lim R W) c'.n = .ok U2 from e5', ok_bind]
    have g5 := N5.grow
    have hU2 := C.fresh N5
    refine Sim.step (newObj_run e5) g5 ?_
    lift g5
    have hg : ASim _ _ p s5 c.g c'.g := ⟨OSim.some h1, h1.gx, h1.gy, h1.ng⟩
    refine Sim.bind (jpt_ofAffine F C hg) ?_
    intro s' _ _ g h2
    lift g
    refine Sim.bind (jpt_ofAffine F C h) ?_
    intro s' _ _ g h3
    lift g
    refine Sim.bind (mulAddFast_sim F C hU1 hU2 h2 h3) ?_
    intro s' _ _ g h4
    lift g
    refine Sim.bind (jpt_toAffine F C h4) ?_
    intro s' V V' g h5
    lift g
    refine Sim.test C.inv (apt_isIdentity h5) (Sim.ite (fun _ => Sim.pure C.inv rfl) fun _ => ?_)
    refine Sim.test C.inv (Is.ask (opGe_mem h5.x.v.rep h1.n.rep)) ?_
    refine Sim.bind (R := FeSim D _ p) (Sim.ite (fun hge => ?_) fun _ => Sim.pure C.inv h5.x) ?_
    · have := (opGe_iff h5.x.elt.c Mn.canon).1 hge
      exact fe_subB F C h5.x h1.n ⟨Mn.canon, by rw [Mn.eq]; omega, by have := h5.x.elt.lt; omega⟩
    · intro s' x x' g h6
      lift g
      exact Sim.ask C.inv (Is.ask (opEq_mem h6.v.rep hr.rep))

end
end Ack.Mem
