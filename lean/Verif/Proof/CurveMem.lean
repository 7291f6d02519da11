import Verif.Model.CurveMem
import Verif.Proof.KeyPre
/-! # Validation of a curve on real storage simulates the value model -/
namespace Ack.Mem
open Big (Byte)
open Ack.Spec.Ec

section
variable {K : Kind} {D : Nat → Prop} {p : Big} {P N fuel : ℕ} {s : BigSt} {C' : Curve}

theorem muluNew_new {x : Nat} {X : Big} (I : Inv K s.mem) (hf : Cap.fits K.lim 1 = true) (r : Rep s x X) (k : Word) :
    ∃ s', s.muluNew K x k = .ok s' ∧ New K s s' (Big.mulu1 K.lim X k) := by
  obtain ⟨s1, e1, N1⟩ := create_new I hf 0
  obtain ⟨s2, e2, P2⟩ := mulu1_spec N1.inv (N1.frame _ _ r) N1.res k
  exact ⟨s2, by unfold BigSt.muluNew; dsimp only; rw [e1, ok_bind]; exact e2, N1.post P2⟩

variable (F : FC K p P fuel) (C : Ctx K D s)
include F C

theorem fe_mulS_big {a : FeR} {A : Fe} (h : FeSim D D p s a A) {k : BitVec 32} (k0 : 0 ≤ k.toInt) (kP : k.toInt < P) :
    Sim K (FeSim D D p) s (a.mulS K k) (A.mulS K.lim k) := by
  unfold FeR.mulS Fe.mulS
  refine Sim.test C.inv (fe_isOne h) (Sim.ite (fun _ => ?_) fun _ => ?_)
  · refine Sim.deref h C.inv fun i r => ?_
    obtain ⟨s', e, N⟩ := create_new C.inv (Mod.fit1 F.M) (cabs32 k)
    exact Sim.fin (R := Big.ofInt32 k) C r (by unfold BigSt.createInt; rw [e, ok_bind]) (N.setNeg _)
      (elt_int F.M k0 kP)
  · by_cases hk : k = 1
    · rw [if_pos hk, if_pos hk]; exact fe_copy C h
    · rw [if_neg hk, if_neg hk]
      refine Sim.deref h C.inv fun i r => ?_
      obtain ⟨s', R, e, e', N⟩ := fpMulS_exact F.M C.inv h.v.rep r.rep h.elt.c (h.elt.fits F.M.room F.M.canon) k
      obtain ⟨z, h1, h2, -⟩ := fpMulS_spec (b := k) F.M.room F.M.canon h.elt k0
      rw [e'] at h1; cases h1
      rw [e']
      exact Sim.fin C r e N h2

/-- The product with any `int`, of which only the integer is used. -/
theorem fe_mulS_any {a : FeR} {A : Fe} (h : FeSim D D p s a A) (k : BitVec 32) :
    Sim K (fun s' a A => RepD D s' a.v A.v) s (a.mulS K k) (A.mulS K.lim k) := by
  unfold FeR.mulS Fe.mulS
  have fin : ∀ {f : BigSt → Res BigSt} {s' : BigSt} {R : Big} {i : Nat}, f s = .ok s' → New K s s' R →
      Sim K (fun s' a A => RepD D s' a.v A.v) s (do let v ← newObj f; Pure.pure (⟨v, some i⟩ : FeR)) (.ok (⟨R, some p⟩ : Fe)) :=
    fun e N => ⟨_, _, bind_run (newObj_run e), N.grow, C.fresh N⟩
  refine Sim.test C.inv (fe_isOne h) (Sim.ite (fun _ => ?_) fun _ => ?_)
  · refine Sim.deref h C.inv fun i r => ?_
    obtain ⟨s', e, N⟩ := create_new C.inv (Mod.fit1 F.M) (cabs32 k)
    exact fin (R := Big.ofInt32 k) (by unfold BigSt.createInt; rw [e, ok_bind]) (N.setNeg _)
  · by_cases hk : k = 1
    · rw [if_pos hk, if_pos hk]; exact Sim.weak (fe_copy C h) fun _ _ _ h => h.v
    · rw [if_neg hk, if_neg hk]
      refine Sim.deref h C.inv fun i r => ?_
      obtain ⟨s', R, e, e', N⟩ := fpMulS_exact F.M C.inv h.v.rep r.rep h.elt.c (h.elt.fits F.M.room F.M.canon) k
      rw [e']
      exact fin e N

/-- The discriminant on values. -/
def _root_.Ack.Curve.disc (cap : Cap) (c : Curve) : Res Bool := do
  let afe : Fe := ⟨c.a, some c.p⟩
  let bfe : Fe := ⟨c.b, some c.p⟩
  let a2 ← afe.sqr cap
  let a2 ← a2.mulS cap 4
  let a3 ← a2.mul cap afe
  let b2 ← bfe.sqr cap
  let b2 ← b2.mulS cap 27
  let y2 ← a3.add cap b2
  let d ← y2.mulS cap (-16)
  .ok (d.eqS 0)

theorem isSingular_sim (hP : 27 < P) {c : CurveR} (h : CSim D p s c C') :
    Sim K (fun _ a b => a = b) s (c.isSingular K) (C'.disc K.lim) := by
  have hp := h.hp
  unfold CurveR.isSingular Curve.disc
  refine Sim.newCopy C h.a fun s' va g ha => ?_
  lift g
  refine Sim.newCopy C h.b fun s' vb g hb => ?_
  lift g
  dsimp only
  have fa : FeSim D D p _ ⟨va, some c.p⟩ ⟨C'.a, some C'.p⟩ := ⟨ha, h.ea, Or.inr ⟨c.p, rfl, by rw [hp], h.rp⟩⟩
  have fb : FeSim D D p _ ⟨vb, some c.p⟩ ⟨C'.b, some C'.p⟩ := ⟨hb, h.eb, Or.inr ⟨c.p, rfl, by rw [hp], h.rp⟩⟩
  refine Sim.bind (fe_sqr F C fa) ?_
  intro s' _ _ g h1
  lift g
  refine Sim.bind (fe_mulS_big F C h1 (k := 4) (by decide) (by show (4 : ℤ) < P; omega)) ?_
  intro s' _ _ g h2
  lift g
  refine Sim.bind (fe_mul F C h2 fa) ?_
  intro s' _ _ g h3
  lift g
  refine Sim.bind (fe_sqr F C fb) ?_
  intro s' _ _ g h4
  lift g
  refine Sim.bind (fe_mulS_big F C h4 (k := 27) (by decide) (by show (27 : ℤ) < P; omega)) ?_
  intro s' _ _ g h5
  lift g
  refine Sim.bind (fe_add F C h3 h5) ?_
  intro s' _ _ g h6
  lift g
  refine Sim.bind (fe_mulS_any F C h6 (-16)) ?_
  intro s' _ _ g h7
  exact ⟨_, _, Is.ask (eqS_mem h7.rep 0), Grow.refl g.inv, rfl⟩

/-- The cofactor on values. -/
def _root_.Ack.Curve.cofactorOk (cap : Cap) (c : Curve) : Bool :=
  if decide (c.h.toNat < 1) || !Big.gtU c.p c.h then false
  else if Big.opEq (Big.mulu1 cap c.n c.h) (Big.subs1 cap c.p 1) then false else true

theorem cofactor_sim {c : CurveR} (h : CSim D p s c C') (hn : Mod K.lim C'.n N) :
    Sim K (fun _ a b => a = b) s (c.cofactorOk K) (.ok (C'.cofactorOk K.lim)) := by
  have hp := h.hp
  unfold CurveR.cofactorOk Curve.cofactorOk
  rw [h.h]
  by_cases h1 : C'.h.toNat < 1
  · rw [if_pos h1, decide_eq_true h1]
    exact Sim.pure C.inv rfl
  rw [if_neg h1, decide_eq_false h1, Bool.false_or, hp]
  refine Sim.test C.inv (Is.ask (gtU_mem h.rp.rep _)) ?_
  change Sim K _ s (if (!Big.gtU p C'.h) = true then _ else _) _
  cases Big.gtU p C'.h with
  | false => exact Sim.pure C.inv rfl
  | true =>
    simp only [Bool.not_true, Bool.false_eq_true, if_false]
    obtain ⟨s1, e1, N1⟩ := muluNew_new C.inv (Mod.fit1 F.M) h.n.rep C'.h
    obtain ⟨s2, R, e2, N2, S2⟩ := subsNew_new N1.inv (Mod.fit1 F.M) (N1.frame _ _ h.rp.rep) 1
    refine Sim.step (newObj_run e1) N1.grow (Sim.step (newObj_run e2) N2.grow ?_)
    obtain ⟨cs, -⟩ := subs1_room F.M.room 1 F.M.canon le_rfl (Canon.len_pos F.M.canon)
    obtain ⟨cm, -⟩ := Big.mulu1_spec K.lim C'.n C'.h hn.canon hn.room.fitsP
    have cR := S2.canon cs
    refine ⟨_, s2, bind_run (Is.ask (opEq_mem (N2.frame _ _ N1.res) N2.res)), Grow.refl N2.inv, ?_⟩
    have : Big.opEq (Big.mulu1 K.lim C'.n C'.h) R = Big.opEq (Big.mulu1 K.lim C'.n C'.h) (Big.subs1 K.lim p 1) := by
      rw [Bool.eq_iff_iff, opEq_iff cm cR, opEq_iff cm cs, S2.toInt]
    rw [this]
    cases Big.opEq (Big.mulu1 K.lim C'.n C'.h) (Big.subs1 K.lim p 1) <;> rfl

omit F C in
theorem verify_split (C' : Curve) (cap : Cap) : C'.verify cap = (if !Big.gtS C'.p 3 || !Big.gtS C'.n 0 then .ok false
      else if C'.a.isNegative || Big.opGe C'.a C'.p then .ok false
      else if C'.b.isNegative || Big.opGe C'.b C'.p then .ok false
      else do
        let d ← C'.disc cap
        if d then .ok false
        else do
          let gv ← C'.g.isValid cap
          if !gv then .ok false else .ok (C'.cofactorOk cap)) := by
  unfold Curve.verify
  by_cases h1 : (!Big.gtS C'.p 3 || !Big.gtS C'.n 0) = true
  · rw [if_pos h1, if_pos h1]
  rw [if_neg h1, if_neg h1]
  by_cases h2 : (C'.a.isNegative || Big.opGe C'.a C'.p) = true
  · rw [if_pos h2, if_pos h2]
  rw [if_neg h2, if_neg h2]
  by_cases h3 : (C'.b.isNegative || Big.opGe C'.b C'.p) = true
  · rw [if_pos h3, if_pos h3]
  rw [if_neg h3, if_neg h3]
  unfold Curve.disc Curve.cofactorOk
  simp only [bind_assoc, ok_bind]
  refine bind_congr fun _ => bind_congr fun _ => bind_congr fun _ => bind_congr fun _ => bind_congr fun _ =>
    bind_congr fun _ => bind_congr fun d => ?_
  by_cases h4 : d.eqS 0 = true
  · rw [if_pos h4, if_pos h4]
  rw [if_neg h4, if_neg h4]
  refine bind_congr fun gv => ?_
  cases gv
  · rfl
  simp only [Bool.not_true, Bool.false_eq_true, if_false]
  by_cases h5 : (decide (C'.h.toNat < 1) || !Big.gtU C'.p C'.h) = true
  · rw [if_pos h5, if_pos h5]
  rw [if_neg h5, if_neg h5]
  split <;> rfl

theorem curve_verify_sim (hP : 27 < P) {c : CurveR} (h : CSim D p s c C') (hn : Mod K.lim C'.n N) :
    Sim K (fun _ a b => a = b) s (c.verify K fuel) (C'.verify K.lim) := by
  unfold CurveR.verify
  refine Sim.scope ?_
  rw [verify_split]
  have hp := h.hp
  rw [hp]
  refine Sim.test C.inv (Is.ask (gtS_mem h.rp.rep 3)) ?_
  cases Big.gtS p 3 with
  | false => exact Sim.pure C.inv rfl
  | true =>
  refine Sim.test C.inv (Is.ask (gtS_mem h.n.rep 0)) ?_
  cases Big.gtS C'.n 0 with
  | false => exact Sim.pure C.inv rfl
  | true =>
  refine Sim.test C.inv (Is.ask (isNegative_mem h.a.rep)) ?_
  cases C'.a.isNegative with
  | true => exact Sim.pure C.inv rfl
  | false =>
  refine Sim.test C.inv (Is.ask (opGe_mem h.a.rep h.rp.rep)) ?_
  cases Big.opGe C'.a p with
  | true => exact Sim.pure C.inv rfl
  | false =>
  refine Sim.test C.inv (Is.ask (isNegative_mem h.b.rep)) ?_
  cases C'.b.isNegative with
  | true => exact Sim.pure C.inv rfl
  | false =>
  refine Sim.test C.inv (Is.ask (opGe_mem h.b.rep h.rp.rep)) ?_
  cases Big.opGe C'.b p with
  | true => exact Sim.pure C.inv rfl
  | false =>
  refine Sim.bind (isSingular_sim F C hP h) ?_
  rintro s' x _ g rfl
  lift g
  refine Sim.ite (fun _ => Sim.pure C.inv rfl) fun _ => ?_
  refine Sim.bind (apt_isValid F C ⟨OSim.some h, h.gx, h.gy, h.ng⟩) ?_
  rintro s' x _ g rfl
  lift g
  refine Sim.ite (fun _ => Sim.pure C.inv rfl) fun _ => ?_
  exact cofactor_sim F C h hn

end

section
variable {K : Kind} {d : DomBytes} {P N fuel : ℕ}

/-- **The whole program.** -/
theorem curveProgram_sim (r : Params K d P N) (S : EcSetting K d P N) (h27 : 27 < P) (hP : Spec.Passes P fuel) :
    Sim K (fun _ a b => a = b) BigSt.init (curveProgram K fuel d) (r.make >>= fun c => c.verify K.lim) := by
  have f1 := cap_fit1 r.mp
  unfold curveProgram
  have C := ctx_init (K := K)
  refine Sim.newBytes C f1 r.ep fun s' _ g h1 => ?_
  lift g
  refine Sim.newBytes C f1 r.ea fun s' _ g h2 => ?_
  lift g
  refine Sim.newBytes C f1 r.eb fun s' _ g h3 => ?_
  lift g
  refine Sim.newBytes C f1 r.ex fun s' _ g h4 => ?_
  lift g
  refine Sim.newBytes C f1 r.ey fun s' _ g h5 => ?_
  lift g
  refine Sim.newBytes C f1 r.en fun s' _ g h6 => ?_
  lift g
  have hm := make_sim (r.fc S hP) C 1 d.h h1 h2 h3 h4 h5 h6 r.la r.lb r.cx r.cy
  change Sim K _ _ _ r.make at hm
  rcases r.make_cases with e | e
  · rw [e] at hm ⊢
    obtain ⟨c, s1, em, g, hc⟩ := hm
    rw [ok_bind]
    exact Sim.step em g (curve_verify_sim (r.fc S hP) (C.mono g) h27 hc r.mn)
  · rw [e] at hm ⊢
    exact bind_err hm

/-- Parameters with a generator of residues: the constructor's checks pass. -/
theorem Params.make_ok (r : Params K d P N) (hx : beVal d.gx < P) (hy : beVal d.gy < P) : r.make = .ok r.curve := by
  have vx := r.vx
  have vy := r.vy
  have vp := r.mp.eq
  have ok : ∀ {x : Big}, x.Canon → 0 ≤ x.toInt → x.toInt < r.p.toInt → r.curve.isValidInteger x = true := by
    intro x cx h0 hlt
    unfold Curve.isValidInteger
    rw [(opLt_iff cx r.mp.canon).2 hlt, Bool.and_true, Bool.not_eq_true', Bool.eq_false_iff, ne_eq, Ack.Big.isNegative_iff cx]
    omega
  unfold Params.make Curve.make
  dsimp only
  rw [ok r.cx (by omega) (by omega), ok r.cy (by omega) (by omega)]
  rfl

end
end Ack.Mem
