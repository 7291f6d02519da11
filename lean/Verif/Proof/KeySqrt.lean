import Verif.Proof.KeyNT
import Verif.Proof.EcProg
/-! # Square roots on memory give exactly the values of `Model/Fp.lean` -/
namespace Ack.Mem
open Big (Byte)

/-- An object with a reduced value, which will not be changed. -/
structure ESim (D : Nat → Prop) (p : Big) (s : BigSt) (i : Nat) (X : Big) : Prop where
  rep : RepD D s i X
  elt : Elt p X

theorem ESim.mono {K : Kind} {D : Nat → Prop} {p : Big} {s s' : BigSt} {i : Nat} {X : Big} (h : ESim D p s i X) (g : Grow K s s') :
    ESim D p s' i X := ⟨h.rep.mono g, h.elt⟩

section
variable {K : Kind} {s : BigSt}

/-- Steps that change only their own objects. -/
theorem Sim.via {α β : Type} {R : BigSt → α → β → Prop} {s' : BigSt} {m m' : M α} {v : Res β} (h : m s = m' s') (g : Grow K s s')
    (k : Sim K R s' m' v) : Sim K R s m v := by
  cases v with
  | error e => exact h.trans k
  | ok b =>
    obtain ⟨a, s2, e, g2, r⟩ := k
    exact ⟨a, s2, h.trans e, g.trans g2, r⟩

theorem change_run {f : BigSt → Res BigSt} {s' : BigSt} (h : f s = .ok s') : change f s = .ok ((), s') := by
  unfold change; rw [h]; rfl

theorem createInt_new (I : Inv K s.mem) (hf : Cap.fits K.lim 1 = true) (k : BitVec 32) :
    ∃ s', s.createInt K k = .ok s' ∧ New K s s' (Big.ofInt32 k) := by
  obtain ⟨s1, e1, N1⟩ := create_new I hf (cabs32 k)
  exact ⟨_, by unfold BigSt.createInt; rw [e1, ok_bind], N1.setNeg _⟩

theorem addsNew_new {x : Nat} {X : Big} (I : Inv K s.mem) (hf : Cap.fits K.lim 1 = true) (r : Rep s x X) (k : BitVec 32) :
    ∃ s' R, s.addsNew K x k = .ok s' ∧ New K s s' R ∧ Same R (Big.adds1 K.lim X k) := by
  obtain ⟨s1, e1, N1⟩ := create_new I hf 0
  obtain ⟨s2, R, e2, P2, S2⟩ := addu1Go_spec N1.inv (N1.frame _ _ r) N1.res (cabs32 k) (decide (k.toInt < 0))
  exact ⟨s2, R, by unfold BigSt.addsNew; dsimp only; rw [e1, ok_bind]; exact e2, N1.post P2, S2⟩

theorem subsNew_new {x : Nat} {X : Big} (I : Inv K s.mem) (hf : Cap.fits K.lim 1 = true) (r : Rep s x X) (k : BitVec 32) :
    ∃ s' R, s.subsNew K x k = .ok s' ∧ New K s s' R ∧ Same R (Big.subs1 K.lim X k) := by
  obtain ⟨s1, e1, N1⟩ := create_new I hf 0
  obtain ⟨s2, R, e2, P2, S2⟩ := addu1Go_spec N1.inv (N1.frame _ _ r) N1.res (cabs32 k) (!decide (k.toInt < 0))
  exact ⟨s2, R, by unfold BigSt.subsNew; dsimp only; rw [e1, ok_bind]; exact e2, N1.post P2, S2⟩

theorem divsNew_new {x : Nat} {X Q : Big} (I : Inv K s.mem) (hf : Cap.fits K.lim 1 = true) (r : Rep s x X) (k : BitVec 32)
    (h : Big.divs1 K.lim X k = .ok Q) : ∃ s', s.divsNew K x k = .ok s' ∧ New K s s' Q := by
  obtain ⟨s1, e1, N1⟩ := create_new I hf 0
  have h2 := divs1_spec N1.inv (N1.frame _ _ r) N1.res k
  rw [h] at h2
  obtain ⟨s2, e2, P2⟩ := h2
  exact ⟨s2, by unfold BigSt.divsNew; dsimp only; rw [e1, ok_bind]; exact e2, N1.post P2⟩

end

section
variable {K : Kind} {D D1 D2 D3 : Nat → Prop} {p : Big} {P fuel : ℕ} {s : BigSt} (F : FC K p P fuel) (C : Ctx K D s)
include F C

theorem mulMod_sim {a b i : Nat} {A B : Big} (ha : ESim D1 p s a A) (hb : ESim D2 p s b B) (hi : RepD D3 s i p) :
    Sim K (ESim D p) s (mulModR K a b i) (Fp.mulMod K.lim A B p) := by
  obtain ⟨s', R, e, e', N⟩ := fpMul_exact F.M C.inv ha.rep.rep hb.rep.rep hi.rep ha.elt.c hb.elt.c
    (F.M.room.fits (by have := ha.elt.len F.M.canon; have := hb.elt.len F.M.canon; omega))
  obtain ⟨z, h1, h2, -⟩ := fpMul_spec F.M.room F.M.canon ha.elt hb.elt
  rw [e'] at h1; cases h1
  have : Fp.mulMod K.lim A B p = .ok R := e'
  rw [this]
  exact ⟨_, s', newObj_run e, N.grow, C.fresh N, h2⟩

theorem sqrMod_sim {a i : Nat} {A : Big} (ha : ESim D1 p s a A) (hi : RepD D3 s i p) :
    Sim K (ESim D p) s (mulModR K a a i) (Fp.sqrMod K.lim A p) := mulMod_sim F C ha ha hi

omit C in
theorem ordLoop_sim {i : Nat} (o : Nat) : ∀ (f m : Nat) (s : BigSt) (z : Nat) (Z : Big), Ctx K D s → RepD D3 s i p → ESim D p s z Z →
    Sim K (fun _ a b => a = b) s (ordLoopR K i o f m z) (Fp.ordLoop K.lim p o f m Z) := by
  intro f
  induction f with
  | zero => intro m s z Z C hi hz; exact Sim.halt _
  | succ f ih =>
    intro m s z Z C hi hz
    unfold ordLoopR Fp.ordLoop
    refine Sim.bind (sqrMod_sim F C hz hi) ?_
    intro s1 z1 Z1 g h1
    lift g
    by_cases hm : m + 1 = o
    · rw [if_pos hm, if_pos hm]
      exact Sim.pure C.inv rfl
    · rw [if_neg hm, if_neg hm]
      exact Sim.test C.inv (Is.ask (eqS_mem h1.rep.rep 1)) (Sim.ite (fun _ => ih _ _ _ _ C hi h1) fun _ => Sim.pure C.inv rfl)

omit C in
theorem sqrTimes_sim {i : Nat} : ∀ (k : Nat) (s : BigSt) (b : Nat) (B : Big), Ctx K D s → RepD D3 s i p → ESim D p s b B →
    Sim K (ESim D p) s (sqrTimesR K i k b) (Fp.sqrTimes K.lim p k B) := by
  intro k
  induction k with
  | zero => intro s b B C hi hb; exact Sim.pure C.inv hb
  | succ k ih =>
    intro s b B C hi hb
    unfold sqrTimesR Fp.sqrTimes
    refine Sim.bind (sqrMod_sim F C hb hi) ?_
    intro s1 z1 Z1 g h1
    lift g
    exact ih _ _ _ C hi h1

theorem int0_sim : Sim K (ESim D p) s (newObj fun s => s.createInt K 0) (.ok (Big.ofInt32 0)) := by
  obtain ⟨s', e, N⟩ := createInt_new C.inv (Mod.fit1 F.M) 0
  exact ⟨_, s', newObj_run e, N.grow, C.fresh N, zero_elt F.pos⟩

omit C in
theorem tonelli_sim {i : Nat} : ∀ (f o : Nat) (s : BigSt) (c r t : Nat) (A R T : Big), Ctx K D s → RepD D3 s i p → ESim D p s c A →
    ESim D p s r R → ESim D p s t T → Sim K (ESim D p) s (tonelliR K i f o c r t) (Fp.tonelli K.lim p f o A R T) := by
  intro f
  induction f with
  | zero => intro o s c r t A R T C hi hc hr ht; exact Sim.halt _
  | succ f ih =>
    intro o s c r t A R T C hi hc hr ht
    unfold tonelliR Fp.tonelli
    refine Sim.test C.inv (Is.ask (eqS_mem ht.rep.rep 1)) (Sim.ite (fun _ => ?_) fun _ => Sim.pure C.inv hr)
    obtain ⟨s1, e1, N1⟩ := copyNew_new C.inv ht.rep.rep
    refine Sim.step (newObj_run e1) N1.grow ?_
    have hz : ESim D p s1 s.mem.objs.length T := ⟨C.fresh N1, ht.elt⟩
    have g := N1.grow
    lift g
    refine Sim.bind (ordLoop_sim F o (o + 1) 0 _ _ _ C hi hz) ?_
    rintro s2 a b g rfl
    lift g
    cases a with
    | none => exact int0_sim F C
    | some m =>
      obtain ⟨s3, e3, N3⟩ := copyNew_new C.inv hc.rep.rep
      refine Sim.step (newObj_run e3) N3.grow ?_
      have hb : ESim D p s3 s2.mem.objs.length A := ⟨C.fresh N3, hc.elt⟩
      have g := N3.grow
      lift g
      refine Sim.bind (sqrTimes_sim F (o - m - 1) _ _ _ C hi hb) ?_
      intro s4 b' B g hb'
      lift g
      refine Sim.bind (sqrMod_sim F C hb' hi) ?_
      intro s5 c' A' g hc'
      lift g
      refine Sim.bind (mulMod_sim F C hr hb' hi) ?_
      intro s6 r' R' g hr'
      lift g
      refine Sim.bind (mulMod_sim F C ht hc' hi) ?_
      intro s7 t' T' g ht'
      lift g
      exact ih _ _ _ _ _ _ _ _ C hi hc' hr' ht'

theorem mod4_sim {i : Nat} (hi : RepD D3 s i p) :
    Sim K (fun _ a b => a = b) s (mod4Is3 K i) (do let m ← Big.mods1 p 4; .ok (Big.eqS m 3)) := by
  unfold mod4Is3
  refine Sim.scope ?_
  have h := modsNew_exact C.inv (Mod.fit1 F.M) hi.rep 4
  revert h
  cases Big.mods1 p 4 with
  | error e => intro h; exact bind_err (newObj_err h)
  | ok R =>
    rintro ⟨s', e, N⟩
    exact Sim.step (newObj_run e) N.grow (Sim.ask N.inv (Is.ask (eqS_mem N.res 3)))

omit C in
theorem wordsFuel_eq : wordsFuel p.ws = P := by
  have : ∀ l : List Word, wordsFuel l = val l := by
    intro l; induction l with
    | nil => rfl
    | cons a l ih => rw [wordsFuel, val_cons, ih]
  rw [this, F.value]

/-- `fp_sqrt(n, p)`. -/
theorem sqrt_sim [hP : Fact P.Prime] {n i : Nat} {X : Big} (hn : ESim D1 p s n X) (hi : RepD D3 s i p) :
    Sim K (ESim D p) s (sqrtR K fuel n i) (Fp.sqrt K.lim X p) := by
  have hp := F.M.eq
  have hb := F.big
  have cp := F.M.canon
  have hpl := Canon.len_pos cp
  have room := F.M.room
  have h2 : P ≠ 2 := by omega
  have hf1 := Mod.fit1 F.M
  unfold sqrtR Fp.sqrt
  rw [jacobi_elt room cp hp hn.elt h2, ok_bind]
  obtain ⟨s1, e1, g, -⟩ := jacobi_exact F C.inv hn.rep.rep hi.rep hn.elt
  refine Sim.step (m := jacobiR K fuel n i) e1 g ?_
  lift g
  by_cases hl : legendreSym P X.toInt = 1
  swap
  · rw [if_pos hl, if_pos hl]; exact int0_sim F C
  rw [if_neg (by simpa using hl), if_neg (by simpa using hl)]
  have hX0 : X.toInt ≠ 0 := by
    intro h; rw [h, legendreSym.at_zero] at hl; cases hl
  -- the remainder for 4
  have h4 := mod4_sim F C hi
  obtain ⟨m4, e4, l4, -, v4⟩ := Big.mods1_spec p 4 (by decide)
  have c4 : m4.Canon := ⟨by intro h; rw [h] at l4; simp at l4, by intro h; omega⟩
  have v4' : m4.toInt = p.toInt % 4 := by
    rw [v4, Int.tmod_eq_emod_of_nonneg (by omega)]; rfl
  rw [e4, ok_bind] at h4 ⊢
  obtain ⟨b, s2, e2, g, rfl⟩ := h4
  refine Sim.step e2 g ?_
  lift g
  refine Sim.ite (fun _ => ?_) fun h3 => ?_
  · obtain ⟨ca, va⟩ := adds1_room room 1 cp le_rfl hpl
    have va : (Big.adds1 K.lim p 1).toInt = p.toInt + 1 := va
    obtain ⟨d, ed, cd, -, vd⟩ := Big.divs1_spec K.lim (Big.adds1 K.lim p 1) 4 ca (Big.adds1_spec K.lim p 1 cp room.fitsP).2.1 (by decide)
    rw [va, show (BitVec.toInt (4 : BitVec 32)) = 4 from rfl, Int.tdiv_eq_ediv_of_nonneg (by omega)] at vd
    have nd := neg_of_pos (X := d) (by omega)
    obtain ⟨s3, R, e3, N3, S3⟩ := addsNew_new C.inv hf1 hi.rep 1
    have hR : R = Big.adds1 K.lim p 1 := big_ext (S3.canon ca) ca (by rw [S3.toInt]; omega) S3.toInt
    subst hR
    obtain ⟨s4, e4, N4⟩ := divsNew_new N3.inv hf1 N3.res 4 ed
    have g4 := N3.grow.trans N4.grow
    obtain ⟨s5, Z, e5, ez, N5, elZ, -⟩ := modexpNew_exact F N4.inv (g4.keep _ _ hn.rep.rep) N4.res (g4.keep _ _ hi.rep) hn.elt hX0 cd nd cd nd rfl
    rw [ed, ok_bind, ez]
    refine Sim.step (newObj_run e3) N3.grow (Sim.step (newObj_run e4) N4.grow ?_)
    exact ⟨_, s5, newObj_run e5, N5.grow, (C.mono g4).fresh N5, elZ⟩
  · have h3 : p.toInt % 4 ≠ 3 := by rw [← Bool.not_eq_true, eqS_iff c4 3, v4'] at h3; exact h3
    -- the factors of two
    obtain ⟨cs, vs⟩ := subs1_room room 1 cp le_rfl hpl
    have vs : (Big.subs1 K.lim p 1).toInt = p.toInt - 1 := vs
    have ns := neg_of_pos (X := Big.subs1 K.lim p 1) (by omega)
    obtain ⟨q, o, eq, cq, nq, vq, oq, lq⟩ := Big.countTrailingZero_spec (Big.subs1 K.lim p 1) cs ns (by
      have := Big.toInt_of_nonneg ns; omega)
    have hq := Big.toInt_of_nonneg nq
    rw [eq, ok_bind]
    dsimp only
    obtain ⟨s3, R, e3, N3, S3⟩ := subsNew_new C.inv hf1 hi.rep 1
    have hR : R = Big.subs1 K.lim p 1 := big_ext (S3.canon cs) cs (by rw [S3.toInt]; omega) S3.toInt
    subst hR
    obtain ⟨s4, e4', P4⟩ := ctz_exact N3.inv N3.res eq
    have N4 := N3.post P4
    -- the search
    obtain ⟨z₀, z2, zP, zf, hj⟩ := F.nonres (by omega)
    have htwo : (Big.ofInt32 2).toInt = 2 := by decide
    obtain ⟨s5, e5, N5⟩ := createInt_new N4.inv hf1 2
    have hwf := wordsFuel_eq F
    have g5 := N4.grow.trans N5.grow
    have l4 := N4.len
    have hilt := hi.rep.lt
    obtain ⟨s6, W, e6, ew, P6, elW, lW⟩ := findNonRes_exact F (z := s4.mem.objs.length) (ip := i) (by omega) z₀ zP hj fuel (wordsFuel p.ws) s5
      (Big.ofInt32 2) N5.inv N5.res (g5.keep _ _ hi.rep) ⟨by decide, by rw [htwo]; omega, by rw [htwo]; omega⟩ (by omega) (by omega) (by omega)
    have N6 := N5.post P6
    have hW0 : W.toInt ≠ 0 := by
      intro h; rw [h, legendreSym.at_zero] at lW; cases lW
    have rq6 := N6.frame _ _ N4.res
    have g6 := N4.grow.trans N6.grow
    have C6 := C.mono g6
    rw [ew, ok_bind]
    -- the powers
    obtain ⟨s7, A, e7, ea, N7, elA, -⟩ := modexpNew_exact F N6.inv N6.res rq6 (g6.keep _ _ hi.rep) elW hW0 cq nq cq nq rfl
    rw [ea, ok_bind]
    have lsub : (Big.subs1 K.lim p 1).ws.length ≤ p.ws.length := len_le_of_abs cs cp (by
      rw [vs, abs_of_nonneg (by omega), abs_of_nonneg (by omega)]; omega)
    obtain ⟨cq1, vq1⟩ := subs1_room room 1 cq (le_trans lq lsub) hpl
    have vq1 : (Big.subs1 K.lim q 1).toInt = q.toInt - 1 := vq1
    have fq1 : Big.Fits K.lim (Big.subs1 K.lim q 1) := (Big.subs1_spec K.lim q 1 cq (room.Fits (by omega))).2.1
    obtain ⟨d, ed, cd, -, vd⟩ := Big.divs1_spec K.lim (Big.subs1 K.lim q 1) 2 cq1 fq1 (by decide)
    rw [vq1, show (BitVec.toInt (2 : BitVec 32)) = 2 from rfl, Int.tdiv_eq_ediv_of_nonneg (by omega)] at vd
    have nd : d.neg = false := by
      rcases eq_or_ne d.toInt 0 with h | h
      · exact divs1_neg K.lim _ 2 cq1.1 d ed h
      · exact neg_of_pos (by omega)
    rw [ed, ok_bind]
    obtain ⟨s8, R8, e8, N8, S8⟩ := subsNew_new N7.inv hf1 (N7.frame _ _ rq6) 1
    obtain ⟨d', ed', cd', -, vd'⟩ := Big.divs1_spec K.lim R8 2 (S8.canon cq1) (rep_fits N8.inv N8.res) (by decide)
    rw [S8.toInt, vq1, show (BitVec.toInt (2 : BitVec 32)) = 2 from rfl, Int.tdiv_eq_ediv_of_nonneg (by omega)] at vd'
    have nd' : d'.neg = false := by
      rcases eq_or_ne d'.toInt 0 with h | h
      · exact divs1_neg K.lim _ 2 (S8.canon cq1).1 d' ed' h
      · exact neg_of_pos (by omega)
    obtain ⟨s9, e9, N9⟩ := divsNew_new N8.inv hf1 N8.res 2 ed'
    have g9 := g6.trans (N7.grow.trans (N8.grow.trans N9.grow))
    obtain ⟨s10, B, e10, eb, N10, elB, -⟩ := modexpNew_exact F N9.inv (g9.keep _ _ hn.rep.rep) N9.res (g9.keep _ _ hi.rep) hn.elt hX0 cd' nd' cd nd
      (by rw [vd, vd'])
    rw [eb, ok_bind]
    have g79 := N7.grow.trans (N8.grow.trans N9.grow)
    have hA : ESim D p s10 s6.mem.objs.length A := ⟨(C6.fresh N7).mono ((N8.grow.trans N9.grow).trans N10.grow), elA⟩
    have hB : ESim D p s10 s9.mem.objs.length B := ⟨(C.mono g9).fresh N10, elB⟩
    have g := g9.trans N10.grow
    refine Sim.via (s' := s10) (m' := do
      let t ← mulModR K s9.mem.objs.length s9.mem.objs.length i
      let t ← mulModR K t n i
      let r ← mulModR K n s9.mem.objs.length i
      tonelliR K i (o + 1) o s6.mem.objs.length r t) ?_ g ?_
    · rw [bind_run (newObj_run e3), bind_run (m := fun st => st.ctz K s2.mem.objs.length) e4', bind_run (newObj_run e5),
        bind_run (change_run e6), bind_run (newObj_run e7), bind_run (newObj_run e8), bind_run (newObj_run e9), bind_run (newObj_run e10)]
    · lift g
      refine Sim.bind (sqrMod_sim F C hB hi) ?_
      intro s11 t0 T0 g h0
      lift g
      refine Sim.bind (mulMod_sim F C h0 hn hi) ?_
      intro s12 t T g ht
      lift g
      refine Sim.bind (mulMod_sim F C hn hB hi) ?_
      intro s13 r R g hr
      lift g
      exact tonelli_sim F _ _ _ _ _ _ _ _ _ C hi hA hr ht

/-- `a.sqrt()`. -/
theorem fe_sqrt [hP : Fact P.Prime] {a : FeR} {A : Fe} (h : FeSim D1 D2 p s a A) : Sim K (FeSim D D2 p) s (a.sqrt K fuel) (A.sqrt K.lim) := by
  unfold FeR.sqrt Fe.sqrt
  refine Sim.test C.inv (fe_isOne h) (Sim.ite (fun _ => fe_copy C h) fun _ => ?_)
  refine Sim.deref h C.inv fun i r => ?_
  refine Sim.bind (sqrt_sim F C ⟨h.v, h.elt⟩ r) ?_
  intro s1 v V g hv
  lift g
  exact Sim.pure C.inv ⟨hv.rep, hv.elt, Or.inr ⟨i, rfl, rfl, r⟩⟩

end
end Ack.Mem
