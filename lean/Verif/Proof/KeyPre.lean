import Verif.Proof.KeyCode
import Verif.Proof.EcPre
import Verif.Proof.KeyTotal
/-! # Decoding on memory of x-coordinates that are not reduced -/
namespace Ack.Mem
open Big (Byte)
open Ack.Spec.Ec Ack.Spec.Key

section
variable {K : Kind} {p : Big} {P fuel : ℕ} [hP : Fact P.Prime] (F : FC K p P fuel)
include F

omit hP in
theorem Pre.lim {X : Big} (h : Pre p X) : Big.Fits K.lim X := F.M.room.Fits (by have := h.len; omega)

omit hP in
/-- `quot_rem(nullptr, m, m, n)` for positive numbers. -/
theorem quotRemNull_exact {s : BigSt} {m n : Nat} {X : Big} (I : Inv K s.mem) (hmn : m ≠ n) (rm : Rep s m X) (rn : Rep s n p) (cX : X.Canon)
    (hX : 0 < X.toInt) : ∃ s' R, s.quotRemNull K m m n = .ok s' ∧ Post K s s' m R ∧ Elt p R ∧ R.toInt = X.toInt % P := by
  have hp := F.M.eq
  have hp0 := F.pos
  obtain ⟨s1, e1, N1⟩ := copyNew_new I rn
  obtain ⟨s2, V, R, e2, d2, P2⟩ := mod_spec N1.inv (N1.frame _ _ rm) N1.res (N1.frame _ _ rm) cX F.M.canon (by omega)
  obtain ⟨q, r, e, cq, cr, fq, fr, vq, vr, nr, -⟩ := Big.divMod?_spec K.lim X p cX F.M.canon (rep_fits I rm) (by omega)
  rw [d2] at e
  cases e
  have nX := neg_of_pos hX
  have hv : R.toInt = X.toInt % P := by rw [vr, Int.tmod_eq_emod_of_nonneg (by omega), hp]
  have hR : (⟨false, R.ws⟩ : Big) = R := by
    obtain ⟨a, b⟩ := R
    simp only [nX] at nr
    rw [← nr]
  have P3 := P2.setNeg false
  rw [hR] at P3
  have l1 := N1.len
  have lm := rm.lt
  have n1 : s1.neg n = false := by rw [(N1.frame _ _ rn).neg_eq]; exact F.nn
  have n2 : s1.neg m = false := by rw [(N1.frame _ _ rm).neg_eq]; exact nX
  refine ⟨(s2.setNeg m false).drop s.mem.objs.length, R, ?_, ⟨drop_inv P3.inv _, drop_rep P3.inv P3.res lm, fun i Z hi hZ => ?_, ?_⟩,
    ⟨cr, by rw [hv]; exact Int.emod_nonneg _ (by omega), by rw [hv, hp]; exact Int.emod_lt_of_pos _ (by omega)⟩, hv⟩
  · unfold BigSt.quotRemNull
    dsimp only
    rw [e1, ok_bind, n1, n2, e2, ok_bind]
    dsimp only
    rw [isZero_eq P3.res, ok_bind, Bool.xor_false, Bool.and_false, if_neg (by decide)]
    rfl
  · exact drop_rep P3.inv (P3.frame i Z hi (N1.frame _ _ hZ)) hZ.lt
  · exact drop_len (by rw [P3.len]; omega)

/-- `x.jacobi(p)` for x that need not be reduced. -/
theorem jacobiBody_pre {s : BigSt} {m n : Nat} {X : Big} (I : Inv K s.mem) (hmn : m ≠ n) (rm : Rep s m X) (rn : Rep s n p) (h : Pre p X) :
    ∃ s', s.jacobiBody K fuel m n = .ok (legendreSym P X.toInt, s') ∧ Inv K s'.mem ∧
      (∀ i Z, i ≠ m → i ≠ n → Rep s i Z → Rep s' i Z) ∧ s.mem.objs.length ≤ s'.mem.objs.length := by
  have hp := F.M.eq
  have hb := F.big
  have hf := F.hf.1
  have cp := F.M.canon
  have vp := F.value
  have hX0 := h.nn
  rcases lt_trichotomy X.toInt p.toInt with hlt | heq | hgt
  · exact jacobiBody_exact F I hmn rm rn ⟨h.c, h.nn, hlt⟩
  all_goals
    have hl : Big.ltS X 0 = false := by
      rw [← Bool.not_eq_true, ltS_iff h.c]
      have : (0 : BitVec 32).toInt = 0 := by decide
      omega
    have ho : p.isOne = false := by rw [← Bool.not_eq_true, Big.isOne_iff cp]; omega
  · have hg : Big.opGt X p = false := by rw [← Bool.not_eq_true, opGt_iff h.c cp]; omega
    have hz : X.isZero = false := by rw [← Bool.not_eq_true, Big.isZero_iff h.c]; omega
    have h1 : X.isOne = false := by rw [← Bool.not_eq_true, Big.isOne_iff h.c]; omega
    unfold BigSt.jacobiBody
    rw [isOne_eq rn, ok_bind, ho, if_neg (by decide), ltS_mem rm, ok_bind, hl, if_neg (by decide), opGt_mem rm rn, hg, ok_bind]
    dsimp only
    rw [if_neg (by decide), ok_bind, isZero_eq rm, ok_bind, hz, if_neg (by decide), isOne_eq rm, ok_bind, h1, if_neg (by decide)]
    obtain ⟨s1, e1, N1⟩ := create_new I (Mod.fit1 F.M) 0
    obtain ⟨s2, G, eg, e2, P2⟩ := gcd_mem (z := s.mem.objs.length) N1.inv (N1.frame _ _ rm) (N1.frame _ _ rn) (by rw [N1.len]; omega) h.c cp fuel F.gcd
    obtain ⟨cG, vG, gG⟩ := gcd_value fuel X p G h.c cp (rep_fits I rm) (rep_fits I rn) F.gcd eg
    have hG1 : Big.eqS G 1 = false := by
      rw [← Bool.not_eq_true, eqS_iff cG]
      intro h2
      rw [h2, heq, Int.gcd_self, hp] at vG
      have : (1 : BitVec 32).toInt = 1 := by decide
      rw [this] at vG
      simp at vG
      omega
    rw [e1, ok_bind, e2, ok_bind, eqS_mem P2.res, ok_bind, hG1]
    refine ⟨s2.drop s.mem.objs.length, ?_, drop_inv P2.inv _, fun i Z _ _ hZ => ?_, ?_⟩
    · have : legendreSym P X.toInt = 0 := by rw [legendreSym.eq_zero_iff, heq, hp]; simp
      rw [this]; rfl
    · exact drop_rep P2.inv (P2.frame i Z (Nat.ne_of_lt hZ.lt) (N1.frame i Z hZ)) hZ.lt
    · rw [drop_len (by rw [P2.len, N1.len]; omega)]
  · have hg : Big.opGt X p = true := by rw [opGt_iff h.c cp]; omega
    obtain ⟨s1, R, e1, P1, eR, vR⟩ := quotRemNull_exact F I hmn rm rn h.c (by omega)
    have rn1 := P1.frame _ _ hmn.symm rn
    obtain ⟨s', e2, I2, fr2, l2⟩ := jacobiBody_exact F P1.inv hmn P1.res rn1 eR
    have hlR : Big.ltS R 0 = false := by
      rw [← Bool.not_eq_true, ltS_iff eR.c]
      have : (0 : BitVec 32).toInt = 0 := by decide
      have := eR.nn
      omega
    have hgR : Big.opGt R p = false := by rw [← Bool.not_eq_true, opGt_iff eR.c cp]; have := eR.lt; omega
    refine ⟨s', ?_, I2, fun i Z h1 h2 hZ => fr2 i Z h1 h2 (P1.frame i Z h1 hZ), by rw [← P1.len]; exact l2⟩
    rw [show legendreSym P X.toInt = legendreSym P R.toInt by rw [vR, ← legendreSym.mod], ← e2]
    unfold BigSt.jacobiBody
    rw [isOne_eq rn, ok_bind, ho, if_neg (by decide), ltS_mem rm, ok_bind, hl, if_neg (by decide), opGt_mem rm rn, hg, ok_bind]
    rw [isOne_eq rn1, ok_bind, ho, if_neg (by decide), ltS_mem P1.res, ok_bind, hlR, if_neg (by decide), opGt_mem P1.res rn1, hgR, ok_bind]
    dsimp only
    rw [if_pos rfl, e1, if_neg (by decide)]

theorem jacobi_pre_exact {s : BigSt} {x ip : Nat} {X : Big} (I : Inv K s.mem) (rx : Rep s x X) (rp : Rep s ip p) (h : Pre p X) :
    ∃ s', s.jacobi K fuel x ip = .ok (legendreSym P X.toInt, s') ∧ Grow K s s' := by
  obtain ⟨s1, e1, N1⟩ := copyNew_new I rp
  obtain ⟨s2, e2, N2⟩ := copyNew_new N1.inv (N1.frame _ _ rx)
  obtain ⟨s3, e3, N3⟩ := copyNew_new N2.inv (N2.frame _ _ N1.res)
  have r2 := N2.res
  have r3 := N3.res
  rw [N2.len, N1.len] at r3
  rw [N1.len] at r2
  obtain ⟨s4, e4, I4, fr4, l4⟩ := jacobiBody_pre F N3.inv (by omega) (N3.frame _ _ r2) r3 h
  have hl : s.mem.objs.length ≤ s4.mem.objs.length := by
    have := N1.len; have := N2.len; have := N3.len; omega
  refine ⟨s4.drop s.mem.objs.length, ?_, ⟨drop_inv I4 _, ?_, ?_⟩⟩
  · unfold BigSt.jacobi
    dsimp only
    rw [e1, ok_bind, e2, ok_bind, e3, ok_bind, e4]
    rfl
  · intro i Z hZ
    have := hZ.lt
    exact drop_rep I4 (fr4 i Z (by omega) (by omega) (N3.frame _ _ (N2.frame _ _ (N1.frame _ _ hZ)))) this
  · rw [drop_len hl]

/-- `x ^ e mod p` for x that need not be reduced: congruent to the value of the model, and equal to it for exponents above one. -/
theorem modexpNew_pre {s : BigSt} {x e ip : Nat} {X E E' : Big} (I : Inv K s.mem) (rx : Rep s x X) (re : Rep s e E) (rp : Rep s ip p)
    (h : Pre p X) (h0 : res P X ≠ 0) (cE : E.Canon) (nE : E.neg = false) (cE' : E'.Canon) (nE' : E'.neg = false) (hE : E.toInt = E'.toInt) :
    ∃ s' R Z, s.modexpNew K x e ip = .ok s' ∧ Big.modexp K.lim X E' p = .ok Z ∧ New K s s' R ∧ Pre p R ∧ Pre p Z ∧ res P R = res P Z ∧
      res P Z ≠ 0 ∧ (2 ≤ E'.toInt → R = Z ∧ Elt p Z) := by
  have hp := F.M.eq
  have hb := F.big
  have hnn := h.nn
  have hv : val E.ws = val E'.ws := by
    have := Big.toInt_of_nonneg nE; have := Big.toInt_of_nonneg nE'; omega
  have hv' := Big.toInt_of_nonneg nE'
  obtain ⟨Z, eZ, pZ, elZ, vZ⟩ := modexp_pre F.M.room F.M.canon F.M.eq h cE' nE'
  obtain ⟨s1, e1, N1⟩ := create_new I (Mod.fit1 F.M) 0
  have rp1 := N1.frame _ _ rp
  have hroom : Cap.fits K.lim (2 * max X.ws.length p.ws.length) = true := by
    rw [max_eq_right h.len]; exact F.M.room
  obtain ⟨s2, ok, e2, I2, l2, fr2, hok, hres⟩ := modexp_mem N1.inv (N1.frame _ _ rx) (N1.frame _ _ re) rp1 N1.res h.c cE F.M.canon nE (by omega)
    (Nat.ne_of_gt rp.lt)
  obtain rfl := hok hroom
  obtain ⟨R, rR, cR, hR1, hR2, hR3, hR4, hR5⟩ := hres rfl
  have R0 := hR3 h.nn
  have habs : |R.toInt| < |p.toInt| → R.toInt < p.toInt := fun h => by
    rwa [abs_of_nonneg R0, abs_of_nonneg (by omega)] at h
  have hlen : R.ws.length ≤ p.ws.length := by
    have key : R.toInt < p.toInt → R.ws.length ≤ p.ws.length := fun h => Elt.len F.M.canon ⟨cR, R0, h⟩
    rcases Nat.lt_or_ge (val E.ws) 2 with h2 | h2
    · rcases Nat.lt_or_ge (val E.ws) 1 with h' | h'
      · rcases hR4 (by omega) with h'' | h''
        · exact key (by omega)
        · exact key (habs h'')
      · rcases hR5 (by omega) with h'' | h''
        · refine le_trans (len_le_of_abs cR h.c ?_) h.len
          rw [h'']
        · exact key (habs h'')
    · exact key (habs (hR2 h2))
  have hres : res P R = res P Z := by
    rw [vZ, ← hv]
    have : ((R.toInt : ℤ) : ZMod P) = ((X.toInt ^ val E.ws : ℤ) : ZMod P) := by
      rw [ZMod.intCast_eq_intCast_iff, ← hp]; exact hR1
    unfold res
    rw [this]; push_cast; rfl
  have hZ0 : res P Z ≠ 0 := by rw [vZ]; exact pow_ne_zero _ h0
  refine ⟨s2, R, Z, ?_, eZ, ⟨I2, rR, fun i W hW => fr2 i W (Nat.ne_of_lt hW.lt) (N1.frame i W hW), by rw [l2, N1.len]⟩, ⟨cR, R0, hlen⟩, pZ, hres,
    hZ0, fun h2 => ?_⟩
  · unfold BigSt.modexpNew
    dsimp only
    rw [e1, ok_bind, e2, ok_bind]
    rfl
  · have elZ := elZ (by omega)
    have elR : Elt p R := ⟨cR, R0, habs (hR2 (by omega))⟩
    have hint := (res_inj F.M.eq elR elZ).1 hres
    have : Z.toInt ≠ 0 := fun h => hZ0 (by unfold res; rw [h]; simp)
    have := elZ.nn
    exact ⟨big_ext cR elZ.c (by omega) hint, elZ⟩

end

section
variable {K : Kind} {D : Nat → Prop} {p : Big} {P fuel : ℕ} [hP : Fact P.Prime] {s : BigSt} (F : FC K p P fuel) (C : Ctx K D s)
include F C

/-- A product on memory of operands congruent to those of the model. -/
theorem mulMod_two {a b i : Nat} {A B A' B' : Big} (ra : RepD D s a A) (rb : RepD D s b B) (hi : RepD D s i p) (pa : Pre p A) (pb : Pre p B)
    (pa' : Pre p A') (pb' : Pre p B') (ha : res P A = res P A') (hb : res P B = res P B') (ha0 : res P A' ≠ 0) (hb0 : res P B' ≠ 0) :
    Sim K (ESim D p) s (mulModR K a b i) (Fp.mulMod K.lim A' B' p) := by
  obtain ⟨s', R, e, e', N⟩ := fpMul_exact F.M C.inv ra.rep rb.rep hi.rep pa.c pb.c
    (F.M.room.fits (by have := pa.len; have := pb.len; omega))
  obtain ⟨R', h1, h2, h3⟩ := mulMod_pre F.M.room F.M.canon F.M.eq pa pb
  have h1 : Fp.mul K.lim A B p = .ok R' := h1
  rw [e'] at h1; cases h1
  obtain ⟨Z, g1, g2, g3⟩ := mulMod_pre F.M.room F.M.canon F.M.eq pa' pb'
  have hz : res P Z ≠ 0 := by rw [g3]; exact mul_ne_zero ha0 hb0
  have hint := (res_inj F.M.eq h2 g2).1 (by rw [h3, g3, ha, hb])
  have : Z.toInt ≠ 0 := fun h => hz (by unfold res; rw [h]; simp)
  have := g2.nn
  have hRZ : R = Z := big_ext h2.c g2.c (by omega) hint
  subst hRZ
  rw [g1]
  exact ⟨_, s', newObj_run e, N.grow, C.fresh N, h2⟩

/-- `fp_sqrt(n, p)` for n that need not be reduced. -/
theorem sqrt_pre_sim {n i : Nat} {X : Big} (hn : RepD D s n X) (hX : Pre p X) (hi : RepD D s i p) :
    Sim K (ESim D p) s (sqrtR K fuel n i) (Fp.sqrt K.lim X p) := by
  have hp := F.M.eq
  have hb := F.big
  have cp := F.M.canon
  have hpl := Canon.len_pos cp
  have room := F.M.room
  have h2 : P ≠ 2 := by omega
  have hf1 := Mod.fit1 F.M
  unfold sqrtR Fp.sqrt
  rw [jacobi_pre room cp hp hX h2, ok_bind]
  obtain ⟨s1, e1, g⟩ := jacobi_pre_exact F C.inv hn.rep hi.rep hX
  refine Sim.step (m := jacobiR K fuel n i) e1 g ?_
  lift g
  by_cases hl : legendreSym P X.toInt = 1
  swap
  · rw [if_pos hl, if_pos hl]; exact int0_sim F C
  rw [if_neg (by simpa using hl), if_neg (by simpa using hl)]
  have hX0 : res P X ≠ 0 := by
    intro h
    have := (legendreSym.eq_zero_iff P X.toInt).2 h
    rw [hl] at this; cases this
  -- the remainder for 4
  have h4 := mod4_sim F C hi
  obtain ⟨m4, e4, l4, -, v4⟩ := Big.mods1_spec p 4 (by decide)
  have c4 : m4.Canon := ⟨by intro h; rw [h] at l4; simp at l4, by intro h; omega⟩
  have v4' : m4.toInt = p.toInt % 4 := by
    rw [v4, Int.tmod_eq_emod_of_nonneg (by omega)]; rfl
  rw [e4, ok_bind] at h4 ⊢
  obtain ⟨b, s2, e2, g, rfl⟩ := h4
  refine Sim.step e2 g ?_
  lift g
  refine Sim.ite (fun h3 => ?_) fun h3 => ?_
  · have h3 : p.toInt % 4 = 3 := by rw [eqS_iff c4 3, v4'] at h3; exact h3
    obtain ⟨ca, va⟩ := adds1_room room 1 cp le_rfl hpl
    have va : (Big.adds1 K.lim p 1).toInt = p.toInt + 1 := va
    obtain ⟨d, ed, cd, -, vd⟩ := Big.divs1_spec K.lim (Big.adds1 K.lim p 1) 4 ca (Big.adds1_spec K.lim p 1 cp room.fitsP).2.1 (by decide)
    rw [va, show (BitVec.toInt (4 : BitVec 32)) = 4 from rfl, Int.tdiv_eq_ediv_of_nonneg (by omega)] at vd
    have nd := neg_of_pos (X := d) (by omega)
    obtain ⟨s3, R, e3, N3, S3⟩ := addsNew_new C.inv hf1 hi.rep 1
    have hR : R = Big.adds1 K.lim p 1 := big_ext (S3.canon ca) ca (by rw [S3.toInt]; omega) S3.toInt
    subst hR
    obtain ⟨s4, e4, N4⟩ := divsNew_new N3.inv hf1 N3.res 4 ed
    have g4 := N3.grow.trans N4.grow
    obtain ⟨s5, R, Z, e5, ez, N5, -, -, -, -, hZ⟩ := modexpNew_pre F N4.inv (g4.keep _ _ hn.rep) N4.res (g4.keep _ _ hi.rep) hX hX0 cd nd cd nd rfl
    obtain ⟨rfl, elZ⟩ := hZ (by omega)
    rw [ed, ok_bind, ez]
    refine Sim.step (newObj_run e3) N3.grow (Sim.step (newObj_run e4) N4.grow ?_)
    exact ⟨_, s5, newObj_run e5, N5.grow, (C.mono g4).fresh N5, elZ⟩
  · have h3 : p.toInt % 4 ≠ 3 := by rw [← Bool.not_eq_true, eqS_iff c4 3, v4'] at h3; exact h3
    -- the factors of two
    obtain ⟨cs, vs⟩ := subs1_room room 1 cp le_rfl hpl
    have vs : (Big.subs1 K.lim p 1).toInt = p.toInt - 1 := vs
    have ns := neg_of_pos (X := Big.subs1 K.lim p 1) (by omega)
    obtain ⟨q, o, eq, cq, nq, vq, oq, lq⟩ := Big.countTrailingZero_spec (Big.subs1 K.lim p 1) cs ns (by
      have := Big.toInt_of_nonneg ns; omega)
    have hq := Big.toInt_of_nonneg nq
    rw [eq, ok_bind]
    dsimp only
    obtain ⟨s3, R, e3, N3, S3⟩ := subsNew_new C.inv hf1 hi.rep 1
    have hR : R = Big.subs1 K.lim p 1 := big_ext (S3.canon cs) cs (by rw [S3.toInt]; omega) S3.toInt
    subst hR
    obtain ⟨s4, e4', P4⟩ := ctz_exact N3.inv N3.res eq
    have N4 := N3.post P4
    -- the search
    obtain ⟨z₀, z2, zP, zf, hj⟩ := F.nonres (by omega)
    have htwo : (Big.ofInt32 2).toInt = 2 := by decide
    obtain ⟨s5, e5, N5⟩ := createInt_new N4.inv hf1 2
    have hwf := wordsFuel_eq F
    have g5 := N4.grow.trans N5.grow
    have l4 := N4.len
    have hilt := hi.rep.lt
    obtain ⟨s6, W, e6, ew, P6, elW, lW⟩ := findNonRes_exact F (z := s4.mem.objs.length) (ip := i) (by omega) z₀ zP hj fuel (wordsFuel p.ws) s5
      (Big.ofInt32 2) N5.inv N5.res (g5.keep _ _ hi.rep) ⟨by decide, by rw [htwo]; omega, by rw [htwo]; omega⟩ (by omega) (by omega) (by omega)
    have N6 := N5.post P6
    have hW0 : W.toInt ≠ 0 := by
      intro h; rw [h, legendreSym.at_zero] at lW; cases lW
    have rq6 := N6.frame _ _ N4.res
    have g6 := N4.grow.trans N6.grow
    have C6 := C.mono g6
    rw [ew, ok_bind]
    -- the powers
    obtain ⟨s7, A, e7, ea, N7, elA, -⟩ := modexpNew_exact F N6.inv N6.res rq6 (g6.keep _ _ hi.rep) elW hW0 cq nq cq nq rfl
    rw [ea, ok_bind]
    have lsub : (Big.subs1 K.lim p 1).ws.length ≤ p.ws.length := len_le_of_abs cs cp (by
      rw [vs, abs_of_nonneg (by omega), abs_of_nonneg (by omega)]; omega)
    obtain ⟨cq1, vq1⟩ := subs1_room room 1 cq (le_trans lq lsub) hpl
    have vq1 : (Big.subs1 K.lim q 1).toInt = q.toInt - 1 := vq1
    have fq1 : Big.Fits K.lim (Big.subs1 K.lim q 1) := (Big.subs1_spec K.lim q 1 cq (room.Fits (by omega))).2.1
    obtain ⟨d, ed, cd, -, vd⟩ := Big.divs1_spec K.lim (Big.subs1 K.lim q 1) 2 cq1 fq1 (by decide)
    rw [vq1, show (BitVec.toInt (2 : BitVec 32)) = 2 from rfl, Int.tdiv_eq_ediv_of_nonneg (by omega)] at vd
    have nd : d.neg = false := by
      rcases eq_or_ne d.toInt 0 with h | h
      · exact divs1_neg K.lim _ 2 cq1.1 d ed h
      · exact neg_of_pos (by omega)
    rw [ed, ok_bind]
    obtain ⟨s8, R8, e8, N8, S8⟩ := subsNew_new N7.inv hf1 (N7.frame _ _ rq6) 1
    obtain ⟨d', ed', cd', -, vd'⟩ := Big.divs1_spec K.lim R8 2 (S8.canon cq1) (rep_fits N8.inv N8.res) (by decide)
    rw [S8.toInt, vq1, show (BitVec.toInt (2 : BitVec 32)) = 2 from rfl, Int.tdiv_eq_ediv_of_nonneg (by omega)] at vd'
    have nd' : d'.neg = false := by
      rcases eq_or_ne d'.toInt 0 with h | h
      · exact divs1_neg K.lim _ 2 (S8.canon cq1).1 d' ed' h
      · exact neg_of_pos (by omega)
    obtain ⟨s9, e9, N9⟩ := divsNew_new N8.inv hf1 N8.res 2 ed'
    have g9 := g6.trans (N7.grow.trans (N8.grow.trans N9.grow))
    obtain ⟨s10, B, B', e10, eb, N10, pB, pB', hBB, hB0, -⟩ := modexpNew_pre F N9.inv (g9.keep _ _ hn.rep) N9.res (g9.keep _ _ hi.rep) hX hX0
      cd' nd' cd nd (by rw [vd, vd'])
    rw [eb, ok_bind]
    have g79 := N7.grow.trans (N8.grow.trans N9.grow)
    have hA : ESim D p s10 s6.mem.objs.length A := ⟨(C6.fresh N7).mono ((N8.grow.trans N9.grow).trans N10.grow), elA⟩
    have hB : RepD D s10 s9.mem.objs.length B := (C.mono g9).fresh N10
    have g := g9.trans N10.grow
    refine Sim.via (s' := s10) (m' := do
      let t ← mulModR K s9.mem.objs.length s9.mem.objs.length i
      let t ← mulModR K t n i
      let r ← mulModR K n s9.mem.objs.length i
      tonelliR K i (o + 1) o s6.mem.objs.length r t) ?_ g ?_
    · rw [bind_run (newObj_run e3), bind_run (m := fun st => st.ctz K s2.mem.objs.length) e4', bind_run (newObj_run e5),
        bind_run (change_run e6), bind_run (newObj_run e7), bind_run (newObj_run e8), bind_run (newObj_run e9), bind_run (newObj_run e10)]
    · lift g
      have ht0 : Sim K (ESim D p) s10 (mulModR K s9.mem.objs.length s9.mem.objs.length i) (Fp.sqrMod K.lim B' p) :=
        mulMod_two F C hB hB hi pB pB pB' pB' hBB hBB hB0 hB0
      obtain ⟨T, eT, elT, vT⟩ := sqrMod_pre room cp hp pB'
      rw [eT] at ht0 ⊢
      obtain ⟨t0, s11, e11, g, h0⟩ := ht0
      refine Sim.step e11 g ?_
      rw [ok_bind]
      lift g
      have hT0 : res P T ≠ 0 := by rw [vT]; exact pow_ne_zero _ hB0
      refine Sim.bind (mulMod_two F C h0.rep hn hi (elT.pre cp) hX (elT.pre cp) hX rfl rfl hT0 hX0) ?_
      intro s12 t T g ht
      lift g
      refine Sim.bind (mulMod_two F C hn hB hi hX pB hX pB' rfl hBB hX0 hB0) ?_
      intro s13 r R g hr
      lift g
      exact tonelli_sim F _ _ _ _ _ _ _ _ _ C hi hA hr ht

end

/-! ### Elements and points -/

/-- A field element whose value need not be reduced. -/
structure FePSim (D : Nat → Prop) (p : Big) (s : BigSt) (a : FeR) (A : Fe) : Prop where
  v : RepD D s a.v A.v
  pre : Pre p A.v
  pm : (a.pm = none ∧ A.pm = none) ∨ ∃ i, a.pm = some i ∧ A.pm = some p ∧ RepD D s i p

theorem FePSim.mono {K : Kind} {D : Nat → Prop} {p : Big} {s s' : BigSt} {a : FeR} {A : Fe} (h : FePSim D p s a A) (g : Grow K s s') :
    FePSim D p s' a A :=
  ⟨h.v.mono g, h.pre, h.pm.imp id fun ⟨i, h1, h2, h3⟩ => ⟨i, h1, h2, h3.mono g⟩⟩

/-- An affine point whose x-coordinate need not be reduced. -/
structure APSim (D : Nat → Prop) (p : Big) (s : BigSt) (q : APtR) (Q : APt) : Prop where
  c : OSim D p s q.curve Q.curve
  x : FePSim D p s q.x Q.x
  y : FeSim D D p s q.y Q.y

section
variable {K : Kind} {D : Nat → Prop} {p : Big} {P fuel : ℕ} {s : BigSt}

theorem FePSim.elt {a : FeR} {A : Fe} (h : FePSim D p s a A) (e : Elt p A.v) : FeSim D D p s a A := ⟨h.v, e, h.pm⟩

theorem FeSim.pre {a : FeR} {A : Fe} (cp : p.Canon) (h : FeSim D D p s a A) : FePSim D p s a A := ⟨h.v, h.elt.pre cp, h.pm⟩

theorem APSim.mono {s' : BigSt} {q : APtR} {Q : APt} (h : APSim D p s q Q) (g : Grow K s s') : APSim D p s' q Q :=
  ⟨h.c.mono g, h.x.mono g, h.y.mono g⟩

theorem Sim.deref' {α β : Type} {R : BigSt → α → β → Prop} {f : Nat → M α} {g : Big → Res β} {a : FeR} {A : Fe} (h : FePSim D p s a A)
    (I : Inv K s.mem) (k : ∀ i, RepD D s i p → Sim K R s (f i) (g p)) : Sim K R s (a.deref >>= f) (A.deref >>= g) := by
  unfold FeR.deref Fe.deref
  rcases h.pm with ⟨e1, e2⟩ | ⟨i, e1, e2, r⟩
  · rw [e1, e2]; exact bind_err rfl
  · rw [e1, e2]; exact Sim.step (m := Pure.pure i) rfl (Grow.refl I) (k i r)

theorem isOne_elt (F : FC K p P fuel) {A : Big} (h : Pre p A) (h1 : A.isOne = true) : Elt p A := by
  have e := (Big.isOne_iff h.c).1 h1
  have := F.M.eq
  have := F.big
  exact ⟨h.c, h.nn, by omega⟩

/-- A number written in at most as many bytes as the modulus. -/
theorem pre_bytes (cp : p.Canon) {x : Big} (cx : x.Canon) {l : List Byte} (vx : x.toInt = beVal l) (hl : l.length ≤ p.byteLength) : Pre p x := by
  refine ⟨cx, by omega, ?_⟩
  have h1 := wordSize_byteLength cp
  have hb : beVal l < 256 ^ l.length := beVal_lt l
  have hv : val x.ws < Ack.B p.ws.length := by
    have h3 : val x.ws = beVal l := by
      have := Big.natAbs_toInt x
      omega
    rw [h3]
    refine lt_of_lt_of_le hb ?_
    rw [B_eq, show (256:ℕ) = 2 ^ 8 by norm_num, ← pow_mul]
    refine Nat.pow_le_pow_right (by omega) ?_
    unfold Big.wordSize at h1; omega
  have hpl := Canon.len_pos cp
  by_contra hc
  have h5 := cx.w.ge (by omega)
  have h6 : Ack.B p.ws.length ≤ Ack.B (x.ws.length - 1) := by
    rw [B_eq, B_eq]; exact Nat.pow_le_pow_right (by omega) (by omega)
  omega

theorem Sim.weak {α β : Type} {R R' : BigSt → α → β → Prop} {m : M α} {v : Res β} (h : Sim K R s m v) (k : ∀ s a b, R s a b → R' s a b) :
    Sim K R' s m v := by
  cases v with
  | error e => exact h
  | ok b =>
    obtain ⟨a, s', e, g, r⟩ := h
    exact ⟨a, s', e, g, k _ _ _ r⟩

theorem fe_isZero' {a : FeR} {A : Fe} (h : FePSim D p s a A) : Is s a.isZero A.isZero := by
  unfold FeR.isZero Fe.isZero
  refine Is.bind (Is.ask (isOne_eq h.v.rep)) ?_
  cases A.v.isOne with
  | true => exact Is.pure _
  | false =>
    rcases h.pm with ⟨e1, e2⟩ | ⟨i, e1, e2, r⟩
    · simp only [e1, e2]; exact Is.pure _
    · simp only [e1, e2]
      refine Is.bind (Is.ask (isZero_eq r.rep)) ?_
      cases p.isZero with
      | true => exact Is.pure _
      | false =>
        refine Is.bind (Is.ask (isOne_eq r.rep)) ?_
        cases p.isOne with
        | true => exact Is.pure _
        | false => exact Is.ask (isZero_eq h.v.rep)

theorem apt_isIdentity' {q : APtR} {Q : APt} (h : APSim D p s q Q) : Is s q.isIdentity Q.isIdentity := by
  unfold APtR.isIdentity APt.isIdentity
  rw [h.c.isNone]
  exact Is.or (Is.bind (fe_isZero' h.x) (Is.and (fe_isZero h.y)))

variable [hP : Fact P.Prime] (F : FC K p P fuel) (C : Ctx K D s)
include F C

omit F hP in
/-- Reading such a point. -/
theorem read_pre {q : APtR} {Q : APt} (h : APSim D p s q Q) : ∃ s', (PtR.aff q).read K fuel s =
    .ok (if Q.isIdentity then none else some (Q.x.v.toInt, Q.y.v.toInt), s') ∧ Grow K s s' := by
  obtain ⟨s1, e1, N1⟩ := copyNew_new C.inv h.x.v.rep
  have h1 := h.mono N1.grow
  obtain ⟨s2, e2, N2⟩ := copyNew_new N1.inv h1.y.v.rep
  have g := N1.grow.trans N2.grow
  have h2 := h.mono g
  have ha : APSim D p s2 ⟨q.curve, ⟨s.mem.objs.length, q.x.pm⟩, ⟨s1.mem.objs.length, q.y.pm⟩⟩ Q :=
    ⟨h2.c, ⟨(C.fresh N1).mono N2.grow, h.x.pre, h2.x.pm⟩, ⟨(C.mono N1.grow).fresh N2, h.y.elt, h2.y.pm⟩⟩
  have ec : (PtR.aff q).conv K fuel .aff s = .ok (.aff ⟨q.curve, ⟨s.mem.objs.length, q.x.pm⟩, ⟨s1.mem.objs.length, q.y.pm⟩⟩, s2) := by
    have ex : q.x.copy K s = .ok (⟨s.mem.objs.length, q.x.pm⟩, s1) := bind_run (newObj_run e1)
    have ey : q.y.copy K s1 = .ok (⟨s1.mem.objs.length, q.y.pm⟩, s2) := bind_run (newObj_run e2)
    have ea : q.copy K s = .ok (⟨q.curve, ⟨s.mem.objs.length, q.x.pm⟩, ⟨s1.mem.objs.length, q.y.pm⟩⟩, s2) := by
      unfold APtR.copy
      rw [bind_run ex, bind_run ey]
      rfl
    exact bind_run ea
  refine ⟨s2, ?_, g⟩
  unfold PtR.read
  rw [bind_run ec]
  show (APtR.isIdentity _ >>= _) s2 = _
  rw [bind_run (apt_isIdentity' ha)]
  cases hi : Q.isIdentity with
  | true => rfl
  | false =>
    have v1 := Ack.Props.value_of ha.x.v.rep
    have v2 := Ack.Props.value_of ha.y.v.rep
    simp only [Bool.false_eq_true, if_false]
    rw [bind_run (Is.ask v1), bind_run (Is.ask v2)]
    rfl

omit F hP in
theorem Sim.fin' {f : BigSt → Res BigSt} {s' : BigSt} {R : Big} {i : Nat} (hp : RepD D s i p) (e : f s = .ok s') (N : New K s s' R)
    (er : Pre p R) : Sim K (FePSim D p) s (do let v ← newObj f; Pure.pure ⟨v, some i⟩) (.ok ⟨R, some p⟩) :=
  ⟨_, s', bind_run (newObj_run e), N.grow, C.fresh N, er, Or.inr ⟨i, rfl, rfl, hp.mono N.grow⟩⟩

theorem fe_fpMul' {a b i : Nat} {A B : Big} (ra : RepD D s a A) (rb : RepD D s b B) (r : RepD D s i p) (ea : Pre p A) (eb : Pre p B) :
    Sim K (FeSim D D p) s (do let v ← newObj (fun s => s.fpMul K a b i); Pure.pure ⟨v, some i⟩)
      (do let v ← Fp.mul K.lim A B p; .ok ⟨v, some p⟩) := by
  obtain ⟨s', R, e, e', N⟩ := fpMul_exact F.M C.inv ra.rep rb.rep r.rep ea.c eb.c
    (F.M.room.fits (by have := ea.len; have := eb.len; omega))
  obtain ⟨z, h1, h2, -⟩ := mulMod_pre F.M.room F.M.canon F.M.eq ea eb
  have h1 : Fp.mul K.lim A B p = .ok z := h1
  rw [e'] at h1; cases h1
  rw [e']
  exact Sim.fin C r e N h2

theorem fe_sqr' {a : FeR} {A : Fe} (h : FePSim D p s a A) : Sim K (FeSim D D p) s (a.sqr K) (A.sqr K.lim) := by
  unfold FeR.sqr Fe.sqr
  refine Sim.test C.inv (Is.ask (isOne_eq h.v.rep)) (Sim.ite (fun h1 => fe_copy C (h.elt (isOne_elt F h.pre h1))) fun _ => ?_)
  exact Sim.deref' h C.inv fun i r => fe_fpMul' F C h.v h.v r h.pre h.pre

theorem fe_mul' {a b : FeR} {A B : Fe} (h : FeSim D D p s a A) (h' : FePSim D p s b B) : Sim K (FePSim D p) s (a.mul K b) (A.mul K.lim B) := by
  have wk : ∀ s a b, FeSim D D p s a b → FePSim D p s a b := fun _ _ _ h => h.pre F.M.canon
  unfold FeR.mul Fe.mul FeR.mulB Fe.mulB
  refine Sim.test C.inv (fe_isOne h) (Sim.ite (fun _ => ?_) fun _ => Sim.test C.inv (Is.ask (isOne_eq h'.v.rep)) (Sim.ite (fun _ => ?_) fun _ => ?_))
  · refine Sim.deref h C.inv fun i r => ?_
    obtain ⟨s', e, N⟩ := copyNew_new C.inv h'.v.rep
    exact Sim.fin' C r e N h'.pre
  · exact Sim.weak (fe_copy C h) wk
  · exact Sim.deref h C.inv fun i r => Sim.weak (fe_fpMul' F C h.v h'.v r (h.elt.pre F.M.canon) h'.pre) wk

theorem fe_addB' {a : FeR} {A : Fe} {x : Nat} {X : Big} (h : FePSim D p s a A) (hx : RepD D s x X) (ex : Elt p X) :
    Sim K (FePSim D p) s (a.addB K x) (A.addB K.lim X) := by
  unfold FeR.addB Fe.addB
  refine Sim.deref' h C.inv fun i r => ?_
  have hA : ∃ s', s.fpAdd K a.v x i = .ok s' ∧ New K s s' (Fp.add K.lim A.v X p) := by
    unfold BigSt.fpAdd Fp.add
    obtain ⟨s1, e1, N1⟩ := create_new C.inv (Mod.fit1 F.M) 0
    dsimp only
    rw [e1, ok_bind]
    obtain ⟨s2, e2, P2⟩ := add_spec (z := s.mem.objs.length) N1.inv (N1.frame _ _ h.v.rep) (N1.frame _ _ hx.rep) N1.res
      (fun _ h' => by have := h.v.rep.lt; have := hx.rep.lt; omega)
    rw [e2, ok_bind]
    exact addFin_exact F.M (N1.post P2) r.rep (add_room F.M.room h.pre.c ex.c h.pre.len (ex.len F.M.canon) (Canon.len_pos F.M.canon)).1
  obtain ⟨s', e, N⟩ := hA
  obtain ⟨c, e1, h1⟩ := PreRep.addB (P := P) (cap := K.lim) (a := ⟨A.v, some p⟩) (x := res P A.v) F.M ⟨rfl, h.pre, rfl⟩ ex
  have e2 : c = ⟨Fp.add K.lim A.v X p, some p⟩ := by
    have : (Except.ok ⟨Fp.add K.lim A.v X p, some p⟩ : Res Fe) = .ok c := e1
    injection this with this
    exact this.symm
  subst e2
  exact Sim.fin' C r e N h1.pre

theorem fe_sqrt' {a : FeR} {A : Fe} (h : FePSim D p s a A) : Sim K (FeSim D D p) s (a.sqrt K fuel) (A.sqrt K.lim) := by
  unfold FeR.sqrt Fe.sqrt
  refine Sim.test C.inv (Is.ask (isOne_eq h.v.rep)) (Sim.ite (fun h1 => fe_copy C (h.elt (isOne_elt F h.pre h1))) fun _ => ?_)
  refine Sim.deref' h C.inv fun i r => ?_
  refine Sim.bind (sqrt_pre_sim F C h.v h.pre r) ?_
  intro s1 v V g hv
  lift g
  exact Sim.pure C.inv ⟨hv.rep, hv.elt, Or.inr ⟨i, rfl, rfl, r⟩⟩

theorem computeY_sim' {c : CurveR} {C' : Curve} {x : FeR} {X : Fe} (h : CSim D p s c C') (hx : FePSim D p s x X) (odd : Bool) :
    Sim K (FeSim D D p) s (c.computeY K fuel x odd) (C'.computeY K.lim X odd) := by
  unfold CurveR.computeY Curve.computeY
  refine Sim.bind (fe_sqr' F C hx) ?_
  intro s' _ _ g h1
  lift g
  refine Sim.bind (fe_addB F C h1 h.a h.ea) ?_
  intro s' _ _ g h2
  lift g
  refine Sim.bind (fe_mul' F C h2 hx) ?_
  intro s' _ _ g h3
  lift g
  refine Sim.bind (fe_addB' F C h3 h.b h.eb) ?_
  intro s' _ _ g h4
  lift g
  refine Sim.bind (fe_sqrt' F C h4) ?_
  intro s' _ _ g h5
  lift g
  refine Sim.test C.inv (Is.ask (testBit_eq h5.v.rep)) ?_
  exact Sim.ite (fun _ => fe_neg F C h5) fun _ => Sim.pure C.inv h5

omit hP in
theorem apt_identity' : Sim K (APSim D p) s (APtR.identity K) (.ok APt.identity) :=
  Sim.weak (apt_identity F C) fun _ _ _ h => ⟨h.c, h.x.pre F.M.canon, h.y⟩

theorem decompress_sim' {c : CurveR} {C' : Curve} {x : FeR} {X : Fe} (h : CSim D p s c C') (hx : FePSim D p s x X) (odd : Bool) :
    Sim K (APSim D p) s (c.decompress K fuel x odd) (C'.decompress K.lim X odd) := by
  unfold CurveR.decompress Curve.decompress
  refine Sim.bind (computeY_sim' F C h hx odd) ?_
  intro s' _ _ g h1
  lift g
  refine Sim.test C.inv (fe_isZero h1) ?_
  exact Sim.ite (fun _ => apt_identity' F C) fun _ => Sim.pure C.inv ⟨OSim.some h, hx, h1⟩

/-- `decode_point` of any bytes. -/
theorem decode_sim' {c : CurveR} {C' : Curve} (h : CSim D p s c C') (e : List Byte) :
    Sim K (APSim D p) s (c.decode K fuel e) (C'.decode K.lim e) := by
  by_cases he : e.headD 0 = 2 ∨ e.headD 0 = 3 → e.length = C'.p.byteLength + 1 → (beVal (e.drop 1) : ℤ) < P
  · exact Sim.weak (decode_sim F C h e he) fun _ _ _ h => ⟨h.c, h.x.pre F.M.canon, h.y⟩
  push Not at he
  obtain ⟨ht, hl', -⟩ := he
  have hp := h.hp
  have h1 := Mod.fit1 F.M
  unfold CurveR.decode Curve.decode
  refine Sim.check (checkM_sim C.inv _) fun _ s' g => ?_
  lift g
  refine Sim.check (checkM_sim C.inv _) fun _ s' g => ?_
  lift g
  rw [hp] at hl' ⊢
  refine Sim.test C.inv (Is.ask (byteLength_eq h.rp.rep)) ?_
  dsimp only
  refine Sim.cond (fun ht => ?_) fun hn => absurd ht hn
  refine Sim.check (checkM_sim C.inv _) fun hl s' g => ?_
  lift g
  have hd := ofBytes_exact C.inv h1 ((e.drop 1).take p.byteLength)
  rcases Ack.ofBytes_fits K.lim ((e.drop 1).take p.byteLength) h1 with ⟨-, x, ex, cx, vx⟩ | ⟨-, ex⟩
  · rw [ex] at hd ⊢
    obtain ⟨s', e', N1⟩ := hd
    have g := N1.grow
    have hx := C.fresh N1
    refine Sim.step (newObj_run e') g ?_
    rw [ok_bind]
    lift g
    unfold CurveR.decompressInt Curve.decompressInt Curve.makeFe
    refine Sim.newCopy C hx fun s' _ g h2 => ?_
    lift g
    have hpre : Pre p x := pre_bytes F.M.canon cx vx (by rw [List.length_take]; omega)
    exact decompress_sim' F C h ⟨h2, hpre, Or.inr ⟨_, rfl, by rw [hp], h.rp⟩⟩ _
  · rw [ex] at hd ⊢
    exact bind_err (newObj_err hd)

end

section
variable {P : ℕ} [Fact P.Prime] {cap : Cap} {C : Curve}

/-- The value that decoding of any bytes answers. -/
theorem decode_answers (K : CurveOk P cap C) (b : List Byte) (hm : ¬ Malformed P b) : ∃ q, Curve.decode cap C b = .ok q ∧
    Answers (res P C.a) (res P C.b) b (if q.isIdentity then none else some (q.x.v.toInt, q.y.v.toInt)) := by
  have ho := octets_eq K
  have hz : APt.identity.isIdentity = true := rfl
  cases b with
  | nil => exact absurd .empty hm
  | cons t l =>
    by_cases h0 : t = 0
    · subst h0
      exact ⟨APt.identity, by rw [decode_cons]; rfl, .zero l⟩
    by_cases h2 : t = 2 ∨ t = 3
    · by_cases hl : l.length = octets P
      swap
      · exact absurd (.short h2 hl) hm
      obtain ⟨odd, rfl⟩ : ∃ odd : Bool, t = if odd then 3 else 2 := by
        rcases h2 with h | h
        · exact ⟨false, h⟩
        · exact ⟨true, h⟩
      obtain ⟨bx, e, vx, r⟩ := decode_compressed_pre K (x := l) (by rw [hl, ho]) odd
      rw [e]
      obtain ⟨g1, g2⟩ := decompress_pre K r odd
      by_cases hh : ∃ y : ZMod P, y ≠ 0 ∧ y ^ 2 = ((beVal l : ℕ) : ZMod P) ^ 3 + res P C.a * ((beVal l : ℕ) : ZMod P) + res P C.b
      · obtain ⟨y, Y, eq, hy, hY, Y0, hpar⟩ := g1 hh
        refine ⟨_, eq, ?_⟩
        have hi : APt.isIdentity ⟨some C, ⟨bx, some C.p⟩, y⟩ = false := by
          have : y.isZero = false := by rw [← Bool.not_eq_true, hy.isZero_iff K.M]; exact Y0
          unfold APt.isIdentity
          rw [this]; simp
        have vy : y.v.toInt = Y.val := (hy.zval K.M).symm
        rw [hi, if_neg Bool.false_ne_true]
        show Answers _ _ _ (some (bx.toInt, y.v.toInt))
        rw [vx, vy]
        refine .some ?_ hl hY Y0
        cases odd with
        | false => simpa using hpar
        | true => simpa using hpar
      · rw [g2 hh]
        refine ⟨_, rfl, .none h2 hl fun y hy => ?_⟩
        by_contra y0
        exact hh ⟨y, y0, hy⟩
    by_cases h4 : t = 4
    · subst h4
      by_cases hl : l.length = 2 * octets P
      swap
      · exact absurd (.long hl) hm
      have hs : l = l.take (octets P) ++ l.drop (octets P) := (List.take_append_drop _ _).symm
      have l1 : (l.take (octets P)).length = octets P := by rw [List.length_take]; omega
      have l2 : (l.drop (octets P)).length = octets P := by rw [List.length_drop]; omega
      rw [hs] at hm ⊢
      generalize l.take (octets P) = u at *
      generalize l.drop (octets P) = w at *
      by_cases hb : beVal u < P ∧ beVal w < P
      swap
      · exact absurd (.range l1 l2 hb) hm
      obtain ⟨bx, b_y, e, r1, r2⟩ := (decode_uncompressed K (by rw [l1, ho]) (by rw [l2, ho])).1 hb
      refine ⟨_, e, ?_⟩
      have v1 : bx.toInt = beVal u := by
        have := (r1.zval K.M).symm
        rwa [ZMod.val_natCast, Nat.mod_eq_of_lt hb.1] at this
      have v2 : b_y.toInt = beVal w := by
        have := (r2.zval K.M).symm
        rwa [ZMod.val_natCast, Nat.mod_eq_of_lt hb.2] at this
      have i1 : Fe.isZero ⟨bx, some C.p⟩ = true ↔ beVal u = 0 := by
        rw [r1.isZero_iff K.M, ← ZMod.val_eq_zero, ZMod.val_natCast, Nat.mod_eq_of_lt hb.1]
      have i2 : Fe.isZero ⟨b_y, some C.p⟩ = true ↔ beVal w = 0 := by
        rw [r2.isZero_iff K.M, ← ZMod.val_eq_zero, ZMod.val_natCast, Nat.mod_eq_of_lt hb.2]
      have hi : APt.isIdentity ⟨some C, ⟨bx, some C.p⟩, ⟨b_y, some C.p⟩⟩ = true ↔ beVal u = 0 ∧ beVal w = 0 := by
        unfold APt.isIdentity
        rw [← i1, ← i2]; simp
      by_cases hz : beVal u = 0 ∧ beVal w = 0
      · rw [if_pos (hi.2 hz)]; exact .origin l1 l2 hz.1 hz.2
      · rw [if_neg (fun h => hz (hi.1 h))]
        show Answers _ _ _ (some (bx.toInt, b_y.toInt))
        rw [v1, v2]
        exact .full l1 l2 hb.1 hb.2 hz
    · exact absurd (.tag l h0 (fun h => h2 (.inl h)) (fun h => h2 (.inr h)) h4) hm

end
end Ack.Mem
