import Verif.Model.KeyMem
import Verif.Proof.EcNaf
import Verif.Proof.FpSqrt
/-! # Jacobi symbols, powers and the search for a non-residue on memory give exactly the values of `Model/BigintNT.lean` -/
namespace Ack.Mem
open Big (Byte)

section
variable {K : Kind}

/-! ## Trailing zeros -/

theorem ctzGo_exact {x : Nat} : ∀ (f k : Nat) (s : BigSt) (X Y : Big) (k' : Nat), Inv K s.mem → Rep s x X → Big.ctzGo f X k = .ok (Y, k') →
    ∃ s', s.ctzGo K x f k = .ok (k', s') ∧ Post K s s' x Y := by
  intro f
  induction f with
  | zero => intro k s X Y k' _ _ h; cases h
  | succ f ih =>
    intro k s X Y k' I r h
    unfold BigSt.ctzGo
    rw [isOdd_mem r, ok_bind]
    rw [Big.ctzGo] at h
    unfold Big.isEven at h
    cases ho : X.isOdd with
    | true =>
      rw [ho] at h
      cases h
      exact ⟨s, rfl, I, r, fun _ _ _ h => h, rfl⟩
    | false =>
      rw [ho] at h
      obtain ⟨s1, e1, P1⟩ := shr_spec I r r 1
      obtain ⟨s2, e2, P2⟩ := ih (k + 1) s1 _ Y k' P1.inv P1.res h
      refine ⟨s2, ?_, P2.inv, P2.res, fun i Z hi hZ => P2.frame i Z hi (P1.frame i Z hi hZ), by rw [P2.len, P1.len]⟩
      rw [if_pos (show (!false) = true from rfl), e1, ok_bind]
      exact e2

theorem ctz_exact {s : BigSt} {x k : Nat} {X Y : Big} (I : Inv K s.mem) (r : Rep s x X) (h : Big.countTrailingZero X = .ok (Y, k)) :
    ∃ s', s.ctz K x = .ok (k, s') ∧ Post K s s' x Y := by
  unfold BigSt.ctz
  rw [r.size_eq]
  exact ctzGo_exact _ _ _ _ _ _ I r h

theorem ctzGo_value : ∀ (f k : Nat) (X Y : Big) (k' : Nat), X.Canon → Big.ctzGo f X k = .ok (Y, k') → Y.Canon ∧ Y.isOdd = true := by
  intro f
  induction f with
  | zero => intro k X Y k' _ h; cases h
  | succ f ih =>
    intro k X Y k' c h
    rw [Big.ctzGo] at h
    unfold Big.isEven at h
    cases ho : X.isOdd with
    | true => rw [ho] at h; cases h; exact ⟨c, ho⟩
    | false => rw [ho] at h; exact ih _ _ _ _ (Big.shr_spec X 1 c).1 h

/-! ## Jacobi symbols -/

theorem odd_ne {Y : Big} (h : Y.isOdd = true) : Y.toInt ≠ 0 := by rw [Big.isOdd_iff] at h; omega

theorem jacobiGo_exact {m n t : Nat} (hmn : m ≠ n) (hmt : m ≠ t) (hnt : n ≠ t) : ∀ (f : Nat) (start : Bool) (j : Int) (s : BigSt)
    (X Y T : Big) (r : Int), Inv K s.mem → Rep s m X → Rep s n Y → Rep s t T → X.Canon → Y.Canon → (start = false → X.toInt ≠ 0) →
    Big.jacobiGo K.lim f start X Y j = .ok r →
    ∃ s', s.jacobiGo K m n t f start j = .ok (r, s') ∧ Inv K s'.mem ∧ (∀ i Z, i ≠ m → i ≠ n → i ≠ t → Rep s i Z → Rep s' i Z) ∧
      s'.mem.objs.length = s.mem.objs.length := by
  intro f
  induction f with
  | zero => intro start j s X Y T r _ _ _ _ _ _ _ h; cases h
  | succ f ih =>
    intro start j s X Y T r I rX rY rT cX cY h0 h
    -- the first half of the body
    obtain ⟨s1, X1, Y1, T1, j1, e1, v1, I1, rX1, rY1, rT1, cX1, cY1, fr1, l1⟩ : ∃ (s1 : BigSt) (X1 Y1 T1 : Big) (j1 : Int),
        (if !start then do
          let a ← s.load m 0
          let b ← s.load n 0
          let j := if a % 4 = 3 ∧ b % 4 = 3 then -j else j
          let (s, _) ← s.mod K t n m
          let s ← s.assign K n m
          let s ← s.assign K m t
          .ok (j, s)
        else .ok (j, s) : Res (Int × BigSt)) = .ok (j1, s1) ∧
        (if !start then do
          let j := if X.low32 % 4 = 3 ∧ Y.low32 % 4 = 3 then -j else j
          let t ← Big.mod K.lim Y X
          .ok (t, X, j)
        else .ok (X, Y, j) : Res (Big × Big × Int)) = .ok (X1, Y1, j1) ∧
        Inv K s1.mem ∧ Rep s1 m X1 ∧ Rep s1 n Y1 ∧ Rep s1 t T1 ∧ X1.Canon ∧ Y1.Canon ∧
        (∀ i Z, i ≠ m → i ≠ n → i ≠ t → Rep s i Z → Rep s1 i Z) ∧ s1.mem.objs.length = s.mem.objs.length := by
      cases start with
      | true => exact ⟨s, X, Y, T, j, rfl, rfl, I, rX, rY, rT, cX, cY, fun _ _ _ _ _ h => h, rfl⟩
      | false =>
        have hX0 := h0 rfl
        obtain ⟨s1, V, R, e1, ev, P1⟩ := mod_spec I rY rX rT cY cX hX0
        obtain ⟨q', r', ev', -, cr, -⟩ := Big.divMod?_spec K.lim Y X cY cX (rep_fits I rY) hX0
        rw [ev] at ev'
        cases ev'
        obtain ⟨s2, e2, P2⟩ := assign_spec P1.inv (P1.frame m X hmt rX) (P1.frame n Y hnt rY)
        have rm2 := P2.frame m X hmn (P1.frame m X hmt rX)
        obtain ⟨s3, e3, P3⟩ := assign_spec P2.inv (P2.frame t R hnt.symm P1.res) rm2
        refine ⟨s3, R, X, R, (if X.low32 % 4 = 3 ∧ Y.low32 % 4 = 3 then -j else j), ?_, ?_, P3.inv, P3.res,
          P3.frame n X hmn.symm P2.res, P3.frame t R hmt.symm (P2.frame t R hnt.symm P1.res), cr, cX, ?_, ?_⟩
        · rw [if_pos (show (!false) = true from rfl), load0_eq rX, ok_bind, load0_eq rY, ok_bind]
          dsimp only
          rw [e1, ok_bind]
          dsimp only
          rw [e2, ok_bind, e3, ok_bind]
          rfl
        · rw [if_pos (show (!false) = true from rfl)]
          unfold Big.mod
          rw [ev]; rfl
        · intro i Z h1 h2 h3 hZ
          exact P3.frame i Z h1 (P2.frame i Z h2 (P1.frame i Z h3 hZ))
        · rw [P3.len, P2.len, P1.len]
    unfold Big.jacobiGo at h
    rw [v1, ok_bind] at h
    dsimp only at h
    unfold BigSt.jacobiGo
    rw [e1, ok_bind]
    dsimp only
    cases hc : Big.countTrailingZero X1 with
    | error e => rw [hc] at h; cases h
    | ok p =>
      obtain ⟨X2, k⟩ := p
      rw [hc, ok_bind] at h
      dsimp only at h
      obtain ⟨s2, e2, P2⟩ := ctz_exact I1 rX1 hc
      obtain ⟨cX2, oX2⟩ := ctzGo_value _ _ _ _ _ cX1 hc
      have rY2 := P2.frame n Y1 hmn.symm rY1
      rw [e2, ok_bind]
      dsimp only
      rw [load0_eq rY2, ok_bind]
      rw [eqS_mem P2.res, ok_bind]
      have hlow : Y1.ws.headD 0 = Y1.low32 := rfl
      rw [hlow]
      have he : (Big.eqS X2 1) = decide (Big.compares1 X2 1 = 0) := rfl
      rw [he]
      by_cases h1 : Big.compares1 X2 1 = 0
      · rw [if_neg (by simpa using h1)] at h
        cases h
        rw [h1]
        refine ⟨s2, rfl, P2.inv, fun i Z hi1 hi2 hi3 hZ => P2.frame i Z hi1 (fr1 i Z hi1 hi2 hi3 hZ), by rw [P2.len, l1]⟩
      · rw [if_pos h1] at h
        rw [if_pos (by simpa using h1)]
        obtain ⟨s3, e3, I3, fr3, l3⟩ := ih false _ s2 X2 Y1 T1 r P2.inv P2.res rY2 (P2.frame t T1 hmt.symm rT1) cX2 cY1
          (fun _ => odd_ne oX2) h
        exact ⟨s3, e3, I3, fun i Z hi1 hi2 hi3 hZ => fr3 i Z hi1 hi2 hi3 (P2.frame i Z hi1 (fr1 i Z hi1 hi2 hi3 hZ)),
          by rw [l3, P2.len, l1]⟩

/-! ## The symbol of a reduced number for a prime -/

section
variable {p : Big} {P fuel : ℕ} [hP : Fact P.Prime] (F : FC K p P fuel)
include F

omit hP in
theorem FC.pos : 0 < p.toInt := by have := F.M.eq; have := F.big; omega

omit hP in
theorem FC.nn : p.neg = false := neg_of_pos F.pos

omit hP in
theorem FC.value : Ack.val p.ws = P := by have := Big.toInt_of_nonneg F.nn; have := F.M.eq; omega

omit hP in
theorem FC.gcd {X : Big} : Big.gcdSteps (Ack.val X.ws) (Ack.val p.ws) ≤ fuel := by
  have := Big.gcdSteps_le_size (Ack.val X.ws) (Ack.val p.ws)
  have := F.hf.1
  rw [F.value] at *
  omega

theorem FC.odd : Ack.val p.ws % 2 = 1 := by
  rw [F.value]
  have := F.big
  exact hP.1.eq_two_or_odd.resolve_left (by omega)

/-- A number that is no square within the passes of the search for one. -/
theorem FC.nonres (h4 : P % 4 ≠ 3) : ∃ z : ℕ, 2 ≤ z ∧ z < P ∧ z ≤ fuel ∧ jacobiSym z P = -1 := by
  have hb := F.big
  have hodd := hP.1.eq_two_or_odd.resolve_left (by omega)
  obtain ⟨z, hz, hs⟩ := F.hf.2 (by omega)
  have hc : ((z % P : ℕ) : ZMod P) = z := ZMod.natCast_mod z P
  refine ⟨z % P, ?_, Nat.mod_lt _ (by omega), le_trans (Nat.mod_le _ _) hz, ?_⟩
  · by_contra h
    have : z % P = 0 ∨ z % P = 1 := by omega
    apply hs
    rw [← hc]
    rcases this with h | h <;> rw [h] <;> simp
  · rw [← jacobiSym.legendreSym.to_jacobiSym, legendreSym.eq_neg_one_iff, Int.cast_natCast, hc]; exact hs

theorem jacobiBody_exact {s : BigSt} {m n : Nat} {X : Big} (I : Inv K s.mem) (hmn : m ≠ n) (rm : Rep s m X) (rn : Rep s n p) (eX : Elt p X) :
    ∃ s', s.jacobiBody K fuel m n = .ok (legendreSym P X.toInt, s') ∧ Inv K s'.mem ∧
      (∀ i Z, i ≠ m → i ≠ n → Rep s i Z → Rep s' i Z) ∧ s.mem.objs.length ≤ s'.mem.objs.length := by
  have hp := F.M.eq
  have hb := F.big
  have hf := F.hf.1
  have cp := F.M.canon
  have vp := F.value
  have hX0 := eX.nn
  have hX1 := eX.lt
  have hg : Big.opGt X p = false := by rw [← Bool.not_eq_true, opGt_iff eX.c cp]; omega
  have hl : Big.ltS X 0 = false := by
    rw [← Bool.not_eq_true, ltS_iff eX.c]
    have : (0 : BitVec 32).toInt = 0 := by decide
    omega
  have ho : p.isOne = false := by rw [← Bool.not_eq_true, Big.isOne_iff cp]; omega
  unfold BigSt.jacobiBody
  rw [isOne_eq rn, ok_bind, ho, if_neg (by decide), ltS_mem rm, ok_bind, hl, if_neg (by decide), opGt_mem rm rn, hg, ok_bind]
  dsimp only
  rw [if_neg (by decide), ok_bind, isZero_eq rm, ok_bind]
  cases hz : X.isZero with
  | true =>
    rw [if_pos rfl]
    rw [Big.isZero_iff eX.c] at hz
    refine ⟨s, ?_, I, fun _ _ _ _ h => h, Nat.le_refl _⟩
    rw [hz, legendreSym.at_zero]
  | false =>
    rw [if_neg (by decide), isOne_eq rm, ok_bind]
    rw [← Bool.not_eq_true, Big.isZero_iff eX.c] at hz
    cases h1 : X.isOne with
    | true =>
      rw [if_pos rfl]
      rw [Big.isOne_iff eX.c] at h1
      refine ⟨s, ?_, I, fun _ _ _ _ h => h, Nat.le_refl _⟩
      rw [h1, legendreSym.at_one]
    | false =>
      rw [if_neg (by decide)]
      rw [← Bool.not_eq_true, Big.isOne_iff eX.c] at h1
      have nX : X.neg = false := neg_of_pos (by omega)
      have vX := Big.toInt_of_nonneg nX
      obtain ⟨s1, e1, N1⟩ := create_new I (Mod.fit1 F.M) 0
      have rm1 := N1.frame _ _ rm
      have rn1 := N1.frame _ _ rn
      obtain ⟨s2, G, eg, e2, P2⟩ := gcd_mem (z := s.mem.objs.length) N1.inv rm1 rn1 (by rw [N1.len]; omega) eX.c cp fuel F.gcd
      obtain ⟨cG, vG, gG⟩ := gcd_value fuel X p G eX.c cp (rep_fits I rm) (rep_fits I rn) F.gcd eg
      have hcop : Nat.Coprime (val X.ws) (val p.ws) := by
        rw [vp, Nat.coprime_comm]
        exact (Nat.Prime.coprime_iff_not_dvd hP.1).2 fun hd => by
          have := Nat.le_of_dvd (by omega) hd
          omega
      have hG1 : G.toInt = 1 := by
        have h2 := gG hX0 (by omega)
        rw [Int.gcd, Big.natAbs_toInt X, Big.natAbs_toInt p, hcop] at vG
        omega
      rw [e1, ok_bind, e2, ok_bind, eqS_mem P2.res, ok_bind]
      have hE : Big.eqS G 1 = true := by rw [eqS_iff cG, hG1]; rfl
      rw [hE]
      have hne : ¬ ((!true) = true) := by decide
      rw [if_neg hne]
      have hlm := rm.lt
      have hln := rn.lt
      have I3 : Inv K (s2.drop s.mem.objs.length).mem := drop_inv P2.inv _
      have l3 : (s2.drop s.mem.objs.length).mem.objs.length = s.mem.objs.length := drop_len (by rw [P2.len, N1.len]; omega)
      have fr3 : ∀ i Z, Rep s i Z → Rep (s2.drop s.mem.objs.length) i Z := fun i Z hZ =>
        drop_rep P2.inv (P2.frame i Z (Nat.ne_of_lt hZ.lt) (N1.frame i Z hZ)) hZ.lt
      obtain ⟨s4, e4, N4⟩ := create_new I3 (Mod.fit1 F.M) 0
      have r4 := N4.res
      rw [l3] at r4
      rw [e4, ok_bind]
      have hval : Big.jacobiGo K.lim fuel true X p 1 = .ok (legendreSym P X.toInt) := by
        obtain ⟨g, rfl⟩ : ∃ g, fuel = g + 1 := ⟨fuel - 1, by omega⟩
        rw [Big.jacobiGo]
        simp only [Bool.not_true, Bool.false_eq_true, if_false, ok_bind]
        have := Big.jacobi_strip K.lim g X p 1 eX.c nX (by omega) F.odd ?_
        · rw [one_mul] at this
          rw [this, jacobiSym.legendreSym.to_jacobiSym, vp, vX]
        · intro m2 cm2 nm2 lm2 om2 hm1 hdvd j'
          have hc2 : Nat.Coprime (val m2.ws) (val p.ws) := Nat.Coprime.coprime_dvd_left hdvd hcop
          have hle2 := Nat.le_of_dvd (by omega) hdvd
          exact Big.jacobiGo_spec K.lim _ m2 p j' cm2 nm2 cp F.nn (rep_fits I rn) (fun N hN => by have := rep_fits I rm N hN; omega)
            om2 F.odd hm1 hc2 (Big.mul_mod_lt_size (by omega) (by rw [vp]; omega))
      obtain ⟨s5, e5, I5, fr5, l5⟩ := jacobiGo_exact hmn (Nat.ne_of_lt hlm) (Nat.ne_of_lt hln) fuel true 1 s4 X p _ _ N4.inv
        (N4.frame _ _ (fr3 _ _ rm)) (N4.frame _ _ (fr3 _ _ rn)) r4 eX.c cp (fun h => by cases h) hval
      refine ⟨s5, e5, I5, fun i Z h1 h2 hZ => fr5 i Z h1 h2 (Nat.ne_of_lt hZ.lt) (N4.frame _ _ (fr3 _ _ hZ)), ?_⟩
      rw [l5, N4.len, l3]; omega

/-- `x.jacobi(p)`: the Legendre symbol, and nothing is left behind. -/
theorem jacobi_exact {s : BigSt} {x ip : Nat} {X : Big} (I : Inv K s.mem) (rx : Rep s x X) (rp : Rep s ip p) (eX : Elt p X) :
    ∃ s', s.jacobi K fuel x ip = .ok (legendreSym P X.toInt, s') ∧ Grow K s s' ∧ s'.mem.objs.length = s.mem.objs.length := by
  obtain ⟨s1, e1, N1⟩ := copyNew_new I rp
  obtain ⟨s2, e2, N2⟩ := copyNew_new N1.inv (N1.frame _ _ rx)
  obtain ⟨s3, e3, N3⟩ := copyNew_new N2.inv (N2.frame _ _ N1.res)
  have r2 := N2.res
  have r3 := N3.res
  rw [N2.len, N1.len] at r3
  rw [N1.len] at r2
  obtain ⟨s4, e4, I4, fr4, l4⟩ := jacobiBody_exact F N3.inv (by omega) (N3.frame _ _ r2) r3 eX
  have hl : s.mem.objs.length ≤ s4.mem.objs.length := by
    have := N1.len; have := N2.len; have := N3.len; omega
  refine ⟨s4.drop s.mem.objs.length, ?_, ⟨drop_inv I4 _, ?_, ?_⟩, drop_len hl⟩
  · unfold BigSt.jacobi
    dsimp only
    rw [e1, ok_bind, e2, ok_bind, e3, ok_bind, e4]
    rfl
  · intro i Z hZ
    have := hZ.lt
    exact drop_rep I4 (fr4 i Z (by omega) (by omega) (N3.frame _ _ (N2.frame _ _ (N1.frame _ _ hZ)))) this
  · rw [drop_len hl]

/-! ## The search for a non-residue -/

theorem incr_exact {s : BigSt} {z : Nat} {Z : Big} (I : Inv K s.mem) (r : Rep s z Z) (eZ : Elt p Z) :
    ∃ s', s.addu1Go K z z 1 false = .ok s' ∧ Post K s s' z (Big.incr K.lim Z) := by
  obtain ⟨s', R, e, P1, h⟩ := addu1Go_spec I r r 1 false
  obtain ⟨c, v⟩ := adds1_room F.M.room 1 eZ.c (eZ.len F.M.canon) (Canon.len_pos F.M.canon)
  have v : (Big.addu1Go K.lim Z 1 false).toInt = Z.toInt + 1 := v
  have c : (Big.addu1Go K.lim Z 1 false).Canon := c
  have : R = Big.addu1Go K.lim Z 1 false := big_ext (h.canon c) c (by rw [h.toInt, v]; have := eZ.nn; omega) h.toInt
  rw [this] at P1
  exact ⟨s', e, P1⟩

theorem findNonRes_exact {z ip : Nat} (hzp : z ≠ ip) (z₀ : ℕ) (hz₀ : z₀ < P) (hj : jacobiSym z₀ P = -1) : ∀ (f g : ℕ) (s : BigSt) (Z : Big),
    Inv K s.mem → Rep s z Z → Rep s ip p → Elt p Z → Z.toInt ≤ z₀ → (z₀ : ℤ) - Z.toInt < f → (z₀ : ℤ) - Z.toInt < g →
    ∃ s' W, s.findNonRes K fuel z ip f = .ok s' ∧ Fp.findNonRes K.lim p g Z = .ok W ∧ Post K s s' z W ∧ Elt p W ∧ legendreSym P W.toInt = -1 := by
  have h2 : P ≠ 2 := by have := F.big; omega
  intro f
  induction f with
  | zero => intro g s Z _ _ _ _ _ _; exfalso; omega
  | succ f ih =>
    intro g s Z I rz rp eZ hle hf hg
    obtain ⟨g, rfl⟩ : ∃ g', g = g' + 1 := ⟨g - 1, by have := eZ.nn; omega⟩
    obtain ⟨s1, e1, G1, l1⟩ := jacobi_exact F I rz rp eZ
    rw [Fp.findNonRes, jacobi_elt F.M.room F.M.canon F.M.eq eZ h2, ok_bind, BigSt.findNonRes, e1, ok_bind]
    dsimp only
    by_cases h : legendreSym P Z.toInt = -1
    · rw [if_neg (by simpa using h), if_neg (by simpa using h)]
      exact ⟨s1, Z, rfl, rfl, ⟨G1.inv, G1.keep _ _ rz, fun i X _ hX => G1.keep i X hX, l1⟩, eZ, h⟩
    · rw [if_pos h, if_pos h]
      obtain ⟨c, v⟩ := adds1_room F.M.room 1 eZ.c (eZ.len F.M.canon) (Canon.len_pos F.M.canon)
      have v : (Big.incr K.lim Z).toInt = Z.toInt + 1 := v
      have hne : Z.toInt ≠ z₀ := by
        intro e; apply h; rw [e, jacobiSym.legendreSym.to_jacobiSym]; exact hj
      have hp := F.M.eq
      obtain ⟨s2, e2, P2⟩ := incr_exact F G1.inv (G1.keep _ _ rz) eZ
      obtain ⟨s3, W, e3, ew, P3, eW, lW⟩ := ih g s2 _ P2.inv P2.res (P2.frame _ _ hzp.symm (G1.keep _ _ rp))
        ⟨c, by have := eZ.nn; omega, by omega⟩ (by omega) (by push_cast at hf; omega) (by push_cast at hg; omega)
      refine ⟨s3, W, by rw [e2, ok_bind]; exact e3, ew, ⟨P3.inv, P3.res, ?_, ?_⟩, eW, lW⟩
      · intro i X hi hX
        exact P3.frame i X hi (P2.frame i X hi (G1.keep i X hX))
      · rw [P3.len, P2.len, l1]

/-! ## Powers -/

theorem modexpNew_exact {s : BigSt} {x e ip : Nat} {X E E' : Big} (I : Inv K s.mem) (rx : Rep s x X) (re : Rep s e E) (rp : Rep s ip p)
    (eX : Elt p X) (h0 : X.toInt ≠ 0) (cE : E.Canon) (nE : E.neg = false) (cE' : E'.Canon) (nE' : E'.neg = false) (hE : E.toInt = E'.toInt) :
    ∃ s' Z, s.modexpNew K x e ip = .ok s' ∧ Big.modexp K.lim X E' p = .ok Z ∧ New K s s' Z ∧ Elt p Z ∧ Z.toInt ≠ 0 := by
  have hp := F.M.eq
  have hb := F.big
  have hlt := eX.lt
  have hnn := eX.nn
  have hv : val E.ws = val E'.ws := by
    have := Big.toInt_of_nonneg nE; have := Big.toInt_of_nonneg nE'; omega
  obtain ⟨Z, eZ, elZ, vZ⟩ := modexp_elt F.M.room F.M.canon F.M.eq eX cE' nE'
  obtain ⟨s1, e1, N1⟩ := create_new I (Mod.fit1 F.M) 0
  have rp1 := N1.frame _ _ rp
  have hroom : Cap.fits K.lim (2 * max X.ws.length p.ws.length) = true := by
    rw [max_eq_right (eX.len F.M.canon)]; exact F.M.room
  obtain ⟨s2, ok, e2, I2, l2, fr2, hok, hres⟩ := modexp_mem N1.inv (N1.frame _ _ rx) (N1.frame _ _ re) rp1 N1.res eX.c cE F.M.canon nE (by omega)
    (Nat.ne_of_gt rp.lt)
  obtain rfl := hok hroom
  obtain ⟨R, rR, cR, hR1, hR2, hR3, hR4, hR5⟩ := hres rfl
  have R0 := hR3 eX.nn
  have hRlt : R.toInt < p.toInt := by
    have habs : |R.toInt| < |p.toInt| → R.toInt < p.toInt := fun h => by
      rwa [abs_of_nonneg R0, abs_of_nonneg (by omega)] at h
    rcases Nat.lt_or_ge (val E.ws) 2 with h | h
    · rcases Nat.lt_or_ge (val E.ws) 1 with h' | h'
      · rcases hR4 (by omega) with h'' | h''
        · omega
        · exact habs h''
      · rcases hR5 (by omega) with h'' | h''
        · omega
        · exact habs h''
    · exact habs (hR2 h)
  have elR : Elt p R := ⟨cR, R0, hRlt⟩
  have hres : res P R = res P Z := by
    rw [vZ, ← hv]
    have : ((R.toInt : ℤ) : ZMod P) = ((X.toInt ^ val E.ws : ℤ) : ZMod P) := by
      rw [ZMod.intCast_eq_intCast_iff, ← hp]; exact hR1
    unfold res
    rw [this]; push_cast; rfl
  have hint := (res_inj F.M.eq elR elZ).1 hres
  have hx0 : res P X ≠ 0 := by
    intro h
    have h := (ZMod.intCast_zmod_eq_zero_iff_dvd _ _).1 h
    have := Int.le_of_dvd (by omega) h
    omega
  have hZ0 : Z.toInt ≠ 0 := by
    intro h
    have h3 : res P Z = 0 := by unfold res; rw [h]; simp
    rw [vZ] at h3
    exact hx0 (pow_eq_zero_iff (M₀ := ZMod P) (n := val E'.ws) (by
      intro h4; rw [h4, pow_zero] at h3; exact one_ne_zero h3) |>.1 h3)
  have hRZ : R = Z := big_ext cR elZ.c (by omega) hint
  subst hRZ
  refine ⟨s2, R, ?_, eZ, ⟨I2, rR, fun i W hW => fr2 i W (Nat.ne_of_lt hW.lt) (N1.frame i W hW), by rw [l2, N1.len]⟩, elR, hZ0⟩
  unfold BigSt.modexpNew
  dsimp only
  rw [e1, ok_bind, e2, ok_bind]
  rfl

end

end
end Ack.Mem
