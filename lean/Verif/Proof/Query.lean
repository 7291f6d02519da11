import Verif.Spec.Query
import Verif.Proof.KeyCode
import Verif.Proof.EcTotal
/-! # Integer programs that ask questions -/
namespace Ack.Mem
open Big (Byte)

/-! ### `quot_rem` -/

theorem ok_of_bind {α β : Type} {x : Res α} {f : α → Res β} {b : β} (h : (x >>= f) = .ok b) : ∃ a, x = .ok a ∧ f a = .ok b := by
  cases x with
  | error e => cases h
  | ok a => exact ⟨a, rfl, h⟩

theorem trimGo_one {s : BigSt} {i : Nat} : ∀ {k m : Nat}, s.trimGo i k = .ok m → 1 ≤ m
  | 0, m, h => by cases h; exact Nat.le_refl _
  | k + 1, m, h => by
    obtain ⟨w, -, h⟩ := ok_of_bind h
    split at h
    · cases h; omega
    · exact trimGo_one h

theorem trim_sign {s s' : BigSt} {i n : Nat} (h : s.trim i n = .ok s') : s'.neg i = s.neg i ∨ s'.isZero i = .ok true := by
  unfold BigSt.trim at h
  split at h
  · obtain ⟨m, h1, h⟩ := ok_of_bind h
    have := trimGo_one h1
    dsimp only at h
    split at h
    · cases h; exact Or.inl rfl
    · obtain ⟨w, h2, h⟩ := ok_of_bind h
      cases h
      split
      · rename_i hm hw
        right
        have h3 : ((s.setSize i m).setNeg i false).load i 0 = .ok w := h2
        unfold BigSt.isZero
        rw [h3, ok_bind, hw]
        have : ((s.setSize i m).setNeg i false).size i = m := upd_same _ _ _
        rw [this, show m = 1 by omega]
        rfl
      · exact Or.inl rfl
  · cases h; exact Or.inl rfl

theorem usub_exact {K : Kind} {s : BigSt} {z x y : Nat} {X Y Z : Big} (I : Inv K s.mem) (hx : Rep s x X) (hy : Rep s y Y)
    (hz : Rep s z Z) (hle : Y.ws.length ≤ X.ws.length) (cX : X.Canon) (hv : val Y.ws < val X.ws) :
    ∃ s', s.usub K z x y = .ok s' ∧ Post K s s' z ⟨Z.neg, Big.usub K.lim X.ws Y.ws⟩ := by
  obtain ⟨s', b, e, P⟩ := usub_spec I hx hy hz hle
  obtain ⟨c1, c2, -⟩ := Big.usub_spec K.lim X.ws Y.ws cX.1 hle hv.le (rep_fits I hx).fits
  refine ⟨s', e, ?_⟩
  have hb : b = Z.neg := by
    have h0 := e
    unfold BigSt.usub at h0
    dsimp only at h0
    rw [hx.size_eq] at h0
    obtain ⟨o, hz', -⟩ := hz
    rcases big_resize I hz'.obj X.ws.length with ⟨h1, -⟩ | ⟨h1, s1, o1, h2, R⟩
    · rw [(rep_fits I hx).fits] at h1; cases h1
    · rw [h2, ok_bind] at h0
      dsimp only at h0
      rw [if_pos rfl] at h0
      obtain ⟨a1, -, h0⟩ := ok_of_bind h0
      obtain ⟨a2, -, h0⟩ := ok_of_bind h0
      obtain ⟨a3, -, h0⟩ := ok_of_bind h0
      obtain ⟨a4, -, h0⟩ := ok_of_bind h0
      obtain ⟨h, h0⟩ : ∃ h, (s1.withHeap h).trim z X.ws.length = .ok s' := by
        split at h0
        · obtain ⟨a5, -, h0⟩ := ok_of_bind h0
          obtain ⟨a6, -, h0⟩ := ok_of_bind h0
          split at h0
          · obtain ⟨a7, -, h0⟩ := ok_of_bind h0
            obtain ⟨a8, -, h0⟩ := ok_of_bind h0
            exact ⟨_, h0⟩
          · obtain ⟨a7, -, h0⟩ := ok_of_bind h0
            obtain ⟨a8, -, h0⟩ := ok_of_bind h0
            exact ⟨_, h0⟩
        · exact ⟨_, h0⟩
      rcases trim_sign h0 with h3 | h3
      · have h4 : s'.neg z = s1.neg z := h3
        rw [P.res.neg_eq, R.sneg, hz'.neg] at h4
        exact h4
      · rw [isZero_eq P.res] at h3
        have h5 : (⟨b, Big.usub K.lim X.ws Y.ws⟩ : Big).isZero = true := by injection h3
        rw [Big.isZero_iff (x := ⟨b, Big.usub K.lim X.ws Y.ws⟩) c1, Big.toInt_zero_iff] at h5
        simp only at h5
        omega
  rw [← hb]; exact P

theorem uadd1R_true {K : Kind} {X : List Word} (h : X ≠ []) (n : Bool) :
    uadd1R K ⟨n, X⟩ X 1 = ⟨n && Cap.fits K.lim (X.length + 1), Big.uadd1 K.lim X 1⟩ := by
  have hw := uadd1R_ws K ⟨n, X⟩ X 1
  have hn : (uadd1R K ⟨n, X⟩ X 1).neg = (n && Cap.fits K.lim (X.length + 1)) := by
    unfold uadd1R
    obtain ⟨a1, a2, a3⟩ := addWord_spec X 1 h
    split
    · rename_i hf
      rw [hf, Bool.and_true, Big.trim_neg _ _ (by simp)]
      have hv : val ((addWord X 1).1 ++ [(addWord X 1).2]) ≠ 0 := by
        rw [val_append, val_singleton, a1, a2]
        have : (1 : Word).toNat = 1 := by decide
        omega
      rw [decide_eq_true hv, Bool.and_true]
    · rename_i hf
      simp only [Bool.not_eq_true] at hf
      rw [hf, Bool.and_false]; rfl
  rw [← hw, ← hn]

theorem quotRem_mem {K : Kind} {s : BigSt} {q r x y : Nat} {X Y Q W : Big} (I : Inv K s.mem) (hx : Rep s x X)
    (hy : Rep s y Y) (hq : Rep s q Q) (hr : Rep s r W) (hqr : q ≠ r) (cx : X.Canon) (cy : Y.Canon) (hy0 : Y.toInt ≠ 0) :
    ∃ s' V R, s.quotRem K q r x y = .ok s' ∧ Big.quotRem K.lim X Y = .ok (V, R) ∧ Post2 K s s' q r V R := by
  obtain ⟨s1, e1, N1⟩ := copyNew_new I hy
  have lq := hq.lt
  have lr := hr.lt
  have l1 := N1.len
  obtain ⟨s2, V, R, e2, d2, P2⟩ := divMod_mem N1.inv (N1.frame _ _ hx) N1.res (N1.frame _ _ hq) (N1.frame _ _ hr) hqr (by omega) cx cy hy0
  have hv0 : val Y.ws ≠ 0 := by rwa [ne_eq, ← Big.toInt_zero_iff]
  obtain ⟨qs, rs, eu, cq, cr, lq', lr', vq, vr⟩ := Big.udiv_spec K.lim X.ws Y.ws cx.w cy.w (rep_fits I hx).fits hv0
  unfold Big.divMod? at d2
  rw [eu] at d2
  have hlt : val rs < val Y.ws := by rw [vr]; exact Nat.mod_lt _ (by omega)
  obtain ⟨rfl, rfl⟩ : V = ⟨X.neg ^^ Y.neg, qs⟩ ∧ R = ⟨X.neg, rs⟩ := by
    have : (⟨X.neg ^^ Y.neg, qs⟩, ⟨X.neg, rs⟩) = (V, R) := by injection d2 with h; injection h
    exact ⟨(congrArg Prod.fst this).symm, (congrArg Prod.snd this).symm⟩
  have rr : Rep ((s2.setNeg r Y.neg).setNeg q (X.neg ^^ Y.neg)) r ⟨Y.neg, rs⟩ := Rep.setNeg_ne _ hqr.symm (Rep.setNeg _ P2.resr)
  have rq : Rep ((s2.setNeg r Y.neg).setNeg q (X.neg ^^ Y.neg)) q ⟨X.neg ^^ Y.neg, qs⟩ := Rep.setNeg _ (Rep.setNeg_ne _ hqr P2.resq)
  have fr : ∀ i Z, i ≠ q → i ≠ r → Rep s1 i Z → Rep ((s2.setNeg r Y.neg).setNeg q (X.neg ^^ Y.neg)) i Z := fun i Z h1 h2 h =>
    Rep.setNeg_ne _ h1 (Rep.setNeg_ne _ h2 (P2.frame i Z h1 h2 h))
  obtain ⟨s3, hs3⟩ : ∃ s3, s3 = (s2.setNeg r Y.neg).setNeg q (X.neg ^^ Y.neg) := ⟨_, rfl⟩
  have I3 : Inv K s3.mem := by rw [hs3]; exact P2.inv
  have l3 : s3.mem.objs.length = s.mem.objs.length + 1 := by rw [hs3, ← l1]; exact P2.len
  rw [← hs3] at rr rq fr
  unfold BigSt.quotRem Big.quotRem
  dsimp only
  rw [eu, e1, ok_bind, ok_bind, (N1.frame _ _ hx).neg_eq, (N1.frame _ _ hy).neg_eq, e2, ok_bind]
  dsimp only
  rw [← hs3, isZero_eq rr, ok_bind]
  by_cases hadj : (!(⟨Y.neg, rs⟩ : Big).isZero && (X.neg ^^ Y.neg)) = true
  · rw [if_pos hadj, if_pos hadj]
    obtain ⟨s4, e4, P4⟩ := uadd1_spec I3 rq rq 1
    obtain ⟨s5, e5, P5⟩ := usub_exact (z := r) P4.inv (P4.frame _ _ (by omega) (fr _ _ (by omega) (by omega) N1.res)) (P4.frame _ _ hqr.symm rr)
      (P4.frame _ _ hqr.symm rr) (cr.length_le cy.1 hlt.le) cy hlt
    have hq4 := P4.res
    rw [uadd1R_true cq.1] at hq4
    rw [e4, ok_bind, e5, ok_bind]
    have l5 : s5.mem.objs.length = s.mem.objs.length + 1 := by rw [P5.len, P4.len, l3]
    refine ⟨_, _, _, rfl, rfl, drop_inv P5.inv _, drop_rep P5.inv (P5.frame _ _ hqr hq4) lq, drop_rep P5.inv P5.res lr, ?_, drop_len (by omega)⟩
    intro i Z h1 h2 hZ
    exact drop_rep P5.inv (P5.frame _ _ h2 (P4.frame _ _ h1 (fr _ _ h1 h2 (N1.frame _ _ hZ)))) hZ.lt
  · rw [if_neg hadj, if_neg hadj]
    refine ⟨_, _, _, rfl, rfl, drop_inv I3 _, drop_rep I3 rq lq, drop_rep I3 rr lr, ?_, drop_len (by omega)⟩
    intro i Z h1 h2 hZ
    exact drop_rep I3 (fr _ _ h1 h2 (N1.frame _ _ hZ)) hZ.lt

theorem quotRemNull_mem {K : Kind} {s : BigSt} {r x y : Nat} {X Y W : Big} (I : Inv K s.mem) (hx : Rep s x X)
    (hy : Rep s y Y) (hr : Rep s r W) (cx : X.Canon) (cy : Y.Canon) (hy0 : Y.toInt ≠ 0) :
    ∃ s' V R, s.quotRemNull K r x y = .ok s' ∧ Big.quotRem K.lim X Y = .ok (V, R) ∧ Post K s s' r R := by
  obtain ⟨s1, e1, N1⟩ := copyNew_new I hy
  have lr := hr.lt
  have l1 := N1.len
  obtain ⟨s2, V, R, e2, d2, P2⟩ := mod_spec N1.inv (N1.frame _ _ hx) N1.res (N1.frame _ _ hr) cx cy hy0
  have hv0 : val Y.ws ≠ 0 := by rwa [ne_eq, ← Big.toInt_zero_iff]
  obtain ⟨qs, rs, eu, cq, cr, lq', lr', vq, vr⟩ := Big.udiv_spec K.lim X.ws Y.ws cx.w cy.w (rep_fits I hx).fits hv0
  unfold Big.divMod? at d2
  rw [eu] at d2
  have hlt : val rs < val Y.ws := by rw [vr]; exact Nat.mod_lt _ (by omega)
  obtain rfl : R = ⟨X.neg, rs⟩ := by
    have : (⟨X.neg ^^ Y.neg, qs⟩, ⟨X.neg, rs⟩) = (V, R) := by injection d2 with h; injection h
    exact (congrArg Prod.snd this).symm
  have P3 := P2.setNeg Y.neg
  unfold BigSt.quotRemNull Big.quotRem
  dsimp only
  rw [eu, e1, ok_bind, ok_bind, (N1.frame _ _ hx).neg_eq, (N1.frame _ _ hy).neg_eq, e2, ok_bind]
  dsimp only
  rw [isZero_eq P3.res, ok_bind]
  dsimp only
  have l3 := P3.len
  by_cases hadj : (!(⟨Y.neg, rs⟩ : Big).isZero && (X.neg ^^ Y.neg)) = true
  · rw [if_pos hadj, if_pos hadj]
    obtain ⟨s5, e5, P5⟩ := usub_exact (z := r) P3.inv (P3.frame _ _ (by omega) N1.res) P3.res P3.res (cr.length_le cy.1 hlt.le) cy hlt
    rw [e5, ok_bind]
    have l5 := P5.len
    refine ⟨_, _, _, rfl, rfl, drop_inv P5.inv _, drop_rep P5.inv P5.res lr, ?_, drop_len (by omega)⟩
    intro i Z h2 hZ
    exact drop_rep P5.inv (P5.frame _ _ h2 (P3.frame _ _ h2 (N1.frame _ _ hZ))) hZ.lt
  · rw [if_neg hadj, if_neg hadj]
    refine ⟨_, _, _, rfl, rfl, drop_inv P3.inv _, drop_rep P3.inv P3.res lr, ?_, drop_len (by omega)⟩
    intro i Z h2 hZ
    exact drop_rep P3.inv (P3.frame _ _ h2 (N1.frame _ _ hZ)) hZ.lt

/-! ### `jacobi` -/

/-- The part of `jacobi` after the reduction of the argument. -/
def jacobiTail (K : Kind) (fuel m n : Nat) (s : BigSt) : Res (Int × BigSt) := do
  let z ← s.isZero m
  if z then .ok (0, s)
  else
    let o ← s.isOne m
    if o then .ok (1, s)
    else
      let c := s.mem.objs.length
      let s ← s.create K 0
      let s ← s.gcd K fuel c m n
      let e ← s.eqS c 1
      let s := s.drop c
      if !e then .ok (0, s)
      else
        let s ← s.create K 0
        s.jacobiGo K m n c fuel true 1

theorem jacobiTail_mem {K : Kind} {s : BigSt} {m n fuel : Nat} {X Y : Big} (I : Inv K s.mem) (hmn : m ≠ n) (rm : Rep s m X) (rn : Rep s n Y)
    (cX : X.Canon) (cY : Y.Canon) (hX : 0 ≤ X.toInt) (hXY : X.toInt ≤ Y.toInt) (hY : 1 < Y.toInt) (oY : Y.toInt % 2 = 1) (hf : val Y.ws + 1 < fuel) :
    ∃ s', jacobiTail K fuel m n s = .ok (jacobiSym X.toInt (val Y.ws), s') ∧ Inv K s'.mem ∧
      (∀ i Z, i ≠ m → i ≠ n → Rep s i Z → Rep s' i Z) ∧ s.mem.objs.length ≤ s'.mem.objs.length := by
  unfold jacobiTail
  have f1 : Cap.fits K.lim 1 = true := rn.fits I (n := 1) rn.pos
  have nY := Big.neg_of_toInt_pos (x := Y) (by omega)
  have vY := Big.toInt_of_nonneg nY
  rw [isZero_eq rm, ok_bind]
  cases hz : X.isZero with
  | true =>
    rw [if_pos rfl]
    rw [Big.isZero_iff cX] at hz
    refine ⟨s, ?_, I, fun _ _ _ _ h => h, Nat.le_refl _⟩
    rw [hz, jacobiSym.zero_left (by omega)]
  | false =>
    rw [if_neg (by decide), isOne_eq rm, ok_bind]
    rw [← Bool.not_eq_true, Big.isZero_iff cX] at hz
    cases h1 : X.isOne with
    | true =>
      rw [if_pos rfl]
      rw [Big.isOne_iff cX] at h1
      refine ⟨s, ?_, I, fun _ _ _ _ h => h, Nat.le_refl _⟩
      rw [h1, jacobiSym.one_left]
    | false =>
      rw [if_neg (by decide)]
      rw [← Bool.not_eq_true, Big.isOne_iff cX] at h1
      have nX : X.neg = false := Big.neg_of_toInt_pos (by omega)
      have vX := Big.toInt_of_nonneg nX
      obtain ⟨s1, e1, N1⟩ := create_new I f1 0
      have rm1 := N1.frame _ _ rm
      have rn1 := N1.frame _ _ rn
      obtain ⟨s2, G, eg, e2, P2⟩ := gcd_mem (z := s.mem.objs.length) N1.inv rm1 rn1 (by rw [N1.len]; omega) cX cY fuel (le_trans (Big.gcdSteps_le _ _) (by omega))
      obtain ⟨cG, vG, gG⟩ := gcd_value fuel X Y G cX cY (rep_fits I rm) (rep_fits I rn) (le_trans (Big.gcdSteps_le _ _) (by omega)) eg
      have gG := gG hX (by omega)
      rw [Int.gcd, Big.natAbs_toInt X, Big.natAbs_toInt Y] at vG
      dsimp only
      rw [e1, ok_bind, e2, ok_bind, eqS_mem P2.res, ok_bind]
      have l3 : (s2.drop s.mem.objs.length).mem.objs.length = s.mem.objs.length := drop_len (by rw [P2.len, N1.len]; omega)
      have fr3 : ∀ i Z, Rep s i Z → Rep (s2.drop s.mem.objs.length) i Z := fun i Z hZ =>
        drop_rep P2.inv (P2.frame i Z (Nat.ne_of_lt hZ.lt) (N1.frame i Z hZ)) hZ.lt
      have I3 : Inv K (s2.drop s.mem.objs.length).mem := drop_inv P2.inv _
      cases hE : Big.eqS G 1 with
      | false =>
        rw [if_pos (by decide)]
        rw [← Bool.not_eq_true, eqS_iff cG, show (1 : BitVec 32).toInt = 1 from rfl] at hE
        refine ⟨_, ?_, I3, fun i Z _ _ hZ => fr3 i Z hZ, Nat.le_of_eq l3.symm⟩
        have : jacobiSym X.toInt (val Y.ws) = 0 := by
          haveI : NeZero (val Y.ws) := ⟨by omega⟩
          rw [jacobiSym.eq_zero_iff_not_coprime, Int.gcd, Big.natAbs_toInt X, Int.natAbs_natCast]
          omega
        rw [this]
      | true =>
        rw [if_neg (by decide)]
        rw [eqS_iff cG, show (1 : BitVec 32).toInt = 1 from rfl] at hE
        have hcop : Nat.Coprime (val X.ws) (val Y.ws) := by unfold Nat.Coprime; omega
        have oY' : val Y.ws % 2 = 1 := by omega
        have hlm := rm.lt
        have hln := rn.lt
        obtain ⟨s4, e4, N4⟩ := create_new I3 f1 0
        have r4 := N4.res
        rw [l3] at r4
        rw [e4, ok_bind]
        have hval : Big.jacobiGo K.lim fuel true X Y 1 = .ok (jacobiSym X.toInt (val Y.ws)) := by
          obtain ⟨g, rfl⟩ : ∃ g, fuel = g + 1 := ⟨fuel - 1, by omega⟩
          rw [Big.jacobiGo]
          simp only [Bool.not_true, Bool.false_eq_true, if_false, ok_bind]
          have := Big.jacobi_strip K.lim g X Y 1 cX nX (by omega) oY' ?_
          · rw [one_mul] at this
            rw [this, vX]
          · intro m2 cm2 nm2 lm2 om2 hm1 hdvd j'
            have hc2 : Nat.Coprime (val m2.ws) (val Y.ws) := Nat.Coprime.coprime_dvd_left hdvd hcop
            have hle2 := Nat.le_of_dvd (by omega) hdvd
            exact Big.jacobiGo_spec K.lim _ m2 Y j' cm2 nm2 cY nY (rep_fits I rn) (fun N hN => by have := rep_fits I rm N hN; omega)
              om2 oY' hm1 hc2 (Big.mul_mod_lt_pow (by omega) (by omega))
        obtain ⟨s5, e5, I5, fr5, l5⟩ := jacobiGo_exact hmn (Nat.ne_of_lt hlm) (Nat.ne_of_lt hln) fuel true 1 s4 X Y _ _ N4.inv
          (N4.frame _ _ (fr3 _ _ rm)) (N4.frame _ _ (fr3 _ _ rn)) r4 cX cY (fun h => by cases h) hval
        refine ⟨s5, e5, I5, fun i Z h1 h2 hZ => fr5 i Z h1 h2 (Nat.ne_of_lt hZ.lt) (N4.frame _ _ (fr3 _ _ hZ)), ?_⟩
        rw [l5, N4.len, l3]; omega

theorem jacobiBody_mem {K : Kind} {s : BigSt} {m n fuel : Nat} {X Y : Big} (I : Inv K s.mem) (hmn : m ≠ n) (rm : Rep s m X) (rn : Rep s n Y)
    (cX : X.Canon) (cY : Y.Canon) (hY : 0 < Y.toInt) (oY : Y.toInt % 2 = 1) (hf : val Y.ws + 1 < fuel) :
    ∃ s', s.jacobiBody K fuel m n = .ok (jacobiSym X.toInt (val Y.ws), s') ∧ Inv K s'.mem ∧
      (∀ i Z, i ≠ m → i ≠ n → Rep s i Z → Rep s' i Z) ∧ s.mem.objs.length ≤ s'.mem.objs.length := by
  have vY := Big.toInt_of_nonneg (Big.neg_of_toInt_pos hY)
  unfold BigSt.jacobiBody
  rw [isOne_eq rn, ok_bind]
  cases h1 : Y.isOne with
  | true =>
    rw [if_pos rfl]
    rw [Big.isOne_iff cY] at h1
    refine ⟨s, ?_, I, fun _ _ _ _ h => h, Nat.le_refl _⟩
    rw [show val Y.ws = 1 by omega, jacobiSym.one_right]
  | false =>
    rw [if_neg (by decide), ltS_mem rm, ok_bind]
    rw [← Bool.not_eq_true, Big.isOne_iff cY] at h1
    have red : (Big.ltS X 0 || Big.opGt X Y) = true → ∃ s', (do
        let s ← s.quotRemNull K m m n
        jacobiTail K fuel m n s) = .ok (jacobiSym X.toInt (val Y.ws), s') ∧ Inv K s'.mem ∧
        (∀ i Z, i ≠ m → i ≠ n → Rep s i Z → Rep s' i Z) ∧ s.mem.objs.length ≤ s'.mem.objs.length := by
      intro _
      obtain ⟨s1, V, R, e1, q1, P1⟩ := quotRemNull_mem I rm rn rm cX cY (by omega)
      obtain ⟨q, r, e, cq, cr, fq, fr, vr, nr, -⟩ := Big.quotRem_spec K.lim X Y cX cY (rep_fits I rm) (rep_fits I rn) (by omega)
      rw [q1] at e
      cases e
      rw [e1, ok_bind]
      rw [Int.fmod_eq_emod_of_nonneg _ hY.le] at vr
      obtain ⟨s', e2, I2, fr2, l2⟩ := jacobiTail_mem (fuel := fuel) P1.inv hmn P1.res (P1.frame _ _ hmn.symm rn) cr cY
        (by rw [vr]; exact Int.emod_nonneg _ (by omega)) (by rw [vr]; exact (Int.emod_lt_of_pos _ hY).le) (by omega) oY hf
      refine ⟨s', ?_, I2, fun i Z h1 h2 hZ => fr2 i Z h1 h2 (P1.frame i Z h1 hZ), by rw [← P1.len]; exact l2⟩
      rw [jacobiSym.mod_left X.toInt, ← vY, ← vr]
      exact e2
    have dir : (Big.ltS X 0 || Big.opGt X Y) = false → ∃ s', jacobiTail K fuel m n s = .ok (jacobiSym X.toInt (val Y.ws), s') ∧ Inv K s'.mem ∧
        (∀ i Z, i ≠ m → i ≠ n → Rep s i Z → Rep s' i Z) ∧ s.mem.objs.length ≤ s'.mem.objs.length := by
      intro hc
      rw [Bool.or_eq_false_iff, ← Bool.not_eq_true, ← Bool.not_eq_true, ltS_iff cX, opGt_iff cX cY, show (0 : BitVec 32).toInt = 0 from rfl] at hc
      exact jacobiTail_mem I hmn rm rn cX cY (by omega) (by omega) (by omega) oY hf
    cases hl : Big.ltS X 0 with
    | true =>
      rw [hl] at red
      exact red rfl
    | false =>
      rw [if_neg (by decide), opGt_mem rm rn, ok_bind]
      rw [hl] at red dir
      cases hg : Big.opGt X Y with
      | true => rw [hg] at red; exact red rfl
      | false => rw [hg] at dir; exact dir rfl

theorem jacobi_mem {K : Kind} {s : BigSt} {x y fuel : Nat} {X Y : Big} (I : Inv K s.mem) (rx : Rep s x X) (ry : Rep s y Y)
    (cX : X.Canon) (cY : Y.Canon) (hY : 0 < Y.toInt) (oY : Y.toInt % 2 = 1) (hf : val Y.ws + 1 < fuel) :
    ∃ s', s.jacobi K fuel x y = .ok (jacobiSym X.toInt (val Y.ws), s') ∧ Grow K s s' ∧ s'.mem.objs.length = s.mem.objs.length := by
  obtain ⟨s1, e1, N1⟩ := copyNew_new I ry
  obtain ⟨s2, e2, N2⟩ := copyNew_new N1.inv (N1.frame _ _ rx)
  obtain ⟨s3, e3, N3⟩ := copyNew_new N2.inv (N2.frame _ _ N1.res)
  have r2 := N2.res
  have r3 := N3.res
  rw [N2.len, N1.len] at r3
  rw [N1.len] at r2
  obtain ⟨s4, e4, I4, fr4, l4⟩ := jacobiBody_mem N3.inv (by omega) (N3.frame _ _ r2) r3 cX cY hY oY hf
  have hl : s.mem.objs.length ≤ s4.mem.objs.length := by
    have := N1.len; have := N2.len; have := N3.len; omega
  refine ⟨s4.drop s.mem.objs.length, ?_, ⟨drop_inv I4 _, ?_, ?_⟩, drop_len hl⟩
  · unfold BigSt.jacobi
    dsimp only
    rw [e1, ok_bind, e2, ok_bind, e3, ok_bind, e4]
    rfl
  · intro i Z hZ
    have := hZ.lt
    exact drop_rep I4 (fr4 i Z (by omega) (by omega) (N3.frame _ _ (N2.frame _ _ (N1.frame _ _ hZ)))) this
  · rw [drop_len hl]

end Ack.Mem

namespace Ack

/-! ### Uniqueness -/

/-- The digits of a non-adjacent form. -/
def Digits (l : List (BitVec 8)) : Prop := ∀ d ∈ l, d.toInt = 0 ∨ d.toInt = 1 ∨ d.toInt = -1

theorem naf_zero : ∀ {l : List (BitVec 8)}, Digits l → (l ≠ [] → (l.getLastD 0).toInt = 1) → digitsVal l = 0 → l = []
  | [], _, _, _ => rfl
  | d :: t, h1, h2, h3 => by
    exfalso
    rw [digitsVal] at h3
    have hd := h1 d (by simp)
    have hd0 : d.toInt = 0 := by omega
    have ht : digitsVal t = 0 := by omega
    cases t with
    | nil =>
      have := h2 (by simp)
      simp at this
      omega
    | cons d' t' =>
      have := naf_zero (l := d' :: t') (fun x hx => h1 x (by simp [hx])) (fun _ => by have := h2 (by simp); simpa using this) ht
      cases this

theorem naf_unique : ∀ {l l' : List (BitVec 8)}, Digits l → Digits l' → NonAdjacent l → NonAdjacent l' →
    (l ≠ [] → (l.getLastD 0).toInt = 1) → (l' ≠ [] → (l'.getLastD 0).toInt = 1) → digitsVal l = digitsVal l' → l = l'
  | [], l', _, h1, _, _, _, h2, hv => (naf_zero h1 h2 hv.symm).symm
  | d :: t, [], h1, _, _, _, h2, _, hv => by exact naf_zero h1 h2 hv
  | d :: t, d' :: t', h1, h1', h2, h2', h3, h3', hv => by
    have hd := h1 d (by simp)
    have hd' := h1' d' (by simp)
    have tail : ∀ {d : BitVec 8} {t}, Digits (d :: t) → NonAdjacent (d :: t) → ((d :: t) ≠ [] → ((d :: t).getLastD 0).toInt = 1) →
        Digits t ∧ NonAdjacent t ∧ (t ≠ [] → (t.getLastD 0).toInt = 1) ∧ (d.toInt ≠ 0 → digitsVal t % 2 = 0) := by
      intro d t a b c
      refine ⟨fun x hx => a x (by simp [hx]), ?_, ?_, ?_⟩
      · cases t with
        | nil => trivial
        | cons x t => exact b.2
      · intro ht
        have := c (by simp)
        cases t with
        | nil => exact absurd rfl ht
        | cons x t => simpa using this
      · intro hd
        cases t with
        | nil => rfl
        | cons x t =>
          rcases b.1 with h | h
          · rw [h] at hd; exact absurd rfl hd
          · rw [h, digitsVal]
            have : (0 : BitVec 8).toInt = 0 := by decide
            omega
    obtain ⟨a1, a2, a3, a4⟩ := tail h1 h2 h3
    obtain ⟨b1, b2, b3, b4⟩ := tail h1' h2' h3'
    rw [digitsVal, digitsVal] at hv
    have he : d.toInt = d'.toInt := by
      rcases hd with h | h | h <;> rcases hd' with h' | h' | h' <;> omega
    rw [BitVec.eq_of_toInt_eq he, naf_unique a1 b1 a2 b2 a3 b3 (by omega)]

end Ack

namespace Ack.Mem
open Big (Byte)
open Ack.Spec.Prog

/-! ### Questions -/

theorem natAbs_of {X : Big} {a : Int} (h : X.toInt = a) : val X.ws = a.natAbs := by rw [← h, Big.natAbs_toInt]

theorem bits_of {X : Big} (c : X.Canon) {a : Int} (h : X.toInt = a) : X.bitLength = max 1 a.natAbs.size := by
  rw [Big.bitLength_spec c, h, natAbs_of h]
  split
  · rename_i h0; rw [h0]; rfl
  · have : 0 < a.natAbs.size := Nat.size_pos.2 (by omega)
    omega

theorem toNaf_mem {K : Kind} {s : BigSt} {x : Nat} {X : Big} (I : Inv K s.mem) (h : Rep s x X) (c : X.Canon) (h0 : 0 ≤ X.toInt)
    (hr : Cap.fits K.lim (X.ws.length + 1) = true) :
    ∃ s' l, s.toNaf K x = .ok (l, s') ∧ Grow K s s' ∧ s'.mem.objs.length = s.mem.objs.length ∧
      digitsVal l = X.toInt ∧ NonAdjacent l ∧ Digits l ∧ (l ≠ [] → (l.getLastD 0).toInt = 1) := by
  have f1 : Cap.fits K.lim 1 = true := h.fits I (n := 1) h.pos
  obtain ⟨s1, e1, N1⟩ := copyNew_new I h
  have hs : Same X ⟨false, X.ws⟩ := by
    refine ⟨rfl, ?_⟩
    by_cases hv : val X.ws = 0
    · right; exact Big.canonW_val_zero c.w hv
    · left
      rw [Big.neg_of_toInt_pos]
      have := (Big.toInt_zero_iff X).not.2 hv
      omega
  have hv : X.toInt = val X.ws := by
    have := natAbs_of (X := X) rfl
    omega
  have hn := nafGo_exact (n := s.mem.objs.length) f1 (X.bitLength + 2) s1 ⟨false, X.ws⟩ X N1.inv N1.res hs
  obtain ⟨l, el, v1, v2, v3, -, v4, -⟩ := Big.nafGo_spec K.lim X.ws.length hr X.bitLength (X.bitLength + 2) ⟨false, X.ws⟩ c rfl (Nat.le_refl _)
    (Big.lt_two_pow_bitLength c).le (Nat.le_refl _)
  rw [el] at hn
  obtain ⟨s2, e2, I2, k2, l2⟩ := hn
  have hl : s.mem.objs.length ≤ s2.mem.objs.length := by rw [l2, N1.len]; omega
  refine ⟨_, l, ?_, ⟨drop_inv I2 _, fun i Y hY => drop_rep I2 (k2 i Y (Nat.ne_of_lt hY.lt) (N1.frame i Y hY)) hY.lt,
    Nat.le_of_eq (drop_len hl).symm⟩, drop_len hl, by rw [v1, hv], v2, fun d hd => ?_, fun hne => (congrArg BitVec.toInt (v4 hne)).trans rfl⟩
  · unfold BigSt.toNaf
    rw [bitLength_eq h, ok_bind]
    dsimp only
    rw [e1, ok_bind, e2]
    rfl
  · rcases v3 d hd with rfl | rfl | rfl <;> decide

theorem Holds.grow {K : Kind} {s s' : BigSt} {e : Env} (H : Holds K s e) (g : Grow K s s') (hl : s'.mem.objs.length = s.mem.objs.length) :
    Holds K s' e :=
  ⟨g.inv, by rw [hl, H.len], fun i a h => by
    obtain ⟨X, h1, h2, h3⟩ := H.get i a h
    exact ⟨X, g.keep _ _ h1, h2, h3⟩⟩

theorem bool_eq {b : Bool} {p : Prop} [Decidable p] (h : b = true ↔ p) : b = decide p := by
  by_cases hp : p
  · rw [decide_eq_true hp]; exact h.2 hp
  · rw [decide_eq_false hp, ← Bool.not_eq_true]; exact fun hb => hp (h.1 hb)

theorem ask_one {K : Kind} {e : Env} {q : Query} {v : Ans} (h : Answer e q v) (hr : RoomA K.lim e q) :
    ∃ F, ∀ s, Holds K s e → ∀ fuel, F ≤ fuel → ∃ s', q.exec K fuel s = .ok (v, s') ∧ Holds K s' e := by
  have one : ∀ {x : Nat} {a : Int}, look e x = some a → ∀ s, Holds K s e → ∃ X, Rep s x X ∧ X.Canon ∧ X.toInt = a :=
    fun h s H => H.get _ _ (look_some.1 h)
  cases h with
  | @isZero x a ha =>
    refine ⟨0, fun s H fuel _ => ⟨s, ?_, H⟩⟩
    obtain ⟨X, x1, x2, x3⟩ := one ha s H
    rw [Query.exec, isZero_eq x1, bool_eq (Big.isZero_iff x2), x3]; rfl
  | @isOne x a ha =>
    refine ⟨0, fun s H fuel _ => ⟨s, ?_, H⟩⟩
    obtain ⟨X, x1, x2, x3⟩ := one ha s H
    rw [Query.exec, isOne_eq x1, bool_eq (Big.isOne_iff x2), x3]; rfl
  | @isNegative x a ha =>
    refine ⟨0, fun s H fuel _ => ⟨s, ?_, H⟩⟩
    obtain ⟨X, x1, x2, x3⟩ := one ha s H
    rw [Query.exec, isNegative_mem x1, bool_eq (Big.isNegative_iff x2), x3]; rfl
  | @isOdd x a ha =>
    refine ⟨0, fun s H fuel _ => ⟨s, ?_, H⟩⟩
    obtain ⟨X, x1, x2, x3⟩ := one ha s H
    rw [Query.exec, isOdd_mem x1, bool_eq (Big.isOdd_iff X), x3]; rfl
  | @isEven x a ha =>
    refine ⟨0, fun s H fuel _ => ⟨s, ?_, H⟩⟩
    obtain ⟨X, x1, x2, x3⟩ := one ha s H
    have hb : (!X.isOdd) = decide (a % 2 = 0) := bool_eq (by rw [Bool.not_eq_true', ← Bool.not_eq_true, Big.isOdd_iff, x3]; omega)
    rw [Query.exec, isOdd_mem x1, ← hb]; rfl
  | @eq x y a b ha hb =>
    refine ⟨0, fun s H fuel _ => ⟨s, ?_, H⟩⟩
    obtain ⟨X, x1, x2, x3⟩ := one ha s H
    obtain ⟨Y, y1, y2, y3⟩ := one hb s H
    rw [Query.exec, opEq_mem x1 y1, bool_eq (opEq_iff x2 y2), x3, y3]; rfl
  | @ne x y a b ha hb =>
    refine ⟨0, fun s H fuel _ => ⟨s, ?_, H⟩⟩
    obtain ⟨X, x1, x2, x3⟩ := one ha s H
    obtain ⟨Y, y1, y2, y3⟩ := one hb s H
    have hb : (!Big.opEq X Y) = decide (a ≠ b) := bool_eq (by rw [Bool.not_eq_true', ← Bool.not_eq_true, opEq_iff x2 y2, x3, y3])
    rw [Query.exec, opEq_mem x1 y1, ← hb]; rfl
  | @lt x y a b ha hb =>
    refine ⟨0, fun s H fuel _ => ⟨s, ?_, H⟩⟩
    obtain ⟨X, x1, x2, x3⟩ := one ha s H
    obtain ⟨Y, y1, y2, y3⟩ := one hb s H
    rw [Query.exec, opLt_mem x1 y1, bool_eq (opLt_iff x2 y2), x3, y3]; rfl
  | @le x y a b ha hb =>
    refine ⟨0, fun s H fuel _ => ⟨s, ?_, H⟩⟩
    obtain ⟨X, x1, x2, x3⟩ := one ha s H
    obtain ⟨Y, y1, y2, y3⟩ := one hb s H
    have hb : (!Big.opGt X Y) = decide (a ≤ b) := bool_eq (by rw [Bool.not_eq_true', ← Bool.not_eq_true, opGt_iff x2 y2, x3, y3]; omega)
    rw [Query.exec, opGt_mem x1 y1, ← hb]; rfl
  | @gt x y a b ha hb =>
    refine ⟨0, fun s H fuel _ => ⟨s, ?_, H⟩⟩
    obtain ⟨X, x1, x2, x3⟩ := one ha s H
    obtain ⟨Y, y1, y2, y3⟩ := one hb s H
    rw [Query.exec, opGt_mem x1 y1, bool_eq (opGt_iff x2 y2), x3, y3]; rfl
  | @ge x y a b ha hb =>
    refine ⟨0, fun s H fuel _ => ⟨s, ?_, H⟩⟩
    obtain ⟨X, x1, x2, x3⟩ := one ha s H
    obtain ⟨Y, y1, y2, y3⟩ := one hb s H
    rw [Query.exec, opGe_mem x1 y1, bool_eq (opGe_iff x2 y2), x3, y3]; rfl
  | @eqInt x a k ha =>
    refine ⟨0, fun s H fuel _ => ⟨s, ?_, H⟩⟩
    obtain ⟨X, x1, x2, x3⟩ := one ha s H
    rw [Query.exec, eqS_mem x1, bool_eq (eqS_iff x2 k), x3]; rfl
  | @ltInt x a k ha =>
    refine ⟨0, fun s H fuel _ => ⟨s, ?_, H⟩⟩
    obtain ⟨X, x1, x2, x3⟩ := one ha s H
    rw [Query.exec, ltS_mem x1, bool_eq (ltS_iff x2 k), x3]; rfl
  | @gtInt x a k ha =>
    refine ⟨0, fun s H fuel _ => ⟨s, ?_, H⟩⟩
    obtain ⟨X, x1, x2, x3⟩ := one ha s H
    rw [Query.exec, gtS_mem x1, bool_eq (gtS_iff x2 k), x3]; rfl
  | @bitLength x a ha =>
    refine ⟨0, fun s H fuel _ => ⟨s, ?_, H⟩⟩
    obtain ⟨X, x1, x2, x3⟩ := one ha s H
    rw [Query.exec, bitLength_eq x1, bits_of x2 x3]; rfl
  | @byteLength x a ha =>
    refine ⟨0, fun s H fuel _ => ⟨s, ?_, H⟩⟩
    obtain ⟨X, x1, x2, x3⟩ := one ha s H
    rw [Query.exec, byteLength_eq x1, Big.byteLength, bits_of x2 x3]; rfl
  | @testBit x i a ha =>
    refine ⟨0, fun s H fuel _ => ⟨s, ?_, H⟩⟩
    obtain ⟨X, x1, x2, x3⟩ := one ha s H
    rw [Query.exec, testBit_eq x1, Big.testBit_spec, natAbs_of x3]; rfl
  | @toBytes x a l ha hv hl =>
    refine ⟨0, fun s H fuel _ => ⟨s, ?_, H⟩⟩
    obtain ⟨X, x1, x2, x3⟩ := one ha s H
    obtain ⟨t1, t2⟩ := Big.toBytes_spec x2
    have : X.toBytes = l := beVal_inj (by rw [t1, hl, Big.byteLength, bits_of x2 x3]) (by rw [t2, hv, natAbs_of x3])
    rw [Query.exec, toBytes_eq x1 x2, this]; rfl
  | @toNaf x a l ha h0 hv hn hd ht =>
    refine ⟨0, fun s H fuel _ => ?_⟩
    obtain ⟨X, x1, x2, x3⟩ := one ha s H
    have hroom := hr a ha
    rw [← x3, ← words_eq x2] at hroom
    obtain ⟨s', l', e1, g, hl, v1, v2, v3, v4⟩ := toNaf_mem H.inv x1 x2 (by omega) (lim_fits' _ _ hroom)
    have : l' = l := naf_unique v3 hd v2 hn v4 ht (by rw [v1, hv, x3])
    subst this
    exact ⟨s', by rw [Query.exec, e1]; rfl, H.grow g hl⟩
  | @jacobi x y a b ha hb hb0 hb1 =>
    refine ⟨b.natAbs + 2, fun s H fuel hf => ?_⟩
    obtain ⟨X, x1, x2, x3⟩ := one ha s H
    obtain ⟨Y, y1, y2, y3⟩ := one hb s H
    rw [← natAbs_of y3] at hf
    obtain ⟨s', e1, g, hl⟩ := jacobi_mem (fuel := fuel) H.inv x1 y1 x2 y2 (by omega) (by omega) (by omega)
    refine ⟨s', ?_, H.grow g hl⟩
    rw [Query.exec, e1, x3, natAbs_of y3]; rfl

/-! ### Programs -/

theorem Holds.post2 {K s e s' q r Q R} (H : Holds K s e) (P : Post2 K s s' q r Q R) (hqr : q ≠ r) (cq : Q.Canon) (cr : R.Canon) {a b : Int}
    (ha : Q.toInt = a) (hb : R.toInt = b) : Holds K s' (put (put e q a) r b) := by
  unfold put
  refine ⟨P.inv, by rw [P.len, H.len, List.length_set, List.length_set], ?_⟩
  intro i c hc
  by_cases h2 : i = r
  · subst h2
    rw [List.getElem?_set] at hc
    split at hc
    · split at hc
      · cases hc; exact ⟨R, P.resr, cr, hb⟩
      · cases hc
    · rename_i h; exact absurd rfl h
  · rw [List.getElem?_set_ne (Ne.symm h2)] at hc
    by_cases h1 : i = q
    · subst h1
      rw [List.getElem?_set] at hc
      split at hc
      · split at hc
        · cases hc; exact ⟨Q, P.resq, cq, ha⟩
        · cases hc
      · rename_i h; exact absurd rfl h
    · rw [List.getElem?_set_ne (Ne.symm h1)] at hc
      obtain ⟨X, x1, x2, x3⟩ := H.get i c hc
      exact ⟨X, P.frame i X h1 h2 x1, x2, x3⟩

theorem Holds.new {K s e s' R} (H : Holds K s e) (N : New K s s' R) (c : R.Canon) {a : Int} (ha : R.toInt = a) : Holds K s' (e ++ [some a]) := by
  refine ⟨N.inv, by rw [N.len, H.len]; simp, fun i b hb => ?_⟩
  rw [List.getElem?_append] at hb
  split at hb
  · obtain ⟨X, x1, x2, x3⟩ := H.get i b hb
    exact ⟨X, N.frame _ _ x1, x2, x3⟩
  · rename_i hi
    rw [List.getElem?_singleton] at hb
    split at hb
    · cases hb
      have : i = s.mem.objs.length := by rw [H.len]; omega
      rw [this]
      exact ⟨R, N.res, c, ha⟩
    · cases hb

theorem opp_of {X Y : Big} {a b : Int} (hx : X.toInt = a) (hy : Y.toInt = b) (h : X.neg ≠ Y.neg) (ha : a ≠ 0) (hb : b ≠ 0) : OppSigns a b := by
  unfold OppSigns
  rw [← hx, ← hy] at *
  unfold Big.toInt at *
  cases hX : X.neg <;> cases hY : Y.neg <;> simp only [hX, hY, ne_eq, not_true_eq_false] at h ha hb ⊢ <;> simp at ha hb ⊢ <;> omega

theorem fitsBytes_of {K : Kind} {d : List Byte} (h : Spec.Prog.fits K.lim (max 1 ((d.length + 3) / 4))) :
    Cap.fits K.lim 1 = true ∧ Ack.FitsBytes K.lim d := by
  refine ⟨lim_fits' _ _ fun N hN => ?_, fun M hM => ?_⟩
  · have := h N hN; omega
  · have := h M hM; omega

theorem qexec_spec {K : Kind} {N : Option Nat} (hN : N = if K.dyn then some K.N else none) {e e' : Env} {p : List QStmt} {l : List Ans}
    (h : QRuns K.lim N e p e' l) :
    ∃ F, ∀ s, Holds K s e → ∀ fuel, F ≤ fuel → ∃ s', qexec K fuel s p = .ok (s', l) ∧ Holds K s' e' := by
  induction h with
  | nil e => exact ⟨0, fun s H _ _ => ⟨s, rfl, H⟩⟩
  | @run e e1 e' c p l st hr hs hi _ ih =>
    obtain ⟨F, hF⟩ := execN_one c st hr hs (fun hd => hi _ (by rw [hN, hd]; rfl))
    obtain ⟨F', hF'⟩ := ih
    refine ⟨max F F', fun s H fuel hf => ?_⟩
    obtain ⟨s1, e1, H1⟩ := hF s H fuel (by omega)
    obtain ⟨s2, e2, H2⟩ := hF' s1 H1 fuel (by omega)
    exact ⟨s2, by rw [qexec, e1, ok_bind, e2], H2⟩
  | @ofBytes e e' d p l hf _ ih =>
    obtain ⟨F', hF'⟩ := ih
    refine ⟨F', fun s H fuel hfu => ?_⟩
    obtain ⟨f1, fb⟩ := fitsBytes_of hf
    obtain ⟨-, R, eR, cR, vR⟩ | ⟨h, -⟩ := Ack.ofBytes_fits K.lim d f1
    · have hx := ofBytes_exact H.inv f1 d
      rw [eR] at hx
      obtain ⟨s1, e1, N1⟩ := hx
      obtain ⟨s2, e2, H2⟩ := hF' s1 (H.new N1 cR vR) fuel hfu
      exact ⟨s2, by rw [qexec, e1, ok_bind, e2], H2⟩
    · exact absurd fb h
  | @quotRem e e' q r x y a b p l ha hb hq hr hqr hb0 hroom _ ih =>
    obtain ⟨F', hF'⟩ := ih
    refine ⟨F', fun s H fuel hfu => ?_⟩
    obtain ⟨X, x1, x2, x3⟩ := H.get x a (look_some.1 ha)
    obtain ⟨Y, y1, y2, y3⟩ := H.get y b (look_some.1 hb)
    obtain ⟨Q, q1, q2⟩ := H.target hq
    obtain ⟨R, r1, r2⟩ := H.target hr
    obtain ⟨s1, V, W, e1, v1, P1⟩ := quotRem_mem H.inv x1 y1 q1 r1 hqr x2 y2 (by omega)
    obtain ⟨V', W', d, e, cq, cr, -, -, vr, nr, cd, vd, -, hcase⟩ := Big.quotRem_exact K.lim X Y x2 y2 (H.fitsX x1) (H.fitsX y1) (by omega)
    rw [v1] at e
    cases e
    rw [x3, y3] at vr vd hcase
    have vq : V.toInt = a.fdiv b := by
      rcases hcase with ⟨⟨h1, h2, h3⟩, -⟩ | ⟨-, h⟩
      · have hopp : OppSigns a b := opp_of x3 y3 h2 (fun h => h1 (by rw [h, Int.zero_fmod])) hb0
        have := hroom hopp h1
        rw [← vd, ← words_eq cd] at this
        rw [lim_fits' _ _ this] at h3
        cases h3
      · exact h
    obtain ⟨s2, e2, H2⟩ := hF' s1 (H.post2 P1 hqr cq cr vq vr) fuel hfu
    exact ⟨s2, by rw [qexec, e1, ok_bind, e2], H2⟩
  | @rem e e' r x y a b p l ha hb hr hb0 _ ih =>
    obtain ⟨F', hF'⟩ := ih
    refine ⟨F', fun s H fuel hfu => ?_⟩
    obtain ⟨X, x1, x2, x3⟩ := H.get x a (look_some.1 ha)
    obtain ⟨Y, y1, y2, y3⟩ := H.get y b (look_some.1 hb)
    obtain ⟨R, r1, r2⟩ := H.target hr
    obtain ⟨s1, V, W, e1, v1, P1⟩ := quotRemNull_mem H.inv x1 y1 r1 x2 y2 (by omega)
    obtain ⟨V', W', d, e, cq, cr, -, -, vr, nr, cd, vd, -, hcase⟩ := Big.quotRem_exact K.lim X Y x2 y2 (H.fitsX x1) (H.fitsX y1) (by omega)
    rw [v1] at e
    cases e
    rw [x3, y3] at vr
    obtain ⟨s2, e2, H2⟩ := hF' s1 (H.post P1 cr vr) fuel hfu
    exact ⟨s2, by rw [qexec, e1, ok_bind, e2], H2⟩
  | @ask e e' q v p l ha hr _ ih =>
    obtain ⟨F, hF⟩ := ask_one ha hr
    obtain ⟨F', hF'⟩ := ih
    refine ⟨max F F', fun s H fuel hf => ?_⟩
    obtain ⟨s1, e1, H1⟩ := hF s H fuel (by omega)
    obtain ⟨s2, e2, H2⟩ := hF' s1 H1 fuel (by omega)
    refine ⟨s2, ?_, H2⟩
    rw [qexec, e1, ok_bind]
    dsimp only
    rw [e2]
    rfl

theorem divMod_zero {K : Kind} {s : BigSt} {q r x y : Nat} {X Y Q : Big} (I : Inv K s.mem) (hx : Rep s x X)
    (hy : Rep s y Y) (hq : Rep s q Q) (hqr : q ≠ r) (hqy : q ≠ y) (cy : Y.Canon) (hy0 : Y.toInt = 0) :
    s.divMod K q r x y = .error .abort := by
  have hX := hx
  have hpx := hx.pos
  have hY := hy
  have e0 := Big.canonW_val_zero cy.w ((Big.toInt_zero_iff Y).1 hy0)
  have hyl : Y.ws.length = 1 := by rw [e0]; rfl
  unfold BigSt.divMod
  rw [check_true (by simp [hqr, hqy]), ok_bind]
  dsimp only
  rw [hx.size_eq, hy.size_eq, if_neg (by omega)]
  obtain ⟨o, hq, lq⟩ := hq
  rcases big_resize I hq.obj (X.ws.length - Y.ws.length + 1) with ⟨h1, h2⟩ | ⟨h1, s1, o1, h2, R⟩
  · rw [hX.fits I (by omega)] at h1; cases h1
  · obtain ⟨rx, hx, _⟩ := R.hold I hq.obj (by omega) hX
    obtain ⟨ry, hy, _⟩ := R.hold I hq.obj (by omega) hY
    rw [h2, ok_bind]
    dsimp only
    rw [if_pos rfl, hx.elem, ok_bind, readN_spec _ _ hx.has, ok_bind, elem_ok R.obj (by rw [R.osize]; omega), ok_bind,
        add_zero, hy.elem, ok_bind, readN_spec _ _ hy.has, ok_bind, e0]
    rfl

theorem stop_one {K : Kind} {e : Env} {c : QStmt} (h : QStops K.lim e c) (fuel : Nat) (s : BigSt) (H : Holds K s e) (p : List QStmt) :
    qexec K fuel s (c :: p) = .error .abort := by
  cases h with
  | @ofBytes d h1 h2 =>
    have f1 := lim_fits' _ _ h1
    obtain ⟨h, -⟩ | ⟨-, eR⟩ := Ack.ofBytes_fits K.lim d f1
    · exact absurd (fun N hN => by have := h N hN; omega) h2
    · have hx := ofBytes_exact H.inv f1 d
      rw [eR] at hx
      rw [qexec, show s.ofBytes K d = .error .abort from hx]; rfl
  | @quotRem q r x y a ha hb hq hr hqr =>
    obtain ⟨X, x1, x2, x3⟩ := H.get x a (look_some.1 ha)
    obtain ⟨Y, y1, y2, y3⟩ := H.get y 0 (look_some.1 hb)
    obtain ⟨Q, q1, q2⟩ := H.target hq
    obtain ⟨s1, e1, N1⟩ := copyNew_new H.inv y1
    have := q1.lt
    rw [qexec]
    unfold BigSt.quotRem
    dsimp only
    rw [e1, ok_bind, divMod_zero N1.inv (N1.frame _ _ x1) N1.res (N1.frame _ _ q1) hqr (by omega) y2 y3]
    rfl
  | @rem r x y a ha hb hr =>
    obtain ⟨X, x1, x2, x3⟩ := H.get x a (look_some.1 ha)
    obtain ⟨Y, y1, y2, y3⟩ := H.get y 0 (look_some.1 hb)
    obtain ⟨s1, e1, N1⟩ := copyNew_new H.inv y1
    rw [qexec]
    unfold BigSt.quotRemNull
    dsimp only
    rw [e1, ok_bind, mod_zero (N1.frame _ _ x1) N1.res y2 y3]
    rfl

theorem qexec_append {K : Kind} {fuel : Nat} : ∀ {p q : List QStmt} {s s' : BigSt} {l : List Ans}, qexec K fuel s p = .ok (s', l) →
    qexec K fuel s (p ++ q) = (qexec K fuel s' q).map (fun r => (r.1, l ++ r.2))
  | [], q, s, s', l, h => by
    cases h
    show qexec K fuel s q = _
    cases qexec K fuel s q <;> rfl
  | .run c :: p, q, s, s', l, h => by
    rw [qexec] at h
    obtain ⟨s1, e1, h⟩ := ok_of_bind h
    rw [List.cons_append, qexec, e1, ok_bind, qexec_append h]
  | .ofBytes d :: p, q, s, s', l, h => by
    rw [qexec] at h
    obtain ⟨s1, e1, h⟩ := ok_of_bind h
    rw [List.cons_append, qexec, e1, ok_bind, qexec_append h]
  | .quotRem _ _ _ _ :: p, q, s, s', l, h => by
    rw [qexec] at h
    obtain ⟨s1, e1, h⟩ := ok_of_bind h
    rw [List.cons_append, qexec, e1, ok_bind, qexec_append h]
  | .rem _ _ _ :: p, q, s, s', l, h => by
    rw [qexec] at h
    obtain ⟨s1, e1, h⟩ := ok_of_bind h
    rw [List.cons_append, qexec, e1, ok_bind, qexec_append h]
  | .ask c :: p, q, s, s', l, h => by
    rw [qexec] at h
    obtain ⟨⟨a, s1⟩, e1, h⟩ := ok_of_bind h
    obtain ⟨⟨s2, l2⟩, e2, h⟩ := ok_of_bind h
    cases h
    rw [List.cons_append, qexec, e1, ok_bind]
    dsimp only
    rw [qexec_append e2]
    cases qexec K fuel s' q <;> rfl

end Ack.Mem
