import Verif.Model.AliasNT
import Verif.Proof.AliasProg
import Verif.Spec.ProgNT
/-! # Number-theoretic functions on memory: proofs -/
namespace Ack.Mem
open Spec (Good Bad)

/-- A new object at the end of the list. -/
structure New (K : Kind) (s s' : BigSt) (R : Big) : Prop where
  inv : Inv K s'.mem
  res : Rep s' s.mem.objs.length R
  frame : ∀ i X, Rep s i X → Rep s' i X
  len : s'.mem.objs.length = s.mem.objs.length + 1

theorem create_new {K : Kind} {s : BigSt} (I : Inv K s.mem) (hf : Cap.fits K.lim 1 = true) (w : Word) :
    ∃ s', s.create K w = .ok s' ∧ New K s s' ⟨false, [w]⟩ := by
  rcases step_spec I .create with ⟨m, out, e1, I', g⟩ | ⟨_, _, b⟩
  · have ha : Mem.abs m = Mem.abs s.mem ++ [[]] := g.1
    have hlen : m.objs.length = s.mem.objs.length + 1 := by
      rw [← abs_length, ha, List.length_append, abs_length]; rfl
    obtain ⟨o, ho⟩ : ∃ o, m.objs[s.mem.objs.length]? = some o := ⟨_, List.getElem?_eq_getElem (by omega)⟩
    obtain ⟨s', e2, P⟩ := assignWord_new (s := { s with mem := m }) I' ho hf w
    refine ⟨s', ?_, P.inv, P.res, ?_, ?_⟩
    · unfold BigSt.create; dsimp only; rw [e1, ok_bind]; exact e2
    · intro i X hX
      refine P.frame i X (Nat.ne_of_lt hX.lt) (rep_of I I' hX rfl rfl ?_)
      show (Mem.abs m)[i]? = _
      rw [ha, List.getElem?_append_left (by rw [abs_length]; exact hX.lt)]
    · rw [P.len]; exact hlen
  · exact b.elim

theorem copyNew_new {K : Kind} {s : BigSt} {x : Nat} {X : Big} (I : Inv K s.mem) (hx : Rep s x X) :
    ∃ s', s.copyNew K x = .ok s' ∧ New K s s' X := by
  obtain ⟨-, -, -, buf, hb, -⟩ := (rep_abs I x X).1 hx
  rcases step_spec I (.copyNew x) with ⟨m, out, e1, I', g⟩ | ⟨_, _, b⟩
  · have ha := g.1 buf hb
    refine ⟨_, by unfold BigSt.copyNew; dsimp only; rw [e1, ok_bind], I', ?_, ?_, ?_⟩
    · refine rep_of I I' hx (upd_same _ _ _) (upd_same _ _ _) ?_
      show (Mem.abs m)[_]? = _
      rw [ha, ← abs_length, List.getElem?_append_right (Nat.le_refl _), Nat.sub_self, hb]; rfl
    · intro i Z hZ
      have hi := Nat.ne_of_lt hZ.lt
      refine rep_of I I' hZ (upd_ne _ _ _ _ hi) (upd_ne _ _ _ _ hi) ?_
      show (Mem.abs m)[_]? = _
      rw [ha, List.getElem?_append_left (by rw [abs_length]; exact hZ.lt)]
    · show m.objs.length = _
      rw [← abs_length, ha, List.length_append, abs_length]; rfl
  · exact b.elim

theorem drop_inv {K : Kind} {s : BigSt} (I : Inv K s.mem) (n : Nat) : Inv K (s.drop n).mem := I.take n

theorem drop_rep {K : Kind} {s : BigSt} (I : Inv K s.mem) {n i : Nat} {X : Big} (h : Rep s i X) (hi : i < n) :
    Rep (s.drop n) i X := by
  refine rep_of I (drop_inv I n) h rfl rfl ?_
  show (Mem.abs ⟨s.mem.heap, s.mem.objs.take n⟩)[i]? = _
  rw [abs_take, List.getElem?_take, if_pos hi]

theorem drop_len {s : BigSt} {n : Nat} (h : n ≤ s.mem.objs.length) : (s.drop n).mem.objs.length = n := by
  show (s.mem.objs.take n).length = n
  rw [List.length_take]; omega

theorem head_getD (ws : List Word) (h : 0 < ws.length) : ws[0] = ws.headD 0 := by
  cases ws with
  | nil => simp at h
  | cons a t => rfl

theorem isZero_eq {s : BigSt} {x : Nat} {X : Big} (h : Rep s x X) : s.isZero x = .ok X.isZero := by
  obtain ⟨o, H, hl⟩ := h
  have hp := List.length_pos_iff.2 H.ne
  unfold BigSt.isZero
  rw [load_ok H.obj H.pos H.has hp, ok_bind, H.size]
  unfold Big.isZero
  congr 3
  exact head_getD X.ws hp

theorem isOne_eq {s : BigSt} {x : Nat} {X : Big} (h : Rep s x X) : s.isOne x = .ok X.isOne := by
  obtain ⟨o, H, hl⟩ := h
  have hp := List.length_pos_iff.2 H.ne
  unfold BigSt.isOne
  rw [load_ok H.obj H.pos H.has hp, ok_bind, H.size, H.neg]
  unfold Big.isOne
  congr 3
  exact head_getD X.ws hp

/-- Two result objects. -/
structure Post2 (K : Kind) (s s' : BigSt) (q r : Nat) (Q R : Big) : Prop where
  inv : Inv K s'.mem
  resq : Rep s' q Q
  resr : Rep s' r R
  frame : ∀ i X, i ≠ q → i ≠ r → Rep s i X → Rep s' i X
  len : s'.mem.objs.length = s.mem.objs.length

theorem divMod_mem {K : Kind} {s : BigSt} {q r x y : Nat} {X Y Q W : Big} (I : Inv K s.mem) (hx : Rep s x X)
    (hy : Rep s y Y) (hq : Rep s q Q) (hr : Rep s r W) (hqr : q ≠ r) (hqy : q ≠ y) (cx : X.Canon) (cy : Y.Canon)
    (hy0 : Y.toInt ≠ 0) :
    ∃ s' V R, s.divMod K q r x y = .ok (s', true) ∧ Big.divMod? K.lim X Y = .ok (some (V, R)) ∧ Post2 K s s' q r V R := by
  have hX := hx
  have hY := hy
  have hQ := hq
  have hpx := hx.pos
  have hpy := hy.pos
  have hv0 : val Y.ws ≠ 0 := by rwa [ne_eq, ← Big.toInt_zero_iff]
  unfold BigSt.divMod Big.divMod? Big.udiv
  rw [check_true (by simp [hqr, hqy]), ok_bind]
  dsimp only
  rw [hx.size_eq, hy.size_eq, hx.neg_eq, hy.neg_eq]
  by_cases hlt : X.ws.length < Y.ws.length
  · rw [if_pos hlt, if_pos hlt, ok_bind]
    obtain ⟨s1, e, hs, hn, P⟩ := assignBuf_post I hx hr.lt
    obtain ⟨o', H, hl⟩ := (P X.neg).res
    have ht := trim_spec (s := s1) (z := r) (o := o') (ws := X.ws) H.obj H.has hl H.ne
    rw [e, ok_bind, ht, ok_bind]
    obtain ⟨b, hb⟩ : ∃ b, Big.trim (s1.neg r) X.ws = ⟨b, X.ws⟩ := by
      have h := Big.trim_canon_eq (s1.neg r) X cx
      generalize Big.trim (s1.neg r) X.ws = T at h
      obtain ⟨n, w⟩ := T
      exact ⟨n, by rw [← h]⟩
    rw [hb]
    have P1 := P b
    obtain ⟨s2, e2, P2⟩ := clear_spec' P1.inv (P1.frame q Q hqr hQ)
    rw [e2, ok_bind, Big.trim_canon_eq _ X cx]
    refine ⟨_, _, _, rfl, rfl, P2.inv, ?_, ?_, ?_, ?_⟩
    · exact Rep.setNeg _ (Rep.setNeg_ne _ hqr P2.res)
    · have h := Rep.setNeg_ne (X.neg ^^ Y.neg) hqr.symm (Rep.setNeg X.neg (P2.frame r _ hqr.symm P1.res))
      exact h
    · intro i Z h1 h2 hZ
      exact Rep.setNeg_ne _ h1 (Rep.setNeg_ne _ h2 (P2.frame i Z h1 (P1.frame i Z h2 hZ)))
    · exact P2.len.trans P1.len
  · rw [if_neg hlt, if_neg hlt]
    obtain ⟨o, hq, lq⟩ := hq
    obtain ⟨qs, rs, hd, hql, hrne, hrl, -, -⟩ := divArr_spec X.ws Y.ws cx.1 cy.1 hv0 (Big.CanonW.top cy.w) (by omega)
    have hrp := List.length_pos_iff.2 hrne
    obtain ⟨qn, hqn⟩ : ∃ qn, qn = X.ws.length - Y.ws.length + 1 := ⟨_, rfl⟩
    rw [← hqn] at hd hql ⊢
    rw [hX.fits I (n := qn) (by omega), if_pos rfl, hd, ok_bind]
    dsimp only
    rw [hX.fits I hrl, if_pos rfl, ok_bind]
    rcases big_resize I hq.obj qn with ⟨h1, h2⟩ | ⟨h1, s1, o1, h2, R⟩
    · rw [hX.fits I (by omega)] at h1; cases h1
    · obtain ⟨rx, hx, _⟩ := R.hold I hq.obj (by omega) hX
      obtain ⟨ry, hy, _⟩ := R.hold I hq.obj (by omega) hY
      obtain ⟨f1, f2⟩ := R.finish qs hql (by omega)
      have P1 := f2 (Big.trim (s1.neg q) qs).neg
      obtain ⟨t, ht⟩ : ∃ t, t = (s1.withHeap (s1.mem.heap.store o1.data qs)).set q (Big.trim (s1.neg q) qs) := ⟨_, rfl⟩
      change Post K s ((s1.withHeap (s1.mem.heap.store o1.data qs)).set q (Big.trim (s1.neg q) qs)) q _ at P1
      rw [← ht] at P1 f1
      obtain ⟨or', hr', lr'⟩ := P1.frame r W hqr.symm hr
      rcases big_resize P1.inv hr'.obj rs.length with ⟨g1, g2⟩ | ⟨g1, s2, o2, g2, R2⟩
      · rw [hX.fits I hrl] at g1; cases g1
      · obtain ⟨f3, f4⟩ := R2.finish rs rfl hrp
        have P2 := f4 (Big.trim (s2.neg r) rs).neg
        change Post K t ((s2.withHeap (s2.mem.heap.store o2.data rs)).set r (Big.trim (s2.neg r) rs)) r _ at P2
        refine ⟨(((s2.withHeap (s2.mem.heap.store o2.data rs)).set r (Big.trim (s2.neg r) rs)).setNeg r X.neg).setNeg q (X.neg ^^ Y.neg),
          _, _, ?_, rfl, P2.inv, ?_, ?_, ?_, ?_⟩
        · rw [h2, ok_bind]
          dsimp only
          rw [if_pos rfl, hx.elem, ok_bind, readN_spec _ _ hx.has, ok_bind, elem_ok R.obj (by rw [R.osize]; omega), ok_bind,
            add_zero, hy.elem, ok_bind, readN_spec _ _ hy.has, ok_bind, hd, ok_bind]
          dsimp only
          rw [writeN_spec _ _ _ (by rw [hql]; exact R.room), ok_bind, f1, ok_bind, g2, ok_bind]
          dsimp only
          rw [if_pos rfl, elem_ok R2.obj (by rw [R2.osize]; omega), ok_bind, add_zero, writeN_spec _ _ _ R2.room, ok_bind, f3,
            ok_bind]
        · have h := Rep.setNeg (X.neg ^^ Y.neg) (Rep.setNeg_ne X.neg hqr (P2.frame q _ hqr P1.res))
          exact h
        · have h := Rep.setNeg_ne (X.neg ^^ Y.neg) hqr.symm (Rep.setNeg X.neg P2.res)
          exact h
        · intro i Z h3 h4 hZ
          exact Rep.setNeg_ne _ h3 (Rep.setNeg_ne _ h4 (P2.frame i Z h4 (P1.frame i Z h3 hZ)))
        · exact P2.len.trans P1.len

/-- `a -= b * q` without undefined behaviour. -/
theorem subMul_spec {K : Kind} {s : BigSt} {a b q : Nat} {A B Q : Big} (I : Inv K s.mem) (ha : Rep s a A) (hb : Rep s b B)
    (hq : Rep s q Q) (hN : K.dyn = true → max A.ws.length (Big.mul K.lim B Q).ws.length ≤ K.N) :
    ∃ s', s.subMul K a b q = .ok s' ∧ Post K s s' a (Big.sub K.lim A (Big.mul K.lim B Q)) := by
  obtain ⟨s1, e1, N1⟩ := create_new I (ha.fits I (n := 1) ha.pos) 0
  have hab := Nat.ne_of_lt ha.lt
  have hbb := Nat.ne_of_lt hb.lt
  have hqb := Nat.ne_of_lt hq.lt
  obtain ⟨s2, f, e2, P2⟩ : ∃ s2 f, s1.mul K s.mem.objs.length b q = .ok (s2, f) ∧
      Post K s1 s2 s.mem.objs.length (Big.mul K.lim B Q) := by
    have h := mul_fresh N1.inv (N1.frame b B hb) (N1.frame q Q hq) N1.res hbb.symm hqb.symm
    unfold Big.mul
    cases hm : Big.mul? K.lim B Q with
    | none =>
      rw [hm] at h
      exact ⟨s1, false, h, N1.inv, N1.res, fun _ _ _ h => h, rfl⟩
    | some P =>
      rw [hm] at h
      obtain ⟨s2, e, P2⟩ := h
      exact ⟨s2, true, e, P2⟩
  have hA := P2.frame a A hab (N1.frame a A ha)
  obtain ⟨s3, e3, P3⟩ := sub_spec P2.inv hA P2.res hA (fun _ _ => roomy_of P2.inv (fun h => by have := hN h; omega) _)
  have hl : s3.mem.objs.length = s.mem.objs.length + 1 := by rw [P3.len, P2.len, N1.len]
  refine ⟨s3.drop s.mem.objs.length, ?_, drop_inv P3.inv _, drop_rep P3.inv P3.res ha.lt, ?_, drop_len (by omega)⟩
  · unfold BigSt.subMul
    dsimp only
    rw [e1, ok_bind, e2, ok_bind]
    dsimp only
    rw [e3, ok_bind]
  · intro i X hi hX
    exact drop_rep P3.inv (P3.frame i X hi (P2.frame i X (Nat.ne_of_lt hX.lt) (N1.frame i X hX))) hX.lt

theorem modinvRet_spec {K : Kind} {s : BigSt} {y b m : Nat} {B M : Big} (I : Inv K s.mem) (hb : Rep s b B) (hm : Rep s m M)
    (hy : y < s.mem.objs.length) (hM : M.neg = false) :
    ∃ s', s.modinvRet K y b m = .ok (s', true) ∧ Inv K s'.mem ∧ Rep s' y (if B.neg then Big.add K.lim B M else B) ∧
      (∀ i X, i ≠ y → i ≠ b → Rep s i X → Rep s' i X) ∧ s'.mem.objs.length = s.mem.objs.length := by
  unfold BigSt.modinvRet
  rw [hb.neg_eq]
  cases hn : B.neg with
  | false =>
    simp only [Bool.false_eq_true, if_false, pure_bind]
    obtain ⟨s', e, P⟩ := assign_new I hb hy
    rw [e, ok_bind]
    exact ⟨s', rfl, P.inv, P.res, fun i X h1 _ hX => P.frame i X h1 hX, P.len⟩
  | true =>
    simp only [if_true]
    obtain ⟨s1, e1, P1⟩ := add_spec I hb hm hb (fun h => by rw [hn, hM] at h; cases h)
    obtain ⟨s', e, P⟩ := assign_new P1.inv P1.res (z := y) (by rw [P1.len]; exact hy)
    rw [e1, ok_bind, e, ok_bind]
    exact ⟨s', rfl, P.inv, P.res, fun i X h1 h2 hX => P.frame i X h1 (P1.frame i X h2 hX), P.len.trans P1.len⟩

section
variable {K : Kind} {x M : Big} {L : Nat} (hL : Cap.fits K.lim (L + 1) = true) (cm : M.Canon) (hmL : M.ws.length ≤ L)
  (fm : Big.Fits K.lim M) (hm1 : 1 < M.toInt) (hN : K.dyn = true → M.ws.length ≤ K.N)
include hL cm hmL fm hm1 hN

/-- The operands of `a -= b * q` stay within the words of the modulus. -/
theorem step_room {a b q : Big} (ca : a.Canon) (cb : b.Canon) (cq : q.Canon) (ha : |a.toInt| ≤ M.toInt) (hb : b.ws.length ≤ L)
    (hbq : |b.toInt * q.toInt| ≤ M.toInt) (hK : K.dyn = true) : max a.ws.length (Big.mul K.lim b q).ws.length ≤ K.N := by
  have h1 := Big.length_le_of_le ca cm ha (hN hK)
  have hfit : Cap.fits K.lim (b.ws.length + q.ws.length) = true := by
    unfold Kind.lim; rw [hK]; rfl
  rcases Big.mul?_spec K.lim b q cb cq with ⟨z, e, cz, fz, vz, -, -⟩ | ⟨e, hf⟩
  · have hz : Big.mul K.lim b q = z := by unfold Big.mul; rw [e]; rfl
    rw [hz]
    have := Big.length_le_of_le cz cm (by rw [vz]; exact hbq) (hN hK)
    omega
  · rw [hf] at hfit; cases hfit

theorem modinvLoop_spec {y m n : Nat} (hy : y < n) (hmn : m < n) : ∀ (f : Nat) (s : BigSt) (A B S T Q : Big), Inv K s.mem →
    s.mem.objs.length = n + 5 → Rep s n A → Rep s (n + 1) T → Rep s (n + 2) Q → Rep s (n + 3) S → Rep s (n + 4) B →
    Rep s m M → Big.Inv K.lim x M L A B S T → T.toInt < S.toInt → val S.ws < 2 ^ f →
    ∃ s' o, Big.modinvGo K.lim M f A B S T = .ok o ∧ BigSt.modinvLoop K y m n f s = .ok (s', o.isSome) ∧ Inv K s'.mem ∧
      s'.mem.objs.length = n + 5 ∧ (∀ i X, i < n → (o.isSome = true → i ≠ y) → Rep s i X → Rep s' i X) ∧
      ∀ z, o = some z → Rep s' y z := by
  intro f
  induction f with
  | zero =>
    intro s A B S T Q _ _ _ _ _ _ _ _ h _ h0
    have h1 := Big.abs_toInt S
    rw [abs_of_pos h.s0] at h1
    have := h.s0
    simp at h0
    omega
  | succ f ih =>
    intro s A B S T Q I len ra rt rq rs rb rm h hts hf
    have hMn : M.neg = false := Big.neg_of_toInt_pos (by omega)
    rw [Big.modinvGo, BigSt.modinvLoop]
    obtain ⟨s1, V, R, e1, d1, P1⟩ := divMod_mem I rs rt rq rs (by omega) (by omega) h.cs h.ct (by have := h.t0; omega)
    obtain ⟨q, r, e, cq, cr, fq, fr, q0, r0, rlt, es, lq, lr⟩ := Big.divMod_pos K.lim S T h.cs h.ct h.fs h.s0.le h.t0
    rw [d1] at e
    cases e
    rw [e1, ok_bind, d1, Big.obind_some]
    dsimp only
    simp only [Bool.not_true, Bool.false_eq_true, if_false]
    rw [isZero_eq P1.resr, ok_bind]
    have rt1 := P1.frame (n + 1) T (by omega) (by omega) rt
    have ra1 := P1.frame n A (by omega) (by omega) ra
    have rb1 := P1.frame (n + 4) B (by omega) (by omega) rb
    have rm1 := P1.frame m M (by omega) (by omega) rm
    by_cases hz : R.isZero = true
    · rw [hz]
      simp only [if_true]
      rw [isOne_eq rt1, ok_bind]
      by_cases ht : T.isOne = true
      · rw [ht]
        simp only [Bool.not_true, Bool.false_eq_true, if_false]
        obtain ⟨s2, e2, I2, r2, f2, l2⟩ := modinvRet_spec P1.inv rb1 rm1 (y := y) (by rw [P1.len]; omega) hMn
        refine ⟨s2, _, rfl, e2, I2, by rw [l2, P1.len, len], ?_, ?_⟩
        · intro i X hi hiy hX
          exact f2 i X (hiy rfl) (by omega) (P1.frame i X (by omega) (by omega) hX)
        · intro z hz; cases hz; exact r2
      · have ht : T.isOne = false := by simpa using ht
        rw [ht]
        simp only [Bool.not_false, if_true]
        refine ⟨s1, none, rfl, rfl, P1.inv, by rw [P1.len, len], ?_, fun z hz => by cases hz⟩
        intro i X hi _ hX
        exact P1.frame i X (by omega) (by omega) hX
    · have hz' : R.isZero = false := by simpa using hz
      rw [hz']
      simp only [Bool.false_eq_true, if_false]
      rw [Big.isZero_iff cr] at hz
      have h1 := h.step1 hL cm hmL cq cr fr q0 (by omega) es lq lr
      obtain ⟨b1, b2, b3, b4⟩ := h.absb
      have hbq : |B.toInt * V.toInt| ≤ M.toInt := by
        have hqs : V.toInt ≤ S.toInt := by have := h.t0; nlinarith
        rw [abs_mul, abs_of_nonpos h.b0, abs_of_nonneg q0]
        exact le_trans (mul_le_mul_of_nonneg_left hqs (by have := h.b0; omega)) b1
      have hroom := step_room hL cm hmL fm hm1 hN h.ca h.cb cq (by rw [abs_of_pos h.a0]; exact b4)
        (Big.length_le_of_le h.cb cm (by rw [abs_of_nonpos h.b0]; exact b2) hmL) hbq
      obtain ⟨s2, e2, P2⟩ := subMul_spec P1.inv ra1 rb1 P1.resq hroom
      rw [e2, ok_bind]
      have rt2 := P2.frame (n + 1) T (by omega) rt1
      have rr2 := P2.frame (n + 3) R (by omega) P1.resr
      have rq2 := P2.frame (n + 2) V (by omega) P1.resq
      have rb2 := P2.frame (n + 4) B (by omega) rb1
      have rm2 := P2.frame m M (by omega) rm1
      generalize hA' : Big.sub K.lim A (Big.mul K.lim B V) = A' at *
      obtain ⟨s3, V2, R2, e3, d2, P3⟩ := divMod_mem P2.inv rt2 rr2 rq2 rt2 (by omega) (by omega) h.ct cr (by omega)
      obtain ⟨q2, r2, e, cq2, cr2, fq2, fr2, q20, r20, rlt2, es2, lq2, lr2⟩ :=
        Big.divMod_pos K.lim T R h.ct cr h.ft h.t0.le (by omega)
      rw [d2] at e
      cases e
      rw [e3, ok_bind, d2, Big.obind_some]
      dsimp only
      simp only [Bool.not_true, Bool.false_eq_true, if_false]
      rw [isZero_eq P3.resr, ok_bind]
      have ra3 := P3.frame n A' (by omega) (by omega) P2.res
      have rr3 := P3.frame (n + 3) R (by omega) (by omega) rr2
      have rb3 := P3.frame (n + 4) B (by omega) (by omega) rb2
      have rm3 := P3.frame m M (by omega) (by omega) rm2
      have l3 : s3.mem.objs.length = n + 5 := by rw [P3.len, P2.len, P1.len, len]
      have fr3 : ∀ i X, i < n → Rep s i X → Rep s3 i X := fun i X hi hX =>
        P3.frame i X (by omega) (by omega) (P2.frame i X (by omega) (P1.frame i X (by omega) (by omega) hX))
      by_cases hz2 : R2.isZero = true
      · rw [hz2]
        simp only [if_true]
        rw [isOne_eq rr3, ok_bind]
        by_cases ht : R.isOne = true
        · rw [ht]
          simp only [Bool.not_true, Bool.false_eq_true, if_false]
          obtain ⟨s4, e4, I4, r4, f4, l4⟩ := modinvRet_spec P3.inv ra3 rm3 (y := y) (by omega) hMn
          refine ⟨s4, _, rfl, e4, I4, by rw [l4, l3], ?_, ?_⟩
          · intro i X hi hiy hX
            exact f4 i X (hiy rfl) (by omega) (fr3 i X hi hX)
          · intro z hz; cases hz; exact r4
        · have ht : R.isOne = false := by simpa using ht
          rw [ht]
          simp only [Bool.not_false, if_true]
          exact ⟨s3, none, rfl, rfl, P3.inv, l3, fun i X hi _ hX => fr3 i X hi hX, fun z hz => by cases hz⟩
      · have hz2' : R2.isZero = false := by simpa using hz2
        rw [hz2']
        simp only [Bool.false_eq_true, if_false]
        rw [Big.isZero_iff cr2] at hz2
        have h2 := h1.step2 hL cm hmL cq2 cr2 fr2 q20 (by omega) es2 lq2 lr2
        obtain ⟨c1, c2, c3, c4⟩ := h1.absb
        have hbq2 : |A'.toInt * V2.toInt| ≤ M.toInt := by
          have hqs : V2.toInt ≤ T.toInt := by have := h1.s0; nlinarith
          rw [abs_mul, abs_of_pos h1.a0, abs_of_nonneg q20]
          exact le_trans (mul_le_mul_of_nonneg_left hqs h1.a0.le) c3
        have hroom2 := step_room hL cm hmL fm hm1 hN h.cb h1.ca cq2 (by rw [abs_of_nonpos h.b0]; exact b2)
          (Big.length_le_of_le h1.ca cm (by rw [abs_of_pos h1.a0]; exact c4) hmL) hbq2
        obtain ⟨s4, e4, P4⟩ := subMul_spec P3.inv rb3 ra3 P3.resq hroom2
        rw [e4, ok_bind]
        have hv : val R.ws < 2 ^ f := by
          have h3 := Big.abs_toInt R
          have h4 := Big.abs_toInt S
          rw [abs_of_pos h.s0] at h4
          rw [abs_of_pos h1.s0] at h3
          rw [Nat.pow_succ] at hf
          have h5 : 1 ≤ V.toInt := by
            by_contra hq
            have : V.toInt = 0 := by omega
            rw [this] at es
            omega
          have h6 : T.toInt * 1 ≤ T.toInt * V.toInt := mul_le_mul_of_nonneg_left h5 h.t0.le
          omega
        obtain ⟨s', o, g1, g2, g3, g4, g5, g6⟩ := ih s4 A' _ R R2 V2 P4.inv (by rw [P4.len, l3])
          (P4.frame n A' (by omega) ra3) (P4.frame _ _ (by omega) P3.resr) (P4.frame _ _ (by omega) P3.resq)
          (P4.frame _ _ (by omega) rr3) P4.res (P4.frame _ _ (by omega) rm3) h2 rlt2 hv
        refine ⟨s', o, g1, g2, g3, g4, ?_, g6⟩
        intro i X hi hiy hX
        exact g5 i X hi hiy (P4.frame i X (by omega) (fr3 i X hi hX))

/-- `modinv` on memory. -/
theorem modinv_mem {s : BigSt} {y x' m : Nat} {X : Big} (I : Inv K s.mem) (rx : Rep s x' X) (rm : Rep s m M)
    (hy : y < s.mem.objs.length) (cx : X.Canon) (hx : 0 ≤ X.toInt) (hxL : X.ws.length ≤ L) (fuel : Nat) (hf : val X.ws < 2 ^ fuel) :
    ∃ s' b, s.modinv K fuel y x' m = .ok (s', b) ∧ Inv K s'.mem ∧ s'.mem.objs.length = s.mem.objs.length ∧
      (∀ i Z, i ≠ y → Rep s i Z → Rep s' i Z) ∧ (b = true ↔ Int.gcd X.toInt M.toInt = 1) ∧
      (b = true → ∃ Z, Rep s' y Z ∧ Z.Canon ∧ 0 < Z.toInt ∧ Z.toInt < M.toInt ∧ Z.toInt * X.toInt ≡ 1 [ZMOD M.toInt]) := by
  have fx : Big.Fits K.lim X := by
    have := rx.fits I (Nat.le_refl _)
    intro N hN
    rw [hN] at this
    unfold Cap.fits at this
    simpa using this
  have hf1 : Cap.fits K.lim 1 = true := rx.fits I (n := 1) rx.pos
  have hmz : M.isZero = false := by
    rw [← Bool.not_eq_true, Big.isZero_iff cm]; omega
  have hmo : M.isOne = false := by
    rw [← Bool.not_eq_true, Big.isOne_iff cm]; omega
  have hobj : ∃ o, s.mem.objs[y]? = some o := ⟨_, List.getElem?_eq_getElem hy⟩
  obtain ⟨oy, hoy⟩ := hobj
  unfold BigSt.modinv
  rw [isZero_eq rm, ok_bind, hmz, check_true (by rfl), ok_bind, isZero_eq rx, ok_bind]
  by_cases hx0 : X.isZero = true
  · rw [hx0]
    simp only [if_true]
    obtain ⟨s1, e1, P1⟩ := assignWord_new I hoy hf1 0
    rw [e1, ok_bind]
    have hone : s1.isOne m = .ok false := by
      by_cases e : m = y
      · subst e; rw [isOne_eq P1.res]; rfl
      · rw [isOne_eq (P1.frame m M e rm), hmo]
    rw [hone, ok_bind]
    rw [Big.isZero_iff cx] at hx0
    refine ⟨s1, false, rfl, P1.inv, P1.len, P1.frame, ?_, fun h => by cases h⟩
    rw [hx0]
    simp
    omega
  · have hx0' : X.isZero = false := by simpa using hx0
    rw [hx0']
    simp only [Bool.false_eq_true, if_false]
    rw [Big.isZero_iff cx] at hx0
    rw [isOne_eq rx, ok_bind]
    by_cases hx1 : X.isOne = true
    · rw [hx1]
      simp only [if_true]
      rw [isOne_eq rm, ok_bind, hmo]
      simp only [Bool.false_eq_true, if_false]
      obtain ⟨s1, e1, P1⟩ := assignWord_new I hoy hf1 1
      rw [e1, ok_bind]
      rw [Big.isOne_iff cx] at hx1
      refine ⟨s1, true, rfl, P1.inv, P1.len, P1.frame, by rw [hx1]; simp, fun _ => ⟨_, P1.res, Big.canonW_single _, ?_, ?_, ?_⟩⟩
      · decide
      · exact hm1
      · rw [hx1]; exact rfl
    · have hx1' : X.isOne = false := by simpa using hx1
      rw [hx1']
      simp only [Bool.false_eq_true, if_false]
      rw [Big.isOne_iff cx] at hx1
      obtain ⟨n, hn⟩ : ∃ n, n = s.mem.objs.length := ⟨_, rfl⟩
      rw [← hn] at hy ⊢
      have hmn : m < n := by rw [hn]; exact rm.lt
      have hxn : x' < n := by rw [hn]; exact rx.lt
      obtain ⟨s1, e1, N1⟩ := create_new I hf1 1
      obtain ⟨s2, e2, N2⟩ := create_new N1.inv hf1 0
      obtain ⟨s3, e3, N3⟩ := create_new N2.inv hf1 0
      have l1 : s1.mem.objs.length = n + 1 := by rw [N1.len, ← hn]
      have l2 : s2.mem.objs.length = n + 2 := by rw [N2.len, l1]
      have l3 : s3.mem.objs.length = n + 3 := by rw [N3.len, l2]
      have r0 := N3.frame _ _ (N2.frame _ _ N1.res)
      have r1 := N3.frame _ _ N2.res
      have r2 := N3.res
      rw [← hn] at r0
      rw [l1] at r1
      rw [l2] at r2
      have fr3 : ∀ i Z, Rep s i Z → Rep s3 i Z := fun i Z h => N3.frame _ _ (N2.frame _ _ (N1.frame _ _ h))
      obtain ⟨s4, V, R, e4, d4, P4⟩ := divMod_mem N3.inv (fr3 _ _ rm) (fr3 _ _ rx) r2 r1 (by omega) (by omega) cm cx (by omega)
      obtain ⟨q, r, e, cq, cr, fq, fr, q0, rr0, rlt, es, lq, lr⟩ := Big.divMod_pos K.lim M X cm cx fm (by omega) (by omega)
      rw [d4] at e
      cases e
      rw [e1, ok_bind, e2, ok_bind, e3, ok_bind, e4, ok_bind]
      dsimp only
      simp only [Bool.not_true, Bool.false_eq_true, if_false]
      rw [isZero_eq P4.resr, ok_bind]
      have fr4 : ∀ i Z, Rep s i Z → Rep s4 i Z := fun i Z h =>
        P4.frame _ _ (by have := h.lt; omega) (by have := h.lt; omega) (fr3 _ _ h)
      have l4 : s4.mem.objs.length = n + 3 := by rw [P4.len, l3]
      by_cases hz : R.isZero = true
      · rw [hz]
        simp only [if_true]
        rw [Big.isZero_iff cr] at hz
        refine ⟨s4.drop n, false, rfl, drop_inv P4.inv _, drop_len (by omega), ?_, ?_, fun h => by cases h⟩
        · intro i Z _ hZ
          exact drop_rep P4.inv (fr4 i Z hZ) (by rw [hn]; exact hZ.lt)
        · simp only [Bool.false_eq_true, false_iff]
          rw [es, hz, _root_.add_zero]
          simp
          omega
      · have hz' : R.isZero = false := by simpa using hz
        rw [hz']
        simp only [Bool.false_eq_true, if_false]
        rw [Big.isZero_iff cr] at hz
        obtain ⟨s5, e5, N5⟩ := copyNew_new P4.inv (fr4 _ _ rx)
        obtain ⟨s6, e6, N6⟩ := create_new N5.inv hf1 0
        have l5 : s5.mem.objs.length = n + 4 := by rw [N5.len, l4]
        have l6 : s6.mem.objs.length = n + 5 := by rw [N6.len, l5]
        have r5 := N6.frame _ _ N5.res
        rw [l4] at r5
        have r6 := N6.res
        rw [l5] at r6
        have fr6 : ∀ i Z, Rep s4 i Z → Rep s6 i Z := fun i Z h => N6.frame _ _ (N5.frame _ _ h)
        obtain ⟨s7, e7, P7⟩ := negate_spec N6.inv (fr6 _ _ P4.resq) r6
        rw [e5, ok_bind, e6, ok_bind, e7, ok_bind]
        have hnq : (Big.negate V).toInt = -V.toInt := by
          unfold Big.negate Big.toInt; cases V.neg <;> simp
        have hBI : Big.Inv K.lim X M L ⟨false, [1]⟩ (Big.negate V) X R := {
          ca := Big.canonW_single _, cb := cq, cs := cx, ct := cr, fa := Big.one_fits cx fx rfl, fb := fq, fs := fx, ft := fr
          sK := hxL, tK := le_trans lr hmL
          a0 := by decide
          b0 := by rw [hnq]; omega
          s0 := by omega, t0 := by omega
          sum := by rw [hnq, es, show (Big.toInt ⟨false, [1]⟩) = 1 from rfl]; ring
          as := by rw [show (Big.toInt ⟨false, [1]⟩) = 1 from rfl, one_mul]
          bt := by
            rw [hnq]
            have : R.toInt = -V.toInt * X.toInt + M.toInt * 1 := by rw [es]; ring
            rw [this]
            exact Int.modEq_iff_dvd.2 ⟨-1, by ring⟩
          gcd := by rw [es, add_comm, Int.gcd_add_mul_left_right] }
        have ne4 : ∀ i, i < n + 4 → i ≠ n + 4 := fun i h => by omega
        obtain ⟨s8, o, g1, g2, g3, g4, g5, g6⟩ := modinvLoop_spec hL cm hmL fm hm1 hN hy hmn fuel s7 _ _ _ _ _ P7.inv
          (by rw [P7.len, l6]) (P7.frame n _ (by omega) (fr6 _ _ (P4.frame n _ (by omega) (by omega) r0)))
          (P7.frame (n + 1) _ (by omega) (fr6 _ _ P4.resr)) (P7.frame (n + 2) _ (by omega) (fr6 _ _ P4.resq))
          (P7.frame (n + 3) _ (by omega) r5) P7.res (P7.frame m _ (by omega) (fr6 _ _ (fr4 _ _ rm))) hBI rlt hf
        rw [g2, ok_bind]
        have fr8 : ∀ i Z, i ≠ y → Rep s i Z → Rep (s8.drop n) i Z := fun i Z hi hZ => by
          have hlt : i < n := by rw [hn]; exact hZ.lt
          exact drop_rep g3 (g5 i Z hlt (fun _ => hi) (P7.frame i Z (by omega) (fr6 _ _ (fr4 _ _ hZ)))) hlt
        refine ⟨s8.drop n, o.isSome, rfl, drop_inv g3 _, drop_len (by omega), fr8, ?_⟩
        rcases Big.modinvGo_spec hL cm hmL fm hm1 fuel _ _ _ _ hBI rlt hf with ⟨h1, h2⟩ | ⟨z, h1, h2, cz, fz, z0, zlt, hz1⟩
        · rw [g1] at h1
          cases h1
          exact ⟨by simp [h2], fun h => by cases h⟩
        · rw [g1] at h1
          cases h1
          exact ⟨by simp [h2], fun _ => ⟨z, drop_rep g3 (g6 z rfl) hy, cz, z0, zlt, hz1⟩⟩

end

/-! ### gcd and lcm -/

theorem rep_fits {K : Kind} {s : BigSt} {i : Nat} {X : Big} (I : Inv K s.mem) (h : Rep s i X) : Big.Fits K.lim X := by
  have := h.fits I (Nat.le_refl _)
  intro N hN
  rw [hN] at this
  unfold Cap.fits at this
  simpa using this

theorem gcdLoop_spec {K : Kind} {z n : Nat} (hz : z < n) : ∀ (f : Nat) (s : BigSt) (X Y T : Big), Inv K s.mem →
    s.mem.objs.length = n + 3 → Rep s n X → Rep s (n + 1) Y → Rep s (n + 2) T → X.Canon → Y.Canon →
    Big.gcdSteps (val X.ws) (val Y.ws) ≤ f →
    ∃ s' G, Big.gcdGo K.lim f X Y = .ok G ∧ BigSt.gcdLoop K z n f s = .ok s' ∧ Inv K s'.mem ∧ s'.mem.objs.length = n + 3 ∧
      Rep s' z G ∧ ∀ i Z, i < n → i ≠ z → Rep s i Z → Rep s' i Z := by
  intro f
  induction f with
  | zero => intro s X Y T _ _ _ _ _ _ _ h; have := Big.one_le_gcdSteps (val X.ws) (val Y.ws); omega
  | succ f ih =>
    intro s X Y T I len rx ry rt cx cy hf
    rw [Big.gcdGo, BigSt.gcdLoop, isZero_eq ry, ok_bind]
    by_cases h0 : Y.isZero = true
    · rw [h0]
      simp only [if_true]
      obtain ⟨s1, e1, P1⟩ := assign_new I rx (z := z) (by omega)
      exact ⟨s1, X, rfl, e1, P1.inv, by rw [P1.len, len], P1.res, fun i Z _ hi hZ => P1.frame i Z hi hZ⟩
    · have h0' : Y.isZero = false := by simpa using h0
      rw [h0']
      simp only [Bool.false_eq_true, if_false]
      rw [Big.isZero_iff cy] at h0
      obtain ⟨s1, e1, P1⟩ := assign_spec I rx rt
      obtain ⟨s2, e2, P2⟩ := assign_spec P1.inv (P1.frame (n + 1) Y (by omega) ry) (P1.frame n X (by omega) rx)
      have ry2 := P2.frame (n + 1) Y (by omega) (P1.frame (n + 1) Y (by omega) ry)
      have rt2 := P2.frame (n + 2) X (by omega) P1.res
      obtain ⟨s3, V, R, e3, d3, P3⟩ := mod_spec P2.inv rt2 ry2 ry2 cx cy h0
      obtain ⟨q, r, e, cq, cr, fq, fr, vq, vr, -⟩ := Big.divMod?_spec K.lim X Y cx cy (rep_fits I rx) h0
      rw [d3] at e
      cases e
      rw [e1, ok_bind, e2, ok_bind, e3, ok_bind, d3, ok_bind]
      dsimp only
      have hv : Big.gcdSteps (val Y.ws) (val R.ws) ≤ f := by
        have hrv : val R.ws = val X.ws % val Y.ws := by
          rw [← Big.natAbs_toInt, vr, Int.natAbs_tmod, Big.natAbs_toInt, Big.natAbs_toInt]
        rw [Big.gcdSteps_pos (by rw [Big.toInt_zero_iff] at h0; exact h0), ← hrv] at hf
        omega
      obtain ⟨s', G, g1, g2, g3, g4, g5, g6⟩ := ih s3 Y R X P3.inv (by rw [P3.len, P2.len, P1.len, len])
        (P3.frame n Y (by omega) P2.res) P3.res (P3.frame _ _ (by omega) rt2) cy cr hv
      refine ⟨s', G, g1, g2, g3, g4, g5, ?_⟩
      intro i Z hi hz hZ
      exact g6 i Z hi hz (P3.frame i Z (by omega) (P2.frame i Z (by omega) (P1.frame i Z (by omega) hZ)))

/-- `gcd` on memory; `z` may be one of the operands. -/
theorem gcd_mem {K : Kind} {s : BigSt} {z x y : Nat} {X Y : Big} (I : Inv K s.mem) (rx : Rep s x X) (ry : Rep s y Y)
    (hz : z < s.mem.objs.length) (cx : X.Canon) (cy : Y.Canon) (fuel : Nat) (hf : Big.gcdSteps (val X.ws) (val Y.ws) ≤ fuel) :
    ∃ s' G, Big.gcdGo K.lim fuel X Y = .ok G ∧ s.gcd K fuel z x y = .ok s' ∧ Post K s s' z G := by
  have hf1 : Cap.fits K.lim 1 = true := rx.fits I (n := 1) rx.pos
  obtain ⟨n, hn⟩ : ∃ n, n = s.mem.objs.length := ⟨_, rfl⟩
  obtain ⟨s1, e1, N1⟩ := copyNew_new I rx
  obtain ⟨s2, e2, N2⟩ := copyNew_new N1.inv (N1.frame _ _ ry)
  obtain ⟨s3, e3, N3⟩ := create_new N2.inv hf1 0
  have l1 : s1.mem.objs.length = n + 1 := by rw [N1.len, ← hn]
  have l2 : s2.mem.objs.length = n + 2 := by rw [N2.len, l1]
  have l3 : s3.mem.objs.length = n + 3 := by rw [N3.len, l2]
  have r0 := N3.frame _ _ (N2.frame _ _ N1.res)
  have r1 := N3.frame _ _ N2.res
  have r2 := N3.res
  rw [← hn] at r0
  rw [l1] at r1
  rw [l2] at r2
  obtain ⟨s4, G, g1, g2, g3, g4, g5, g6⟩ := gcdLoop_spec (z := z) (n := n) (by omega) fuel s3 X Y _ N3.inv l3 r0 r1 r2 cx cy hf
  unfold BigSt.gcd
  dsimp only
  rw [e1, ok_bind, e2, ok_bind, e3, ok_bind, ← hn, g2, ok_bind]
  refine ⟨_, G, g1, rfl, drop_inv g3 _, drop_rep g3 g5 (by omega), ?_, ?_⟩
  · intro i Z hi hZ
    have := hZ.lt
    exact drop_rep g3 (g6 i Z (by omega) hi (N3.frame _ _ (N2.frame _ _ (N1.frame _ _ hZ)))) (by omega)
  · rw [drop_len (by omega), hn]

theorem moveAssign_rep {K : Kind} {s : BigSt} {z x : Nat} {X : Big} (I : Inv K s.mem) (hx : Rep s x X)
    (hz : z < s.mem.objs.length) (hzx : z ≠ x) :
    ∃ s', s.moveAssign K z x = .ok s' ∧ Inv K s'.mem ∧ Rep s' z X ∧ (∀ i Z, i ≠ z → i ≠ x → Rep s i Z → Rep s' i Z) ∧
      s'.mem.objs.length = s.mem.objs.length := by
  unfold BigSt.moveAssign
  rw [if_neg hzx]
  obtain ⟨-, -, -, buf, hb, -⟩ := (rep_abs I x X).1 hx
  have hzo : z < (Mem.abs s.mem).length := by rw [abs_length]; exact hz
  rcases step_spec I (.moveAssign z x) with ⟨m, out, e1, I', g⟩ | ⟨_, _, b⟩
  · have ha := g.1 buf hzo hb hzx
    have hne : ∀ i, i ≠ x → (Mem.abs m)[i]? = ((Mem.abs s.mem).set z buf)[i]? := by
      intro i hi
      rw [ha]
      split
      · rw [List.getElem?_set, if_neg (Ne.symm hi)]
      · rfl
    refine ⟨_, by rw [e1, ok_bind], I', ?_, ?_, ?_⟩
    · refine rep_of I I' hx (upd_same _ _ _) (upd_same _ _ _) ?_
      show (Mem.abs m)[_]? = _
      rw [hne _ hzx, List.getElem?_set, if_pos rfl, if_pos hzo, hb]
    · intro i Z h1 h2 hZ
      refine rep_of I I' hZ (upd_ne _ _ _ _ h1) (upd_ne _ _ _ _ h1) ?_
      show (Mem.abs m)[_]? = _
      rw [hne _ h2, List.getElem?_set, if_neg (Ne.symm h1)]
    · show m.objs.length = _
      rw [← abs_length, ha]
      split
      · rw [List.length_set, List.length_set, abs_length]
      · rw [List.length_set, abs_length]
  · exact b.elim

/-! ### Powers -/

theorem createN_spec {K : Kind} (hf : Cap.fits K.lim 1 = true) : ∀ (k : Nat) (s : BigSt), Inv K s.mem →
    ∃ s', BigSt.createN K k s = .ok s' ∧ Inv K s'.mem ∧ s'.mem.objs.length = s.mem.objs.length + k ∧
      (∀ i Z, Rep s i Z → Rep s' i Z) ∧ ∀ i, i < k → Rep s' (s.mem.objs.length + i) ⟨false, [0]⟩ := by
  intro k
  induction k with
  | zero => intro s I; exact ⟨s, rfl, I, rfl, fun _ _ h => h, fun i h => by omega⟩
  | succ k ih =>
    intro s I
    obtain ⟨s1, e1, N1⟩ := create_new I hf 0
    obtain ⟨s2, e2, I2, l2, f2, r2⟩ := ih s1 N1.inv
    refine ⟨s2, ?_, I2, by rw [l2, N1.len]; omega, fun i Z h => f2 i Z (N1.frame i Z h), ?_⟩
    · rw [BigSt.createN, e1, ok_bind]; exact e2
    · intro i hi
      cases i with
      | zero => exact f2 _ _ N1.res
      | succ i =>
        have := r2 i (by omega)
        rw [N1.len] at this
        rw [show s.mem.objs.length + (i + 1) = s.mem.objs.length + 1 + i by omega]
        exact this

/-- Outcome of a computation whose result object is `z`: only `z` changes; if it returns `true` then `z` represents the
`n`-th power; it does so if `T`. -/
def Run (K : Kind) (P : Big → Nat → Prop) (T : Prop) (s : BigSt) (z n : Nat) (r : Res (BigSt × Bool)) : Prop :=
  ∃ s' ok, r = .ok (s', ok) ∧ Inv K s'.mem ∧ s'.mem.objs.length = s.mem.objs.length ∧
    (∀ i Z, i ≠ z → Rep s i Z → Rep s' i Z) ∧ (T → ok = true) ∧
    (ok = true → ∃ R, Rep s' z R ∧ R.Canon ∧ P R n)

section
variable {K : Kind} {P : Big → Nat → Prop} {T : Prop} {op : BigSt → Nat → Nat → Nat → Res (BigSt × Bool)} {G : BigSt → Prop}
  {z n E : Nat}

theorem Run.bind {s : BigSt} {k k' : Nat} {r : Res (BigSt × Bool)} {f : BigSt → Res (BigSt × Bool)} (h : Run K P T s z k r)
    (hf : ∀ s' R, Inv K s'.mem → s'.mem.objs.length = s.mem.objs.length → (∀ i Z, i ≠ z → Rep s i Z → Rep s' i Z) →
      Rep s' z R → R.Canon → P R k → Run K P T s' z k' (f s')) :
    Run K P T s z k' (do let (s, ok) ← r; if ok then f s else .ok (s, false)) := by
  obtain ⟨s1, ok, e, I1, l1, f1, t1, r1⟩ := h
  subst e
  rw [ok_bind]
  dsimp only
  cases ok with
  | false => exact ⟨s1, false, rfl, I1, l1, f1, t1, fun h => by cases h⟩
  | true =>
    obtain ⟨R, rr, cr, pr⟩ := r1 rfl
    obtain ⟨s2, ok, e, I2, l2, f2, t2, r2⟩ := hf s1 R I1 l1 f1 rr cr pr
    exact ⟨s2, ok, e, I2, by rw [l2, l1], fun i Z hi hZ => f2 i Z hi (f1 i Z hi hZ), t2, r2⟩

/-- What the multiplication must satisfy: into `z` or into a local object, for powers up to `E`. -/
def OpOk (K : Kind) (P : Big → Nat → Prop) (T : Prop) (op : BigSt → Nat → Nat → Nat → Res (BigSt × Bool)) (G : BigSt → Prop)
    (z n E : Nat) : Prop :=
  ∀ s d a b A B D i j, i + j ≤ E → Inv K s.mem → G s → n ≤ s.mem.objs.length → d = z ∨ n ≤ d → Rep s d D → Rep s a A → A.Canon → Rep s b B →
    B.Canon → P A i → P B j → Run K P T s d (i + j) (op s d a b)

variable (hop : OpOk K P T op G z n E)
  (hG : ∀ s s', (∀ i Z, i ≠ z → i < n → Rep s i Z → Rep s' i Z) → G s → G s')
include hop hG

theorem sqrLoop_run : ∀ (k : Nat) (s : BigSt) (Z : Big) (e : Nat), e * 2 ^ k ≤ E → Inv K s.mem → G s → n ≤ s.mem.objs.length → Rep s z Z →
    Z.Canon → P Z e → Run K P T s z (e * 2 ^ k) (BigSt.sqrLoop op z k s)
  | 0, s, Z, e, _, I, _, _, rz, cz, pz => by
    rw [BigSt.sqrLoop, pow_zero, mul_one]
    exact ⟨s, true, rfl, I, rfl, fun _ _ _ h => h, fun _ => rfl, fun _ => ⟨Z, rz, cz, pz⟩⟩
  | k + 1, s, Z, e, hE, I, g, hl, rz, cz, pz => by
    rw [BigSt.sqrLoop]
    have h2 : e * 2 ^ (k + 1) = (e + e) * 2 ^ k := by ring
    rw [h2] at hE
    refine (hop s z z z Z Z Z e e (le_trans (Nat.le_mul_of_pos_right _ (by positivity)) hE) I g hl (Or.inl rfl) rz rz cz rz cz pz pz).bind ?_
    intro s' R I' l' f' r' c' p'
    have := sqrLoop_run k s' R _ hE I' (hG s s' (fun i Z h _ => f' i Z h) g) (by omega) r' c' p'
    rwa [show (e + e) * 2 ^ k = e * 2 ^ (k + 1) by ring] at this

/-- The table holds the powers. -/
def Tbl (P : Big → Nat → Prop) (s : BigSt) (n k : Nat) : Prop := ∀ j, j < k → ∃ R, Rep s (n + j) R ∧ R.Canon ∧ P R (j + 1)

omit hG hop in
theorem Tbl.mono {s s' : BigSt} {k : Nat} (h : Tbl P s n k) (f : ∀ i Z, n ≤ i → i < n + k → Rep s i Z → Rep s' i Z) : Tbl P s' n k := by
  intro j hj
  obtain ⟨R, r, c, p⟩ := h j hj
  exact ⟨R, f _ _ (by omega) (by omega) r, c, p⟩

theorem winLoop_run (hz : z < n) (v : Word) : ∀ (k : Nat) (s : BigSt) (Z : Big) (e : Nat),
    e * 16 ^ k + v.toNat % 16 ^ k ≤ E → Inv K s.mem → G s →
    n ≤ s.mem.objs.length → Tbl P s n 15 → Rep s z Z → Z.Canon → P Z e →
    Run K P T s z (e * 16 ^ k + v.toNat % 16 ^ k) (BigSt.winLoop op z n v k s)
  | 0, s, Z, e, _, I, _, _, _, rz, cz, pz => by
    rw [BigSt.winLoop, pow_zero, mul_one, Nat.mod_one]
    exact ⟨s, true, rfl, I, rfl, fun _ _ _ h => h, fun _ => rfl, fun _ => ⟨Z, rz, cz, pz⟩⟩
  | k + 1, s, Z, e, hE, I, g, hl, tb, rz, cz, pz => by
    rw [BigSt.winLoop]
    have hexp : (e * 2^4 + v.toNat / 16^k % 16) * 16^k + v.toNat % 16^k = e * 16^(k+1) + v.toNat % 16^(k+1) := by
      rw [pow_succ 16 k, Nat.mod_mul]; ring
    rw [← hexp] at hE ⊢
    have hE1 : e * 2 ^ 4 + v.toNat / 16 ^ k % 16 ≤ E := by
      refine le_trans ?_ hE
      refine le_trans ?_ (Nat.le_add_right _ _)
      exact Nat.le_mul_of_pos_right _ (by positivity)
    refine (sqrLoop_run hop hG 4 s Z e (by omega) I g hl rz cz pz).bind (f := fun s => do
      let (s, ok) ← BigSt.winMul op z n ((v >>> (k * 4)) &&& 15).toNat s
      if ok then BigSt.winLoop op z n v k s else .ok (s, false)) ?_
    intro s' R I' l' f' r' c' p'
    rw [Big.window]
    have hidx : v.toNat / 16^k % 16 < 16 := Nat.mod_lt _ (by norm_num)
    have g' := hG s s' (fun i Z h _ => f' i Z h) g
    have tb' : Tbl P s' n 15 := tb.mono (fun i Z h _ hZ => f' i Z (by omega) hZ)
    have hnext : Run K P T s' z (e * 2 ^ 4 + v.toNat / 16 ^ k % 16)
        (BigSt.winMul op z n (v.toNat / 16 ^ k % 16) s') := by
      unfold BigSt.winMul
      by_cases h0 : v.toNat / 16 ^ k % 16 ≠ 0
      · rw [if_pos h0]
        obtain ⟨A, re, ce, pe⟩ := tb' (v.toNat / 16 ^ k % 16 - 1) (by omega)
        have := hop s' z z (n + (v.toNat / 16 ^ k % 16 - 1)) R A R _ _ (by omega) I' g' (by omega) (Or.inl rfl) r' r' c' re ce p' pe
        rwa [show v.toNat / 16 ^ k % 16 - 1 + 1 = v.toNat / 16 ^ k % 16 by omega] at this
      · rw [if_neg h0]
        rw [not_not] at h0
        rw [h0, Nat.add_zero]
        exact ⟨s', true, rfl, I', rfl, fun _ _ _ h => h, fun _ => rfl, fun _ => ⟨R, r', c', p'⟩⟩
    refine hnext.bind ?_
    intro s2 R2 I2 l2 f2 r2 c2 p2
    exact winLoop_run hz v k s2 R2 _ hE I2 (hG s' s2 (fun i Z h _ => f2 i Z h) g') (by omega)
      (tb'.mono (fun i Z h _ hZ => f2 i Z (by omega) hZ)) r2 c2 p2

theorem expLoop_run (hz : z < n) : ∀ (vs : List Word) (s : BigSt) (Z : Big) (e : Nat),
    e * B vs.length + val vs.reverse ≤ E → Inv K s.mem → G s →
    n ≤ s.mem.objs.length → Tbl P s n 15 → Rep s z Z → Z.Canon → P Z e →
    Run K P T s z (e * B vs.length + val vs.reverse) (BigSt.expLoop op z n vs s)
  | [], s, Z, e, _, I, _, _, _, rz, cz, pz => by
    rw [BigSt.expLoop]
    exact ⟨s, true, rfl, I, rfl, fun _ _ _ h => h, fun _ => rfl, fun _ => ⟨Z, rz, cz, by simpa using pz⟩⟩
  | v :: vs, s, Z, e, hE, I, g, hl, tb, rz, cz, pz => by
    rw [BigSt.expLoop]
    have e16 : (16:Nat)^8 = 4294967296 := by norm_num
    have hexp : e * B (v :: vs).length + val (v :: vs).reverse = (e * 4294967296 + v.toNat) * B vs.length + val vs.reverse := by
      rw [List.reverse_cons, val_append, val_singleton, List.length_reverse, List.length_cons, B_succ]
      ring
    rw [hexp] at hE ⊢
    have hE1 : e * 16 ^ 8 + v.toNat % 16 ^ 8 ≤ E := by
      rw [e16, Nat.mod_eq_of_lt v.isLt]
      refine le_trans ?_ hE
      refine le_trans ?_ (Nat.le_add_right _ _)
      exact Nat.le_mul_of_pos_right _ (B_pos _)
    refine (winLoop_run hop hG hz v 8 s Z e hE1 I g hl tb rz cz pz).bind ?_
    intro s' R I' l' f' r' c' p'
    rw [e16, Nat.mod_eq_of_lt v.isLt] at p'
    exact expLoop_run hz vs s' R _ hE I' (hG s s' (fun i Z h _ => f' i Z h) g) (by omega)
      (tb.mono (fun i Z h _ hZ => f' i Z (by omega) hZ)) r' c' p'

theorem tblLoop_run {x : Nat} {X : Big} (hz : z < n) (hx : x < n) (cx : X.Canon) (px : P X 1) :
    ∀ (k i : Nat) (s : BigSt), i + k ≤ E → Inv K s.mem → G s → n + i + k ≤ s.mem.objs.length → 1 ≤ i → Rep s x X → Tbl P s n i →
      (∀ j, i ≤ j → j < i + k → Rep s (n + j) ⟨false, [0]⟩) →
      ∃ s' ok, BigSt.tblLoop op x n k i s = .ok (s', ok) ∧ Inv K s'.mem ∧ s'.mem.objs.length = s.mem.objs.length ∧
        (∀ i Z, i < n → Rep s i Z → Rep s' i Z) ∧ (T → ok = true) ∧ (ok = true → Tbl P s' n (i + k))
  | 0, i, s, _, I, _, _, _, _, tb, _ => ⟨s, true, rfl, I, rfl, fun _ _ _ h => h, fun _ => rfl, fun _ => tb⟩
  | k + 1, i, s, hE, I, g, hl, hi, rx, tb, hd => by
    rw [BigSt.tblLoop]
    obtain ⟨A, re, ce, pe⟩ := tb (i - 1) (by omega)
    obtain ⟨s1, ok, e1, I1, l1, f1, t1, r1⟩ := hop s (n + i) (n + (i - 1)) x A X _ _ _ (by omega) I g (by omega) (Or.inr (by omega))
      (hd i (Nat.le_refl _) (by omega)) re ce rx cx pe px
    rw [e1, ok_bind]
    dsimp only
    cases ok with
    | false => exact ⟨s1, false, rfl, I1, l1, fun j Z hj hZ => f1 j Z (by omega) hZ, t1, fun h => by cases h⟩
    | true =>
      obtain ⟨R, rr, cr, pr⟩ := r1 rfl
      have tb1 : Tbl P s1 n (i + 1) := by
        intro j hj
        by_cases hji : j = i
        · subst hji
          exact ⟨R, rr, cr, by rwa [show j - 1 + 1 + 1 = j + 1 by omega] at pr⟩
        · obtain ⟨A, re, ce, pe⟩ := tb j (by omega)
          exact ⟨A, f1 _ _ (by omega) re, ce, pe⟩
      obtain ⟨s2, ok, e2, I2, l2, f2, t2, r2⟩ := tblLoop_run hz hx cx px k (i + 1) s1 (by omega) I1
        (hG s s1 (fun j Z _ h hZ => f1 j Z (by omega) hZ) g) (by omega) (by omega) (f1 _ _ (by omega) rx) tb1
        (fun j h1 h2 => f1 _ _ (by omega) (hd j (by omega) (by omega)))
      refine ⟨s2, ok, e2, I2, by rw [l2, l1], fun j Z hj hZ => f2 j Z hj (f1 j Z (by omega) hZ), t2, fun h => ?_⟩
      have := r2 h
      rwa [show i + 1 + k = i + (k + 1) by omega] at this

theorem powGo_run {s : BigSt} {x : Nat} {X Z : Big} (hn : n = s.mem.objs.length) (I : Inv K s.mem) (g : G s) (rx : Rep s x X) (cx : X.Canon)
    (rz : Rep s z Z) (px : P X 1) (h1 : P ⟨false, [1]⟩ 0) (ys : List Word) (hy : ys ≠ [])
    (hE : 15 ≤ E) (hEy : val ys ≤ E) :
    Run K P T s z (val ys) (BigSt.powGo K op s z x ys) := by
  have hf1 : Cap.fits K.lim 1 = true := rx.fits I (n := 1) rx.pos
  have hzn : z < n := by rw [hn]; exact rz.lt
  have hxn : x < n := by rw [hn]; exact rx.lt
  have hv1 : getRealSize ys = 1 → val ys = (ys.headD 0).toNat := by
    intro h
    have := getRealSize_val ys
    rw [h] at this
    rw [← this]
    cases ys with
    | nil => exact absurd rfl hy
    | cons w t => simp
  unfold BigSt.powGo
  dsimp only
  split
  · rename_i h
    rw [hv1 h.1, h.2]
    obtain ⟨s1, e1, P1⟩ := assignWord_spec I rz 1
    rw [e1, ok_bind]
    exact ⟨s1, true, rfl, P1.inv, P1.len, P1.frame, fun _ => rfl, fun _ => ⟨_, P1.res, Big.canonW_single _, h1⟩⟩
  split
  · rename_i h
    rw [hv1 h.1, h.2]
    obtain ⟨s1, e1, P1⟩ := assign_spec I rx rz
    rw [e1, ok_bind]
    exact ⟨s1, true, rfl, P1.inv, P1.len, P1.frame, fun _ => rfl, fun _ => ⟨_, P1.res, cx, px⟩⟩
  split
  · rename_i h
    rw [hv1 h.1, h.2]
    exact hop s z x x X X Z 1 1 (by omega) I g (by omega) (Or.inl rfl) rz rx cx rx cx px px
  split
  · rename_i h
    rw [hv1 h.1, h.2, ← hn]
    obtain ⟨s1, e1, N1⟩ := create_new I hf1 0
    rw [e1, ok_bind]
    have rt := N1.res
    rw [← hn] at rt
    have l1 := N1.len
    have g1 := hG s s1 (fun i Z _ _ hZ => N1.frame i Z hZ) g
    obtain ⟨s2, ok, e2, I2, l2, f2, t2, r2⟩ := hop s1 n x x X X _ 1 1 (by omega) N1.inv g1 (by omega) (Or.inr (Nat.le_refl _)) rt
      (N1.frame _ _ rx) cx (N1.frame _ _ rx) cx px px
    rw [e2, ok_bind]
    dsimp only
    cases ok with
    | false =>
      simp only [Bool.false_eq_true, if_false, pure_bind]
      refine ⟨s2.drop n, false, rfl, drop_inv I2 _, by rw [drop_len (by omega), hn], ?_, t2, fun h => by cases h⟩
      intro i Z _ hZ
      have := hZ.lt
      exact drop_rep I2 (f2 i Z (by omega) (N1.frame i Z hZ)) (by omega)
    | true =>
      simp only [if_true]
      obtain ⟨R, rr, cr, pr⟩ := r2 rfl
      have fr2 : ∀ i Z, i < n → Rep s i Z → Rep s2 i Z := fun i Z h hZ => f2 i Z (by omega) (N1.frame i Z hZ)
      obtain ⟨s3, ok, e3, I3, l3, f3, t3, r3⟩ := hop s2 z n x R X Z 2 1 (by omega) I2 (hG s s2 (fun i Z _ h hZ => fr2 i Z h hZ) g) (by omega)
        (Or.inl rfl) (fr2 _ _ hzn rz) rr cr (fr2 _ _ hxn rx) cx pr px
      rw [e3, ok_bind]
      refine ⟨s3.drop n, ok, rfl, drop_inv I3 _, by rw [drop_len (by omega), hn], ?_, t3, fun h => ?_⟩
      · intro i Z hi hZ
        have := hZ.lt
        exact drop_rep I3 (f3 i Z hi (fr2 i Z (by omega) hZ)) (by omega)
      · obtain ⟨R, r4, c4, p4⟩ := r3 h
        exact ⟨R, drop_rep I3 r4 hzn, c4, p4⟩
  split
  · rename_i h
    rw [hv1 h.1, h.2]
    refine (hop s z x x X X Z 1 1 (by omega) I g (by omega) (Or.inl rfl) rz rx cx rx cx px px).bind (f := fun s => op s z z z) ?_
    intro s' R I' l' f' r' c' p'
    exact hop s' z z z R R R 2 2 (by omega) I' (hG s s' (fun i Z h _ hZ => f' i Z h hZ) g) (by omega) (Or.inl rfl) r' r' c' r' c' p' p'
  · rw [← hn]
    obtain ⟨s1, e1, I1, l1, f1, r1⟩ := createN_spec hf1 15 s I
    rw [e1, ok_bind]
    rw [← hn] at r1 l1
    obtain ⟨s2, e2, P2⟩ := assign_spec I1 (f1 _ _ rx) (r1 0 (by omega))
    rw [Nat.add_zero] at e2 P2
    rw [e2, ok_bind]
    have l2 := P2.len
    have fr2 : ∀ i Z, i < n → Rep s i Z → Rep s2 i Z := fun i Z h hZ => P2.frame i Z (by omega) (f1 i Z hZ)
    have g2 := hG s s2 (fun i Z _ h hZ => fr2 i Z h hZ) g
    have tb : Tbl P s2 n 1 := by
      intro j hj
      have : j = 0 := by omega
      subst this
      exact ⟨X, P2.res, cx, px⟩
    obtain ⟨s3, ok, e3, I3, l3, f3, t3, r3⟩ := tblLoop_run hop hG hzn hxn cx px 14 1 s2 (by omega) P2.inv g2 (by omega) (by omega)
      (fr2 _ _ hxn rx) tb (fun j h1 h2 => P2.frame _ _ (by omega) (r1 j (by omega)))
    rw [e3, ok_bind]
    dsimp only
    have fr3 : ∀ i Z, i < n → Rep s i Z → Rep s3 i Z := fun i Z h hZ => f3 i Z h (fr2 i Z h hZ)
    cases ok with
    | false =>
      simp only [Bool.false_eq_true, if_false]
      refine ⟨s3.drop n, false, rfl, drop_inv I3 _, by rw [drop_len (by omega), hn], ?_, t3, fun h => by cases h⟩
      intro i Z _ hZ
      have := hZ.lt
      exact drop_rep I3 (fr3 i Z (by omega) hZ) (by omega)
    | true =>
      simp only [if_true]
      have tb3 := r3 rfl
      obtain ⟨s4, e4, P4⟩ := assignWord_spec I3 (fr3 _ _ hzn rz) 1
      rw [e4, ok_bind]
      have l4 := P4.len
      have fr4 : ∀ i Z, i ≠ z → i < n → Rep s i Z → Rep s4 i Z := fun i Z h1 h2 hZ => P4.frame i Z h1 (fr3 i Z h2 hZ)
      obtain ⟨s5, ok, e5, I5, l5, f5, t5, r5⟩ := expLoop_run hop hG hzn (ys.take (getRealSize ys)).reverse s4 _ 0
        (by rw [List.reverse_reverse, getRealSize_val, zero_mul, zero_add]; exact hEy) P4.inv
        (hG s s4 fr4 g) (by omega) (tb3.mono (fun i Z h _ hZ => P4.frame i Z (by omega) hZ)) P4.res (Big.canonW_single _) h1
      rw [List.reverse_reverse, getRealSize_val, zero_mul, zero_add] at r5
      rw [e5, ok_bind]
      refine ⟨s5.drop n, ok, rfl, drop_inv I5 _, by rw [drop_len (by omega), hn], ?_, t5, fun h => ?_⟩
      · intro i Z hi hZ
        have := hZ.lt
        exact drop_rep I5 (f5 i Z hi (fr4 i Z hi (by omega) hZ)) (by omega)
      · obtain ⟨R, r6, c6, p6⟩ := r5 h
        exact ⟨R, drop_rep I5 r6 hzn, c6, p6⟩

end

theorem read_words {s : BigSt} {y : Nat} {Y : Big} (h : Rep s y Y) {α : Type} (f : List Word → Res α) :
    (do let p ← s.elem y 0; let ys ← readN s.mem.heap p (s.size y); f ys) = f Y.ws := by
  obtain ⟨o, h, _⟩ := h
  have e : s.elem y 0 = .ok (o.data.add 0) := elem_ok h.obj h.pos
  rw [e, ok_bind, h.size]
  have e2 := readN_spec Y.ws (o.data.add 0) h.has
  rw [e2, ok_bind]

/-- `pow` on memory: `z` may be any of the operands. -/
theorem pow_mem {K : Kind} {s : BigSt} {z x y : Nat} {X Y Z : Big} (I : Inv K s.mem) (rx : Rep s x X) (ry : Rep s y Y) (rz : Rep s z Z)
    (cx : X.Canon) (cy : Y.Canon) (hn : Y.neg = false) :
    Run K (fun R n => R.toInt = X.toInt ^ n)
      (Cap.fits K.lim (X.ws.length * max 15 (val Y.ws) + 1) = true) s z (val Y.ws) (s.pow K z x y) := by
  have hxp := rx.pos
  let L := X.ws.length
  let P : Big → Nat → Prop := fun R n => R.toInt = X.toInt ^ n ∧ R.ws.length ≤ max 1 (L * n)
  have hop : OpOk K P (Cap.fits K.lim (X.ws.length * max 15 (val Y.ws) + 1) = true) (fun s z x y => s.mul K z x y)
      (fun _ => True) z s.mem.objs.length (max 15 (val Y.ws)) := by
    rintro s d a b A B D i j hij I - - - rd ra ca rb cb ⟨va, la⟩ ⟨vb, lb⟩
    dsimp only
    have h := mul_spec I ra rb rd
    rcases Big.mul?_spec K.lim A B ca cb with ⟨Q, e, cQ, fQ, vQ, lQ, -⟩ | ⟨e, hf⟩
    · rw [e] at h
      obtain ⟨s', R, e', P', S⟩ := h
      refine ⟨s', true, e', P'.inv, P'.len, P'.frame, fun _ => rfl, fun _ => ⟨R, P'.res, S.canon cQ, ?_, ?_⟩⟩
      · rw [S.toInt, vQ, va, vb, pow_add]
      · have cR := S.canon cQ
        rcases Nat.eq_zero_or_pos i with hi | hi
        · subst hi
          rw [pow_zero] at va
          have : R.toInt = B.toInt := by rw [S.toInt, vQ, va, one_mul]
          rw [words_eq cR, this, ← words_eq cb, Nat.zero_add]; exact lb
        · rcases Nat.eq_zero_or_pos j with hj | hj
          · subst hj
            rw [pow_zero] at vb
            have : R.toInt = A.toInt := by rw [S.toInt, vQ, vb, mul_one]
            rw [words_eq cR, this, ← words_eq ca, Nat.add_zero]; exact la
          · have hRQ : R.ws.length = Q.ws.length := by rw [words_eq cR, S.toInt, ← words_eq cQ]
            have h1 : 1 ≤ L * i := Nat.mul_pos hxp hi
            have h2 : 1 ≤ L * j := Nat.mul_pos hxp hj
            rw [Nat.mul_add]
            omega
    · rw [e] at h
      refine ⟨s, false, h, I, rfl, fun _ _ _ h => h, fun ht => ?_, fun h => by cases h⟩
      exfalso
      rw [Big.fits_mono ht (n := A.ws.length + B.ws.length) ?_] at hf
      · cases hf
      · have h3 : L * (i + j) ≤ L * max 15 (val Y.ws) := Nat.mul_le_mul_left _ hij
        have h4 : L * 15 ≤ L * max 15 (val Y.ws) := Nat.mul_le_mul_left _ (by omega)
        have h5 : 1 ≤ L := hxp
        rw [Nat.mul_add] at h3
        show _ ≤ L * max 15 (val Y.ws) + 1
        rcases Nat.eq_zero_or_pos i with hi | hi
        · subst hi
          simp only [Nat.mul_zero] at la h3
          omega
        · have h6 : 1 ≤ L * i := Nat.mul_pos hxp hi
          omega
  have := powGo_run hop (fun _ _ _ _ => trivial) rfl I trivial rx cx rz (by simp [P, L]) ⟨by simp [Big.toInt, val], by simp⟩ Y.ws cy.1
    (by omega) (by omega)
  unfold BigSt.pow
  rw [ry.neg_eq, hn, if_neg (by simp), read_words ry]
  obtain ⟨s', ok, e, a, b, c, d, f⟩ := this
  refine ⟨s', ok, e, a, b, c, d, fun h => ?_⟩
  obtain ⟨R, r1, r2, r3⟩ := f h
  exact ⟨R, r1, r2, r3.1⟩

/-- `modexp` on memory: `z` may be the base or the exponent, not the modulus. -/
theorem modexp_mem {K : Kind} {s : BigSt} {z x y m : Nat} {X Y M Z : Big} (I : Inv K s.mem) (rx : Rep s x X) (ry : Rep s y Y) (rm : Rep s m M)
    (rz : Rep s z Z) (cx : X.Canon) (cy : Y.Canon) (cm : M.Canon) (hn : Y.neg = false) (hm0 : M.toInt ≠ 0) (hzm : z ≠ m) :
    Run K (fun R n => R.toInt ≡ X.toInt ^ n [ZMOD M.toInt] ∧ (2 ≤ n → |R.toInt| < |M.toInt|) ∧ (0 ≤ X.toInt → 0 ≤ R.toInt) ∧
        (n = 0 → R.toInt = 1 ∨ |R.toInt| < |M.toInt|) ∧ (n = 1 → R.toInt = X.toInt ∨ |R.toInt| < |M.toInt|))
      (Cap.fits K.lim (2 * max X.ws.length M.ws.length) = true) s z (val Y.ws) (s.modexp K z x y m) := by
  have hxp := rx.pos
  have hmn := rm.lt
  have hf1 : Cap.fits K.lim 1 = true := rx.fits I (n := 1) rx.pos
  let L := max X.ws.length M.ws.length
  let P : Big → Nat → Prop := fun R n => (R.toInt ≡ X.toInt ^ n [ZMOD M.toInt] ∧ (2 ≤ n → |R.toInt| < |M.toInt|) ∧
    (0 ≤ X.toInt → 0 ≤ R.toInt) ∧ (n = 0 → R.toInt = 1 ∨ |R.toInt| < |M.toInt|) ∧
    (n = 1 → R.toInt = X.toInt ∨ |R.toInt| < |M.toInt|)) ∧ R.ws.length ≤ L
  have hop : OpOk K P (Cap.fits K.lim (2 * max X.ws.length M.ws.length) = true) (fun s z x y => s.modMul K m z x y)
      (fun s => Rep s m M) z s.mem.objs.length (max 15 (val Y.ws)) := by
    rintro s1 d a b A B D i j - I rm hl hd rd ra ca rb cb ⟨⟨va, -, na, -⟩, la⟩ ⟨⟨vb, -, nb, -⟩, lb⟩
    dsimp only
    have hdm : d ≠ m := by rcases hd with h | h <;> omega
    have hdl := rd.lt
    have h := mul_spec I ra rb rd
    unfold BigSt.modMul
    rcases Big.mul?_spec K.lim A B ca cb with ⟨Q, e, cQ, fQ, vQ, lQ, -⟩ | ⟨e, hf⟩
    · rw [e] at h
      obtain ⟨s2, R, e', P', S⟩ := h
      obtain ⟨s3, e3, N3⟩ := create_new P'.inv hf1 0
      obtain ⟨s4, V, W, e4, hd4, P4⟩ := mod_spec N3.inv (N3.frame _ _ P'.res) (N3.frame _ _ (P'.frame m M hdm.symm rm)) N3.res
        (S.canon cQ) cm hm0
      obtain ⟨q, r, e5, -, cr, -, -, -, vr, -⟩ := Big.divMod?_spec K.lim R M (S.canon cQ) cm (rep_fits P'.inv P'.res) hm0
      rw [hd4] at e5
      cases e5
      have l2 := P'.len
      have l3 := N3.len
      have l4 := P4.len
      obtain ⟨s5, e5, I5, r5, f5, l5⟩ := moveAssign_rep (z := d) P4.inv P4.res (by omega) (by omega)
      rw [e', ok_bind]
      dsimp only
      rw [e3, ok_bind, if_pos rfl, e4, ok_bind]
      dsimp only
      rw [e5, ok_bind]
      refine ⟨_, true, rfl, drop_inv I5 _, by rw [drop_len (by omega), l2], ?_, fun _ => rfl,
        fun _ => ⟨W, drop_rep I5 r5 (by omega), cr, ?_⟩⟩
      · intro k C hk hC
        have := hC.lt
        exact drop_rep I5 (f5 k C hk (by omega) (P4.frame k C (by omega) (N3.frame k C (P'.frame k C hk hC)))) (by omega)
      · have hW : W.toInt = (A.toInt * B.toInt).tmod M.toInt := by rw [vr, S.toInt, vQ]
        have hlt : |W.toInt| < |M.toInt| := by
          rw [hW, Int.abs_eq_natAbs, Int.abs_eq_natAbs, Int.natAbs_tmod]
          exact_mod_cast Nat.mod_lt _ (by omega)
        refine ⟨⟨?_, fun _ => hlt, ?_, fun _ => Or.inr hlt, fun _ => Or.inr hlt⟩, ?_⟩
        · rw [hW, pow_add]
          refine Int.ModEq.trans ?_ (va.mul vb)
          have h1 : (A.toInt * B.toInt).tmod M.toInt = A.toInt * B.toInt - M.toInt * (A.toInt * B.toInt).tdiv M.toInt := by
            have := Int.tmod_add_mul_tdiv (A.toInt * B.toInt) M.toInt
            omega
          rw [h1]
          exact (Int.modEq_iff_dvd.2 (by simp)).symm
        · intro hx
          rw [hW]
          exact Int.tmod_nonneg _ (mul_nonneg (na hx) (nb hx))
        · have h2 : val W.ws ≤ val M.ws := by
            rw [← Big.natAbs_toInt, ← Big.natAbs_toInt]
            rw [Int.abs_eq_natAbs, Int.abs_eq_natAbs] at hlt
            omega
          have := cr.w.length_le cm.1 h2
          omega
    · rw [e] at h
      obtain ⟨s3, e3, N3⟩ := create_new I hf1 0
      have l3 := N3.len
      obtain ⟨s5, e5, I5, r5, f5, l5⟩ := moveAssign_rep (z := d) N3.inv N3.res (by omega) (by omega)
      rw [h, ok_bind]
      dsimp only
      rw [e3, ok_bind, if_neg (by simp), pure_bind]
      dsimp only
      rw [e5, ok_bind]
      refine ⟨_, false, rfl, drop_inv I5 _, by rw [drop_len (by omega)], ?_, fun ht => ?_, fun h => by cases h⟩
      · intro k C hk hC
        have := hC.lt
        exact drop_rep I5 (f5 k C hk (by omega) (N3.frame k C hC)) (by omega)
      · exfalso
        rw [Big.fits_mono ht (n := A.ws.length + B.ws.length) (by omega)] at hf
        cases hf
  have := powGo_run hop (fun s1 s2 h hG => h m M hzm.symm hmn hG) rfl I rm rx cx rz
    ⟨⟨by rw [pow_one], by omega, fun h => h, by omega, fun _ => Or.inl rfl⟩, by omega⟩
    ⟨⟨by simp [Big.toInt, val], by omega, fun _ => by simp [Big.toInt, val], fun _ => Or.inl (by simp [Big.toInt, val]), by omega⟩, by
      show 1 ≤ L
      omega⟩ Y.ws cy.1 (by omega) (by omega)
  unfold BigSt.modexp
  rw [ry.neg_eq, hn, if_neg (by simp), read_words ry]
  obtain ⟨s', ok, e, a, b, c, d, f⟩ := this
  refine ⟨s', ok, e, a, b, c, d, fun h => ?_⟩
  obtain ⟨R, r1, r2, r3⟩ := f h
  exact ⟨R, r1, r2, r3.1⟩

/-- `gcd` of non-negative numbers. -/
theorem gcd_value {cap : Cap} : ∀ (f : Nat) (x y z : Big), x.Canon → y.Canon → Big.Fits cap x → Big.Fits cap y →
    Big.gcdSteps (val x.ws) (val y.ws) ≤ f → Big.gcdGo cap f x y = .ok z → z.Canon ∧ z.toInt.natAbs = Int.gcd x.toInt y.toInt ∧ (0 ≤ x.toInt → 0 ≤ y.toInt → 0 ≤ z.toInt) := by
  intro f x y z cx cy fx fy hf h
  obtain ⟨z', e, cz, -, vz, -⟩ := Big.gcdGo_spec cap f x y cx cy fx fy hf
  rw [h] at e
  cases e
  refine ⟨cz, by rw [Big.natAbs_toInt, vz, Int.gcd, Big.natAbs_toInt, Big.natAbs_toInt], ?_⟩
  clear vz cz
  induction f generalizing x y with
  | zero => have := Big.one_le_gcdSteps (val x.ws) (val y.ws); omega
  | succ f ih =>
    intro hx hy
    rw [Big.gcdGo] at h
    split at h
    · cases h; exact hx
    · rename_i hz
      have h0 : y.toInt ≠ 0 := by
        rw [ne_eq, Big.toInt_zero_iff]
        intro h0
        have := Big.canonW_val_zero cy.w h0
        apply hz
        unfold Big.isZero
        rw [this]; rfl
      obtain ⟨q, r, e2, cq, cr, fq, fr, vq, vr, -⟩ := Big.divMod?_spec cap x y cx cy fx h0
      rw [e2, ok_bind] at h
      have hrv : val r.ws = val x.ws % val y.ws := by
        rw [← Big.natAbs_toInt, vr, Int.natAbs_tmod, Big.natAbs_toInt, Big.natAbs_toInt]
      rw [Big.gcdSteps_pos (by rw [ne_eq, Big.toInt_zero_iff] at h0; exact h0), ← hrv] at hf
      exact ih y r cy cr fy fr (by omega) h hy (by rw [vr]; exact Int.tmod_nonneg _ hx)

/-- `lcm` on memory: `z` may be one of the operands. -/
theorem lcm_mem {K : Kind} {s : BigSt} {z x y : Nat} {X Y Z : Big} (I : Inv K s.mem) (rx : Rep s x X) (ry : Rep s y Y)
    (rz : Rep s z Z) (cx : X.Canon) (cy : Y.Canon) (hx : 0 ≤ X.toInt) (hy : 0 ≤ Y.toInt) (h0 : X.toInt ≠ 0 ∨ Y.toInt ≠ 0)
    (hc : Cap.fits K.lim (X.ws.length + Y.ws.length) = true)
    (hg : (Int.gcd X.toInt Y.toInt).size % 32 ≠ 0 ∨ (Int.gcd X.toInt Y.toInt).size ≤ 32 ∨
      X.toInt.natAbs < 2 ^ (Int.gcd X.toInt Y.toInt).size) (fuel : Nat) (hf : Big.gcdSteps (val X.ws) (val Y.ws) ≤ fuel) :
    ∃ s' R, s.lcm K fuel z x y = .ok s' ∧ Post K s s' z R ∧ R.Canon ∧ R.toInt = Int.lcm X.toInt Y.toInt := by
  have hf1 : Cap.fits K.lim 1 = true := rx.fits I (n := 1) rx.pos
  obtain ⟨n, hn⟩ : ∃ n, n = s.mem.objs.length := ⟨_, rfl⟩
  have hxn := rx.lt
  have hyn := ry.lt
  have hzn := rz.lt
  obtain ⟨s1, e1, N1⟩ := create_new I hf1 0
  have l1 := N1.len
  obtain ⟨s2, G, g1, g2, P2⟩ := gcd_mem (z := n) N1.inv (N1.frame _ _ rx) (N1.frame _ _ ry) (by omega) cx cy fuel hf
  obtain ⟨cG, vG, nG⟩ := gcd_value fuel X Y G cx cy (rep_fits I rx) (rep_fits I ry) hf g1
  have hG0 := nG hx hy
  have hGe : G.toInt = Int.gcd X.toInt Y.toInt := by omega
  have hne : Int.gcd X.toInt Y.toInt ≠ 0 := by rw [ne_eq, Int.gcd_eq_zero_iff]; tauto
  have hvG : val G.ws = Int.gcd X.toInt Y.toInt := by rw [← vG, Big.natAbs_toInt]
  have hnc : NoClash X.ws G.ws := noClash_of cx cG (by rw [hvG, ← Big.natAbs_toInt]; exact hg)
  have r2x := P2.frame x X (by omega) (N1.frame _ _ rx)
  obtain ⟨s3, V, W, e3, d3, P3⟩ := div_spec P2.inv r2x P2.res P2.res cx cG (by omega) fuel (fun _ => hnc)
  obtain ⟨q, r, e4, cq, -, -, -, vq, -⟩ := Big.divMod?_spec K.lim X G cx cG (rep_fits I rx) (by omega)
  rw [d3] at e4
  cases e4
  have lV : V.ws.length ≤ X.ws.length := by
    have hv0 : val G.ws ≠ 0 := by omega
    obtain ⟨q', r', e', _, _, lq, _⟩ := Big.udiv_spec K.lim X.ws G.ws cx.w cG.w (rep_fits I rx).fits hv0
    unfold Big.divMod? at d3
    rw [e', ok_bind] at d3
    cases d3
    exact lq
  have l2 := P2.len
  have l3 := P3.len
  have fr3 : ∀ i Z, i < n → Rep s i Z → Rep s3 i Z := fun i Z hi hZ => P3.frame i Z (by omega) (P2.frame i Z (by omega) (N1.frame i Z hZ))
  have h5 := mul_spec (z := z) P3.inv P3.res (fr3 y Y (by omega) ry) (fr3 z Z (by omega) rz)
  rcases Big.mul?_spec K.lim V Y cq cy with ⟨R0, eR, cR, -, vR, -⟩ | ⟨-, hff⟩
  · rw [eR] at h5
    obtain ⟨s4, R, e4, P4, S⟩ := h5
    unfold BigSt.lcm
    dsimp only
    rw [e1, ok_bind, ← hn, g2, ok_bind, e3, ok_bind]
    dsimp only
    rw [e4, ok_bind]
    dsimp only
    have l4 := P4.len
    refine ⟨_, R, rfl, ⟨drop_inv P4.inv _, drop_rep P4.inv P4.res (by omega), ?_, by rw [drop_len (by omega), hn]⟩, S.canon cR, ?_⟩
    · intro i C hi hC
      have := hC.lt
      exact drop_rep P4.inv (P4.frame i C hi (fr3 i C (by omega) hC)) (by omega)
    · rw [S.toInt, vR, vq, hGe]
      obtain ⟨a, ha⟩ := Int.eq_ofNat_of_zero_le hx
      obtain ⟨b, hb⟩ := Int.eq_ofNat_of_zero_le hy
      rw [ha, hb, Int.lcm, Int.gcd, Int.natAbs_natCast, Int.natAbs_natCast, ← Int.ofNat_tdiv, ← Int.natCast_mul, Nat.lcm]
      congr 1
      exact Nat.div_mul_right_comm (Nat.gcd_dvd_left _ _) _
  · exfalso
    rw [Big.fits_mono hc (n := V.ws.length + Y.ws.length) (by omega)] at hff
    cases hff

/-! ### Programs -/

open Spec.Prog

theorem Holds.pos {K s e} (H : Holds K s e) {x : Nat} {a : Int} (h : look e x = some a) (ha : 0 < a) :
    ∃ X, Rep s x X ∧ X.Canon ∧ X.toInt = a ∧ X.neg = false ∧ (val X.ws : Int) = a ∧ val X.ws = a.toNat := by
  obtain ⟨X, h1, h2, h3⟩ := H.get x a (look_some.1 h)
  have hn := Big.neg_of_toInt_pos (x := X) (by omega)
  have := Big.toInt_of_nonneg hn
  exact ⟨X, h1, h2, h3, hn, by omega, by omega⟩

theorem execN_one {K : Kind} {e e' : Env} (c : NStmt) (st : StepN e c e') (hr : RoomN K.lim e c)
    (hs : SafeN e c) (hi : K.dyn = true → Inline K.N e c) :
    ∃ F, ∀ s, Holds K s e → ∀ fuel, F ≤ fuel → ∃ s', c.exec K fuel s = .ok s' ∧ Holds K s' e' := by
  cases c with
  | base c =>
    refine ⟨0, fun s H fuel _ => ?_⟩
    rcases exec_one fuel H c st hr hs with h | ⟨hd, hA, -⟩
    · exact h
    · exact absurd hA (hi hd)
  | pow z x y =>
    obtain ⟨a, b, ha, hb, hz, hb0, rfl⟩ := st
    refine ⟨0, fun s H fuel _ => ?_⟩
    obtain ⟨X, x1, x2, x3⟩ := H.get x a (look_some.1 ha)
    obtain ⟨Y, y1, y2, y3, y4, y5, y6⟩ := H.pos hb hb0
    obtain ⟨Z, z1, z2⟩ := H.target hz
    obtain ⟨s', ok, e1, I', l', f', t', r'⟩ := pow_mem H.inv x1 y1 z1 x2 y2 y4
    have hok := t' (by rw [words_eq x2, x3, y6]; exact lim_fits' _ _ (hr a b ha hb))
    subst hok
    obtain ⟨R, r1, r2, r3⟩ := r' rfl
    refine ⟨s', ?_, H.post ⟨I', r1, f', l'⟩ r2 (by rw [r3, x3, y6])⟩
    rw [NStmt.exec, e1, ok_bind]
    rfl
  | modexp z x y m =>
    obtain ⟨a, b, n, ha, hb, hn, hz, hzm, ha0, hb0, hn0, rfl⟩ := st
    refine ⟨0, fun s H fuel _ => ?_⟩
    obtain ⟨X, x1, x2, x3⟩ := H.get x a (look_some.1 ha)
    obtain ⟨Y, y1, y2, y3, y4, y5, y6⟩ := H.pos hb (by omega)
    obtain ⟨M, m1, m2, m3⟩ := H.get m n (look_some.1 hn)
    obtain ⟨Z, z1, z2⟩ := H.target hz
    obtain ⟨s', ok, e1, I', l', f', t', r'⟩ := modexp_mem H.inv x1 y1 m1 z1 x2 y2 m2 y4 (by omega) hzm
    have hok := t' (by rw [words_eq x2, words_eq m2, x3, m3]; exact lim_fits' _ _ (hr a n ha hn))
    subst hok
    obtain ⟨R, r1, r2, r3, r4, r5, -⟩ := r' rfl
    refine ⟨s', ?_, H.post ⟨I', r1, f', l'⟩ r2 ?_⟩
    · rw [NStmt.exec, e1, ok_bind]
      rfl
    · rw [m3, x3, y6] at r3
      have h1 := r4 (by omega)
      have h2 := r5 (by omega)
      rw [abs_of_nonneg h2, m3, abs_of_pos hn0] at h1
      rw [← r3, Int.emod_eq_of_lt h2 h1]
  | modinv y x m =>
    obtain ⟨a, n, r, ha, hn, hy, ha0, hn1, hr0, hrn, hra, rfl⟩ := st
    refine ⟨a.natAbs + 1, fun s H fuel hf => ?_⟩
    obtain ⟨X, x1, x2, x3⟩ := H.get x a (look_some.1 ha)
    rw [← x3, Big.natAbs_toInt] at hf
    obtain ⟨M, m1, m2, m3⟩ := H.get m n (look_some.1 hn)
    have hroom := hr a n ha hn
    rw [← x3, ← m3, ← words_eq x2, ← words_eq m2] at hroom
    obtain ⟨s', ok, e1, I', l', f', t', r'⟩ := modinv_mem (y := y) (lim_fits' _ _ hroom) m2 (le_max_right _ _) (rep_fits H.inv m1) (by omega)
      (fun hd => by rw [words_eq m2, m3]; exact hi hd n hn) H.inv x1 m1 (by rw [H.len]; exact hy) x2 (by omega) (le_max_left _ _)
      fuel (lt_trans (show val X.ws < fuel by omega) Nat.lt_two_pow_self)
    have hg : Int.gcd X.toInt M.toInt = 1 := by
      rw [x3, m3, ← Int.isCoprime_iff_gcd_eq_one]
      refine ⟨r, -(r * a / n), ?_⟩
      have := Int.emod_add_mul_ediv (r * a) n
      rw [hra] at this
      linarith
    have hok := t'.2 hg
    subst hok
    obtain ⟨Z, z1, z2, z3, z4, z5⟩ := r' rfl
    refine ⟨s', ?_, H.post ⟨I', z1, f', l'⟩ z2 ?_⟩
    · rw [NStmt.exec, e1, ok_bind]
      rfl
    · rw [m3] at z4 z5
      rw [x3] at z5
      have h1 : Z.toInt * a ≡ r * a [ZMOD n] := by
        refine z5.trans ?_
        show 1 % n = r * a % n
        rw [hra, Int.emod_eq_of_lt (by omega) hn1]
      rw [x3, m3] at hg
      have h2 := Int.ModEq.cancel_right_div_gcd (by omega) h1
      rw [Int.gcd_comm, hg, Nat.cast_one, Int.ediv_one] at h2
      have h3 : Z.toInt % n = r % n := h2
      rwa [Int.emod_eq_of_lt (by omega) z4, Int.emod_eq_of_lt (by omega) hrn] at h3
  | gcd z x y =>
    obtain ⟨a, b, ha, hb, hz, ha0, hb0, rfl⟩ := st
    refine ⟨b.natAbs + 1, fun s H fuel hf => ?_⟩
    obtain ⟨X, x1, x2, x3⟩ := H.get x a (look_some.1 ha)
    obtain ⟨Y, y1, y2, y3⟩ := H.get y b (look_some.1 hb)
    rw [← y3, Big.natAbs_toInt] at hf
    obtain ⟨s', G, g1, g2, P⟩ := gcd_mem (z := z) H.inv x1 y1 (by rw [H.len]; exact hz) x2 y2 fuel (le_trans (Big.gcdSteps_le _ _) (by omega))
    obtain ⟨c1, c2, c3⟩ := gcd_value fuel X Y G x2 y2 (rep_fits H.inv x1) (rep_fits H.inv y1) (le_trans (Big.gcdSteps_le _ _) (by omega)) g1
    refine ⟨s', g2, H.post P c1 ?_⟩
    have := c3 (by omega) (by omega)
    rw [← x3, ← y3]
    omega
  | lcm z x y =>
    obtain ⟨a, b, ha, hb, hz, ha0, hb0, h0, rfl⟩ := st
    refine ⟨b.natAbs + 1, fun s H fuel hf => ?_⟩
    obtain ⟨X, x1, x2, x3⟩ := H.get x a (look_some.1 ha)
    obtain ⟨Y, y1, y2, y3⟩ := H.get y b (look_some.1 hb)
    rw [← y3, Big.natAbs_toInt] at hf
    obtain ⟨Z, z1, z2⟩ := H.target hz
    have hroom := hr a b ha hb
    have hsafe := hs a b ha hb
    rw [← x3, ← y3] at hroom hsafe
    rw [← words_eq x2, ← words_eq y2] at hroom
    obtain ⟨s', R, e1, P, c, v⟩ := lcm_mem H.inv x1 y1 z1 x2 y2 (by omega) (by omega) (by rw [x3, y3]; exact h0) (lim_fits' _ _ hroom) hsafe
      fuel (le_trans (Big.gcdSteps_le _ _) (by omega))
    exact ⟨s', e1, H.post P c (by rw [v, x3, y3])⟩

theorem execN_spec {K : Kind} {e e' : Env} {p : List NStmt}
    (h : RunsN (fun e c => RoomN K.lim e c ∧ SafeN e c ∧ (K.dyn = true → Inline K.N e c)) e p e') :
    ∃ F, ∀ s, Holds K s e → ∀ fuel, F ≤ fuel → ∃ s', execN K fuel s p = .ok s' ∧ Holds K s' e' := by
  induction h with
  | nil e => exact ⟨0, fun s H _ _ => ⟨s, rfl, H⟩⟩
  | @cons e e1 e' c p hc st _ ih =>
    obtain ⟨F, hF⟩ := execN_one c st hc.1 hc.2.1 hc.2.2
    obtain ⟨F', hF'⟩ := ih
    refine ⟨max F F', fun s H fuel hf => ?_⟩
    obtain ⟨s1, e1, H1⟩ := hF s H fuel (by omega)
    obtain ⟨s2, e2, H2⟩ := hF' s1 H1 fuel (by omega)
    refine ⟨s2, ?_, H2⟩
    rw [execN, e1, ok_bind, e2]

end Ack.Mem
