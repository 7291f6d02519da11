import Verif.Model.EcMem
import Verif.Proof.AliasFp
import Verif.Proof.Fe
/-! # Field functions on memory give exactly the values of `Model/Fp.lean` -/
namespace Ack.Mem

theorem New.setNeg {K : Kind} {s s' : BigSt} {R : Big} (N : New K s s' R) (b : Bool) :
    New K s (s'.setNeg s.mem.objs.length b) ⟨b, R.ws⟩ :=
  ⟨N.inv, N.res.setNeg b, fun i X h => Rep.setNeg_ne b (Nat.ne_of_lt h.lt) (N.frame i X h), N.len⟩

/-- A new object, then an operation that stores to it. -/
theorem New.post {K : Kind} {s s1 s2 : BigSt} {Z R : Big} (N : New K s s1 Z) (P : Post K s1 s2 s.mem.objs.length R) : New K s s2 R :=
  ⟨P.inv, P.res, fun i X h => P.frame i X (Nat.ne_of_lt h.lt) (N.frame i X h), by rw [P.len, N.len]⟩

theorem neg_of_pos {X : Big} (h : 0 < X.toInt) : X.neg = false := by
  cases hn : X.neg with
  | false => rfl
  | true => unfold Big.toInt at h; rw [hn] at h; simp at h; omega

theorem neg_of_neg {X : Big} (h : X.toInt < 0) : X.neg = true := by
  cases hn : X.neg with
  | true => rfl
  | false => unfold Big.toInt at h; rw [hn] at h; simp at h; omega

theorem big_ext {X Y : Big} (cx : X.Canon) (cy : Y.Canon) (hx : 0 < X.toInt) (h : X.toInt = Y.toInt) : X = Y := by
  have e1 := neg_of_pos hx
  have e2 : Y.neg = false := neg_of_pos (by omega)
  obtain ⟨n, w⟩ := X
  obtain ⟨m, v⟩ := Y
  simp only at e1 e2
  subst e1 e2
  congr 1
  refine Big.CanonW.ext cx cy ?_
  unfold Big.toInt at h
  simpa using h

section cmp
variable {s : BigSt} {x y : Nat} {X Y : Big}

theorem eqS_mem (hx : Rep s x X) (k : BitVec 32) : s.eqS x k = .ok (Big.eqS X k) := by
  unfold BigSt.eqS; rw [compares1_eq hx, ok_bind]; rfl
theorem ltS_mem (hx : Rep s x X) (k : BitVec 32) : s.ltS x k = .ok (Big.ltS X k) := by
  unfold BigSt.ltS; rw [compares1_eq hx, ok_bind]; rfl
theorem opLt_mem (hx : Rep s x X) (hy : Rep s y Y) : s.opLt x y = .ok (Big.opLt X Y) := by
  unfold BigSt.opLt; rw [compare_eq hx hy, ok_bind]; rfl
theorem opGe_mem (hx : Rep s x X) (hy : Rep s y Y) : s.opGe x y = .ok (Big.opGe X Y) := by
  unfold BigSt.opGe; rw [opLt_mem hx hy, ok_bind]; rfl
theorem opGt_mem (hx : Rep s x X) (hy : Rep s y Y) : s.opGt x y = .ok (Big.opGt X Y) := by
  unfold BigSt.opGt; rw [compare_eq hx hy, ok_bind]; rfl
theorem opEq_mem (hx : Rep s x X) (hy : Rep s y Y) : s.opEq x y = .ok (Big.opEq X Y) := by
  unfold BigSt.opEq; rw [compare_eq hx hy, ok_bind]; rfl
theorem bitLength_eq (hx : Rep s x X) : s.bitLength x = .ok X.bitLength := by
  obtain ⟨o, H, hl⟩ := hx; exact bitLength_mem H hl

theorem load0_eq (hx : Rep s x X) : s.load x 0 = .ok (X.ws.headD 0) := by
  have hp := hx.pos
  obtain ⟨o, H, hl⟩ := hx
  rw [load_ok H.obj (by omega) H.has hp, head_getD _ hp]

theorem isOdd_mem (hx : Rep s x X) : s.isOdd x = .ok X.isOdd := by
  unfold BigSt.isOdd; rw [load0_eq hx, ok_bind]; rfl

theorem compareu1_mem (hx : Rep s x X) (k : Word) : s.compareu1 x k = .ok (Big.compareu1 X k) := by
  unfold BigSt.compareu1 Big.compareu1
  rw [hx.neg_eq, hx.size_eq, load0_eq hx]
  cases X.neg with
  | true => rfl
  | false =>
    by_cases h : X.ws.length > 1
    · simp [h]
    · simp only [h, if_false]; rfl

theorem gtU_mem (hx : Rep s x X) (k : Word) : s.gtU x k = .ok (decide (Big.compareu1 X k > 0)) := by
  unfold BigSt.gtU; rw [compareu1_mem hx, ok_bind]

theorem getInt32_mem (hx : Rep s x X) : s.getInt32 x = .ok (Big.getInt32 X) := by
  unfold BigSt.getInt32 Big.getInt32
  rw [hx.neg_eq, hx.size_eq, load0_eq hx, isZero_eq hx]
  by_cases h : X.ws.length > 1
  · simp [h]
  · simp only [h, if_false]; rfl
end cmp

section fp
variable {K : Kind} {p : Big} {P : ℕ} (M : Mod K.lim p P)
include M

theorem Mod.pneg : p.neg = false := neg_of_pos (by have := M.one_lt; omega)

theorem Mod.fit1 : Cap.fits K.lim 1 = true := M.room.fits (by have := Canon.len_pos M.canon; omega)

theorem addFin_exact {s s1 : BigSt} {ip : Nat} {Z : Big} (N : New K s s1 Z) (rp : Rep s ip p) (cz : Z.Canon) :
    ∃ s', s1.fpAddFin K s.mem.objs.length ip = .ok s' ∧ New K s s' (Fp.addFin K.lim Z p) := by
  unfold BigSt.fpAddFin Fp.addFin
  have rp1 := N.frame _ _ rp
  rw [opGe_mem N.res rp1, ok_bind]
  by_cases h : Big.opGe Z p = true
  · rw [if_pos h, if_pos h]
    have hz : Z.neg = false := neg_of_pos (by have := (Ack.opGe_iff cz M.canon).1 h; have := M.one_lt; omega)
    obtain ⟨s2, e2, P2⟩ := sub_spec (z := s.mem.objs.length) N.inv N.res rp1 N.res (fun hne => by rw [hz, Mod.pneg M] at hne; exact absurd rfl hne)
    exact ⟨s2, e2, N.post P2⟩
  · rw [if_neg h, if_neg h]
    exact ⟨s1, rfl, N⟩

theorem subFin_exact {s s1 : BigSt} {ip : Nat} {Z : Big} (N : New K s s1 Z) (rp : Rep s ip p) (cz : Z.Canon) :
    ∃ s', s1.fpSubFin K s.mem.objs.length ip = .ok s' ∧ New K s s' (Fp.subFin K.lim Z p) := by
  unfold BigSt.fpSubFin Fp.subFin
  have rp1 := N.frame _ _ rp
  rw [ltS_mem N.res, ok_bind]
  by_cases h : Big.ltS Z 0 = true
  · rw [if_pos h, if_pos h]
    have hz : Z.neg = true := neg_of_neg (by have := (Ack.ltS_iff cz 0).1 h; simpa using this)
    obtain ⟨s2, e2, P2⟩ := add_spec (z := s.mem.objs.length) N.inv N.res rp1 N.res (fun hne => by rw [hz, Mod.pneg M] at hne; cases hne)
    exact ⟨s2, e2, N.post P2⟩
  · rw [if_neg h, if_neg h]
    exact ⟨s1, rfl, N⟩

variable {s : BigSt} (I : Inv K s.mem) {a b ip : Nat} {A B : Big}
include I

theorem fpAdd_exact (ra : Rep s a A) (rb : Rep s b B) (rp : Rep s ip p) (ea : Elt p A) (eb : Elt p B) :
    ∃ s', s.fpAdd K a b ip = .ok s' ∧ New K s s' (Fp.add K.lim A B p) := by
  unfold BigSt.fpAdd Fp.add
  obtain ⟨s1, e1, N1⟩ := create_new I (Mod.fit1 M) 0
  dsimp only
  rw [e1, ok_bind]
  obtain ⟨s2, e2, P2⟩ := add_spec (z := s.mem.objs.length) N1.inv (N1.frame _ _ ra) (N1.frame _ _ rb) N1.res
    (fun _ h => by have := ra.lt; have := rb.lt; omega)
  rw [e2, ok_bind]
  exact addFin_exact M (N1.post P2) rp (add_room M.room ea.c eb.c (ea.len M.canon) (eb.len M.canon) (Canon.len_pos M.canon)).1

theorem fpSub_exact (ra : Rep s a A) (rb : Rep s b B) (rp : Rep s ip p) (ca : A.Canon) (cb : B.Canon)
    (fa : Big.Fits K.lim A) (fb : Big.Fits K.lim B) :
    ∃ s', s.fpSub K a b ip = .ok s' ∧ New K s s' (Fp.sub K.lim A B p) := by
  unfold BigSt.fpSub Fp.sub
  obtain ⟨s1, e1, N1⟩ := create_new I (Mod.fit1 M) 0
  dsimp only
  rw [e1, ok_bind]
  obtain ⟨s2, e2, P2⟩ := sub_spec (z := s.mem.objs.length) N1.inv (N1.frame _ _ ra) (N1.frame _ _ rb) N1.res
    (fun _ h => by have := ra.lt; have := rb.lt; omega)
  rw [e2, ok_bind]
  exact subFin_exact M (N1.post P2) rp (Big.sub_spec K.lim A B ca cb fa fb).1

omit M in
/-- `s.mod K n (n+1) p` followed by the end of the temporaries. -/
theorem modNew_exact {s1 s2 s3 : BigSt} {i : Nat} {Z W : Big} (N1 : New K s s1 Big.zero) (hi : s1.mem.objs.length ≤ i)
    (I2 : Inv K s2.mem) (keep : ∀ j X, Rep s1 j X → Rep s2 j X) (len : s1.mem.objs.length < s2.mem.objs.length)
    (rz : Rep s2 i Z) (rp : Rep s ip p) (cz : Z.Canon) (cp : p.Canon) (hp : p.toInt ≠ 0) :
    ∃ s', (do let (s', _) ← s2.mod K s.mem.objs.length i ip; .ok (s'.drop (s.mem.objs.length + 1)) : Res BigSt) = .ok s' ∧
      ∃ R, Big.mod K.lim Z p = .ok R ∧ New K s s' R := by
  have rp2 := keep _ _ (N1.frame _ _ rp)
  obtain ⟨s4, V, R, e4, d4, P4⟩ := mod_spec I2 rz rp2 (keep _ _ N1.res) cz cp hp
  rw [e4, ok_bind]
  have l1 := N1.len
  have l4 := P4.len
  refine ⟨_, rfl, R, by unfold Big.mod; rw [d4]; rfl, drop_inv P4.inv _, drop_rep P4.inv P4.res (by omega), ?_, drop_len (by omega)⟩
  intro j X h
  have hj := h.lt
  exact drop_rep P4.inv (P4.frame j X (by omega) (keep _ _ (N1.frame _ _ h))) (by omega)

theorem fpMul_exact (ra : Rep s a A) (rb : Rep s b B) (rp : Rep s ip p) (ca : A.Canon) (cb : B.Canon)
    (hf : Cap.fits K.lim (A.ws.length + B.ws.length) = true) :
    ∃ s' R, s.fpMul K a b ip = .ok s' ∧ Fp.mul K.lim A B p = .ok R ∧ New K s s' R := by
  unfold BigSt.fpMul Fp.mul
  obtain ⟨s1, e1, N1⟩ := create_new I (Mod.fit1 M) 0
  obtain ⟨s2, e2, N2⟩ := create_new N1.inv (Mod.fit1 M) 0
  dsimp only
  rw [e1, ok_bind, e2, ok_bind]
  have l1 := N1.len
  have l2 := N2.len
  have r2 := N2.res
  rw [l1] at r2
  have hm := mul_fresh N2.inv (N2.frame _ _ (N1.frame _ _ ra)) (N2.frame _ _ (N1.frame _ _ rb)) r2
    (by have := ra.lt; omega) (by have := rb.lt; omega)
  rcases Big.mul?_spec K.lim A B ca cb with ⟨Z, e, c, f, v, -, -⟩ | ⟨-, h⟩
  · rw [e] at hm
    obtain ⟨s3, e3, P3⟩ := hm
    rw [e3, ok_bind]
    obtain ⟨s', g1, R, g2, g3⟩ := modNew_exact (K := K) (p := p) (s3 := s3) (W := Z) I N1 (Nat.le_of_eq l1) P3.inv
      (fun j X h => P3.frame j X (by have := h.lt; omega) (N2.frame _ _ h)) (by rw [P3.len, l2]; omega) P3.res rp c M.canon
      (by have := M.one_lt; omega)
    refine ⟨s', R, g1, ?_, g3⟩
    unfold Big.mul; rw [e]; exact g2
  · rw [hf] at h; cases h

theorem fpMulS_exact (ra : Rep s a A) (rp : Rep s ip p) (ca : A.Canon) (fa : Big.Fits K.lim A) (k : BitVec 32) :
    ∃ s' R, s.fpMulS K a k ip = .ok s' ∧ Fp.mulS K.lim A k p = .ok R ∧ New K s s' R := by
  unfold BigSt.fpMulS Fp.mulS
  obtain ⟨s1, e1, N1⟩ := create_new I (Mod.fit1 M) 0
  obtain ⟨s2, e2, N2⟩ := create_new N1.inv (Mod.fit1 M) 0
  dsimp only
  rw [e1, ok_bind, e2, ok_bind]
  have l1 := N1.len
  have l2 := N2.len
  have r2 := N2.res
  rw [l1] at r2
  obtain ⟨s3, e3, P3⟩ := muls1_spec N2.inv (N2.frame _ _ (N1.frame _ _ ra)) r2 k
  rw [e3, ok_bind]
  obtain ⟨s', g1, R, g2, g3⟩ := modNew_exact (K := K) (p := p) (s3 := s3) (W := A) I N1 (Nat.le_of_eq l1) P3.inv
    (fun j X h => P3.frame j X (by have := h.lt; omega) (N2.frame _ _ h)) (by rw [P3.len, l2]; omega) P3.res rp
    (Big.muls1_spec K.lim A k ca fa).1 M.canon (by have := M.one_lt; omega)
  exact ⟨s', R, g1, g2, g3⟩

theorem fpNeg_exact (ra : Rep s a A) (rp : Rep s ip p) :
    ∃ s', s.fpNeg K a ip = .ok s' ∧ New K s s' (Fp.neg K.lim A p) := by
  unfold BigSt.fpNeg Fp.neg
  rw [eqS_mem ra, ok_bind]
  by_cases h : Big.eqS A 0 = true
  · rw [if_pos h, if_pos h]
    exact copyNew_new I ra
  · rw [if_neg h, if_neg h]
    obtain ⟨s1, e1, N1⟩ := create_new I (Mod.fit1 M) 0
    dsimp only
    rw [e1, ok_bind]
    obtain ⟨s2, e2, P2⟩ := sub_spec (z := s.mem.objs.length) N1.inv (N1.frame _ _ rp) (N1.frame _ _ ra) N1.res
      (fun _ h => by have := ra.lt; have := rp.lt; omega)
    exact ⟨s2, e2, N1.post P2⟩

theorem negNew_exact (ra : Rep s a A) : ∃ s', s.negNew K a = .ok s' ∧ New K s s' (Big.negate A) := by
  unfold BigSt.negNew
  obtain ⟨s1, e1, N1⟩ := create_new I (Mod.fit1 M) 0
  dsimp only
  rw [e1, ok_bind]
  obtain ⟨s2, e2, P2⟩ := negate_spec N1.inv (N1.frame _ _ ra) N1.res
  exact ⟨s2, e2, N1.post P2⟩

/-- `modinv` into a fresh object. -/
theorem modinv_exact (hN : K.dyn = true → p.ws.length ≤ K.N) {fuel : Nat} (hf : P.size ≤ fuel) {n : Nat} {Z : Big} (rn : Rep s n Z)
    (ra : Rep s a A) (rp : Rep s ip p) (ea : Elt p A) :
    ∃ s' b, s.modinv K fuel n a ip = .ok (s', b) ∧
      ((b = false ∧ Big.modinv K.lim A p = .error .abort) ∨
       (b = true ∧ ∃ R, Big.modinv K.lim A p = .ok R ∧ Elt p R ∧ Post K s s' n R)) := by
  have hpl := Canon.len_pos M.canon
  have hlt : val A.ws < 2 ^ fuel := by
    have h2 := Nat.lt_size_self P
    have h3 := Nat.pow_le_pow_right (n := 2) (by decide) hf
    have h1 := Big.abs_toInt A
    rw [abs_of_nonneg ea.nn] at h1
    have := ea.lt
    have := M.eq
    omega
  obtain ⟨s', b, e, I', l, fr, hb, hz⟩ := modinv_mem (L := p.ws.length) (M.room.fits (by omega)) M.canon le_rfl M.room.fitsP M.one_lt hN
    I ra rp rn.lt ea.c ea.nn (ea.len M.canon) fuel hlt
  refine ⟨s', b, e, ?_⟩
  rcases modinv_elt M.room M.canon M.one_lt ea with ⟨h1, h2⟩ | ⟨R, h1, h2, h3, h4, h5⟩
  · left
    refine ⟨?_, h1⟩
    cases hbb : b with
    | false => rfl
    | true => exact absurd (hb.1 hbb) h2
  · right
    have hbb := hb.2 h2
    refine ⟨hbb, R, h1, h3, ?_⟩
    obtain ⟨Z', rz, cz, z0, z1, zc⟩ := hz hbb
    have : Z' = R := by
      refine big_ext cz h3.c z0 ?_
      have hcop : IsCoprime A.toInt p.toInt := Int.isCoprime_iff_gcd_eq_one.2 h2
      have h6 : p.toInt ∣ (Z'.toInt - R.toInt) * A.toInt := by
        have := (zc.trans h5.symm).symm.dvd
        rwa [← sub_mul] at this
      have h7 : p.toInt ∣ Z'.toInt - R.toInt := hcop.symm.dvd_of_dvd_mul_right h6
      obtain ⟨k, hk⟩ := h7
      have := h3.lt
      have hk0 : k = 0 := by
        by_contra hne
        have := M.one_lt
        rcases lt_or_gt_of_ne hne with h | h
        · nlinarith
        · nlinarith
      subst hk0
      omega
    rw [← this]
    exact ⟨I', rz, fr, l⟩

theorem modinvNew_exact (hN : K.dyn = true → p.ws.length ≤ K.N) {fuel : Nat} (hf : P.size ≤ fuel)
    (ra : Rep s a A) (rp : Rep s ip p) (ea : Elt p A) :
    (s.modinvNew K fuel a ip = .error .abort ∧ Big.modinv K.lim A p = .error .abort) ∨
    ∃ s' R, s.modinvNew K fuel a ip = .ok s' ∧ Big.modinv K.lim A p = .ok R ∧ Elt p R ∧ New K s s' R := by
  unfold BigSt.modinvNew
  obtain ⟨s1, e1, N1⟩ := create_new I (Mod.fit1 M) 0
  dsimp only
  rw [e1, ok_bind]
  obtain ⟨s2, b, e2, h⟩ := modinv_exact M N1.inv hN hf N1.res (N1.frame _ _ ra) (N1.frame _ _ rp) ea
  rw [e2, ok_bind]
  rcases h with ⟨hb, h⟩ | ⟨hb, R, h, er, P2⟩
  · left; rw [hb]; exact ⟨rfl, h⟩
  · right; rw [hb]; exact ⟨s2, R, rfl, h, er, N1.post P2⟩

theorem fpDiv_exact (hN : K.dyn = true → p.ws.length ≤ K.N) {fuel : Nat} (hf : P.size ≤ fuel)
    (ra : Rep s a A) (rb : Rep s b B) (rp : Rep s ip p) (ea : Elt p A) (eb : Elt p B) :
    (s.fpDiv K fuel a b ip = .error .abort ∧ Fp.div K.lim A B p = .error .abort) ∨
    ∃ s' R, s.fpDiv K fuel a b ip = .ok s' ∧ Fp.div K.lim A B p = .ok R ∧ New K s s' R := by
  unfold BigSt.fpDiv Fp.div
  obtain ⟨s1, e1, N1⟩ := create_new I (Mod.fit1 M) 0
  obtain ⟨s2, e2, N2⟩ := create_new N1.inv (Mod.fit1 M) 0
  dsimp only
  rw [e1, ok_bind, e2, ok_bind]
  have l1 := N1.len
  have l2 := N2.len
  have r2 := N2.res
  rw [l1] at r2
  obtain ⟨s3, b', e3, h⟩ := modinv_exact M N2.inv hN hf r2 (N2.frame _ _ (N1.frame _ _ rb)) (N2.frame _ _ (N1.frame _ _ rp)) eb
  rw [e3, ok_bind]
  rcases h with ⟨hb, h⟩ | ⟨hb, R, h, er, P3⟩
  · left; rw [hb, h]; exact ⟨rfl, rfl⟩
  · right
    have l3 := P3.len
    rw [hb, check_true rfl, ok_bind, h, ok_bind]
    obtain ⟨s4, e4, N4⟩ := create_new P3.inv (Mod.fit1 M) 0
    rw [e4, ok_bind]
    have l4 := N4.len
    have r4 := N4.res
    have l3' : s3.mem.objs.length = s.mem.objs.length + 2 := by omega
    rw [l3'] at r4
    have keep : ∀ j X, Rep s1 j X → Rep s4 j X := fun j X h =>
      N4.frame _ _ (P3.frame j X (by have := h.lt; omega) (N2.frame _ _ h))
    have hm := mul_fresh N4.inv (keep _ _ (N1.frame _ _ ra)) (N4.frame _ _ P3.res) r4
      (by have := ra.lt; omega) (by omega)
    rcases Big.mul?_spec K.lim A R ea.c er.c with ⟨Z, e, c, f, v, -, -⟩ | ⟨-, h⟩
    · rw [e] at hm
      obtain ⟨s5, e5, P5⟩ := hm
      rw [e5, ok_bind]
      obtain ⟨s', g1, R', g2, g3⟩ := modNew_exact (K := K) (p := p) (s3 := s3) (W := Z) I N1 (by omega) P5.inv
        (fun j X h => P5.frame j X (by have := h.lt; omega) (keep _ _ h)) (by rw [P5.len]; omega) P5.res rp c M.canon
        (by have := M.one_lt; omega)
      refine ⟨s', R', g1, ?_, g3⟩
      unfold Big.mul; rw [e]; exact g2
    · rw [M.room.fits (by have := ea.len M.canon; have := er.len M.canon; omega)] at h; cases h

end fp

end Ack.Mem
