import Verif.Model.Ecdsa
import Verif.Spec.Ecdsa
import Verif.Proof.EcVerify
import Verif.Proof.NamedCurve
/-!
# ECDSA
-/
namespace Ack
open Big WeierstrassCurve

theorem pow256 (k : ℕ) : (256 : ℕ) ^ k = 2 ^ (8 * k) := by rw [pow_mul]; norm_num

theorem byteLength_eq_size {n : Big} (c : n.Canon) {N : ℕ} (hN : n.toInt = N) (h0 : 0 < N) : n.byteLength = (N.size + 7) / 8 := by
  have hv : val n.ws = N := by
    have : n.toInt.natAbs = val n.ws := by unfold toInt; split <;> omega
    rw [← this, hN]; simp
  have hs : 0 < N.size := Nat.size_pos.2 h0
  apply le_antisymm
  · apply byteLength_le c _ (by omega)
    rw [hv, pow256]
    exact lt_of_lt_of_le (Nat.lt_size_self N) (Nat.pow_le_pow_right (by norm_num) (by omega))
  · have h1 := lt_byteLength c
    rw [hv, pow256, ← Nat.size_le] at h1
    omega

section
variable {P N : ℕ} [Fact P.Prime] {cap : Cap} {C : Curve} {G : C.Pt P} {n : Big}

theorem msgInt_spec (M : Mod cap n N) (msg : List Byte) :
    ∃ e, msgInt cap n msg = .ok e ∧ e.Canon ∧ e.ws.length ≤ n.ws.length ∧
      e.toInt = if N < beVal (leadBytes N.size msg) then (beVal (leadBytes N.size msg) : ℤ) - N else beVal (leadBytes N.size msg) := by
  have hl := byteLength_eq_size M.canon M.eq (by have := M.gt; omega)
  have ht : msg.take (min n.byteLength msg.length) = leadBytes N.size msg := by
    unfold leadBytes; rw [← hl, List.take_eq_take_iff]; simp
  have hlen : (leadBytes N.size msg).length ≤ n.byteLength := by unfold leadBytes; rw [← hl]; simp
  have hpos := Canon.len_pos M.canon
  have hw : n.byteLength ≤ 4 * n.ws.length := by
    apply byteLength_le M.canon _ (by omega)
    have := val_lt n.ws
    unfold B at this
    rw [pow256]
    calc val n.ws < _ := this
      _ = 2 ^ (32 * n.ws.length) := by rw [pow_mul]; norm_num
      _ = _ := by congr 1; omega
  obtain ⟨x, ex, cx, fx, -, vx⟩ := setBytes_spec cap (leadBytes N.size msg) (M.room.fits (by unfold wordSize; omega)) (M.room.fits (by omega))
  have lx : x.ws.length ≤ n.ws.length := by
    apply length_of_lt cx hpos
    rw [vx]
    have := beVal_lt (leadBytes N.size msg)
    simp only [Int.natAbs_natCast]
    refine lt_of_lt_of_le this ?_
    rw [pow256]
    exact Nat.pow_le_pow_right (by norm_num) (by omega)
  have hN := M.eq
  unfold msgInt ofBytes
  rw [ht, ex, ok_bind]
  by_cases h : N < beVal (leadBytes N.size msg)
  · have hg : opGt x n = true := by rw [opGt_iff cx M.canon]; omega
    obtain ⟨c, v⟩ := sub_room M.room cx M.canon lx le_rfl hpos
    rw [if_pos hg, if_pos h]
    refine ⟨_, rfl, c, ?_, by rw [v, vx, hN]⟩
    refine le_trans (len_le_of_abs c cx ?_) lx
    rw [v, abs_of_nonneg (by omega), abs_of_nonneg (by omega)]; omega
  · have hg : ¬ opGt x n = true := by rw [opGt_iff cx M.canon]; omega
    rw [if_neg hg, if_neg h]
    exact ⟨x, rfl, cx, lx, vx⟩

theorem mulmod_spec (M : Mod cap n N) {a w : Big} (ca : a.Canon) (la : a.ws.length ≤ n.ws.length) (ha : 0 ≤ a.toInt) (hw : Elt n w) :
    ∃ u, mod cap (mul cap a w) n = .ok u ∧ Elt n u ∧ u.toInt = a.toInt * w.toInt % N := by
  obtain ⟨c, f, v⟩ := mul_room M.room ca hw.c la (hw.len M.canon)
  have := M.gt
  have := M.eq
  obtain ⟨z, e, h, v'⟩ := mod_elt M.canon (by omega) c f (by rw [v]; exact mul_nonneg ha hw.nn)
  exact ⟨z, e, h, by rw [v', v, M.eq]⟩

theorem toAffine_zero (K : CurveOk P cap C) {j : JPt} {Q : C.Pt P} (h : j.Rep C Q) {R : APt} (e : j.toAffine cap = .ok R) (h0 : Q = 0) :
    R = APt.identity := by
  unfold JPt.toAffine at e
  rw [if_pos ((h.zero_iff K).2 h0)] at e
  cases e; rfl

theorem combine_spec (D : AnyDomain N cap C G) {u1 u2 : Big} (h1 : Elt C.n u1) (h2 : Elt C.n u2) {q : APt} {Q : C.Pt P} (hq : q.Rep C Q) :
    ∃ R, (JPt.ofAffine C.g >>= fun jg => JPt.ofAffine q >>= fun jq => mulAddFast cap (JPt.ops cap) u1 jg u2 jq >>= fun j => j.toAffine cap) = .ok R ∧
      R.Rep C (u1.toInt • G + u2.toInt • Q) ∧ (u1.toInt • G + u2.toInt • Q = 0 → R = APt.identity) := by
  obtain ⟨jg, eg, hg⟩ := JPt.ofAffine_spec D.K D.g
  obtain ⟨jq, eq, hjq⟩ := JPt.ofAffine_spec D.K hq
  have hp := Canon.len_pos D.Mn.canon
  have l1 := h1.len D.Mn.canon
  have l2 := h2.len D.Mn.canon
  obtain ⟨j, ej, hj⟩ := mulAddFast_spec (JPt.opsOk D.K D.P8) cap hg hjq h1.c h2.c h1.nn h2.nn (D.Mn.room.fits (by omega)) (D.Mn.room.fits (by omega))
  obtain ⟨R, eR, hR⟩ := JPt.toAffine_spec D.K hj
  refine ⟨R, ?_, hR, toAffine_zero D.K hj eR⟩
  rw [eg, ok_bind, eq, ok_bind, ej, ok_bind, eR]

theorem combine_nonpos (D : AnyDomain N cap C G) {u1 u2 : Big} (c1 : u1.Canon) (l1 : u1.ws.length ≤ C.n.ws.length) (n1 : u1.toInt ≤ 0)
    (h2 : Elt C.n u2) {q : APt} {Q : C.Pt P} (hq : q.Rep C Q) :
    ∃ R, (JPt.ofAffine C.g >>= fun jg => JPt.ofAffine q >>= fun jq => mulAddFast cap (JPt.ops cap) u1 jg u2 jq >>= fun j => j.toAffine cap) = .ok R ∧
      R.Rep C ((0 : ℤ) • G + u2.toInt • Q) ∧ ((0 : ℤ) • G + u2.toInt • Q = 0 → R = APt.identity) := by
  obtain ⟨jg, eg, hg⟩ := JPt.ofAffine_spec D.K D.g
  obtain ⟨jq, eq, hjq⟩ := JPt.ofAffine_spec D.K hq
  have hp := Canon.len_pos D.Mn.canon
  have l2 := h2.len D.Mn.canon
  obtain ⟨j, ej, hj⟩ := mulAddFast_exact (JPt.opsOk D.K D.P8) cap hg hjq c1 h2.c (D.Mn.room.fits (by omega)) (D.Mn.room.fits (by omega))
  rw [max_eq_right n1, max_eq_left h2.nn] at hj
  obtain ⟨R, eR, hR⟩ := JPt.toAffine_spec D.K hj
  refine ⟨R, ?_, hR, toAffine_zero D.K hj eR⟩
  rw [eg, ok_bind, eq, ok_bind, ej, ok_bind, eR]

theorem mulmod_nonpos (M : Mod cap n N) {a w : Big} (ca : a.Canon) (la : a.ws.length ≤ n.ws.length) (ha : a.toInt ≤ 0) (hw : Elt n w) :
    ∃ u, mod cap (mul cap a w) n = .ok u ∧ u.Canon ∧ u.ws.length ≤ n.ws.length ∧ u.toInt ≤ 0 := by
  obtain ⟨c, f, v⟩ := mul_room M.room ca hw.c la (hw.len M.canon)
  have h1 := M.gt
  have h2 := M.eq
  obtain ⟨z, e, h, -, v', -⟩ := mod_spec cap _ n c M.canon f (by omega)
  have hle : (mul cap a w).toInt ≤ 0 := by rw [v]; exact mul_nonpos_of_nonpos_of_nonneg ha hw.nn
  have hz : z.toInt ≤ 0 := by
    rw [v', ← neg_neg (mul cap a w).toInt, Int.neg_tmod]
    have := Int.tmod_nonneg n.toInt (show 0 ≤ -(mul cap a w).toInt by omega)
    omega
  refine ⟨z, e, h, len_le_of_abs h M.canon ?_, hz⟩
  rw [v', Int.abs_eq_natAbs, Int.natAbs_tmod, Int.abs_eq_natAbs]
  exact_mod_cast (Nat.mod_lt _ (by omega)).le

theorem inv_spec (M : Mod cap n N) (hN : N.Prime) {s : Big} (cs : s.Canon) (h1 : 1 ≤ s.toInt) (h2 : s.toInt < N) :
    ∃ w, modinv cap s n = .ok w ∧ Elt n w ∧ s.toInt * w.toInt ≡ 1 [ZMOD N] := by
  have hs : Elt n s := ⟨cs, by omega, by rw [M.eq]; exact h2⟩
  have := M.gt
  rcases modinv_elt M.room M.canon (by rw [M.eq]; omega) hs with ⟨-, h⟩ | ⟨z, e, -, hz, -, hi⟩
  · exfalso
    apply h
    rw [M.eq, Int.gcd_comm]
    have : Int.gcd (N : ℤ) s.toInt = Nat.gcd N s.toInt.natAbs := by simp [Int.gcd]
    rw [this]
    apply (Nat.Prime.coprime_iff_not_dvd hN).2
    intro hd
    have := Nat.le_of_dvd (by omega) hd
    omega
  · exact ⟨z, e, hz, by rw [mul_comm, ← M.eq]; exact hi⟩

theorem range_iff (M : Mod cap n N) {r s : Big} (cr : r.Canon) (cs : s.Canon) :
    (ltS r 1 || opGe r n || ltS s 1 || opGe s n) = false ↔ (1 ≤ r.toInt ∧ r.toInt < N) ∧ 1 ≤ s.toInt ∧ s.toInt < N := by
  have h1 := ltS_iff cr (y := 1)
  have h2 := opGe_iff cr M.canon
  have h3 := ltS_iff cs (y := 1)
  have h4 := opGe_iff cs M.canon
  have e1 : (1 : BitVec 32).toInt = 1 := by decide
  rw [e1] at h1 h3
  rw [M.eq] at h2 h4
  rw [← Bool.not_eq_true]
  simp only [Bool.or_eq_true, h1, h2, h3, h4]
  omega

theorem ecdsaVerify_exact (D : AnyDomain N cap C G) {q : APt} {Q : C.Pt P} (hq : q.Rep C Q) (msg : List Byte) {r s : Big} (cr : r.Canon) (cs : s.Canon) :
    ∃ b, ecdsaVerify cap q msg r s = .ok b ∧
      (b = true ↔ EcdsaValidSmall N G Q (beVal (leadBytes N.size msg)) r.toInt s.toInt) := by
  unfold ecdsaVerify
  by_cases h0 : Q = 0
  · rw [if_pos ((hq.zero_iff D.K).2 h0)]
    exact ⟨false, rfl, by simp [EcdsaValidSmall, h0]⟩
  rw [if_neg (by rw [hq.zero_iff D.K]; exact h0)]
  have hc : q.curve = some C := by
    cases Q with
    | zero => exact absurd rfl h0
    | some x y h => exact hq.1
  rw [hc, curveOf_some, ok_bind]
  by_cases hr : (ltS r 1 || opGe r C.n || ltS s 1 || opGe s C.n) = true
  · rw [if_pos hr]
    refine ⟨false, rfl, ?_⟩
    have := (range_iff D.Mn cr cs).not
    rw [Bool.not_eq_false, iff_true_left hr] at this
    simp only [Bool.false_eq_true, false_iff]
    rintro ⟨-, a, b, c, d, -⟩
    exact this ⟨⟨a, b⟩, c, d⟩
  rw [if_neg hr]
  obtain ⟨⟨r1, r2⟩, s1, s2⟩ := (range_iff D.Mn cr cs).1 (by simpa using hr)
  obtain ⟨e, ee, ce, le, ve⟩ := msgInt_spec D.Mn msg
  obtain ⟨w, ew, hw, hi⟩ := inv_spec D.Mn D.np cs s1 s2
  have e0 : 0 ≤ e.toInt := by rw [ve]; split <;> omega
  have eb : e.toInt ≡ beVal (leadBytes N.size msg) [ZMOD N] := by
    rw [ve]; split
    · exact (Int.modEq_iff_dvd.2 ⟨1, by ring⟩)
    · rfl
  obtain ⟨u1, eu1, hu1, vu1⟩ := mulmod_spec D.Mn ce le e0 hw
  have lr : r.ws.length ≤ C.n.ws.length := Elt.len (p := C.n) D.Mn.canon ⟨cr, by omega, by rw [D.Mn.eq]; exact r2⟩
  obtain ⟨u2, eu2, hu2, vu2⟩ := mulmod_spec D.Mn cr lr (by omega) hw
  obtain ⟨R, eR, hR, -⟩ := combine_spec D hu1 hu2 hq
  rw [ee, ok_bind, ew, ok_bind, eu1, ok_bind, eu2, ok_bind]
  have vu1' : u1.toInt = beVal (leadBytes N.size msg) * w.toInt % N := by rw [vu1]; exact eb.mul_right _
  rw [vu1', vu2] at hR
  -- the result does not depend on which inverse is taken
  have key : EcdsaValidSmall N G Q (beVal (leadBytes N.size msg)) r.toInt s.toInt ↔
      ∃ x y h, (beVal (leadBytes N.size msg) * w.toInt % N : ℤ) • G + (r.toInt * w.toInt % N) • Q = (.some x y h : C.Pt P) ∧
        (x.val : ℤ) % N = r.toInt ∧ x.val < 2 * N := by
    constructor
    · rintro ⟨-, -, -, -, -, w', hw', x, y, h, e1, e2⟩
      have hww : w' ≡ w.toInt [ZMOD N] := by
        calc w' ≡ w' * 1 [ZMOD N] := by rw [mul_one]
          _ ≡ w' * (s.toInt * w.toInt) [ZMOD N] := hi.symm.mul_left _
          _ = (s.toInt * w') * w.toInt := by ring
          _ ≡ 1 * w.toInt [ZMOD N] := hw'.mul_right _
          _ = w.toInt := one_mul _
      refine ⟨x, y, h, ?_, e2⟩
      rw [← e1]
      rw [(hww.mul_left _ : _ * w' % _ = _ * w.toInt % _), (hww.mul_left _ : r.toInt * w' % _ = _ * w.toInt % _)]
    · rintro ⟨x, y, h, e1, e2⟩
      exact ⟨h0, r1, r2, s1, s2, _, hi, x, y, h, e1, e2⟩
  have bind : (JPt.ofAffine C.g >>= fun jg => JPt.ofAffine q >>= fun jq => mulAddFast cap (JPt.ops cap) u1 jg u2 jq >>= fun j => j.toAffine cap >>= fun R =>
      if R.isIdentity = true then (Except.ok false : Res Bool)
      else do
        let x ← (if opGe R.x.v C.n = true then R.x.subB cap C.n else .ok R.x)
        .ok (opEq x.v r)) = (if R.isIdentity = true then (Except.ok false : Res Bool)
      else do
        let x ← (if opGe R.x.v C.n = true then R.x.subB cap C.n else .ok R.x)
        .ok (opEq x.v r)) := by
    have := congrArg (fun t : Res APt => t >>= fun R : APt => if R.isIdentity = true then (Except.ok false : Res Bool)
      else do
        let x ← (if opGe R.x.v C.n = true then R.x.subB cap C.n else .ok R.x)
        .ok (opEq x.v r)) eR
    simpa only [bind_assoc, ok_bind] using this
  rw [bind, key]
  generalize hS : (beVal (leadBytes N.size msg) * w.toInt % N : ℤ) • G + (r.toInt * w.toInt % N) • Q = S at hR
  cases S with
  | zero =>
    rw [if_pos (show R.isIdentity = true from hR)]
    refine ⟨false, rfl, ?_⟩
    simp only [Bool.false_eq_true, false_iff]
    rintro ⟨x, y, h, e1, -⟩
    cases e1
  | some x y h =>
    rw [if_neg (by rw [hR.not_id D.K]; simp)]
    obtain ⟨-, hx, -⟩ := hR
    have zx := hx.zval D.K.M
    have xlt : x.val < P := ZMod.val_lt x
    have hn := D.Mn.eq
    have red : ∃ x', (if opGe R.x.v C.n = true then R.x.subB cap C.n else .ok R.x) = .ok x' ∧ x'.v.Canon ∧
        x'.v.toInt = if (N : ℤ) ≤ x.val then (x.val : ℤ) - N else x.val := by
      by_cases hge : opGe R.x.v C.n = true
      · rw [if_pos hge]
        rw [opGe_iff hx.elt.c D.Mn.canon, hn, ← zx] at hge
        have hel : Elt C.p C.n := ⟨D.Mn.canon, by omega, by rw [hn, D.K.M.eq]; omega⟩
        obtain ⟨c, v⟩ := fpSub_spec D.K.M.room D.K.M.canon hx.elt hel
        refine ⟨⟨Fp.sub cap R.x.v C.n C.p, some C.p⟩, by unfold Fe.subB; rw [hx.deref]; rfl, c.c, ?_⟩
        show (Fp.sub cap R.x.v C.n C.p).toInt = _
        rw [if_pos hge, v, ← zx, hn, D.K.M.eq, Int.emod_eq_of_lt (by omega) (by omega)]
      · rw [if_neg hge]
        rw [opGe_iff hx.elt.c D.Mn.canon, hn, ← zx] at hge
        exact ⟨R.x, rfl, hx.elt.c, by rw [← zx, if_neg hge]⟩
    obtain ⟨x', ex', cx', vx'⟩ := red
    rw [ex', ok_bind]
    refine ⟨_, rfl, ?_⟩
    rw [opEq_iff cx' cr, vx']
    have hiff : (if (N : ℤ) ≤ x.val then (x.val : ℤ) - N else x.val) = r.toInt ↔ (x.val : ℤ) % N = r.toInt ∧ x.val < 2 * N := by
      generalize x.val = X
      have hm := Int.emod_add_mul_ediv (X : ℤ) N
      constructor
      · intro hh
        split at hh
        · refine ⟨?_, by omega⟩
          rw [← Int.sub_emod_right, Int.emod_eq_of_lt (by omega) (by omega), hh]
        · refine ⟨?_, by omega⟩
          rw [Int.emod_eq_of_lt (by omega) (by omega), hh]
      · rintro ⟨e1, e2⟩
        split
        · rw [← Int.sub_emod_right, Int.emod_eq_of_lt (by omega) (by omega)] at e1
          exact e1
        · rw [Int.emod_eq_of_lt (by omega) (by omega)] at e1
          exact e1
    rw [hiff]
    constructor
    · exact fun hh => ⟨x, y, h, rfl, hh⟩
    · rintro ⟨x2, y2, h2, e1, e2⟩
      cases e1
      exact e2

theorem EcdsaValidSmall.valid {Q : C.Pt P} {e r s : ℤ} (h : EcdsaValidSmall N G Q e r s) : EcdsaValid N G Q e r s := by
  obtain ⟨a, b, c, d, f, w, hw, x, y, hn, e1, e2, -⟩ := h
  exact ⟨a, b, c, d, f, w, hw, x, y, hn, e1, e2⟩

theorem EcdsaValid.small {Q : C.Pt P} {e r s : ℤ} (hp : P ≤ 2 * N) (h : EcdsaValid N G Q e r s) : EcdsaValidSmall N G Q e r s := by
  obtain ⟨a, b, c, d, f, w, hw, x, y, hn, e1, e2⟩ := h
  exact ⟨a, b, c, d, f, w, hw, x, y, hn, e1, e2, lt_of_lt_of_le (val_lt_P x) hp⟩

theorem ecdsaVerify_spec (D : Domain N cap C G) {q : APt} {Q : C.Pt P} (hq : q.Rep C Q) (msg : List Byte) {r s : Big} (cr : r.Canon) (cs : s.Canon) :
    ∃ b, ecdsaVerify cap q msg r s = .ok b ∧
      (b = true ↔ EcdsaValid N G Q (beVal (leadBytes N.size msg)) r.toInt s.toInt) := by
  obtain ⟨b, e, h⟩ := ecdsaVerify_exact D.toAnyDomain hq msg cr cs
  exact ⟨b, e, h.trans ⟨EcdsaValidSmall.valid, EcdsaValid.small D.pn⟩⟩

theorem recid_bits {k : BitVec 64} (h : k.toNat < 4) :
    ((k &&& 3) != k) = false ∧ (((k &&& 1) != 0) = decide (k.toNat % 2 = 1)) ∧ (((k >>> 1) != 0) = decide (k.toNat / 2 = 1)) := by
  have : k = 0 ∨ k = 1 ∨ k = 2 ∨ k = 3 := by
    have : k.toNat = 0 ∨ k.toNat = 1 ∨ k.toNat = 2 ∨ k.toNat = 3 := by omega
    rcases this with h | h | h | h <;> simp [← BitVec.toNat_inj, h]
  rcases this with rfl | rfl | rfl | rfl <;> decide

theorem recid_big {k : BitVec 64} (h : 4 ≤ k.toNat) : ((k &&& 3) != k) = true := by
  simp only [bne_iff_ne, ne_eq, ← BitVec.toNat_inj, BitVec.toNat_and]
  have : k.toNat &&& (3 : BitVec 64).toNat ≤ 3 := Nat.and_le_right
  omega

theorem IsNonce.unique (K : CurveOk P cap C) {r : ℤ} {k : ℕ} {R R' : C.Pt P} (h : IsNonce N r k R) (h' : IsNonce N r k R') : R = R' := by
  obtain ⟨X, Y, hn, rfl, x1, y0, y1⟩ := h
  obtain ⟨X', Y', hn', rfl, x1', y0', y1'⟩ := h'
  have hX : X = X' := by
    apply ZMod.val_injective P; omega
  subst hX
  have hsq : Y ^ 2 = Y' ^ 2 := by rw [K.ns.1 hn, K.ns.1 hn']
  rcases sq_eq_sq_iff_eq_or_eq_neg.1 hsq with e' | e'
  · exact (some_eq_iff (h := hn) (h' := hn')).2 ⟨rfl, e'⟩
  · exfalso
    have := val_neg_parity K.odd y0'
    rw [← e'] at this
    omega

theorem ecdsaRecover_range (D : AnyDomain N cap C G) (msg : List Byte) {r s : Big} (cr : r.Canon) (cs : s.Canon) (k : BitVec 64) (v : Bool)
    (h : ¬ ((1 ≤ r.toInt ∧ r.toInt < N) ∧ (1 ≤ s.toInt ∧ s.toInt < N) ∧ k.toNat < 4)) :
    ecdsaRecover cap C msg r s k v = .ok APt.identity := by
  unfold ecdsaRecover
  rw [if_pos]
  rw [Bool.or_eq_true]
  by_contra hc
  push Not at hc
  have h1 := (range_iff D.Mn cr cs).1 (by simpa using hc.1)
  have h2 : k.toNat < 4 := by
    by_contra h3
    exact hc.2 (recid_big (by omega))
  exact h ⟨h1.1, h1.2, h2⟩

theorem ecdsaRecover_full (D : AnyDomain N cap C G) (hNP : N ≤ P) (msg : List Byte) {r s : Big}
    (cr : r.Canon) (cs : s.Canon) (hr : 1 ≤ r.toInt ∧ r.toInt < N) (hs : 1 ≤ s.toInt ∧ s.toInt < N) {k : BitVec 64} (hk : k.toNat < 4) (v : Bool) :
    ∃ q, ecdsaRecover cap C msg r s k v = .ok q ∧
      ((q = APt.identity ∧ ∀ R : C.Pt P, IsNonce N r.toInt k.toNat R → v = true ∧ (N : ℤ) • R ≠ 0) ∨
       ∃ (R : C.Pt P) (w : ℤ), IsNonce N r.toInt k.toNat R ∧ (v = true → (N : ℤ) • R = 0) ∧ r.toInt * w ≡ 1 [ZMOD N] ∧
         q.Rep C ((if beVal (leadBytes N.size msg) ≤ 2 * N then -(beVal (leadBytes N.size msg)) * w % N else 0 : ℤ) • G + (s.toInt * w % N) • R) ∧
         ((if beVal (leadBytes N.size msg) ≤ 2 * N then -(beVal (leadBytes N.size msg)) * w % N else 0 : ℤ) • G + (s.toInt * w % N) • R = 0 → q = APt.identity)) := by
  unfold ecdsaRecover
  obtain ⟨b1, b2, b3⟩ := recid_bits hk
  have hn := D.Mn.eq
  have hp := D.K.M.eq
  have hpos := Canon.len_pos D.K.M.canon
  have ln : C.n.ws.length ≤ C.p.ws.length :=
    len_le_of_abs D.Mn.canon D.K.M.canon (by rw [abs_of_nonneg (by omega), abs_of_nonneg (by omega)]; omega)
  have lr : r.ws.length ≤ C.n.ws.length := Elt.len (p := C.n) D.Mn.canon ⟨cr, by omega, by rw [hn]; omega⟩
  have ls : s.ws.length ≤ C.n.ws.length := Elt.len (p := C.n) D.Mn.canon ⟨cs, by omega, by rw [hn]; omega⟩
  rw [if_neg (by rw [(range_iff D.Mn cr cs).2 ⟨hr, hs⟩, b1]; simp)]
  dsimp only
  obtain ⟨cpm, vpm⟩ := sub_room D.K.M.room D.K.M.canon D.Mn.canon le_rfl ln hpos
  rw [← D.pmn] at cpm vpm
  have hge := opGe_iff cr cpm
  rw [vpm, hp, hn] at hge
  by_cases hsk : ((k >>> 1 != 0) && opGe r C.pMinusN) = true
  · rw [if_pos hsk]
    refine ⟨_, rfl, Or.inl ⟨rfl, ?_⟩⟩
    rintro R ⟨X, Y, h, -, x1, -⟩
    exfalso
    rw [b3, Bool.and_eq_true, hge, decide_eq_true_iff] at hsk
    have := val_lt_P X
    rw [hsk.1] at x1
    push_cast at x1
    omega
  rw [if_neg hsk]
  obtain ⟨e, ee, ce, le, ve⟩ := msgInt_spec D.Mn msg
  rw [ee, ok_bind]
  -- the x-coordinate
  have hx0 : r.toInt + (k.toNat / 2 : ℕ) * N < P := by
    rw [b3, Bool.and_eq_true, hge, decide_eq_true_iff] at hsk
    have : k.toNat / 2 = 0 ∨ k.toNat / 2 = 1 := by omega
    rcases this with h | h
    · rw [h]; push_cast; omega
    · have : ¬ ((P : ℤ) - N ≤ r.toInt) := fun hh => hsk ⟨h, hh⟩
      rw [h]; push_cast; omega
  obtain ⟨x0, cx0, vx0, ex0⟩ : ∃ x0 : Big, x0.Canon ∧ x0.toInt = r.toInt + (k.toNat / 2 : ℕ) * N ∧
      (if (k >>> 1 != 0) = true then C.decompressInt cap (add cap r C.n) (k &&& 1 != 0) false else C.decompressInt cap r (k &&& 1 != 0) false)
        = C.decompress cap ⟨x0, some C.p⟩ (k &&& 1 != 0) := by
    have : k.toNat / 2 = 0 ∨ k.toNat / 2 = 1 := by omega
    rcases this with h | h <;> rw [h] at b3 ⊢ <;> rw [b3]
    · exact ⟨r, cr, by push_cast; omega, rfl⟩
    · obtain ⟨c, vv⟩ := add_room D.K.M.room cr D.Mn.canon (by omega) ln hpos
      exact ⟨_, c, by rw [vv, hn]; push_cast; omega, rfl⟩
  rw [ex0]
  have hnn : 0 ≤ r.toInt + (k.toNat / 2 : ℕ) * N := by
    have : (0 : ℤ) ≤ (k.toNat / 2 : ℕ) * N := by positivity
    omega
  obtain ⟨R, eR, hR1, hR2⟩ := decompress_spec D.K (x := ⟨x0, some C.p⟩) (Rep.mk' ⟨cx0, by omega, by rw [hp]; omega⟩) (k &&& 1 != 0)
  have hxv : ((res P x0).val : ℤ) = r.toInt + (k.toNat / 2 : ℕ) * N := by
    have : Rep P C.p ⟨x0, some C.p⟩ (res P x0) := Rep.mk' ⟨cx0, by omega, by rw [hp]; omega⟩
    rw [this.zval D.K.M]; exact vx0
  rw [eR, ok_bind]
  by_cases hsq : ∃ y : ZMod P, y ≠ 0 ∧ y ^ 2 = res P x0 ^ 3 + res P C.a * res P x0 + res P C.b
  · obtain ⟨Y, h, hRr, hY0, hpar⟩ := hR1 hsq
    have hnon : IsNonce N r.toInt k.toNat (.some (res P x0) Y h : C.Pt P) := by
      refine ⟨_, _, _, rfl, hxv, hY0, ?_⟩
      rw [b2, decide_eq_true_iff] at hpar
      omega
    rw [if_neg (by rw [hRr.not_id D.K]; simp)]
    generalize (.some (res P x0) Y h : C.Pt P) = R' at hRr hnon
    obtain ⟨t, et, ht⟩ := APt.mul_spec D.K hRr D.Mn.canon
    rw [hn] at ht
    have hbad : (if v = true then do
          let t ← R.mul cap C.n
          .ok !t.isIdentity
          else .ok false) = (.ok (v && !t.isIdentity) : Res Bool) := by
      cases v
      · rfl
      · rw [if_pos rfl, et]; rfl
    rw [hbad, ok_bind]
    by_cases hb : (v && !t.isIdentity) = true
    · rw [if_pos hb]
      refine ⟨_, rfl, Or.inl ⟨rfl, fun R2 hR2 => ?_⟩⟩
      rw [Bool.and_eq_true, Bool.not_eq_true', ← Bool.not_eq_true, ht.zero_iff D.K] at hb
      rw [hR2.unique D.K hnon]
      exact hb
    · rw [if_neg hb]
      obtain ⟨w, ew, hw, hi⟩ := inv_spec D.Mn D.np cr hr.1 hr.2
      obtain ⟨csub, vsub⟩ := sub_room D.Mn.room D.Mn.canon ce le_rfl le (Canon.len_pos D.Mn.canon)
      rw [hn] at vsub
      obtain ⟨u2, eu2, hu2, vu2⟩ := mulmod_spec D.Mn cs ls (by omega) hw
      have hvv : v = true → (N : ℤ) • R' = 0 := by
        intro hv
        rw [hv, Bool.true_and, Bool.not_eq_true', Bool.not_eq_false, ht.zero_iff D.K] at hb
        exact hb
      by_cases he : beVal (leadBytes N.size msg) ≤ 2 * N
      · have e0 : 0 ≤ e.toInt ∧ e.toInt ≤ N := by rw [ve]; split <;> omega
        have lsub : (sub cap C.n e).ws.length ≤ C.n.ws.length :=
          len_le_of_abs csub D.Mn.canon (by rw [abs_of_nonneg (by omega), abs_of_nonneg (by omega)]; omega)
        obtain ⟨u1, eu1, hu1, vu1⟩ := mulmod_spec D.Mn csub lsub (by omega) hw
        obtain ⟨q, eq, hq⟩ := combine_spec D hu1 hu2 hRr
        rw [ew, ok_bind, eu1, ok_bind, eu2, ok_bind]
        refine ⟨q, eq, Or.inr ⟨R', w.toInt, hnon, hvv, hi, ?_⟩⟩
        rw [vu1, vu2] at hq
        have : (sub cap C.n e).toInt ≡ -(beVal (leadBytes N.size msg)) [ZMOD N] := by
          rw [vsub, ve]
          split
          · exact (Int.modEq_iff_dvd.2 ⟨-2, by ring⟩)
          · exact (Int.modEq_iff_dvd.2 ⟨-1, by ring⟩)
        rw [(this.mul_right w.toInt : _ = _)] at hq
        rw [if_pos he]
        exact hq
      · have e0 : (N : ℤ) < e.toInt := by rw [ve]; split <;> omega
        have lsub : (sub cap C.n e).ws.length ≤ C.n.ws.length :=
          le_trans (len_le_of_abs csub ce (by rw [abs_of_nonpos (by omega), abs_of_nonneg (by omega)]; omega)) le
        obtain ⟨u1, eu1, cu1, lu1, vu1⟩ := mulmod_nonpos D.Mn csub lsub (by omega) hw
        obtain ⟨q, eq, hq⟩ := combine_nonpos D cu1 lu1 vu1 hu2 hRr
        rw [ew, ok_bind, eu1, ok_bind, eu2, ok_bind]
        refine ⟨q, eq, Or.inr ⟨R', w.toInt, hnon, hvv, hi, ?_⟩⟩
        rw [vu2] at hq
        rw [if_neg he]
        exact hq
  · have := hR2 hsq
    subst this
    rw [if_pos (show APt.identity.isIdentity = true from rfl)]
    refine ⟨_, rfl, Or.inl ⟨rfl, ?_⟩⟩
    rintro R ⟨X, Y, h, -, x1, y0, -⟩
    exfalso
    have hX : X = res P x0 := by apply ZMod.val_injective P; omega
    subst hX
    exact hsq ⟨Y, y0, D.K.ns.1 h⟩

theorem ecdsaRecover_exact (D : AnyDomain N cap C G) (hNP : N ≤ P) (msg : List Byte) {r s : Big}
    (cr : r.Canon) (cs : s.Canon) (hr : 1 ≤ r.toInt ∧ r.toInt < N) (hs : 1 ≤ s.toInt ∧ s.toInt < N) {k : BitVec 64} (hk : k.toNat < 4) (v : Bool) :
    ∃ q, ecdsaRecover cap C msg r s k v = .ok q ∧
      ((q = APt.identity ∧ ∀ R : C.Pt P, IsNonce N r.toInt k.toNat R → v = true ∧ (N : ℤ) • R ≠ 0) ∨
       ∃ (R : C.Pt P) (w : ℤ), IsNonce N r.toInt k.toNat R ∧ (v = true → (N : ℤ) • R = 0) ∧ r.toInt * w ≡ 1 [ZMOD N] ∧
         q.Rep C ((if beVal (leadBytes N.size msg) ≤ 2 * N then -(beVal (leadBytes N.size msg)) * w % N else 0 : ℤ) • G + (s.toInt * w % N) • R)) := by
  obtain ⟨q, e, h⟩ := ecdsaRecover_full D hNP msg cr cs hr hs hk v
  refine ⟨q, e, h.imp id ?_⟩
  rintro ⟨R, w, h1, h2, h3, h4, -⟩
  exact ⟨R, w, h1, h2, h3, h4⟩

theorem ecdsaRecover_spec (D : AnyDomain N cap C G) (hNP : N ≤ P) (msg : List Byte) (he : beVal (leadBytes N.size msg) ≤ 2 * N) {r s : Big}
    (cr : r.Canon) (cs : s.Canon) (hr : 1 ≤ r.toInt ∧ r.toInt < N) (hs : 1 ≤ s.toInt ∧ s.toInt < N) {k : BitVec 64} (hk : k.toNat < 4) (v : Bool) :
    ∃ q, ecdsaRecover cap C msg r s k v = .ok q ∧
      ((q = APt.identity ∧ ∀ R : C.Pt P, IsNonce N r.toInt k.toNat R → v = true ∧ (N : ℤ) • R ≠ 0) ∨
       ∃ (R : C.Pt P) (w : ℤ), IsNonce N r.toInt k.toNat R ∧ (v = true → (N : ℤ) • R = 0) ∧ r.toInt * w ≡ 1 [ZMOD N] ∧
         q.Rep C ((-(beVal (leadBytes N.size msg)) * w % N) • G + (s.toInt * w % N) • R)) := by
  have := ecdsaRecover_exact D hNP msg cr cs hr hs hk v
  simp only [if_pos he] at this
  exact this

end
end Ack
