import Mathlib.Data.Fintype.Pigeonhole
import Verif.Proof.EcdsaNamed
/-!
# How many digests, keys and second components an ECDSA signature can go with (for C102)

The point of an accepted signature has the x-coordinate `r` or `r + n`, and is given by that choice and the parity of its
y-coordinate: at most four points, two when `r + n` is not below `p`.
-/
namespace Ack
open Big WeierstrassCurve

variable {P N : ℕ} [Fact P.Prime] {cap : Cap} {C : Curve} {G : C.Pt P}

/-- The point of an accepted signature. -/
def SigPt (C : Curve) (N : ℕ) (r : ℤ) (R : C.Pt P) : Prop :=
  ∃ x y h, R = (.some x y h : C.Pt P) ∧ (x.val : ℤ) % N = r ∧ x.val < 2 * N

theorem SigPt.ne {r : ℤ} {R : C.Pt P} (h : SigPt C N r R) : R ≠ 0 := by
  obtain ⟨x, y, hn, rfl, -⟩ := h
  rintro ⟨⟩

/-- Which of the points: the recovery number. -/
noncomputable def sigNo (N : ℕ) : C.Pt P → ℕ
  | .zero => 0
  | .some x y _ => 2 * (x.val / N) + y.val % 2

theorem sigNo_some (x y : ZMod P) (h) : sigNo N (.some x y h : C.Pt P) = 2 * (x.val / N) + y.val % 2 := rfl

theorem sigNo_lt {r : ℤ} {R : C.Pt P} (h : SigPt C N r R) : sigNo N R < 4 := by
  obtain ⟨x, y, hn, rfl, -, h2⟩ := h
  rw [sigNo_some]
  have := Nat.div_lt_of_lt_mul (show x.val < N * 2 by omega)
  omega

theorem sigNo_lt_two {r : ℤ} {R : C.Pt P} (h : SigPt C N r R) (hr : (P : ℤ) ≤ r + N) : sigNo N R < 2 := by
  obtain ⟨x, y, hn, rfl, h1, h2⟩ := h
  rw [sigNo_some]
  have hx : x.val < P := ZMod.val_lt x
  have hN : 0 < N := by omega
  have h3 := Nat.div_add_mod x.val N
  have h4 : (x.val : ℤ) % N = ((x.val % N : ℕ) : ℤ) := by push_cast; rfl
  have h5 : x.val / N = 0 := by
    by_contra h6
    have h7 : N * 1 ≤ N * (x.val / N) := Nat.mul_le_mul_left _ (Nat.one_le_iff_ne_zero.2 h6)
    omega
  omega

theorem sigPt_eq_or_neg (K : CurveOk P cap C) {r : ℤ} {R R' : C.Pt P} (h : SigPt C N r R) (h' : SigPt C N r R')
    (hx : sigNo N R / 2 = sigNo N R' / 2) : R' = R ∨ R' = -R := by
  obtain ⟨x, y, hn, rfl, h1, h2⟩ := h
  obtain ⟨x', y', hn', rfl, h1', h2'⟩ := h'
  rw [sigNo_some, sigNo_some] at hx
  have e : x.val / N = x'.val / N := by omega
  have e2 : x.val % N = x'.val % N := by
    have a : (x.val : ℤ) % N = ((x.val % N : ℕ) : ℤ) := by push_cast; rfl
    have b : (x'.val : ℤ) % N = ((x'.val % N : ℕ) : ℤ) := by push_cast; rfl
    omega
  have hX : x = x' := by
    apply ZMod.val_injective P
    rw [← Nat.div_add_mod x.val N, ← Nat.div_add_mod x'.val N, e, e2]
  subst hX
  have hsq : y ^ 2 = y' ^ 2 := by rw [K.ns.1 hn, K.ns.1 hn']
  rcases sq_eq_sq_iff_eq_or_eq_neg.1 hsq with e' | e'
  · left; exact (some_eq_iff (h := hn') (h' := hn)).2 ⟨rfl, e'.symm⟩
  · right
    rw [Affine.Point.neg_some]
    refine (some_eq_iff (h := hn') (h' := _)).2 ⟨rfl, ?_⟩
    rw [e']
    simp [Affine.negY, Curve.W, shortW]

theorem sigPt_unique (K : CurveOk P cap C) {r : ℤ} {R R' : C.Pt P} (h : SigPt C N r R) (h' : SigPt C N r R')
    (hx : sigNo N R = sigNo N R') : R = R' := by
  obtain ⟨x, y, hn, rfl, h1, h2⟩ := h
  obtain ⟨x', y', hn', rfl, h1', h2'⟩ := h'
  rw [sigNo_some, sigNo_some] at hx
  have e : x.val / N = x'.val / N := by omega
  have ey : y.val % 2 = y'.val % 2 := by omega
  have e2 : x.val % N = x'.val % N := by
    have a : (x.val : ℤ) % N = ((x.val % N : ℕ) : ℤ) := by push_cast; rfl
    have b : (x'.val : ℤ) % N = ((x'.val % N : ℕ) : ℤ) := by push_cast; rfl
    omega
  have hX : x = x' := by
    apply ZMod.val_injective P
    rw [← Nat.div_add_mod x.val N, ← Nat.div_add_mod x'.val N, e, e2]
  subst hX
  have hsq : y ^ 2 = y' ^ 2 := by rw [K.ns.1 hn, K.ns.1 hn']
  rcases sq_eq_sq_iff_eq_or_eq_neg.1 hsq with e' | e'
  · exact (some_eq_iff (h := hn) (h' := hn')).2 ⟨rfl, e'⟩
  · by_cases y0 : y' = 0
    · subst y0
      exact (some_eq_iff (h := hn) (h' := hn')).2 ⟨rfl, by rw [e', neg_zero]⟩
    · exfalso
      have := val_neg_parity K.odd y0
      rw [← e'] at this
      omega

/-- Among more than four points (more than two when `r + N` is not below `P`) two are equal. -/
theorem sigPt_pigeon (K : CurveOk P cap C) {r : ℤ} {k : ℕ} (hk : 4 < k ∨ (P : ℤ) ≤ r + N ∧ 2 < k) (R : Fin k → C.Pt P)
    (h : ∀ i, SigPt C N r (R i)) : ∃ i j, i ≠ j ∧ R i = R j := by
  obtain ⟨m, hm, hlt⟩ : ∃ m, m < k ∧ ∀ i, sigNo N (R i) < m := by
    rcases hk with hk | ⟨hr, hk⟩
    · exact ⟨4, hk, fun i => sigNo_lt (h i)⟩
    · exact ⟨2, hk, fun i => sigNo_lt_two (h i) hr⟩
  obtain ⟨i, j, hij, e⟩ := Fintype.exists_ne_map_eq_of_card_lt (fun i => (⟨sigNo N (R i), hlt i⟩ : Fin m)) (by simpa using hm)
  exact ⟨i, j, hij, sigPt_unique K (h i) (h j) (by simpa using e)⟩

/-- A multiplier that annihilates a point of prime order. -/
theorem zsmul_zero_dvd (hN : N.Prime) {Z : C.Pt P} (h0 : Z ≠ 0) (hZ : (N : ℤ) • Z = 0) {a : ℤ} (ha : a • Z = 0) : (N : ℤ) ∣ a := by
  by_contra hd
  have hc : IsCoprime (N : ℤ) a := (Int.prime_iff_natAbs_prime.2 (by simpa using hN)).coprime_iff_not_dvd.2 hd
  obtain ⟨u, v, huv⟩ := hc
  apply h0
  have : (u * N + v * a) • Z = Z := by rw [huv, one_zsmul]
  rw [← this, add_zsmul, mul_zsmul, mul_zsmul, hZ, ha, zsmul_zero, zsmul_zero, add_zero]

theorem inv_cancel_dvd (hN : N.Prime) {s w a : ℤ} (hw : s * w ≡ 1 [ZMOD N]) (h : (N : ℤ) ∣ a * w) : (N : ℤ) ∣ a := by
  rcases (Int.prime_iff_natAbs_prime.2 (by simpa using hN)).dvd_or_dvd h with h | h
  · exact h
  · exfalso
    have h1 := hw.symm.dvd
    have h2 : (N : ℤ) ∣ s * w := Dvd.dvd.mul_left h s
    have h3 : (N : ℤ) ∣ 1 := by
      have := dvd_sub h2 h1
      simpa using this
    exact (Int.prime_iff_natAbs_prime.2 (by simpa using hN)).not_dvd_one h3

/-- The digest is determined by the point. -/
theorem digest_of_pt (D : AnyDomain N cap C G) {Q : C.Pt P} {e e' r s w w' : ℤ} (hw : s * w ≡ 1 [ZMOD N]) (hw' : s * w' ≡ 1 [ZMOD N])
    (h : (e * w % N) • G + (r * w % N) • Q = (e' * w' % N) • G + (r * w' % N) • Q) : e ≡ e' [ZMOD N] := by
  have hww : w ≡ w' [ZMOD N] := by
    have h1 : s * w ≡ s * w' [ZMOD N] := hw.trans hw'.symm
    have h2 := h1.symm.dvd
    rw [← mul_sub] at h2
    have h3 : (N : ℤ) ∣ (w - w') * s := by rwa [mul_comm]
    have h4 := inv_cancel_dvd D.np (s := w) (w := s) (by rwa [mul_comm]) h3
    exact (Int.modEq_iff_dvd.2 h4).symm
  have e1 : r * w % N = r * w' % N := hww.mul_left r
  rw [e1] at h
  have h2 := add_right_cancel h
  rw [zsmul_emod D.ord, zsmul_emod D.ord] at h2
  have h3 : (e * w - e' * w') • G = 0 := by rw [sub_zsmul, h2]; exact sub_self _
  have h4 := zsmul_zero_dvd D.np D.g0 D.ord h3
  have h5 : (N : ℤ) ∣ (e - e') * w := by
    have h6 : (N : ℤ) ∣ e' * (w - w') := Dvd.dvd.mul_left hww.symm.dvd _
    have := dvd_sub h4 h6
    have e2 : e * w - e' * w' - e' * (w - w') = (e - e') * w := by ring
    rwa [e2] at this
  exact (Int.modEq_iff_dvd.2 (inv_cancel_dvd D.np hw h5)).symm

/-- The key is determined by the point. -/
theorem key_of_pt (D : AnyDomain N cap C G) {Q Q' : C.Pt P} (hQ : (N : ℤ) • Q = 0) (hQ' : (N : ℤ) • Q' = 0) {e r s w w' : ℤ}
    (r1 : 1 ≤ r) (r2 : r < N) (hw : s * w ≡ 1 [ZMOD N]) (hw' : s * w' ≡ 1 [ZMOD N])
    (h : (e * w % N) • G + (r * w % N) • Q = (e * w' % N) • G + (r * w' % N) • Q') : Q = Q' := by
  have hww : w ≡ w' [ZMOD N] := by
    have h1 : s * w ≡ s * w' [ZMOD N] := hw.trans hw'.symm
    have h2 := h1.symm.dvd
    rw [← mul_sub] at h2
    have h3 : (N : ℤ) ∣ (w - w') * s := by rwa [mul_comm]
    have h4 := inv_cancel_dvd D.np (s := w) (w := s) (by rwa [mul_comm]) h3
    exact (Int.modEq_iff_dvd.2 h4).symm
  have e1 : r * w' % N = r * w % N := (hww.mul_left r).symm
  have e2 : e * w' % N = e * w % N := (hww.mul_left e).symm
  rw [e1, e2] at h
  have h2 := add_left_cancel h
  rw [zsmul_emod hQ, zsmul_emod hQ'] at h2
  by_contra hne
  have h3 : (r * w) • (Q - Q') = 0 := by rw [zsmul_sub, h2]; exact sub_self _
  have h4 : (N : ℤ) • (Q - Q') = 0 := by rw [zsmul_sub, hQ, hQ', sub_zero]
  have h5 := inv_cancel_dvd D.np hw (zsmul_zero_dvd D.np (sub_ne_zero.2 hne) h4 h3)
  have := Int.le_of_dvd (by omega) h5
  omega

/-- The inverse of `s` is determined by the point, and by its negative up to sign. -/
theorem s_of_pt (D : AnyDomain N cap C G) {Q : C.Pt P} (hQ : (N : ℤ) • Q = 0) {e r s s' w w' : ℤ}
    (s1 : 1 ≤ s) (s2 : s < N) (s1' : 1 ≤ s') (s2' : s' < N) (hw : s * w ≡ 1 [ZMOD N]) (hw' : s' * w' ≡ 1 [ZMOD N])
    (h0 : (e * w % N) • G + (r * w % N) • Q ≠ 0) :
    ((e * w' % N) • G + (r * w' % N) • Q = (e * w % N) • G + (r * w % N) • Q → s' = s) ∧
    ((e * w' % N) • G + (r * w' % N) • Q = -((e * w % N) • G + (r * w % N) • Q) → s' = N - s) := by
  rw [zsmul_emod D.ord, zsmul_emod hQ] at h0 ⊢
  rw [zsmul_emod D.ord, zsmul_emod hQ]
  have f : ∀ u : ℤ, (e * u) • G + (r * u) • Q = u • (e • G + r • Q) := fun u => by
    rw [zsmul_add, ← mul_zsmul, ← mul_zsmul, mul_comm u e, mul_comm u r]
  rw [f w, f w'] at *
  have z0 : e • G + r • Q ≠ 0 := by intro h; rw [h, zsmul_zero] at h0; exact h0 rfl
  have zN : (N : ℤ) • (e • G + r • Q) = 0 := by
    rw [zsmul_add, smul_comm, D.ord, zsmul_zero, smul_comm, hQ, zsmul_zero, add_zero]
  constructor
  · intro h
    have h1 := zsmul_zero_dvd D.np z0 zN (a := w' - w) (by rw [sub_zsmul, h]; exact sub_self _)
    have h2 : (N : ℤ) ∣ (s' - s) * w := by
      have a1 := hw'.symm.dvd
      have a2 := hw.symm.dvd
      have a3 : (N : ℤ) ∣ s' * (w' - w) := Dvd.dvd.mul_left h1 _
      have := dvd_sub (dvd_sub a1 a2) a3
      have e2 : s' * w' - 1 - (s * w - 1) - s' * (w' - w) = (s' - s) * w := by ring
      rwa [e2] at this
    have h3 := inv_cancel_dvd D.np hw h2
    have h5 : s' - s = 0 := Int.eq_zero_of_abs_lt_dvd h3 (by rw [abs_lt]; constructor <;> omega)
    omega
  · intro h
    have h1 := zsmul_zero_dvd D.np z0 zN (a := w' + w) (by rw [add_zsmul, h]; exact neg_add_cancel _)
    have h2 : (N : ℤ) ∣ (s' + s) * w := by
      have a1 := hw'.symm.dvd
      have a2 := hw.symm.dvd
      have a3 : (N : ℤ) ∣ s' * (w' + w) := Dvd.dvd.mul_left h1 _
      have := dvd_add (dvd_sub a2 a1) a3
      have e2 : s * w - 1 - (s' * w' - 1) + s' * (w' + w) = (s' + s) * w := by ring
      rwa [e2] at this
    have h3 := inv_cancel_dvd D.np hw h2
    have h5 : s' + s - N = 0 := Int.eq_zero_of_abs_lt_dvd (m := (N : ℤ)) (dvd_sub_self_right.2 h3) (by rw [abs_lt]; constructor <;> omega)
    omega

end Ack
