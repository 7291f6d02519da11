import Verif.Proof.Ecdsa
/-!
# ECDSA: the group-theoretic facts
-/
namespace Ack
open Big WeierstrassCurve

section
variable {P N : ℕ} [Fact P.Prime] {cap : Cap} {C : Curve} {G Q R : C.Pt P}

theorem zsmul_congr (h : (N : ℤ) • G = 0) {a b : ℤ} (hab : a ≡ b [ZMOD N]) : a • G = b • G := by
  obtain ⟨c, hc⟩ := Int.modEq_iff_dvd.1 hab
  have : b = a + c * N := by rw [mul_comm c]; omega
  rw [this, add_zsmul, mul_zsmul', smul_comm, h, zsmul_zero, add_zero]

theorem zsmul_emod (h : (N : ℤ) • G = 0) (a : ℤ) : (a % N) • G = a • G := zsmul_congr h (Int.mod_modEq _ _)

theorem exists_inv (hN : N.Prime) {s : ℤ} (h1 : 1 ≤ s) (h2 : s < N) : ∃ w : ℤ, s * w ≡ 1 [ZMOD N] := by
  have hc : IsCoprime s (N : ℤ) := by
    rw [Int.isCoprime_iff_gcd_eq_one, Int.gcd_comm]
    have : Int.gcd (N : ℤ) s = Nat.gcd N s.natAbs := by simp [Int.gcd]
    rw [this]
    apply (Nat.Prime.coprime_iff_not_dvd hN).2
    intro hd
    have := Nat.le_of_dvd (by omega) hd
    omega
  obtain ⟨a, b, hab⟩ := hc
  exact ⟨a, Int.modEq_iff_dvd.2 ⟨b, by rw [← hab]; ring⟩⟩

/-- Signatures made by the signing procedure are valid. -/
theorem honest_valid (hN : N.Prime) (hG : (N : ℤ) • G = 0) {e d k r s : ℤ} (hQ : Q = d • G) (hQ0 : Q ≠ 0) {x y h}
    (hk : k • G = .some x y h) (hr : r = (x.val : ℤ) % N) (hr1 : 1 ≤ r) (hs1 : 1 ≤ s) (hs2 : s < N) (hs : s * k ≡ e + r * d [ZMOD N]) :
    EcdsaValid N G Q e r s := by
  obtain ⟨w, hw⟩ := exists_inv hN hs1 hs2
  have hNp := hN.pos
  refine ⟨hQ0, hr1, by rw [hr]; exact Int.emod_lt_of_pos _ (by omega), hs1, hs2, w, hw, x, y, h, ?_, hr.symm⟩
  have hQN : (N : ℤ) • Q = 0 := by rw [hQ, smul_comm, hG, zsmul_zero]
  rw [zsmul_emod hG, zsmul_emod hQN, hQ, ← mul_zsmul, ← add_zsmul, ← hk]
  apply zsmul_congr hG
  calc e * w + r * w * d = (e + r * d) * w := by ring
    _ ≡ (s * k) * w [ZMOD N] := (hs.symm).mul_right _
    _ = k * (s * w) := by ring
    _ ≡ k * 1 [ZMOD N] := hw.mul_left _
    _ = k := mul_one _

theorem sum_eq (hG : (N : ℤ) • G = 0) (hR : (N : ℤ) • R = 0) {a b a' b' : ℤ} (ha : a ≡ a' [ZMOD N]) (hb : b ≡ b' [ZMOD N]) :
    a • G + b • R = a' • G + b' • R := by rw [zsmul_congr hG ha, zsmul_congr hR hb]

/-- The key computed from a nonce point accepts the signature. -/
theorem recovered_valid (hN : N.Prime) (hG : (N : ℤ) • G = 0) (hR : (N : ℤ) • R = 0) {e r s w : ℤ} {j : ℕ} (hr1 : 1 ≤ r) (hr2 : r < N)
    (hs1 : 1 ≤ s) (hs2 : s < N) (hw : r * w ≡ 1 [ZMOD N]) (hj : j < 4) (hn : IsNonce N r j R) (hQ : Q = (-e * w % N) • G + (s * w % N) • R) (hQ0 : Q ≠ 0) :
    EcdsaValidSmall N G Q e r s := by
  obtain ⟨w', hw'⟩ := exists_inv hN hs1 hs2
  obtain ⟨x, y, h, hRe, hx, -⟩ := hn
  refine ⟨hQ0, hr1, hr2, hs1, hs2, w', hw', x, y, h, ?_, ?_, ?_⟩
  · have hQN : (N : ℤ) • Q = 0 := by rw [hQ, zsmul_add, smul_comm, hG, zsmul_zero, smul_comm, hR, zsmul_zero, zero_add]
    rw [zsmul_emod hG, zsmul_emod hQN, hQ, zsmul_emod hG, zsmul_emod hR, zsmul_add, ← mul_zsmul, ← mul_zsmul, ← add_assoc, ← add_zsmul, ← hRe]
    have h1 : e * w' + r * w' * (-e * w) ≡ 0 [ZMOD N] := by
      calc e * w' + r * w' * (-e * w) = e * w' + (-(e * w')) * (r * w) := by ring
        _ ≡ e * w' + (-(e * w')) * 1 [ZMOD N] := (hw.mul_left _).add_left _
        _ = 0 := by ring
    have h2 : r * w' * (s * w) ≡ 1 [ZMOD N] := by
      calc r * w' * (s * w) = (r * w) * (s * w') := by ring
        _ ≡ 1 * 1 [ZMOD N] := hw.mul hw'
        _ = 1 := by ring
    rw [sum_eq hG hR h1 h2, zero_zsmul, one_zsmul, zero_add]
  · rw [hx, Int.add_mul_emod_self_right, Int.emod_eq_of_lt (by omega) hr2]
  · have : j / 2 = 0 ∨ j / 2 = 1 := by omega
    rcases this with e | e <;> rw [e] at hx <;> push_cast at hx <;> omega

/-- From a valid signature and its nonce point the key is computed. -/
theorem key_of_valid (hG : (N : ℤ) • G = 0) (hQN : (N : ℤ) • Q = 0) {e r s w u : ℤ} (hw : s * w ≡ 1 [ZMOD N]) (hu : r * u ≡ 1 [ZMOD N])
    (hR : R = (e * w % N) • G + (r * w % N) • Q) : (-e * u % N) • G + (s * u % N) • R = Q := by
  have hRN : (N : ℤ) • R = 0 := by rw [hR, zsmul_add, smul_comm, hG, zsmul_zero, smul_comm, hQN, zsmul_zero, zero_add]
  rw [zsmul_emod hG, zsmul_emod hRN, hR, zsmul_emod hG, zsmul_emod hQN, zsmul_add, ← mul_zsmul, ← mul_zsmul, ← add_assoc, ← add_zsmul]
  have h1 : -e * u + s * u * (e * w) ≡ 0 [ZMOD N] := by
    calc -e * u + s * u * (e * w) = -e * u + (e * u) * (s * w) := by ring
      _ ≡ -e * u + (e * u) * 1 [ZMOD N] := (hw.mul_left _).add_left _
      _ = 0 := by ring
  have h2 : s * u * (r * w) ≡ 1 [ZMOD N] := by
    calc s * u * (r * w) = (r * u) * (s * w) := by ring
      _ ≡ 1 * 1 [ZMOD N] := hu.mul hw
      _ = 1 := by ring
  rw [sum_eq hG hQN h1 h2, zero_zsmul, one_zsmul, zero_add]

/-- No point annihilated by an odd number has y = 0. -/
theorem y_ne_zero (hodd : N % 2 = 1) {x y h} (hR : (N : ℤ) • (.some x y h : C.Pt P) = 0) : y ≠ 0 := by
  intro hy
  obtain ⟨h', e⟩ := neg_at h
  have h2 : (2 : ℤ) • (.some x y h : C.Pt P) = 0 := by
    rw [two_zsmul]
    nth_rewrite 1 [← neg_neg (.some x y h : C.Pt P)]
    rw [e, ← sub_eq_neg_add, sub_eq_zero]
    exact some_eq_iff.2 ⟨rfl, by rw [hy, neg_zero]⟩
  have : (.some x y h : C.Pt P) = 0 := by
    have h3 : (N : ℤ) = 1 + (N / 2 : ℕ) * 2 := by omega
    rw [h3, add_zsmul, one_zsmul, mul_zsmul, h2, zsmul_zero, add_zero] at hR
    exact hR
  cases this

theorem valid_symm (hG : (N : ℤ) • G = 0) (hQN : (N : ℤ) • Q = 0) {e r s : ℤ} (h : EcdsaValid N G Q e r s) : EcdsaValid N G Q e r (N - s) := by
  obtain ⟨h0, r1, r2, s1, s2, w, hw, x, y, hn, e1, e2⟩ := h
  obtain ⟨h', en⟩ := neg_at hn
  refine ⟨h0, r1, r2, by omega, by omega, -w, ?_, x, -y, h', ?_, e2⟩
  · calc (N - s) * -w = s * w + N * (-w) := by ring
      _ ≡ s * w [ZMOD N] := Int.modEq_iff_dvd.2 ⟨w, by ring⟩
      _ ≡ 1 [ZMOD N] := hw
  · rw [zsmul_emod hG, zsmul_emod hQN] at e1 ⊢
    rw [← en, ← e1, mul_neg, mul_neg, neg_zsmul, neg_zsmul, neg_add]

end
end Ack
