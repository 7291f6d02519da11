import Verif.Proof.EcdsaBind
import Verif.Proof.RsaApi
/-!
# Private keys and public keys (for C104)
-/
namespace Ack
open Big WeierstrassCurve

variable {P N : ℕ} [Fact P.Prime] {cap : Cap} {C : Curve} {G : C.Pt P}

/-- Every natural number is the value of an integer object. -/
theorem exists_big (v : ℕ) : ∃ b : Big, b.Canon ∧ b.toInt = v := by
  obtain ⟨x, -, c, -, -, h⟩ := setBytes_spec none (encodeBE v v) rfl rfl
  refine ⟨x, c, ?_⟩
  rw [h, encodeBE_val, Nat.mod_eq_of_lt (lt_of_lt_of_le Nat.lt_two_pow_self (Nat.pow_le_pow_left (by norm_num) v))]

theorem zsmul_inj_range (hN : N.Prime) {Z : C.Pt P} (h0 : Z ≠ 0) (hZ : (N : ℤ) • Z = 0) {a b : ℤ} (a0 : 0 ≤ a) (a1 : a < N) (b0 : 0 ≤ b)
    (b1 : b < N) (h : a • Z = b • Z) : a = b := by
  have h1 := zsmul_zero_dvd hN h0 hZ (a := a - b) (by rw [sub_zsmul, h]; exact sub_self _)
  have := Int.eq_zero_of_abs_lt_dvd h1 (by rw [abs_lt]; constructor <;> omega)
  omega

/-- A multiple of `Z` that is in the group of multiples of `G` brings `Z` with it. -/
theorem mem_of_zsmul (hN : N.Prime) {Z : C.Pt P} (hZ : (N : ℤ) • Z = 0) {a b : ℤ} (ha : ¬ (N : ℤ) ∣ a) (h : a • Z = b • G) :
    ∃ k : ℤ, Z = k • G := by
  have hc : IsCoprime (N : ℤ) a := (Int.prime_iff_natAbs_prime.2 (by simpa using hN)).coprime_iff_not_dvd.2 ha
  obtain ⟨u, v, huv⟩ := hc
  refine ⟨v * b, ?_⟩
  have : (u * N + v * a) • Z = Z := by rw [huv, one_zsmul]
  rw [← this, add_zsmul, mul_zsmul, mul_zsmul, hZ, h, zsmul_zero, zero_add, ← mul_zsmul]

/-- When `n` annihilates every point, is prime and at least half of `p`, every point is a multiple of the generator: two
independent points would span more points than the curve has. -/
theorem generated (D : Domain N cap C G) (h5 : 5 ≤ N) (ho : ∀ Q : C.Pt P, (N : ℤ) • Q = 0) (Q : C.Pt P) : ∃ k : ℤ, Q = k • G := by
  by_contra hne
  obtain ⟨fin, hc⟩ := card_points (res P C.a) (res P C.b)
  have hinj : Function.Injective (fun ij : Fin N × Fin N => ((ij.1.val : ℤ) • G + (ij.2.val : ℤ) • Q : C.Pt P)) := by
    rintro ⟨i, j⟩ ⟨i', j'⟩ h
    have h : (i.val : ℤ) • G + (j.val : ℤ) • Q = (i'.val : ℤ) • G + (j'.val : ℤ) • Q := h
    have h2 : ((j.val : ℤ) - j'.val) • Q = ((i'.val : ℤ) - i.val) • G := by
      rw [sub_zsmul, sub_zsmul, ← sub_eq_add_neg, ← sub_eq_add_neg, sub_eq_sub_iff_add_eq_add, add_comm, h]
    have hj : j = j' := by
      by_contra hjj
      refine hne (mem_of_zsmul D.np (ho Q) (fun hd => hjj ?_) h2)
      have h3 := Int.eq_zero_of_abs_lt_dvd hd (by have := j.2; have := j'.2; rw [abs_lt]; constructor <;> omega)
      apply Fin.ext; omega
    subst hj
    have hi := zsmul_inj_range D.np D.g0 D.ord (Int.natCast_nonneg _) (by exact_mod_cast i.2) (Int.natCast_nonneg _) (by exact_mod_cast i'.2)
      (add_right_cancel h)
    have : i = i' := by apply Fin.ext; exact_mod_cast hi
    rw [this]
  haveI : Finite (C.Pt P) := fin
  have h1 := Nat.card_le_card_of_injective _ hinj
  rw [Nat.card_eq_fintype_card, Fintype.card_prod, Fintype.card_fin] at h1
  have h2 : N * N ≤ 2 * P + 1 := le_trans h1 hc
  have h3 := D.pn
  nlinarith

end Ack
