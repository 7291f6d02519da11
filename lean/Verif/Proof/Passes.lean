import Verif.Spec.Passes
import Mathlib.Data.ZMod.Basic
import Mathlib.Data.Fintype.EquivFin
import Mathlib.Data.Fintype.Card
import Mathlib.Algebra.Field.ZMod
import Mathlib.Tactic.FieldSimp
import Mathlib.Tactic.LinearCombination
import Mathlib.Tactic.NormNum
import Mathlib.Tactic.Ring
/-! # A number of passes that is always enough -/
namespace Ack.Spec

/-- Modulo any number above 2 some number is no square: 1 and -1 have the same square. -/
theorem exists_nonsquare {P : ℕ} (h : 2 < P) : ∃ z : ℕ, z < P ∧ ¬ IsSquare (z : ZMod P) := by
  haveI : NeZero P := ⟨by omega⟩
  haveI : Fact (2 < P) := ⟨h⟩
  have hn : ¬ Function.Injective (fun x : ZMod P => x * x) := fun hi => by
    have h1 : (1 : ZMod P) = -1 := hi (by dsimp only; ring)
    exact ZMod.neg_one_ne_one h1.symm
  have hs : ¬ Function.Surjective (fun x : ZMod P => x * x) := fun hs => hn (Finite.injective_iff_surjective.2 hs)
  simp only [Function.Surjective, not_forall, not_exists] at hs
  obtain ⟨a, ha⟩ := hs
  refine ⟨a.val, ZMod.val_lt a, fun ⟨r, hr⟩ => ha r ?_⟩
  rw [← hr, ZMod.natCast_zmod_val]

theorem two_size_le {P : ℕ} (h : 10 < P) : 2 * P.size + 2 ≤ P := by
  have key : ∀ k, 2 * (k + 4) + 2 ≤ 2 ^ (k + 4) := by
    intro k
    induction k with
    | zero => decide
    | succ k ih => rw [show k + 1 + 4 = (k + 4) + 1 by omega, pow_succ]; omega
  obtain h4 | h4 := Nat.lt_or_ge P.size 5
  · omega
  · have := (Nat.lt_size (m := P.size - 1) (n := P)).1 (by omega)
    by_cases h5 : P.size = 5
    · rw [h5] at this ⊢; omega
    · have := key (P.size - 1 - 4)
      rw [show P.size - 1 - 4 + 4 = P.size - 1 by omega] at this
      have h6 : 2 * P.size + 2 ≤ 2 ^ (P.size - 1) := by
        have := key (P.size - 1 - 5)
        have e : P.size - 1 = (P.size - 1 - 5 + 4) + 1 := by omega
        rw [e, pow_succ]
        omega
      omega

theorem Passes.of_lt {P fuel : ℕ} (h : 10 < P) (hf : P < fuel) : Passes P fuel := by
  have := two_size_le h
  obtain ⟨z, hz, hs⟩ := exists_nonsquare (P := P) (by omega)
  exact ⟨by omega, fun _ => ⟨z, by omega, hs⟩⟩

theorem passes_big {P : ℕ} (h : 2 < P) : Passes P (2 * P.size + 3 + P) := by
  obtain ⟨z, hz, hs⟩ := exists_nonsquare h
  exact ⟨by omega, fun _ => ⟨z, by omega, hs⟩⟩

/-- The least number that is no square modulo a prime is at most about its square root: if z is, so is ⌈P / z⌉. -/
theorem exists_small_nonsquare {P : ℕ} [hP : Fact P.Prime] (h : 2 < P) : ∃ z : ℕ, z * (z - 1) < P ∧ ¬ IsSquare (z : ZMod P) := by
  classical
  obtain ⟨z₀, -, hz₀⟩ := exists_nonsquare h
  have ex : ∃ z : ℕ, ¬ IsSquare (z : ZMod P) := ⟨z₀, hz₀⟩
  obtain ⟨z, hz, hmin⟩ : ∃ z : ℕ, ¬ IsSquare (z : ZMod P) ∧ ∀ y, y < z → IsSquare (y : ZMod P) :=
    ⟨Nat.find ex, Nat.find_spec ex, fun y hy => by have := Nat.find_min ex hy; rwa [not_not] at this⟩
  refine ⟨z, ?_, hz⟩
  have hz0 : z ≠ 0 := fun h => hz (by rw [h]; exact ⟨0, by simp⟩)
  have hz1 : z ≠ 1 := fun h => hz (by rw [h]; exact ⟨1, by simp⟩)
  have hnd : ¬ z ∣ P := fun hd => by
    rcases (Nat.dvd_prime hP.1).1 hd with h | h
    · exact hz1 h
    · exact hz (by rw [h]; exact ⟨0, by simp⟩)
  have hr : P % z ≠ 0 := fun h => hnd (Nat.dvd_of_mod_eq_zero h)
  have hrl := Nat.mod_lt P (Nat.pos_of_ne_zero hz0)
  have hdm := Nat.div_add_mod P z
  -- z * (P / z + 1) = P + (z - P % z)
  have hm : z * (P / z + 1) = P + (z - P % z) := by rw [Nat.mul_add, Nat.mul_one]; omega
  have hs : IsSquare ((z - P % z : ℕ) : ZMod P) := hmin _ (by omega)
  have hne : ((z - P % z : ℕ) : ZMod P) ≠ 0 := by
    rw [Ne, ZMod.natCast_eq_zero_iff]
    intro hd
    have h1 := Nat.le_of_dvd (by omega) hd
    have : z ≤ z₀ := by
      by_contra hlt
      exact hz₀ (hmin _ (by omega))
    have h2 : P ≤ z := by omega
    have h3 : P % z = P ∨ z = P := by
      rcases Nat.lt_or_eq_of_le h2 with h | h
      · exact .inl (Nat.mod_eq_of_lt h)
      · exact .inr h.symm
    obtain ⟨y, hy, hys⟩ := exists_nonsquare h
    exact hys (hmin y (by omega))
  by_contra hlt
  have hq : P / z + 1 < z := by
    by_contra hge
    have h1 : z - 1 ≤ P / z := by omega
    have h2 : z * (z - 1) ≤ z * (P / z) := Nat.mul_le_mul_left _ h1
    omega
  have hs2 := hmin _ hq
  have he : (z : ZMod P) * ((P / z + 1 : ℕ) : ZMod P) = ((z - P % z : ℕ) : ZMod P) := by
    rw [← Nat.cast_mul, hm, Nat.cast_add, ZMod.natCast_self, zero_add]
  have hm0 : ((P / z + 1 : ℕ) : ZMod P) ≠ 0 := fun h => hne (by rw [← he, h, mul_zero])
  obtain ⟨a, ha⟩ := hs
  obtain ⟨b, hb⟩ := hs2
  have hb0 : b ≠ 0 := fun h => hm0 (by rw [hb, h, mul_zero])
  refine hz ⟨a * b⁻¹, ?_⟩
  rw [ha, hb] at he
  field_simp
  linear_combination he

theorem Passes.of_sqrt {P fuel : ℕ} [Fact P.Prime] (h2 : 2 < P) (h : 2 * P.size + 3 ≤ fuel) (hf : P ≤ fuel * (fuel + 1)) : Passes P fuel := by
  obtain ⟨z, hz, hs⟩ := exists_small_nonsquare h2
  refine ⟨h, fun _ => ⟨z, ?_, hs⟩⟩
  by_contra hlt
  have h1 : (fuel + 1) * fuel ≤ z * (z - 1) := Nat.mul_le_mul (by omega) (by omega)
  rw [Nat.mul_comm] at h1
  omega

end Ack.Spec
