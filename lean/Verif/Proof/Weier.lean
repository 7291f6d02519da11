import Verif.Spec.Ec
/-!
# The group law of a short Weierstrass curve, in coordinates
-/
namespace Ack
open WeierstrassCurve

variable {F : Type} [Field F] [DecidableEq F]

variable {a b : F}

theorem shortW_eq (x y : F) : (shortW a b).Equation x y ↔ y ^ 2 = x ^ 3 + a * x + b := by
  rw [Affine.equation_iff]; unfold shortW; simp

theorem shortW_Δ (h : 4 * a ^ 3 + 27 * b ^ 2 ≠ 0) (h2 : (2 : F) ≠ 0) : (shortW a b).Δ ≠ 0 := by
  unfold WeierstrassCurve.Δ WeierstrassCurve.b₂ WeierstrassCurve.b₄ WeierstrassCurve.b₆ WeierstrassCurve.b₈ shortW
  simp only
  have : (-(0 ^ 2 + 4 * 0) ^ 2 * (0 ^ 2 * b + 4 * 0 * b - 0 * 0 * a + 0 * 0 ^ 2 - a ^ 2) - 8 * (2 * a + 0 * 0) ^ 3 -
      27 * (0 ^ 2 + 4 * b) ^ 2 + 9 * (0 ^ 2 + 4 * 0) * (2 * a + 0 * 0) * (0 ^ 2 + 4 * b) : F) = -(2 ^ 4 * (4 * a ^ 3 + 27 * b ^ 2)) := by ring
  rw [this]
  exact neg_ne_zero.2 (mul_ne_zero (pow_ne_zero _ h2) h)

theorem shortW_ns (h : 4 * a ^ 3 + 27 * b ^ 2 ≠ 0) (h2 : (2 : F) ≠ 0) {x y : F} :
    (shortW a b).Nonsingular x y ↔ y ^ 2 = x ^ 3 + a * x + b := by
  rw [← shortW_eq, ← Affine.equation_iff_nonsingular_of_Δ_ne_zero (shortW_Δ h h2)]

theorem some_congr {W : WeierstrassCurve.Affine F} {x y x' y' : F} {h : W.Nonsingular x y} (hx : x = x') (hy : y = y') :
    ∃ h', Affine.Point.some x y h = Affine.Point.some x' y' h' := by
  subst hx; subst hy; exact ⟨h, rfl⟩

theorem neg_at {x y : F} (h : (shortW a b).Nonsingular x y) :
    ∃ h', -(Affine.Point.some x y h) = Affine.Point.some x (-y) h' := by
  rw [Affine.Point.neg_some]
  exact some_congr rfl (by simp [Affine.negY, shortW])

theorem add_at {x1 y1 x2 y2 x3 y3 l : F} (h1 : (shortW a b).Nonsingular x1 y1) (h2 : (shortW a b).Nonsingular x2 y2)
    (hx : x1 ≠ x2) (hl : l * (x2 - x1) = y2 - y1) (e3 : x3 = l ^ 2 - x1 - x2) (e4 : y3 = l * (x1 - x3) - y1) :
    ∃ h', Affine.Point.some x1 y1 h1 + Affine.Point.some x2 y2 h2 = Affine.Point.some x3 y3 h' := by
  rw [Affine.Point.add_of_X_ne hx]
  have hs : (shortW a b).slope x1 x2 y1 y2 = l := by
    rw [Affine.slope_of_X_ne hx, div_eq_iff (sub_ne_zero.2 hx)]
    linear_combination hl
  apply some_congr
  · rw [hs, e3]; unfold Affine.addX shortW; simp
  · rw [hs, e4, e3]; unfold Affine.addY Affine.negAddY Affine.negY Affine.addX shortW; simp; ring

theorem dbl_at (h2 : (2 : F) ≠ 0) {x y x3 y3 l : F} (h : (shortW a b).Nonsingular x y) (hy : y ≠ 0)
    (hl : l * (2 * y) = 3 * x ^ 2 + a) (e3 : x3 = l ^ 2 - 2 * x) (e4 : y3 = l * (x - x3) - y) :
    ∃ h', Affine.Point.some x y h + Affine.Point.some x y h = Affine.Point.some x3 y3 h' := by
  have hn : (shortW a b).negY x y = -y := by unfold Affine.negY shortW; simp
  have hne : y ≠ (shortW a b).negY x y := by
    rw [hn]; intro h; apply hy
    have : 2 * y = 0 := by linear_combination h
    exact (mul_eq_zero.1 this).resolve_left h2
  rw [Affine.Point.add_self_of_Y_ne hne]
  have hs : (shortW a b).slope x x y y = l := by
    rw [Affine.slope_of_Y_ne rfl hne, hn, div_eq_iff (by rw [sub_neg_eq_add, ← two_mul]; exact mul_ne_zero h2 hy)]
    unfold shortW; simp only
    linear_combination -hl
  apply some_congr
  · rw [hs, e3]; unfold Affine.addX shortW; simp; ring
  · rw [hs, e4, e3]; unfold Affine.addY Affine.negAddY Affine.negY Affine.addX shortW; simp; ring

theorem dbl_at_zero {x y : F} (h : (shortW a b).Nonsingular x y) (hy : y = 0) :
    Affine.Point.some x y h + Affine.Point.some x y h = 0 :=
  Affine.Point.add_self_of_Y_eq (by unfold Affine.negY shortW; simp [hy])

theorem add_at_opp {x1 y1 x2 y2 : F} (h1 : (shortW a b).Nonsingular x1 y1) (h2 : (shortW a b).Nonsingular x2 y2)
    (hx : x1 = x2) (hy : y1 ≠ y2) : Affine.Point.some x1 y1 h1 + Affine.Point.some x2 y2 h2 = 0 := by
  refine Affine.Point.add_of_Y_eq hx ?_
  have e1 := (shortW_eq x1 y1).1 h1.1
  have e2 := (shortW_eq x2 y2).1 h2.1
  subst hx
  have : (y1 - y2) * (y1 + y2) = 0 := by linear_combination e1 - e2
  have := (mul_eq_zero.1 this).resolve_left (sub_ne_zero.2 hy)
  unfold Affine.negY shortW; simp
  linear_combination this

end Ack
