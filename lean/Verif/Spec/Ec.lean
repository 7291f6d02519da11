import Verif.Model.Ec
import Verif.Spec.Fp
import Mathlib.Algebra.Field.ZMod
import Mathlib.AlgebraicGeometry.EllipticCurve.Affine.Point
/-!
# Vocabulary for statements about elliptic curves

The reference is Mathlib's group of points of a Weierstrass curve over `ZMod P`.
-/
namespace Ack
open WeierstrassCurve

/-- The curve y² = x³ + a x + b. -/
def shortW {F : Type} [Field F] (a b : F) : WeierstrassCurve.Affine F := ⟨0, 0, 0, a, b⟩

section
variable (P : ℕ) [Fact P.Prime]

/-- The curve over `ZMod P` that a curve object describes. -/
abbrev Curve.W (C : Curve) : WeierstrassCurve.Affine (ZMod P) := shortW (res P C.a) (res P C.b)

/-- The group of points of the curve. -/
abbrev Curve.Pt (C : Curve) : Type := (C.W P).Point

/-- Admissible curve objects: the modulus is the prime `P > 3` and its capacity suffices, the coefficients are residues,
the curve is not singular, `b ≠ 0` (so that `(0,0)`, which the code takes for the point at infinity, is not on the curve),
and the two cached flags are not set wrongly (the constructor sets them; see `Curve.make`). -/
structure CurveOk (cap : Cap) (C : Curve) : Prop where
  M : Mod cap C.p P
  gt3 : 3 < P
  a : Elt C.p C.a
  b : Elt C.p C.b
  b0 : res P C.b ≠ 0
  disc : 4 * res P C.a ^ 3 + 27 * res P C.b ^ 2 ≠ 0
  m3 : C.aIsMinus3 = true → res P C.a = -3
  z : C.aIsZero = true → res P C.a = 0

variable {P}

/-- The affine point object `q` denotes the group element `Q`. -/
def APt.Rep (C : Curve) (q : APt) : C.Pt P → Prop
  | .zero => q.isIdentity = true
  | .some x y _ => q.curve = some C ∧ Ack.Rep P C.p q.x x ∧ Ack.Rep P C.p q.y y

/-- The homogeneous point object `q` denotes the group element `Q`: `(x : y : 1) = (X : Y : Z)`. -/
def PPt.Rep (C : Curve) (q : PPt) : C.Pt P → Prop
  | .zero => q.isIdentity = true
  | .some x y _ => q.curve = some C ∧ ∃ Z : ZMod P, Z ≠ 0 ∧ Ack.Rep P C.p q.x (x * Z) ∧ Ack.Rep P C.p q.y (y * Z) ∧
      Ack.Rep P C.p q.z Z

/-- The Jacobian point object `q` denotes the group element `Q`: `x = X / Z²`, `y = Y / Z³`. -/
def JPt.Rep (C : Curve) (q : JPt) : C.Pt P → Prop
  | .zero => q.isIdentity = true
  | .some x y _ => q.curve = some C ∧ ∃ Z : ZMod P, Z ≠ 0 ∧ Ack.Rep P C.p q.x (x * Z ^ 2) ∧ Ack.Rep P C.p q.y (y * Z ^ 3) ∧
      Ack.Rep P C.p q.z Z

end
end Ack
