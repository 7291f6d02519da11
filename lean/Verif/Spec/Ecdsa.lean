import Verif.Spec.Ec
import Verif.Spec.Bytes
import Mathlib.Data.Nat.Size
import Mathlib.Data.Int.ModEq
/-!
# ECDSA, after FIPS 186-5 sections 6.4.1 and 6.4.2
-/
namespace Ack
open Big (Byte)

/-- The integer of a message (FIPS 186-5, 6.4.1 step 2): its leftmost `nbits` bits, all of it when it is not longer. -/
def fipsE (nbits : ℕ) (msg : List Byte) : ℕ :=
  if 8 * msg.length ≤ nbits then beVal msg else beVal msg / 2 ^ (8 * msg.length - nbits)

/-- The leading whole bytes covering `nbits` bits. -/
def leadBytes (nbits : ℕ) (msg : List Byte) : List Byte := msg.take ((nbits + 7) / 8)

section
variable {P : ℕ} [Fact P.Prime]

/-- `(r, s)` is a valid signature of the integer `e` under the public key `Q`, for generator `G` of order `N`. -/
def EcdsaValid {W : WeierstrassCurve.Affine (ZMod P)} (N : ℕ) (G Q : W.Point) (e r s : ℤ) : Prop :=
  Q ≠ 0 ∧ 1 ≤ r ∧ r < N ∧ 1 ≤ s ∧ s < N ∧ ∃ w : ℤ, s * w ≡ 1 [ZMOD N] ∧
    ∃ x y h, (e * w % N) • G + (r * w % N) • Q = (.some x y h : W.Point) ∧ (x.val : ℤ) % N = r

/-- A valid signature whose point has an x-coordinate below `2 N` (as all have when `P ≤ 2 N`). -/
def EcdsaValidSmall {W : WeierstrassCurve.Affine (ZMod P)} (N : ℕ) (G Q : W.Point) (e r s : ℤ) : Prop :=
  Q ≠ 0 ∧ 1 ≤ r ∧ r < N ∧ 1 ≤ s ∧ s < N ∧ ∃ w : ℤ, s * w ≡ 1 [ZMOD N] ∧
    ∃ x y h, (e * w % N) • G + (r * w % N) • Q = (.some x y h : W.Point) ∧ (x.val : ℤ) % N = r ∧ x.val < 2 * N

/-- `R` is the point that a signature with the component `r` and the recovery number `recid` speaks of: its x-coordinate
is `r`, or `r + N` when bit 1 of `recid` is set, and bit 0 is the parity of its y-coordinate. -/
def IsNonce {C : Curve} (N : ℕ) (r : ℤ) (recid : ℕ) (R : C.Pt P) : Prop :=
  ∃ X Y h, R = .some X Y h ∧ (X.val : ℤ) = r + (recid / 2 : ℕ) * N ∧ Y ≠ 0 ∧ Y.val % 2 = recid % 2

/-- Domain parameters of any cofactor: an admissible curve over a field of order greater than 8, a generator of prime order
`n`, and storage for products of numbers below `n`. -/
structure AnyDomain (N : ℕ) (cap : Cap) (C : Curve) (G : C.Pt P) : Prop where
  K : CurveOk P cap C
  P8 : 8 < P
  Mn : Mod cap C.n N
  np : N.Prime
  g : C.g.Rep C G
  g0 : G ≠ 0
  ord : (N : ℤ) • G = 0
  pmn : C.pMinusN = Big.sub cap C.p C.n

/-- Domain parameters for which the code is claimed to be right: those with `p ≤ 2n`. -/
structure Domain (N : ℕ) (cap : Cap) (C : Curve) (G : C.Pt P) : Prop extends AnyDomain N cap C G where
  pn : P ≤ 2 * N
end
end Ack
