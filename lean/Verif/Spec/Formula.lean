import Mathlib.Data.ZMod.Basic
import Mathlib.FieldTheory.Finite.Basic
/-!
# Formulas over a prime field

Arithmetic expressions and their value in the field of integers modulo `P`, where division by zero has no value.
-/
namespace Ack.Spec

inductive Formula
  | var (i : ℕ)
  | neg (a : Formula)
  | sqr (a : Formula)
  | inv (a : Formula)
  | add (a b : Formula)
  | sub (a b : Formula)
  | mul (a b : Formula)
  | div (a b : Formula)
deriving DecidableEq, Repr

open Classical in
/-- The value of a formula: `none` when a divisor is zero. -/
noncomputable def Formula.value {P : ℕ} [Fact P.Prime] (env : ℕ → ZMod P) : Formula → Option (ZMod P)
  | var i => some (env i)
  | neg a => do some (-(← a.value env))
  | sqr a => do some ((← a.value env) ^ 2)
  | inv a => do
    let x ← a.value env
    if x = 0 then none else some (x⁻¹)
  | add a b => do some ((← a.value env) + (← b.value env))
  | sub a b => do some ((← a.value env) - (← b.value env))
  | mul a b => do some ((← a.value env) * (← b.value env))
  | div a b => do
    let x ← a.value env
    let y ← b.value env
    if y = 0 then none else some (x / y)

end Ack.Spec
