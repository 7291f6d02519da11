import Verif.Proof.FeProg
import Mathlib.Tactic.NormNum.Prime
/-! # Programs on elements of a prime field (C91) -/
namespace Ack.Props
open Mem Spec.Fe
open Big (Byte)

/-- **C91**: a program that makes elements of a prime field with one modulus, computes with the operators, assigns results to elements
that may be operands, copies, compares and encodes, sees the values of the field of order `P`, in both storage kinds; or it stops
with a failed check, at a statement that divides by zero, inverts zero, gives bytes that do not fit, or gives a checked value that is
no residue.  There is no undefined behaviour and no endless loop. -/
theorem C91_programs {K : Kind} {d : List Byte} {P fuel : ℕ} [Fact P.Prime] (S : FeSetting K d P) (hf : Spec.Passes P fuel) (ts : List FeStmt)
    (ht : FeForm P 0 ts) :
    (∃ e : FeEnv P, FeRuns K.lim ⟨[], [], []⟩ ts e ∧ feSees K fuel d ts = .ok (e.els.map fun x => (x.val : ℤ), e.bools, e.strs)) ∨
    ((∃ ts1 t ts2, ∃ e : FeEnv P, ts = ts1 ++ t :: ts2 ∧ FeRuns K.lim ⟨[], [], []⟩ ts1 e ∧ FeStops K.lim e t) ∧
      feSees K fuel d ts = .error .abort) := sees_run S hf ts ht

/-- **C91**: the two cases exclude each other, statement by statement. -/
theorem C91_exclusive {P : ℕ} [Fact P.Prime] {cap : Cap} {e e' : FeEnv P} {t : FeStmt} (h : FeDoes cap e t e') : ¬ FeStops cap e t :=
  does_excl h

/-- Modulus 17 in four words of fixed storage. -/
theorem C91_setting : FeSetting ⟨4, false⟩ [17] 17 :=
  ⟨by decide, by decide, by unfold Spec.Ec.FitsBytes; decide, by decide +kernel, by decide⟩

instance : Fact (Nat.Prime 17) := ⟨by norm_num⟩

/-- A program with aliased operands: `x = 5; y = 3; x *= x; x -= y; x /= x; y = y.sqrt(); z = -x; z == y; z.to_bytes()`. -/
def C91_sample : List FeStmt :=
  [.elem [5] true, .elem [3] false, .set 0 (.bin .mul 0 0), .set 0 (.bin .sub 0 1), .set 0 (.bin .div 0 0), .set 1 (.un .sqrt 1),
   .new (.un .neg 0), .cmp .eq 2 1, .copySet 1 2, .set 1 (.int .add 1 3), .toBytes 2, .put 0 [0, 13] true, .set 0 (.un .sqrt 0)]

example : FeForm 17 0 C91_sample := by decide
example : feSees ⟨4, false⟩ 18 [17] C91_sample = .ok ([8, 2, 16], [false], [[16]]) := by decide +kernel
example : feSees ⟨1, true⟩ 18 [17] C91_sample = .ok ([8, 2, 16], [false], [[16]]) := by decide +kernel
/-- `x -= x; y /= x` stops. -/
example : feSees ⟨4, false⟩ 18 [17] [.elem [5] true, .set 0 (.bin .sub 0 0), .elem [3] false, .set 1 (.bin .div 1 0)] = .error .abort := by
  decide +kernel

/-- Without the check a value that is no residue is accepted, and the sum of it and 1 is neither reduced nor the residue of 51. -/
theorem C91_unchecked_wrong :
    feSees ⟨4, false⟩ 18 [17] [.elem [50] false, .new (.int .add 0 1)] = .ok ([50, 34], [], []) := by decide +kernel

end Ack.Props
