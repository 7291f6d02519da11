import Verif.Model.AliasFp
import Verif.Spec.ProgNT
import Mathlib.Algebra.Order.Group.Unbundled.Int
/-!
# What a program with field functions computes

Independent of words, buffers and memory.
-/
namespace Ack.Spec.Prog
open Ack.Mem (FStmt)

/-- `A` is a residue modulo `P`. -/
def Residue (P A : Int) : Prop := 0 ≤ A ∧ A < P

/-- `A` has more bytes than `P`: some power of 256 separates them. -/
def LongerI (A P : Int) : Prop := ∃ k : ℕ, P < 256 ^ k ∧ 256 ^ k ≤ |A|

/-- The numbers that `fp_normalize` reduces (C25). -/
def NormDom (A P : Int) : Prop :=
  Residue P A ∨ (P ≤ A ∧ (LongerI A P ∨ A < 2 * P)) ∨ (A < 0 ∧ LongerI A P ∧ ¬ P ∣ A) ∨ (A < 0 ∧ ¬ LongerI A P ∧ -P ≤ A)

/-- The integers `e'` after one statement, for arguments in the domain of the function. -/
def StepF (e : Env) : FStmt → Env → Prop
  | .nt c, e' => StepN e c e'
  | .add a b p, e' => ∃ A B P, look e a = some A ∧ look e b = some B ∧ look e p = some P ∧ Residue P A ∧ Residue P B ∧
    e' = e ++ [some ((A + B) % P)]
  | .addS a b p, e' => ∃ A P, look e a = some A ∧ look e p = some P ∧ Residue P A ∧ Residue P b.toInt ∧ e' = e ++ [some ((A + b.toInt) % P)]
  | .sub a b p, e' => ∃ A B P, look e a = some A ∧ look e b = some B ∧ look e p = some P ∧ Residue P A ∧ Residue P B ∧
    e' = e ++ [some ((A - B) % P)]
  | .subS a b p, e' => ∃ A P, look e a = some A ∧ look e p = some P ∧ Residue P A ∧ Residue P b.toInt ∧ e' = e ++ [some ((A - b.toInt) % P)]
  | .neg a p, e' => ∃ A P, look e a = some A ∧ look e p = some P ∧ Residue P A ∧ e' = e ++ [some (-A % P)]
  | .mul a b p, e' => ∃ A B P, look e a = some A ∧ look e b = some B ∧ look e p = some P ∧ 0 ≤ A ∧ 0 ≤ B ∧ 0 < P ∧
    e' = e ++ [some (A * B % P)]
  | .mulS a b p, e' => ∃ A P, look e a = some A ∧ look e p = some P ∧ 0 ≤ A ∧ 0 ≤ b.toInt ∧ 0 < P ∧ e' = e ++ [some (A * b.toInt % P)]
  | .sqr a p, e' => ∃ A P, look e a = some A ∧ look e p = some P ∧ 0 < P ∧ e' = e ++ [some (A * A % P)]
  | .div a b p, e' => ∃ A B P r, look e a = some A ∧ look e b = some B ∧ look e p = some P ∧ Residue P A ∧ Residue P B ∧ 1 < P ∧
    Int.gcd B P = 1 ∧ Residue P r ∧ r * B % P = A ∧ e' = e ++ [some r]
  | .normalize a p, e' => ∃ A P, look e a = some A ∧ look e p = some P ∧ 0 < P ∧ NormDom A P ∧ e' = put e a (A % P)

/-- The capacity suffices. -/
def RoomF (cap : Option Nat) (e : Env) : FStmt → Prop
  | .nt c => RoomN cap e c
  | .add a b _ => ∀ A B, look e a = some A → look e b = some B → fits cap (max (words A) (words B) + 1)
  | .addS a _ _ => ∀ A, look e a = some A → fits cap (words A + 1)
  | .sub a b _ => ∀ A B, look e a = some A → look e b = some B → 0 < A ∧ 0 < B ∨ fits cap (max (words A) (words B) + 1)
  | .subS a _ _ => ∀ A, look e a = some A → fits cap (words A + 1)
  | .mul a b _ => ∀ A B, look e a = some A → look e b = some B → fits cap (words A + words B)
  | .mulS a _ _ => ∀ A, look e a = some A → fits cap (words A + 1)
  | .sqr a _ => ∀ A, look e a = some A → fits cap (2 * words A)
  | .div a _ p => ∀ A P, look e a = some A → look e p = some P → fits cap (words A + words P)
  | _ => True

/-- No quotient overwrites its divisor in the cases in which that goes wrong. -/
def SafeF (e : Env) : FStmt → Prop
  | .nt c => SafeN e c
  | _ => True

/-- Growable storage only: no sum of magnitudes longer than the `N` inline words goes into one of its operands; the modulus of
a division is not longer than that. -/
def InlineF (N : Nat) (e : Env) : FStmt → Prop
  | .nt c => Inline N e c
  | .div _ _ p => ∀ P, look e p = some P → words P ≤ N
  | _ => True

/-- The integers after a program all of whose statements satisfy `Q` when they are reached. -/
inductive RunsF (Q : Env → FStmt → Prop) : Env → List FStmt → Env → Prop
  | nil (e : Env) : RunsF Q e [] e
  | cons {e e1 e' : Env} {c : FStmt} {p : List FStmt} : Q e c → StepF e c e1 → RunsF Q e1 p e' → RunsF Q e (c :: p) e'

instance (cap : Option Nat) (e : Env) (c : FStmt) : Decidable (RoomF cap e c) := by cases c <;> unfold RoomF <;> infer_instance
instance (e : Env) (c : FStmt) : Decidable (SafeF e c) := by cases c <;> unfold SafeF <;> infer_instance
instance (N : Nat) (e : Env) (c : FStmt) : Decidable (InlineF N e c) := by cases c <;> unfold InlineF <;> infer_instance

end Ack.Spec.Prog
