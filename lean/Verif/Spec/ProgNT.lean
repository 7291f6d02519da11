import Verif.Model.AliasNT
import Verif.Spec.Prog
/-!
# What a program with number-theoretic functions computes

Independent of words, buffers and memory.
-/
namespace Ack.Spec.Prog
open Ack.Mem (NStmt)

/-- The integers `e'` after one statement, for arguments in the domain of the function. -/
def StepN (e : Env) : NStmt → Env → Prop
  | .base c, e' => eval e c = some e'
  | .pow z x y, e' => ∃ a b, look e x = some a ∧ look e y = some b ∧ live e z ∧ 0 < b ∧ e' = put e z (a ^ b.toNat)
  | .modexp z x y m, e' => ∃ a b n, look e x = some a ∧ look e y = some b ∧ look e m = some n ∧ live e z ∧ z ≠ m ∧
    0 ≤ a ∧ 2 ≤ b ∧ 0 < n ∧ e' = put e z (a ^ b.toNat % n)
  | .modinv y x m, e' => ∃ a n r, look e x = some a ∧ look e m = some n ∧ y < e.length ∧ 0 ≤ a ∧ 1 < n ∧
    0 < r ∧ r < n ∧ r * a % n = 1 ∧ e' = put e y r
  | .gcd z x y, e' => ∃ a b, look e x = some a ∧ look e y = some b ∧ z < e.length ∧ 0 ≤ a ∧ 0 ≤ b ∧ e' = put e z (Int.gcd a b)
  | .lcm z x y, e' => ∃ a b, look e x = some a ∧ look e y = some b ∧ live e z ∧ 0 ≤ a ∧ 0 ≤ b ∧ (a ≠ 0 ∨ b ≠ 0) ∧
    e' = put e z (Int.lcm a b)

/-- The capacity suffices. -/
def RoomN (cap : Option Nat) (e : Env) : NStmt → Prop
  | .base c => Room cap e c
  | .pow _ x y => ∀ a b, look e x = some a → look e y = some b → fits cap (words a * max 15 b.toNat + 1)
  | .modexp _ x _ m => ∀ a n, look e x = some a → look e m = some n → fits cap (2 * max (words a) (words n))
  | .modinv _ x m => ∀ a n, look e x = some a → look e m = some n → fits cap (max (words a) (words n) + 1)
  | .gcd .. => True
  | .lcm _ x y => ∀ a b, look e x = some a → look e y = some b → fits cap (words a + words b)

/-- No quotient overwrites its divisor in the cases in which that goes wrong. -/
def SafeN (e : Env) : NStmt → Prop
  | .base c => DivSafe e c
  | .lcm _ x y => ∀ a b, look e x = some a → look e y = some b →
    (Int.gcd a b).size % 32 ≠ 0 ∨ (Int.gcd a b).size ≤ 32 ∨ a.natAbs < 2 ^ (Int.gcd a b).size
  | _ => True

/-- Growable storage only: no sum of magnitudes longer than the `N` inline words goes into one of its operands. -/
def Inline (N : Nat) (e : Env) : NStmt → Prop
  | .base c => ¬ AddsInto N e c
  | .modinv _ _ m => ∀ n, look e m = some n → words n ≤ N
  | _ => True

/-- The integers after a program all of whose statements satisfy `P` when they are reached. -/
inductive RunsN (P : Env → NStmt → Prop) : Env → List NStmt → Env → Prop
  | nil (e : Env) : RunsN P e [] e
  | cons {e e1 e' : Env} {c : NStmt} {p : List NStmt} : P e c → StepN e c e1 → RunsN P e1 p e' → RunsN P e (c :: p) e'

instance (cap : Option Nat) (e : Env) (c : NStmt) : Decidable (RoomN cap e c) := by cases c <;> unfold RoomN <;> infer_instance
instance (e : Env) (c : NStmt) : Decidable (SafeN e c) := by cases c <;> unfold SafeN <;> infer_instance
instance (N : Nat) (e : Env) (c : NStmt) : Decidable (Inline N e c) := by cases c <;> unfold Inline <;> infer_instance

end Ack.Spec.Prog
