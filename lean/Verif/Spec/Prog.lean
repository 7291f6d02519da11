import Verif.Model.AliasOps
import Verif.Spec.Big
import Mathlib.Data.Nat.Size
/-!
# What a straight-line program on integers computes

Independent of words, buffers and memory: the state is a list of integers, `none` for an object that was moved from (it
may only be assigned to).
-/
namespace Ack.Spec.Prog
open Ack.Mem (Stmt)

/-- Number of 32-bit words of a magnitude (zero takes one word). -/
def words (v : Int) : Nat := max 1 ((v.natAbs.size + 31) / 32)

/-- `n` words fit a capacity (`none`: unlimited). -/
def fits (cap : Option Nat) (n : Nat) : Prop := ∀ N, cap = some N → n ≤ N

/-- The magnitude with bit `i` set to `v`. -/
def withBit (m i : Nat) (v : Bool) : Nat := if v then m ||| 2 ^ i else m ^^^ (m &&& 2 ^ i)

/-- The integers of the objects; `none`: moved from. -/
abbrev Env := List (Option Int)

/-- The integer of object `x`, if it has one. -/
def look (e : Env) (x : Nat) : Option Int := e[x]?.join

/-- Object `z` exists and has a value. -/
def live (e : Env) (z : Nat) : Prop := (look e z).isSome = true

instance (e : Env) (z : Nat) : Decidable (live e z) := by unfold live; infer_instance

/-- Object `z` now has the value `v`. -/
def put (e : Env) (z : Nat) (v : Int) : Env := e.set z (some v)

/-- The integers after one statement; `none` if a position does not exist or was moved from, or a divisor is zero. -/
def eval (e : Env) : Stmt → Option Env
  | .create w => some (e ++ [some (w.toNat : Int)])
  | .set z w => if z < e.length then some (put e z w.toNat) else none
  | .assign z x => do let a ← look e x; if z < e.length then some (put e z a) else none
  | .copyNew x => do let a ← look e x; some (e ++ [some a])
  | .moveNew x => do let a ← look e x; some (e.set x none ++ [some a])
  | .moveAssign z x => do
    let a ← look e x
    if z < e.length then some (if z = x then e else (put e z a).set x none) else none
  | .swap x y => do let a ← look e x; let b ← look e y; some (put (put e x b) y a)
  | .neg z x => do let a ← look e x; if live e z then some (put e z (-a)) else none
  | .abs z x => do let a ← look e x; if live e z then some (put e z (a.natAbs : Int)) else none
  | .add z x y => do let a ← look e x; let b ← look e y; if live e z then some (put e z (a + b)) else none
  | .sub z x y => do let a ← look e x; let b ← look e y; if live e z then some (put e z (a - b)) else none
  | .addWord z x w n => do
    let a ← look e x; if live e z then some (put e z (if n then a - w.toNat else a + w.toNat)) else none
  | .mul z x y => do let a ← look e x; let b ← look e y; if live e z then some (put e z (a * b)) else none
  | .mulu1 z x w => do let a ← look e x; if live e z then some (put e z (a * w.toNat)) else none
  | .muls1 z x w => do let a ← look e x; if live e z then some (put e z (a * w.toInt)) else none
  | .shl z x n => do let a ← look e x; if live e z then some (put e z (a * 2 ^ n)) else none
  | .shr z x n => do let a ← look e x; if live e z then some (put e z (a.tdiv (2 ^ n))) else none
  | .divs1 z x w => do
    let a ← look e x; if live e z ∧ w.toInt ≠ 0 then some (put e z (a.tdiv w.toInt)) else none
  | .div z x y => do
    let a ← look e x; let b ← look e y; if live e z ∧ b ≠ 0 then some (put e z (a.tdiv b)) else none
  | .mod z x y => do
    let a ← look e x; let b ← look e y; if live e z ∧ b ≠ 0 then some (put e z (a.tmod b)) else none
  | .setBit x i v => do
    let a ← look e x
    some (put e x (if a < 0 then -(withBit a.natAbs i v : Int) else (withBit a.natAbs i v : Int)))

/-- The integers after a program. -/
def evals (e : Env) : List Stmt → Option Env
  | [] => some e
  | c :: p => do let e ← eval e c; evals e p

/-- Addition of magnitudes: needs one word more than the longer operand. -/
def OppSigns (a b : Int) : Prop := a < 0 ∧ 0 < b ∨ 0 < a ∧ b < 0

/-- The capacity suffices for one statement; `set_bit` stays within the words of a non-zero value. -/
def Room (cap : Option Nat) (e : Env) : Stmt → Prop
  | .create _ => fits cap 1
  | .set _ _ => fits cap 1
  | .add _ x y => ∀ a b, look e x = some a → look e y = some b → OppSigns a b ∨ fits cap (max (words a) (words b) + 1)
  | .sub _ x y => ∀ a b, look e x = some a → look e y = some b → OppSigns a (-b) ∨ fits cap (max (words a) (words b) + 1)
  | .addWord _ x _ _ => ∀ a, look e x = some a → fits cap (words a + 1)
  | .mul _ x y => ∀ a b, look e x = some a → look e y = some b → fits cap (words a + words b)
  | .mulu1 _ x _ => ∀ a, look e x = some a → fits cap (words a + 1)
  | .muls1 _ x _ => ∀ a, look e x = some a → fits cap (words a + 1)
  | .shl _ x n => ∀ a, look e x = some a → fits cap (words a + (n + 31) / 32)
  | .setBit x i _ => ∀ a, look e x = some a → a ≠ 0 ∧ i / 32 < words a
  | _ => True

/-- `div(y, x, y)`: the quotient may overwrite its divisor only if the divisor has one word, or a clear top bit in its top
word, or the dividend is not longer. -/
def DivSafe (e : Env) : Stmt → Prop
  | .div z x y => ∀ a b, look e x = some a → look e y = some b → z = y →
    b.natAbs.size % 32 ≠ 0 ∨ b.natAbs.size ≤ 32 ∨ a.natAbs < 2 ^ b.natAbs.size
  | _ => True

/-- The statement adds magnitudes into one of its operands, and one of them is longer than the `N` words that a buffer
stores in itself. -/
def AddsInto (N : Nat) (e : Env) : Stmt → Prop
  | .add z x y => (z = x ∨ z = y) ∧
    ∀ a b, look e x = some a → look e y = some b → ¬ OppSigns a b ∧ N < max (words a) (words b)
  | .sub z x y => (z = x ∨ z = y) ∧
    ∀ a b, look e x = some a → look e y = some b → ¬ OppSigns a (-b) ∧ N < max (words a) (words b)
  | _ => False

/-- Every statement of the program satisfies `P` in the state in which it is reached. -/
def Always (P : Env → Stmt → Prop) : Env → List Stmt → Prop
  | _, [] => True
  | e, c :: p => P e c ∧ ∀ e', eval e c = some e' → Always P e' p

/-! The conditions can be computed (for the examples). -/

instance decAll {α : Type} (o : Option α) (P : α → Prop) [DecidablePred P] : Decidable (∀ a, o = some a → P a) :=
  match o with
  | none => isTrue (fun _ h => nomatch h)
  | some a => decidable_of_iff (P a) ⟨fun h _ e => Option.some.inj e ▸ h, fun h => h a rfl⟩

instance decAll2 {α β : Type} (o : Option α) (o' : Option β) (P : α → β → Prop) [∀ a, DecidablePred (P a)] :
    Decidable (∀ a b, o = some a → o' = some b → P a b) :=
  decidable_of_iff (∀ a, o = some a → ∀ b, o' = some b → P a b) ⟨fun h a b e f => h a e b f, fun h a e b f => h a b e f⟩

instance (cap : Option Nat) (n : Nat) : Decidable (fits cap n) := by unfold fits; infer_instance
instance (a b : Int) : Decidable (OppSigns a b) := by unfold OppSigns; infer_instance
instance (cap : Option Nat) (e : Env) (c : Stmt) : Decidable (Room cap e c) := by
  cases c <;> unfold Room <;> infer_instance
instance (e : Env) (c : Stmt) : Decidable (DivSafe e c) := by cases c <;> unfold DivSafe <;> infer_instance
instance (N : Nat) (e : Env) (c : Stmt) : Decidable (AddsInto N e c) := by cases c <;> unfold AddsInto <;> infer_instance
instance decAlways (P : Env → Stmt → Prop) [∀ e c, Decidable (P e c)] : ∀ e p, Decidable (Always P e p)
  | _, [] => isTrue trivial
  | e, c :: p => @instDecidableAnd _ _ _ (@decAll _ (eval e c) _ (fun e' => decAlways P e' p))

/-- What an observer of object `i` sees: its `size_` words and `is_neg_`, as an integer. -/
def _root_.Ack.Mem.BigSt.value (s : Ack.Mem.BigSt) (i : Nat) : Res Int := do
  let p ← s.elem i 0
  let ws ← Ack.Mem.readN s.mem.heap p (s.size i)
  .ok (Big.toInt ⟨s.neg i, ws⟩)

end Ack.Spec.Prog
