import Verif.Spec.IntProg
/-!
# Where a program written with integer operators stops, and programs that need no rules

Continues `Spec/IntProg.lean`.  `ExStops`, `CondStops` and `Stops` say that evaluation gets, within the rules, to a division by zero
or to the inverse of a number that has none.  `ExFree`, `CondFree` and `CmdFree` are conditions on the text of a program: every name is
declared, and it uses only forms for which the rules ask nothing on growable storage.
-/
namespace Ack.Spec.IntProg
open Ack.Mem (BOp Fn Ex Cond Cmd)
open Ack.Spec.Prog (words fits)

/-- Evaluation of an expression gets to a division by zero or to the inverse of a number that has none. -/
inductive ExStops (cap inl : Option Nat) (ρ : List Int) : Ex → Prop
  | bin_left {o : BOp} {x y : Ex} : ExStops cap inl ρ x → ExStops cap inl ρ (.bin o x y)
  | bin_right {o : BOp} {x y : Ex} {a : Int} : Means cap inl ρ x a → ExStops cap inl ρ y → ExStops cap inl ρ (.bin o x y)
  | bin {o : BOp} {x y : Ex} {a : Int} : o = .div ∨ o = .mod → Means cap inl ρ x a → Means cap inl ρ y 0 → ExStops cap inl ρ (.bin o x y)
  | binN_left {o : BOp} {x : Ex} {n : Native} : ExStops cap inl ρ x → ExStops cap inl ρ (.binN o x n)
  | binN {o : BOp} {x : Ex} {n : Native} {a : Int} : o = .div ∨ o = .mod → Means cap inl ρ x a → n.toInt = 0 → fits cap (width n) →
      ExStops cap inl ρ (.binN o x n)
  | neg {x : Ex} : ExStops cap inl ρ x → ExStops cap inl ρ (.neg x)
  | abs {x : Ex} : ExStops cap inl ρ x → ExStops cap inl ρ (.abs x)
  | shl {x : Ex} {n : Nat} : ExStops cap inl ρ x → ExStops cap inl ρ (.shl x n)
  | shr {x : Ex} {n : Nat} : ExStops cap inl ρ x → ExStops cap inl ρ (.shr x n)
  | call_left {f : Fn} {x y : Ex} : ExStops cap inl ρ x → ExStops cap inl ρ (.call f x y)
  | call_right {f : Fn} {x y : Ex} {a : Int} : Means cap inl ρ x a → ExStops cap inl ρ y → ExStops cap inl ρ (.call f x y)
  | modinv {x y : Ex} {a m : Int} : Means cap inl ρ x a → Means cap inl ρ y m → 0 ≤ a → 1 < m → Int.gcd a m ≠ 1 →
      fits cap (max (words a) (words m) + 1) → CallInline inl .modinv m → ExStops cap inl ρ (.call .modinv x y)
  | modexp_base {x y z : Ex} : ExStops cap inl ρ x → ExStops cap inl ρ (.modexp x y z)
  | modexp_exp {x y z : Ex} {a : Int} : Means cap inl ρ x a → ExStops cap inl ρ y → ExStops cap inl ρ (.modexp x y z)
  | modexp_mod {x y z : Ex} {a b : Int} : Means cap inl ρ x a → Means cap inl ρ y b → ExStops cap inl ρ z → ExStops cap inl ρ (.modexp x y z)

/-- Evaluation of a condition gets there. -/
inductive CondStops (cap inl : Option Nat) (ρ : List Int) : Cond → Prop
  | cmp_left {o : Cmp} {x y : Ex} : ExStops cap inl ρ x → CondStops cap inl ρ (.cmp o x y)
  | cmp_right {o : Cmp} {x y : Ex} {a : Int} : Means cap inl ρ x a → ExStops cap inl ρ y → CondStops cap inl ρ (.cmp o x y)
  | cmpR {o : Cmp} {x : Ex} {n : Native} : ExStops cap inl ρ x → CondStops cap inl ρ (.cmpR o x n)
  | cmpL {o : Cmp} {x : Ex} {n : Native} : ExStops cap inl ρ x → CondStops cap inl ρ (.cmpL o n x)
  | isZero {x : Ex} : ExStops cap inl ρ x → CondStops cap inl ρ (.isZero x)
  | isOne {x : Ex} : ExStops cap inl ρ x → CondStops cap inl ρ (.isOne x)
  | isNegative {x : Ex} : ExStops cap inl ρ x → CondStops cap inl ρ (.isNegative x)
  | isOdd {x : Ex} : ExStops cap inl ρ x → CondStops cap inl ρ (.isOdd x)
  | testBit {x : Ex} {i : Nat} : ExStops cap inl ρ x → CondStops cap inl ρ (.testBit x i)
  | not {c : Cond} : CondStops cap inl ρ c → CondStops cap inl ρ (.not c)
  | and_left {c d : Cond} : CondStops cap inl ρ c → CondStops cap inl ρ (.and c d)
  | and_right {c d : Cond} : Truth cap inl ρ c true → CondStops cap inl ρ d → CondStops cap inl ρ (.and c d)
  | or_left {c d : Cond} : CondStops cap inl ρ c → CondStops cap inl ρ (.or c d)
  | or_right {c d : Cond} : Truth cap inl ρ c false → CondStops cap inl ρ d → CondStops cap inl ρ (.or c d)

/-- A command gets there. -/
inductive Stops (cap inl : Option Nat) : Cmd → List Int → Prop
  | seq_left {p q : Cmd} {ρ : List Int} : Stops cap inl p ρ → Stops cap inl (.seq p q) ρ
  | seq_right {p q : Cmd} {ρ ρ₁ : List Int} : Runs cap inl p ρ ρ₁ → Stops cap inl q ρ₁ → Stops cap inl (.seq p q) ρ
  | block {p : Cmd} {ρ : List Int} : Stops cap inl p ρ → Stops cap inl (.block p) ρ
  | ite_cond {c : Cond} {p q : Cmd} {ρ : List Int} : CondStops cap inl ρ c → Stops cap inl (.ite c p q) ρ
  | ite {c : Cond} {p q : Cmd} {b : Bool} {ρ : List Int} : Truth cap inl ρ c b → Stops cap inl (if b then p else q) ρ →
      Stops cap inl (.ite c p q) ρ
  | loop_cond {c : Cond} {p : Cmd} {ρ : List Int} : CondStops cap inl ρ c → Stops cap inl (.loop c p) ρ
  | loop_body {c : Cond} {p : Cmd} {ρ : List Int} : Truth cap inl ρ c true → Stops cap inl p ρ → Stops cap inl (.loop c p) ρ
  | loop_next {c : Cond} {p : Cmd} {ρ ρ₁ : List Int} : Truth cap inl ρ c true → Runs cap inl p ρ ρ₁ →
      Stops cap inl (.loop c p) (ρ₁.take ρ.length) → Stops cap inl (.loop c p) ρ
  | decl {x : Ex} {ρ : List Int} : ExStops cap inl ρ x → Stops cap inl (.decl x) ρ
  | set {x : Ex} {z : Nat} {ρ : List Int} : ExStops cap inl ρ x → Stops cap inl (.set z x) ρ
  | upd_ex {o : BOp} {x : Ex} {z : Nat} {ρ : List Int} : ExStops cap inl ρ x → Stops cap inl (.upd o z x) ρ
  | upd {o : BOp} {x : Ex} {z : Nat} {ρ : List Int} {a : Int} : o = .div ∨ o = .mod → ρ[z]? = some a → Means cap inl ρ x 0 →
      Stops cap inl (.upd o z x) ρ
  | updN {o : BOp} {n : Native} {z : Nat} {ρ : List Int} {a : Int} : o = .div ∨ o = .mod → ρ[z]? = some a → n.toInt = 0 →
      fits cap (width n) → Stops cap inl (.updN o z n) ρ

/-- Operators whose operands need no rule: not `&` and `|`. -/
def Arith (o : BOp) : Prop := o ≠ .and ∧ o ≠ .or

/-- Operators with a native operand that need no rule: not `&` and `|`, not `/` and `%` with a `uint32_t`. -/
def ArithN (o : BOp) (n : Native) : Prop := Arith o ∧ ∀ v, n = .u32 v → o ≠ .div ∧ o ≠ .mod

/-- Expressions in `k` variables that need no rule on growable storage. -/
def ExFree (k : Nat) : Ex → Prop
  | .var x => x < k
  | .lit _ => True
  | .bin o x y => Arith o ∧ ExFree k x ∧ ExFree k y
  | .binN o x n => ArithN o n ∧ ExFree k x
  | .neg x | .abs x | .shl x _ | .shr x _ => ExFree k x
  | .call .. | .modexp .. => False

/-- Conditions that need no rule: no comparison with `0u`. -/
def CondFree (k : Nat) : Cond → Prop
  | .cmp _ x y => ExFree k x ∧ ExFree k y
  | .cmpR _ x n | .cmpL _ n x => n ≠ .u32 0 ∧ ExFree k x
  | .isZero x | .isOne x | .isNegative x | .isOdd x | .testBit x _ => ExFree k x
  | .not c => CondFree k c
  | .and c d | .or c d => CondFree k c ∧ CondFree k d

/-- The number of variables that a command declares. -/
def declares : Cmd → Nat
  | .seq p q => declares p + declares q
  | .decl _ | .post .. => 1
  | _ => 0

/-- Commands that need no rule on growable storage: no `+=` and `-=` with a big or a 64-bit operand (`z = z + x` instead), no
`%=` with a 64-bit operand. -/
def CmdFree (k : Nat) : Cmd → Prop
  | .skip => True
  | .seq p q => CmdFree k p ∧ CmdFree (k + declares p) q
  | .block p => CmdFree k p
  | .ite c p q => CondFree k c ∧ CmdFree k p ∧ CmdFree k q
  | .loop c p => CondFree k c ∧ CmdFree k p
  | .decl x => ExFree k x
  | .set z x => z < k ∧ ExFree k x
  | .setN z _ | .shl z _ | .shr z _ | .step _ z | .post _ z => z < k
  | .upd o z x => z < k ∧ (o = .mul ∨ o = .div ∨ o = .mod) ∧ ExFree k x
  | .updN o z n => z < k ∧ ArithN o n ∧ ((∃ v, n = .s32 v ∨ n = .u32 v) ∨ o = .mul ∨ o = .div)
  | .swap x y => x < k ∧ y < k

end Ack.Spec.IntProg
