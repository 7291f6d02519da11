import Verif.Model.IntProg
import Verif.Spec.ProgNT
/-!
# What a program written with integer operators computes

Independent of words, buffers and memory: the state is the list of the integers of the variables.  `Means`, `Truth` and `Runs`
say what expressions, conditions and commands compute in the integers; they hold only for programs that keep the rules
(`cap`: words of storage, `none` for growable storage; `inl`: words that growable storage keeps inline).
-/
namespace Ack.Spec.IntProg
open Ack.Mem (BOp Fn Ex Cond Cmd)
open Ack.Spec.Prog (words fits OppSigns)

/-- `a op b` is `r` in the integers (truncating division; `&` and `|` for non-negative operands). -/
def Bin : BOp → Int → Int → Int → Prop
  | .add, a, b, r => r = a + b
  | .sub, a, b, r => r = a - b
  | .mul, a, b, r => r = a * b
  | .div, a, b, r => b ≠ 0 ∧ r = a.tdiv b
  | .mod, a, b, r => b ≠ 0 ∧ r = a.tmod b
  | .and, a, b, r => 0 ≤ a ∧ 0 ≤ b ∧ r = ((a.toNat &&& b.toNat : Nat) : Int)
  | .or, a, b, r => 0 ≤ a ∧ 0 ≤ b ∧ r = ((a.toNat ||| b.toNat : Nat) : Int)

/-- The capacity suffices for `a op b`. -/
def Room (cap : Option Nat) : BOp → Int → Int → Prop
  | .add, a, b => OppSigns a b ∨ fits cap (max (words a) (words b) + 1)
  | .sub, a, b => OppSigns a (-b) ∨ fits cap (max (words a) (words b) + 1)
  | .mul, a, b => fits cap (words a + words b)
  | _, _, _ => True

/-- Words of storage that the conversion of a native integer needs. -/
def width : Native → Nat
  | .s32 _ | .u32 _ => 1
  | .s64 _ | .u64 _ => 2

/-- Rules for `a op n` with a native integer: room; division by a `uint32_t` only of a non-negative integer, no remainder by a
`uint32_t` at all, `&` and `|` only with unsigned operands, and `| uint32_t` not on zero (which may carry a minus sign). -/
def RuleN (cap : Option Nat) : BOp → Int → Native → Prop
  | .add, a, .s32 _ | .add, a, .u32 _ | .sub, a, .s32 _ | .sub, a, .u32 _ | .mul, a, .s32 _ | .mul, a, .u32 _ => fits cap (words a + 1)
  | .div, _, .s32 _ | .mod, _, .s32 _ | .and, _, .u32 _ => True
  | .div, a, .u32 _ => 0 ≤ a
  | .or, a, .u32 v => 0 < a ∨ v = 0
  | .mod, _, .u32 _ | .and, _, .s32 _ | .or, _, .s32 _ | .and, _, .s64 _ | .or, _, .s64 _ => False
  | o, a, n => fits cap 2 ∧ Room cap o a n.toInt

/-- The functions of two integers, with room. -/
def Call (cap : Option Nat) : Fn → Int → Int → Int → Prop
  | .pow, a, b, r => 0 < b ∧ r = a ^ b.toNat ∧ fits cap (words a * max 15 b.toNat + 1)
  | .modinv, a, m, r => 0 ≤ a ∧ 1 < m ∧ 0 < r ∧ r < m ∧ r * a % m = 1 ∧ fits cap (max (words a) (words m) + 1)
  | .gcd, a, b, r => 0 ≤ a ∧ 0 ≤ b ∧ r = Int.gcd a b
  | .lcm, a, b, r => 0 ≤ a ∧ 0 ≤ b ∧ (a ≠ 0 ∨ b ≠ 0) ∧ r = Int.lcm a b ∧ fits cap (words a + words b) ∧
    ((Int.gcd a b).size % 32 ≠ 0 ∨ (Int.gcd a b).size ≤ 32 ∨ a.natAbs < 2 ^ (Int.gcd a b).size)

/-- The function of the modulus that must not be longer than the inline words of growable storage. -/
def CallInline (inl : Option Nat) : Fn → Int → Prop
  | .modinv, m => ∀ N, inl = some N → words m ≤ N
  | _, _ => True

/-- The value of an expression, within the rules. -/
inductive Means (cap inl : Option Nat) (ρ : List Int) : Ex → Int → Prop
  | var {x : Nat} {a : Int} : ρ[x]? = some a → Means cap inl ρ (.var x) a
  | lit {n : Native} : fits cap (width n) → Means cap inl ρ (.lit n) n.toInt
  | bin {o : BOp} {x y : Ex} {a b r : Int} : Means cap inl ρ x a → Means cap inl ρ y b → Bin o a b r → Room cap o a b →
      Means cap inl ρ (.bin o x y) r
  | binN {o : BOp} {x : Ex} {n : Native} {a r : Int} : Means cap inl ρ x a → Bin o a n.toInt r → RuleN cap o a n →
      Means cap inl ρ (.binN o x n) r
  | neg {x : Ex} {a : Int} : Means cap inl ρ x a → Means cap inl ρ (.neg x) (-a)
  | abs {x : Ex} {a : Int} : Means cap inl ρ x a → Means cap inl ρ (.abs x) (a.natAbs : Int)
  | shl {x : Ex} {n : Nat} {a : Int} : Means cap inl ρ x a → fits cap (words a + (n + 31) / 32) → Means cap inl ρ (.shl x n) (a * 2 ^ n)
  | shr {x : Ex} {n : Nat} {a : Int} : Means cap inl ρ x a → Means cap inl ρ (.shr x n) (a.tdiv (2 ^ n))
  | call {f : Fn} {x y : Ex} {a b r : Int} : Means cap inl ρ x a → Means cap inl ρ y b → Call cap f a b r → CallInline inl f b →
      Means cap inl ρ (.call f x y) r
  | modexp {x y z : Ex} {a b m : Int} : Means cap inl ρ x a → Means cap inl ρ y b → Means cap inl ρ z m → 0 ≤ a → 2 ≤ b → 0 < m →
      fits cap (2 * max (words a) (words m)) → Means cap inl ρ (.modexp x y z) (a ^ b.toNat % m)

/-- `a op b` holds. -/
def Rel : Cmp → Int → Int → Prop
  | .eq, a, b => a = b
  | .ne, a, b => a ≠ b
  | .lt, a, b => a < b
  | .le, a, b => a ≤ b
  | .gt, a, b => b < a
  | .ge, a, b => b ≤ a

instance (o : Cmp) (a b : Int) : Decidable (Rel o a b) := by cases o <;> unfold Rel <;> infer_instance

/-- Rules for comparisons with a native integer: room for its conversion; not zero with `0u` (zero may carry a minus sign). -/
def RuleC (cap : Option Nat) (a : Int) : Native → Prop
  | .s32 _ => True
  | .u32 v => a ≠ 0 ∨ v ≠ 0
  | .s64 _ | .u64 _ => fits cap 2

/-- The truth value of a condition, within the rules. -/
inductive Truth (cap inl : Option Nat) (ρ : List Int) : Cond → Bool → Prop
  | cmp {o : Cmp} {x y : Ex} {a b : Int} : Means cap inl ρ x a → Means cap inl ρ y b → Truth cap inl ρ (.cmp o x y) (decide (Rel o a b))
  | cmpR {o : Cmp} {x : Ex} {n : Native} {a : Int} : Means cap inl ρ x a → RuleC cap a n →
      Truth cap inl ρ (.cmpR o x n) (decide (Rel o a n.toInt))
  | cmpL {o : Cmp} {x : Ex} {n : Native} {a : Int} : Means cap inl ρ x a → RuleC cap a n →
      Truth cap inl ρ (.cmpL o n x) (decide (Rel o n.toInt a))
  | isZero {x : Ex} {a : Int} : Means cap inl ρ x a → Truth cap inl ρ (.isZero x) (decide (a = 0))
  | isOne {x : Ex} {a : Int} : Means cap inl ρ x a → Truth cap inl ρ (.isOne x) (decide (a = 1))
  | isNegative {x : Ex} {a : Int} : Means cap inl ρ x a → Truth cap inl ρ (.isNegative x) (decide (a < 0))
  | isOdd {x : Ex} {a : Int} : Means cap inl ρ x a → Truth cap inl ρ (.isOdd x) (decide (a % 2 = 1))
  | testBit {x : Ex} {i : Nat} {a : Int} : Means cap inl ρ x a → Truth cap inl ρ (.testBit x i) (a.natAbs.testBit i)
  | not {c : Cond} {b : Bool} : Truth cap inl ρ c b → Truth cap inl ρ (.not c) (!b)
  | and_false {c d : Cond} : Truth cap inl ρ c false → Truth cap inl ρ (.and c d) false
  | and_true {c d : Cond} {b : Bool} : Truth cap inl ρ c true → Truth cap inl ρ d b → Truth cap inl ρ (.and c d) b
  | or_true {c d : Cond} : Truth cap inl ρ c true → Truth cap inl ρ (.or c d) true
  | or_false {c d : Cond} {b : Bool} : Truth cap inl ρ c false → Truth cap inl ρ d b → Truth cap inl ρ (.or c d) b

/-- Rules for `z op= b` when `z` is `a`: on growable storage, no sum of magnitudes longer than the inline words; `|=` not on zero
(which may carry a minus sign). -/
def RuleA (inl : Option Nat) : BOp → Int → Int → Prop
  | .add, a, b => ∀ N, inl = some N → OppSigns a b ∨ max (words a) (words b) ≤ N
  | .sub, a, b => ∀ N, inl = some N → OppSigns a (-b) ∨ max (words a) (words b) ≤ N
  | .or, a, b => 0 < a ∨ b = 0
  | _, _, _ => True

/-- Rules for `z op= n` with a native integer: those of a 64-bit operand are as for `z op= b`, and `%=` is excluded. -/
def RuleAN (inl : Option Nat) : BOp → Int → Native → Prop
  | _, _, .s32 _ | _, _, .u32 _ => True
  | .mod, _, _ => False
  | o, a, n => RuleA inl o a n.toInt

/-- The integers of the variables after a command that terminates, within the rules. -/
inductive Runs (cap inl : Option Nat) : Cmd → List Int → List Int → Prop
  | skip {ρ : List Int} : Runs cap inl .skip ρ ρ
  | seq {p q : Cmd} {ρ ρ₁ ρ₂ : List Int} : Runs cap inl p ρ ρ₁ → Runs cap inl q ρ₁ ρ₂ → Runs cap inl (.seq p q) ρ ρ₂
  | block {p : Cmd} {ρ ρ' : List Int} : Runs cap inl p ρ ρ' → Runs cap inl (.block p) ρ (ρ'.take ρ.length)
  | ite {c : Cond} {p q : Cmd} {b : Bool} {ρ ρ' : List Int} : Truth cap inl ρ c b → Runs cap inl (if b then p else q) ρ ρ' →
      Runs cap inl (.ite c p q) ρ (ρ'.take ρ.length)
  | loop_end {c : Cond} {p : Cmd} {ρ : List Int} : Truth cap inl ρ c false → Runs cap inl (.loop c p) ρ ρ
  | loop_step {c : Cond} {p : Cmd} {ρ ρ₁ ρ₂ : List Int} : Truth cap inl ρ c true → Runs cap inl p ρ ρ₁ →
      Runs cap inl (.loop c p) (ρ₁.take ρ.length) ρ₂ → Runs cap inl (.loop c p) ρ ρ₂
  | decl {x : Ex} {ρ : List Int} {a : Int} : Means cap inl ρ x a → Runs cap inl (.decl x) ρ (ρ ++ [a])
  | set {x : Ex} {z : Nat} {ρ : List Int} {a : Int} : Means cap inl ρ x a → z < ρ.length → Runs cap inl (.set z x) ρ (ρ.set z a)
  | setN {n : Native} {z : Nat} {ρ : List Int} : z < ρ.length → fits cap (width n) → Runs cap inl (.setN z n) ρ (ρ.set z n.toInt)
  | upd {o : BOp} {x : Ex} {z : Nat} {ρ : List Int} {a b r : Int} : ρ[z]? = some a → Means cap inl ρ x b → Bin o a b r → Room cap o a b →
      RuleA inl o a b → Runs cap inl (.upd o z x) ρ (ρ.set z r)
  | updN {o : BOp} {n : Native} {z : Nat} {ρ : List Int} {a r : Int} : ρ[z]? = some a → Bin o a n.toInt r → RuleN cap o a n →
      RuleAN inl o a n → Runs cap inl (.updN o z n) ρ (ρ.set z r)
  | shl {z n : Nat} {ρ : List Int} {a : Int} : ρ[z]? = some a → fits cap (words a + (n + 31) / 32) → Runs cap inl (.shl z n) ρ (ρ.set z (a * 2 ^ n))
  | shr {z n : Nat} {ρ : List Int} {a : Int} : ρ[z]? = some a → Runs cap inl (.shr z n) ρ (ρ.set z (a.tdiv (2 ^ n)))
  | step {up : Bool} {z : Nat} {ρ : List Int} {a : Int} : ρ[z]? = some a → fits cap (words a + 1) →
      Runs cap inl (.step up z) ρ (ρ.set z (if up then a + 1 else a - 1))
  | post {up : Bool} {z : Nat} {ρ : List Int} {a : Int} : ρ[z]? = some a → fits cap (words a + 1) →
      Runs cap inl (.post up z) ρ (ρ.set z (if up then a + 1 else a - 1) ++ [a])
  | swap {x y : Nat} {ρ : List Int} {a b : Int} : ρ[x]? = some a → ρ[y]? = some b → Runs cap inl (.swap x y) ρ ((ρ.set x b).set y a)

end Ack.Spec.IntProg
