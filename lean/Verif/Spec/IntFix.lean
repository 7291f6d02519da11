import Verif.Spec.IntStop
/-!
# Programs on integers with fixed storage: what they compute when the storage does not suffice

Independent of words, buffers and memory: `Val`, `Tru` and `Ends` say what expressions, conditions and commands yield on storage of `N`
words; `none` stands for a division by zero.  A sum or product for which the storage is too short is zero; `z *= x` and `z *= n`
with a 64-bit `n` then keep `z`.
-/
namespace Ack.Spec.IntFix
open Ack.Mem (BOp Fn Ex Cond Cmd)
open Ack.Spec.Prog (words OppSigns)
open Ack.Spec.IntProg (Bin Room Rel width Arith ArithN declares)

/-- `a op b` yields `r`: the result in the integers if there is room (`ok`), `over` otherwise.  A zero may carry a minus sign, and is then
added to a number of full length, or subtracted from it, without loss. -/
def Outcome (ok : Prop) (o : BOp) (a b over r : Int) : Prop :=
  Bin o a b r ∧ (ok ∨ o ≠ .mul ∧ (a = 0 ∨ b = 0)) ∨ ¬ ok ∧ r = over

/-- `a op b` on `N` words; `old`: the value of the result object before. -/
def Gives (N : Nat) (o : BOp) (a b old r : Int) : Prop := Outcome (Room (some N) o a b) o a b (if o = .mul then old else 0) r

/-- There is room for `a op n` with a native integer. -/
def RoomN (N : Nat) : BOp → Int → Native → Prop
  | .add, a, .s32 v => OppSigns a v.toInt ∨ words a + 1 ≤ N
  | .add, a, .u32 v => OppSigns a v.toNat ∨ words a + 1 ≤ N
  | .sub, a, .s32 v => OppSigns a (-v.toInt) ∨ words a + 1 ≤ N
  | .sub, a, .u32 v => OppSigns a (-(v.toNat : Int)) ∨ words a + 1 ≤ N
  | .mul, a, .s32 _ | .mul, a, .u32 _ => words a + 1 ≤ N
  | o, a, n => Room (some N) o a n.toInt

/-- `a op n` with a native integer on `N` words. -/
def GivesN (N : Nat) (o : BOp) (a : Int) (n : Native) (old r : Int) : Prop :=
  Outcome (RoomN N o a n) o a n.toInt (if o = .mul ∧ width n = 2 then old else 0) r

/-- The value of an expression; `none`: it divides by zero. -/
inductive Val (N : Nat) (ρ : List Int) : Ex → Option Int → Prop
  | var {v : Nat} {a : Int} : ρ[v]? = some a → Val N ρ (.var v) (some a)
  | lit (n : Native) : Val N ρ (.lit n) (some n.toInt)
  | bin {o : BOp} {x y : Ex} {a b r : Int} : Val N ρ x (some a) → Val N ρ y (some b) → Gives N o a b 0 r → Val N ρ (.bin o x y) (some r)
  | bin_zero {o : BOp} {x y : Ex} {a : Int} : o = .div ∨ o = .mod → Val N ρ x (some a) → Val N ρ y (some 0) → Val N ρ (.bin o x y) none
  | bin_left {o : BOp} {x y : Ex} : Val N ρ x none → Val N ρ (.bin o x y) none
  | bin_right {o : BOp} {x y : Ex} {a : Int} : Val N ρ x (some a) → Val N ρ y none → Val N ρ (.bin o x y) none
  | binN {o : BOp} {x : Ex} {n : Native} {a r : Int} : Val N ρ x (some a) → GivesN N o a n 0 r → Val N ρ (.binN o x n) (some r)
  | binN_zero {o : BOp} {x : Ex} {n : Native} {a : Int} : o = .div ∨ o = .mod → Val N ρ x (some a) → n.toInt = 0 → Val N ρ (.binN o x n) none
  | binN_left {o : BOp} {x : Ex} {n : Native} : Val N ρ x none → Val N ρ (.binN o x n) none
  | neg {x : Ex} {r : Option Int} : Val N ρ x r → Val N ρ (.neg x) (r.map fun a => -a)
  | abs {x : Ex} {r : Option Int} : Val N ρ x r → Val N ρ (.abs x) (r.map fun a => (a.natAbs : Int))
  | shr {x : Ex} {n : Nat} {r : Option Int} : Val N ρ x r → Val N ρ (.shr x n) (r.map fun a => a.tdiv (2 ^ n))

/-- The truth value of a condition; `none`: it divides by zero. -/
inductive Tru (N : Nat) (ρ : List Int) : Cond → Option Bool → Prop
  | cmp {o : Cmp} {x y : Ex} {a : Int} {r : Option Int} : Val N ρ x (some a) → Val N ρ y r → Tru N ρ (.cmp o x y) (r.map fun b => decide (Rel o a b))
  | cmp_left {o : Cmp} {x y : Ex} : Val N ρ x none → Tru N ρ (.cmp o x y) none
  | cmpR {o : Cmp} {x : Ex} {n : Native} {r : Option Int} : Val N ρ x r → Tru N ρ (.cmpR o x n) (r.map fun a => decide (Rel o a n.toInt))
  | cmpL {o : Cmp} {x : Ex} {n : Native} {r : Option Int} : Val N ρ x r → Tru N ρ (.cmpL o n x) (r.map fun a => decide (Rel o n.toInt a))
  | isZero {x : Ex} {r : Option Int} : Val N ρ x r → Tru N ρ (.isZero x) (r.map fun a => decide (a = 0))
  | isOne {x : Ex} {r : Option Int} : Val N ρ x r → Tru N ρ (.isOne x) (r.map fun a => decide (a = 1))
  | isNegative {x : Ex} {r : Option Int} : Val N ρ x r → Tru N ρ (.isNegative x) (r.map fun a => decide (a < 0))
  | isOdd {x : Ex} {r : Option Int} : Val N ρ x r → Tru N ρ (.isOdd x) (r.map fun a => decide (a % 2 = 1))
  | testBit {x : Ex} {i : Nat} {r : Option Int} : Val N ρ x r → Tru N ρ (.testBit x i) (r.map fun a => a.natAbs.testBit i)
  | not {c : Cond} {r : Option Bool} : Tru N ρ c r → Tru N ρ (.not c) (r.map fun b => !b)
  | and {c d : Cond} {r : Option Bool} : Tru N ρ c (some true) → Tru N ρ d r → Tru N ρ (.and c d) r
  | and_left {c d : Cond} {r : Option Bool} : Tru N ρ c r → r ≠ some true → Tru N ρ (.and c d) r
  | or {c d : Cond} {r : Option Bool} : Tru N ρ c (some false) → Tru N ρ d r → Tru N ρ (.or c d) r
  | or_left {c d : Cond} {r : Option Bool} : Tru N ρ c r → r ≠ some false → Tru N ρ (.or c d) r

/-- The integers of the variables when a command ends; `none`: it gets to a division by zero. -/
inductive Ends (N : Nat) : Cmd → List Int → Option (List Int) → Prop
  | skip {ρ : List Int} : Ends N .skip ρ (some ρ)
  | seq {p q : Cmd} {ρ ρ₁ : List Int} {r : Option (List Int)} : Ends N p ρ (some ρ₁) → Ends N q ρ₁ r → Ends N (.seq p q) ρ r
  | seq_left {p q : Cmd} {ρ : List Int} : Ends N p ρ none → Ends N (.seq p q) ρ none
  | block {p : Cmd} {ρ : List Int} {r : Option (List Int)} : Ends N p ρ r → Ends N (.block p) ρ (r.map fun ρ' => ρ'.take ρ.length)
  | ite {c : Cond} {p q : Cmd} {b : Bool} {ρ : List Int} {r : Option (List Int)} : Tru N ρ c (some b) →
      Ends N (.block (if b then p else q)) ρ r → Ends N (.ite c p q) ρ r
  | ite_cond {c : Cond} {p q : Cmd} {ρ : List Int} : Tru N ρ c none → Ends N (.ite c p q) ρ none
  | loop_end {c : Cond} {p : Cmd} {ρ : List Int} : Tru N ρ c (some false) → Ends N (.loop c p) ρ (some ρ)
  | loop_step {c : Cond} {p : Cmd} {ρ ρ₁ : List Int} {r : Option (List Int)} : Tru N ρ c (some true) → Ends N (.block p) ρ (some ρ₁) →
      Ends N (.loop c p) ρ₁ r → Ends N (.loop c p) ρ r
  | loop_body {c : Cond} {p : Cmd} {ρ : List Int} : Tru N ρ c (some true) → Ends N (.block p) ρ none → Ends N (.loop c p) ρ none
  | loop_cond {c : Cond} {p : Cmd} {ρ : List Int} : Tru N ρ c none → Ends N (.loop c p) ρ none
  | decl {x : Ex} {ρ : List Int} {r : Option Int} : Val N ρ x r → Ends N (.decl x) ρ (r.map fun a => ρ ++ [a])
  | set {x : Ex} {z : Nat} {ρ : List Int} {r : Option Int} : Val N ρ x r → Ends N (.set z x) ρ (r.map fun a => ρ.set z a)
  | setN {n : Native} {z : Nat} {ρ : List Int} : Ends N (.setN z n) ρ (some (ρ.set z n.toInt))
  | upd {o : BOp} {x : Ex} {z : Nat} {ρ : List Int} {a b r : Int} : ρ[z]? = some a → Val N ρ x (some b) → Gives N o a b a r →
      Ends N (.upd o z x) ρ (some (ρ.set z r))
  | upd_zero {o : BOp} {x : Ex} {z : Nat} {ρ : List Int} : o = .div ∨ o = .mod → Val N ρ x (some 0) → Ends N (.upd o z x) ρ none
  | upd_ex {o : BOp} {x : Ex} {z : Nat} {ρ : List Int} : Val N ρ x none → Ends N (.upd o z x) ρ none
  | updN {o : BOp} {n : Native} {z : Nat} {ρ : List Int} {a r : Int} : ρ[z]? = some a → GivesN N o a n a r → Ends N (.updN o z n) ρ (some (ρ.set z r))
  | updN_zero {o : BOp} {n : Native} {z : Nat} {ρ : List Int} : o = .div ∨ o = .mod → n.toInt = 0 → Ends N (.updN o z n) ρ none
  | shr {z n : Nat} {ρ : List Int} {a : Int} : ρ[z]? = some a → Ends N (.shr z n) ρ (some (ρ.set z (a.tdiv (2 ^ n))))
  | step {up : Bool} {z : Nat} {ρ : List Int} {a r : Int} : ρ[z]? = some a → GivesN N (if up then .add else .sub) a (.s32 1) a r →
      Ends N (.step up z) ρ (some (ρ.set z r))
  | post {up : Bool} {z : Nat} {ρ : List Int} {a r : Int} : ρ[z]? = some a → GivesN N (if up then .add else .sub) a (.s32 1) a r →
      Ends N (.post up z) ρ (some (ρ.set z r ++ [a]))
  | swap {x y : Nat} {ρ : List Int} {a b : Int} : ρ[x]? = some a → ρ[y]? = some b → Ends N (.swap x y) ρ (some ((ρ.set x b).set y a))

/-- Expressions in `k` variables without `<<`, `&`, `|`, division by a `uint32_t` and calls. -/
def ExFix (k : Nat) : Ex → Prop
  | .var x => x < k
  | .lit _ => True
  | .bin o x y => Arith o ∧ ExFix k x ∧ ExFix k y
  | .binN o x n => ArithN o n ∧ ExFix k x
  | .neg x | .abs x | .shr x _ => ExFix k x
  | .shl .. | .call .. | .modexp .. => False

/-- Conditions on such expressions, without comparison with `0u`. -/
def CondFix (k : Nat) : Cond → Prop
  | .cmp _ x y => ExFix k x ∧ ExFix k y
  | .cmpR _ x n | .cmpL _ n x => n ≠ .u32 0 ∧ ExFix k x
  | .isZero x | .isOne x | .isNegative x | .isOdd x | .testBit x _ => ExFix k x
  | .not c => CondFix k c
  | .and c d | .or c d => CondFix k c ∧ CondFix k d

/-- Commands with such expressions and conditions, that declare what they name; no `<<=`, no `%=` with a 64-bit operand. -/
def CmdFix (k : Nat) : Cmd → Prop
  | .skip => True
  | .seq p q => CmdFix k p ∧ CmdFix (k + declares p) q
  | .block p => CmdFix k p
  | .ite c p q => CondFix k c ∧ CmdFix k p ∧ CmdFix k q
  | .loop c p => CondFix k c ∧ CmdFix k p
  | .decl x => ExFix k x
  | .set z x => z < k ∧ ExFix k x
  | .setN z _ | .shr z _ | .step _ z | .post _ z => z < k
  | .shl .. => False
  | .upd o z x => z < k ∧ Arith o ∧ ExFix k x
  | .updN o z n => z < k ∧ ArithN o n ∧ (o = .mod → width n = 1)
  | .swap x y => x < k ∧ y < k

end Ack.Spec.IntFix
