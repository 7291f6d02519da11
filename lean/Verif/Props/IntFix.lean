import Verif.Proof.IntFix
import Verif.Props.IntTotal
/-!
# C106: programs on integers with fixed storage, whatever their numbers
-/
namespace Ack.Props
open Ack.Mem Ack.Spec.Prog
open Ack.Spec.IntProg (Arith ArithN)
open Ack.Spec.IntFix (Val Tru Ends Gives GivesN Outcome RoomN ExFix CondFix CmdFix)

/-- **C106.**  A program on integers with fixed storage of two words or more that declares what it names and is written with
`+ - * / %` on big integers (also `+= -= *= /= %=`, also into an operand), `+ - *` with native ones, `/ %` with signed and 64-bit native
ones, right shifts, signs, comparisons, assignment, `++ --`, swaps, branches, loops and blocks comes to one of three things, after any
number of steps and however often its numbers outgrow the storage: it has not ended; or it has ended, and its variables hold what the
program computes when every sum and product that lacks room is zero and `*=` without room does nothing; or it has aborted, and there it
divides by zero.  Every variable stays within the storage.  There is no undefined behaviour. -/
theorem C106 (N : Nat) (hN : 2 ≤ N) (elide : Bool) (p : Cmd) (h : CmdFix 0 p) (fuel : Nat) :
    p.exec ⟨N, false⟩ elide fuel ⟨[], BigSt.init⟩ = .error .fuel ∨
    (∃ ρ' f, Ends N p [] (some ρ') ∧ p.exec ⟨N, false⟩ elide fuel ⟨[], BigSt.init⟩ = .ok f ∧ f.vars.length = ρ'.length ∧
      ∀ (i : Nat) (a : Int), ρ'[i]? = some a → a.natAbs < 2 ^ (32 * N) ∧ ∃ q, f.vars[i]? = some q ∧ f.st.value q = .ok a) ∨
    (Ends N p [] none ∧ p.exec ⟨N, false⟩ elide fuel ⟨[], BigSt.init⟩ = .error .abort) := by
  rcases cmd_fix hN elide fuel p [] [] [] BigSt.init h sees_init (holds_init _) with g | ⟨ρ', e', more, s', g1, -, g2, S, H⟩ | g
  · exact Or.inl g
  · refine Or.inr (Or.inl ⟨ρ', _, g1, g2, S.len, fun i a ha => ?_⟩)
    obtain ⟨q, h1, h2⟩ := S.reads i a ha
    refine ⟨?_, q, h1, holds_value H _ _ (look_some.1 h2)⟩
    obtain ⟨X, x1, x2, x3⟩ := H.rep h2
    rw [← natAbs_of x3]
    refine lt_of_lt_of_le (val_lt X.ws) ?_
    rw [pow_mul]
    exact Nat.pow_le_pow_right (by decide) (H.fitsX x1 N rfl)
  · exact Or.inr (Or.inr g)

/-- **C106**, no undefined behaviour. -/
theorem C106_safe (N : Nat) (hN : 2 ≤ N) (elide : Bool) (p : Cmd) (h : CmdFix 0 p) (fuel : Nat) :
    p.exec ⟨N, false⟩ elide fuel ⟨[], BigSt.init⟩ ≠ .error .ub := by
  rcases C106 N hN elide p h fuel with g | ⟨_, _, -, g, -⟩ | ⟨-, g⟩ <;> rw [g] <;> exact fun h => by cases h

/-- No division in an expression, a condition, a command. -/
def NoDivE : Ex → Prop
  | .bin o x y => (o ≠ .div ∧ o ≠ .mod) ∧ NoDivE x ∧ NoDivE y
  | .binN o x _ => (o ≠ .div ∧ o ≠ .mod) ∧ NoDivE x
  | .neg x | .abs x | .shl x _ | .shr x _ => NoDivE x
  | _ => True

def NoDivC : Cond → Prop
  | .cmp _ x y => NoDivE x ∧ NoDivE y
  | .cmpR _ x _ | .cmpL _ _ x | .isZero x | .isOne x | .isNegative x | .isOdd x | .testBit x _ => NoDivE x
  | .not c => NoDivC c
  | .and c d | .or c d => NoDivC c ∧ NoDivC d

def NoDiv : Cmd → Prop
  | .seq p q => NoDiv p ∧ NoDiv q
  | .block p => NoDiv p
  | .ite c p q => NoDivC c ∧ NoDiv p ∧ NoDiv q
  | .loop c p => NoDivC c ∧ NoDiv p
  | .decl x | .set _ x => NoDivE x
  | .upd o _ x => (o ≠ .div ∧ o ≠ .mod) ∧ NoDivE x
  | .updN o _ _ => o ≠ .div ∧ o ≠ .mod
  | _ => True

theorem val_noDiv {N : Nat} {ρ : List Int} {x : Ex} {r : Option Int} (h : Val N ρ x r) : NoDivE x → r ≠ none := by
  induction h with
  | bin_zero o => exact fun h => by rcases o with rfl | rfl; exacts [absurd rfl h.1.1, absurd rfl h.1.2]
  | bin_left _ ih => exact fun h => absurd rfl (ih h.2.1)
  | bin_right _ _ _ ih => exact fun h => absurd rfl (ih h.2.2)
  | binN_zero o => exact fun h => by rcases o with rfl | rfl; exacts [absurd rfl h.1.1, absurd rfl h.1.2]
  | binN_left _ ih => exact fun h => absurd rfl (ih h.2)
  | neg _ ih => exact fun h => by simpa using ih h
  | abs _ ih => exact fun h => by simpa using ih h
  | shr _ ih => exact fun h => by simpa using ih h
  | _ => exact fun _ => by simp

theorem tru_noDiv {N : Nat} {ρ : List Int} {c : Cond} {r : Option Bool} (h : Tru N ρ c r) : NoDivC c → r ≠ none := by
  induction h with
  | cmp _ v => exact fun h => by simpa using val_noDiv v h.2
  | cmp_left v => exact fun h => absurd rfl (val_noDiv v h.1)
  | cmpR v => exact fun h => by simpa using val_noDiv v h
  | cmpL v => exact fun h => by simpa using val_noDiv v h
  | isZero v => exact fun h => by simpa using val_noDiv v h
  | isOne v => exact fun h => by simpa using val_noDiv v h
  | isNegative v => exact fun h => by simpa using val_noDiv v h
  | isOdd v => exact fun h => by simpa using val_noDiv v h
  | testBit v => exact fun h => by simpa using val_noDiv v h
  | not _ ih => exact fun h => by simpa using ih h
  | and _ _ _ ih => exact fun h => ih h.2
  | and_left _ _ ih => exact fun h => ih h.1
  | or _ _ _ ih => exact fun h => ih h.2
  | or_left _ _ ih => exact fun h => ih h.1

theorem ends_noDiv {N : Nat} {p : Cmd} {ρ : List Int} {r : Option (List Int)} (h : Ends N p ρ r) : NoDiv p → r ≠ none := by
  induction h with
  | seq _ _ _ ih => exact fun h => ih h.2
  | seq_left _ ih => exact fun h => absurd rfl (ih h.1)
  | block _ ih => exact fun h => by simpa using ih h
  | @ite c p q b _ _ _ _ ih => exact fun h => ih (by cases b; exacts [h.2.2, h.2.1])
  | ite_cond t => exact fun h => absurd rfl (tru_noDiv t h.1)
  | loop_step _ _ _ _ ih => exact fun h => ih h
  | loop_body _ _ ih => exact fun h => absurd rfl (ih h.2)
  | loop_cond t => exact fun h => absurd rfl (tru_noDiv t h.1)
  | decl v => exact fun h => by simpa using val_noDiv v h
  | set v => exact fun h => by simpa using val_noDiv v h
  | upd_zero o => exact fun h => by rcases o with rfl | rfl; exacts [absurd rfl h.1.1, absurd rfl h.1.2]
  | upd_ex v => exact fun h => absurd rfl (val_noDiv v h.2)
  | updN_zero o => exact fun h => by rcases o with rfl | rfl; exacts [absurd rfl h.1, absurd rfl h.2]
  | _ => exact fun _ => by simp

/-- **C106**, the only abort: a program without divisions does not abort. -/
theorem C106_no_abort (N : Nat) (hN : 2 ≤ N) (elide : Bool) (p : Cmd) (h : CmdFix 0 p) (hd : NoDiv p) (fuel : Nat) :
    p.exec ⟨N, false⟩ elide fuel ⟨[], BigSt.init⟩ ≠ .error .abort := by
  rcases C106 N hN elide p h fuel with g | ⟨_, _, -, g, -⟩ | ⟨g, -⟩
  · rw [g]; exact fun h => by cases h
  · rw [g]; exact fun h => by cases h
  · exact absurd rfl (ends_noDiv g hd)

/-- `bigint a(0), b(1); while (a >= 0) { a += b; a.swap(b); }`: Fibonacci numbers, for ever. -/
def fib : Cmd :=
  .seq (.decl (.lit (.s32 0))) (.seq (.decl (.lit (.s32 1))) (.loop (.cmpR .ge (.var 0) (.s32 0)) (.seq (.upd .add 0 (.var 1)) (.swap 0 1))))

/-- `bigint a(1); while (a != 0) a = a * 1000;`: ends because the product is zero when the storage is full. -/
def thousands : Cmd := .seq (.decl (.lit (.s32 1))) (.loop (.cmpR .ne (.var 0) (.s32 0)) (.set 0 (.binN .mul (.var 0) (.s32 1000))))

/-- `bigint a(0xfedcba9876543210); a *= a; a *= a; a += a;` -/
def squares : Cmd :=
  .seq (.decl (.lit (.u64 0xfedcba9876543210))) (.seq (.upd .mul 0 (.var 0)) (.seq (.upd .mul 0 (.var 0)) (.upd .add 0 (.var 0))))

theorem fib_fix : CmdFix 0 fib :=
  ⟨trivial, trivial, ⟨by decide, Nat.two_pos⟩, ⟨Nat.two_pos, ⟨by decide, by decide⟩, Nat.one_lt_two⟩, Nat.two_pos, Nat.one_lt_two⟩

theorem fib_noDiv : NoDiv fib := ⟨trivial, trivial, trivial, ⟨⟨by decide, by decide⟩, trivial⟩, trivial⟩

theorem thousands_fix : CmdFix 0 thousands :=
  ⟨trivial, ⟨by decide, Nat.one_pos⟩, Nat.one_pos, ⟨⟨by decide, by decide⟩, fun w hw => by cases hw⟩, Nat.one_pos⟩

/-- Two words: the Fibonacci numbers outgrow them and the program goes on; the powers of 1000 stop at zero; the first square of a
two-word number fits four words, the second does not and leaves it, and doubling it takes a fifth word. -/
example : (CmdFix 0 fib ∧ NoDiv fib) ∧ CmdFix 0 thousands ∧
    result ⟨2, false⟩ true 200 fib 0 = .error .fuel ∧
    result ⟨2, false⟩ false 20 thousands 0 = .ok 0 ∧ result ⟨3, false⟩ false 7 thousands 0 = .error .fuel ∧
    result ⟨5, false⟩ true 9 squares 0 = .ok (2 * 0xfedcba9876543210 ^ 2) ∧ result ⟨4, false⟩ true 9 squares 0 = .ok 0 :=
  ⟨⟨fib_fix, fib_noDiv⟩, thousands_fix, by decide +kernel⟩

/-- What C106 leaves out does happen: `<<=` beyond the storage has undefined behaviour, and a 64-bit literal on one word aborts. -/
theorem C106_needed : result ⟨2, false⟩ true 9 (.seq (.decl (.lit (.s32 1))) (.shl 0 64)) 0 = .error .ub ∧
    result ⟨1, false⟩ true 9 (.decl (.lit (.u64 5))) 0 = .error .abort := by decide +kernel

end Ack.Props
