import Verif.Proof.IntProg
import Verif.Props.Query
import Mathlib.Data.Nat.Factorial.Basic
/-!
# C95: programs written with the operators of integers
-/
namespace Ack.Props
open Ack.Mem Ack.Spec.Prog
open Ack.Spec.IntProg (Runs Means Truth)

/-- **C95.**  A program written with the operators of `bigint` — nested expressions with temporaries, operands of the types `int`,
`uint32_t`, `int64_t` and `uint64_t`, compound assignment, increments, comparisons, `if` and `while`, blocks with local variables —
that within the rules computes `ρ'` in the integers, ends with every variable holding its integer of `ρ'`, on fixed and on growable
storage, whether or not the compiler elides the moves of returned results.  It never aborts and has no undefined behaviour. -/
theorem C95 (K : Kind) (elide : Bool) (p : Cmd) (ρ' : List Int)
    (h : Runs (if K.dyn then none else some K.N) (if K.dyn then some K.N else none) p [] ρ') :
    ∃ F, ∀ fuel, F ≤ fuel → ∃ f, p.exec K elide fuel ⟨[], BigSt.init⟩ = .ok f ∧ f.vars.length = ρ'.length ∧ f.vars.Nodup ∧
      ∀ (i : Nat) (a : Int), ρ'[i]? = some a → ∃ q, f.vars[i]? = some q ∧ f.st.value q = .ok a := by
  obtain ⟨F, e', more, -, S, ev⟩ := cmd_spec (K := K) elide h (vars := []) (e := []) ⟨rfl, List.nodup_nil, fun i a h => by simp at h⟩
  refine ⟨F, fun fuel hf => ?_⟩
  obtain ⟨s, e1, H⟩ := ev _ (holds_init K) fuel hf
  refine ⟨_, e1, S.len, S.nodup, fun i a ha => ?_⟩
  obtain ⟨q, h1, h2⟩ := S.reads i a ha
  exact ⟨q, h1, holds_value H _ _ (look_some.1 h2)⟩

/-- The integers are determined by the program. -/
theorem C95_unique (K : Kind) (p : Cmd) (ρ₁ ρ₂ : List Int)
    (h₁ : Runs (if K.dyn then none else some K.N) (if K.dyn then some K.N else none) p [] ρ₁)
    (h₂ : Runs (if K.dyn then none else some K.N) (if K.dyn then some K.N else none) p [] ρ₂) : ρ₁ = ρ₂ := by
  obtain ⟨F1, g1⟩ := C95 K true p ρ₁ h₁
  obtain ⟨F2, g2⟩ := C95 K true p ρ₂ h₂
  obtain ⟨f1, e1, l1, -, v1⟩ := g1 (max F1 F2) (by omega)
  obtain ⟨f2, e2, l2, -, v2⟩ := g2 (max F1 F2) (by omega)
  rw [e1] at e2; cases e2
  refine List.ext_getElem (l1.symm.trans l2) (fun i hi hj => ?_)
  obtain ⟨q, a1, a2⟩ := v1 i _ (List.getElem?_eq_getElem hi)
  obtain ⟨r, b1, b2⟩ := v2 i _ (List.getElem?_eq_getElem hj)
  rw [a1] at b1; cases b1
  rw [a2] at b2
  exact Except.ok.inj b2

/-- `bigint n(m); bigint f(1); while (n > 0) { f *= n; --n; }` -/
def factorialProg (m : BitVec 32) : Cmd :=
  .seq (.decl (.lit (.u32 m))) (.seq (.decl (.lit (.s32 1)))
    (.loop (.cmpR .gt (.var 0) (.s32 0)) (.seq (.upd .mul 1 (.var 0)) (.step false 0))))

theorem factorial_loop (N : Nat) : ∀ (n : Nat) (f : Int), Runs none (some N)
    (.loop (.cmpR .gt (.var 0) (.s32 0)) (.seq (.upd .mul 1 (.var 0)) (.step false 0))) [(n : Int), f] [0, f * (n.factorial : Int)] := by
  intro n
  have free : ∀ w, fits none w := fun w M h => by cases h
  induction n with
  | zero =>
    intro f
    simp only [Nat.factorial_zero, Nat.cast_one, mul_one, Nat.cast_zero]
    exact Runs.loop_end (Truth.cmpR (a := 0) (Means.var rfl) trivial)
  | succ n ih =>
    intro f
    have ht := Truth.cmpR (cap := none) (inl := some N) (ρ := [((n + 1 : Nat) : Int), f]) (o := .gt) (x := .var 0) (n := .s32 0)
      (a := ((n + 1 : Nat) : Int)) (Means.var rfl) trivial
    rw [decide_eq_true (show Ack.Spec.IntProg.Rel .gt ((n + 1 : Nat) : Int) (Native.s32 0).toInt from by
      show (0 : Int) < _; omega)] at ht
    refine Runs.loop_step ht (Runs.seq (Runs.upd (a := f) (b := ((n + 1 : Nat) : Int)) (r := f * ((n + 1 : Nat) : Int)) rfl (Means.var rfl) rfl
      (free _) trivial) (Runs.step (a := ((n + 1 : Nat) : Int)) rfl (free _))) ?_
    have h := ih (f * ((n + 1 : Nat) : Int))
    rw [Nat.factorial_succ]
    have e1 : f * (((n + 1) * n.factorial : Nat) : Int) = f * ((n + 1 : Nat) : Int) * (n.factorial : Int) := by push_cast; ring
    have e2 : (((n + 1 : Nat) : Int) - 1) = (n : Int) := by push_cast; ring
    rw [e1]
    simpa [e2] using h

/-- For every `uint32_t m` the program on growable storage computes the factorial of `m`, of any length. -/
theorem C95_factorial (N : Nat) (elide : Bool) (m : BitVec 32) :
    ∃ F, ∀ fuel, F ≤ fuel → ∃ f q, (factorialProg m).exec ⟨N, true⟩ elide fuel ⟨[], BigSt.init⟩ = .ok f ∧ f.vars[1]? = some q ∧
      f.st.value q = .ok (m.toNat.factorial : Int) := by
  have free : ∀ w, fits none w := fun w M h => by cases h
  have h : Runs none (some N) (factorialProg m) [] [0, 1 * (m.toNat.factorial : Int)] :=
    Runs.seq (Runs.decl (Means.lit (free _))) (Runs.seq (Runs.decl (Means.lit (free _))) (factorial_loop N m.toNat 1))
  obtain ⟨F, g⟩ := C95 ⟨N, true⟩ elide _ _ h
  refine ⟨F, fun fuel hf => ?_⟩
  obtain ⟨f, e1, -, -, v⟩ := g fuel hf
  obtain ⟨q, h1, h2⟩ := v 1 _ rfl
  exact ⟨f, q, e1, h1, by rw [h2, one_mul]⟩

/-- The value of the variable `i` after a program. -/
def result (K : Kind) (elide : Bool) (fuel : Nat) (p : Cmd) (i : Nat) : Res Int := do
  let f ← p.exec K elide fuel ⟨[], BigSt.init⟩
  let q ← f.pos i
  f.st.value q

/-- 30! by the program, on growable storage with two inline words: three words and a bit. -/
example : result ⟨2, true⟩ true 100 (factorialProg 30) 1 = .ok (Nat.factorial 30 : Int) ∧
    result ⟨2, true⟩ false 100 (factorialProg 30) 1 = .ok (Nat.factorial 30 : Int) := by decide +kernel

/-- `bigint a = …, b = …; while (!b.is_zero()) { bigint t = a % b; a = b; b = t; }` -/
def euclidLoop : Cmd :=
  .loop (.not (.isZero (.var 1))) (.seq (.decl (.bin .mod (.var 0) (.var 1))) (.seq (.set 0 (.var 1)) (.set 1 (.var 2))))

theorem euclid_runs (cap inl : Option Nat) (b : Nat) : ∀ a : Nat, Runs cap inl euclidLoop [(a : Int), (b : Int)] [(Nat.gcd a b : Int), 0] := by
  induction b using Nat.strong_induction_on with
  | _ b ih =>
    intro a
    have ht := Truth.not (Truth.isZero (cap := cap) (inl := inl) (ρ := [(a : Int), (b : Int)]) (x := .var 1) (a := (b : Int)) (Means.var rfl))
    by_cases hb : b = 0
    · subst hb
      rw [Nat.gcd_zero_right]
      exact Runs.loop_end ht
    · have hb' : (b : Int) ≠ 0 := by omega
      rw [decide_eq_false hb'] at ht
      refine Runs.loop_step ht (Runs.seq (Runs.decl (Means.bin (o := .mod) (a := (a : Int)) (b := (b : Int)) (r := ((a % b : Nat) : Int))
        (Means.var rfl) (Means.var rfl) ⟨hb', ?_⟩ trivial)) (Runs.seq (Runs.set (Means.var (a := (b : Int)) rfl) (by simp))
          (Runs.set (Means.var (a := ((a % b : Nat) : Int)) rfl) (by simp)))) ?_
      · rw [Int.tmod_eq_emod_of_nonneg (by omega)]; push_cast; rfl
      · have h := ih (a % b) (Nat.mod_lt _ (by omega)) b
        rw [Nat.gcd_comm b, ← Nat.gcd_rec b a, Nat.gcd_comm b a] at h
        exact h

/-- Euclid's algorithm written with the operators computes the greatest common divisor, on fixed storage too. -/
theorem C95_euclid (K : Kind) (elide : Bool) (m n : BitVec 64) (hK : K.dyn = false → 2 ≤ K.N) :
    ∃ F, ∀ fuel, F ≤ fuel → ∃ f q, (Cmd.seq (.decl (.lit (.u64 m))) (.seq (.decl (.lit (.u64 n))) euclidLoop)).exec K elide fuel ⟨[], BigSt.init⟩ = .ok f ∧
      f.vars[0]? = some q ∧ f.st.value q = .ok (Nat.gcd m.toNat n.toNat : Int) := by
  have hf : fits (if K.dyn then none else some K.N) 2 := by
    intro M hM
    cases hd : K.dyn with
    | true => rw [hd] at hM; cases hM
    | false => rw [hd] at hM; cases hM; exact hK hd
  obtain ⟨F, g⟩ := C95 K elide _ _ (Runs.seq (Runs.decl (Means.lit (n := .u64 m) hf)) (Runs.seq (Runs.decl (Means.lit (n := .u64 n) hf))
    (euclid_runs _ _ n.toNat m.toNat)))
  refine ⟨F, fun fuel hf => ?_⟩
  obtain ⟨f, e1, -, -, v⟩ := g fuel hf
  obtain ⟨q, h1, h2⟩ := v 0 _ rfl
  exact ⟨f, q, e1, h1, h2⟩

example : result ⟨2, false⟩ false 200 (Cmd.seq (.decl (.lit (.u64 1000000016000000063))) (.seq (.decl (.lit (.u64 3000000027))) euclidLoop)) 0 =
    .ok 1000000009 := by decide +kernel

/-- **C95 fails outside the rules.**  Zero obtained from −5 + 5 carries a minus sign: `((-5) + 5) | 3u` is −3, `0u == ((-5) + 5)` is
false.  `x %= int64_t(10)` divides.  `bigint(-7) / 2u` is 3.  `bigint(7) % 2u` stores through a null pointer. -/
theorem C95_rules_needed :
    result ⟨4, false⟩ true 9 (.seq (.decl (.lit (.s32 (-5)))) (.decl (.binN .or (.binN .add (.var 0) (.s32 5)) (.u32 3)))) 1 = .ok (-3) ∧
    result ⟨4, false⟩ true 9 (.seq (.decl (.lit (.s32 (-5)))) (.ite (.cmpL .eq (.u32 0) (.binN .add (.var 0) (.s32 5))) (.setN 0 (.s32 1))
      (.setN 0 (.s32 2)))) 0 = .ok 2 ∧
    result ⟨4, false⟩ true 9 (.seq (.decl (.lit (.s32 47))) (.updN .mod 0 (.s64 10))) 0 = .ok 4 ∧
    result ⟨4, false⟩ true 9 (.decl (.binN .div (.lit (.s32 (-7))) (.u32 2))) 0 = .ok 3 ∧
    result ⟨4, false⟩ true 9 (.decl (.binN .mod (.lit (.s32 7)) (.u32 2))) 0 = .error .ub := by decide +kernel

/-- The rule of `op=` on growable storage: `x = 1; x <<= 64; x += x` with two inline words reads released storage, `x = x + x` does not. -/
theorem C95_inline_needed :
    result ⟨2, true⟩ true 9 (.seq (.decl (.lit (.s32 1))) (.seq (.shl 0 64) (.upd .add 0 (.var 0)))) 0 = .error .ub ∧
    result ⟨2, true⟩ true 9 (.seq (.decl (.lit (.s32 1))) (.seq (.shl 0 64) (.set 0 (.bin .add (.var 0) (.var 0))))) 0 = .ok 36893488147419103232 := by
  decide +kernel

end Ack.Props
