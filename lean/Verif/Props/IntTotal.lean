import Verif.Proof.IntTotal
import Verif.Props.IntProg
/-!
# C95 and C105: where programs on integers stop, and programs on growable integers without rules
-/
namespace Ack.Props
open Ack.Mem Ack.Spec.Prog
open Ack.Spec.IntProg (Runs Means Truth Stops ExStops CmdFree CondFree ExFree Arith ArithN)

theorem sees_init : Sees [] [] [] := ⟨rfl, List.nodup_nil, fun i a h => by simp at h⟩

/-- **C95, the end of a program.**  A program that within the rules gets to a division by zero — by a big integer or a native one, in an
expression, a condition, an assignment or in the middle of a loop — or to the inverse of a number that has none, aborts there, on
fixed and on growable storage. -/
theorem C95_stops (K : Kind) (elide : Bool) (p : Cmd) (h : Stops (if K.dyn then none else some K.N) (if K.dyn then some K.N else none) p []) :
    ∃ F, ∀ fuel, F ≤ fuel → p.exec K elide fuel ⟨[], BigSt.init⟩ = .error .abort := by
  obtain ⟨F, -, ev⟩ := cmd_stops (K := K) elide h (vars := []) (e := []) sees_init
  exact ⟨F, fun fuel hf => ev _ (holds_init K) fuel hf⟩

/-- `bigint n(m); while (true) { 100 / n; --n; }`, in the form `while (100 / n != 1000) --n;` -/
def divisors (m : BitVec 32) : Cmd :=
  .seq (.decl (.lit (.u32 m))) (.loop (.cmpR .ne (.bin .div (.lit (.s32 100)) (.var 0)) (.s32 1000)) (.step false 0))

theorem divisors_loop (cap inl : Option Nat) (hc : fits cap 2) : ∀ n : Nat, n < 2 ^ 32 →
    Stops cap inl (.loop (.cmpR .ne (.bin .div (.lit (.s32 100)) (.var 0)) (.s32 1000)) (.step false 0)) [(n : Int)] := by
  have h1 : fits cap 1 := fun M hM => le_trans (by decide) (hc M hM)
  intro n
  induction n with
  | zero => exact fun _ => .loop_cond (.cmpR (.bin (Or.inl rfl) (.lit h1) (.var (a := 0) rfl)))
  | succ n ih =>
    intro hn
    have h0 : ((n + 1 : Nat) : Int) ≠ 0 := by omega
    have ht := Truth.cmpR (cap := cap) (inl := inl) (ρ := [((n + 1 : Nat) : Int)]) (o := .ne) (n := .s32 1000)
      (Means.bin (o := .div) (x := .lit (.s32 100)) (y := .var 0) (a := 100) (b := ((n + 1 : Nat) : Int)) (.lit h1) (.var rfl) ⟨h0, rfl⟩ trivial) trivial
    rw [decide_eq_true (show Ack.Spec.IntProg.Rel .ne (Int.tdiv 100 ((n + 1 : Nat) : Int)) (Native.s32 1000).toInt from ?_)] at ht
    · have hw : words ((n + 1 : Nat) : Int) + 1 ≤ 2 := by
        have : ((n + 1 : Nat) : Int).natAbs.size ≤ 32 := Nat.size_le.2 (by omega)
        unfold words; omega
      refine .loop_next ht (Runs.step (a := ((n + 1 : Nat) : Int)) rfl (fun M hM => le_trans hw (hc M hM))) ?_
      have e2 : (((n + 1 : Nat) : Int) - 1) = (n : Int) := by push_cast; ring
      simpa [e2] using ih (by omega)
    · show Int.tdiv 100 ((n + 1 : Nat) : Int) ≠ 1000
      have : Int.tdiv 100 ((n + 1 : Nat) : Int) ≤ 100 := by
        rw [Int.tdiv_eq_ediv_of_nonneg (by decide)]
        exact Int.ediv_le_self _ (by decide)
      omega

/-- The program stops for every `m`, after `m` rounds. -/
theorem C95_divisors (K : Kind) (elide : Bool) (m : BitVec 32) (hK : K.dyn = false → 2 ≤ K.N) :
    ∃ F, ∀ fuel, F ≤ fuel → (divisors m).exec K elide fuel ⟨[], BigSt.init⟩ = .error .abort := by
  have hf : fits (if K.dyn then none else some K.N) 2 := by
    intro M hM
    cases hd : K.dyn with
    | true => rw [hd] at hM; cases hM
    | false => rw [hd] at hM; cases hM; exact hK hd
  exact C95_stops K elide _ (.seq_right (.decl (.lit (n := .u32 m) (fun M hM => le_trans (show 1 ≤ 2 by decide) (hf M hM)))) (divisors_loop _ _ hf m.toNat m.isLt))

example : result ⟨2, false⟩ true 90 (divisors 5) 0 = .error .abort ∧ result ⟨2, false⟩ true 4 (divisors 5) 0 = .error .fuel := by decide +kernel
/-- No inverse of 6 modulo 9: `bigint a(6); a = a.modinv(9);` -/
example : Stops (some 4) none (.seq (.decl (.lit (.s32 6))) (.set 0 (.call .modinv (.var 0) (.lit (.s32 9))))) [] ∧
    result ⟨4, false⟩ true 90 (.seq (.decl (.lit (.s32 6))) (.set 0 (.call .modinv (.var 0) (.lit (.s32 9))))) 0 = .error .abort :=
  ⟨.seq_right (.decl (.lit (n := .s32 6) (by intro M h; cases h; decide))) (.set (.modinv (a := 6) (m := 9) (.var rfl)
    (.lit (n := .s32 9) (by intro M h; cases h; decide)) (by decide) (by decide) (by decide) (by intro M h; cases h; decide +kernel) (fun N h => by cases h))),
    by decide +kernel⟩

/-- **C105.**  A program on integers with growable storage that declares what it names and is written with `+ - * / %` on big integers,
`+ - *` with native ones, `/ %` with signed and 64-bit native ones, shifts, signs, comparisons, assignment, `*= /= %= <<= >>=`, `++ --`, swaps,
branches, loops and blocks does one of three things, whatever its numbers and however large they grow: it computes in the integers and
ends with the right values; or it aborts, and in the integers it divides by zero there; or it goes on for ever, and it
does so in the integers.  There is no undefined behaviour, and no other abort. -/
theorem C105 (N : Nat) (elide : Bool) (p : Cmd) (h : CmdFree 0 p) :
    (∃ ρ', Runs none (some N) p [] ρ' ∧ ∃ F, ∀ fuel, F ≤ fuel → ∃ f, p.exec ⟨N, true⟩ elide fuel ⟨[], BigSt.init⟩ = .ok f ∧
      f.vars.length = ρ'.length ∧ ∀ (i : Nat) (a : Int), ρ'[i]? = some a → ∃ q, f.vars[i]? = some q ∧ f.st.value q = .ok a) ∨
    (Stops none (some N) p [] ∧ ∃ F, ∀ fuel, F ≤ fuel → p.exec ⟨N, true⟩ elide fuel ⟨[], BigSt.init⟩ = .error .abort) ∨
    ((¬ ∃ ρ', Runs none (some N) p [] ρ') ∧ ¬ Stops none (some N) p [] ∧ ∀ fuel, p.exec ⟨N, true⟩ elide fuel ⟨[], BigSt.init⟩ = .error .fuel) := by
  by_cases hr : ∃ ρ', Runs none (some N) p [] ρ'
  · obtain ⟨ρ', hr⟩ := hr
    obtain ⟨F, g⟩ := C95 ⟨N, true⟩ elide p ρ' hr
    refine Or.inl ⟨ρ', hr, F, fun fuel hf => ?_⟩
    obtain ⟨f, e1, l, -, v⟩ := g fuel hf
    exact ⟨f, e1, l, v⟩
  · by_cases hs : Stops none (some N) p []
    · exact Or.inr (Or.inl ⟨hs, C95_stops ⟨N, true⟩ elide p hs⟩)
    · refine Or.inr (Or.inr ⟨hr, hs, fun fuel => ?_⟩)
      rcases comes (K := ⟨N, true⟩) rfl elide fuel p [] [] [] BigSt.init h sees_init (holds_init _) with g | ⟨ρ', _, _, _, g, -⟩ | ⟨g, -⟩
      · exact g
      · exact absurd ⟨ρ', g⟩ hr
      · exact absurd g hs

/-- **C105**, at every point of a run: with any bound on the number of steps there is no undefined behaviour. -/
theorem C105_safe (N : Nat) (elide : Bool) (p : Cmd) (h : CmdFree 0 p) (fuel : Nat) :
    p.exec ⟨N, true⟩ elide fuel ⟨[], BigSt.init⟩ ≠ .error .ub := by
  rcases comes (K := ⟨N, true⟩) rfl elide fuel p [] [] [] BigSt.init h sees_init (holds_init _) with g | ⟨_, _, _, _, -, -, g, -⟩ | ⟨-, g⟩ <;>
    rw [g] <;> exact fun h => by cases h

/-- `bigint n(m), k(0); while (n != 1) { if (n.is_odd()) n = n * 3 + 1; else n >>= 1; ++k; }`: whether it ends for every positive `m` nobody knows. -/
def collatz (m : Native) : Cmd :=
  .seq (.decl (.lit m)) (.seq (.decl (.lit (.s32 0))) (.loop (.cmpR .ne (.var 0) (.s32 1))
    (.seq (.ite (.isOdd (.var 0)) (.set 0 (.binN .add (.binN .mul (.var 0) (.s32 3)) (.s32 1))) (.shr 0 1)) (.step true 1))))

theorem collatz_free (m : Native) : CmdFree 0 (collatz m) := by
  have h : ∀ o v, o = .add ∨ o = .mul → ArithN o (.s32 v) := by
    rintro o v (rfl | rfl) <;> exact ⟨⟨by decide, by decide⟩, fun w hw => by cases hw⟩
  exact ⟨trivial, trivial, ⟨by decide, Nat.two_pos⟩, ⟨Nat.two_pos, ⟨Nat.two_pos, h _ _ (Or.inl rfl), h _ _ (Or.inr rfl), Nat.two_pos⟩, Nat.two_pos⟩, Nat.one_lt_two⟩

/-- It has no undefined behaviour; from 27 it takes 111 rounds; from 2^64 − 1, which outgrows the inline word, it has not ended after 90 steps. -/
example : CmdFree 0 (collatz (.s32 27)) ∧ result ⟨1, true⟩ true 130 (collatz (.s32 27)) 1 = .ok 111 ∧
    result ⟨1, true⟩ false 90 (collatz (.u64 0xffffffffffffffff)) 0 = .error .fuel := ⟨collatz_free _, by decide +kernel⟩

/-- What C105 leaves out does happen: `x += x` and `bigint(7) % 2u` (`C95_inline_needed`, `C95_rules_needed`) have undefined behaviour. -/
example : ¬ CmdFree 1 (.upd .add 0 (.var 0)) ∧ ¬ CmdFree 1 (.decl (.binN .mod (.var 0) (.u32 2))) := by
  refine ⟨fun h => ?_, fun h => (h.1.2 2 rfl).2 rfl⟩
  rcases h.2.1 with h | h | h <;> cases h

end Ack.Props
