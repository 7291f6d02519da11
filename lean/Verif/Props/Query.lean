import Verif.Proof.Query
import Verif.Proof.AliasNT
/-!
# C93: questions about integers, on real storage
-/
namespace Ack.Props
open Ack.Mem Ack.Spec.Prog

/-- The inline words of growable storage. -/
def inlineOf (K : Kind) : Option Nat := if K.dyn then some K.N else none

/-- **C93.**  Every program that computes with integers on fixed or growable storage, within the conditions of C81, imports
integers from bytes, divides with remainder, and asks questions about them gets the right answers: whether a number is zero, one,
negative, odd; comparisons; lengths, bits and bytes; the non-adjacent form; and the Jacobi symbol for every positive odd modulus,
also 1 and composite ones, and every argument, also negative ones.  Questions change no object, quotient and remainder may overwrite
either operand, and afterwards every object holds its integer. -/
theorem C93 (K : Kind) (p : List QStmt) (e : Env) (l : List Ans) (h : QRuns (if K.dyn then none else some K.N) (inlineOf K) [] p e l) :
    ∃ F, ∀ fuel, F ≤ fuel → ∃ s, qexec K fuel BigSt.init p = .ok (s, l) ∧ ∀ i a, e[i]? = some (some a) → s.value i = .ok a := by
  obtain ⟨F, hF⟩ := qexec_spec (K := K) rfl h
  refine ⟨F, fun fuel hf => ?_⟩
  obtain ⟨s, e1, H⟩ := hF BigSt.init (holds_init K) fuel hf
  exact ⟨s, e1, holds_value H⟩

/-- A program on integers that divides with rounding, into its divisor and its dividend, and asks about the results: 2^72 − 1 from its
bytes, −2^40, then `quot_rem(&y, x, x, y)`. -/
def askProg : List QStmt :=
  [.ofBytes (List.replicate 9 255), .run (.base (.create 1)), .run (.base (.shl 1 1 40)), .run (.base (.neg 1 1)), .ask (.lt 0 1), .ask (.toBytes 0),
   .quotRem 1 0 0 1, .ask (.isNegative 0), .ask (.bitLength 1), .ask (.testBit 1 31), .ask (.eqInt 0 (-1)), .run (.base (.create 15)),
   .ask (.jacobi 0 2), .ask (.toNaf 2), .ask (.jacobi 1 2), .run (.base (.set 2 1)), .ask (.jacobi 1 2), .rem 2 1 0]

theorem askProg_runs (K : Kind) (hK : K = ⟨4, false⟩ ∨ K = ⟨2, true⟩) :
    QRuns (if K.dyn then none else some K.N) (inlineOf K) [] askProg [some (-1), some (-4294967296), some 0]
      [.bool false, .bytes (List.replicate 9 255), .bool true, .nat 33, .bool false, .bool true, .int (jacobiSym (-1) 15),
       .bytes [255, 0, 0, 0, 1], .int (jacobiSym (-4294967296) 15), .int (jacobiSym (-4294967296) 1)] := by
  rcases hK with rfl | rfl
  all_goals
    refine .ofBytes (by decide +kernel) ?_
    refine .run (e1 := [some 4722366482869645213695, some 1]) rfl (by decide +kernel) (by decide +kernel) (fun n h => by cases h <;> decide +kernel) ?_
    refine .run (e1 := [some 4722366482869645213695, some 1099511627776]) rfl (by decide +kernel) (by decide +kernel) (fun n h => by cases h <;> decide +kernel) ?_
    refine .run (e1 := [some 4722366482869645213695, some (-1099511627776)]) rfl (by decide +kernel) (by decide +kernel) (fun n h => by cases h <;> decide +kernel) ?_
    refine .ask (.lt (a := 4722366482869645213695) (b := -1099511627776) rfl rfl) trivial ?_
    refine .ask (.toBytes (a := 4722366482869645213695) rfl (by decide +kernel) (by decide +kernel)) trivial ?_
    refine .quotRem (a := 4722366482869645213695) (b := -1099511627776) rfl rfl rfl rfl (by decide) (by decide) (fun _ _ => by decide +kernel) ?_
    have he : put (put [some 4722366482869645213695, some (-1099511627776)] 1 (Int.fdiv 4722366482869645213695 (-1099511627776))) 0
        (Int.fmod 4722366482869645213695 (-1099511627776)) = [some (-1), some (-4294967296)] := by decide +kernel
    rw [he]
    refine .ask (.isNegative (a := -1) rfl) trivial ?_
    refine .ask (.bitLength (a := -4294967296) rfl) trivial ?_
    refine .ask (.testBit (a := -4294967296) rfl) trivial ?_
    refine .ask (.eqInt (a := -1) rfl) trivial ?_
    refine .run (e1 := [some (-1), some (-4294967296), some 15]) rfl (by decide +kernel) (by decide +kernel) (fun n h => by cases h <;> decide +kernel) ?_
    refine .ask (.jacobi (a := -1) (b := 15) rfl rfl (by decide) (by decide)) trivial ?_
    refine .ask (.toNaf (a := 15) rfl (by decide) (by decide) (by decide) (by decide) (by decide)) (fun a h => by cases h; decide +kernel) ?_
    refine .ask (.jacobi (a := -4294967296) (b := 15) rfl rfl (by decide) (by decide)) trivial ?_
    refine .run (e1 := [some (-1), some (-4294967296), some 1]) rfl (by decide +kernel) (by decide +kernel) (fun n h => by cases h <;> decide +kernel) ?_
    refine .ask (.jacobi (a := -4294967296) (b := 1) rfl rfl (by decide) (by decide)) trivial ?_
    exact .rem (a := -4294967296) (b := -1) rfl rfl rfl (by decide) (.nil _)

/-- The hypotheses of `C93` hold for this program on both kinds of storage, and it returns what the theorem says. -/
example : (∀ K : Kind, K = ⟨4, false⟩ ∨ K = ⟨2, true⟩ →
      QRuns (if K.dyn then none else some K.N) (inlineOf K) [] askProg [some (-1), some (-4294967296), some 0]
        [.bool false, .bytes (List.replicate 9 255), .bool true, .nat 33, .bool false, .bool true, .int (jacobiSym (-1) 15),
         .bytes [255, 0, 0, 0, 1], .int (jacobiSym (-4294967296) 15), .int (jacobiSym (-4294967296) 1)]) ∧
    (qexec ⟨4, false⟩ 20 BigSt.init askProg).map (·.2) =
      .ok [.bool false, .bytes (List.replicate 9 255), .bool true, .nat 33, .bool false, .bool true, .int (-1),
         .bytes [255, 0, 0, 0, 1], .int (-1), .int 1] :=
  ⟨askProg_runs, by decide +kernel⟩

/-- **C93, the end of a program.**  A program that gets as far as dividing by zero, or to bytes that need more words than the storage
has, aborts there. -/
theorem C93_stops (K : Kind) (p q : List QStmt) (c : QStmt) (e : Env) (l : List Ans)
    (h : QRuns (if K.dyn then none else some K.N) (inlineOf K) [] p e l) (hc : QStops (if K.dyn then none else some K.N) e c) :
    ∃ F, ∀ fuel, F ≤ fuel → qexec K fuel BigSt.init (p ++ c :: q) = .error .abort := by
  obtain ⟨F, hF⟩ := qexec_spec (K := K) rfl h
  refine ⟨F, fun fuel hf => ?_⟩
  obtain ⟨s, e1, H⟩ := hF BigSt.init (holds_init K) fuel hf
  rw [qexec_append e1, stop_one hc fuel s H q]
  rfl

/-- The hypotheses of `C93_stops`: the program above, which leaves a zero, then a division by it; or 17 bytes for four words. -/
example : QRuns (some 4) none [] askProg [some (-1), some (-4294967296), some 0]
      [.bool false, .bytes (List.replicate 9 255), .bool true, .nat 33, .bool false, .bool true, .int (jacobiSym (-1) 15),
       .bytes [255, 0, 0, 0, 1], .int (jacobiSym (-4294967296) 15), .int (jacobiSym (-4294967296) 1)] ∧
    QStops (some 4) [some (-1), some (-4294967296), some 0] (.quotRem 0 1 0 2) ∧
    QStops (some 4) [some (-1), some (-4294967296), some 0] (.ofBytes (List.replicate 17 0)) :=
  ⟨askProg_runs ⟨4, false⟩ (Or.inl rfl), .quotRem (a := -1) rfl rfl rfl rfl (by decide), .ofBytes (by decide +kernel) (by decide +kernel)⟩

end Ack.Props
