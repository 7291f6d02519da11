import Verif.Props.AliasNT
import Verif.Proof.AliasFp
/-!
# C83: programs that call the field functions, on real storage
-/
namespace Ack.Props
open Ack.Mem Ack.Spec.Prog

/-- **C83.**  Every program, on fixed and on growable storage, that calls the functions of `fp.hpp` within their domain, with
enough room, leaves in every object the integer that the program computes with residues: the new object holds the sum,
difference, product, square, quotient or opposite modulo `p`, `fp_normalize` replaces its operand by its residue, all operands and all
other objects keep their values; the operands and the modulus may be the same object; temporaries leave no trace.  Missing from
the full statement: on growable storage, divisions by a modulus longer than the inline words (`C83_div_wrong`); numbers
that `fp_normalize` does not reduce (C25); and what is missing in C81. -/
theorem C83_partial (K : Kind) (p : List FStmt) (e : Env)
    (h : RunsF (fun e c => RoomF (if K.dyn then none else some K.N) e c ∧ SafeF e c ∧ (K.dyn = true → InlineF K.N e c)) [] p e) :
    ∃ F, ∀ fuel, F ≤ fuel → ∃ s, execF K fuel BigSt.init p = .ok s ∧ s.mem.objs.length = e.length ∧
      ∀ i a, e[i]? = some (some a) → s.value i = .ok a := by
  obtain ⟨F, hF⟩ := execF_spec h
  refine ⟨F, fun fuel hf => ?_⟩
  obtain ⟨s, e1, H⟩ := hF BigSt.init (holds_init K) fuel hf
  exact ⟨s, e1, H.len, holds_value H⟩

/-- The program of the examples: modulo `p = 2^127 - 1`. -/
def fpProg : List FStmt :=
  [.nt (.base (.create 1)), .nt (.base (.shl 0 0 127)), .nt (.base (.addWord 0 0 1 true)), -- 0: p
   .nt (.base (.create 3)), .nt (.base (.shl 1 1 125)), -- 1: a = 3 * 2^125
   .nt (.base (.create 5)), .nt (.base (.neg 2 2)), .normalize 2 0, -- 2: b = -5 mod p
   .add 1 2 0, .sub 1 2 0, .neg 1 0, .mul 1 2 0, .sqr 2 0, .addS 1 7 0, .subS 2 9 0, .mulS 1 1000 0, .div 1 2 0,
   .normalize 0 0]

/-- The integers after it. -/
def fpEnv : Env :=
  [some 0, some (3 * 2 ^ 125), some (2 ^ 127 - 6),
   some (3 * 2 ^ 125 - 5), some (3 * 2 ^ 125 + 5), some (2 ^ 125 - 1), some ((3 * 2 ^ 125) * (2 ^ 127 - 6) % (2 ^ 127 - 1)), some 25,
   some (3 * 2 ^ 125 + 7), some (2 ^ 127 - 15), some (3 * 2 ^ 125 * 1000 % (2 ^ 127 - 1)), some 76563532557211154279259286672147847577]

private theorem base_step {e e1 : Env} {c : Stmt} (h : eval e c = some e1) : StepF e (.nt (.base c)) e1 := h

private theorem fpProg_runs (K : Kind) (hK : K = ⟨8, false⟩ ∨ K = ⟨4, true⟩) :
    RunsF (fun e c => RoomF (if K.dyn then none else some K.N) e c ∧ SafeF e c ∧ (K.dyn = true → InlineF K.N e c)) [] fpProg fpEnv := by
  rcases hK with rfl | rfl
  all_goals
    refine .cons (by decide +kernel) (e1 := [some 1]) (base_step (by decide +kernel)) ?_
    refine .cons (by decide +kernel) (e1 := [some (2 ^ 127)]) (base_step (by decide +kernel)) ?_
    refine .cons (by decide +kernel) (e1 := [some (2 ^ 127 - 1)]) (base_step (by decide +kernel)) ?_
    refine .cons (by decide +kernel) (e1 := [some (2 ^ 127 - 1), some 3]) (base_step (by decide +kernel)) ?_
    refine .cons (by decide +kernel) (e1 := [some (2 ^ 127 - 1), some (3 * 2 ^ 125)]) (base_step (by decide +kernel)) ?_
    refine .cons (by decide +kernel) (e1 := [some (2 ^ 127 - 1), some (3 * 2 ^ 125), some 5]) (base_step (by decide +kernel)) ?_
    refine .cons (by decide +kernel) (e1 := [some (2 ^ 127 - 1), some (3 * 2 ^ 125), some (-5)]) (base_step (by decide +kernel)) ?_
    refine .cons (by decide +kernel) (e1 := some (2 ^ 127 - 1) :: (fpEnv.take 3).tail)
      ⟨-5, 2 ^ 127 - 1, rfl, rfl, by decide,
        Or.inr (Or.inr (Or.inr ⟨by decide, by
          rintro ⟨k, h1, h2⟩
          rcases Nat.eq_zero_or_pos k with rfl | hk
          · norm_num at h1
          · have : (256 : Int) ^ 1 ≤ 256 ^ k := pow_le_pow_right₀ (by decide) hk
            norm_num at h2 this
            omega, by decide⟩)), by decide +kernel⟩ ?_
    refine .cons (by decide +kernel) (e1 := some (2 ^ 127 - 1) :: (fpEnv.take 4).tail)
      ⟨3 * 2 ^ 125, 2 ^ 127 - 6, 2 ^ 127 - 1, rfl, rfl, rfl, ⟨by decide, by decide⟩, ⟨by decide, by decide⟩, by decide +kernel⟩ ?_
    refine .cons (by decide +kernel) (e1 := some (2 ^ 127 - 1) :: (fpEnv.take 5).tail)
      ⟨3 * 2 ^ 125, 2 ^ 127 - 6, 2 ^ 127 - 1, rfl, rfl, rfl, ⟨by decide, by decide⟩, ⟨by decide, by decide⟩, by decide +kernel⟩ ?_
    refine .cons (by decide +kernel) (e1 := some (2 ^ 127 - 1) :: (fpEnv.take 6).tail)
      ⟨3 * 2 ^ 125, 2 ^ 127 - 1, rfl, rfl, ⟨by decide, by decide⟩, by decide +kernel⟩ ?_
    refine .cons (by decide +kernel) (e1 := some (2 ^ 127 - 1) :: (fpEnv.take 7).tail)
      ⟨3 * 2 ^ 125, 2 ^ 127 - 6, 2 ^ 127 - 1, rfl, rfl, rfl, by decide, by decide, by decide, by decide +kernel⟩ ?_
    refine .cons (by decide +kernel) (e1 := some (2 ^ 127 - 1) :: (fpEnv.take 8).tail)
      ⟨2 ^ 127 - 6, 2 ^ 127 - 1, rfl, rfl, by decide, by decide +kernel⟩ ?_
    refine .cons (by decide +kernel) (e1 := some (2 ^ 127 - 1) :: (fpEnv.take 9).tail)
      ⟨3 * 2 ^ 125, 2 ^ 127 - 1, rfl, rfl, ⟨by decide, by decide⟩, ⟨by decide, by decide⟩, by decide +kernel⟩ ?_
    refine .cons (by decide +kernel) (e1 := some (2 ^ 127 - 1) :: (fpEnv.take 10).tail)
      ⟨2 ^ 127 - 6, 2 ^ 127 - 1, rfl, rfl, ⟨by decide, by decide⟩, ⟨by decide, by decide⟩, by decide +kernel⟩ ?_
    refine .cons (by decide +kernel) (e1 := some (2 ^ 127 - 1) :: (fpEnv.take 11).tail)
      ⟨3 * 2 ^ 125, 2 ^ 127 - 1, rfl, rfl, by decide, by decide, by decide, by decide +kernel⟩ ?_
    refine .cons (by decide +kernel) (e1 := some (2 ^ 127 - 1) :: (fpEnv.take 12).tail)
      ⟨3 * 2 ^ 125, 2 ^ 127 - 6, 2 ^ 127 - 1, 76563532557211154279259286672147847577, rfl, rfl, rfl, ⟨by decide, by decide⟩, ⟨by decide, by decide⟩,
        by decide, by decide +kernel, ⟨by decide, by decide⟩, by decide +kernel, by decide +kernel⟩ ?_
    exact .cons (by decide +kernel) ⟨2 ^ 127 - 1, 2 ^ 127 - 1, rfl, rfl, by decide, Or.inr (Or.inl ⟨by decide, Or.inr (by decide)⟩), by decide +kernel⟩
      (.nil _)

/-- The hypothesis of `C83_partial` holds for this program, on a fixed buffer of twice the words of the modulus and on a growable
one whose inline words the products exceed; and the program computes what the theorem says. -/
example : (∀ K : Kind, K = ⟨8, false⟩ ∨ K = ⟨4, true⟩ →
      RunsF (fun e c => RoomF (if K.dyn then none else some K.N) e c ∧ SafeF e c ∧ (K.dyn = true → InlineF K.N e c)) [] fpProg fpEnv) ∧
    (execF ⟨4, true⟩ 300 BigSt.init fpProg).bind (·.value 11) = .ok 76563532557211154279259286672147847577 ∧
    (execF ⟨8, false⟩ 300 BigSt.init fpProg).bind (·.value 11) = .ok 76563532557211154279259286672147847577 :=
  ⟨fpProg_runs, by decide +kernel⟩

/-- **C83, division without inverse.**  A program that divides by a residue that has no inverse aborts at that division, whatever
came before and whatever follows. -/
theorem C83_div_abort_partial (K : Kind) (q : List FStmt) (e : Env)
    (h : RunsF (fun e c => RoomF (if K.dyn then none else some K.N) e c ∧ SafeF e c ∧ (K.dyn = true → InlineF K.N e c)) [] q e)
    (a b p : Nat) (A B P : Int)
    (ha : e[a]? = some (some A)) (hb : e[b]? = some (some B)) (hp : e[p]? = some (some P)) (h0 : 0 ≤ B) (hP : 1 < P)
    (room : fits (if K.dyn then none else some K.N) (max (words B) (words P) + 1)) (inl : K.dyn = true → words P ≤ K.N)
    (hg : Int.gcd B P ≠ 1) :
    ∃ F, ∀ fuel, F ≤ fuel → ∀ c, execF K fuel BigSt.init (q ++ .div a b p :: c) = .error .abort := by
  obtain ⟨F, hF⟩ := execF_spec h
  obtain ⟨G, hG⟩ := fpDiv_abort (K := K) (look_some.2 ha) (look_some.2 hb) (look_some.2 hp) h0 hP room inl hg
  refine ⟨max F G, fun fuel hf c => ?_⟩
  obtain ⟨s, e1, H⟩ := hF BigSt.init (holds_init K) fuel (by omega)
  rw [execF_append, e1, ok_bind, execF, FStmt.exec, hG s H fuel (by omega)]
  rfl

/-- At the end of the program above: division by zero modulo 25. -/
example : fpEnv[0]? = some (some 0) ∧ fpEnv[7]? = some (some 25) ∧ Int.gcd 0 25 ≠ 1 ∧ words 25 ≤ 4 ∧
    (execF ⟨4, true⟩ 300 BigSt.init (fpProg ++ [.div 1 0 7, .neg 1 7])).map (fun _ => ()) = .error .abort := by decide +kernel

/-- **C83 fails for divisions on growable storage with small inline capacity** (compare `C81_modinv_wrong`): 5 divided by
2^40 + 3 modulo 2^64 + 13 on a `flexbuffer` of one inline word reads a released block. -/
theorem C83_div_wrong :
    Int.gcd (2 ^ 40 + 3) (2 ^ 64 + 13) = 1 ∧
    (execF ⟨1, true⟩ 100 BigSt.init ([.create 1, .shl 0 0 40, .addWord 0 0 3 false, .create 1, .shl 1 1 64,
      .addWord 1 1 13 false, .create 5].map (.nt ∘ .base))).isOk = true ∧
    (execF ⟨1, true⟩ 100 BigSt.init ([.create 1, .shl 0 0 40, .addWord 0 0 3 false, .create 1, .shl 1 1 64,
      .addWord 1 1 13 false, .create 5].map (.nt ∘ .base) ++ [.div 2 0 1])).map (fun _ => ()) = .error .ub := by decide +kernel

/-- **C83, comparisons.**  In the state after any program as in `C83_partial`, the comparisons of two objects (which may be the
same) and of an object with an `int` are those of the integers, and `fp_is_valid` says whether `a` is a residue modulo `p`; nothing is
written, nothing read out of bounds. -/
theorem C83_compare (K : Kind) (q : List FStmt) (e : Env)
    (h : RunsF (fun e c => RoomF (if K.dyn then none else some K.N) e c ∧ SafeF e c ∧ (K.dyn = true → InlineF K.N e c)) [] q e)
    (x y : Nat) (a b : Int) (w : BitVec 32) (hx : e[x]? = some (some a)) (hy : e[y]? = some (some b)) :
    ∃ F, ∀ fuel, F ≤ fuel → (execF K fuel BigSt.init q).bind (·.compare x y) = .ok (Int.sign (a - b)) ∧
      (execF K fuel BigSt.init q).bind (·.compares1 x w) = .ok (Int.sign (a - w.toInt)) ∧
      (execF K fuel BigSt.init q).bind (·.fpIsValid x y) = .ok (decide (0 ≤ a ∧ a < b)) := by
  obtain ⟨F, hF⟩ := execF_spec h
  refine ⟨F, fun fuel hf => ?_⟩
  obtain ⟨s, e1, H⟩ := hF BigSt.init (holds_init K) fuel hf
  rw [e1]
  change s.compare x y = _ ∧ s.compares1 x w = _ ∧ s.fpIsValid x y = _
  obtain ⟨X, x1, x2, x3⟩ := H.get x a hx
  obtain ⟨Y, y1, y2, y3⟩ := H.get y b hy
  have sg : ∀ c d : Int, (if c < d then (-1 : Int) else if c = d then 0 else 1) = Int.sign (c - d) := by
    intro c d
    rcases lt_trichotomy c d with h | h | h
    · rw [if_pos h, Int.sign_eq_neg_one_of_neg (by omega)]
    · subst h; simp
    · rw [if_neg (by omega), if_neg (by omega), Int.sign_eq_one_of_pos (by omega)]
  refine ⟨?_, ?_, ?_⟩
  · rw [compare_eq x1 y1, Big.compare_spec x2 y2, x3, y3, sg]
  · rw [compares1_eq x1, Big.compares1_spec x2, x3, sg]
  · unfold BigSt.fpIsValid
    rw [H.ltS (look_some.2 hx), ok_bind, H.opLt (look_some.2 hx) (look_some.2 hy), show (0 : BitVec 32).toInt = 0 from rfl]
    by_cases h : a < 0
    · simp [h]
    · have h' : 0 ≤ a := by omega
      simp [h, h']

example : fpEnv[1]? = some (some (3 * 2 ^ 125)) ∧ fpEnv[2]? = some (some (2 ^ 127 - 6)) ∧
    (execF ⟨4, true⟩ 300 BigSt.init fpProg).bind (·.compare 1 2) = .ok (-1) ∧
    (execF ⟨4, true⟩ 300 BigSt.init fpProg).bind (·.compare 2 2) = .ok 0 ∧
    (execF ⟨4, true⟩ 300 BigSt.init fpProg).bind (·.compares1 6 25) = .ok 1 ∧
    (execF ⟨4, true⟩ 300 BigSt.init fpProg).bind (·.compares1 7 25) = .ok 0 ∧
    (execF ⟨4, true⟩ 300 BigSt.init fpProg).bind (·.fpIsValid 2 1) = .ok false := by decide +kernel

end Ack.Props
