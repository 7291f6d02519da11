import Verif.Props.Move
import Verif.Proof.AliasNT
/-!
# C81: programs that call `pow`, `modexp`, `modinv`, `gcd` and `lcm`

On real storage, with any result object that may coincide with an operand.
-/
namespace Ack.Props
open Ack.Mem Ack.Spec.Prog

/-! ## C01, sums and differences in place -/

/-- **C01, `x += y` and `x -= y` on the storage.**  In the state after any program, for any `x` and `y` (which may be the
same object): the sum or difference replaces `x`, every other object keeps its value.  On growable storage this needs
operands of at most the `N` inline words, or magnitudes that are subtracted; without that it is false
(`C01_in_place_wrong`).  On a fixed buffer a sum of magnitudes needs a spare word (C08). -/
theorem C01_in_place_partial (K : Kind) (s : BigSt) (e : Env) (R : Reached K s e) (x y : Nat) (a b : Int)
    (hx : e[x]? = some (some a)) (hy : e[y]? = some (some b)) :
    ((OppSigns a b ∨ (if K.dyn then max (words a) (words b) ≤ K.N else max (words a) (words b) < K.N)) →
      ∃ s', s.add K x x y = .ok s' ∧ s'.value x = .ok (a + b) ∧ ∀ i c, i ≠ x → e[i]? = some (some c) → s'.value i = .ok c) ∧
    ((OppSigns a (-b) ∨ (if K.dyn then max (words a) (words b) ≤ K.N else max (words a) (words b) < K.N)) →
      ∃ s', s.sub K x x y = .ok s' ∧ s'.value x = .ok (a - b) ∧ ∀ i c, i ≠ x → e[i]? = some (some c) → s'.value i = .ok c) := by
  have H := R.holds
  have hxl : x < e.length := lt_of_get hx
  have la := look_some.2 hx
  have lb := look_some.2 hy
  have room : ∀ n, (if K.dyn then n ≤ K.N else n < K.N) → fits K.lim (n + 1) := by
    intro n h M hM
    unfold Kind.lim at hM
    cases hd : K.dyn
    · rw [hd] at hM h; cases hM; simpa using h
    · rw [hd] at hM; cases hM
  have fin : ∀ (v : Int) s', Holds K s' (put e x v) → s'.value x = .ok v ∧
      ∀ i c, i ≠ x → e[i]? = some (some c) → s'.value i = .ok c := by
    intro v s' H'
    refine ⟨holds_value H' _ _ (by unfold put; rw [List.getElem?_set, if_pos rfl, if_pos hxl]), fun i c hi hc => holds_value H' _ _ ?_⟩
    unfold put
    rw [List.getElem?_set, if_neg (Ne.symm hi)]; exact hc
  have live : live e x := by unfold Spec.Prog.live; rw [la]; rfl
  constructor
  · intro h
    have hr : Room K.lim e (.add x x y) := by
      intro a' b' ha' hb'
      rw [la] at ha'; rw [lb] at hb'; cases ha'; cases hb'
      exact h.imp id (room _)
    rcases exec_one 0 H (.add x x y) (e' := put e x (a + b)) (by simp [eval, la, lb, live]) hr trivial with ⟨s', e1, H'⟩ | ⟨hd, hA, -⟩
    · exact ⟨s', e1, fin _ _ H'⟩
    · obtain ⟨h1, h2⟩ := hA.2 a b la lb
      rw [hd, if_pos rfl] at h
      rcases h with h | h
      · exact absurd h h1
      · omega
  · intro h
    have hr : Room K.lim e (.sub x x y) := by
      intro a' b' ha' hb'
      rw [la] at ha'; rw [lb] at hb'; cases ha'; cases hb'
      exact h.imp id (room _)
    rcases exec_one 0 H (.sub x x y) (e' := put e x (a - b)) (by simp [eval, la, lb, live]) hr trivial with ⟨s', e1, H'⟩ | ⟨hd, hA, -⟩
    · exact ⟨s', e1, fin _ _ H'⟩
    · obtain ⟨h1, h2⟩ := hA.2 a b la lb
      rw [hd, if_pos rfl] at h
      rcases h with h | h
      · exact absurd h h1
      · omega

example : evals [] [.create 7, .shl 0 0 70, .create 5, .neg 1 1] = some [some (7 * 2 ^ 70), some (-5)] ∧
    max (words (7 * 2 ^ 70)) (words (-5)) ≤ 3 ∧
    (exec ⟨3, true⟩ 0 BigSt.init [.create 7, .shl 0 0 70, .create 5, .neg 1 1, .sub 0 0 1]).bind (·.value 0) =
      .ok (7 * 2 ^ 70 + 5) := by decide +kernel

/-- **C01 fails for `x += y` on growable storage beyond the inline words**: `x = 2^64`, then `x += 1` or
`x += x`, with two inline words, reads a released block. -/
theorem C01_in_place_wrong :
    (exec ⟨2, true⟩ 0 BigSt.init [.create 1, .shl 0 0 64, .create 1, .add 0 0 1]).map (fun _ => ()) = .error .ub ∧
    (exec ⟨2, true⟩ 0 BigSt.init [.create 1, .shl 0 0 64, .add 0 0 0]).map (fun _ => ()) = .error .ub := by decide +kernel

/-! ## C81 -/

/-- **C81.**  Every program, on fixed and on growable storage, that calls the number-theoretic functions within their
domain, with enough room, leaves in every object the integer that the program computes on integers; every call returns.
Result objects may be operands; only the modulus of `modexp` may not be its result.  Missing from the full statement: on
growable storage, sums of magnitudes into an operand longer than the inline words, and inverses for a modulus longer than
the inline words (`C81_modinv_wrong`); quotients stored into some divisors and such least common multiples
(`C17_lcm_wrong`); `modexp` into its modulus (`C81_modexp_wrong`). -/
theorem C81_partial (K : Kind) (p : List NStmt) (e : Env)
    (h : RunsN (fun e c => RoomN (if K.dyn then none else some K.N) e c ∧ SafeN e c ∧ (K.dyn = true → Inline K.N e c)) [] p e) :
    ∃ F, ∀ fuel, F ≤ fuel → ∃ s, execN K fuel BigSt.init p = .ok s ∧ ∀ i a, e[i]? = some (some a) → s.value i = .ok a := by
  obtain ⟨F, hF⟩ := execN_spec h
  refine ⟨F, fun fuel hf => ?_⟩
  obtain ⟨s, e1, H⟩ := hF BigSt.init (holds_init K) fuel hf
  exact ⟨s, e1, holds_value H⟩

/-- The program of the examples: every result object is an operand. -/
def ntProg : List NStmt :=
  [.base (.create 3), .base (.shl 0 0 40), .base (.create 5), .pow 0 0 1, .base (.create 1), .base (.shl 2 2 64),
   .base (.addWord 2 2 13 false), .modexp 0 0 1 2, .modinv 2 0 2, .base (.set 1 60), .gcd 1 0 1, .lcm 2 2 0]

private theorem ntProg_runs (K : Kind) (hK : K = ⟨40, false⟩ ∨ K = ⟨3, true⟩) :
    RunsN (fun e c => RoomN (if K.dyn then none else some K.N) e c ∧ SafeN e c ∧ (K.dyn = true → Inline K.N e c)) [] ntProg
      [some 2011536650382554444, some 4, some 25669557754133019880144088111342809620] := by
  rcases hK with rfl | rfl
  all_goals
    refine .cons (by decide +kernel) (e1 := [some 3]) rfl ?_
    refine .cons (by decide +kernel) (e1 := [some 3298534883328]) rfl ?_
    refine .cons (by decide +kernel) (e1 := [some 3298534883328, some 5]) rfl ?_
    refine .cons (by decide +kernel) (e1 := [some 390485944754934636956696788438902512412895327489218658978234368, some 5])
      ⟨3298534883328, 5, rfl, rfl, rfl, by decide, by decide +kernel⟩ ?_
    refine .cons (by decide +kernel) (e1 := [some 390485944754934636956696788438902512412895327489218658978234368, some 5, some 1]) rfl ?_
    refine .cons (by decide +kernel) (e1 := [some 390485944754934636956696788438902512412895327489218658978234368, some 5, some 18446744073709551616]) rfl ?_
    refine .cons (by decide +kernel) (e1 := [some 390485944754934636956696788438902512412895327489218658978234368, some 5, some 18446744073709551629]) rfl ?_
    refine .cons (by decide +kernel) (e1 := [some 2011536650382554444, some 5, some 18446744073709551629])
      ⟨390485944754934636956696788438902512412895327489218658978234368, 5, 18446744073709551629, rfl, rfl, rfl, rfl,
        by decide, by decide, by decide, by decide, by decide +kernel⟩ ?_
    refine .cons (by decide +kernel) (e1 := [some 2011536650382554444, some 5, some 12761168308442790855])
      ⟨2011536650382554444, 18446744073709551629, 12761168308442790855, rfl, rfl, by decide, by decide, by decide, by decide, by decide,
        by decide +kernel, rfl⟩ ?_
    refine .cons (by decide +kernel) (e1 := [some 2011536650382554444, some 60, some 12761168308442790855]) rfl ?_
    refine .cons (by decide +kernel) (e1 := [some 2011536650382554444, some 4, some 12761168308442790855])
      ⟨2011536650382554444, 60, rfl, rfl, by decide, by decide, by decide, by decide +kernel⟩ ?_
    refine .cons (by decide +kernel) ⟨12761168308442790855, 2011536650382554444, rfl, rfl, rfl, by decide, by decide, by decide,
      by decide +kernel⟩ (.nil _)

/-- The hypothesis of `C81_partial` holds for this program, on a fixed buffer and on a growable one whose inline words it
exceeds; and the program computes what the theorem says. -/
example : (∀ K : Kind, K = ⟨40, false⟩ ∨ K = ⟨3, true⟩ →
      RunsN (fun e c => RoomN (if K.dyn then none else some K.N) e c ∧ SafeN e c ∧ (K.dyn = true → Inline K.N e c)) [] ntProg
        [some 2011536650382554444, some 4, some 25669557754133019880144088111342809620]) ∧
    (execN ⟨3, true⟩ 100 BigSt.init ntProg).bind (·.value 2) = .ok 25669557754133019880144088111342809620 ∧
    (execN ⟨40, false⟩ 100 BigSt.init ntProg).bind (·.value 2) = .ok 25669557754133019880144088111342809620 :=
  ⟨ntProg_runs, by decide +kernel⟩

/-- **C81, modular inverse, the flag.**  In the state after any program, for `a ≥ 0` and `n > 1`: `modinv` returns, its
flag says whether `a` and `n` are coprime, and then the result object holds the inverse between 1 and `n - 1`, even if it is
`x` or `m` itself; no other object changes.  Both storages; on growable storage the modulus must fit the inline words. -/
theorem C81_modinv_partial (K : Kind) (s : BigSt) (e : Env) (R : Reached K s e) (y x m : Nat) (a n : Int)
    (hx : e[x]? = some (some a)) (hm : e[m]? = some (some n)) (hy : y < e.length) (ha : 0 ≤ a) (hn : 1 < n)
    (room : fits (if K.dyn then none else some K.N) (max (words a) (words n) + 1)) (inl : K.dyn = true → words n ≤ K.N) :
    ∃ F, ∀ fuel, F ≤ fuel → ∃ s' ok, s.modinv K fuel y x m = .ok (s', ok) ∧ (ok = true ↔ Int.gcd a n = 1) ∧
      (ok = true → ∃ r, s'.value y = .ok r ∧ 0 < r ∧ r < n ∧ r * a ≡ 1 [ZMOD n]) ∧
      ∀ i b, i ≠ y → e[i]? = some (some b) → s'.value i = .ok b := by
  have H := R.holds
  obtain ⟨X, x1, x2, x3⟩ := H.get x a hx
  obtain ⟨M, m1, m2, m3⟩ := H.get m n hm
  refine ⟨val X.ws + 1, fun fuel hf => ?_⟩
  have room' : fits K.lim (max X.ws.length M.ws.length + 1) := by rw [words_eq x2, words_eq m2, x3, m3]; exact room
  obtain ⟨s', ok, e1, I', l', f', t', r'⟩ := modinv_mem (y := y) (lim_fits' _ _ room') m2 (le_max_right _ _) (rep_fits H.inv m1) (by omega)
    (fun hd => by rw [words_eq m2, m3]; exact inl hd) H.inv x1 m1 (by rw [H.len]; exact hy) x2 (by omega) (le_max_left _ _)
    fuel (lt_trans (show val X.ws < fuel by omega) Nat.lt_two_pow_self)
  rw [x3, m3] at t' r'
  refine ⟨s', ok, e1, t', fun h => ?_, fun i b hi hb => ?_⟩
  · obtain ⟨Z, z1, z2, z3, z4, z5⟩ := r' h
    exact ⟨_, value_of z1, z3, z4, z5⟩
  · obtain ⟨B, b1, b2, b3⟩ := H.get i b hb
    rw [value_of (f' i B hi b1), b3]

/-- The state of the following examples: 6·2^40, 2^64 + 13, 3·2^64 + 12. -/
def ntBase : List Stmt := [.create 6, .shl 0 0 40, .create 1, .shl 1 1 64, .addWord 1 1 13 false, .create 3, .shl 2 2 64,
  .addWord 2 2 12 false]

example : evals [] ntBase = some [some (6 * 2 ^ 40), some (2 ^ 64 + 13), some (3 * 2 ^ 64 + 12)] ∧
    Always (Room none) [] ntBase ∧ Always DivSafe [] ntBase ∧
    ((exec ⟨3, true⟩ 0 BigSt.init ntBase).bind (fun s => s.modinv ⟨3, true⟩ 50 0 0 1)).map (·.2) = .ok true ∧
    ((exec ⟨3, true⟩ 0 BigSt.init ntBase).bind (fun s => s.modinv ⟨3, true⟩ 50 1 0 2)).map (·.2) = .ok false ∧
    Int.gcd (6 * 2 ^ 40) (2 ^ 64 + 13) = 1 ∧ Int.gcd (6 * 2 ^ 40) (3 * 2 ^ 64 + 12) ≠ 1 := by decide +kernel

/-- **C81, no inverse.**  A program that asks for an inverse of a number that has none aborts: it neither goes on with some
other value nor has undefined behaviour.  Same conditions as above. -/
theorem C81_modinv_abort_partial (K : Kind) (s : BigSt) (e : Env) (R : Reached K s e) (y x m : Nat) (a n : Int)
    (hx : e[x]? = some (some a)) (hm : e[m]? = some (some n)) (hy : y < e.length) (ha : 0 ≤ a) (hn : 1 < n)
    (room : fits (if K.dyn then none else some K.N) (max (words a) (words n) + 1)) (inl : K.dyn = true → words n ≤ K.N)
    (hg : Int.gcd a n ≠ 1) :
    ∃ F, ∀ fuel, F ≤ fuel → ∀ p, execN K fuel s (.modinv y x m :: p) = .error .abort := by
  obtain ⟨F, hF⟩ := C81_modinv_partial K s e R y x m a n hx hm hy ha hn room inl
  refine ⟨F, fun fuel hf p => ?_⟩
  obtain ⟨s', ok, e1, h, -⟩ := hF fuel hf
  have hok : ok = false := by
    cases ok
    · rfl
    · exact absurd (h.1 rfl) hg
  subst hok
  simp only [execN, NStmt.exec, e1]
  rfl

example : evals [] ntBase = some [some (6 * 2 ^ 40), some (2 ^ 64 + 13), some (3 * 2 ^ 64 + 12)] ∧
    Int.gcd (6 * 2 ^ 40) (3 * 2 ^ 64 + 12) = 12 ∧ words (3 * 2 ^ 64 + 12) ≤ 3 ∧
    (execN ⟨3, true⟩ 50 BigSt.init (ntBase.map .base ++ [.modinv 1 0 2])).map (fun _ => ()) = .error .abort := by decide +kernel

/-- **C81 fails for inverses on growable storage with small inline capacity**: 2^40 + 3 is invertible modulo 2^64 + 13,
but on a `flexbuffer` of one inline word `a -= b * q` (bigint.hpp:2206-2242) adds magnitudes into an operand that has outgrown its
block, and reads the block after it was released. -/
theorem C81_modinv_wrong :
    Int.gcd (2 ^ 40 + 3) (2 ^ 64 + 13) = 1 ∧
    (execN ⟨1, true⟩ 100 BigSt.init ([.create 1, .shl 0 0 40, .addWord 0 0 3 false, .create 1, .shl 1 1 64,
      .addWord 1 1 13 false].map .base)).isOk = true ∧
    (execN ⟨1, true⟩ 100 BigSt.init ([.create 1, .shl 0 0 40, .addWord 0 0 3 false, .create 1, .shl 1 1 64,
      .addWord 1 1 13 false].map .base ++ [.modinv 0 0 1])).map (fun _ => ()) = .error .ub := by decide +kernel

/-- **C81, powers, the flag.**  In the state after any program, for `b > 0`: `pow` returns; if its flag is `true` the
result object holds the power, also if it is the base or the exponent; no other object changes.  It is `true` if
the capacity holds `max(15, b)` times the words of the base and one more. -/
theorem C81_pow (K : Kind) (s : BigSt) (e : Env) (R : Reached K s e) (z x y : Nat) (a b c : Int)
    (hx : e[x]? = some (some a)) (hy : e[y]? = some (some b)) (hz : e[z]? = some (some c)) (hb : 0 < b) :
    ∃ s' ok, s.pow K z x y = .ok (s', ok) ∧ (ok = true → s'.value z = .ok (a ^ b.toNat)) ∧
      (fits (if K.dyn then none else some K.N) (words a * max 15 b.toNat + 1) → ok = true) ∧
      ∀ i d, i ≠ z → e[i]? = some (some d) → s'.value i = .ok d := by
  have H := R.holds
  obtain ⟨X, x1, x2, x3⟩ := H.get x a hx
  obtain ⟨Y, y1, y2, y3, y4, y5, y6⟩ := H.pos (look_some.2 hy) hb
  obtain ⟨Z, z1, z2, -⟩ := H.get z c hz
  obtain ⟨s', ok, e1, I', l', f', t', r'⟩ := pow_mem H.inv x1 y1 z1 x2 y2 y4
  refine ⟨s', ok, e1, fun h => ?_, fun h => t' (by rw [words_eq x2, x3, y6]; exact lim_fits' _ _ h), fun i d hi hd => ?_⟩
  · obtain ⟨R, r1, r2, r3⟩ := r' h
    rw [value_of r1, r3, x3, y6]
  · obtain ⟨D, d1, d2, d3⟩ := H.get i d hd
    rw [value_of (f' i D hi d1), d3]

example : Reached ⟨8, false⟩ ((exec ⟨8, false⟩ 0 BigSt.init [.create 70000, .create 7, .neg 0 0]).toOption.getD BigSt.init)
      [some (-70000), some 7] ∧
    (execN ⟨8, false⟩ 0 BigSt.init ([.create 70000, .create 7, .neg 0 0].map .base ++ [.pow 1 0 1])).bind (·.value 1) =
      .error .abort ∧
    (execN ⟨16, false⟩ 0 BigSt.init ([.create 70000, .create 7, .neg 0 0].map .base ++ [.pow 1 0 1])).bind (·.value 1) =
      .ok ((-70000) ^ 7) := by
  refine ⟨⟨0, [.create 70000, .create 7, .neg 0 0], by decide +kernel, by decide +kernel, by decide +kernel, ?_⟩, by decide +kernel⟩
  rfl

/-- **C81, modular powers, the flag**, for a base and a modulus of any sign and an exponent of at least 2: if the flag is
`true` the result is congruent to the power, smaller than the modulus in magnitude, and non-negative for a non-negative
base.  The result object may be the base or the exponent, not the modulus (`C81_modexp_wrong`). -/
theorem C81_modexp_partial (K : Kind) (s : BigSt) (e : Env) (R : Reached K s e) (z x y m : Nat) (a b n c : Int)
    (hx : e[x]? = some (some a)) (hy : e[y]? = some (some b)) (hm : e[m]? = some (some n)) (hz : e[z]? = some (some c))
    (hb : 2 ≤ b) (hn : n ≠ 0) (hzm : z ≠ m) :
    ∃ s' ok, s.modexp K z x y m = .ok (s', ok) ∧
      (ok = true → ∃ r, s'.value z = .ok r ∧ r ≡ a ^ b.toNat [ZMOD n] ∧ |r| < |n| ∧ (0 ≤ a → 0 ≤ r)) ∧
      (fits (if K.dyn then none else some K.N) (2 * max (words a) (words n)) → ok = true) ∧
      ∀ i d, i ≠ z → e[i]? = some (some d) → s'.value i = .ok d := by
  have H := R.holds
  obtain ⟨X, x1, x2, x3⟩ := H.get x a hx
  obtain ⟨Y, y1, y2, y3, y4, y5, y6⟩ := H.pos (look_some.2 hy) (by omega)
  obtain ⟨M, m1, m2, m3⟩ := H.get m n hm
  obtain ⟨Z, z1, z2, -⟩ := H.get z c hz
  obtain ⟨s', ok, e1, I', l', f', t', r'⟩ := modexp_mem H.inv x1 y1 m1 z1 x2 y2 m2 y4 (by omega) hzm
  refine ⟨s', ok, e1, fun h => ?_, fun h => t' (by rw [words_eq x2, words_eq m2, x3, m3]; exact lim_fits' _ _ h), fun i d hi hd => ?_⟩
  · obtain ⟨R, r1, r2, r3, r4, r5, -⟩ := r' h
    rw [x3, m3, y6] at r3
    rw [m3, y6] at r4
    rw [x3] at r5
    exact ⟨_, value_of r1, r3, r4 (by omega), r5⟩
  · obtain ⟨D, d1, d2, d3⟩ := H.get i d hd
    rw [value_of (f' i D hi d1), d3]

example : Reached ⟨4, false⟩ ((exec ⟨4, false⟩ 0 BigSt.init [.create 70000, .create 7, .neg 0 0, .create 1001]).toOption.getD
      BigSt.init) [some (-70000), some 7, some 1001] ∧
    (execN ⟨4, false⟩ 0 BigSt.init ([.create 70000, .create 7, .neg 0 0, .create 1001].map .base ++ [.modexp 1 0 1 2])).bind
      (·.value 1) = .ok (-798) ∧ (-798 - (-70000) ^ 7) % 1001 = 0 := by
  refine ⟨⟨0, [.create 70000, .create 7, .neg 0 0, .create 1001], by decide +kernel, by decide +kernel, by decide +kernel, ?_⟩,
    by decide +kernel⟩
  rfl

/-- **C81 fails for `modexp` into its modulus**: 3^3 modulo 7 is 6, stored into the object of the modulus it becomes 0, and
for 3^5 the call aborts with a division by zero (`mod_mul_t`, bigint.hpp:1020-1042, reduces by the object it has just
overwritten). -/
theorem C81_modexp_wrong :
    (execN ⟨4, false⟩ 0 BigSt.init ([.create 3, .create 3, .create 7, .create 0].map .base ++ [.modexp 3 0 1 2])).bind
      (·.value 3) = .ok 6 ∧
    (execN ⟨4, false⟩ 0 BigSt.init ([.create 3, .create 3, .create 7, .create 0].map .base ++ [.modexp 2 0 1 2])).bind
      (·.value 2) = .ok 0 ∧
    (execN ⟨4, false⟩ 0 BigSt.init ([.create 3, .create 5, .create 7, .create 0].map .base ++ [.modexp 3 0 1 2])).bind
      (·.value 3) = .ok 5 ∧
    (execN ⟨4, false⟩ 0 BigSt.init ([.create 3, .create 5, .create 7, .create 0].map .base ++ [.modexp 2 0 1 2])).bind
      (·.value 2) = .error .abort := by decide +kernel

end Ack.Props
