import Verif.Proof.AliasProg
/-!
# C63, C13, the rest of C17: big integers that share storage

Programs on `bigint` objects (any number of them, on `fixed_buffer` or `flexbuffer`), where the destination of an
operation may be any of its operands, compared with the same programs on integers (`Spec/Prog.lean`).
-/
namespace Ack.Props
open Ack.Mem Ack.Spec.Prog

theorem value_of {s : BigSt} {i : Nat} {X : Big} (H : Rep s i X) : s.value i = .ok X.toInt := by
  obtain ⟨o, h, _⟩ := H
  unfold BigSt.value
  have e : s.elem i 0 = .ok (o.data.add 0) := elem_ok h.obj h.pos
  rw [e, ok_bind, h.size]
  have e2 := readN_spec X.ws (o.data.add 0) h.has
  rw [e2, ok_bind, h.neg]

theorem holds_value {K s e} (H : Holds K s e) : ∀ i a, e[i]? = some (some a) → s.value i = .ok a := by
  intro i a h
  obtain ⟨X, h1, _, h2⟩ := H.get i a h
  rw [value_of h1, h2]

/-! ## C63 -/

/-- **C63, fixed capacity.**  Every program whose intermediate results fit the capacity runs without undefined behaviour
and leaves in every object the integer that the program computes on integers, whichever operands its destinations
coincide with.  Excluded (`DivSafe`): a quotient that overwrites a divisor of several words with the top bit of its top
word set, by which a longer dividend is divided (see `C63_div_wrong`). -/
theorem C63_fixed_partial (N fuel : Nat) (p : List Stmt) (e : Env) (he : evals [] p = some e)
    (room : Always (Room (some N)) [] p) (ds : Always DivSafe [] p) :
    ∃ s, exec ⟨N, false⟩ fuel BigSt.init p = .ok s ∧ ∀ i a, e[i]? = some (some a) → s.value i = .ok a := by
  rcases exec_spec (K := ⟨N, false⟩) fuel p BigSt.init [] e (holds_init _) he room ds with ⟨s, h, H⟩ | ⟨h, _⟩
  · exact ⟨s, h, holds_value H⟩
  · cases h

/-- The program of the examples: nearly every destination is an operand. -/
def exProg : List Stmt :=
  [.create 7, .shl 0 0 40, .add 0 0 0, .mul 0 0 0, .create 3, .neg 1 1, .sub 1 0 1, .mod 0 0 1, .addWord 0 0 5 true,
   .setBit 1 5 true, .mulu1 1 1 9, .shr 1 1 3, .shr 0 0 36, .div 0 1 0]

example : evals [] exProg = some [some 77309411328, some 266568143225025733022711847] ∧ Always (Room (some 8)) [] exProg ∧ Always DivSafe [] exProg ∧
    (exec ⟨8, false⟩ 9 BigSt.init exProg).bind (·.value 0) = .ok 77309411328 ∧
    (exec ⟨8, false⟩ 9 BigSt.init exProg).bind (·.value 1) = .ok 266568143225025733022711847 := by decide +kernel

/-- **C63, growable storage.**  The same for `flexbuffer`, except that a program which adds two magnitudes into one of the
operands, where one is longer than the `N` words stored in the object itself, may instead run into undefined behaviour (it
does exactly in the cases of `C63_flex_dangling`).  No other
failure is possible. -/
theorem C63_flex (K : Kind) (fuel : Nat) (p : List Stmt) (e : Env) (he : evals [] p = some e)
    (room : Always (Room (if K.dyn then none else some K.N)) [] p) (ds : Always DivSafe [] p) :
    (∃ s, exec K fuel BigSt.init p = .ok s ∧ ∀ i a, e[i]? = some (some a) → s.value i = .ok a) ∨
    (K.dyn = true ∧ ¬ Always (fun e c => ¬ AddsInto K.N e c) [] p ∧ exec K fuel BigSt.init p = .error .ub) := by
  rcases exec_spec fuel p BigSt.init [] e (holds_init K) he room ds with ⟨s, h, H⟩ | h
  · exact Or.inl ⟨s, h, holds_value H⟩
  · exact Or.inr h

/-- **C63, growable storage, restricted.**  Without such additions every program computes the right integers.  The full
statement (with them) is false, see `C63_flex_wrong`. -/
theorem C63_flex_partial (K : Kind) (fuel : Nat) (p : List Stmt) (e : Env) (he : evals [] p = some e)
    (room : Always (Room (if K.dyn then none else some K.N)) [] p) (ds : Always DivSafe [] p)
    (na : Always (fun e c => ¬ AddsInto K.N e c) [] p) :
    ∃ s, exec K fuel BigSt.init p = .ok s ∧ ∀ i a, e[i]? = some (some a) → s.value i = .ok a := by
  rcases C63_flex K fuel p e he room ds with h | ⟨_, h, _⟩
  · exact h
  · exact absurd na h

example : Always (Room none) [] exProg ∧ Always DivSafe [] exProg ∧ Always (fun e c => ¬ AddsInto 3 e c) [] exProg ∧
    ¬ Always (fun e c => ¬ AddsInto 1 e c) [] exProg ∧
    (exec ⟨3, true⟩ 9 BigSt.init exProg).bind (·.value 0) = .ok 77309411328 ∧
    Always (fun e c => ¬ AddsInto 1 e c) [] ((exProg.set 2 (.mulu1 0 0 2)).set 6 (.addWord 1 0 3 false)) ∧
    evals [] ((exProg.set 2 (.mulu1 0 0 2)).set 6 (.addWord 1 0 3 false)) = some [some 77309411328, some 266568143225025733022711847] ∧
    (exec ⟨1, true⟩ 9 BigSt.init (exProg.set 2 (.mulu1 0 0 2))).bind (·.value 0) = .ok 77309411328 := by decide +kernel

/-- **C63 fails for growable storage.**  `x = 1; x <<= 64; x += x` with `N = 2`: `uadd` (bigint.hpp:814-843) takes the
addresses of the operands, then resizes the result, which releases the block they point into.  (The comment at
bigint.hpp:825, "&x[0] and &y[0] will not change if z == x or z == y", does not hold for `flexbuffer`.) -/
theorem C63_flex_wrong :
    evals [] [.create 1, .shl 0 0 64, .add 0 0 0] = some [some 36893488147419103232] ∧
    (exec ⟨2, true⟩ 0 BigSt.init [.create 1, .shl 0 0 64, .add 0 0 0]).map (fun _ => ()) = .error .ub := by decide +kernel

/-- **C63 fails for growable storage, in general.**  In every state: adding magnitudes into one of the operands is
undefined behaviour whenever the words of that operand lie on the heap and its block has no room for the sum. -/
theorem C63_flex_dangling (K : Kind) (s : BigSt) (z x y : Nat) (X Y : Big) (o : Flex) (b : Nat) (I : Inv K s.mem)
    (hx : Rep s x X) (hy : Rep s y Y) (hn : X.neg = Y.neg) (hzxy : z = x ∨ z = y) (ho : s.mem.objs[z]? = some o)
    (hb : o.db = some b) (hg : o.dsize < max X.ws.length Y.ws.length + 1) : s.add K z x y = .error .ub := by
  have h := uadd_dangling I hx hy hzxy ho hb hg
  unfold BigSt.add BigSt.addSigned
  rw [hx.neg_eq, hy.neg_eq, hn]
  simp only [Bool.xor_self, if_true]
  rw [h]
  rfl

/-- The state of `C63_flex_wrong` before the addition: three words in use of three. -/
example : ((exec ⟨2, true⟩ 0 BigSt.init [.create 1, .shl 0 0 64]).map fun s => (s.mem.objs, s.size 0)) =
    .ok ([⟨0, some 1, 3, 3⟩], 3) := by decide +kernel

/-- **C63 fails for a quotient stored into the divisor.**  2^64 / 2^63 with the quotient in the divisor gives 2^33 instead
of 2: `udiv` (bigint.hpp:966-1004) sees the divisor overwritten while it still needs it. -/
theorem C63_div_wrong :
    evals [] [.create 1, .create 1, .shl 0 0 64, .shl 1 1 63, .div 1 0 1] = some [some 18446744073709551616, some 2] ∧
    (exec ⟨4, false⟩ 100 BigSt.init [.create 1, .create 1, .shl 0 0 64, .shl 1 1 63, .div 1 0 1]).bind (·.value 1) =
      .ok 8589934592 := by decide +kernel

/-! The same, operation by operation, and also when the result does not fit the capacity: the outcome does not depend on
which object receives it. -/

private theorem bind_value {s : BigSt} {K z R} {r : Res BigSt} (h : ∃ s', r = .ok s' ∧ Post K s s' z R) :
    r.bind (·.value z) = .ok R.toInt := by
  obtain ⟨s', e, P⟩ := h
  rw [e]
  exact value_of P.res

private theorem bind_value' {s : BigSt} {K z} {r : Res BigSt} {q : Res Big}
    (h : match q with | .error e => r = .error e | .ok R => ∃ s', r = .ok s' ∧ Post K s s' z R) :
    r.bind (·.value z) = q.map Big.toInt := by
  cases q with
  | error e => dsimp only at h; rw [h]; rfl
  | ok R => exact bind_value h

private theorem roomy_fixed {K : Kind} {s : BigSt} (I : Inv K s.mem) (hK : K.dyn = false) (z n : Nat) : Roomy s z n := by
  intro o b ho hb
  have := ((I.obj z o ho).hd b hb).1
  rw [hK] at this; cases this

/-- **C63, sums and differences, fixed capacity** (overflow included): any two destinations `z`, `z'`, each possibly an
operand, receive the same integer, and all other objects keep theirs. -/
theorem C63_add_sub (K : Kind) (hK : K.dyn = false) (s : BigSt) (x y z z' : Nat) (X Y Z Z' : Big) (I : Inv K s.mem)
    (hx : Rep s x X) (hy : Rep s y Y) (hz : Rep s z Z) (hz' : Rep s z' Z') :
    (s.add K z x y).bind (·.value z) = (s.add K z' x y).bind (·.value z') ∧
    (s.sub K z x y).bind (·.value z) = (s.sub K z' x y).bind (·.value z') := by
  rw [bind_value (add_spec I hx hy hz fun _ _ => roomy_fixed I hK _ _), bind_value (add_spec I hx hy hz' fun _ _ => roomy_fixed I hK _ _),
    bind_value (sub_spec I hx hy hz fun _ _ => roomy_fixed I hK _ _), bind_value (sub_spec I hx hy hz' fun _ _ => roomy_fixed I hK _ _)]
  exact ⟨rfl, rfl⟩

private theorem same_toInt {A B : Big} (h : Same A B) : A.toInt = B.toInt := by
  obtain ⟨h1, h2⟩ := h
  unfold Big.toInt
  rw [← h1]
  rcases h2 with h2 | h2
  · rw [h2]
  · rw [h2]; cases A.neg <;> cases B.neg <;> simp [val]

/-- **C63, products** (both kinds of storage, overflow included): success and value do not depend on the destination. -/
theorem C63_mul (K : Kind) (s : BigSt) (x y z z' : Nat) (X Y Z Z' : Big) (I : Inv K s.mem)
    (hx : Rep s x X) (hy : Rep s y Y) (hz : Rep s z Z) (hz' : Rep s z' Z') :
    ((s.mul K z x y).bind fun r => if r.2 then (r.1.value z).map some else .ok none) =
      (s.mul K z' x y).bind fun r => if r.2 then (r.1.value z').map some else .ok none := by
  have h1 := mul_spec I hx hy hz
  have h2 := mul_spec I hx hy hz'
  cases hm : Big.mul? K.lim X Y with
  | none => rw [hm] at h1 h2; dsimp only at h1 h2; rw [h1, h2]; rfl
  | some P =>
    rw [hm] at h1 h2
    obtain ⟨s1, R1, e1, P1, S1⟩ := h1
    obtain ⟨s2, R2, e2, P2, S2⟩ := h2
    rw [e1, e2]
    show (s1.value z).map some = (s2.value z').map some
    rw [value_of P1.res, value_of P2.res, same_toInt S1, same_toInt S2]

/-- **C63, operations with a native word or a shift count** (both kinds of storage, overflow included): sum, difference,
product, quotient, shifts, bitwise or/and. -/
theorem C63_word (K : Kind) (s : BigSt) (x z z' : Nat) (X Z Z' : Big) (I : Inv K s.mem)
    (hx : Rep s x X) (hz : Rep s z Z) (hz' : Rep s z' Z') (w : Word) (b : Bool) (n : Nat) :
    (s.addu1Go K z x w b).bind (·.value z) = (s.addu1Go K z' x w b).bind (·.value z') ∧
    (s.mulu1 K z x w).bind (·.value z) = (s.mulu1 K z' x w).bind (·.value z') ∧
    (s.muls1 K z x w).bind (·.value z) = (s.muls1 K z' x w).bind (·.value z') ∧
    (s.divu1 K z x w).bind (·.value z) = (s.divu1 K z' x w).bind (·.value z') ∧
    (s.divs1 K z x w).bind (·.value z) = (s.divs1 K z' x w).bind (·.value z') ∧
    (s.shl K z x n).bind (·.value z) = (s.shl K z' x n).bind (·.value z') ∧
    (s.shr K z x n).bind (·.value z) = (s.shr K z' x n).bind (·.value z') ∧
    (s.orBitu1 K z x w).bind (·.value z) = (s.orBitu1 K z' x w).bind (·.value z') ∧
    (s.andBitu1 K z x w).bind (·.value z) = (s.andBitu1 K z' x w).bind (·.value z') ∧
    (s.negate K z x).bind (·.value z) = (s.negate K z' x).bind (·.value z') ∧
    (s.abs K z x).bind (·.value z) = (s.abs K z' x).bind (·.value z') := by
  refine ⟨?_, ?_, ?_, ?_, ?_, ?_, ?_, ?_, ?_, ?_, ?_⟩
  · obtain ⟨s1, R1, e1, P1, S1⟩ := addu1Go_spec I hx hz w b
    obtain ⟨s2, R2, e2, P2, S2⟩ := addu1Go_spec I hx hz' w b
    rw [bind_value ⟨s1, e1, P1⟩, bind_value ⟨s2, e2, P2⟩, same_toInt S1, same_toInt S2]
  · rw [bind_value (mulu1_spec I hx hz w), bind_value (mulu1_spec I hx hz' w)]
  · rw [bind_value (muls1_spec I hx hz w), bind_value (muls1_spec I hx hz' w)]
  · rw [bind_value' (divu1_spec I hx hz w), bind_value' (divu1_spec I hx hz' w)]
  · rw [bind_value' (divs1_spec I hx hz w), bind_value' (divs1_spec I hx hz' w)]
  · rw [bind_value' (shl_spec I hx hz n), bind_value' (shl_spec I hx hz' n)]
  · rw [bind_value (shr_spec I hx hz n), bind_value (shr_spec I hx hz' n)]
  · rw [bind_value (orBitu1_spec I hx hz w), bind_value (orBitu1_spec I hx hz' w)]
  · rw [bind_value (andBitu1_spec I hx hz w), bind_value (andBitu1_spec I hx hz' w)]
  · rw [bind_value (negate_spec I hx hz), bind_value (negate_spec I hx hz')]
  · rw [bind_value (abs_spec I hx hz), bind_value (abs_spec I hx hz')]

/-- **C63, bitwise or/and of two big integers**: the magnitude does not depend on the destination; the sign is the one the
destination had before the call (destinations of equal sign receive the same integer). -/
theorem C63_bits_partial (K : Kind) (s : BigSt) (x y z z' : Nat) (X Y Z Z' : Big) (I : Inv K s.mem)
    (hx : Rep s x X) (hy : Rep s y Y) (hz : Rep s z Z) (hz' : Rep s z' Z') (hn : Z.neg = Z'.neg) :
    (s.orBit K z x y).bind (·.value z) = (s.orBit K z' x y).bind (·.value z') ∧
    (s.andBit K z x y).bind (·.value z) = (s.andBit K z' x y).bind (·.value z') := by
  rw [bind_value (orBit_spec I hx hy hz), bind_value (orBit_spec I hx hy hz'), bind_value (andBit_spec I hx hy hz),
    bind_value (andBit_spec I hx hy hz'), hn]
  exact ⟨rfl, rfl⟩

/-- **C63 fails for the sign of bitwise or/and**: `or_bit(z, x, y)` of 1 and 2 into an object that held -5 is -3; into a
fresh object it is 3. -/
theorem C63_bits_wrong :
    (exec ⟨4, false⟩ 0 BigSt.init [.create 1, .create 2, .create 5, .neg 2 2, .create 0]).bind
      (fun s => (s.orBit ⟨4, false⟩ 2 0 1).bind (·.value 2)) = .ok (-3) ∧
    (exec ⟨4, false⟩ 0 BigSt.init [.create 1, .create 2, .create 5, .neg 2 2, .create 0]).bind
      (fun s => (s.orBit ⟨4, false⟩ 3 0 1).bind (·.value 3)) = .ok 3 := by decide +kernel

/-- The states of these theorems exist: after the program of the examples objects 0 and 1 are big integers. -/
example : ∃ s X Y, exec ⟨8, false⟩ 9 BigSt.init exProg = .ok s ∧ Inv ⟨8, false⟩ s.mem ∧ Rep s 0 X ∧ Rep s 1 Y ∧
    X.toInt = 77309411328 ∧ Y.toInt = 266568143225025733022711847 := by
  rcases exec_spec (K := ⟨8, false⟩) 9 exProg BigSt.init [] [some 77309411328, some 266568143225025733022711847] (holds_init _) (by decide +kernel)
    (by decide +kernel) (by decide +kernel) with ⟨s, h, H⟩ | ⟨h, _⟩
  · obtain ⟨X, h1, _, h2⟩ := H.get 0 _ rfl
    obtain ⟨Y, h3, _, h4⟩ := H.get 1 _ rfl
    exact ⟨s, X, Y, h, H.inv, h1, h3, h2, h4⟩
  · cases h

/-! ## C13 -/

/-- **C13, within the number's own words.**  After any program, `set_bit(i, v)` on a non-zero integer `a` whose words
include bit `i` yields the integer of the same sign whose magnitude has bit `i` equal to `v` and every other bit as
before; every other object keeps its value.  Missing from the full statement: `a = 0` and positions beyond the words of
`a`, for which it is false (`C13_stale_wrong`, `C13_grow_wrong`, `C13_zero_wrong`). -/
theorem C13_in_words_partial (K : Kind) (fuel : Nat) (p : List Stmt) (e : Env) (s : BigSt) (he : evals [] p = some e)
    (room : Always (Room (if K.dyn then none else some K.N)) [] p) (ds : Always DivSafe [] p)
    (hs : exec K fuel BigSt.init p = .ok s) (x i : Nat) (v : Bool) (a : Int) (ha : e[x]? = some (some a)) (h0 : a ≠ 0)
    (hi : i / 32 < words a) :
    ∃ s' b, s.setBit K x i v = .ok s' ∧ s'.value x = .ok b ∧
      (∀ j, b.natAbs.testBit j = if j = i then v else a.natAbs.testBit j) ∧ (b ≠ 0 → (b < 0 ↔ a < 0)) ∧
      (∀ j c, j ≠ x → e[j]? = some (some c) → s'.value j = .ok c) := by
  rcases exec_spec fuel p BigSt.init [] e (holds_init K) he room ds with ⟨s1, h, H⟩ | ⟨_, _, h⟩
  · rw [hs] at h
    cases h
    obtain ⟨X, h1, h2, h3⟩ := H.get x a ha
    rw [← h3, ← words_eq h2] at hi
    have ht : ([] : List Word).length = i / 32 + 1 - X.ws.length := by rw [List.length_nil]; omega
    obtain ⟨o, ho⟩ : ∃ o, s.mem.objs[x]? = some o := by obtain ⟨o, h, _⟩ := h1; exact ⟨o, h.obj⟩
    obtain ⟨s', e1, P⟩ := setBit_spec (tail := []) H.inv h1 h2 i v ho ht (fun h => absurd rfl h) (fun k hk => by simp at hk)
    obtain ⟨c1, c2, c3⟩ := setBitR_spec X [] i v h2 ht
    refine ⟨s', _, e1, value_of P.res, ?_, ?_, ?_⟩
    · intro j
      rw [Big.natAbs_toInt, c2, List.append_nil, ← h3, Big.natAbs_toInt]
    · intro hb
      rw [ne_eq, Big.toInt_zero_iff] at hb
      have hn := c3 hb
      have hv : val X.ws ≠ 0 := by rw [← h3, ne_eq, Big.toInt_zero_iff] at h0; exact h0
      rw [← h3]
      unfold Big.toInt
      rw [hn]
      cases X.neg <;> simp <;> omega
    · intro j c hj hc
      obtain ⟨Y, g1, _, g2⟩ := H.get j c hc
      rw [value_of (P.frame j Y hj g1), g2]
  · rw [hs] at h; cases h

example : evals [] exProg = some [some 77309411328, some 266568143225025733022711847] ∧ 95 / 32 < words 266568143225025733022711847 ∧
    (exec ⟨8, false⟩ 9 BigSt.init exProg).isOk = true ∧
    (exec ⟨8, false⟩ 9 BigSt.init (exProg ++ [.setBit 1 95 true])).bind (·.value 1) =
      .ok (266568143225025733022711847 + 2 ^ 95) := by decide +kernel

/-- **C13, every position within the storage.**  What `set_bit(i, v)` does in general: it first takes in the words
`tail` that happen to lie in the storage between the number and bit `i`.  If they are zero, exactly bit `i` changes. -/
theorem C13_tail (K : Kind) (s : BigSt) (x i : Nat) (v : Bool) (o : Flex) (X : Big) (tail : List Word) (I : Inv K s.mem)
    (hx : Rep s x X) (hc : X.Canon) (ho : s.mem.objs[x]? = some o)
    (ht : tail.length = i / 32 + 1 - X.ws.length) (hcap : tail ≠ [] → i / 32 < o.cap K)
    (hw : ∀ (k : Nat) (hk : k < tail.length), s.mem.heap.cell o.data.b (X.ws.length + k) = some tail[k]) :
    ∃ s' b, s.setBit K x i v = .ok s' ∧ s'.value x = .ok b ∧
      (∀ j, b.natAbs.testBit j = if j = i then v else (X.toInt.natAbs + 2 ^ (32 * X.ws.length) * val tail).testBit j) ∧
      (b ≠ 0 → (b < 0 ↔ X.neg = true)) ∧
      ((∀ w ∈ tail, w = 0) → ∀ j, b.natAbs.testBit j = if j = i then v else X.toInt.natAbs.testBit j) := by
  obtain ⟨s', e1, P⟩ := setBit_spec I hx hc i v ho ht hcap hw
  obtain ⟨c1, c2, c3⟩ := setBitR_spec X tail i v hc ht
  have hB : val (X.ws ++ tail) = X.toInt.natAbs + 2 ^ (32 * X.ws.length) * val tail := by
    rw [val_append, Big.natAbs_toInt, Nat.pow_mul]
    rfl
  refine ⟨s', _, e1, value_of P.res, ?_, ?_, ?_⟩
  · intro j; rw [Big.natAbs_toInt, c2, hB]
  · intro hb
    rw [ne_eq, Big.toInt_zero_iff] at hb
    have hn := c3 hb
    unfold Big.toInt
    rw [hn]
    cases X.neg <;> simp <;> omega
  · intro h0 j
    have : val tail = 0 := by
      clear hB c2 c3 c1 P hw hcap ht e1
      induction tail with
      | nil => rfl
      | cons w t ih =>
        have := h0 w (List.mem_cons_self ..)
        subst this
        have := ih (fun w hw => h0 w (List.mem_cons_of_mem _ hw))
        unfold val
        rw [this]; rfl
    rw [Big.natAbs_toInt, c2, hB, this, Nat.mul_zero, Nat.add_zero]

/-- **C13, a new object.**  After any program, a new integer with the value of a word, and then `set_bit(i, v)` for a position
within the inline storage: exactly bit `i` changes.  (The inline words of a new object are zero.) -/
theorem C13_fresh (K : Kind) (fuel : Nat) (p : List Stmt) (e : Env) (s : BigSt) (he : evals [] p = some e)
    (room : Always (Room (if K.dyn then none else some K.N)) [] p) (ds : Always DivSafe [] p)
    (hs : exec K fuel BigSt.init p = .ok s) (w : Word) (i : Nat) (v : Bool) (hi : i / 32 < K.N) :
    ∃ s' b, (s.create K w).bind (·.setBit K s.mem.objs.length i v) = .ok s' ∧ s'.value s.mem.objs.length = .ok b ∧ 0 ≤ b ∧
      ∀ j, b.natAbs.testBit j = if j = i then v else w.toNat.testBit j := by
  rcases exec_spec fuel p BigSt.init [] e (holds_init K) he room ds with ⟨s1, h, H⟩ | ⟨_, _, h⟩
  · rw [hs] at h
    cases h
    have hf : Cap.fits K.lim 1 = true := by
      apply lim_fits'
      intro N hN
      unfold Kind.lim at hN
      split at hN
      · cases hN
      · cases hN; omega
    obtain ⟨s1, e1, I1, hr⟩ := create_post H.inv hf w
    obtain ⟨s2, o, e2, ho, hdb, hc⟩ := create_cells (K := K) s (by omega) w
    rw [e1] at e2
    cases e2
    have hcap : i / 32 < o.cap K := by unfold Flex.cap; rw [if_pos hdb]; exact hi
    obtain ⟨s', b, g1, g2, -, g4, g5⟩ := C13_tail K s1 _ i v o ⟨false, [w]⟩ (List.replicate (i / 32) 0) I1 hr (Big.canonW_single _) ho
      (by simp) (fun _ => hcap) (fun k hk => by rw [hc _ (by simp)]; simp)
    refine ⟨s', b, by rw [e1]; exact g1, g2, ?_, ?_⟩
    · by_cases hb : b = 0
      · omega
      · by_contra hneg
        exact absurd ((g4 hb).1 (by omega)) (by simp)
    · intro j
      rw [g5 (by intro w hw; exact (List.mem_replicate.1 hw).2) j]
      simp [Big.toInt, val]
  · rw [hs] at h; cases h

example : (exec ⟨3, false⟩ 0 BigSt.init [.create 3, .shl 0 0 40, .create 6, .setBit 1 40 true, .setBit 1 1 false]).bind (·.value 1) =
    .ok (2 ^ 40 + 4) := by decide +kernel

/-- **C13, a full fixed buffer**: a position beyond the capacity turns the number into 0, silently. -/
theorem C13_full_wrong (N : Nat) (s : BigSt) (x i : Nat) (v : Bool) (X : Big) (I : Inv ⟨N, false⟩ s.mem) (hx : Rep s x X)
    (hi : N ≤ i / 32) : ∃ s', s.setBit ⟨N, false⟩ x i v = .ok s' ∧ s'.value x = .ok 0 := by
  obtain ⟨s', e, P⟩ := setBit_full I hx i v rfl hi
  exact ⟨s', e, value_of P.res⟩

example : (exec ⟨2, false⟩ 0 BigSt.init [.create 77, .setBit 0 64 false]).bind (·.value 0) = .ok 0 := by decide +kernel

/-- **C13 fails for growable storage, in general**: in every state, a position for which the buffer has to grow reads an
indeterminate word (bigint.hpp:1543, 1546 after 1534). -/
theorem C13_grow_wrong (K : Kind) (s : BigSt) (x i : Nat) (v : Bool) (o : Flex) (X : Big) (I : Inv K s.mem) (hx : Rep s x X)
    (hc : X.Canon) (ho : s.mem.objs[x]? = some o) (hd : K.dyn = true) (hi : o.cap K ≤ i / 32) :
    s.setBit K x i v = .error .ub := setBit_grow I hx hc ho i v hd hi

example : (exec ⟨1, true⟩ 0 BigSt.init [.create 1, .setBit 0 32 true]).map (fun _ => ()) = .error .ub := by decide +kernel

/-- **C13 fails after a larger value**: `x = 1 << 32; x = 1; x.set_bit(33)` is 2^33 + 2^32 + 1. -/
theorem C13_stale_wrong :
    (exec ⟨2, false⟩ 0 BigSt.init [.create 1, .shl 0 0 32, .set 0 1]).bind (·.value 0) = .ok 1 ∧
    (exec ⟨2, false⟩ 0 BigSt.init [.create 1, .shl 0 0 32, .set 0 1, .setBit 0 33 true]).bind (·.value 0) =
      .ok (2 ^ 33 + 2 ^ 32 + 1) := by decide +kernel

/-- **C13 fails for a zero with a sign**: -5 + 5, then `set_bit(0)`, is -1. -/
theorem C13_zero_wrong :
    (exec ⟨2, false⟩ 0 BigSt.init [.create 5, .neg 0 0, .create 5, .add 0 0 1]).bind (·.value 0) = .ok 0 ∧
    (exec ⟨2, false⟩ 0 BigSt.init [.create 5, .neg 0 0, .create 5, .add 0 0 1, .setBit 0 0 true]).bind (·.value 0) =
      .ok (-1) := by decide +kernel

/-! ## C17, `lcm` -/

/-- **C17, lcm.**  For non-negative arguments, not both zero, whose product fits the capacity, `lcm` returns the least
common multiple, unless the greatest common divisor fills its top word completely, has more than one word and `x` is
longer.  There `div(c, x, c)` fails (`C17_lcm_wrong`). -/
theorem C17_lcm_partial (cap : Cap) (fuel : Nat) (x y : Big) (cx : x.Canon) (cy : y.Canon) (fx : Big.Fits cap x) (fy : Big.Fits cap y)
    (hc : cap.fits (x.ws.length + y.ws.length) = true) (nx : x.neg = false) (ny : y.neg = false)
    (h0 : x.toInt ≠ 0 ∨ y.toInt ≠ 0)
    (hg : (Int.gcd x.toInt y.toInt).size % 32 ≠ 0 ∨ (Int.gcd x.toInt y.toInt).size ≤ 32 ∨
      x.toInt < 2 ^ (Int.gcd x.toInt y.toInt).size) :
    ∃ z, lcm cap fuel x y = .ok z ∧ 0 ≤ z.toInt ∧ x.toInt ∣ z.toInt ∧ y.toInt ∣ z.toInt ∧
      ∀ m : Int, x.toInt ∣ m → y.toInt ∣ m → z.toInt ∣ m := by
  have h0' : Int.gcd x.toInt y.toInt ≠ 0 := by
    rw [ne_eq, Int.gcd_eq_zero_iff]; tauto
  have hg' : (Int.gcd x.toInt y.toInt).size % 32 ≠ 0 ∨ (Int.gcd x.toInt y.toInt).size ≤ 32 ∨
      x.toInt.natAbs < 2 ^ (Int.gcd x.toInt y.toInt).size := by
    rcases hg with h | h | h
    · exact Or.inl h
    · exact Or.inr (Or.inl h)
    · refine Or.inr (Or.inr ?_)
      rw [Big.toInt_of_nonneg nx] at h ⊢
      rw [Int.natAbs_natCast]
      exact_mod_cast h
  obtain ⟨z, e, _, _, _, hz⟩ := lcm_spec fuel cx cy fx fy hc h0' hg'
  have hz := hz nx ny
  refine ⟨z, e, by rw [hz]; exact Int.natCast_nonneg _, ?_, ?_, ?_⟩
  · rw [hz]; exact Int.dvd_lcm_left ..
  · rw [hz]; exact Int.dvd_lcm_right ..
  · intro m h1 h2; rw [hz]; exact Int.coe_lcm_dvd h1 h2

example : lcm (some 5) 0 ⟨false, [0, 6]⟩ ⟨false, [5, 1]⟩ = .ok ⟨false, [0, 10, 2]⟩ ∧
    Int.gcd (Big.toInt ⟨false, [0, 6]⟩) (Big.toInt ⟨false, [5, 1]⟩) = 3 := by decide +kernel

/-- **C17, lcm, arguments of any sign** (outside the quantifier of C17): under the same conditions the magnitude of the result is the
least common multiple.  The sign is not determined by the signs of the arguments in the usual way (`C17_lcm_negative`). -/
theorem C17_lcm_abs_partial (cap : Cap) (fuel : Nat) (x y : Big) (cx : x.Canon) (cy : y.Canon) (fx : Big.Fits cap x)
    (fy : Big.Fits cap y) (hc : cap.fits (x.ws.length + y.ws.length) = true) (h0 : x.toInt ≠ 0 ∨ y.toInt ≠ 0)
    (hg : (Int.gcd x.toInt y.toInt).size % 32 ≠ 0 ∨ (Int.gcd x.toInt y.toInt).size ≤ 32 ∨
      x.toInt.natAbs < 2 ^ (Int.gcd x.toInt y.toInt).size) :
    ∃ z, lcm cap fuel x y = .ok z ∧ z.toInt.natAbs = Int.lcm x.toInt y.toInt := by
  have h0' : Int.gcd x.toInt y.toInt ≠ 0 := by
    rw [ne_eq, Int.gcd_eq_zero_iff]; tauto
  obtain ⟨z, e, _, _, hz, _⟩ := lcm_spec fuel cx cy fx fy hc h0' hg
  exact ⟨z, e, hz⟩

/-- C17 (outside its quantifier): `lcm(4, -6)` is 12 and `lcm(-4, -6)` is -12. -/
theorem C17_lcm_negative : (lcm none 0 (Big.ofInt32 4) (Big.ofInt32 (-6))).map Big.toInt = .ok 12 ∧
    (lcm none 0 (Big.ofInt32 (-4)) (Big.ofInt32 (-6))).map Big.toInt = .ok (-12) := by decide +kernel

/-- **C17, lcm of zeros** aborts (division by zero) instead of returning 0. -/
theorem C17_lcm_zero (cap : Cap) (fuel : Nat) (x y : Big) (cx : x.Canon) (cy : y.Canon) (fx : Big.Fits cap x) (fy : Big.Fits cap y)
    (hx : x.toInt = 0) (hy : y.toInt = 0) : lcm cap fuel x y = .error .abort := lcm_zero fuel cx cy fx fy hx hy

example : lcm none 0 Big.zero Big.zero = .error .abort := by decide +kernel

/-- **C17 fails**: lcm(2^64, 2^63) is 2^96 instead of 2^64. -/
theorem C17_lcm_wrong : (lcm none 100 ⟨false, [0, 0, 1]⟩ ⟨false, [0, 0x80000000]⟩).map Big.toInt = .ok (2 ^ 96) ∧
    Int.lcm (Big.toInt ⟨false, [0, 0, 1]⟩) (Big.toInt ⟨false, [0, 0x80000000]⟩) = 2 ^ 64 := by decide +kernel

end Ack.Props
