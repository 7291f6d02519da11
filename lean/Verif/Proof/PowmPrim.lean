import Verif.Model.Powm
import Verif.Spec.Rsa
import Verif.Proof.Words
import Verif.Proof.BigBytes
import Mathlib.Data.BitVec
import Mathlib.Tactic.IntervalCases
/-! # The word primitives of the software exponentiation -/
namespace Ack.Powm
open Ack.Big (Byte)

/-- A boolean as a word. -/
def bit (b : Bool) : Word := if b then 1 else 0

@[simp] theorem bit_true : bit true = 1 := rfl
@[simp] theorem bit_false : bit false = 0 := rfl
theorem bit_toNat (b : Bool) : (bit b).toNat = if b then 1 else 0 := by cases b <;> rfl
theorem bit_le (b : Bool) : (bit b).toNat ≤ 1 := by cases b <;> decide

theorem shr31 (x : Word) : x >>> 31 = bit x.msb := by
  apply BitVec.eq_of_toNat_eq
  rw [BitVec.toNat_ushiftRight, Nat.shiftRight_eq_div_pow, bit_toNat, BitVec.msb_eq_decide]
  have := x.isLt
  by_cases h : 2 ^ (32 - 1) ≤ x.toNat
  · simp only [h, decide_true, if_true]; norm_num at h ⊢; omega
  · simp only [h, decide_false]; norm_num at h ⊢; omega

theorem NOT_bit (b : Bool) : NOT (bit b) = bit (!b) := by cases b <;> rfl

theorem MUX_bit (b : Bool) (x y : Word) : MUX (bit b) x y = if b then x else y := by
  cases b
  · simp [MUX]
  · have : -(1 : Word) = BitVec.allOnes 32 := by decide
    simp only [MUX, bit_true, this, BitVec.allOnes_and, if_true]
    rw [BitVec.xor_comm x y, ← BitVec.xor_assoc, BitVec.xor_self, BitVec.zero_xor]

theorem or_neg_msb (q : Word) : (q ||| -q).msb = decide (q ≠ 0) := by
  rw [BitVec.msb_or, BitVec.msb_eq_decide, BitVec.msb_eq_decide, BitVec.toNat_neg]
  have := q.isLt
  by_cases h : q = 0
  · subst h; decide
  · have : q.toNat ≠ 0 := fun h' => h (BitVec.eq_of_toNat_eq (by simpa using h'))
    simp only [ne_eq, h, not_false_eq_true, decide_true, Bool.or_eq_true, decide_eq_true_eq]
    omega

theorem xor_eq_zero (x y : Word) : x ^^^ y = 0 ↔ x = y := by
  simp

theorem NEQ_spec (x y : Word) : NEQ x y = bit (decide (x ≠ y)) := by
  simp only [NEQ]; rw [shr31, or_neg_msb]; simp only [ne_eq, xor_eq_zero]

theorem EQ_spec (x y : Word) : EQ x y = bit (decide (x = y)) := by
  simp only [EQ]; rw [shr31, or_neg_msb, NOT_bit]; simp only [ne_eq, xor_eq_zero, decide_not, Bool.not_not]

theorem GT_spec (x y : Word) : GT x y = bit (decide (y.toNat < x.toNat)) := by
  simp only [GT]; rw [shr31]; congr 1
  rw [BitVec.msb_xor, BitVec.msb_and, BitVec.msb_xor, BitVec.msb_xor]
  simp only [BitVec.msb_eq_decide, BitVec.toNat_sub]
  have hx := x.isLt
  have hy := y.isLt
  obtain ⟨a, ha⟩ : ∃ a, a = x.toNat := ⟨_, rfl⟩
  obtain ⟨b, hb⟩ : ∃ b, b = y.toNat := ⟨_, rfl⟩
  simp only [← ha, ← hb] at hx hy ⊢
  clear ha hb
  norm_num at hx hy ⊢
  by_cases h1 : 2147483648 ≤ a <;> by_cases h2 : 2147483648 ≤ b <;> by_cases h3 : b < a <;>
    by_cases h4 : 2147483648 ≤ (4294967296 - a + b) % 4294967296 <;> simp [h1, h2, h3, h4] <;> omega

theorem GE_spec (x y : Word) : GE x y = bit (decide (y.toNat ≤ x.toNat)) := by
  rw [GE, GT_spec, NOT_bit]; congr 1; by_cases h : x.toNat < y.toNat <;> simp [h] <;> omega

theorem LT_spec (x y : Word) : LT x y = bit (decide (x.toNat < y.toNat)) := by rw [LT, GT_spec]

theorem bit_and (a b : Bool) : bit a &&& bit b = bit (a && b) := by cases a <;> cases b <;> rfl
theorem bit_or (a b : Bool) : bit a ||| bit b = bit (a || b) := by cases a <;> cases b <;> rfl
theorem bit_eq_zero (b : Bool) : bit b = 0 ↔ b = false := by cases b <;> decide

theorem MUL_toNat (x y : Word) : (MUL x y).toNat = x.toNat * y.toNat := by
  unfold MUL
  rw [BitVec.toNat_mul, BitVec.toNat_setWidth, BitVec.toNat_setWidth]
  have h1 := x.isLt; have h2 := y.isLt
  have : x.toNat * y.toNat ≤ 4294967295 * 4294967295 := Nat.mul_le_mul (by omega) (by omega)
  rw [Nat.mod_eq_of_lt (a := x.toNat) (by omega), Nat.mod_eq_of_lt (a := y.toNat) (by omega), Nat.mod_eq_of_lt (by omega)]

/-! ## Bit length -/

theorem bitLen_unique {v k : Nat} (h : v < 2 ^ k) (h2 : k = 0 ∨ 2 ^ (k - 1) ≤ v) : Spec.bitLen v = k := by
  unfold Spec.bitLen
  split
  · next h0 =>
    subst h0
    rcases h2 with h2 | h2
    · exact h2.symm
    · have := Nat.two_pow_pos (k - 1); omega
  · next h0 =>
    rcases h2 with h2 | h2
    · subst h2; simp at h; omega
    · have hk : k ≠ 0 := by rintro rfl; simp at h; omega
      have : Nat.log2 v = k - 1 := by
        rw [Nat.log2_eq_iff h0]; rw [Nat.sub_add_cancel (by omega)]; exact ⟨h2, h⟩
      omega

theorem bitLen_lt (v : Nat) : v < 2 ^ Spec.bitLen v := by
  unfold Spec.bitLen; split
  · next h => subst h; simp
  · next h => exact Nat.lt_log2_self

theorem le_bitLen {v : Nat} (h : v ≠ 0) : 2 ^ (Spec.bitLen v - 1) ≤ v := by
  unfold Spec.bitLen; rw [if_neg h, Nat.add_sub_cancel]; exact Nat.log2_self_le h

theorem bitLen_zero : Spec.bitLen 0 = 0 := rfl
theorem bitLen_pos {v : Nat} (h : v ≠ 0) : 0 < Spec.bitLen v := by unfold Spec.bitLen; rw [if_neg h]; omega

theorem bitLen_div (v s : Nat) (h : 2 ^ s ≤ v) : Spec.bitLen (v / 2 ^ s) + s = Spec.bitLen v := by
  have hp := Nat.two_pow_pos s
  have hv : v / 2 ^ s ≠ 0 := by
    have := Nat.div_pos h hp; omega
  symm
  apply bitLen_unique
  · have := bitLen_lt (v / 2 ^ s)
    rw [pow_add]; exact (Nat.div_lt_iff_lt_mul hp).1 this
  · right
    have := le_bitLen hv
    have h1 := bitLen_pos hv
    rw [show Spec.bitLen (v / 2 ^ s) + s - 1 = (Spec.bitLen (v / 2 ^ s) - 1) + s by omega, pow_add]
    exact (Nat.le_div_iff_mul_le hp).1 this

/-- One stage of `BIT_LENGTH`. -/
theorem stage (x k : Word) (s j : Nat) (m : Word) (hs : s ≤ 16) (hj : 2 ^ j = s) (hm : m.toNat = 2 ^ s - 1)
    (t : Nat) (h : x.toNat < 2 ^ (2 * s)) (hk : k.toNat ≤ t) (ht : t + s < 4294967296) :
    (MUX (GT x m) (x >>> s) x).toNat < 2 ^ s ∧
    ((MUX (GT x m) (x >>> s) x).toNat = 0 ↔ x.toNat = 0) ∧
    (k + (GT x m <<< j)).toNat + Spec.bitLen (MUX (GT x m) (x >>> s) x).toNat = k.toNat + Spec.bitLen x.toNat ∧
    (k + (GT x m <<< j)).toNat ≤ t + s := by
  rw [GT_spec, MUX_bit]
  have hp := Nat.two_pow_pos s
  by_cases hc : m.toNat < x.toNat
  · simp only [hc, decide_true, if_true, bit_true]
    have hx : 2 ^ s ≤ x.toNat := by omega
    have e1 : (x >>> s).toNat = x.toNat / 2 ^ s := by rw [BitVec.toNat_ushiftRight, Nat.shiftRight_eq_div_pow]
    have e2 : ((1 : Word) <<< j).toNat = s := by
      rw [BitVec.toNat_shiftLeft, Nat.shiftLeft_eq]
      show 1 * 2 ^ j % 2 ^ 32 = s
      rw [hj]; omega
    have e3 : (k + ((1 : Word) <<< j)).toNat = k.toNat + s := by
      rw [BitVec.toNat_add, e2]; omega
    rw [e1, e3]
    have hd := bitLen_div x.toNat s hx
    have := Nat.div_pos hx hp
    refine ⟨?_, ?_, by omega, by omega⟩
    · rw [Nat.div_lt_iff_lt_mul hp, ← pow_add]; rw [show s + s = 2 * s by omega]; exact h
    · constructor <;> intro h' <;> omega
  · simp only [hc, decide_false, bit_false]
    have e3 : (k + ((0 : Word) <<< j)) = k := by simp
    rw [e3]
    refine ⟨by simp; omega, by simp, by simp, by omega⟩

theorem BIT_LENGTH_spec (x : Word) : (BIT_LENGTH x).toNat = Spec.bitLen x.toNat := by
  unfold BIT_LENGTH
  dsimp only
  have hk0 : (NEQ x 0).toNat = if x.toNat = 0 then 0 else 1 := by
    rw [NEQ_spec, bit_toNat]
    have : x = 0 ↔ x.toNat = 0 := ⟨fun h => by rw [h]; rfl, fun h => BitVec.eq_of_toNat_eq (by simpa using h)⟩
    simp only [ne_eq, this, decide_not, Bool.not_eq_true', decide_eq_false_iff_not, ite_not]
  generalize NEQ x 0 = k at *
  obtain ⟨a1, b1, c1, d1⟩ := stage x k 16 4 0xFFFF (by omega) rfl rfl 1 x.isLt (by rw [hk0]; split <;> omega) (by omega)
  generalize MUX (GT x 0xFFFF) (x >>> 16) x = x1 at *
  generalize k + (GT x 0xFFFF <<< 4) = k1 at *
  obtain ⟨a2, b2, c2, d2⟩ := stage x1 k1 8 3 0x00FF (by omega) rfl rfl _ a1 d1 (by omega)
  generalize MUX (GT x1 0x00FF) (x1 >>> 8) x1 = x2 at *
  generalize k1 + (GT x1 0x00FF <<< 3) = k2 at *
  obtain ⟨a3, b3, c3, d3⟩ := stage x2 k2 4 2 0x000F (by omega) rfl rfl _ a2 d2 (by omega)
  generalize MUX (GT x2 0x000F) (x2 >>> 4) x2 = x3 at *
  generalize k2 + (GT x2 0x000F <<< 2) = k3 at *
  obtain ⟨a4, b4, c4, d4⟩ := stage x3 k3 2 1 0x0003 (by omega) rfl rfl _ a3 d3 (by omega)
  generalize MUX (GT x3 0x0003) (x3 >>> 2) x3 = x4 at *
  generalize k3 + (GT x3 0x0003 <<< 1) = k4 at *
  rw [GT_spec, BitVec.toNat_add, bit_toNat]
  have h1 : (0x0001 : Word).toNat = 1 := rfl
  rw [h1]
  have hz : x4.toNat = 0 ↔ x.toNat = 0 := by rw [b4, b3, b2, b1]
  have hb : Spec.bitLen x4.toNat = if x4.toNat = 0 then 0 else if x4.toNat < 2 then 1 else 2 := by
    have : x4.toNat < 4 := a4
    generalize x4.toNat = v at *
    interval_cases v <;> decide
  rw [hb] at c4
  by_cases h0 : x4.toNat = 0
  · rw [if_pos h0] at c4
    rw [if_pos (hz.1 h0)] at hk0
    simp [h0]; omega
  · rw [if_neg h0] at c4
    rw [if_neg (fun h => h0 (hz.2 h))] at hk0
    by_cases h2 : x4.toNat < 2
    · rw [if_pos h2] at c4
      simp [show ¬ 1 < x4.toNat by omega]; omega
    · rw [if_neg h2] at c4
      simp [show 1 < x4.toNat by omega]; omega

/-! ## Inverse modulo 2^32 -/

theorem ninv32_odd (x : Word) (h : x.toNat % 2 = 1) : ninv32 x * x = -1 := by
  have hx : x &&& 1 = bit true := by
    apply BitVec.eq_of_toNat_eq
    rw [BitVec.toNat_and]; show x.toNat &&& 1 = 1
    rw [Nat.and_one_is_mod]; exact h
  unfold ninv32
  dsimp only
  rw [hx, MUX_bit, if_pos rfl]
  obtain ⟨k, hk⟩ : ∃ k : Word, 1 - x = 2 * k := by
    refine ⟨BitVec.ofNat 32 ((2 ^ 32 + 1 - x.toNat) / 2), ?_⟩
    apply BitVec.eq_of_toNat_eq
    rw [BitVec.toNat_sub, BitVec.toNat_mul, BitVec.toNat_ofNat]
    have := x.isLt
    show (2 ^ 32 - x.toNat + 1) % 2 ^ 32 = 2 * _ % 2 ^ 32
    omega
  have h2 : (2 : Word) ^ 32 = 0 := by decide
  have : x = 1 - 2 * k := by rw [← hk]; ring
  subst this
  have e : ∀ z : Word, z = -1 ↔ z + 1 = 0 := fun z => ⟨fun h => by rw [h]; ring, fun h => eq_neg_of_add_eq_zero_left h⟩
  rw [e]
  have : (2 : Word) ^ 32 * k ^ 32 = 0 := by rw [h2]; ring
  rw [← this]
  ring

theorem ninv32_even (x : Word) (h : x.toNat % 2 = 0) : ninv32 x = 0 := by
  have hx : x &&& 1 = bit false := by
    apply BitVec.eq_of_toNat_eq
    rw [BitVec.toNat_and]; show x.toNat &&& 1 = 0
    rw [Nat.and_one_is_mod]; exact h
  unfold ninv32
  dsimp only
  rw [hx, MUX_bit]; rfl

/-! ## Byte order -/

theorem ld32_bit (a b c d : Byte) (i : Nat) : (ld32 a b c d).getLsbD i =
    if i < 8 then a.getLsbD i else if i < 16 then b.getLsbD (i - 8) else if i < 24 then c.getLsbD (i - 16)
      else d.getLsbD (i - 24) := by
  show (d ++ c ++ b ++ a).getLsbD i = _
  simp only [BitVec.getLsbD_append]
  split
  · rfl
  · split
    · rw [if_pos (by omega)]
    · split
      · rw [if_neg (by omega), if_pos (by omega)]; congr 1
      · rw [if_neg (by omega), if_neg (by omega)]; congr 1

theorem ld32_toNat (a b c d : Byte) :
    (ld32 a b c d).toNat = d.toNat * 2 ^ 24 + c.toNat * 2 ^ 16 + b.toNat * 2 ^ 8 + a.toNat := by
  unfold ld32
  simp only [BitVec.toNat_append]
  have h1 := a.isLt; have h2 := b.isLt; have h3 := c.isLt; have h4 := d.isLt
  rw [← Nat.shiftLeft_add_eq_or_of_lt h3, ← Nat.shiftLeft_add_eq_or_of_lt h2, ← Nat.shiftLeft_add_eq_or_of_lt h1]
  simp only [Nat.shiftLeft_eq]; ring

theorem st32_ld32 (a b c d : Byte) : st32 (ld32 a b c d) = [a, b, c, d] := by
  have h1 := a.isLt; have h2 := b.isLt; have h3 := c.isLt; have h4 := d.isLt
  simp only [st32, List.cons.injEq, and_true]
  refine ⟨?_, ?_, ?_, ?_⟩ <;> apply BitVec.eq_of_toNat_eq <;>
    rw [BitVec.extractLsb'_toNat, ld32_toNat, Nat.shiftRight_eq_div_pow] <;> omega

theorem exists_ld32 (w : Word) : ∃ a b c d, w = ld32 a b c d := by
  refine ⟨w.extractLsb' 0 8, w.extractLsb' 8 8, w.extractLsb' 16 8, w.extractLsb' 24 8, ?_⟩
  have := w.isLt
  apply BitVec.eq_of_toNat_eq
  rw [ld32_toNat]
  simp only [BitVec.extractLsb'_toNat, Nat.shiftRight_eq_div_pow]
  omega

theorem swab32_ld32 (a b c d : Byte) : swab32 (ld32 a b c d) = ld32 d c b a := by
  apply BitVec.eq_of_getLsbD_eq
  intro i hi
  rw [swab32, ld32_bit]
  simp only [BitVec.getLsbD_or, BitVec.getLsbD_shiftLeft, BitVec.getLsbD_ushiftRight, BitVec.getLsbD_and, ld32_bit]
  interval_cases i <;> simp

theorem swab32_swab32 (w : Word) : swab32 (swab32 w) = w := by
  obtain ⟨a, b, c, d, rfl⟩ := exists_ld32 w
  rw [swab32_ld32, swab32_ld32]

theorem st32_swab32 (w : Word) : st32 (swab32 w) = (st32 w).reverse := by
  obtain ⟨a, b, c, d, rfl⟩ := exists_ld32 w
  rw [swab32_ld32, st32_ld32, st32_ld32]; rfl

theorem dec32be_toNat (a b c d : Byte) : (dec32be a b c d).toNat = beVal [a, b, c, d] := by
  rw [dec32be, swab32_ld32, ld32_toNat]; simp; ring

theorem swab16_append (a b : Byte) : swab16 (b ++ a) = a ++ b := by
  apply BitVec.eq_of_getLsbD_eq
  intro i hi
  rw [swab16]
  simp only [BitVec.getLsbD_or, BitVec.getLsbD_shiftLeft, BitVec.getLsbD_ushiftRight, BitVec.getLsbD_and, BitVec.getLsbD_append]
  interval_cases i <;> simp

theorem dec16be_toNat (a b : Byte) : (dec16be a b).toNat = beVal [a, b] := by
  have h1 := a.isLt; have h2 := b.isLt
  rw [dec16be, swab16_append, BitVec.toNat_setWidth, BitVec.toNat_append, ← Nat.shiftLeft_add_eq_or_of_lt h2, Nat.shiftLeft_eq]
  simp; omega

theorem swab64_append (hi lo : Word) : swab64 (hi ++ lo) = swab32 lo ++ swab32 hi := by
  obtain ⟨a, b, c, d, rfl⟩ := exists_ld32 lo
  obtain ⟨e, f, g, h, rfl⟩ := exists_ld32 hi
  rw [swab32_ld32, swab32_ld32]
  apply BitVec.eq_of_getLsbD_eq
  intro i hi
  rw [swab64]
  simp only [BitVec.getLsbD_or, BitVec.getLsbD_shiftLeft, BitVec.getLsbD_ushiftRight, BitVec.getLsbD_and, BitVec.getLsbD_append,
    ld32_bit]
  interval_cases i <;> simp

/-! ## Byte and word sequences -/

theorem decWords_length (l : List Byte) : (decWords l).length = (l.length + 3) / 4 := by
  induction l using decWords.induct with
  | case1 d c b a t ih => simp only [decWords, List.length_cons, ih]; omega
  | case2 => simp [decWords]
  | case3 => simp [decWords]
  | case4 => simp [decWords]
  | case5 => simp [decWords]

theorem decWords_val (l : List Byte) : val (decWords l) = beVal l.reverse := by
  induction l using decWords.induct with
  | case1 d c b a t ih =>
    rw [decWords, val_cons, ih, dec32be_toNat]
    rw [show (d :: c :: b :: a :: t).reverse = t.reverse ++ [a, b, c, d] by simp, beVal_append]
    simp only [List.length_cons, List.length_nil]; ring
  | case2 c b a =>
    have h1 := a.isLt; have h2 := b.isLt; have h3 := c.isLt
    have hb : (dec16be b c).toNat < 2 ^ 16 := by rw [dec16be_toNat]; simp; omega
    simp only [decWords, val_cons, val_nil, BitVec.toNat_or, BitVec.toNat_shiftLeft, BitVec.toNat_setWidth]
    rw [Nat.mod_eq_of_lt (a := a.toNat) (by omega), Nat.mod_eq_of_lt (by rw [Nat.shiftLeft_eq]; omega),
      ← Nat.shiftLeft_add_eq_or_of_lt hb, dec16be_toNat, Nat.shiftLeft_eq]
    simp
  | case3 b a => simp [decWords, dec16be_toNat]
  | case4 a => simp [decWords]; have := a.isLt; omega
  | case5 => rfl

theorem bytesWords_length (l : List Byte) : (bytesWords l).length = l.length / 4 := by
  induction l using bytesWords.induct with
  | case1 a b c d t ih => simp only [bytesWords, List.length_cons, ih]; omega
  | case2 l h =>
    rcases l with _ | ⟨a, _ | ⟨b, _ | ⟨c, _ | ⟨d, t⟩⟩⟩⟩ <;> first | exact (h _ _ _ _ _ rfl).elim | simp [bytesWords]

theorem wordBytes_length (l : List Word) : (wordBytes l).length = 4 * l.length := by
  induction l with
  | nil => rfl
  | cons w t ih => simp only [wordBytes, List.length_append, ih, List.length_cons, st32, List.length_nil]; omega

theorem wordBytes_append (a b : List Word) : wordBytes (a ++ b) = wordBytes a ++ wordBytes b := by
  induction a with
  | nil => rfl
  | cons w t ih => simp only [List.cons_append, wordBytes, ih, List.append_assoc]

theorem wordBytes_bytesWords (l : List Byte) (h : l.length % 4 = 0) : wordBytes (bytesWords l) = l := by
  induction l using bytesWords.induct with
  | case1 a b c d t ih =>
    rw [bytesWords, wordBytes, st32_ld32, ih (by simp at h; omega)]; rfl
  | case2 l h' =>
    rcases l with _ | ⟨a, _ | ⟨b, _ | ⟨c, _ | ⟨d, t⟩⟩⟩⟩ <;> first | rfl | exact absurd rfl (h' _ _ _ _ _) | simp at h

/-- The words of a big-endian number in reading order, byte swapped and reversed, are its little-endian words. -/
theorem val_revSwab (l : List Byte) (h : l.length % 4 = 0) : val ((bytesWords l).reverse.map swab32) = beVal l := by
  induction l using bytesWords.induct with
  | case1 a b c d t ih =>
    have ht : t.length % 4 = 0 := by simp at h; omega
    rw [bytesWords, List.reverse_cons, List.map_append, val_append, ih ht]
    simp only [List.map_cons, List.map_nil, val_cons, val_nil, List.length_map, List.length_reverse, bytesWords_length,
      swab32_ld32, ld32_toNat]
    rw [show a :: b :: c :: d :: t = [a, b, c, d] ++ t from rfl, beVal_append]
    have : (256 : Nat) ^ t.length = B (t.length / 4) := by
      rw [B_eq, show (256 : Nat) = 2 ^ 8 from rfl, ← pow_mul]; congr 1; omega
    rw [this]; simp; ring
  | case2 l h' =>
    rcases l with _ | ⟨a, _ | ⟨b, _ | ⟨c, _ | ⟨d, t⟩⟩⟩⟩ <;> first | rfl | exact absurd rfl (h' _ _ _ _ _) | simp at h

theorem st32_swab_beVal (w : Word) : beVal (st32 (swab32 w)) = w.toNat := by
  obtain ⟨a, b, c, d, rfl⟩ := exists_ld32 w
  rw [swab32_ld32, st32_ld32, ld32_toNat]; simp; ring

theorem beVal_wordBytes (ws : List Word) : beVal (wordBytes (ws.reverse.map swab32)) = val ws := by
  induction ws with
  | nil => rfl
  | cons w t ih =>
    rw [List.reverse_cons, List.map_append, wordBytes_append, beVal_append, ih]
    simp only [List.map_cons, List.map_nil, wordBytes, List.append_nil, st32_swab_beVal, val_cons]
    simp [st32]; ring

theorem loadExp_spec (e : List Byte) (h : e.length = 8) : ∃ w, loadExp e = .ok w ∧ w.toNat = beVal e := by
  match e, h with
  | [a, b, c, d, e, f, g, h], _ =>
    refine ⟨_, rfl, ?_⟩
    rw [swab64_append, swab32_ld32, swab32_ld32, BitVec.toNat_append, ← Nat.shiftLeft_add_eq_or_of_lt (ld32 h g f e).isLt,
      ld32_toNat, ld32_toNat, Nat.shiftLeft_eq]
    simp; ring

end Ack.Powm
