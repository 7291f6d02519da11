import Verif.Proof.BigCtor
import Verif.Proof.BigBytes
import Mathlib.Algebra.Order.Field.Rat
import Mathlib.Data.Rat.Floor
/-!
# Properties of big integer arithmetic (C01-C09, C19, C20)

`x.toInt` is the integer denoted, `x.Canon` the storage invariant (C09 shows that every object reachable through the
public operations satisfies it), `none` the growable storage of `bignum`, `some N` a fixed storage of `N` words.
-/
namespace Ack.Props
open Ack Ack.Big

/-- Sample values used in the non-vacuity examples: `-(2^32 + 2^33 - 1)`-like two-word and three-word numbers. -/
def exA : Big := ⟨true, [0xffffffff, 1]⟩
/-- Three-word sample. -/
def exB : Big := ⟨false, [0, 0xfffffffe, 7]⟩
/-- Minus zero, which `(-5) + 5` produces. -/
def negZero : Big := ⟨true, [0]⟩

example : exA.Canon ∧ exB.Canon ∧ negZero.Canon ∧ exA.toInt = -8589934591 ∧ exB.toInt = 147573952581086478336 ∧
    add none (ofInt32 (-5)) (ofInt32 5) = negZero := by decide

/-! ## C01 -/

/-- C01: `x + y`, `x += y` is the integer sum. -/
theorem C01_add (x y : Big) (hx : x.Canon) (hy : y.Canon) : (add none x y).toInt = x.toInt + y.toInt := by
  rcases (add_spec none x y hx hy (Fits_none x) (Fits_none y)).2.2 with h | ⟨-, -, h⟩
  · exact h
  · cases h

/-- C01: `x - y`, `x -= y` is the integer difference. -/
theorem C01_sub (x y : Big) (hx : x.Canon) (hy : y.Canon) : (sub none x y).toInt = x.toInt - y.toInt := by
  rcases (sub_spec none x y hx hy (Fits_none x) (Fits_none y)).2.2 with h | ⟨-, -, h⟩
  · exact h
  · cases h

/-- C01: `++x`. -/
theorem C01_incr (x : Big) (hx : x.Canon) : (incr none x).toInt = x.toInt + 1 := by
  rcases (adds1_spec none x 1 hx (Fits_none x)).2.2 with h | ⟨-, h⟩
  · exact h
  · cases h

/-- C01: `--x`. -/
theorem C01_decr (x : Big) (hx : x.Canon) : (decr none x).toInt = x.toInt - 1 := by
  rcases (subs1_spec none x 1 hx (Fits_none x)).2.2 with h | ⟨-, h⟩
  · exact h
  · cases h

/-- C01: unary minus and `abs`. -/
theorem C01_neg_abs (x : Big) : (negate x).toInt = -x.toInt ∧ (abs x).toInt = |x.toInt| := by
  constructor
  · unfold negate toInt; cases x.neg <;> simp
  · unfold Big.abs toInt; cases x.neg <;> simp

example : exA.Canon ∧ exB.Canon ∧ add none exA exB = ⟨false, [1, 0xfffffffc, 7]⟩ ∧
    sub none exA exB = ⟨true, [0xffffffff, 0xffffffff, 7]⟩ ∧ incr none ⟨false, [0xffffffff]⟩ = ⟨false, [0, 1]⟩ ∧
    decr none ⟨false, [0, 1]⟩ = ⟨false, [0xffffffff]⟩ := by decide

/-! ## C02 -/

/-- C02: `x * y`. -/
theorem C02_mul (x y : Big) (hx : x.Canon) (hy : y.Canon) : (mul none x y).toInt = x.toInt * y.toInt := by
  rcases mul?_spec none x y hx hy with ⟨z, e, -, -, v, -⟩ | ⟨-, h⟩
  · unfold mul; rw [e]; exact v
  · cases h

/-- C02: `x *= y`. -/
theorem C02_mulAssign (x y : Big) (hx : x.Canon) (hy : y.Canon) : (mulAssign none x y).toInt = x.toInt * y.toInt := by
  rcases mul?_spec none x y hx hy with ⟨z, e, -, -, v, -⟩ | ⟨-, h⟩
  · unfold mulAssign; rw [e]; exact v
  · cases h

/-- C02: `x.sqr()`. -/
theorem C02_sqr (x : Big) (hx : x.Canon) : (sqr none x).toInt = x.toInt ^ 2 := by
  rw [pow_two]; exact C02_mul x x hx hx

example : exA.Canon ∧ exB.Canon ∧ (mul none exA exB).toInt = exA.toInt * exB.toInt ∧ (mul none exA exB).ws.length = 4 ∧
    (sqr none exA).ws.length = 3 := by decide

/-! ## C03 -/

/-- C03: `x / y` and `x % y` for a non-zero divisor: `x = q*y + r`, `|r| < |y|` and `r` is zero or has the sign of
`x`.  Both calls return (no abort, no undefined behaviour, the division loop ends). -/
theorem C03_div_mod (cap : Cap) (x y : Big) (hx : x.Canon) (hy : y.Canon) (fx : Fits cap x) (h0 : y.toInt ≠ 0) :
    ∃ q r, div cap x y = .ok q ∧ mod cap x y = .ok r ∧ modMember cap x y = .ok r ∧ divMod? cap x y = .ok (some (q, r)) ∧
      x.toInt = q.toInt * y.toInt + r.toInt ∧ |r.toInt| < |y.toInt| ∧
      (r.toInt = 0 ∨ (0 < r.toInt ∧ 0 < x.toInt) ∨ (r.toInt < 0 ∧ x.toInt < 0)) := by
  obtain ⟨q, r, e, cq, cr, fq, fr, vq, vr, nr, nq⟩ := divMod?_spec cap x y hx hy fx h0
  refine ⟨q, r, by unfold div; rw [e]; rfl, by unfold mod; rw [e]; rfl, by unfold modMember; rw [e]; rfl, e, ?_, ?_, ?_⟩
  · rw [vq, vr]; have := Int.tmod_add_mul_tdiv x.toInt y.toInt; rw [mul_comm]; omega
  · rw [vr, Int.abs_eq_natAbs, Int.abs_eq_natAbs, Int.natAbs_tmod]
    have := Nat.mod_lt x.toInt.natAbs (y := y.toInt.natAbs) (by omega)
    exact_mod_cast this
  · rw [vr]
    rcases lt_trichotomy x.toInt 0 with h | h | h
    · have := Int.tmod_nonneg (a := -x.toInt) y.toInt (by omega)
      rw [Int.neg_tmod] at this; omega
    · left; rw [h]; simp
    · have := Int.tmod_nonneg (a := x.toInt) y.toInt (by omega); omega

/-- C03: the quotient is the integer quotient rounded toward zero, the remainder its remainder. -/
theorem C03_truncated (cap : Cap) (x y : Big) (hx : x.Canon) (hy : y.Canon) (fx : Fits cap x) (h0 : y.toInt ≠ 0) :
    ∃ q r, div cap x y = .ok q ∧ mod cap x y = .ok r ∧ q.toInt = x.toInt.tdiv y.toInt ∧ r.toInt = x.toInt.tmod y.toInt := by
  obtain ⟨q, e, -, -, v⟩ := div_spec cap x y hx hy fx h0
  obtain ⟨r, e', -, -, v', -⟩ := mod_spec cap x y hx hy fx h0
  exact ⟨q, r, e, e', v, v'⟩

/-- C03: a zero divisor aborts. -/
theorem C03_zero (cap : Cap) (x y : Big) (hx : x.Canon) (hy : y.Canon) (fx : Fits cap x) (h0 : y.toInt = 0) :
    div cap x y = .error .abort ∧ mod cap x y = .error .abort :=
  ⟨div_zero cap x y hx hy fx h0, mod_zero cap x y hx hy fx h0⟩

example : exA.Canon ∧ exB.Canon ∧ Fits none exB ∧ exA.toInt ≠ 0 ∧
    div none exB exA = .ok ⟨true, [1, 4]⟩ ∧ mod none exB exA = .ok ⟨false, [1]⟩ ∧
    div none exB negZero = .error .abort := by
  refine ⟨by decide, by decide, Fits_none _, by decide, by decide, by decide, by decide⟩

/-! ## C04 -/

private theorem fmod_neg_bounds {a b : Int} (h : b < 0) : a.fmod b ≤ 0 ∧ b < a.fmod b := by
  have h1 := @Int.fmod_eq_emod a b
  have h2 := Int.emod_nonneg a (show b ≠ 0 by omega)
  have h3 := Int.emod_lt a (show b ≠ 0 by omega)
  have h4 := @Int.emod_eq_zero_of_dvd b a
  split at h1
  · rename_i hh
    have := h4 (by rcases hh with hh | hh; · omega
                   · exact hh)
    omega
  · rename_i hh
    have : a % b ≠ 0 := fun hz => hh (Or.inr (Int.dvd_of_emod_eq_zero hz))
    omega


/-- C04: `quot_rem`: `x = q*y + r`, `|r| < |y|`, `r` is zero or has the sign of `y`; `q` is the floor of the
rational quotient. -/
theorem C04_quot_rem (x y : Big) (hx : x.Canon) (hy : y.Canon) (h0 : y.toInt ≠ 0) :
    ∃ q r, quotRem none x y = .ok (q, r) ∧ x.toInt = q.toInt * y.toInt + r.toInt ∧ |r.toInt| < |y.toInt| ∧
      (r.toInt = 0 ∨ (0 < r.toInt ∧ 0 < y.toInt) ∨ (r.toInt < 0 ∧ y.toInt < 0)) ∧
      q.toInt = ⌊(x.toInt : ℚ) / y.toInt⌋ := by
  obtain ⟨q, r, e, -, -, -, -, vr, -, vq⟩ := quotRem_spec none x y hx hy (Fits_none x) (Fits_none y) h0
  have vq : q.toInt = x.toInt.fdiv y.toInt := by
    rcases vq with h | ⟨-, h⟩
    · exact h
    · cases h
  have hid := Int.fmod_add_mul_fdiv x.toInt y.toInt
  have hfl : x.toInt.fdiv y.toInt = ⌊(x.toInt : ℚ) / y.toInt⌋ := by
    symm
    rw [Int.floor_eq_iff]
    have hy0 : (y.toInt : ℚ) ≠ 0 := by exact_mod_cast h0
    rcases lt_or_gt_of_ne h0 with hneg | hpos
    · have h1 := (fmod_neg_bounds (a := x.toInt) hneg).1
      have h2 := (fmod_neg_bounds (a := x.toInt) hneg).2
      have hq : (y.toInt : ℚ) < 0 := by exact_mod_cast hneg
      constructor
      · rw [le_div_iff_of_neg hq]
        have : x.toInt ≤ x.toInt.fdiv y.toInt * y.toInt := by rw [mul_comm]; omega
        exact_mod_cast this
      · rw [div_lt_iff_of_neg hq]
        have : (x.toInt.fdiv y.toInt + 1) * y.toInt < x.toInt := by rw [add_mul, mul_comm]; omega
        exact_mod_cast this
    · have h1 := Int.fmod_nonneg_of_pos x.toInt hpos
      have h2 := Int.fmod_lt_of_pos x.toInt hpos
      have hq : (0:ℚ) < y.toInt := by exact_mod_cast hpos
      constructor
      · rw [le_div_iff₀ hq]
        have : x.toInt.fdiv y.toInt * y.toInt ≤ x.toInt := by rw [mul_comm]; omega
        exact_mod_cast this
      · rw [div_lt_iff₀ hq]
        have : x.toInt < (x.toInt.fdiv y.toInt + 1) * y.toInt := by rw [add_mul, mul_comm]; omega
        exact_mod_cast this
  refine ⟨q, r, e, ?_, ?_, ?_, by rw [vq, hfl]⟩
  · rw [vq, vr, mul_comm]; omega
  · rw [vr]
    rcases lt_or_gt_of_ne h0 with hneg | hpos
    · have h1 := (fmod_neg_bounds (a := x.toInt) hneg).1
      have h2 := (fmod_neg_bounds (a := x.toInt) hneg).2
      rw [abs_of_nonpos h1, abs_of_neg hneg]; omega
    · have h1 := Int.fmod_nonneg_of_pos x.toInt hpos
      have h2 := Int.fmod_lt_of_pos x.toInt hpos
      rw [abs_of_nonneg h1, abs_of_pos hpos]; omega
  · rw [vr]
    rcases lt_or_gt_of_ne h0 with hneg | hpos
    · have h1 := (fmod_neg_bounds (a := x.toInt) hneg).1
      omega
    · have h1 := Int.fmod_nonneg_of_pos x.toInt hpos
      omega

example : exA.Canon ∧ exB.Canon ∧ exA.toInt ≠ 0 ∧ quotRem none exB exA = .ok (⟨true, [2, 4]⟩, ⟨true, [0xfffffffe, 1]⟩) := by
  decide

/-! ## C05, C06 -/

/-- C05: all six relational operators between big integers are those of the integers denoted. -/
theorem C05_relational (x y : Big) (hx : x.Canon) (hy : y.Canon) :
    (opEq x y = true ↔ x.toInt = y.toInt) ∧ (opNe x y = true ↔ x.toInt ≠ y.toInt) ∧
    (opLt x y = true ↔ x.toInt < y.toInt) ∧ (opLe x y = true ↔ x.toInt ≤ y.toInt) ∧
    (opGt x y = true ↔ x.toInt > y.toInt) ∧ (opGe x y = true ↔ x.toInt ≥ y.toInt) := by
  have h := compare_spec hx hy
  unfold opNe opLe opGe opEq opLt opGt
  rw [h]
  rcases lt_trichotomy x.toInt y.toInt with h1 | h1 | h1
  · simp [h1, h1.ne, h1.le, not_lt.2 h1.le]
  · simp [h1]
  · simp [not_lt.2 h1.le, h1.ne', h1.le, h1, not_le.2 h1]

example : negZero.Canon ∧ opEq negZero zero = true ∧ opLt exA exB = true ∧ opLt exB exA = false := by decide

/-- C06: comparison with a native `int` (all 2^32 of them). -/
theorem C06_int (x : Big) (hx : x.Canon) (y : BitVec 32) :
    (eqS x y = true ↔ x.toInt = y.toInt) ∧ (ltS x y = true ↔ x.toInt < y.toInt) ∧ (gtS x y = true ↔ x.toInt > y.toInt) := by
  unfold eqS ltS gtS
  rw [compares1_spec hx y]
  rcases lt_trichotomy x.toInt y.toInt with h1 | h1 | h1
  · simp [h1, h1.ne, not_lt.2 h1.le]
  · simp [h1]
  · simp [not_lt.2 h1.le, h1.ne', h1]

/-- C06, unsigned words: full statement `∀ x y, eqU x y ↔ x.toInt = y.toNat ...`; it fails exactly at the pair
(minus zero, 0), see `C06_word_negZero`.  Proved for all other pairs. -/
theorem C06_word_partial (x : Big) (hx : x.Canon) (y : Word) (h : x.neg = true → x.toInt ≠ 0 ∨ y ≠ 0) :
    (eqU x y = true ↔ x.toInt = y.toNat) ∧ (ltU x y = true ↔ x.toInt < y.toNat) ∧ (gtU x y = true ↔ x.toInt > y.toNat) := by
  unfold eqU ltU gtU
  rw [compareu1_spec hx y h]
  rcases lt_trichotomy x.toInt (y.toNat : Int) with h1 | h1 | h1
  · simp [h1, h1.ne, not_lt.2 h1.le]
  · simp [h1]
  · simp [not_lt.2 h1.le, h1.ne', h1]

/-- C06 is violated: `(-5) + 5` is a zero for which `== 0u` is false and `< 0u` is true. -/
theorem C06_word_negZero : ∃ x, x = add none (ofInt32 (-5)) (ofInt32 5) ∧ x.toInt = 0 ∧ eqU x 0 = false ∧ ltU x 0 = true := by
  refine ⟨_, rfl, by decide⟩

example : exA.Canon ∧ eqS (ofInt32 0x80000000) 0x80000000 = true ∧ ltS exA 0x80000000 = true ∧ gtU exB 5 = true ∧
    (exA.neg = true → exA.toInt ≠ 0 ∨ (5 : Word) ≠ 0) := by decide

/-- C06: comparison with 64-bit native integers. -/
theorem C06_int64 (cap : Cap) (x : Big) (hx : x.Canon) (y : BitVec 64) (h2 : cap.fits 2 = true) :
    (∃ b, eqS64 cap x y = .ok b ∧ (b = true ↔ x.toInt = y.toInt)) ∧ (∃ b, ltS64 cap x y = .ok b ∧ (b = true ↔ x.toInt < y.toInt)) ∧
    (∃ b, eqU64 cap x y = .ok b ∧ (b = true ↔ x.toInt = y.toNat)) ∧ (∃ b, ltU64 cap x y = .ok b ∧ (b = true ↔ x.toInt < y.toNat)) := by
  obtain ⟨z, e, cz, -, v, -⟩ := ofInt64_spec cap y h2
  obtain ⟨w, e', cw, -, -, v'⟩ := ofU64_spec cap y h2
  have a := C05_relational x z hx cz
  have b := C05_relational x w hx cw
  unfold eqS64 ltS64 eqU64 ltU64
  simp only [e, e', ok_bind]
  refine ⟨⟨_, rfl, ?_⟩, ⟨_, rfl, ?_⟩, ⟨_, rfl, ?_⟩, ⟨_, rfl, ?_⟩⟩
  · rw [a.1, v]
  · rw [a.2.2.1, v]
  · rw [b.1, v']
  · rw [b.2.2.1, v']

example : exA.Canon ∧ Cap.fits (some 2) 2 = true ∧ ltS64 (some 2) exA (-8589934590) = .ok true ∧
    eqS64 (some 2) exA (-8589934591) = .ok true := by decide

/-! ## C07 -/

/-- C07: left shift by any amount. -/
theorem C07_shl (x : Big) (n : Nat) (hx : x.Canon) : ∃ z, shl none x n = .ok z ∧ z.toInt = x.toInt * 2 ^ n := by
  obtain ⟨z, e, -, -, v⟩ := shl_spec none x n hx rfl
  exact ⟨z, e, v⟩

/-- C07: right shift by any amount, rounded toward zero. -/
theorem C07_shr (x : Big) (n : Nat) (hx : x.Canon) : (shr x n).toInt = x.toInt.tdiv (2 ^ n) := (shr_spec x n hx).2.1

example : exA.Canon ∧ shl none exA 65 = .ok ⟨true, [0, 0, 0xfffffffe, 3]⟩ ∧ shr exA 1 = ⟨true, [0xffffffff]⟩ ∧ shr exA 200 = zero := by
  decide

/-! ## C08 -/

/-- C08, addition: exact or zero, and zero only if a word more than the longer operand does not fit.  (That is one word
more than the sum may need: see `C08_add_spurious`.) -/
theorem C08_add (cap : Cap) (x y : Big) (hx : x.Canon) (hy : y.Canon) (fx : Fits cap x) (fy : Fits cap y) :
    (add cap x y).toInt = x.toInt + y.toInt ∨
    ((add cap x y).toInt = 0 ∧ cap.fits (max x.ws.length y.ws.length + 1) = false) :=
  (add_spec cap x y hx hy fx fy).2.2.imp id fun h => ⟨h.1, h.2.2⟩

/-- C08, subtraction. -/
theorem C08_sub (cap : Cap) (x y : Big) (hx : x.Canon) (hy : y.Canon) (fx : Fits cap x) (fy : Fits cap y) :
    (sub cap x y).toInt = x.toInt - y.toInt ∨
    ((sub cap x y).toInt = 0 ∧ cap.fits (max x.ws.length y.ws.length + 1) = false) :=
  (sub_spec cap x y hx hy fx fy).2.2.imp id fun h => ⟨h.1, h.2.2⟩

/-- C08, `operator*`: exact, or zero when the two lengths together exceed the capacity. -/
theorem C08_mul (cap : Cap) (x y : Big) (hx : x.Canon) (hy : y.Canon) :
    (mul cap x y).toInt = x.toInt * y.toInt ∨
    ((mul cap x y).toInt = 0 ∧ cap.fits (x.ws.length + y.ws.length) = false) := by
  rcases mul?_spec cap x y hx hy with ⟨z, e, -, -, v, -⟩ | ⟨e, h⟩
  · left; unfold mul; rw [e]; exact v
  · right; unfold mul; rw [e]; exact ⟨by decide, h⟩

/-- C08, `operator*=`; full statement: exact or zero.  Violated (`C08_mulAssign_wrong`); what holds is that the product
is exact or the left operand keeps its value. -/
theorem C08_mulAssign_partial (cap : Cap) (x y : Big) (hx : x.Canon) (hy : y.Canon) :
    (mulAssign cap x y).toInt = x.toInt * y.toInt ∨
    (mulAssign cap x y = x ∧ cap.fits (x.ws.length + y.ws.length) = false) := by
  rcases mul?_spec cap x y hx hy with ⟨z, e, -, -, v, -⟩ | ⟨e, h⟩
  · left; unfold mulAssign; rw [e]; exact v
  · right; unfold mulAssign; rw [e]; exact ⟨rfl, h⟩

/-- C08 is violated by `*=`: on a one-word integer `5 *= 7` leaves 5. -/
theorem C08_mulAssign_wrong : mulAssign (some 1) (ofInt32 5) (ofInt32 7) = ofInt32 5 := by decide

/-- C08 deviation: `5 + 7` and `5 * 7` on a one-word integer yield 0 although the results fit in a word. -/
theorem C08_add_spurious : (add (some 1) (ofInt32 5) (ofInt32 7)).toInt = 0 ∧ (mul (some 1) (ofInt32 5) (ofInt32 7)).toInt = 0 := by
  decide

/-- C08, left shift; full statement: exact, zero or abort for every capacity.  Holds when the capacity suffices. -/
theorem C08_shl_partial (cap : Cap) (x : Big) (n : Nat) (hx : x.Canon)
    (hf : cap.fits (x.ws.length + (n + 31) / 32) = true) : ∃ z, shl cap x n = .ok z ∧ z.toInt = x.toInt * 2 ^ n := by
  obtain ⟨z, e, -, -, v⟩ := shl_spec cap x n hx hf
  exact ⟨z, e, v⟩

/-- C08 is violated by `<<`: when the words needed exceed the capacity the shift stores outside the array. -/
theorem C08_shl_ub (cap : Cap) (x : Big) (n : Nat) (hf : cap.fits (x.ws.length + (n + 31) / 32) = false) :
    shl cap x n = .error .ub := by
  unfold shl; simp only; rw [hf]; rfl

/-- C08: operations whose result is never longer than an operand are exact on every capacity. -/
theorem C08_exact (cap : Cap) (x y : Big) (n : Nat) (hx : x.Canon) (hy : y.Canon) (fx : Fits cap x) (fy : Fits cap y)
    (h0 : y.toInt ≠ 0) :
    Fits cap (shr x n) ∧ Fits cap (orBit false x y) ∧ Fits cap (andBit false x y) ∧
    (∃ q r, divMod? cap x y = .ok (some (q, r)) ∧ Fits cap q ∧ Fits cap r) ∧
    (x.neg ≠ y.neg → (add cap x y).toInt = x.toInt + y.toInt) ∧ (x.neg = y.neg → (sub cap x y).toInt = x.toInt - y.toInt) := by
  refine ⟨?_, ?_, ?_, ?_, ?_, ?_⟩
  · intro N hN; have := (shr_spec x n hx).2.2; have := fx N hN; omega
  · intro N hN; have := (orBit_spec false x y hx hy).2.1; have := fx N hN; have := fy N hN; omega
  · intro N hN; have := (andBit_spec false x y hx hy).2.1; have := fx N hN; have := fy N hN; omega
  · obtain ⟨q, r, e, -, -, fq, fr, -⟩ := divMod?_spec cap x y hx hy fx h0
    exact ⟨q, r, e, fq, fr⟩
  · intro hn
    rcases (add_spec cap x y hx hy fx fy).2.2 with h | ⟨-, h, -⟩
    · exact h
    · exact absurd h hn
  · intro hn
    rcases (sub_spec cap x y hx hy fx fy).2.2 with h | ⟨-, h, -⟩
    · exact h
    · rw [hn] at h; cases hy : y.neg <;> rw [hy] at h <;> cases h

example : exA.Canon ∧ exB.Canon ∧ Cap.fits (some 3) 4 = false ∧ (add (some 3) exB exB).toInt = 0 ∧
    (sub (some 3) exB exB).toInt = 0 ∧ (add (some 3) exA exB).toInt = exA.toInt + exB.toInt ∧
    shl (some 3) exB 1 = .error .ub := by decide

/-! ## C09 -/

/-- Every big integer object of storage capacity `cap` that a program can obtain: by the constructors and then any
number of operations on objects obtained before. -/
inductive Reach (cap : Cap) : Big → Prop
  | zero : Reach cap zero
  | ofInt (x : BitVec 32) : Reach cap (ofInt32 x)
  | ofWord (x : Word) : Reach cap (ofWord x)
  | ofU64 (x : BitVec 64) (z) : ofU64 cap x = .ok z → Reach cap z
  | ofInt64 (x : BitVec 64) (z) : ofInt64 cap x = .ok z → Reach cap z
  | ofBytes (d : List Byte) (z) : ofBytes cap d = .ok z → Reach cap z
  | add (x y) : Reach cap x → Reach cap y → Reach cap (add cap x y)
  | sub (x y) : Reach cap x → Reach cap y → Reach cap (sub cap x y)
  | adds1 (x) (y : BitVec 32) : Reach cap x → Reach cap (adds1 cap x y)
  | subs1 (x) (y : BitVec 32) : Reach cap x → Reach cap (subs1 cap x y)
  | addu1 (x) (y : Word) : Reach cap x → Reach cap (addu1 cap x y)
  | subu1 (x) (y : Word) : Reach cap x → Reach cap (subu1 cap x y)
  | mul (x y) : Reach cap x → Reach cap y → Reach cap (mul cap x y)
  | mulAssign (x y) : Reach cap x → Reach cap y → Reach cap (mulAssign cap x y)
  | sqr (x) : Reach cap x → Reach cap (sqr cap x)
  | mulu1 (x) (y : Word) : Reach cap x → Reach cap (mulu1 cap x y)
  | muls1 (x) (y : BitVec 32) : Reach cap x → Reach cap (muls1 cap x y)
  | div (x y z) : Reach cap x → Reach cap y → div cap x y = .ok z → Reach cap z
  | mod (x y z) : Reach cap x → Reach cap y → mod cap x y = .ok z → Reach cap z
  | quot (x y q r) : Reach cap x → Reach cap y → quotRem cap x y = .ok (q, r) → Reach cap q
  | rem (x y q r) : Reach cap x → Reach cap y → quotRem cap x y = .ok (q, r) → Reach cap r
  | divs1 (x) (y : BitVec 32) (z) : Reach cap x → divs1 cap x y = .ok z → Reach cap z
  | mods1 (x) (y : BitVec 32) (z) : Reach cap x → mods1 x y = .ok z → Reach cap z
  | divu1 (x) (y : Word) (z) : Reach cap x → divu1 cap x y = .ok z → Reach cap z
  | modu1 (x) (y : Word) (z) : Reach cap x → modu1 x y = .ok z → Reach cap z
  | shl (x n z) : Reach cap x → shl cap x n = .ok z → Reach cap z
  | shr (x n) : Reach cap x → Reach cap (shr x n)
  | negate (x) : Reach cap x → Reach cap (negate x)
  | abs (x) : Reach cap x → Reach cap (abs x)
  | orBit (s x y) : Reach cap x → Reach cap y → Reach cap (orBit s x y)
  | andBit (s x y) : Reach cap x → Reach cap y → Reach cap (andBit s x y)
  | orBitu1 (x y) : Reach cap x → Reach cap (orBitu1 x y)
  | andBitu1 (x y) : Reach cap x → Reach cap (andBitu1 x y)
  | pow (x y z) : Reach cap x → Reach cap y → pow cap x y = .ok z → Reach cap z
  | modexp (x y m z) : Reach cap x → Reach cap y → Reach cap m → modexp cap x y m = .ok z → Reach cap z
  | modinv (x m z) : Reach cap x → Reach cap m → modinv cap x m = .ok z → Reach cap z
  | gcd (x y z) : Reach cap x → Reach cap y → gcd cap x y = .ok z → Reach cap z

/-- C09: every reachable object is canonical and within its capacity. -/
theorem C09_reachable (cap : Cap) (h1 : cap.fits 1 = true) (x : Big) (h : Reach cap x) : x.Canon ∧ Fits cap x := by
  have fit1 : ∀ b : Big, b.ws.length = 1 → Fits cap b := by
    intro b hb N hN; have := fits_iff.1 h1 N hN; omega
  induction h with
  | zero => exact ⟨zero_canon, fit1 _ rfl⟩
  | ofInt x => exact ⟨canonW_single _, fit1 _ rfl⟩
  | ofWord x => exact ⟨canonW_single _, fit1 _ rfl⟩
  | ofU64 x z e =>
    by_cases h2 : cap.fits 2 = true
    · obtain ⟨z', e', c, f, -⟩ := ofU64_spec cap x h2
      rw [e] at e'; cases e'; exact ⟨c, f⟩
    · rw [ofU64_small cap x (by simpa using h2)] at e; cases e
  | ofInt64 x z e =>
    by_cases h2 : cap.fits 2 = true
    · obtain ⟨z', e', c, f, -⟩ := ofInt64_spec cap x h2
      rw [e] at e'; cases e'; exact ⟨c, f⟩
    · rw [ofInt64_small cap x (by simpa using h2)] at e; cases e
  | ofBytes d z e =>
    unfold Ack.Big.ofBytes at e
    by_cases hd : d = []
    · subst hd; cases e; exact ⟨zero_canon, fit1 _ rfl⟩
    · by_cases hf : cap.fits (wordSize d.length) = true
      · obtain ⟨z', e', c, f, -⟩ := setBytes_spec cap d hf h1
        rw [e'] at e; cases e; exact ⟨c, f⟩
      · rw [setBytes_none cap d hd (by simpa using hf)] at e; cases e
  | add x y _ _ hx hy => have := add_spec cap x y hx.1 hy.1 hx.2 hy.2; exact ⟨this.1, this.2.1⟩
  | sub x y _ _ hx hy => have := sub_spec cap x y hx.1 hy.1 hx.2 hy.2; exact ⟨this.1, this.2.1⟩
  | adds1 x y _ hx => have := adds1_spec cap x y hx.1 hx.2; exact ⟨this.1, this.2.1⟩
  | subs1 x y _ hx => have := subs1_spec cap x y hx.1 hx.2; exact ⟨this.1, this.2.1⟩
  | addu1 x y _ hx => have := addu1_spec cap x y hx.1 hx.2; exact ⟨this.1, this.2.1⟩
  | subu1 x y _ hx => have := subu1_spec cap x y hx.1 hx.2; exact ⟨this.1, this.2.1⟩
  | mul x y _ _ hx hy => exact mul_canon cap x y _ hx.1 hy.1 zero_canon (fit1 _ rfl)
  | mulAssign x y _ _ hx hy => exact mul_canon cap x y _ hx.1 hy.1 hx.1 hx.2
  | sqr x _ hx => exact mul_canon cap x x _ hx.1 hx.1 zero_canon (fit1 _ rfl)
  | mulu1 x y _ hx => have := mulu1_spec cap x y hx.1 hx.2; exact ⟨this.1, this.2.1⟩
  | muls1 x y _ hx => have := muls1_spec cap x y hx.1 hx.2; exact ⟨this.1, this.2.1⟩
  | div x y z _ _ e hx hy =>
    rcases divMod?_cases cap x y hx.1 hy.1 hx.2 with h | ⟨q, r, h, cq, cr, fq, fr⟩
    · unfold Ack.Big.div at e; rw [h] at e; cases e
    · unfold Ack.Big.div at e; rw [h] at e; cases e; exact ⟨cq, fq⟩
  | mod x y z _ _ e hx hy =>
    rcases divMod?_cases cap x y hx.1 hy.1 hx.2 with h | ⟨q, r, h, cq, cr, fq, fr⟩
    · unfold Ack.Big.mod at e; rw [h] at e; cases e
    · unfold Ack.Big.mod at e; rw [h] at e; cases e; exact ⟨cr, fr⟩
  | quot x y q r _ _ e hx hy =>
    by_cases h0 : y.toInt = 0
    · have := canonW_val_zero hy.1.w ((toInt_zero_iff y).1 h0)
      unfold Ack.Big.quotRem at e; rw [this, udiv_zero cap x.ws hx.1.1 hx.2.fits] at e; cases e
    · obtain ⟨q', r', e', cq, cr, fq, fr, -⟩ := quotRem_spec cap x y hx.1 hy.1 hx.2 hy.2 h0
      rw [e] at e'; cases e'; exact ⟨cq, fq⟩
  | rem x y q r _ _ e hx hy =>
    by_cases h0 : y.toInt = 0
    · have := canonW_val_zero hy.1.w ((toInt_zero_iff y).1 h0)
      unfold Ack.Big.quotRem at e; rw [this, udiv_zero cap x.ws hx.1.1 hx.2.fits] at e; cases e
    · obtain ⟨q', r', e', cq, cr, fq, fr, -⟩ := quotRem_spec cap x y hx.1 hy.1 hx.2 hy.2 h0
      rw [e] at e'; cases e'; exact ⟨cr, fr⟩
  | divs1 x y z _ e hx =>
    by_cases h0 : y = 0
    · rw [h0, divs1_zero cap x hx.2] at e; cases e
    · obtain ⟨q, e', c, f, -⟩ := divs1_spec cap x y hx.1 hx.2 (by rw [ne_eq, ← BitVec.toInt_zero (w := 32), BitVec.toInt_inj]; exact h0)
      rw [e] at e'; cases e'; exact ⟨c, f⟩
  | mods1 x y z _ e hx =>
    by_cases h0 : y = 0
    · rw [h0, mods1_zero x] at e; cases e
    · obtain ⟨r, e', l, -⟩ := mods1_spec x y (by rw [ne_eq, ← BitVec.toInt_zero (w := 32), BitVec.toInt_inj]; exact h0)
      rw [e] at e'; cases e'
      obtain ⟨w, hw⟩ := List.length_eq_one_iff.1 l
      exact ⟨by constructor <;> simp [hw], fit1 _ l⟩
  | divu1 x y z _ e hx =>
    by_cases h0 : y = 0
    · rw [h0, divu1_zero cap x hx.2] at e; cases e
    · obtain ⟨q, e', c, f, -⟩ := divu1_spec cap x y hx.1 hx.2 (by rw [ne_eq, ← wordEqZero]; exact h0)
      rw [e] at e'; cases e'; exact ⟨c, f⟩
  | modu1 x y z _ e hx =>
    unfold Ack.Big.modu1 check at e
    have := List.length_pos_iff.2 hx.1.1
    by_cases h0 : (y != 0) = true
    · simp only [h0, if_true, ok_bind] at e; rw [if_pos this] at e; cases e
    · simp only [h0] at e; cases e
  | shl x n z _ e hx =>
    by_cases hf : cap.fits (x.ws.length + (n + 31) / 32) = true
    · obtain ⟨z', e', c, f, -⟩ := shl_spec cap x n hx.1 hf
      rw [e] at e'; cases e'; exact ⟨c, f⟩
    · rw [C08_shl_ub cap x n (by simpa using hf)] at e; cases e
  | shr x n _ hx =>
    have := shr_spec x n hx.1
    exact ⟨this.1, by intro N hN; have := hx.2 N hN; omega⟩
  | negate x _ hx => exact hx
  | abs x _ hx => exact hx
  | orBit s x y _ _ hx hy =>
    have := orBit_spec s x y hx.1 hy.1
    exact ⟨this.1, by intro N hN; have := hx.2 N hN; have := hy.2 N hN; omega⟩
  | andBit s x y _ _ hx hy =>
    have := andBit_spec s x y hx.1 hy.1
    exact ⟨this.1, by intro N hN; have := hx.2 N hN; have := hy.2 N hN; omega⟩
  | orBitu1 x y _ hx =>
    have := orBitu1_spec x y hx.1
    exact ⟨this.1, by intro N hN; have := hx.2 N hN; omega⟩
  | andBitu1 x y _ hx => exact ⟨canonW_single _, fit1 _ rfl⟩
  | pow x y z _ _ e hx hy => exact pow_canon cap x y hx.1 hy.1 hx.2 z e
  | modexp x y m z _ _ _ e hx hy hm => exact modexp_canon cap x y m hx.1 hy.1 hm.1 hx.2 z e
  | modinv x m z _ _ e hx hm => exact modinv_canon cap x m hx.1 hx.2 hm.1 hm.2 z e
  | gcd x y z _ _ e hx hy =>
    obtain ⟨z', e', c, f, -⟩ := gcd_spec cap x y hx.1 hy.1 hx.2 hy.2
    rw [e] at e'; cases e'; exact ⟨c, f⟩

/-- C09: canonical objects with the same value have the same words, hence the same word count, `bit_length`,
`byte_length` and `to_bytes`; they have the same sign flag too unless the value is zero. -/
theorem C09_unique (x y : Big) (hx : x.Canon) (hy : y.Canon) (h : x.toInt = y.toInt) :
    x.ws = y.ws ∧ x.bitLength = y.bitLength ∧ x.byteLength = y.byteLength ∧ x.toBytes = y.toBytes ∧
    (x.toInt ≠ 0 → x = y) := by
  have hv : val x.ws = val y.ws := by
    have := congrArg Int.natAbs h; rwa [natAbs_toInt, natAbs_toInt] at this
  have hw := CanonW.ext hx.w hy.w hv
  have hb : x.bitLength = y.bitLength := by unfold bitLength isZero; rw [hw]
  have hB : x.byteLength = y.byteLength := by unfold byteLength; rw [hb]
  refine ⟨hw, hb, hB, ?_, ?_⟩
  · have hbyte : ∀ n, bytesGo x n = bytesGo y n := by
      intro n; induction n with
      | zero => rfl
      | succ n ih => rw [bytesGo, bytesGo, ih]; unfold byteAt; rw [hw]
    unfold toBytes getBytes; simp only [hB, hbyte]
  · intro h0
    obtain ⟨n, w⟩ := x; obtain ⟨n', w'⟩ := y
    simp only at hw; subst hw
    have : n = n' := by
      rw [ne_eq, toInt_zero_iff] at h0
      simp only at h0
      cases n <;> cases n' <;> simp [toInt] at h ⊢ <;> omega
    rw [this]

example : Reach (some 4) (add (some 4) exA exA) ∧ Cap.fits (some 4) 1 = true := by
  refine ⟨.add _ _ ?_ ?_, rfl⟩ <;> exact .ofInt64 (-8589934591) _ (by decide)

/-! ## C19 -/

/-- C19: `x | y` is the bitwise disjunction of the magnitudes. -/
theorem C19_or (x y : Big) (hx : x.Canon) (hy : y.Canon) (h0 : 0 ≤ x.toInt) (h1 : 0 ≤ y.toInt) (i : Nat) :
    0 ≤ (orBit false x y).toInt ∧
    (orBit false x y).toInt.toNat.testBit i = (x.toInt.toNat.testBit i || y.toInt.toNat.testBit i) := by
  have h := (orBit_spec false x y hx hy).2.2
  have ex : x.toInt.toNat = val x.ws := by have := natAbs_toInt x; omega
  have ey : y.toInt.toNat = val y.ws := by have := natAbs_toInt y; omega
  simp only [Bool.false_eq_true, if_false] at h
  rw [h, ex, ey, Int.toNat_natCast, Nat.testBit_or]
  exact ⟨Int.natCast_nonneg _, rfl⟩

/-- C19: `x & y` is the bitwise conjunction of the magnitudes. -/
theorem C19_and (x y : Big) (hx : x.Canon) (hy : y.Canon) (h0 : 0 ≤ x.toInt) (h1 : 0 ≤ y.toInt) (i : Nat) :
    0 ≤ (andBit false x y).toInt ∧
    (andBit false x y).toInt.toNat.testBit i = (x.toInt.toNat.testBit i && y.toInt.toNat.testBit i) := by
  have h := (andBit_spec false x y hx hy).2.2
  have ex : x.toInt.toNat = val x.ws := by have := natAbs_toInt x; omega
  have ey : y.toInt.toNat = val y.ws := by have := natAbs_toInt y; omega
  simp only [Bool.false_eq_true, if_false] at h
  rw [h, ex, ey, Int.toNat_natCast, Nat.testBit_and]
  exact ⟨Int.natCast_nonneg _, rfl⟩

/-- C19: the overloads for a native word.  Full statement: for every `x ≥ 0`; it fails for minus zero
(`C19_negZero`), so the sign flag must be clear. -/
theorem C19_word_partial (x : Big) (y : Word) (hx : x.Canon) (h0 : x.neg = false) (i : Nat) :
    (orBitu1 x y).toInt.toNat.testBit i = (x.toInt.toNat.testBit i || y.toNat.testBit i) ∧
    (andBitu1 x y).toInt.toNat.testBit i = (x.toInt.toNat.testBit i && y.toNat.testBit i) := by
  obtain ⟨-, hn, -, hv⟩ := orBitu1_spec x y hx
  have h2 := (andBitu1_spec x y hx).2.2
  have ex : x.toInt.toNat = val x.ws := by rw [toInt_of_nonneg h0]; rfl
  rw [h2, ex, Int.toNat_natCast, Nat.testBit_and, toInt_of_nonneg (hn.trans h0), Int.toNat_natCast, hv, Nat.testBit_or]
  exact ⟨rfl, rfl⟩

/-- C19 is violated for a zero with minus sign: `(-5 + 5) | 3u` is -3, and so is `|=` with a big integer (which keeps the
sign flag of its left operand). -/
theorem C19_negZero : ∃ x, x = add none (ofInt32 (-5)) (ofInt32 5) ∧ x.toInt = 0 ∧ (orBitu1 x 3).toInt = -3 ∧
    (orBit x.neg x (ofInt32 3)).toInt = -3 := ⟨_, rfl, by decide⟩

example : exB.Canon ∧ 0 ≤ exB.toInt ∧ (orBit false exB ⟨false, [5]⟩).ws = [5, 0xfffffffe, 7] ∧
    (andBit false exB ⟨false, [5, 3]⟩).ws = [0, 2] ∧ (orBitu1 exB 6).ws = [6, 0xfffffffe, 7] := by decide

/-! ## C20 -/

/-- C20: a big integer plus, minus, times a native `int` (growable storage). -/
theorem C20_int (x : Big) (y : BitVec 32) (hx : x.Canon) :
    (adds1 none x y).toInt = x.toInt + y.toInt ∧ (subs1 none x y).toInt = x.toInt - y.toInt ∧
    (muls1 none x y).toInt = x.toInt * y.toInt := by
  refine ⟨?_, ?_, ?_⟩
  · rcases (adds1_spec none x y hx (Fits_none x)).2.2 with h | ⟨-, h⟩
    · exact h
    · cases h
  · rcases (subs1_spec none x y hx (Fits_none x)).2.2 with h | ⟨-, h⟩
    · exact h
    · cases h
  · rcases (muls1_spec none x y hx (Fits_none x)).2.2 with h | ⟨-, h⟩
    · exact h
    · cases h

/-- C20: a big integer plus, minus, times a native unsigned word. -/
theorem C20_word (x : Big) (y : Word) (hx : x.Canon) :
    (addu1 none x y).toInt = x.toInt + y.toNat ∧ (subu1 none x y).toInt = x.toInt - y.toNat ∧
    (mulu1 none x y).toInt = x.toInt * y.toNat := by
  refine ⟨?_, ?_, ?_⟩
  · rcases (addu1_spec none x y hx (Fits_none x)).2.2 with h | ⟨-, h⟩
    · exact h
    · cases h
  · rcases (subu1_spec none x y hx (Fits_none x)).2.2 with h | ⟨-, h⟩
    · exact h
    · cases h
  · rcases (mulu1_spec none x y hx (Fits_none x)).2.2 with h | ⟨-, h⟩
    · exact h
    · cases h

/-- C20: division and remainder by a native `int`: truncated, abort on zero. -/
theorem C20_div_int (cap : Cap) (x : Big) (y : BitVec 32) (hx : x.Canon) (fx : Fits cap x) :
    (y.toInt ≠ 0 → (∃ q, divs1 cap x y = .ok q ∧ q.toInt = x.toInt.tdiv y.toInt) ∧
      ∃ r, mods1 x y = .ok r ∧ r.toInt = x.toInt.tmod y.toInt) ∧
    (y = 0 → divs1 cap x y = .error .abort ∧ mods1 x y = .error .abort) := by
  refine ⟨fun h0 => ⟨?_, ?_⟩, ?_⟩
  · obtain ⟨q, e, -, -, v⟩ := divs1_spec cap x y hx fx h0; exact ⟨q, e, v⟩
  · obtain ⟨r, e, -, -, v⟩ := mods1_spec x y h0; exact ⟨r, e, v⟩
  · rintro rfl; exact ⟨divs1_zero cap x fx, mods1_zero x⟩

/-- C20, division by an unsigned word; full statement `q = x tdiv y` for every `x`.  It holds for `x ≥ 0`; for a
negative `x` the sign is lost (`C20_divu1_sign`). -/
theorem C20_div_word_partial (cap : Cap) (x : Big) (y : Word) (hx : x.Canon) (fx : Fits cap x) (h0 : 0 ≤ x.toInt)
    (hy : y ≠ 0) : ∃ q, divu1 cap x y = .ok q ∧ q.toInt = x.toInt.tdiv y.toNat := by
  obtain ⟨q, e, -, -, v⟩ := divu1_spec cap x y hx fx (by rw [ne_eq, ← wordEqZero]; exact hy)
  exact ⟨q, e, by rw [v, abs_of_nonneg h0]⟩

/-- C20 is violated: `bigint(-6) / 2u` is `3`. -/
theorem C20_divu1_sign : ∃ q, divu1 none (ofInt32 (-6)) 2 = .ok q ∧ q.toInt = 3 := ⟨⟨false, [3]⟩, by decide, by decide⟩

/-- C20 is violated: `x % y` for an unsigned word `y` never returns a value; a non-zero `y` writes through a null
pointer. -/
theorem C20_modu1_ub (x : Big) (hx : x.Canon) (y : Word) :
    modu1 x y = if y = 0 then .error .abort else .error .ub := by
  have hp := List.length_pos_iff.2 hx.1
  unfold modu1 check
  by_cases h : y = 0
  · subst h; rfl
  · have : (y != 0) = true := by rw [bne_iff_ne]; exact h
    simp only [this, if_true, ok_bind, if_pos hp, if_neg h]

/-- C20: the overloads for 64-bit native integers. -/
theorem C20_int64 (x : Big) (y : BitVec 64) (hx : x.Canon) :
    (∃ z, addS64 none x y = .ok z ∧ z.toInt = x.toInt + y.toInt) ∧ (∃ z, subS64 none x y = .ok z ∧ z.toInt = x.toInt - y.toInt) ∧
    (∃ z, mulS64 none x y = .ok z ∧ z.toInt = x.toInt * y.toInt) ∧
    (y.toInt ≠ 0 → ∃ z, divS64 none x y = .ok z ∧ z.toInt = x.toInt.tdiv y.toInt) ∧
    (y.toInt ≠ 0 → ∃ z, modS64 none x y = .ok z ∧ z.toInt = x.toInt.tmod y.toInt) := by
  obtain ⟨b, e, cb, -, v, -⟩ := ofInt64_spec none y rfl
  unfold addS64 subS64 mulS64 divS64 modS64
  simp only [e, ok_bind, ← v]
  refine ⟨⟨_, rfl, C01_add x b hx cb⟩, ⟨_, rfl, C01_sub x b hx cb⟩, ⟨_, rfl, C02_mul x b hx cb⟩, fun h => ?_, fun h => ?_⟩
  · obtain ⟨q, r, e1, -, v1, -⟩ := C03_truncated none x b hx cb (Fits_none x) h; exact ⟨q, e1, v1⟩
  · obtain ⟨q, r, -, e1, -, v1⟩ := C03_truncated none x b hx cb (Fits_none x) h; exact ⟨r, e1, v1⟩

/-- C20: the overloads for 64-bit unsigned native integers. -/
theorem C20_uint64 (x : Big) (y : BitVec 64) (hx : x.Canon) :
    (∃ z, addU64 none x y = .ok z ∧ z.toInt = x.toInt + y.toNat) ∧ (∃ z, subU64 none x y = .ok z ∧ z.toInt = x.toInt - y.toNat) ∧
    (∃ z, mulU64 none x y = .ok z ∧ z.toInt = x.toInt * y.toNat) ∧
    (y.toNat ≠ 0 → ∃ z, divU64 none x y = .ok z ∧ z.toInt = x.toInt.tdiv y.toNat) ∧
    (y.toNat ≠ 0 → ∃ z, modU64 none x y = .ok z ∧ z.toInt = x.toInt.tmod y.toNat) := by
  obtain ⟨b, e, cb, -, -, v⟩ := ofU64_spec none y rfl
  unfold addU64 subU64 mulU64 divU64 modU64
  simp only [e, ok_bind, ← v]
  refine ⟨⟨_, rfl, C01_add x b hx cb⟩, ⟨_, rfl, C01_sub x b hx cb⟩, ⟨_, rfl, C02_mul x b hx cb⟩, fun h => ?_, fun h => ?_⟩
  · obtain ⟨q, r, e1, -, v1, -⟩ := C03_truncated none x b hx cb (Fits_none x) (by rw [v]; exact_mod_cast h); exact ⟨q, e1, v1⟩
  · obtain ⟨q, r, -, e1, -, v1⟩ := C03_truncated none x b hx cb (Fits_none x) (by rw [v]; exact_mod_cast h); exact ⟨r, e1, v1⟩

/-- C20 is violated: `x %= y` with a 64-bit `y` divides: `17 %= 5` is 3. -/
theorem C20_modAssign64_wrong : (∃ z, modAssignS64 none (ofInt32 17) 5 = .ok z ∧ z.toInt = 3) ∧
    (∃ z, modAssignU64 none (ofInt32 17) 5 = .ok z ∧ z.toInt = 3) := by
  refine ⟨⟨⟨false, [3]⟩, by decide, by decide⟩, ⟨⟨false, [3]⟩, by decide, by decide⟩⟩

/-- C20: conversion from native integers is exact (all 2^32, 2^64 values), so the operations above see the right
operand. -/
theorem C20_ctor (a : BitVec 32) (b : BitVec 64) :
    (ofInt32 a).toInt = a.toInt ∧ (ofWord a).toInt = a.toNat ∧
    (∃ z, ofInt64 none b = .ok z ∧ z.toInt = b.toInt) ∧ (∃ z, ofU64 none b = .ok z ∧ z.toInt = b.toNat) := by
  obtain ⟨z, e, -, -, v, -⟩ := ofInt64_spec none b rfl
  obtain ⟨w, e', -, -, -, v'⟩ := ofU64_spec none b rfl
  exact ⟨ofInt32_toInt a, ofWord_toInt a, ⟨z, e, v⟩, ⟨w, e', v'⟩⟩

example : exA.Canon ∧ adds1 none exA 0x80000000 = ⟨true, [0x7fffffff, 2]⟩ ∧ muls1 none exA (-3) = ⟨false, [0xfffffffd, 5]⟩ ∧
    divs1 none exA (-3) = .ok ⟨false, [0xaaaaaaaa]⟩ ∧ subu1 none exA 1 = ⟨true, [0, 2]⟩ ∧
    divS64 none exB (-8589934591) = .ok ⟨true, [1, 4]⟩ := by decide

end Ack.Props
