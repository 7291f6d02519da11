import Verif.Model.Array
import Verif.Proof.BigBytes
import Mathlib.Data.Nat.Digits.Defs
/-!
# Array import
-/
namespace Ack.Big
open Ack

theorem or_shift {u s : ℕ} {j : ℕ} (hu : u < 2 ^ j) : u ||| (s * 2 ^ j) = u + 2 ^ j * s := by
  rw [Nat.or_comm, Nat.mul_comm, ← Nat.two_pow_add_eq_or_of_lt hu, Nat.add_comm]

theorem packWord_spec (sz : ℕ) : ∀ (n j : ℕ) (src : List (BitVec (8 * sz))) (u : Word), u.toNat < 2 ^ (8 * j) → j + n * sz ≤ 4 →
    (packWord sz n j src u).2 = src.drop n ∧
    (packWord sz n j src u).1.toNat = u.toNat + 2 ^ (8 * j) * Nat.ofDigits (2 ^ (8 * sz)) ((src.take n).map BitVec.toNat) := by
  intro n
  induction n with
  | zero => intro j src u _ _; simp [packWord, Nat.ofDigits]
  | succ n ih =>
    intro j src u hu hj
    have hj' : (j + sz) + n * sz ≤ 4 := by rw [Nat.succ_mul] at hj; omega
    cases src with
    | nil =>
      have h0 : u ||| ((0 : Word) <<< (8 * j)) = u := by simp
      obtain ⟨a, b⟩ := ih (j + sz) [] u (lt_of_lt_of_le hu (Nat.pow_le_pow_right (by omega) (by omega))) hj'
      rw [packWord, h0]
      exact ⟨by rw [a]; simp, by rw [b]; simp [Nat.ofDigits]⟩
    | cons s src =>
      have hs : s.toNat < 2 ^ (8 * sz) := s.isLt
      have hsz : j + sz ≤ 4 := by omega
      have hlt : s.toNat * 2 ^ (8 * j) < 2 ^ (8 * (j + sz)) := by
        rw [Nat.mul_add, Nat.pow_add, Nat.mul_comm (2 ^ (8 * j))]
        exact Nat.mul_lt_mul_of_pos_right hs (by positivity)
      have h32 : 2 ^ (8 * (j + sz)) ≤ 2 ^ 32 := Nat.pow_le_pow_right (by omega) (by omega)
      have hs32 : s.toNat < 2 ^ 32 := lt_of_lt_of_le hs (Nat.pow_le_pow_right (by omega) (by omega))
      have e1 : (s.setWidth 32 <<< (8 * j)).toNat = s.toNat * 2 ^ (8 * j) := by
        rw [BitVec.toNat_shiftLeft, BitVec.toNat_setWidth, Nat.shiftLeft_eq, Nat.mod_eq_of_lt hs32, Nat.mod_eq_of_lt (by omega)]
      have e : (u ||| (s.setWidth 32 <<< (8 * j))).toNat = u.toNat + 2 ^ (8 * j) * s.toNat := by
        rw [BitVec.toNat_or, e1, or_shift hu]
      have hb : u.toNat + 2 ^ (8 * j) * s.toNat < 2 ^ (8 * (j + sz)) := by
        have : s.toNat + 1 ≤ 2 ^ (8 * sz) := hs
        rw [Nat.mul_add, Nat.pow_add]
        have := Nat.mul_le_mul_left (2 ^ (8 * j)) this
        rw [Nat.mul_add] at this
        omega
      obtain ⟨a, b⟩ := ih (j + sz) src _ (by rw [e]; exact hb) hj'
      rw [packWord]
      refine ⟨by rw [a]; simp, ?_⟩
      rw [b, e, List.take_succ_cons, List.map_cons, Nat.ofDigits_cons, Nat.mul_add 8, Nat.pow_add]
      push_cast
      ring

theorem packLoop_length (sz : ℕ) : ∀ (k : ℕ) (src : List (BitVec (8 * sz))), (packLoop sz k src).length = k := by
  intro k
  induction k with
  | zero => intro src; rfl
  | succ k ih => intro src; simp [packLoop, ih]

theorem packLoop_val (sz : ℕ) (h4 : 4 / sz * sz = 4) : ∀ (k : ℕ) (src : List (BitVec (8 * sz))), src.length ≤ k * (4 / sz) →
    val (packLoop sz k src) = Nat.ofDigits (2 ^ (8 * sz)) (src.map BitVec.toNat) := by
  intro k
  induction k with
  | zero => intro src h; have : src = [] := List.length_eq_zero_iff.1 (by omega); subst this; simp [packLoop, val, Nat.ofDigits]
  | succ k ih =>
    intro src h
    obtain ⟨a, b⟩ := packWord_spec sz (4 / sz) 0 src 0 (by simp) (by omega)
    rw [packLoop]
    dsimp only
    rw [val, b, a, ih (src.drop (4 / sz)) (by have h' := h; rw [Nat.add_mul k 1, Nat.one_mul] at h'; rw [List.length_drop]; omega)]
    conv_rhs => rw [← List.take_append_drop (4 / sz) src, List.map_append, Nat.ofDigits_append]
    have z : (0 : Word).toNat = 0 := rfl
    rw [z]
    simp only [Nat.mul_zero, Nat.pow_zero, Nat.one_mul, Nat.zero_add]
    by_cases hl : 4 / sz ≤ src.length
    · rw [List.length_map, List.length_take, Nat.min_eq_left hl, ← Nat.pow_mul]
      congr 2
      rw [Nat.mul_assoc, Nat.mul_comm sz, h4]
    · rw [List.drop_of_length_le (by omega)]
      simp [Nat.ofDigits]

theorem splitElem_length (sz : ℕ) : ∀ (n : ℕ) (s : BitVec (8 * sz)), (splitElem sz n s).length = n := by
  intro n
  induction n with
  | zero => intro s; rfl
  | succ n ih => intro s; simp [splitElem, ih]

theorem splitElem_val (sz : ℕ) : ∀ (n : ℕ) (s : BitVec (8 * sz)), s.toNat < 2 ^ (32 * n) → val (splitElem sz n s) = s.toNat := by
  intro n
  induction n with
  | zero => intro s h; simp at h; simp [splitElem, val, h]
  | succ n ih =>
    intro s h
    have e : (s >>> 32).toNat = s.toNat / 2 ^ 32 := by rw [BitVec.toNat_ushiftRight, Nat.shiftRight_eq_div_pow]
    rw [splitElem, val, ih _ (by
      rw [e, Nat.div_lt_iff_lt_mul (by positivity), ← Nat.pow_add]; rwa [Nat.mul_succ] at h), e, BitVec.toNat_setWidth]
    exact Nat.mod_add_div _ _

theorem split_val (sz : ℕ) (h4 : sz / 4 * 4 = sz) : ∀ src : List (BitVec (8 * sz)),
    val (src.flatMap (splitElem sz (sz / 4))) = Nat.ofDigits (2 ^ (8 * sz)) (src.map BitVec.toNat) ∧
    (src.flatMap (splitElem sz (sz / 4))).length = src.length * (sz / 4) := by
  intro src
  induction src with
  | nil => simp [val, Nat.ofDigits]
  | cons s src ih =>
    have e : 8 * sz = 32 * (sz / 4) := by omega
    rw [List.flatMap_cons, val_append, splitElem_length, splitElem_val _ _ _ (by rw [← e]; exact s.isLt), ih.1, List.map_cons,
      Nat.ofDigits_cons, List.length_append, splitElem_length, ih.2, List.length_cons]
    refine ⟨?_, by ring⟩
    have e2 : B (sz / 4) = 2 ^ (8 * sz) := by rw [e, Nat.pow_mul]; rfl
    rw [e2]

/-- Element sizes of the code. -/
theorem convert_spec {sz : ℕ} (hsz : sz = 1 ∨ sz = 2 ∨ sz = 4 ∨ sz = 8) (x : List (BitVec (8 * sz))) (be : Bool) :
    ∃ ws, convertArrayAs sz (arrayWordSize sz x.length) x be = some ws ∧ ws.length = arrayWordSize sz x.length ∧
      val ws = Nat.ofDigits (2 ^ (8 * sz)) ((if be then x.reverse else x).map BitVec.toNat) := by
  have hl : ∀ y : List (BitVec (8 * sz)), y.length = (if be then y.reverse else y).length := by intro y; split <;> simp
  have h0 := hl x
  unfold convertArrayAs
  rw [if_neg (by unfold arrayWordSize; rcases hsz with h | h | h | h <;> subst h <;> omega)]
  generalize (if be then x.reverse else x) = y at *
  dsimp only
  by_cases h : 4 < sz
  · have h8 : sz = 8 := by omega
    rw [if_pos h]
    obtain ⟨a, b⟩ := split_val sz (by subst h8; rfl) y
    refine ⟨_, rfl, ?_, ?_⟩
    · rw [List.length_append, b, List.length_replicate]; subst h8; unfold arrayWordSize; omega
    · rw [val_append, val_replicate_zero, a]; simp
  · rw [if_neg h]
    refine ⟨_, rfl, packLoop_length _ _ _, packLoop_val sz (by rcases hsz with h | h | h | h <;> subst h <;> first | rfl | omega) _ _ ?_⟩
    unfold arrayWordSize
    rcases hsz with h | h | h | h <;> subst h <;> omega

theorem setArray_spec (cap : Cap) {sz : ℕ} (hsz : sz = 1 ∨ sz = 2 ∨ sz = 4 ∨ sz = 8) (x : List (BitVec (8 * sz))) (be : Bool)
    (hf : cap.fits (arrayWordSize sz x.length) = true) (h1 : cap.fits 1 = true) :
    ∃ r, setArray cap sz x be = some r ∧ r.Canon ∧ Fits cap r ∧ r.neg = false ∧
      r.toInt = ((Nat.ofDigits (2 ^ (8 * sz)) ((if be then x.reverse else x).map BitVec.toNat) : ℕ) : ℤ) := by
  unfold setArray
  by_cases h0 : x.length = 0
  · rw [if_pos h0]
    have : x = [] := List.length_eq_zero_iff.1 h0
    subst this
    refine ⟨zero, rfl, canonW_zero, fun N hN => fits_iff.1 h1 N hN, rfl, ?_⟩
    cases be <;> rfl
  · rw [if_neg h0, if_pos hf]
    obtain ⟨ws, e, hl, hv⟩ := convert_spec hsz x be
    have hne : ws ≠ [] := by
      intro h
      rw [h] at hl
      unfold arrayWordSize at hl
      simp only [List.length_nil] at hl
      rcases hsz with h | h | h | h <;> subst h <;> omega
    rw [e]
    refine ⟨_, rfl, trim_canon _ _ hne, ?_, ?_, ?_⟩
    · intro N hN
      have := fits_iff.1 hf N hN
      have := trim_length_le false _ hne
      omega
    · rw [trim_neg _ _ hne]; rfl
    · rw [trim_toInt _ _ hne, hv]; rfl

theorem ofDigits_beVal : ∀ d : List Byte, Nat.ofDigits (2 ^ (8 * 1)) (d.reverse.map BitVec.toNat) = beVal d := by
  intro d
  induction d with
  | nil => rfl
  | cons b d ih =>
    rw [List.reverse_cons, List.map_append, Nat.ofDigits_append, ih, beVal_cons, List.length_map, List.length_reverse]
    simp [Nat.ofDigits]
    ring

/-- Constant evaluation and run time import the same integer. -/
theorem setBytesCx_eq (cap : Cap) (d : List Byte) : setBytesCx cap d = setBytes cap d := by
  by_cases h0 : d.length = 0
  · unfold setBytesCx setBytes; rw [if_pos h0, if_pos h0]
  · unfold setBytesCx
    rw [if_neg h0]
    have ew : arrayWordSize 1 d.length = wordSize d.length := by unfold arrayWordSize wordSize; omega
    by_cases hf : cap.fits (wordSize d.length) = true
    · have h1 : cap.fits 1 = true := by
        rw [fits_iff] at *
        intro N hN
        have := hf N hN
        unfold wordSize at this
        omega
      obtain ⟨x, ex, cx, _, nx, vx⟩ := setBytes_spec cap d hf h1
      obtain ⟨y, ey, cy, _, ny, vy⟩ := setArray_spec cap (Or.inl rfl : 1 = 1 ∨ _) d true (by rw [ew]; exact hf) h1
      rw [ex, ey]
      have hv : y.toInt = x.toInt := by rw [vx, vy, if_pos rfl, ofDigits_beVal]
      obtain ⟨xn, xs⟩ := x
      obtain ⟨yn, ys⟩ := y
      simp only at nx ny
      subst nx ny
      have : val ys = val xs := by simpa [toInt] using hv
      have hw : ys = xs := CanonW.ext cy cx this
      rw [hw]
    · have hf' : cap.fits (wordSize d.length) = false := by simpa using hf
      rw [setBytes_none cap d (by intro h; exact h0 (by rw [h]; rfl)) hf']
      unfold setArray
      rw [if_neg h0, ew, hf']
      rfl

end Ack.Big
