import Verif.Spec.Val
import Mathlib.Tactic.Ring
import Mathlib.Tactic.Linarith
import Mathlib.Tactic.NormNum
import Mathlib.Algebra.Order.Ring.Nat
/-! # Lemmas about the word-level routines -/
namespace Ack

/-- `2^(32 n)` -/
def B (n : Nat) : Nat := 4294967296 ^ n

theorem ok_bind {α β : Type} (a : α) (f : α → Res β) : ((Except.ok a : Res α) >>= f) = f a := rfl
theorem check_true {b : Bool} (h : b = true) : check b = .ok () := by rw [h]; rfl
theorem check_false {b : Bool} (h : b = false) : check b = .error .abort := by rw [h]; rfl
theorem error_bind {α β : Type} (e : Err) (f : α → Res β) : ((Except.error e : Res α) >>= f) = .error e := rfl

@[simp] theorem B_zero : B 0 = 1 := rfl
theorem B_succ (n : Nat) : B (n+1) = 4294967296 * B n := by unfold B; rw [pow_succ]; ring
theorem B_add (n m : Nat) : B (n+m) = B n * B m := by unfold B; rw [pow_add]
theorem B_pos (n : Nat) : 0 < B n := by unfold B; positivity
theorem B_eq (n : Nat) : B n = 2 ^ (32 * n) := by unfold B; rw [pow_mul]; norm_num
theorem B_le {n m : Nat} (h : n ≤ m) : B n ≤ B m := by unfold B; exact Nat.pow_le_pow_right (by norm_num) h

@[simp] theorem val_nil : val [] = 0 := rfl
@[simp] theorem val_cons (w : Word) (ws : List Word) : val (w :: ws) = w.toNat + 4294967296 * val ws := rfl

theorem val_append (a b : List Word) : val (a ++ b) = val a + B a.length * val b := by
  induction a with
  | nil => simp
  | cons w ws ih => simp [ih, B_succ]; ring

theorem val_lt (a : List Word) : val a < B a.length := by
  induction a with
  | nil => simp
  | cons w ws ih => simp only [val_cons, List.length_cons, B_succ]; have := w.isLt; omega

@[simp] theorem val_replicate_zero' (n : Nat) : val (List.replicate n 0#32) = 0 := by
  induction n with
  | zero => rfl
  | succ n ih => simp [List.replicate_succ, ih]

theorem val_replicate_zero (n : Nat) : val (List.replicate n 0) = 0 :=
 val_replicate_zero' n

theorem val_wordsFuel (a : List Word) : wordsFuel a = val a := by
  induction a with
  | nil => rfl
  | cons w ws ih => simp [wordsFuel, ih]

theorem val_take_drop (n : Nat) (a : List Word) (h : n ≤ a.length) :
    val a = val (a.take n) + B n * val (a.drop n) := by
  conv_lhs => rw [← List.take_append_drop n a]
  rw [val_append]; simp [h]

theorem val_dropLast (a : List Word) (h : a ≠ []) :
    val a = val a.dropLast + B (a.length - 1) * (a.getLast h).toNat := by
  conv_lhs => rw [← List.dropLast_concat_getLast h]
  rw [val_append]; simp

theorem val_singleton (w : Word) : val [w] = w.toNat := by simp

theorem val_inj : ∀ {a b : List Word}, a.length = b.length → val a = val b → a = b
  | [], [], _, _ => rfl
  | x :: xs, y :: ys, hl, hv => by
    simp only [val_cons, List.length_cons] at *
    have h1 := x.isLt; have h2 := y.isLt
    have e : x.toNat = y.toNat := by omega
    have e' : val xs = val ys := by omega
    rw [BitVec.eq_of_toNat_eq e, val_inj (by omega) e']

/-! ## comparison -/

theorem cmpGeGo_spec : ∀ (x y : List Word), x.length = y.length →
    (cmpGeGo x y = some true ↔ val y < val x) ∧ (cmpGeGo x y = some false ↔ val x < val y) ∧
    (cmpGeGo x y = none ↔ val x = val y)
  | [], [], _ => by simp [cmpGeGo]
  | x :: xs, y :: ys, h => by
    have ih := cmpGeGo_spec xs ys (by simpa using h)
    have hx := x.isLt; have hy := y.isLt
    simp only [cmpGeGo, val_cons]
    rcases hc : cmpGeGo xs ys with _ | b
    · have e := ih.2.2.1 hc
      simp only [GT.gt, BitVec.lt_def]
      split
      · simp; omega
      · split
        · simp; omega
        · simp; omega
    · cases b
      · have := ih.2.1.1 hc; simp; omega
      · have := ih.1.1 hc; simp; omega

theorem cmpGeN_spec (x y : List Word) (h : x.length = y.length) : cmpGeN x y = true ↔ val y ≤ val x := by
  have := cmpGeGo_spec x y h
  unfold cmpGeN
  rcases hc : cmpGeGo x y with _ | b
  · have := this.2.2.1 hc; simp; omega
  · cases b
    · have := this.2.1.1 hc; simp; omega
    · have := this.1.1 hc; simp; omega

theorem cmpN_spec : ∀ (x y : List Word), x.length = y.length →
    cmpN x y = if val x < val y then -1 else if val x = val y then 0 else 1
  | [], [], _ => by simp [cmpN]
  | x :: xs, y :: ys, h => by
    have ih := cmpN_spec xs ys (by simpa using h)
    have hx := x.isLt; have hy := y.isLt
    simp only [cmpN, val_cons]
    rw [ih]
    have hxy : x = y ↔ x.toNat = y.toNat := ⟨fun h => by rw [h], BitVec.eq_of_toNat_eq⟩
    simp only [GT.gt, BitVec.lt_def, ne_eq, hxy]
    split <;> (try split) <;> (try split) <;> (try split) <;> (try split) <;> (try split) <;> first | rfl | omega

/-! ## real size -/

theorem realSizeGo_le (x : List Word) (n : Nat) : realSizeGo x n ≤ n := by
  induction n with
  | zero => simp [realSizeGo]
  | succ n ih => simp only [realSizeGo]; split <;> omega

theorem realSizeGo_val (x : List Word) : ∀ n, n ≤ x.length → val (x.take (realSizeGo x n)) = val (x.take n)
  | 0, _ => by simp [realSizeGo]
  | n+1, h => by
    simp only [realSizeGo]
    split
    · rfl
    · rename_i hz
      rw [realSizeGo_val x n (by omega)]
      have hn : n < x.length := by omega
      rw [List.take_add_one, val_append]
      have : x[n]? = some x[n] := List.getElem?_eq_getElem hn
      simp [this] at hz ⊢
      simp [hz]

theorem realSizeGo_top (x : List Word) : ∀ n, n ≤ x.length → realSizeGo x n ≠ 0 →
    x[realSizeGo x n - 1]?.getD 0 ≠ 0
  | 0, _, h => by simp [realSizeGo] at h
  | n+1, h, hne => by
    simp only [realSizeGo] at hne ⊢
    split
    · rename_i hz; simpa using hz
    · rename_i hz
      rw [if_neg hz] at hne
      exact realSizeGo_top x n (by omega) hne

theorem getRealSize_pos (x : List Word) : 0 < getRealSize x := by
  unfold getRealSize; simp only; split <;> omega

theorem getRealSize_le (x : List Word) (h : x ≠ []) : getRealSize x ≤ x.length := by
  have := realSizeGo_le x x.length
  have : 0 < x.length := List.length_pos_iff.2 h
  unfold getRealSize; simp only; split <;> omega

theorem getRealSize_val (x : List Word) : val (x.take (getRealSize x)) = val x := by
  unfold getRealSize
  have h := realSizeGo_val x x.length le_rfl
  simp only [List.take_length] at h
  simp only
  split
  · exact h
  · rename_i hz
    have hz : realSizeGo x x.length = 0 := by omega
    rw [hz] at h
    simp at h
    have h' : val x = 0 := h.symm
    cases x with
    | nil => rfl
    | cons w ws => simp at h' ⊢; simp [h'.1, h'.2]

theorem getRealSize_top (x : List Word) (h : 1 < getRealSize x) :
    x[getRealSize x - 1]?.getD 0 ≠ 0 := by
  unfold getRealSize at h ⊢
  simp only at h ⊢
  split at h
  · rename_i h1
    rw [if_pos h1]
    exact realSizeGo_top x _ le_rfl (by omega)
  · omega

/-! ## addition and subtraction -/

@[simp] theorem addGo_length : ∀ (x y : List Word) (c : DWord), x.length = y.length → (addGo x y c).1.length = x.length
  | [], [], _, _ => by simp [addGo]
  | x :: xs, y :: ys, c, h => by simp [addGo]; exact addGo_length xs ys _ (by simpa using h)

theorem addGo_spec : ∀ (x y : List Word) (c : DWord), x.length = y.length → c.toNat ≤ 1 →
    val (addGo x y c).1 + B x.length * (addGo x y c).2.toNat = val x + val y + c.toNat ∧ (addGo x y c).2.toNat ≤ 1
  | [], [], c, _, hc => by simp [addGo]; omega
  | x :: xs, y :: ys, c, h, hc => by
    have hx := x.isLt; have hy := y.isLt
    simp only [addGo, val_cons, List.length_cons, B_succ]
    set v : DWord := x.setWidth 64 + y.setWidth 64 + c with hv
    have hvn : v.toNat = x.toNat + y.toNat + c.toNat := by
      simp [hv, BitVec.toNat_add]; omega
    have hs : (v >>> 32).toNat = v.toNat / 4294967296 := by simp [BitVec.toNat_ushiftRight, Nat.shiftRight_eq_div_pow]
    obtain ⟨ih, ih2⟩ := addGo_spec xs ys (v >>> 32) (by simpa using h) (by omega)
    refine ⟨?_, ih2⟩
    simp only [BitVec.toNat_setWidth]
    rw [hs] at ih
    generalize (addGo xs ys (v >>> 32)).2.toNat = k at *
    generalize val (addGo xs ys (v >>> 32)).1 = z at *
    have : 4294967296 * B xs.length * k = 4294967296 * (B xs.length * k) := by ring
    rw [this]
    generalize B xs.length * k = m at *
    omega

theorem addN_length (x y : List Word) (h : x.length = y.length) : (addN x y).1.length = x.length := by
  simp [addN, h]

theorem addN_spec (x y : List Word) (h : x.length = y.length) :
    val (addN x y).1 + B x.length * (addN x y).2.toNat = val x + val y ∧ (addN x y).2.toNat ≤ 1 := by
  have := addGo_spec x y 0 h (by simp); simpa [addN] using this

@[simp] theorem subGo_length : ∀ (x y : List Word) (c : DWord), x.length = y.length → (subGo x y c).1.length = x.length
  | [], [], _, _ => by simp [subGo]
  | x :: xs, y :: ys, c, h => by simp [subGo]; exact subGo_length xs ys _ (by simpa using h)

theorem subGo_spec : ∀ (x y : List Word) (c : DWord), x.length = y.length → c.toNat ≤ 1 →
    val (subGo x y c).1 + val y + c.toNat = val x + B x.length * (subGo x y c).2.toNat ∧ (subGo x y c).2.toNat ≤ 1
  | [], [], c, _, hc => by simp [subGo]; omega
  | x :: xs, y :: ys, c, h, hc => by
    have hx := x.isLt; have hy := y.isLt
    simp only [subGo, val_cons, List.length_cons, B_succ]
    set v : DWord := x.setWidth 64 - y.setWidth 64 - c with hv
    have hvn : v.toNat = (x.toNat + 2^64 - y.toNat - c.toNat) % 2^64 := by
      simp [hv, BitVec.toNat_sub]; omega
    have hs : (v >>> 63).toNat = v.toNat / 2^63 := by simp [BitVec.toNat_ushiftRight, Nat.shiftRight_eq_div_pow]
    obtain ⟨ih, ih2⟩ := subGo_spec xs ys (v >>> 63) (by simpa using h) (by omega)
    refine ⟨?_, ih2⟩
    simp only [BitVec.toNat_setWidth]
    rw [hs] at ih
    generalize (subGo xs ys (v >>> 63)).2.toNat = k at *
    generalize val (subGo xs ys (v >>> 63)).1 = z at *
    have : 4294967296 * B xs.length * k = 4294967296 * (B xs.length * k) := by ring
    rw [this]
    generalize B xs.length * k = m at *
    omega

theorem subN_length (x y : List Word) (h : x.length = y.length) : (subN x y).1.length = x.length := by
  simp [subN, h]

theorem subN_spec (x y : List Word) (h : x.length = y.length) :
    val (subN x y).1 + val y = val x + B x.length * (subN x y).2.toNat ∧ (subN x y).2.toNat ≤ 1 := by
  have := subGo_spec x y 0 h (by simp); simpa [subN] using this

theorem subN_val (x y : List Word) (h : x.length = y.length) (hle : val y ≤ val x) :
    val (subN x y).1 = val x - val y ∧ (subN x y).2.toNat = 0 := by
  obtain ⟨h1, h2⟩ := subN_spec x y h
  have hb := val_lt (subN x y).1
  rw [subN_length x y h] at hb
  have : (subN x y).2.toNat = 0 := by
    by_contra hne
    have : (subN x y).2.toNat = 1 := by omega
    rw [this] at h1; omega
  rw [this] at h1; omega

/-! ## multiplication by a word -/

@[simp] theorem mulWordGo_length (y : Word) : ∀ (x : List Word) (c : DWord), (mulWordGo y x c).1.length = x.length
  | [], _ => by simp [mulWordGo]
  | x :: xs, c => by simp [mulWordGo, mulWordGo_length y xs]

theorem mul_word_bound {x y : Nat} (hx : x < 4294967296) (hy : y < 4294967296) : x * y ≤ 4294967295 * 4294967295 := by
  nlinarith

theorem mulWordGo_spec (y : Word) : ∀ (x : List Word) (c : DWord), c.toNat < 4294967296 →
    val (mulWordGo y x c).1 + B x.length * (mulWordGo y x c).2.toNat = val x * y.toNat + c.toNat
  | [], c, hc => by simp [mulWordGo]; omega
  | x :: xs, c, hc => by
    have hx := x.isLt; have hy := y.isLt
    have hb := mul_word_bound hx hy
    simp only [mulWordGo, val_cons, List.length_cons, B_succ]
    set v : DWord := x.setWidth 64 * y.setWidth 64 + c with hv
    have hvn : v.toNat = x.toNat * y.toNat + c.toNat := by
      simp only [hv, BitVec.toNat_add, BitVec.toNat_mul, BitVec.toNat_setWidth]
      rw [Nat.mod_eq_of_lt (a := x.toNat) (by omega), Nat.mod_eq_of_lt (a := y.toNat) (by omega)]
      omega
    have hs : (v >>> 32).toNat = v.toNat / 4294967296 := by simp [BitVec.toNat_ushiftRight, Nat.shiftRight_eq_div_pow]
    have ih := mulWordGo_spec y xs (v >>> 32) (by omega)
    simp only [BitVec.toNat_setWidth]
    rw [hs, hvn] at ih
    rw [hvn]
    generalize (mulWordGo y xs (v >>> 32)).2.toNat = k at *
    generalize val (mulWordGo y xs (v >>> 32)).1 = z at *
    rw [add_mul, mul_assoc, mul_assoc]
    generalize B xs.length * k = m at *
    generalize x.toNat * y.toNat = xy at *
    generalize val xs * y.toNat = xsy at *
    omega

theorem mulWordN_length (x : List Word) (y : Word) : (mulWordN x y).1.length = x.length := by simp [mulWordN]

theorem mulWordN_spec (x : List Word) (y : Word) :
    val (mulWordN x y).1 + B x.length * (mulWordN x y).2.toNat = val x * y.toNat := by
  have := mulWordGo_spec y x 0 (by simp); simpa [mulWordN] using this

@[simp] theorem mulWordAddGo_length (y : Word) : ∀ (z x : List Word) (c : DWord), z.length = x.length →
    (mulWordAddGo y z x c).1.length = x.length
  | [], [], _, _ => by simp [mulWordAddGo]
  | z :: zs, x :: xs, c, h => by simp [mulWordAddGo]; exact mulWordAddGo_length y zs xs _ (by simpa using h)

theorem mulWordAddGo_spec (y : Word) : ∀ (z x : List Word) (c : DWord), z.length = x.length → c.toNat < 4294967296 →
    val (mulWordAddGo y z x c).1 + B x.length * (mulWordAddGo y z x c).2.toNat = val x * y.toNat + c.toNat + val z
  | [], [], c, _, hc => by simp [mulWordAddGo]; omega
  | z :: zs, x :: xs, c, h, hc => by
    have hx := x.isLt; have hy := y.isLt; have hz := z.isLt
    have hb := mul_word_bound hx hy
    simp only [mulWordAddGo, val_cons, List.length_cons, B_succ]
    set v : DWord := x.setWidth 64 * y.setWidth 64 + c + z.setWidth 64 with hv
    have hvn : v.toNat = x.toNat * y.toNat + c.toNat + z.toNat := by
      simp only [hv, BitVec.toNat_add, BitVec.toNat_mul, BitVec.toNat_setWidth]
      rw [Nat.mod_eq_of_lt (a := x.toNat) (by omega), Nat.mod_eq_of_lt (a := y.toNat) (by omega)]
      omega
    have hs : (v >>> 32).toNat = v.toNat / 4294967296 := by simp [BitVec.toNat_ushiftRight, Nat.shiftRight_eq_div_pow]
    have ih := mulWordAddGo_spec y zs xs (v >>> 32) (by simpa using h) (by omega)
    simp only [BitVec.toNat_setWidth]
    rw [hs, hvn] at ih
    rw [hvn]
    generalize (mulWordAddGo y zs xs (v >>> 32)).2.toNat = k at *
    generalize val (mulWordAddGo y zs xs (v >>> 32)).1 = w at *
    rw [add_mul, mul_assoc, mul_assoc]
    generalize B xs.length * k = m at *
    generalize x.toNat * y.toNat = xy at *
    generalize val xs * y.toNat = xsy at *
    omega

theorem mulWordAddN_length (z x : List Word) (y : Word) (h : z.length = x.length) :
    (mulWordAddN z x y).1.length = x.length := by simp [mulWordAddN, h]

theorem mulWordAddN_spec (z x : List Word) (y : Word) (h : z.length = x.length) :
    val (mulWordAddN z x y).1 + B x.length * (mulWordAddN z x y).2.toNat = val x * y.toNat + val z := by
  have := mulWordAddGo_spec y z x 0 h (by simp); simpa [mulWordAddN] using this

theorem mulRows_spec (x : List Word) (hx : x ≠ []) : ∀ (ys z : List Word), z.length = x.length →
    (mulRows x ys z).length = x.length + ys.length ∧ val (mulRows x ys z) = val z + val x * val ys
  | [], z, h => by simp [mulRows, h]
  | y :: ys, z, h => by
    have hl := mulWordAddN_length z x y h
    have hs := mulWordAddN_spec z x y h
    have hpos : 0 < x.length := List.length_pos_iff.2 hx
    simp only [mulRows]
    rcases hr : (mulWordAddN z x y).1 with _ | ⟨z0, zs⟩
    · rw [hr] at hl; simp at hl; omega
    · rw [hr] at hl hs
      simp only [List.length_cons, val_cons] at hl hs
      obtain ⟨i1, i2⟩ := mulRows_spec x hx ys (zs ++ [(mulWordAddN z x y).2]) (by simp; omega)
      simp only [List.length_cons, val_cons]
      refine ⟨by omega, ?_⟩
      rw [i2, val_append, val_singleton]
      have e : B x.length = 4294967296 * B zs.length := by rw [← hl, B_succ]
      rw [e] at hs
      have : val x * (y.toNat + 4294967296 * val ys) = val x * y.toNat + 4294967296 * (val x * val ys) := by ring
      rw [this]
      have : 4294967296 * (val zs + B zs.length * (mulWordAddN z x y).2.toNat + val x * val ys)
        = 4294967296 * val zs + 4294967296 * B zs.length * (mulWordAddN z x y).2.toNat + 4294967296 * (val x * val ys) := by ring
      omega

theorem mulNMge_spec (x y : List Word) (hx : x ≠ []) (hy : y ≠ []) :
    (mulNMge x y).length = x.length + y.length ∧ val (mulNMge x y) = val x * val y := by
  rcases y with _ | ⟨y0, ys⟩
  · exact absurd rfl hy
  have hl := mulWordN_length x y0
  have hs := mulWordN_spec x y0
  have hpos : 0 < x.length := List.length_pos_iff.2 hx
  unfold mulNMge
  rcases hz : (mulWordN x y0).1 with _ | ⟨z0, zs⟩
  · rw [hz] at hl; simp at hl; omega
  · rw [hz] at hl hs
    simp only [List.length_cons, val_cons] at hl hs
    obtain ⟨i1, i2⟩ := mulRows_spec x hx ys (zs ++ [(mulWordN x y0).2]) (by simp; omega)
    simp only [List.length_cons, val_cons, hz]
    refine ⟨by omega, ?_⟩
    rw [i2, val_append, val_singleton]
    have e : B x.length = 4294967296 * B zs.length := by rw [← hl, B_succ]
    rw [e] at hs
    have : val x * (y0.toNat + 4294967296 * val ys) = val x * y0.toNat + 4294967296 * (val x * val ys) := by ring
    rw [this]
    have : 4294967296 * (val zs + B zs.length * (mulWordN x y0).2.toNat + val x * val ys)
      = 4294967296 * val zs + 4294967296 * B zs.length * (mulWordN x y0).2.toNat + 4294967296 * (val x * val ys) := by ring
    omega

theorem mulNM_spec (x y : List Word) (hx : x ≠ []) (hy : y ≠ []) :
    (mulNM x y).length = x.length + y.length ∧ val (mulNM x y) = val x * val y := by
  unfold mulNM
  split
  · obtain ⟨a, b⟩ := mulNMge_spec y x hy hx
    exact ⟨by omega, by rw [b]; ring⟩
  · exact mulNMge_spec x y hx hy

/-! ## shifts -/

theorem shl_or_word (x low : Word) (bit : Nat) (h0 : 0 < bit) (h : bit < 32) :
    ((x <<< bit) ||| (low >>> (32 - bit))).toNat = (x.toNat * 2^bit) % 2^32 + low.toNat / 2^(32-bit) := by
  have hl := low.isLt
  rw [BitVec.toNat_or, BitVec.toNat_shiftLeft, BitVec.toNat_ushiftRight, Nat.shiftLeft_eq, Nat.shiftRight_eq_div_pow]
  have hlt : low.toNat / 2^(32-bit) < 2^bit := by
    rw [Nat.div_lt_iff_lt_mul (by positivity), ← pow_add]
    rw [show bit + (32 - bit) = 32 by omega]; exact hl
  have hm : x.toNat * 2^bit % 2^32 = (x.toNat % 2^(32-bit)) * 2^bit := by
    conv_lhs => rw [show (2:Nat)^32 = 2^(32-bit) * 2^bit by rw [← pow_add]; congr 1; omega]
    rw [Nat.mul_mod_mul_right]
  rw [hm, mul_comm (x.toNat % _), ← Nat.two_pow_add_eq_or_of_lt hlt]

theorem shlGo_length (bit : Nat) : ∀ (low : Word) (x : List Word), (shlGo bit low x).1.length = x.length
  | _, [] => by simp [shlGo]
  | low, x :: xs => by simp [shlGo, shlGo_length bit x xs]

theorem shlGo_spec (bit : Nat) (h0 : 0 < bit) (h : bit < 32) : ∀ (low : Word) (x : List Word),
    val (shlGo bit low x).1 + B x.length * (shlGo bit low x).2.toNat = val x * 2^bit + low.toNat / 2^(32-bit)
  | low, [] => by simp [shlGo, BitVec.toNat_ushiftRight, Nat.shiftRight_eq_div_pow]
  | low, x :: xs => by
    have ih := shlGo_spec bit h0 h x xs
    simp only [shlGo, val_cons, List.length_cons, B_succ, shl_or_word x low bit h0 h]
    have key : x.toNat * 2^bit = (x.toNat * 2^bit) % 2^32 + 2^32 * (x.toNat / 2^(32-bit)) := by
      have : x.toNat / 2^(32-bit) = (x.toNat * 2^bit) / 2^32 := by
        conv_rhs => rw [show (2:Nat)^32 = 2^(32-bit) * 2^bit by rw [← pow_add]; congr 1; omega]
        rw [Nat.mul_div_mul_right _ _ (by positivity)]
      rw [this]; exact (Nat.mod_add_div _ _).symm
    rw [add_mul, key, mul_assoc, mul_assoc]
    norm_num at *
    generalize (x.toNat * 2^bit) % 4294967296 = a at *
    generalize x.toNat / 2^(32-bit) = b at *
    generalize low.toNat / 2^(32-bit) = c at *
    generalize B xs.length * _ = m at *
    generalize val xs * 2^bit = n at *
    omega

theorem shlGo_top_lt (bit : Nat) (h : bit < 32) : ∀ (low : Word) (x : List Word),
    (shlGo bit low x).2.toNat < 2^bit
  | low, [] => by
    simp only [shlGo, BitVec.toNat_ushiftRight, Nat.shiftRight_eq_div_pow]
    rw [Nat.div_lt_iff_lt_mul (by positivity), ← pow_add]
    rw [show bit + (32 - bit) = 32 by omega]; exact low.isLt
  | low, x :: xs => by simpa [shlGo] using shlGo_top_lt bit h x xs

theorem shlN_length (x : List Word) (bit : Nat) : (shlN x bit).1.length = x.length := shlGo_length _ _ _

theorem shlN_spec (x : List Word) (bit : Nat) (h0 : 0 < bit) (h : bit < 32) :
    val (shlN x bit).1 + B x.length * (shlN x bit).2.toNat = val x * 2^bit := by
  have := shlGo_spec bit h0 h 0 x; simpa [shlN] using this

theorem shrN_length (bit : Nat) : ∀ x : List Word, (shrN bit x).length = x.length
  | [] => rfl
  | [x] => rfl
  | x :: t :: xs => by simp [shrN, shrN_length bit (t :: xs)]

theorem shr_or_word (x t : Word) (bit : Nat) (h0 : 0 < bit) (h : bit < 32) :
    ((x >>> bit) ||| (t <<< (32 - bit))).toNat = x.toNat / 2^bit + (t.toNat % 2^bit) * 2^(32-bit) := by
  have := shl_or_word t x (32 - bit) (by omega) (by omega)
  rw [show 32 - (32 - bit) = bit by omega] at this
  rw [BitVec.or_comm, this, add_comm]
  congr 1
  conv_lhs => rw [show (2:Nat)^32 = 2^bit * 2^(32-bit) by rw [← pow_add]; congr 1; omega]
  rw [Nat.mul_mod_mul_right]

theorem shrN_spec (bit : Nat) (h0 : 0 < bit) (h : bit < 32) : ∀ x : List Word, val (shrN bit x) = val x / 2^bit
  | [] => by simp [shrN]
  | [x] => by simp [shrN, BitVec.toNat_ushiftRight, Nat.shiftRight_eq_div_pow]
  | x :: t :: xs => by
    have ih := shrN_spec bit h0 h (t :: xs)
    have e32 : (4294967296 : Nat) = 2^(32-bit) * 2^bit := by rw [← pow_add]; rw [show 32 - bit + bit = 32 by omega]; norm_num
    have hpos : 0 < 2^bit := by positivity
    have hd : val (x :: t :: xs) / 2^bit = x.toNat / 2^bit + 2^(32-bit) * val (t :: xs) := by
      rw [val_cons, e32, show 2^(32-bit) * 2^bit * val (t::xs) = 2^bit * (2^(32-bit) * val (t :: xs)) by ring]
      rw [Nat.add_mul_div_left _ _ hpos]
    rw [hd]
    have hsplit : val (t :: xs) = 2^bit * (val (t :: xs) / 2^bit) + t.toNat % 2^bit := by
      have := (Nat.div_add_mod (val (t::xs)) (2^bit)).symm
      have h2 : val (t :: xs) % 2^bit = t.toNat % 2^bit := by
        rw [val_cons, e32, show 2^(32-bit) * 2^bit * val xs = 2^bit * (2^(32-bit) * val xs) by ring,
          Nat.add_mul_mod_self_left]
      rw [h2] at this; exact this
    rw [show shrN bit (x :: t :: xs) = ((x >>> bit) ||| (t <<< (32 - bit))) :: shrN bit (t :: xs) from rfl]
    rw [val_cons, shr_or_word x t bit h0 h, ih]
    conv_rhs => rw [hsplit]
    rw [e32]; ring

theorem shiftLeft_spec (x : List Word) (bit : Nat) : val (shiftLeft x bit) = val x * 2^bit := by
  have e : 2^bit = B (bit/32) * 2^(bit%32) := by rw [B_eq, ← pow_add, Nat.div_add_mod]
  unfold shiftLeft
  simp only
  split
  · rename_i h
    rw [val_append, e, h]; simp; ring
  · rename_i h
    have := shlN_spec x (bit%32) (by omega) (by omega)
    rw [val_append, val_append, shlN_length, e]
    simp only [List.length_replicate, val_replicate_zero, val_singleton, zero_add]
    rw [this]; ring

theorem shiftLeft_length (x : List Word) (bit : Nat) :
    (shiftLeft x bit).length = x.length + (bit + 31) / 32 := by
  unfold shiftLeft
  simp only
  split
  · simp; omega
  · simp [shlN_length]; omega

theorem val_drop (n : Nat) (x : List Word) : val (x.drop n) = val x / B n := by
  by_cases h : n ≤ x.length
  · rw [val_take_drop n x h, Nat.add_mul_div_left _ _ (B_pos n)]
    have : val (x.take n) < B n := by have := val_lt (x.take n); simpa [h] using this
    rw [Nat.div_eq_of_lt this]; omega
  · rw [List.drop_eq_nil_of_le (by omega)]
    rw [Nat.div_eq_of_lt]
    · rfl
    · exact lt_of_lt_of_le (val_lt x) (B_le (by omega))

theorem val_take (n : Nat) (x : List Word) : val (x.take n) = val x % B n := by
  by_cases h : n ≤ x.length
  · rw [val_take_drop n x h, Nat.add_mul_mod_self_left]
    have : val (x.take n) < B n := by have := val_lt (x.take n); simpa [h] using this
    rw [Nat.mod_eq_of_lt this]
  · rw [List.take_of_length_le (by omega), Nat.mod_eq_of_lt]
    exact lt_of_lt_of_le (val_lt x) (B_le (by omega))

theorem shiftRight_spec (x : List Word) (bit : Nat) : val (shiftRight x bit) = val x / 2^bit := by
  have e : 2^bit = B (bit/32) * 2^(bit%32) := by rw [B_eq, ← pow_add, Nat.div_add_mod]
  unfold shiftRight
  simp only
  split
  · rename_i h
    rw [val_drop, e, h]; simp
  · rename_i h
    rw [shrN_spec _ (by omega) (by omega), val_drop, Nat.div_div_eq_div_mul, ← e]

theorem shiftRight_length (x : List Word) (bit : Nat) : (shiftRight x bit).length = x.length - bit / 32 := by
  unfold shiftRight; simp only; split <;> simp [shrN_length]

/-! ## adding and subtracting a word -/

theorem incGo_spec : ∀ y : List Word, (incGo y).1.length = y.length ∧
    val (incGo y).1 + B y.length * (incGo y).2.toNat = val y + 1 ∧ (incGo y).2.toNat ≤ 1
  | [] => by simp [incGo]
  | y :: ys => by
    have hy := y.isLt
    obtain ⟨i1, i2, i3⟩ := incGo_spec ys
    have ht : (y + 1).toNat = (y.toNat + 1) % 4294967296 := by simp [BitVec.toNat_add]
    have hz : (y + 1 = 0) ↔ (y+1).toNat = 0 := ⟨fun h => by rw [h]; rfl, fun h => BitVec.eq_of_toNat_eq (by simpa using h)⟩
    simp only [incGo, ne_eq, hz]
    split
    · simp; omega
    · rename_i h
      simp only [List.length_cons, val_cons, B_succ, mul_assoc]
      generalize B ys.length * _ = m at *
      omega

theorem addWord_spec (y : List Word) (x : Word) (hy : y ≠ []) : (addWord y x).1.length = y.length ∧
    val (addWord y x).1 + B y.length * (addWord y x).2.toNat = val y + x.toNat ∧ (addWord y x).2.toNat ≤ 1 := by
  rcases y with _ | ⟨y0, ys⟩
  · exact absurd rfl hy
  have hx := x.isLt; have hy := y0.isLt
  obtain ⟨i1, i2, i3⟩ := incGo_spec ys
  have ht : (y0 + x).toNat = (y0.toNat + x.toNat) % 4294967296 := by simp [BitVec.toNat_add]
  simp only [addWord, GE.ge, BitVec.le_def]
  split
  · simp; omega
  · simp only [List.length_cons, val_cons, B_succ, mul_assoc]
    generalize B ys.length * _ = m at *
    omega

theorem decGo_spec : ∀ y : List Word, (decGo y).1.length = y.length ∧
    val (decGo y).1 + 1 = val y + B y.length * (decGo y).2.toNat ∧ (decGo y).2.toNat ≤ 1
  | [] => by simp [decGo]
  | y :: ys => by
    have hy := y.isLt
    obtain ⟨i1, i2, i3⟩ := decGo_spec ys
    have ht : (y - 1).toNat = (y.toNat + 4294967295) % 4294967296 := by simp [BitVec.toNat_sub, add_comm]
    have hz : (y = 0) ↔ y.toNat = 0 := ⟨fun h => by rw [h]; rfl, fun h => BitVec.eq_of_toNat_eq (by simpa using h)⟩
    simp only [decGo, ne_eq, hz]
    split
    · simp only [List.length_cons, val_cons]; simp; omega
    · rename_i h
      simp only [List.length_cons, val_cons, B_succ, mul_assoc]
      generalize B ys.length * _ = m at *
      omega

theorem subWord_spec (y : List Word) (x : Word) (hy : y ≠ []) : (subWord y x).1.length = y.length ∧
    val (subWord y x).1 + x.toNat = val y + B y.length * (subWord y x).2.toNat ∧ (subWord y x).2.toNat ≤ 1 := by
  rcases y with _ | ⟨y0, ys⟩
  · exact absurd rfl hy
  have hx := x.isLt; have hy := y0.isLt
  obtain ⟨i1, i2, i3⟩ := decGo_spec ys
  have ht : (y0 - x).toNat = (4294967296 - x.toNat + y0.toNat) % 4294967296 := by simp [BitVec.toNat_sub]
  simp only [subWord, GE.ge, BitVec.le_def]
  split
  · simp only [List.length_cons, val_cons]; simp; omega
  · simp only [List.length_cons, val_cons, B_succ, mul_assoc]
    generalize B ys.length * _ = m at *
    omega

/-! ## division by a word -/

theorem divWord1_spec (h l y : Word) (hy : h.toNat < y.toNat) :
    (divWord1 h l y).1.toNat = (h.toNat * 4294967296 + l.toNat) / y.toNat ∧
    (divWord1 h l y).2.toNat = (h.toNat * 4294967296 + l.toNat) % y.toNat := by
  have hh := h.isLt; have hl := l.isLt; have hyy := y.isLt
  have ht : ((h.setWidth 64 <<< 32) ||| l.setWidth 64 : DWord).toNat = h.toNat * 4294967296 + l.toNat := by
    rw [BitVec.toNat_or, BitVec.toNat_shiftLeft, Nat.shiftLeft_eq]
    simp only [BitVec.toNat_setWidth]
    rw [Nat.mod_eq_of_lt (a := h.toNat) (by omega), Nat.mod_eq_of_lt (a := l.toNat) (by omega)]
    rw [Nat.mod_eq_of_lt (by norm_num; omega), mul_comm, ← Nat.two_pow_add_eq_or_of_lt hl]
  have hys : (y.setWidth 64 : DWord).toNat = y.toNat := by simp; omega
  simp only [divWord1, BitVec.toNat_setWidth, BitVec.toNat_udiv, BitVec.toNat_umod, ht]
  rw [Nat.mod_eq_of_lt (a := y.toNat) (by omega)]
  constructor
  · apply Nat.mod_eq_of_lt
    rw [Nat.div_lt_iff_lt_mul (by omega)]
    nlinarith
  · apply Nat.mod_eq_of_lt
    exact lt_trans (Nat.mod_lt _ (by omega)) hyy

theorem divWordGo_spec (y : Word) (hy : 0 < y.toNat) : ∀ x : List Word,
    (divWordGo y x).1.length = x.length ∧ val (divWordGo y x).1 = val x / y.toNat ∧
    (divWordGo y x).2.toNat = val x % y.toNat
  | [] => by simp [divWordGo]
  | x :: xs => by
    obtain ⟨i1, i2, i3⟩ := divWordGo_spec y hy xs
    have hr : (divWordGo y xs).2.toNat < y.toNat := by rw [i3]; exact Nat.mod_lt _ hy
    obtain ⟨d1, d2⟩ := divWord1_spec (divWordGo y xs).2 x y hr
    simp only [divWordGo, List.length_cons, val_cons, i1, d1, d2, i2, i3]
    have e : x.toNat + 4294967296 * val xs
        = (val xs % y.toNat * 4294967296 + x.toNat) + y.toNat * (4294967296 * (val xs / y.toNat)) := by
      have := Nat.mod_add_div (val xs) y.toNat
      calc x.toNat + 4294967296 * val xs = x.toNat + 4294967296 * (val xs % y.toNat + y.toNat * (val xs / y.toNat)) := by rw [this]
        _ = _ := by ring
    rw [e, Nat.add_mul_div_left _ _ hy, Nat.add_mul_mod_self_left]
    simp

end Ack
