import Verif.Props.BigArith
/-!
# Properties of byte strings, bits and the non-adjacent form (C10-C12, C14)
-/
namespace Ack.Props
open Ack Ack.Big

/-! ## C10 -/

/-- C10: construction from a byte string of any length gives the number it denotes in base 256. -/
theorem C10_import (d : List (BitVec 8)) : ∃ x, ofBytes none d = .ok x ∧ x.Canon ∧ x.toInt = beVal d := by
  obtain ⟨x, e, c, -, -, v⟩ := setBytes_spec none d rfl rfl
  exact ⟨x, by unfold ofBytes; rw [e], c, v⟩

/-- C10: on a fixed capacity the construction gives the number or aborts, and it aborts exactly when the words needed
for the (unstripped) byte string exceed the capacity. -/
theorem C10_import_fixed (N : Nat) (hN : 0 < N) (d : List (BitVec 8)) :
    (4 * N < d.length ∧ ofBytes (some N) d = .error .abort) ∨
    (d.length ≤ 4 * N ∧ ∃ x, ofBytes (some N) d = .ok x ∧ x.Canon ∧ x.toInt = beVal d) := by
  have h1 : Cap.fits (some N) 1 = true := by rw [fits_iff]; intro M hM; cases hM; omega
  by_cases h : d.length ≤ 4 * N
  · right
    have hf : Cap.fits (some N) (wordSize d.length) = true := by
      rw [fits_iff]; intro M hM; cases hM; unfold wordSize; omega
    obtain ⟨x, e, c, -, -, v⟩ := setBytes_spec (some N) d hf h1
    exact ⟨h, x, by unfold ofBytes; rw [e], c, v⟩
  · left
    have hf : Cap.fits (some N) (wordSize d.length) = false := by
      rw [← Bool.not_eq_true, fits_iff]; intro hh; have := hh N rfl; unfold wordSize at this; omega
    have hd : d ≠ [] := by rintro rfl; simp at h
    exact ⟨by omega, by unfold ofBytes; rw [setBytes_none _ d hd hf]⟩

/-- C10: `to_bytes` denotes the magnitude and no non-empty byte string denoting it is shorter. -/
theorem C10_export (x : Big) (hx : x.Canon) :
    (beVal (toBytes x) : Int) = |x.toInt| ∧ toBytes x ≠ [] ∧
    ∀ d : List (BitVec 8), d ≠ [] → (beVal d : Int) = |x.toInt| → (toBytes x).length ≤ d.length := by
  obtain ⟨l, v⟩ := toBytes_spec hx
  have ha : |x.toInt| = (val x.ws : Int) := by rw [Int.abs_eq_natAbs, natAbs_toInt]
  refine ⟨by rw [v, ha], ?_, ?_⟩
  · intro h; rw [h] at l; have := byteLength_pos hx; simp at l; omega
  · intro d hd hv
    rw [ha] at hv
    have hv : beVal d = val x.ws := by exact_mod_cast hv
    rw [l]
    apply byteLength_le hx _ (List.length_pos_iff.2 hd)
    rw [← hv]; exact beVal_lt d

/-- C10: importing an exported number gives the magnitude back. -/
theorem C10_roundtrip (x : Big) (hx : x.Canon) : ofBytes none (toBytes x) = .ok (abs x) := by
  obtain ⟨z, e, cz, fz, nz, vz⟩ := setBytes_spec none (toBytes x) rfl rfl
  have : z = abs x := by
    obtain ⟨zn, zw⟩ := z
    simp only at nz; subst nz
    have hw : zw = x.ws := by
      apply CanonW.ext cz.w hx.w
      rw [toInt_of_nonneg rfl, (toBytes_spec hx).2] at vz
      exact_mod_cast vz
    subst hw; rfl
  unfold ofBytes; rw [e, this]

/-- C10: a byte string without leading zero byte (or the single byte 0) is what export gives after import. -/
theorem C10_roundtrip_bytes (d : List (BitVec 8)) (hd : d ≠ []) (h0 : d.headD 0 ≠ 0 ∨ d.length = 1) :
    ∃ x, ofBytes none d = .ok x ∧ toBytes x = d := by
  obtain ⟨x, e, c, v⟩ := C10_import d
  refine ⟨x, e, ?_⟩
  obtain ⟨a, -, b⟩ := C10_export x c
  have hn : (|x.toInt| : Int) = beVal d := by rw [v]; exact abs_of_nonneg (Int.natCast_nonneg _)
  rw [hn] at a b
  have a' : beVal (toBytes x) = beVal d := by exact_mod_cast a
  have hle := b d hd rfl
  have hpos : 0 < (toBytes x).length := by rw [(toBytes_spec c).1]; exact byteLength_pos c
  have hge : d.length ≤ (toBytes x).length := by
    rcases h0 with h0 | h0
    · by_contra hlt
      match d, hd with
      | b0 :: t, _ =>
        have h1 := beVal_lt (toBytes x)
        have h2 : (toBytes x).length ≤ t.length := by simp at hlt; omega
        have h3 : (256:Nat) ^ (toBytes x).length ≤ 256 ^ t.length := Nat.pow_le_pow_right (by norm_num) h2
        have h4 : 1 ≤ b0.toNat := by
          have : b0 ≠ 0 := h0
          rw [ne_eq, ← BitVec.toNat_inj] at this
          simp at this; omega
        have h5 : 1 * 256 ^ t.length ≤ b0.toNat * 256 ^ t.length := Nat.mul_le_mul_right _ h4
        rw [a'] at h1
        simp only [beVal] at h1
        omega
    · omega
  exact beVal_inj (by omega) a'

example : exB.Canon ∧ toBytes exB = [7, 0xff, 0xff, 0xff, 0xfe, 0, 0, 0, 0] ∧ ofBytes none [0, 0, 1, 2, 3, 4, 5] = .ok ⟨false, [0x02030405, 1]⟩ ∧
    ofBytes (some 1) [0, 1, 2, 3, 4] = .error .abort := by decide

/-! ## C11 -/

/-- C11: `get_bytes` into a buffer `d`: it succeeds exactly when the magnitude fits into `d` (and `d` is not empty); then
the buffer keeps its length, its first `byte_length` bytes denote the magnitude, and the other bytes are untouched. -/
theorem C11_get_bytes (x : Big) (hx : x.Canon) (d : List (BitVec 8)) :
    ((getBytes x d).isSome = true ↔ d ≠ [] ∧ |x.toInt| < 256 ^ d.length) ∧
    ∀ o, getBytes x d = some o → o.length = d.length ∧ (beVal (o.take x.byteLength) : Int) = |x.toInt| ∧
      o.drop x.byteLength = d.drop x.byteLength := by
  obtain ⟨h1, h2⟩ := getBytes_spec hx d
  have ha : |x.toInt| = (val x.ws : Int) := by rw [Int.abs_eq_natAbs, natAbs_toInt]
  have hcast : (|x.toInt| < 256 ^ d.length) ↔ val x.ws < 256 ^ d.length := by rw [ha]; exact_mod_cast Iff.rfl
  rw [hcast]
  by_cases h : x.byteLength ≤ d.length
  · obtain ⟨o, e, l, v, t⟩ := h1 h
    have := byteLength_pos hx
    refine ⟨⟨fun _ => ⟨by rintro rfl; simp at h; omega, ?_⟩, fun _ => by rw [e]; rfl⟩, ?_⟩
    · exact lt_of_lt_of_le (lt_byteLength hx) (Nat.pow_le_pow_right (by norm_num) h)
    · intro o' e'; rw [e] at e'; cases e'; exact ⟨l, by rw [v, ha], t⟩
  · have e := h2 (by omega)
    refine ⟨⟨fun hh => by (rw [e] at hh; cases hh), fun ⟨hd, hv⟩ => ?_⟩, ?_⟩
    · exact absurd (byteLength_le hx _ (List.length_pos_iff.2 hd) hv) h
    · intro o' e'; rw [e] at e'; cases e'

example : exA.Canon ∧ getBytes exA [9, 9, 9, 9] = none ∧ getBytes exA [9, 9, 9, 9, 9, 9] = some [1, 0xff, 0xff, 0xff, 0xff, 9] := by decide

/-! ## C12 -/

/-- C12: `bit_length` is one more than the position of the highest set bit, and 1 for zero. -/
theorem C12_bit_length (x : Big) (hx : x.Canon) :
    (x.toInt = 0 → x.bitLength = 1) ∧
    (x.toInt ≠ 0 → 0 < x.bitLength ∧ x.toInt.natAbs.testBit (x.bitLength - 1) = true ∧
      ∀ i, x.bitLength ≤ i → x.toInt.natAbs.testBit i = false) := by
  have hb := bitLength_spec hx
  rw [natAbs_toInt]
  constructor
  · intro h; rw [hb, if_pos h]
  · intro h
    rw [if_neg h] at hb
    rw [ne_eq, toInt_zero_iff] at h
    have hp : 0 < Nat.size (val x.ws) := Nat.size_pos.2 (by omega)
    have hlt := Nat.lt_size_self (val x.ws)
    have hge : 2 ^ (Nat.size (val x.ws) - 1) ≤ val x.ws := Nat.lt_size.1 (by omega)
    rw [hb]
    refine ⟨hp, ?_, ?_⟩
    · have hlt' : val x.ws < 2 ^ (Nat.size (val x.ws) - 1 + 1) := by
        rwa [show Nat.size (val x.ws) - 1 + 1 = Nat.size (val x.ws) by omega]
      generalize Nat.size (val x.ws) - 1 = k at hge hlt'
      rw [Nat.testBit_eq_decide_div_mod_eq, decide_eq_true_eq]
      have : val x.ws / 2 ^ k = 1 := by
        apply le_antisymm
        · rw [pow_succ] at hlt'
          have := Nat.div_lt_of_lt_mul hlt'; omega
        · exact (Nat.le_div_iff_mul_le (by positivity)).2 (by omega)
      rw [this]
    · intro i hi
      apply Nat.testBit_lt_two_pow
      exact lt_of_lt_of_le hlt (Nat.pow_le_pow_right (by norm_num) hi)

/-- C12: `byte_length` is the number of bytes needed. -/
theorem C12_byte_length (x : Big) (hx : x.Canon) :
    x.toInt.natAbs < 256 ^ x.byteLength ∧ 0 < x.byteLength ∧
    ∀ n, 0 < n → x.toInt.natAbs < 256 ^ n → x.byteLength ≤ n := by
  rw [natAbs_toInt]
  exact ⟨lt_byteLength hx, byteLength_pos hx, fun n h0 h => byteLength_le hx n h0 h⟩

/-- C12: `test_bit(i)` is bit `i` of the magnitude, for every `i`. -/
theorem C12_test_bit (x : Big) (i : Nat) : x.testBit i = x.toInt.natAbs.testBit i := by
  rw [natAbs_toInt]; exact testBit_spec x i

/-- C12: parity, zero, one, sign. -/
theorem C12_predicates (x : Big) (hx : x.Canon) :
    (x.isOdd = true ↔ x.toInt % 2 = 1) ∧ (x.isEven = true ↔ x.toInt % 2 = 0) ∧ (x.isZero = true ↔ x.toInt = 0) ∧
    (x.isOne = true ↔ x.toInt = 1) ∧ (x.isNegative = true ↔ x.toInt < 0) :=
  ⟨isOdd_iff x, isEven_iff x, isZero_iff hx, isOne_iff hx, isNegative_iff hx⟩

example : exB.Canon ∧ exB.bitLength = 67 ∧ exB.byteLength = 9 ∧ exB.testBit 66 = true ∧ exB.testBit 32 = false ∧
    exB.testBit 1000 = false ∧ negZero.bitLength = 1 := by decide

/-! ## C14 -/

/-- C14: the digits returned for a non-negative integer are -1, 0 or 1, no two neighbouring ones are non-zero, they
denote the integer, the leading digit is 1, and `to_rnaf` is the reverse. -/
theorem C14_naf (x : Big) (hx : x.Canon) (h0 : x.neg = false) :
    ∃ l, toNaf none x = .ok l ∧ digitsVal l = x.toInt ∧ NonAdjacent l ∧ (∀ d ∈ l, d.toInt = 0 ∨ d.toInt = 1 ∨ d.toInt = -1) ∧
      (l ≠ [] → (l.getLastD 0).toInt = 1) ∧ l.length ≤ x.bitLength + 1 ∧ toRnaf none x = .ok l.reverse := by
  obtain ⟨l, e, v, na, dg, -, top, len⟩ := nafGo_spec none x.ws.length rfl x.bitLength (x.bitLength + 2) x hx h0 le_rfl
    (lt_two_pow_bitLength hx).le le_rfl
  refine ⟨l, e, by rw [v, toInt_of_nonneg h0], na, ?_, ?_, len, by unfold toRnaf toNaf; rw [e]; rfl⟩
  · intro d hd
    rcases dg d hd with rfl | rfl | rfl <;> decide
  · intro hl; rw [show (0 : BitVec 8) = 0#8 from rfl, top hl]; decide

/-- C14: the expansion is unique: any other digit sequence of that form with a non-zero leading digit is the same. -/
theorem C14_unique : ∀ (l l' : List (BitVec 8)), NonAdjacent l → NonAdjacent l' →
    (∀ d ∈ l, d.toInt = 0 ∨ d.toInt = 1 ∨ d.toInt = -1) → (∀ d ∈ l', d.toInt = 0 ∨ d.toInt = 1 ∨ d.toInt = -1) →
    l.length = l'.length → digitsVal l = digitsVal l' → l = l'
  | [], [], _, _, _, _, _, _ => rfl
  | [], _ :: _, _, _, _, _, h, _ => by simp at h
  | _ :: _, [], _, _, _, _, h, _ => by simp at h
  | a :: l, b :: l', na, nb, da, db, hl, hv => by
    have tl : ∀ (c : BitVec 8) (m : List (BitVec 8)), NonAdjacent (c :: m) → NonAdjacent m := by
      intro c m h; cases m with
      | nil => trivial
      | cons d m => exact h.2
    have ha := da a (by simp); have hb := db b (by simp)
    have second : ∀ (c : BitVec 8) (m : List (BitVec 8)), NonAdjacent (c :: m) → c.toInt ≠ 0 → digitsVal m % 2 = 0 := by
      intro c m h hc
      cases m with
      | nil => rfl
      | cons d m =>
        have : d = 0 := by
          rcases h.1 with h | h
          · rw [h] at hc; exact absurd (by decide) hc
          · exact h
        rw [this]; simp only [digitsVal]; rw [show (0 : BitVec 8).toInt = 0 from by decide]; omega
    simp only [digitsVal] at hv
    have hab : a.toInt = b.toInt := by
      have sa := second a l na; have sb := second b l' nb
      rcases ha with h1 | h1 | h1 <;> rcases hb with h2 | h2 | h2 <;> rw [h1, h2] at hv ⊢ <;>
        simp only [h1, h2] at sa sb <;> first | rfl | (exfalso; have := sa (by decide); have := sb (by decide); omega) | (exfalso; omega)
    have : a = b := BitVec.toInt_inj.1 hab
    subst this
    rw [C14_unique l l' (tl _ _ na) (tl _ _ nb) (fun d h => da d (by simp [h])) (fun d h => db d (by simp [h])) (by simpa using hl) (by omega)]

/-- C14: a negative scalar has an empty expansion (it is treated as 0). -/
theorem C14_negative (x : Big) (h : x.neg = true) : toNaf none x = .ok [] := by
  unfold toNaf nafGo compareu1; rw [h]; rfl

example : toNaf none (ofInt32 7) = .ok [0xff, 0, 0, 1] ∧ (ofInt32 7).Canon ∧ (ofInt32 7).neg = false := by decide

end Ack.Props
