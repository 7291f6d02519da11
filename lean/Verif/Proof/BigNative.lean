import Verif.Proof.BigArith
import Mathlib.Data.Nat.Size
/-! # Operations with native integers, bitwise operations -/
namespace Ack
namespace Big

theorem cmpN_single (a b : Word) : cmpN [a] [b] = if a.toNat < b.toNat then -1 else if a.toNat = b.toNat then 0 else 1 := by
  rw [cmpN_spec [a] [b] rfl]; simp

theorem val_ge_of_two {x : Big} (hx : x.Canon) (h : 1 < x.ws.length) : 4294967296 ≤ val x.ws := by
  have h1 := hx.w.ge h
  have h2 := B_le (n := 1) (m := x.ws.length - 1) (by omega)
  have h3 : B 1 = 4294967296 := rfl
  omega

theorem toInt_bounds32 (y : BitVec 32) : -2147483648 ≤ y.toInt ∧ y.toInt < 2147483648 := by
  have := BitVec.le_toInt y; have := BitVec.toInt_lt (x := y)
  norm_num at *; omega

theorem compares1_spec {x : Big} (hx : x.Canon) (y : BitVec 32) :
    compares1 x y = if x.toInt < y.toInt then -1 else if x.toInt = y.toInt then 0 else 1 := by
  have hz := isZero_iff hx
  have ho := isOne_iff hx
  have hy0 : (y == 0) = true ↔ y.toInt = 0 := by
    rw [beq_iff_eq]; constructor
    · rintro rfl; rfl
    · intro h; exact BitVec.eq_of_toInt_eq (by simpa using h)
  have hy1 : (y == 1) = true ↔ y.toInt = 1 := by
    rw [beq_iff_eq]; constructor
    · rintro rfl; rfl
    · intro h; exact BitVec.eq_of_toInt_eq (by simpa using h)
  have hc := cabs32_toNat y
  have hb := toInt_bounds32 y
  unfold compares1
  by_cases h1 : (x.neg ^^ decide (y.toInt < 0)) = true
  · rw [if_pos h1]
    by_cases h2 : (x.isZero && y == 0) = true
    · rw [if_pos h2]
      rw [Bool.and_eq_true, hz, hy0] at h2
      rw [if_neg (by omega), if_pos (by omega)]
    · rw [if_neg h2]
      rw [Bool.and_eq_true, hz, hy0] at h2
      unfold toInt at h2 ⊢
      revert h1 h2
      by_cases hyn : y.toInt < 0 <;> cases x.neg <;> simp [hyn] <;> intros
      · rw [if_neg (by omega), if_neg (by omega)]
      · omega
  · rw [if_neg h1]
    by_cases h2 : (x.isOne && y == 1) = true
    · rw [if_pos h2]
      rw [Bool.and_eq_true, ho, hy1] at h2
      rw [if_neg (by omega), if_pos (by omega)]
    · rw [if_neg h2]
      have hxy : x.neg = decide (y.toInt < 0) := by
        revert h1; cases x.neg <;> cases decide (y.toInt < 0) <;> simp
      have hcmp : (if x.ws.length > 1 then (1:Int) else cmpN [x.ws.headD 0] [cabs32 y]) =
          if val x.ws < (cabs32 y).toNat then -1 else if val x.ws = (cabs32 y).toNat then 0 else 1 := by
        by_cases hl : x.ws.length > 1
        · have := val_ge_of_two hx hl
          have := (cabs32 y).isLt
          rw [if_pos hl, if_neg (by omega), if_neg (by omega)]
        · rw [if_neg hl, cmpN_single, ← (headD_of_len_one hx hl).1]
      simp only [hcmp]
      unfold toInt
      by_cases hyn : y.toInt < 0
      · rw [abs_of_neg hyn] at hc
        simp only [hyn, decide_true] at hxy
        simp only [hxy, if_true]
        split_ifs <;> omega
      · rw [abs_of_nonneg (by omega)] at hc
        simp only [hyn, decide_false] at hxy
        simp only [hxy, Bool.false_eq_true, if_false]
        split_ifs <;> omega

/-- Right except for a zero that carries a minus sign. -/
theorem compareu1_spec {x : Big} (hx : x.Canon) (y : Word) (h : x.neg = true → x.toInt ≠ 0 ∨ y ≠ 0) :
    compareu1 x y = if x.toInt < y.toNat then -1 else if x.toInt = y.toNat then 0 else 1 := by
  unfold compareu1
  cases hn : x.neg with
  | true =>
    rw [if_pos rfl]
    have := h hn
    rw [ne_eq, ne_eq, wordEqZero, toInt_zero_iff] at this
    unfold toInt; rw [hn]
    simp only [if_true]
    rw [if_pos (by omega)]
  | false =>
    simp only [Bool.false_eq_true, if_false]
    unfold toInt; rw [hn]
    simp only [Bool.false_eq_true, if_false]
    by_cases hl : x.ws.length > 1
    · have := val_ge_of_two hx hl
      have := y.isLt
      rw [if_pos hl, if_neg (by omega), if_neg (by omega)]
    · obtain ⟨hv, -⟩ := headD_of_len_one hx hl
      rw [if_neg hl, hv]
      generalize x.ws.headD 0 = w
      have e1 : (w > y) ↔ y.toNat < w.toNat := by simp [GT.gt, BitVec.lt_def]
      have e2 : (w = y) ↔ w.toNat = y.toNat := BitVec.toNat_inj.symm
      simp only [e1, e2]
      split_ifs <;> omega

/-! ## division by native integers -/

theorem cabs32_ne {y : BitVec 32} (hy : y.toInt ≠ 0) : (cabs32 y).toNat ≠ 0 := by
  have := cabs32_toNat y
  intro h; rw [h] at this
  exact hy (abs_eq_zero.1 this.symm)

theorem divWord_ok (x : List Word) (y : Word) (hy : y.toNat ≠ 0) : divWord x y = .ok (divWordGo y x) := by
  unfold divWord check
  have : (y != 0) = true := by rw [bne_iff_ne, ne_eq, wordEqZero]; exact hy
  rw [this]; rfl

theorem modWord_ok (x : List Word) (y : Word) (hy : y.toNat ≠ 0) : modWord x y = .ok (divWordGo y x).2 := by
  unfold modWord check
  have : (y != 0) = true := by rw [bne_iff_ne, ne_eq, wordEqZero]; exact hy
  rw [this]; rfl

theorem tdiv_signed (a b : Bool) (m n : Nat) :
    (if (a ^^ b) then -((m / n : Nat) : Int) else ((m / n : Nat) : Int)) =
    (if a then -(m : Int) else m).tdiv (if b then -(n : Int) else n) := by
  cases a <;> cases b <;> simp [Int.neg_tdiv, Int.tdiv_neg]

theorem tmod_signed (a b : Bool) (m n : Nat) :
    (if a then -((m % n : Nat) : Int) else ((m % n : Nat) : Int)) =
    (if a then -(m : Int) else m).tmod (if b then -(n : Int) else n) := by
  cases a <;> cases b <;> simp only [Int.neg_tmod, Int.tmod_neg, Int.ofNat_tmod, Bool.false_eq_true, if_true, if_false]

theorem divs1_spec (cap : Cap) (x : Big) (y : BitVec 32) (hx : x.Canon) (fx : Fits cap x) (hy : y.toInt ≠ 0) :
    ∃ q, divs1 cap x y = .ok q ∧ q.Canon ∧ Fits cap q ∧ q.toInt = x.toInt.tdiv y.toInt := by
  have hc := cabs32_ne hy
  obtain ⟨l, v, -⟩ := divWordGo_spec (cabs32 y) (by omega) x.ws
  have hp := List.length_pos_iff.2 hx.1
  have hne : (divWordGo (cabs32 y) x.ws).1 ≠ [] := by intro h; rw [h] at l; simp at l; omega
  refine ⟨trim (x.neg ^^ decide (y.toInt < 0)) (divWordGo (cabs32 y) x.ws).1, ?_, trim_canon _ _ hne, ?_, ?_⟩
  · unfold divs1; rw [if_pos fx.fits, divWord_ok _ _ hc]; rfl
  · intro N hN; have := fx N hN; have := trim_length_le (x.neg ^^ decide (y.toInt < 0)) _ hne; omega
  · rw [trim_toInt _ _ hne, v, tdiv_signed, signed_cabs]; rfl

theorem mods1_spec (x : Big) (y : BitVec 32) (hy : y.toInt ≠ 0) :
    ∃ r, mods1 x y = .ok r ∧ r.ws.length = 1 ∧ r.neg = x.neg ∧ r.toInt = x.toInt.tmod y.toInt := by
  have hc := cabs32_ne hy
  have hb := toInt_bounds32 y
  have hcn := cabs32_toNat y
  obtain ⟨l, -, v⟩ := divWordGo_spec (cabs32 y) (by omega) x.ws
  set w := (divWordGo (cabs32 y) x.ws).2 with hw
  have hlt : w.toNat < 2147483648 := by
    have := Nat.mod_lt (val x.ws) (y := (cabs32 y).toNat) (by omega)
    have h2 : (cabs32 y).toNat ≤ 2147483648 := by
      rcases abs_cases y.toInt with h | h <;> omega
    omega
  have e : divMods1Rem x y = .ok (if x.neg then -w else w) := by
    unfold divMods1Rem; rw [modWord_ok _ _ hc]; rfl
  refine ⟨⟨x.neg, (ofInt32 (if x.neg then -w else w)).ws⟩, ?_, rfl, rfl, ?_⟩
  · unfold mods1; rw [e]; rfl
  · rw [toInt_mk]
    have hmag : val (ofInt32 (if x.neg then -w else w)).ws = w.toNat := by
      have h1 := cabs32_toNat (if x.neg then -w else w)
      show val [_] = _
      rw [val_singleton]
      zify
      rw [h1]
      have h2 : w.toInt = w.toNat := by
        rw [BitVec.toInt_eq_toNat_cond, if_pos (by norm_num; omega)]
      cases x.neg with
      | false => simp [h2]
      | true =>
        simp only [if_true]
        rw [BitVec.toInt_neg_of_ne_intMin]
        · rw [abs_neg, h2]; simp
        · intro h
          rw [h] at hlt
          exact absurd hlt (by decide)
    rw [hmag, v, tmod_signed x.neg (decide (y.toInt < 0)), signed_cabs]; rfl

theorem divs1_zero (cap : Cap) (x : Big) (fx : Fits cap x) : divs1 cap x 0 = .error .abort := by
  unfold divs1; rw [if_pos fx.fits]; rfl

theorem mods1_zero (x : Big) : mods1 x 0 = .error .abort := rfl

theorem divu1_spec (cap : Cap) (x : Big) (y : Word) (hx : x.Canon) (fx : Fits cap x) (hy : y.toNat ≠ 0) :
    ∃ q, divu1 cap x y = .ok q ∧ q.Canon ∧ Fits cap q ∧ q.toInt = |x.toInt|.tdiv y.toNat := by
  obtain ⟨l, v, -⟩ := divWordGo_spec y (by omega) x.ws
  have hp := List.length_pos_iff.2 hx.1
  have hne : (divWordGo y x.ws).1 ≠ [] := by intro h; rw [h] at l; simp at l; omega
  refine ⟨⟨false, (trim false (divWordGo y x.ws).1).ws⟩, ?_, trim_canonW false _ hne, ?_, ?_⟩
  · unfold divu1; rw [if_pos fx.fits, divWord_ok _ _ hy]; rfl
  · intro N hN; have := fx N hN; have := trim_length_le false _ hne; simp only; omega
  · rw [toInt_mk, trim_val _ _ hne, v]
    have : |x.toInt| = (val x.ws : Int) := by
      unfold toInt; cases x.neg <;> simp
    rw [this]; simp

theorem divu1_zero (cap : Cap) (x : Big) (fx : Fits cap x) : divu1 cap x 0 = .error .abort := by
  unfold divu1; rw [if_pos fx.fits]; rfl

/-! ## and, or -/

theorem or_split (a b c d : Nat) (ha : a < 4294967296) (hb : b < 4294967296) :
    (a + 4294967296 * c) ||| (b + 4294967296 * d) = (a ||| b) + 4294967296 * (c ||| d) := by
  have hab : a ||| b < 2^32 := Nat.or_lt_two_pow ha hb
  apply Nat.eq_of_testBit_eq
  intro i
  rw [Nat.testBit_or, add_comm a, add_comm b, add_comm (a ||| b)]
  rw [show (4294967296:Nat) = 2^32 by norm_num]
  rw [Nat.testBit_two_pow_mul_add _ ha, Nat.testBit_two_pow_mul_add _ hb, Nat.testBit_two_pow_mul_add _ hab]
  split <;> simp

theorem and_split (a b c d : Nat) (ha : a < 4294967296) (hb : b < 4294967296) :
    (a + 4294967296 * c) &&& (b + 4294967296 * d) = (a &&& b) + 4294967296 * (c &&& d) := by
  have hab : a &&& b < 2^32 := Nat.and_lt_two_pow _ hb
  apply Nat.eq_of_testBit_eq
  intro i
  rw [Nat.testBit_and, add_comm a, add_comm b, add_comm (a &&& b)]
  rw [show (4294967296:Nat) = 2^32 by norm_num]
  rw [Nat.testBit_two_pow_mul_add _ ha, Nat.testBit_two_pow_mul_add _ hb, Nat.testBit_two_pow_mul_add _ hab]
  split <;> simp

theorem val_zipOr : ∀ (x y : List Word), y.length ≤ x.length →
    val (List.zipWith (· ||| ·) (x.take y.length) y ++ x.drop y.length) = val x ||| val y
  | x, [], _ => by simp
  | [], _ :: _, h => by simp at h
  | a :: x, b :: y, h => by
    have ih := val_zipOr x y (by simpa using h)
    simp only [List.length_cons, List.take_succ_cons, List.zipWith_cons_cons, List.drop_succ_cons, List.cons_append,
      val_cons]
    rw [ih, or_split _ _ _ _ a.isLt b.isLt, BitVec.toNat_or]

theorem val_zipAnd : ∀ (x y : List Word), val (List.zipWith (· &&& ·) x y) = val x &&& val y
  | x, [] => by simp
  | [], _ :: _ => by simp
  | a :: x, b :: y => by
    have ih := val_zipAnd x y
    simp only [List.zipWith_cons_cons, val_cons]
    rw [ih, and_split _ _ _ _ a.isLt b.isLt, BitVec.toNat_and]

theorem zipWith_or_comm (x y : List Word) : List.zipWith (· ||| ·) x y = List.zipWith (· ||| ·) y x := by
  rw [List.zipWith_comm]; congr 1; funext a b; exact BitVec.or_comm _ _

theorem orBit_spec (zn : Bool) (x y : Big) (hx : x.Canon) (hy : y.Canon) :
    (orBit zn x y).Canon ∧ (orBit zn x y).ws.length ≤ max x.ws.length y.ws.length ∧
    (orBit zn x y).toInt = if zn then -((val x.ws ||| val y.ws : Nat) : Int) else ((val x.ws ||| val y.ws : Nat) : Int) := by
  have hpx := List.length_pos_iff.2 hx.1
  have hpy := List.length_pos_iff.2 hy.1
  unfold orBit
  by_cases h : x.ws.length < y.ws.length
  · simp only [h, if_true]
    have e : List.zipWith (· ||| ·) (x.ws.take x.ws.length) (y.ws.take x.ws.length) ++ y.ws.drop x.ws.length =
        List.zipWith (· ||| ·) (y.ws.take x.ws.length) x.ws ++ y.ws.drop x.ws.length := by
      rw [List.take_length, zipWith_or_comm]
    have hl : (List.zipWith (· ||| ·) (y.ws.take x.ws.length) x.ws ++ y.ws.drop x.ws.length).length = y.ws.length := by
      simp; omega
    have hne : List.zipWith (· ||| ·) (y.ws.take x.ws.length) x.ws ++ y.ws.drop x.ws.length ≠ [] := by
      intro h'; rw [h'] at hl; simp at hl; omega
    rw [e]
    refine ⟨trim_canon _ _ hne, ?_, ?_⟩
    · have := trim_length_le zn _ hne; omega
    · rw [trim_toInt _ _ hne, val_zipOr _ _ h.le, Nat.or_comm]
  · simp only [h, if_false]
    have e : List.zipWith (· ||| ·) (x.ws.take y.ws.length) (y.ws.take y.ws.length) ++ x.ws.drop y.ws.length =
        List.zipWith (· ||| ·) (x.ws.take y.ws.length) y.ws ++ x.ws.drop y.ws.length := by
      rw [List.take_length]
    have hl : (List.zipWith (· ||| ·) (x.ws.take y.ws.length) y.ws ++ x.ws.drop y.ws.length).length = x.ws.length := by
      simp; omega
    have hne : List.zipWith (· ||| ·) (x.ws.take y.ws.length) y.ws ++ x.ws.drop y.ws.length ≠ [] := by
      intro h'; rw [h'] at hl; simp at hl; omega
    rw [e]
    refine ⟨trim_canon _ _ hne, ?_, ?_⟩
    · have := trim_length_le zn _ hne; omega
    · rw [trim_toInt _ _ hne, val_zipOr _ _ (by omega)]

theorem val_and_take (x y : List Word) (h : y.length ≤ x.length) : val (x.take y.length) &&& val y = val x &&& val y := by
  rw [← val_zipAnd, ← val_zipAnd]
  congr 1
  apply List.ext_getElem
  · simp; omega
  · intro i h1 h2; simp

theorem andBit_spec (zn : Bool) (x y : Big) (hx : x.Canon) (hy : y.Canon) :
    (andBit zn x y).Canon ∧ (andBit zn x y).ws.length ≤ min x.ws.length y.ws.length ∧
    (andBit zn x y).toInt = if zn then -((val x.ws &&& val y.ws : Nat) : Int) else ((val x.ws &&& val y.ws : Nat) : Int) := by
  have hpx := List.length_pos_iff.2 hx.1
  have hpy := List.length_pos_iff.2 hy.1
  unfold andBit
  by_cases h : x.ws.length < y.ws.length
  · simp only [h, if_true]
    have hl : (List.zipWith (· &&& ·) (x.ws.take x.ws.length) (y.ws.take x.ws.length)).length = x.ws.length := by
      simp; omega
    have hne : List.zipWith (· &&& ·) (x.ws.take x.ws.length) (y.ws.take x.ws.length) ≠ [] := by
      intro h'; rw [h'] at hl; simp at hl; omega
    refine ⟨trim_canon _ _ hne, ?_, ?_⟩
    · have := trim_length_le zn _ hne; omega
    · rw [trim_toInt _ _ hne, val_zipAnd, List.take_length, Nat.and_comm, val_and_take _ _ h.le, Nat.and_comm]
  · simp only [h, if_false]
    have hl : (List.zipWith (· &&& ·) (x.ws.take y.ws.length) (y.ws.take y.ws.length)).length = y.ws.length := by
      simp; omega
    have hne : List.zipWith (· &&& ·) (x.ws.take y.ws.length) (y.ws.take y.ws.length) ≠ [] := by
      intro h'; rw [h'] at hl; simp at hl; omega
    refine ⟨trim_canon _ _ hne, ?_, ?_⟩
    · have := trim_length_le zn _ hne; omega
    · rw [trim_toInt _ _ hne, val_zipAnd, List.take_length, val_and_take _ _ (by omega)]

theorem orBitu1_spec (x : Big) (y : Word) (hx : x.Canon) :
    (orBitu1 x y).Canon ∧ (orBitu1 x y).neg = x.neg ∧ (orBitu1 x y).ws.length = x.ws.length ∧
    val (orBitu1 x y).ws = val x.ws ||| y.toNat := by
  unfold orBitu1
  obtain ⟨h1, h2⟩ := hx
  revert h1 h2
  cases hw : x.ws with
  | nil => intro h; exact absurd rfl h
  | cons w t =>
    intro _ h2
    refine ⟨⟨by simp, ?_⟩, rfl, rfl, ?_⟩
    · intro hl
      cases t with
      | nil => simp at hl
      | cons v t => exact h2 hl
    · have := or_split w.toNat y.toNat (val t) 0 w.isLt y.isLt
      simp only [mul_zero, add_zero, Nat.or_zero] at this
      simp only [val_cons, BitVec.toNat_or, this]

theorem andBitu1_spec (x : Big) (y : Word) (hx : x.Canon) :
    (andBitu1 x y).Canon ∧ (andBitu1 x y).ws.length = 1 ∧ (andBitu1 x y).toInt = ((val x.ws &&& y.toNat : Nat) : Int) := by
  refine ⟨canonW_single _, rfl, ?_⟩
  unfold andBitu1
  rw [toInt_mk]
  simp only [Bool.false_eq_true, if_false, val_singleton, BitVec.toNat_and]
  congr 1
  have hx1 := hx.1
  revert hx1
  cases x.ws with
  | nil => intro h; exact absurd rfl h
  | cons w t =>
    intro _
    have := and_split w.toNat y.toNat (val t) 0 w.isLt y.isLt
    simp only [mul_zero, add_zero, Nat.and_zero] at this
    simp only [val_cons, this, List.headD_cons]

/-! ## bits -/

theorem size_eq_of {v b : Nat} (h1 : 2^b ≤ v) (h2 : v < 2^(b+1)) : Nat.size v = b + 1 := by
  apply le_antisymm
  · exact Nat.size_le.2 h2
  · exact Nat.lt_size.2 h1

theorem bitLength_spec {x : Big} (hx : x.Canon) : x.bitLength = if x.toInt = 0 then 1 else Nat.size (val x.ws) := by
  unfold bitLength
  have hz := isZero_iff hx
  by_cases h : x.toInt = 0
  · rw [if_pos (hz.2 h), if_pos h]
  · rw [if_neg (by rw [hz]; exact h), if_neg h]
    rw [toInt_zero_iff] at h
    have hp := List.length_pos_iff.2 hx.1
    have htop : (x.ws.getLastD 0).toNat ≠ 0 := by
      by_cases hl : 1 < x.ws.length
      · exact hx.w.top hl
      · obtain ⟨w, hw⟩ := List.length_eq_one_iff.1 (show x.ws.length = 1 by omega)
        rw [hw] at h ⊢; simpa using h
    obtain ⟨b1, b2, b3⟩ := bsr32_spec _ htop
    have g1 := val_ge_top x.ws hx.1
    have g2 := val_lt_top x.ws hx.1
    have e : Nat.size (val x.ws) = ((x.ws.length - 1) * 32 + bsr32 (x.ws.getLastD 0)) + 1 := by
      apply size_eq_of
      · refine le_trans ?_ g1
        rw [pow_add, B_eq, mul_comm 32]
        exact Nat.mul_le_mul_left _ b2
      · refine lt_of_lt_of_le g2 ?_
        rw [add_assoc, pow_add, B_eq, mul_comm 32]
        exact Nat.mul_le_mul_left _ b3
    omega

theorem bitLength_pos {x : Big} (hx : x.Canon) : 0 < x.bitLength := by
  rw [bitLength_spec hx]
  split
  · omega
  · rename_i h; rw [toInt_zero_iff] at h
    exact Nat.size_pos.2 (by omega)

theorem lt_two_pow_bitLength {x : Big} (hx : x.Canon) : val x.ws < 2 ^ x.bitLength := by
  rw [bitLength_spec hx]
  split
  · rename_i h; rw [toInt_zero_iff] at h; rw [h]; norm_num
  · exact Nat.lt_size_self _

theorem val_testBit : ∀ (ws : List Word) (i : Nat), (val ws).testBit i = ((ws[i/32]?.getD 0).toNat.testBit (i % 32))
  | [], i => by simp
  | w :: ws, i => by
    rw [val_cons, add_comm, show (4294967296:Nat) = 2^32 by norm_num, Nat.testBit_two_pow_mul_add _ w.isLt]
    by_cases h : i < 32
    · rw [if_pos h, Nat.div_eq_of_lt h, Nat.mod_eq_of_lt h]; rfl
    · rw [if_neg h, val_testBit ws]
      have e1 : i / 32 = (i - 32) / 32 + 1 := by omega
      have e2 : i % 32 = (i - 32) % 32 := by omega
      rw [e1, e2]; rfl

theorem testBit_spec (x : Big) (i : Nat) : x.testBit i = (val x.ws).testBit i := by
  rw [val_testBit]
  unfold testBit
  simp only
  split
  · rename_i h
    rw [List.getElem?_eq_none (by omega)]; simp
  · generalize x.ws[i/32]?.getD 0 = w
    have hr : i % 32 < 32 := by omega
    generalize i % 32 = r at *
    have h1 : (1#32 <<< r) = BitVec.twoPow 32 r := by
      rw [BitVec.twoPow]
    rw [h1, BitVec.and_twoPow]
    have h2 : w.toNat.testBit r = w.getLsbD r := rfl
    rw [h2]
    cases w.getLsbD r with
    | false => simp
    | true =>
      simp only [if_true, bne_iff_ne, ne_eq]
      intro h
      have := congrArg BitVec.toNat h
      rw [BitVec.toNat_twoPow_of_lt hr] at this
      simp at this

end Big
end Ack
