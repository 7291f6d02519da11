import Verif.Proof.PowmPrim
/-! # Reduction modulo a multi-word number in the software exponentiation -/
namespace Ack.Powm
open Ack.Big (Byte)

/-! ## Arrays -/

theorem rdW_of_lt {a : List Word} {i : Nat} (h : i < a.length) : rdW a i = .ok a[i] := by
  unfold rdW; rw [List.getElem?_eq_getElem h]

theorem rdW_cons_succ (w : Word) (a : List Word) (i : Nat) : rdW (w :: a) (i + 1) = rdW a i := by
  unfold rdW; rw [List.getElem?_cons_succ]

theorem rdW_cons_zero (w : Word) (a : List Word) : rdW (w :: a) 0 = .ok w := rfl

theorem slice_eq {a : List Word} {i len : Nat} (h : i + len ≤ a.length) : slice a i len = .ok ((a.drop i).take len) := if_pos h

theorem patch_eq {a : List Word} {i : Nat} {ws : List Word} (h : i + ws.length ≤ a.length) :
    patch a i ws = .ok (a.take i ++ ws ++ a.drop (i + ws.length)) := if_pos h

theorem wrW_eq {a : List Word} {i : Nat} {w : Word} (h : i < a.length) : wrW a i w = .ok (a.set i w) := if_pos h

theorem word_zero_iff (w : Word) : w = 0 ↔ w.toNat = 0 :=
  ⟨fun h => by rw [h]; rfl, fun h => BitVec.eq_of_toNat_eq (by simpa using h)⟩

/-! ## Bit length of an array -/

theorem bitLen_mul_add (w : Nat) (k : Nat) (r : Nat) (hw : w ≠ 0) (hr : r < 2 ^ k) :
    Spec.bitLen (w * 2 ^ k + r) = Spec.bitLen w + k := by
  apply bitLen_unique
  · have := bitLen_lt w
    rw [pow_add]
    calc w * 2 ^ k + r < w * 2 ^ k + 2 ^ k := by omega
      _ = (w + 1) * 2 ^ k := by ring
      _ ≤ 2 ^ Spec.bitLen w * 2 ^ k := Nat.mul_le_mul_right _ this
  · right
    have := le_bitLen hw
    have h1 := bitLen_pos hw
    rw [show Spec.bitLen w + k - 1 = (Spec.bitLen w - 1) + k by omega, pow_add]
    calc _ ≤ w * 2 ^ k := Nat.mul_le_mul_right _ this
      _ ≤ _ := by omega

theorem bitLengthLoop_ne (x : List Word) (tw twk : Word) (h : tw ≠ 0) : ∀ n, n ≤ x.length →
    bitLengthLoop x n tw twk = .ok ((twk <<< 5) + BIT_LENGTH tw) := by
  intro n
  induction n with
  | zero => intro _; rfl
  | succ n ih =>
    intro hn
    rw [bitLengthLoop, rdW_of_lt (by omega), ok_bind, EQ_spec, MUX_bit, MUX_bit, if_neg (by simpa using h), if_neg (by simpa using h)]
    exact ih (by omega)

theorem val_take_succ (x : List Word) (n : Nat) (h : n < x.length) :
    val (x.take (n + 1)) = x[n].toNat * 2 ^ (32 * n) + val (x.take n) := by
  rw [List.take_succ_eq_append_getElem h, val_append, List.length_take, Nat.min_eq_left (by omega), B_eq, val_singleton]; ring

theorem val_take_lt (x : List Word) (n : Nat) : val (x.take n) < 2 ^ (32 * n) := by
  have h1 := val_lt (x.take n)
  have h2 : B (x.take n).length ≤ B n := B_le (by simp)
  rw [← B_eq]; omega

theorem bitLengthLoop_zero (x : List Word) (hx : x.length < 2 ^ 27) : ∀ (n : Nat) (twk : Word), n ≤ x.length →
    ∃ r, bitLengthLoop x n 0 twk = .ok r ∧ (n = 0 → r = twk <<< 5) ∧ (n ≠ 0 → r.toNat = Spec.bitLen (val (x.take n))) := by
  intro n
  induction n with
  | zero => intro twk _; exact ⟨_, rfl, fun _ => by rw [show BIT_LENGTH 0 = 0 by decide]; simp, fun h => absurd rfl h⟩
  | succ n ih =>
    intro twk hn
    rw [bitLengthLoop, rdW_of_lt (by omega), ok_bind, EQ_spec, MUX_bit, MUX_bit, if_pos (by simp), if_pos (by simp)]
    have hv := val_take_succ x n (by omega)
    by_cases hw : x[n] = 0
    · rw [hw]
      obtain ⟨r, hr, h0, h1⟩ := ih (BitVec.ofNat 32 n) (by omega)
      refine ⟨r, hr, fun h => by omega, fun _ => ?_⟩
      rw [hv, hw]
      rcases Nat.eq_zero_or_pos n with h | h
      · subst h; rw [h0 rfl]; simp; rfl
      · rw [h1 (by omega)]; simp
    · rw [bitLengthLoop_ne x _ _ hw n (by omega)]
      refine ⟨_, rfl, fun h => by omega, fun _ => ?_⟩
      rw [hv, bitLen_mul_add _ _ _ (fun h => hw ((word_zero_iff _).2 h)) (val_take_lt x n), BitVec.toNat_add, BIT_LENGTH_spec,
        BitVec.toNat_shiftLeft, BitVec.toNat_ofNat, Nat.shiftLeft_eq]
      have : Spec.bitLen x[n].toNat ≤ 32 := by
        by_contra hc
        have h1 := le_bitLen (v := x[n].toNat) (fun h => hw ((word_zero_iff _).2 h))
        have h2 := Nat.pow_le_pow_right (n := 2) (by omega) (show 32 ≤ Spec.bitLen x[n].toNat - 1 by omega)
        have := x[n].isLt
        omega
      omega

theorem bitLength_spec (x : List Word) (n : Nat) (h : n ≤ x.length) (hx : x.length < 2 ^ 27) :
    ∃ r, bitLength x n = .ok r ∧ r.toNat = Spec.bitLen (val (x.take n)) := by
  obtain ⟨r, hr, h0, h1⟩ := bitLengthLoop_zero x hx n 0 h
  refine ⟨r, hr, ?_⟩
  rcases Nat.eq_zero_or_pos n with h | h
  · subst h; rw [h0 rfl]; rfl
  · exact h1 (by omega)

/-! ## Decoding -/

theorem decode_spec (x : List Word) (src : List Byte) (h : 1 + (src.length + 3) / 4 ≤ x.length) (hx : x.length < 2 ^ 27) :
    ∃ hd, decode x src = .ok (hd :: (decWords src.reverse ++ x.drop (1 + (src.length + 3) / 4))) ∧
      hd.toNat = Spec.bitLen (beVal src) := by
  unfold decode
  have hl : (decWords src.reverse).length = (src.length + 3) / 4 := by rw [decWords_length, List.length_reverse]
  obtain ⟨w, t, rfl⟩ : ∃ w t, x = w :: t := by
    cases x with
    | nil => simp at h
    | cons w t => exact ⟨w, t, rfl⟩
  dsimp only
  rw [patch_eq (by rw [hl]; exact h), ok_bind]
  simp only [List.take_succ_cons, List.take_zero, hl]
  generalize hD : (w :: t).drop (1 + (src.length + 3) / 4) = D
  simp only [List.cons_append, List.nil_append, List.drop_succ_cons, List.drop_zero]
  have hDl : D.length ≤ t.length - (src.length + 3) / 4 := by rw [← hD]; simp; omega
  simp only [List.length_cons] at h hx
  obtain ⟨r, hr, hv⟩ := bitLength_spec (decWords src.reverse ++ D) ((src.length + 3) / 4) (by simp [hl])
    (by rw [List.length_append, hl]; omega)
  rw [hr, ok_bind, wrW_eq (by simp)]
  refine ⟨r, rfl, ?_⟩
  rw [hv, List.take_left' hl, decWords_val, List.reverse_reverse]

/-! ## Conditional addition and subtraction -/

theorem addLoop_spec (c : Bool) : ∀ (a b : List Word) (k : Bool), a.length = b.length →
    ∃ r k', addLoop (bit c) a b (bit k) = .ok (r, bit k') ∧ r.length = a.length ∧
      (c = false → r = a) ∧
      (c = true → val r + (if k' then B a.length else 0) = val a + val b + (if k then 1 else 0)) := by
  intro a
  induction a with
  | nil =>
    intro b k h
    refine ⟨[], k, by cases b <;> rfl, rfl, fun _ => rfl, fun _ => ?_⟩
    cases b with
    | nil => simp
    | cons => simp at h
  | cons aw a ih =>
    intro b k h
    cases b with
    | nil => simp at h
    | cons bw b =>
      have e : (bit k &&& EQ (aw + bw + bit k) aw) ||| LT (aw + bw + bit k) aw =
          bit (decide (4294967296 ≤ aw.toNat + bw.toNat + (bit k).toNat)) := by
        rw [EQ_spec, LT_spec, bit_and, bit_or]; congr 1
        have h1 := aw.isLt; have h2 := bw.isLt
        have ee : (aw + bw + bit k = aw) ↔ (aw + bw + bit k).toNat = aw.toNat := ⟨fun h => by rw [h], BitVec.eq_of_toNat_eq⟩
        simp only [ee, BitVec.toNat_add]
        cases k
        · simp only [bit_toNat, Bool.false_and, Bool.false_or, decide_eq_decide]; norm_num; omega
        · rw [Bool.eq_iff_iff]
          simp only [bit_toNat, Bool.true_and, Bool.or_eq_true, decide_eq_true_eq, if_true]; omega
      rw [addLoop]
      dsimp only
      rw [e]
      obtain ⟨r, k', hr, hl, h0, h1⟩ := ih b (decide (4294967296 ≤ aw.toNat + bw.toNat + (bit k).toNat)) (by simpa using h)
      rw [hr, ok_bind, MUX_bit]
      refine ⟨_, k', rfl, by simp [hl], ?_, ?_⟩
      · rintro rfl; simp [h0 rfl]
      · rintro rfl
        have h2 := h1 rfl
        have h3 := aw.isLt; have h4 := bw.isLt
        have h5 := bit_le k
        have h6 : (bit k).toNat = if k then 1 else 0 := bit_toNat k
        simp only [if_true, val_cons, List.length_cons, B_succ, BitVec.toNat_add]
        rw [← h6]
        simp only [decide_eq_true_eq] at h2
        by_cases hc : 4294967296 ≤ aw.toNat + bw.toNat + (bit k).toNat
        · rw [if_pos hc] at h2
          cases k' <;> simp at h2 ⊢ <;> omega
        · rw [if_neg hc] at h2
          cases k' <;> simp at h2 ⊢ <;> omega

theorem subLoop_spec (c : Bool) : ∀ (a b : List Word) (k : Bool), a.length = b.length →
    ∃ r k', subLoop (bit c) a b (bit k) = .ok (r, bit k') ∧ r.length = a.length ∧
      (c = false → r = a) ∧
      (c = true → val r + val b + (if k then 1 else 0) = val a + (if k' then B a.length else 0)) := by
  intro a
  induction a with
  | nil =>
    intro b k h
    refine ⟨[], k, by cases b <;> rfl, rfl, fun _ => rfl, fun _ => ?_⟩
    cases b with
    | nil => simp
    | cons => simp at h
  | cons aw a ih =>
    intro b k h
    cases b with
    | nil => simp at h
    | cons bw b =>
      have e : (bit k &&& EQ (aw - bw - bit k) aw) ||| GT (aw - bw - bit k) aw =
          bit (decide (aw.toNat < bw.toNat + (bit k).toNat)) := by
        rw [EQ_spec, GT_spec, bit_and, bit_or]; congr 1
        have h1 := aw.isLt; have h2 := bw.isLt
        have ee : (aw - bw - bit k = aw) ↔ (aw - bw - bit k).toNat = aw.toNat := ⟨fun h => by rw [h], BitVec.eq_of_toNat_eq⟩
        simp only [ee, BitVec.toNat_sub]
        cases k
        · simp only [bit_toNat, Bool.false_and, Bool.false_or, decide_eq_decide]; norm_num; omega
        · rw [Bool.eq_iff_iff]
          simp only [bit_toNat, Bool.true_and, Bool.or_eq_true, decide_eq_true_eq, if_true]; omega
      rw [subLoop]
      dsimp only
      rw [e]
      obtain ⟨r, k', hr, hl, h0, h1⟩ := ih b (decide (aw.toNat < bw.toNat + (bit k).toNat)) (by simpa using h)
      rw [hr, ok_bind, MUX_bit]
      refine ⟨_, k', rfl, by simp [hl], ?_, ?_⟩
      · rintro rfl; simp [h0 rfl]
      · rintro rfl
        have h2 := h1 rfl
        have h3 := aw.isLt; have h4 := bw.isLt
        have h5 := bit_le k
        have h6 : (bit k).toNat = if k then 1 else 0 := bit_toNat k
        simp only [if_true, val_cons, List.length_cons, B_succ, BitVec.toNat_sub]
        rw [← h6]
        simp only [decide_eq_true_eq] at h2
        by_cases hc : aw.toNat < bw.toNat + (bit k).toNat
        · rw [if_pos hc] at h2
          cases k' <;> simp at h2 ⊢ <;> omega
        · rw [if_neg hc] at h2
          cases k' <;> simp at h2 ⊢ <;> omega

/-! ## Division of a double word -/

/-- Invariant of the bit-serial division: with `k` bits to go the partial remainder is below `d * 2^(k+1)`. -/
theorem divremLoop_spec (d : Word) (hd : 0 < d.toNat) : ∀ (k : Nat) (hi lo q : Word), k ≤ 31 →
    hi.toNat * 2 ^ 32 + lo.toNat < d.toNat * 2 ^ (k + 1) → q.toNat % 2 ^ (k + 1) = 0 →
    ∃ hi' lo' q', divremLoop d k hi lo q = (hi', lo', q') ∧ hi'.toNat * 2 ^ 32 + lo'.toNat < 2 * d.toNat ∧ q'.toNat % 2 = 0 ∧
      q.toNat * d.toNat + hi.toNat * 2 ^ 32 + lo.toNat = q'.toNat * d.toNat + hi'.toNat * 2 ^ 32 + lo'.toNat := by
  intro k
  induction k with
  | zero => intro hi lo q _ h hq; exact ⟨hi, lo, q, rfl, by simp at h; omega, by simpa using hq, rfl⟩
  | succ k ih =>
    intro hi lo q hk h hq
    obtain ⟨P, hP⟩ : ∃ P, P = 2 ^ (k + 1) := ⟨_, rfl⟩
    obtain ⟨J, hJ⟩ : ∃ J, J = 2 ^ (32 - (k + 1)) := ⟨_, rfl⟩
    have hPJ : P * J = 2 ^ 32 := by rw [hP, hJ, ← pow_add]; congr 1; omega
    have hP0 : 0 < P := by rw [hP]; positivity
    have hJ0 : 0 < J := by rw [hJ]; positivity
    have hhi := hi.isLt; have hlo := lo.isLt; have hdl := d.isLt; have hql := q.isLt
    rw [pow_succ 2 (k + 1), ← hP] at h
    obtain ⟨D, hD⟩ : ∃ D, D = hi.toNat * 2 ^ 32 + lo.toNat := ⟨_, rfl⟩
    have hV : D / P = hi.toNat * J + lo.toNat / P := by
      rw [hD, ← hPJ, show hi.toNat * (P * J) + lo.toNat = lo.toNat + P * (hi.toNat * J) by ring, Nat.add_mul_div_left _ _ hP0]; ring
    have hVlt : D / P < 2 * d.toNat := by
      rw [Nat.div_lt_iff_lt_mul hP0, hD]; calc _ < _ := h
        _ = _ := by ring
    have hloP : lo.toNat / P < J := by rw [Nat.div_lt_iff_lt_mul hP0, Nat.mul_comm, hPJ]; exact hlo
    have hw : ((hi <<< (32 - (k + 1))) ||| (lo >>> (k + 1))).toNat = D / P % 2 ^ 32 := by
      rw [BitVec.toNat_or, BitVec.toNat_shiftLeft, BitVec.toNat_ushiftRight, Nat.shiftLeft_eq, Nat.shiftRight_eq_div_pow, ← hP, ← hJ, hV]
      have e1 : hi.toNat * J % 2 ^ 32 = (hi.toNat % P) * J := by rw [← hPJ, Nat.mul_mod_mul_right]
      rw [e1]
      have e2 : (hi.toNat % P) * J ||| lo.toNat / P = (hi.toNat % P) * J + lo.toNat / P := by
        have := Nat.two_pow_add_eq_or_of_lt (i := 32 - (k + 1)) (by rw [← hJ]; exact hloP) (hi.toNat % P)
        rw [← hJ] at this; rw [Nat.mul_comm, this]
      rw [e2, ← Nat.mod_add_mod, e1, Nat.mod_eq_of_lt (a := hi.toNat % P * J + lo.toNat / P)]
      have : hi.toNat % P < P := Nat.mod_lt _ hP0
      calc hi.toNat % P * J + lo.toNat / P < hi.toNat % P * J + J := by omega
        _ = (hi.toNat % P + 1) * J := by ring
        _ ≤ P * J := Nat.mul_le_mul_right _ this
        _ = _ := hPJ
    have hov : hi >>> (k + 1) = bit (decide (2 ^ 32 ≤ D / P)) := by
      apply BitVec.eq_of_toNat_eq
      rw [bit_toNat, BitVec.toNat_ushiftRight, Nat.shiftRight_eq_div_pow, ← hP]
      have : D / P / 2 ^ 32 = hi.toNat / P := by
        rw [Nat.div_div_eq_div_mul, Nat.mul_comm, ← Nat.div_div_eq_div_mul, hD]
        congr 1; omega
      rw [← this]
      by_cases hc : 2 ^ 32 ≤ D / P
      · simp only [hc, decide_true, if_true]; omega
      · simp only [hc, decide_false]; simp; omega
    rw [divremLoop, GE_spec, hw, hov, bit_or]
    have hctl : (decide (d.toNat ≤ D / P % 2 ^ 32) || decide (2 ^ 32 ≤ D / P)) = decide (d.toNat ≤ D / P) := by
      rw [Bool.eq_iff_iff]; simp only [Bool.or_eq_true, decide_eq_true_eq]
      clear hw hov
      generalize D / P = V at *; omega
    rw [hctl, MUX_bit, MUX_bit]
    have hqP : q.toNat % P = 0 := by
      have h1 : q.toNat % (P * 2) % P = q.toNat % P := Nat.mod_mod_of_dvd _ (Dvd.intro _ rfl)
      rw [← h1, hP, ← pow_succ, hq]; rfl
    by_cases hc : d.toNat ≤ D / P
    · simp only [hc, decide_true, if_true, bit_true]
      have hdP : d.toNat * P ≤ D := (Nat.le_div_iff_mul_le hP0).1 hc
      obtain ⟨dP, edP⟩ : ∃ dP, dP = d.toNat * P := ⟨_, rfl⟩
      have hD'P : (D - dP) / P = D / P - d.toNat := by rw [edP, Nat.mul_comm d.toNat, Nat.sub_mul_div]
      have hhi2 : ((((hi <<< (32 - (k + 1))) ||| (lo >>> (k + 1))) - d) >>> (32 - (k + 1))).toNat = (D - dP) / 2 ^ 32 := by
        rw [BitVec.toNat_ushiftRight, Nat.shiftRight_eq_div_pow, ← hJ, BitVec.toNat_sub, hw, ← hPJ, ← Nat.div_div_eq_div_mul, hD'P,
          hPJ]
        congr 1; omega
      have hlo2 : (lo - (d <<< (k + 1))).toNat = (D - dP) % 2 ^ 32 := by
        rw [BitVec.toNat_sub, BitVec.toNat_shiftLeft, Nat.shiftLeft_eq, ← hP, ← edP]
        omega
      have hqq : (q ||| ((1 : Word) <<< (k + 1))).toNat = q.toNat + P := by
        rw [BitVec.toNat_or, BitVec.toNat_shiftLeft, Nat.shiftLeft_eq, ← hP]
        show q.toNat ||| 1 * P % 2 ^ 32 = _
        have hPle : P ≤ 2 ^ 31 := by rw [hP]; exact Nat.pow_le_pow_right (by omega) hk
        rw [Nat.one_mul, Nat.mod_eq_of_lt (by omega)]
        have := Nat.two_pow_add_eq_or_of_lt (i := k + 2) (b := P) (by rw [hP]; exact Nat.pow_lt_pow_right (by omega) (by omega)) (q.toNat / 2 ^ (k + 2))
        have h2 : 2 ^ (k + 2) * (q.toNat / 2 ^ (k + 2)) = q.toNat := by
          have := Nat.div_add_mod q.toNat (2 ^ (k + 2))
          rw [show k + 2 = k + 1 + 1 from rfl, hq] at this; simpa using this
        rw [h2] at this; exact this.symm
      obtain ⟨hi', lo', q', h1, h2, h3, h4⟩ := ih ((((hi <<< (32 - (k + 1))) ||| (lo >>> (k + 1))) - d) >>> (32 - (k + 1))) (lo - (d <<< (k + 1))) (q ||| ((1 : Word) <<< (k + 1))) (by omega)
        (by
          rw [hhi2, hlo2, ← hP, ← edP]
          have h2 : d.toNat * (P * 2) = 2 * dP := by rw [edP]; ring
          rw [h2, ← hD] at h
          have h3 : (D - dP) / 2 ^ 32 * 2 ^ 32 + (D - dP) % 2 ^ 32 = D - dP := Nat.div_add_mod' _ _
          rw [h3]
          clear h3 hw hov hctl hhi2 hlo2 hqq hV hVlt hloP hhi hlo hdl hql hPJ hP hJ ih hq hqP hc hD'P hd hJ0 hP0 hk
          omega)
        (by rw [hqq, ← hP, Nat.add_mod_right]; exact hqP)
      refine ⟨hi', lo', q', h1, h2, h3, ?_⟩
      rw [← h4, hqq, hhi2, hlo2]
      have : (q.toNat + P) * d.toNat = q.toNat * d.toNat + dP := by rw [edP]; ring
      rw [this]
      omega
    · simp only [hc, decide_false, bit_false]
      have hq0 : q ||| ((0 : Word) <<< (k + 1)) = q := by simp
      rw [hq0]
      simp only [Bool.false_eq_true, if_false]
      refine ih hi lo q (by omega) ?_ (by rw [← hP]; exact hqP)
      rw [← hP, ← hD]
      exact (Nat.div_lt_iff_lt_mul hP0).1 (by omega)

theorem divrem_lt (hi lo d : Word) (h : hi.toNat < d.toNat) :
    (divrem hi lo d).1.toNat = (hi.toNat * 2 ^ 32 + lo.toNat) / d.toNat ∧
    (divrem hi lo d).2.toNat = (hi.toNat * 2 ^ 32 + lo.toNat) % d.toNat := by
  have hdl := d.isLt; have hlo := lo.isLt
  unfold divrem
  dsimp only
  rw [EQ_spec, MUX_bit, if_neg (by intro hc; simp at hc; subst hc; omega)]
  obtain ⟨hi', lo', q', h1, h2, h3, h4⟩ := divremLoop_spec d (by omega) 31 hi lo 0 (by omega) (by omega) (by decide)
  rw [h1]
  dsimp only
  rw [GE_spec]
  have hl' := lo'.isLt
  have hov : hi' = bit (decide (hi'.toNat = 1)) := by
    apply BitVec.eq_of_toNat_eq
    rw [bit_toNat]
    by_cases hc : hi'.toNat = 1 <;> simp [hc]; omega
  obtain ⟨v, hv⟩ : ∃ v, v = hi'.toNat * 2 ^ 32 + lo'.toNat := ⟨_, rfl⟩
  have hcf : bit (decide (d.toNat ≤ lo'.toNat)) ||| hi' = bit (decide (d.toNat ≤ v)) := by
    rw [hov, bit_or]; congr 1
    rw [Bool.eq_iff_iff]; simp only [Bool.or_eq_true, decide_eq_true_eq]; omega
  rw [hcf, MUX_bit]
  have h4' : hi.toNat * 2 ^ 32 + lo.toNat = q'.toNat * d.toNat + v := by
    rw [hv]; have : (0 : Word).toNat = 0 := rfl
    rw [this] at h4; omega
  have hq' := q'.isLt
  by_cases hc : d.toNat ≤ v
  · simp only [hc, decide_true, if_true, bit_true]
    have hq1 : (q' ||| 1).toNat = q'.toNat + 1 := by
      rw [BitVec.toNat_or]
      have := Nat.two_pow_add_eq_or_of_lt (i := 1) (b := 1) (by norm_num) (q'.toNat / 2)
      show q'.toNat ||| 1 = _
      rw [show 2 ^ 1 * (q'.toNat / 2) = q'.toNat by omega] at this; exact this.symm
    have hr : (lo' - d).toNat = v - d.toNat := by rw [BitVec.toNat_sub]; omega
    rw [hq1, hr, h4', show q'.toNat * d.toNat + v = (v - d.toNat) + d.toNat * (q'.toNat + 1) by
      rw [Nat.mul_add, Nat.mul_comm d.toNat]; omega]
    refine ⟨?_, ?_⟩
    · rw [Nat.add_mul_div_left _ _ (by omega), Nat.div_eq_of_lt (by omega)]; omega
    · rw [Nat.add_mul_mod_self_left, Nat.mod_eq_of_lt (by omega)]
  · simp only [hc, decide_false, bit_false]
    have hq1 : (q' ||| 0) = q' := by simp
    have hr : lo'.toNat = v := by omega
    rw [hq1, h4', show q'.toNat * d.toNat + v = v + d.toNat * q'.toNat by rw [Nat.mul_comm]; omega]
    refine ⟨?_, ?_⟩
    · rw [Nat.add_mul_div_left _ _ (by omega), Nat.div_eq_of_lt (by omega)]; omega
    · simp only [Bool.false_eq_true, if_false]
      rw [Nat.add_mul_mod_self_left, Nat.mod_eq_of_lt (by omega), hr]

/-- `hi = d`: the quotient is truncated. -/
theorem divrem_eq (lo d : Word) (h : 0 < d.toNat) :
    (divrem d lo d).1.toNat = (d.toNat * 2 ^ 32 + lo.toNat) / d.toNat % 2 ^ 32 ∧
    (divrem d lo d).2.toNat = (d.toNat * 2 ^ 32 + lo.toNat) % d.toNat := by
  have e : divrem d lo d = divrem 0 lo d := by
    unfold divrem
    have h0 : EQ 0 d = bit false := by
      rw [EQ_spec]; congr 1; simp; intro hc; rw [← hc] at h; simp at h
    dsimp only
    rw [h0, EQ_spec, MUX_bit, MUX_bit]; simp
  rw [e]
  obtain ⟨h1, h2⟩ := divrem_lt 0 lo d (by simpa using h)
  rw [h1, h2]
  have hl := lo.isLt
  have z : (0 : Word).toNat = 0 := rfl
  have h3 : lo.toNat / d.toNat < 2 ^ 32 := lt_of_le_of_lt (Nat.div_le_self _ _) hl
  rw [z, Nat.zero_mul, Nat.zero_add, show d.toNat * 2 ^ 32 + lo.toNat = lo.toNat + d.toNat * 2 ^ 32 by omega,
    Nat.add_mul_div_left _ _ h, Nat.add_mul_mod_self_left]
  refine ⟨?_, rfl⟩
  generalize lo.toNat / d.toNat = v at *
  omega

end Ack.Powm
