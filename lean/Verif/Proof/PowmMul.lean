import Verif.Proof.PowmRed
/-! # One reduction step and the whole reduction -/
namespace Ack.Powm
open Ack.Big (Byte)

theorem i32Word_spec (hd : Word) (ws : List Word) (off : Word)
    (h : off.toNat / 32 + (if off.toNat % 32 = 0 then 1 else 2) ≤ ws.length) :
    ∃ w, i32Word (hd :: ws) off = .ok w ∧ w.toNat = val ws / 2 ^ off.toNat % 2 ^ 32 := by
  unfold i32Word
  have e1 : (off >>> 5).toNat = off.toNat / 32 := by
    rw [BitVec.toNat_ushiftRight, Nat.shiftRight_eq_div_pow]
  have e2 : (off &&& 31).toNat = off.toNat % 32 := by
    rw [BitVec.toNat_and]; exact Nat.and_two_pow_sub_one_eq_mod off.toNat 5
  dsimp only
  rw [e1, e2]
  obtain ⟨u, hu⟩ : ∃ u, u = off.toNat / 32 := ⟨_, rfl⟩
  obtain ⟨j, hj⟩ : ∃ j, j = off.toNat % 32 := ⟨_, rfl⟩
  have hoff : off.toNat = 32 * u + j := by omega
  have hj32 : j < 32 := by omega
  rw [← hu, ← hj] at h ⊢
  rw [hoff]
  have hdrop : val ws / 2 ^ (32 * u + j) = val (ws.drop u) / 2 ^ j := by
    rw [pow_add, ← Nat.div_div_eq_div_mul, ← B_eq, val_drop]
  rw [hdrop]
  split
  · next h0 =>
    rw [if_pos h0] at h
    rw [rdW_cons_succ, rdW_of_lt (by omega)]
    refine ⟨_, rfl, ?_⟩
    rw [List.drop_eq_getElem_cons (by omega), val_cons, h0]
    have := ws[u].isLt
    omega
  · next h0 =>
    rw [if_neg h0] at h
    rw [rdW_cons_succ, rdW_of_lt (by omega), ok_bind, rdW_cons_succ, rdW_of_lt (by omega), ok_bind]
    refine ⟨_, rfl, ?_⟩
    rw [shr_or_word _ _ _ (by omega) hj32]
    rw [List.drop_eq_getElem_cons (i := u) (by omega), List.drop_eq_getElem_cons (i := u + 1) (by omega), val_cons, val_cons]
    have h1 := ws[u].isLt
    have h2 := ws[u + 1].isLt
    generalize ws[u].toNat = a at *
    generalize ws[u + 1].toNat = b at *
    clear hdrop
    generalize val (List.drop (u + 1 + 1) ws) = c at *
    obtain ⟨P, hP⟩ : ∃ P, P = 2 ^ j := ⟨_, rfl⟩
    obtain ⟨J, hJ⟩ : ∃ J, J = 2 ^ (32 - j) := ⟨_, rfl⟩
    have hPJ : P * J = 4294967296 := by rw [hP, hJ, ← pow_add, show j + (32 - j) = 32 by omega]; rfl
    have hP0 : 0 < P := by rw [hP]; positivity
    rw [← hP, ← hJ]
    have : a + 4294967296 * (b + 4294967296 * c) = a + P * (J * (b + 4294967296 * c)) := by rw [← hPJ]; ring
    rw [this, Nat.add_mul_div_left _ _ hP0]
    have hb : b % P + P * (b / P) = b := Nat.mod_add_div _ _
    have : J * (b + 4294967296 * c) = (b % P) * J + 4294967296 * (b / P + J * c) := by
      conv_lhs => rw [← hb]
      rw [← hPJ]; ring
    rw [this]
    have ha : a / P < J := by rw [Nat.div_lt_iff_lt_mul hP0, Nat.mul_comm, hPJ]; exact h1
    have hbm : b % P < P := Nat.mod_lt _ hP0
    have hlt : a / P + b % P * J < 4294967296 := by
      calc a / P + b % P * J < J + b % P * J := by omega
        _ = (b % P + 1) * J := by ring
        _ ≤ P * J := Nat.mul_le_mul_right _ hbm
        _ = _ := hPJ
    rw [← Nat.add_assoc, show (2 : Nat) ^ 32 = 4294967296 from rfl, Nat.add_mul_mod_self_left, Nat.mod_eq_of_lt hlt]

theorem mulSubLoop_spec (q : Word) : ∀ (x m : List Word) (cc : DWord) (tb : Bool), x.length = m.length → cc.toNat ≤ 4294967296 →
    ∃ r cc' tb', mulSubLoop q x m cc (bit tb) = .ok (r, cc', bit tb') ∧ r.length = x.length ∧ cc'.toNat ≤ 4294967296 ∧
      val r + q.toNat * val m + cc.toNat = val x + B x.length * cc'.toNat ∧
      (tb' = true ↔ val m < val r ∨ (val r = val m ∧ tb = true)) := by
  intro x
  induction x with
  | nil =>
    intro m cc tb h hcc
    cases m with
    | nil => exact ⟨[], cc, tb, rfl, rfl, hcc, by simp, by simp⟩
    | cons => simp at h
  | cons xw x ih =>
    intro m cc tb h hcc
    cases m with
    | nil => simp at h
    | cons mw m =>
      have hx := xw.isLt; have hm := mw.isLt; have hq := q.isLt
      rw [mulSubLoop]
      dsimp only
      have hmq : mw.toNat * q.toNat ≤ 4294967295 * 4294967295 := Nat.mul_le_mul (by omega) (by omega)
      have e1 : (MUL mw q + cc).toNat = mw.toNat * q.toNat + cc.toNat := by
        rw [BitVec.toNat_add, MUL_toNat, Nat.mod_eq_of_lt (by omega)]
      obtain ⟨Z, hZ⟩ : ∃ Z, Z = mw.toNat * q.toNat + cc.toNat := ⟨_, rfl⟩
      rw [← hZ] at e1
      have e2 : (((MUL mw q + cc) >>> 32).setWidth 32 : Word).toNat = Z / 4294967296 := by
        rw [BitVec.toNat_setWidth, BitVec.toNat_ushiftRight, Nat.shiftRight_eq_div_pow, e1]; omega
      have e3 : ((MUL mw q + cc).setWidth 32 : Word).toNat = Z % 4294967296 := by
        rw [BitVec.toNat_setWidth, e1]
      obtain ⟨hiw, ehi⟩ : ∃ w, w = ((MUL mw q + cc) >>> 32).setWidth 32 := ⟨_, rfl⟩
      obtain ⟨low, elo⟩ : ∃ w, w = (MUL mw q + cc).setWidth 32 := ⟨_, rfl⟩
      rw [← ehi] at e2 ⊢
      rw [← elo] at e3 ⊢
      have e4 : (xw - low).toNat = (4294967296 - Z % 4294967296 + xw.toNat) % 4294967296 := by
        rw [BitVec.toNat_sub, e3]
      rw [GT_spec, EQ_spec, GT_spec, MUX_bit]
      have e5 : (hiw.setWidth 64 + (bit (decide (xw.toNat < (xw - low).toNat))).setWidth 64 : DWord).toNat =
          Z / 4294967296 + (if xw.toNat < (xw - low).toNat then 1 else 0) := by
        rw [BitVec.toNat_add, BitVec.toNat_setWidth, BitVec.toNat_setWidth, bit_toNat, e2]
        by_cases hc : xw.toNat < (xw - low).toNat
        · simp only [hc, decide_true, if_true]; omega
        · simp only [hc, decide_false, if_false]; simp; omega
      have etb : (if decide (xw - low = mw) = true then bit tb else bit (decide (mw.toNat < (xw - low).toNat))) =
          bit (decide (mw.toNat < (xw - low).toNat ∨ ((xw - low).toNat = mw.toNat ∧ tb = true))) := by
        by_cases hc : xw - low = mw
        · rw [hc]; simp
        · have : (xw - low).toNat ≠ mw.toNat := fun h => hc (BitVec.eq_of_toNat_eq h)
          simp only [hc, this, decide_false, Bool.false_eq_true, if_false, false_and, or_false]
      rw [etb]
      obtain ⟨r, cc', tb', h1, h2, h3, h4, h5⟩ := ih m
        (hiw.setWidth 64 + (bit (decide (xw.toNat < (xw - low).toNat))).setWidth 64)
        (decide (mw.toNat < (xw - low).toNat ∨ ((xw - low).toNat = mw.toNat ∧ tb = true))) (by simpa using h)
        (by rw [e5]; split <;> omega)
      rw [h1, ok_bind]
      refine ⟨_, cc', tb', rfl, by simp [h2], h3, ?_, ?_⟩
      · rw [e5] at h4
        simp only [val_cons, List.length_cons, B_succ]
        rw [e4] at h4 ⊢
        have hqm : q.toNat * (mw.toNat + 4294967296 * val m) = Z - cc.toNat + 4294967296 * (q.toNat * val m) := by
          rw [hZ]; rw [Nat.add_sub_cancel]; ring
        have hZc : cc.toNat ≤ Z := by omega
        rw [hqm, Nat.mul_assoc]
        generalize q.toNat * val m = qm at *
        generalize B x.length * cc'.toNat = bc at *
        clear hqm etb e5 h1 hZ e1 h5 ih e4
        split at h4 <;> omega
      · rw [h5]
        simp only [val_cons, decide_eq_true_eq]
        have hn := (xw - low).isLt
        generalize (xw - low).toNat = n at *
        clear h4 e5 e4 e3 e2 ih h1 e1 hZ etb
        constructor
        · rintro (hh | ⟨ha, hh | ⟨hb, hc⟩⟩)
          · left; omega
          · left; omega
          · right; exact ⟨by omega, hc⟩
        · rintro (hh | ⟨ha, hb⟩)
          · by_cases hc : val m < val r
            · exact Or.inl hc
            · exact Or.inr ⟨by omega, Or.inl (by omega)⟩
          · exact Or.inr ⟨by omega, Or.inr ⟨by omega, hb⟩⟩

/-! ## The quotient estimate -/

/-- Knuth's estimate: the guessed quotient is off by at most one in either direction. -/
theorem knuth {X z M k a0 T b0 q : Nat} (hX : X < M) (hz : z < 2 ^ 32) (hk : 32 < k) (hM1 : 2 ^ (k - 1) ≤ M)
    (ha0 : a0 = X / 2 ^ (k - 32)) (hT : T = (X * 2 ^ 32 + z) / 2 ^ (k - 32)) (hb0 : b0 = M / 2 ^ (k - 32))
    (hq : q = if a0 = b0 then 2 ^ 32 - 1 else T / b0 - 1) (hTa : T / 2 ^ 32 = a0) :
    q * M ≤ X * 2 ^ 32 + z + M ∧ X * 2 ^ 32 + z < (q + 2) * M := by
  obtain ⟨S, hS⟩ : ∃ S, S = 2 ^ (k - 32) := ⟨_, rfl⟩
  obtain ⟨A, hA⟩ : ∃ A, A = X * 2 ^ 32 + z := ⟨_, rfl⟩
  have hS0 : 0 < S := by rw [hS]; positivity
  have hM0 : 0 < M := by omega
  rw [← hS] at ha0 hT hb0
  rw [← hA] at hT ⊢
  have hb31 : 2 ^ 31 ≤ b0 := by
    rw [hb0, Nat.le_div_iff_mul_le hS0, hS, ← pow_add, show 31 + (k - 32) = k - 1 by omega]; exact hM1
  obtain ⟨Q, hQ⟩ : ∃ Q, Q = A / M := ⟨_, rfl⟩
  have hQM : Q * M ≤ A := by rw [hQ]; exact Nat.div_mul_le_self _ _
  have hQM2 : A < (Q + 1) * M := (Nat.div_lt_iff_lt_mul hM0).1 (by omega)
  have hQW : Q < 2 ^ 32 := by
    rw [hQ, Nat.div_lt_iff_lt_mul hM0, hA]
    calc X * 2 ^ 32 + z < (X + 1) * 2 ^ 32 := by omega
      _ ≤ M * 2 ^ 32 := Nat.mul_le_mul_right _ hX
      _ = _ := by ring
  have hMS : b0 * S ≤ M := by rw [hb0]; exact Nat.div_mul_le_self _ _
  have hMS2 : M < (b0 + 1) * S := (Nat.div_lt_iff_lt_mul hS0).1 (by omega)
  obtain ⟨u, hu⟩ : ∃ u, u = T / b0 := ⟨_, rfl⟩
  have hQu : Q ≤ u := by
    rw [hu, Nat.le_div_iff_mul_le (by omega), hT, Nat.le_div_iff_mul_le hS0]
    calc Q * b0 * S = Q * (b0 * S) := by ring
      _ ≤ Q * M := Nat.mul_le_mul_left _ hMS
      _ ≤ A := hQM
  have huQ : u ≤ Q + 2 := by
    by_contra hc
    have h1 : (Q + 3) * b0 * S ≤ A := by
      calc (Q + 3) * b0 * S ≤ u * b0 * S := Nat.mul_le_mul_right _ (Nat.mul_le_mul_right _ (by omega))
        _ ≤ T * S := Nat.mul_le_mul_right _ (by rw [hu]; exact Nat.div_mul_le_self _ _)
        _ ≤ A := by rw [hT]; exact Nat.div_mul_le_self _ _
    have h2 : A < (Q + 1) * (b0 + 1) * S := by
      calc A < (Q + 1) * M := hQM2
        _ ≤ (Q + 1) * ((b0 + 1) * S) := Nat.mul_le_mul_left _ hMS2.le
        _ = _ := by ring
    have h3 : (Q + 3) * b0 < (Q + 1) * (b0 + 1) := Nat.lt_of_mul_lt_mul_right (lt_of_le_of_lt h1 h2)
    have h4 : 2 * b0 < Q + 1 := by
      have e1 : (Q + 3) * b0 = Q * b0 + 3 * b0 := by ring
      have e2 : (Q + 1) * (b0 + 1) = Q * b0 + Q + b0 + 1 := by ring
      omega
    omega
  have hqQ : q ≤ Q + 1 ∧ Q ≤ q + 1 := by
    rw [hq]
    split
    · next hab =>
      have : 2 ^ 32 ≤ u := by
        rw [hu, Nat.le_div_iff_mul_le (by omega)]
        have := Nat.div_mul_le_self T (2 ^ 32)
        rw [hTa, hab] at this; rw [Nat.mul_comm]; exact this
      constructor <;> omega
    · rw [← hu]; constructor <;> omega
  constructor
  · calc q * M ≤ (Q + 1) * M := Nat.mul_le_mul_right _ hqQ.1
      _ = Q * M + M := by ring
      _ ≤ A + M := by omega
  · calc A < (Q + 1) * M := hQM2
      _ ≤ (q + 2) * M := Nat.mul_le_mul_right _ (by omega)

theorem valueWords_eq (h : Word) (hl : h.toNat < 2 ^ 31) : valueWords h = (h.toNat + 31) / 32 := by
  unfold valueWords
  rw [BitVec.toNat_ushiftRight, Nat.shiftRight_eq_div_pow, BitVec.toNat_add]
  show (h.toNat + 63) % 2 ^ 32 / 2 ^ 5 - 1 = _
  omega

theorem mlen_eq (h : Word) (hl : h.toNat < 2 ^ 31) : ((h + 31) >>> 5).toNat = (h.toNat + 31) / 32 := by
  rw [BitVec.toNat_ushiftRight, Nat.shiftRight_eq_div_pow, BitVec.toNat_add]
  show (h.toNat + 31) % 2 ^ 32 / 2 ^ 5 = _
  omega

theorem slice_one (hd : Word) (xs rest : List Word) (n : Nat) (h : xs.length = n) :
    slice (hd :: (xs ++ rest)) 1 n = .ok xs := by
  rw [slice_eq (by simp; omega)]
  simp [← h]

theorem patch_one (hd : Word) (xs rest ws : List Word) (h : xs.length = ws.length) :
    patch (hd :: (xs ++ rest)) 1 ws = .ok (hd :: (ws ++ rest)) := by
  rw [patch_eq (by simp; omega)]
  simp [← h, Nat.add_comm 1]

theorem i32Add_spec (hd : Word) (xs rest ms : List Word) (c : Bool) (hl : xs.length = ms.length) (hb : hd.toNat < 2 ^ 31)
    (hm : ms.length = (hd.toNat + 31) / 32) :
    ∃ (r : List Word) (k : Bool), i32Add (hd :: (xs ++ rest)) (hd :: ms) (bit c) = .ok (hd :: (r ++ rest)) ∧ r.length = ms.length ∧
      (c = false → r = xs) ∧ (c = true → val r + (if k then B ms.length else 0) = val xs + val ms) := by
  unfold i32Add
  rw [rdW_cons_zero, ok_bind, valueWords_eq _ hb, ← hm]
  dsimp only
  rw [slice_one _ _ _ _ hl, ok_bind]
  have e : slice (hd :: ms) 1 ms.length = .ok ms := by simpa using slice_one hd ms [] _ rfl
  rw [e, ok_bind]
  obtain ⟨r, k, h1, h2, h3, h4⟩ := addLoop_spec c xs ms false hl
  rw [show (0 : Word) = bit false from rfl, h1, ok_bind]
  dsimp only
  rw [patch_one _ _ _ _ h2.symm]
  refine ⟨r, k, rfl, h2.trans hl, h3, fun hc => ?_⟩
  have := h4 hc
  rw [← hl]; simpa using this

theorem i32Sub_spec (hd : Word) (xs rest ms : List Word) (c : Bool) (hl : xs.length = ms.length) (hb : hd.toNat < 2 ^ 31)
    (hm : ms.length = (hd.toNat + 31) / 32) :
    ∃ (r : List Word) (k : Bool), i32Sub (hd :: (xs ++ rest)) (hd :: ms) (bit c) = .ok (hd :: (r ++ rest)) ∧ r.length = ms.length ∧
      (c = false → r = xs) ∧ (c = true → val r + val ms = val xs + (if k then B ms.length else 0)) := by
  unfold i32Sub
  rw [rdW_cons_zero, ok_bind, valueWords_eq _ hb, ← hm]
  dsimp only
  rw [slice_one _ _ _ _ hl, ok_bind]
  have e : slice (hd :: ms) 1 ms.length = .ok ms := by simpa using slice_one hd ms [] _ rfl
  rw [e, ok_bind]
  obtain ⟨r, k, h1, h2, h3, h4⟩ := subLoop_spec c xs ms false hl
  rw [show (0 : Word) = bit false from rfl, h1, ok_bind]
  dsimp only
  rw [patch_one _ _ _ _ h2.symm]
  refine ⟨r, k, rfl, h2.trans hl, h3, fun hc => ?_⟩
  have := h4 hc
  rw [← hl]; simpa using this

/-- A header announcing the bit length of a non-zero number that fills its words. -/
structure Hdr (hd : Word) (ms : List Word) : Prop where
  len : hd.toNat = Spec.bitLen (val ms)
  small : hd.toNat < 2 ^ 31
  pos : val ms ≠ 0
  words : ms.length = (hd.toNat + 31) / 32

theorem muladdSmall_small (hd : Word) (xs rest ms : List Word) (z : Word) (H : Hdr hd ms) (hl : xs.length = ms.length)
    (hx : val xs < val ms) (hk : hd.toNat ≤ 32) :
    ∃ r, muladdSmall (hd :: (xs ++ rest)) z (hd :: ms) = .ok (hd :: (r ++ rest)) ∧ r.length = ms.length ∧
      val r = (val xs * 2 ^ 32 + z.toNat) % val ms := by
  have hk0 : 0 < hd.toNat := by rw [H.len]; exact bitLen_pos H.pos
  have h1 : ms.length = 1 := by rw [H.words]; omega
  obtain ⟨m, rfl⟩ : ∃ m, ms = [m] := by
    match ms, h1 with
    | [m], _ => exact ⟨m, rfl⟩
  obtain ⟨x, rfl⟩ : ∃ x, xs = [x] := by
    match xs, hl with
    | [m], _ => exact ⟨m, rfl⟩
  simp only [val_cons, val_nil, Nat.mul_zero, Nat.add_zero] at hx ⊢
  unfold muladdSmall
  rw [rdW_cons_zero, ok_bind, if_neg (fun h => by rw [h] at hk0; simp at hk0), if_pos (by rw [BitVec.le_def]; exact hk)]
  refine ⟨[(divrem x z m).2], rfl, rfl, ?_⟩
  simp only [val_cons, val_nil, Nat.mul_zero, Nat.add_zero]
  exact (divrem_lt x z m hx).2

theorem over_under (cc : DWord) (hcc : cc.toNat ≤ 4294967296) (hi : Word) (tb : Bool) :
    ∃ o u : Bool, (((cc >>> 32).setWidth 32 : Word) ||| GT (cc.setWidth 32) hi) = bit o ∧
      (o = true ↔ hi.toNat < cc.toNat) ∧
      (~~~(bit o) &&& (bit tb ||| (~~~((cc >>> 32).setWidth 32 : Word) &&& LT (cc.setWidth 32) hi))) = bit u ∧
      (u = true ↔ cc.toNat ≤ hi.toNat ∧ (tb = true ∨ cc.toNat < hi.toNat)) := by
  have hh := hi.isLt
  have e1 : ((cc >>> 32).setWidth 32 : Word) = bit (decide (cc.toNat = 4294967296)) := by
    apply BitVec.eq_of_toNat_eq
    rw [bit_toNat, BitVec.toNat_setWidth, BitVec.toNat_ushiftRight, Nat.shiftRight_eq_div_pow]
    by_cases h : cc.toNat = 4294967296 <;> simp [h]; omega
  have e2 : (cc.setWidth 32 : Word).toNat = cc.toNat % 4294967296 := by rw [BitVec.toNat_setWidth]
  refine ⟨decide (hi.toNat < cc.toNat), decide (cc.toNat ≤ hi.toNat ∧ (tb = true ∨ cc.toNat < hi.toNat)), ?_, by simp, ?_, by simp⟩
  · rw [GT_spec, e1, e2, bit_or]; congr 1
    rw [Bool.eq_iff_iff]; simp only [Bool.or_eq_true, decide_eq_true_eq]; omega
  · rw [LT_spec, e1, e2]
    have key : ∀ a b c d : Bool, (~~~(bit a) &&& (bit b ||| (~~~(bit c) &&& bit d))) = bit (!a && (b || (!c && d))) := by decide
    rw [key]; congr 1
    rw [Bool.eq_iff_iff]
    simp only [Bool.and_eq_true, Bool.not_eq_true', Bool.or_eq_true, decide_eq_true_eq, decide_eq_false_iff_not]
    constructor
    · rintro ⟨h1, h2 | ⟨h2, h3⟩⟩
      · exact ⟨by omega, Or.inl h2⟩
      · exact ⟨by omega, Or.inr (by omega)⟩
    · rintro ⟨h1, h2 | h2⟩
      · exact ⟨by omega, Or.inl h2⟩
      · exact ⟨by omega, Or.inr ⟨by omega, by omega⟩⟩

theorem high_div {X R s t : Nat} (h : t + 32 ≤ s) : (X + 2 ^ s * R) / 2 ^ t % 2 ^ 32 = X / 2 ^ t % 2 ^ 32 := by
  have : (2 : Nat) ^ s * R = 2 ^ t * (2 ^ 32 * (2 ^ (s - t - 32) * R)) := by
    rw [← Nat.mul_assoc, ← Nat.mul_assoc, ← pow_add, ← pow_add]; congr 2; omega
  rw [this, Nat.add_mul_div_left _ _ (Nat.two_pow_pos t), Nat.add_mul_mod_self_left]

theorem muladdSmall_big (hd : Word) (xs rest ms : List Word) (z : Word) (H : Hdr hd ms) (hl : xs.length = ms.length)
    (hx : val xs < val ms) (hk : 32 < hd.toNat) :
    ∃ r, muladdSmall (hd :: (xs ++ rest)) z (hd :: ms) = .ok (hd :: (r ++ rest)) ∧ r.length = ms.length ∧
      val r = (val xs * 2 ^ 32 + z.toNat) % val ms := by
  have hz := z.isLt
  have hb := H.small
  have hw := H.words
  have hMlt : val ms < 2 ^ hd.toNat := by rw [H.len]; exact bitLen_lt _
  have hMge : 2 ^ (hd.toNat - 1) ≤ val ms := by rw [H.len]; exact le_bitLen H.pos
  obtain ⟨k, hkd⟩ : ∃ k, k = hd.toNat := ⟨_, rfl⟩
  rw [← hkd] at hMlt hMge hk hw
  have hoff : (hd - 32).toNat = k - 32 := by
    rw [BitVec.toNat_sub]
    show (2 ^ 32 - 32 + hd.toNat) % 2 ^ 32 = _
    omega
  have hoffw : (hd - 32).toNat / 32 + (if (hd - 32).toNat % 32 = 0 then 1 else 2) ≤ ms.length := by
    rw [hoff, hw]; split <;> omega
  -- split off the top word
  obtain ⟨xl, xt, rfl⟩ : ∃ xl xt, xs = xl ++ [xt] := by
    rcases List.eq_nil_or_concat xs with h | ⟨a, b, h⟩
    · subst h; simp at hl; omega
    · exact ⟨a, b, by rw [h, List.concat_eq_append]⟩
  have hxl : xl.length + 1 = ms.length := by simpa using hl
  unfold muladdSmall
  rw [rdW_cons_zero, ok_bind, if_neg (fun h => by rw [h] at hkd; simp at hkd; omega),
    if_neg (by rw [BitVec.le_def]; show ¬ hd.toNat ≤ 32; omega)]
  dsimp only
  rw [mlen_eq _ hb, ← hkd, ← hw]
  -- the high words
  obtain ⟨a0, ha0, va0⟩ := i32Word_spec hd (xl ++ [xt] ++ rest) (hd - 32)
    (by rw [List.length_append, hl]; omega)
  rw [ha0, ok_bind]
  have hrd : rdW (hd :: (xl ++ [xt] ++ rest)) ms.length = .ok xt := by
    rw [← hxl, rdW_cons_succ]; simp [rdW]
  rw [hrd, ok_bind]
  have hsl : slice (hd :: (xl ++ [xt] ++ rest)) 1 (ms.length - 1) = .ok xl := by
    have := slice_one hd xl (xt :: rest) (ms.length - 1) (by omega)
    simpa using this
  rw [hsl, ok_bind]
  obtain ⟨x0, xl', hx0⟩ : ∃ x0 xl', xl ++ [xt] = x0 :: xl' := by
    cases xl with
    | nil => exact ⟨xt, [], rfl⟩
    | cons a b => exact ⟨a, b ++ [xt], rfl⟩
  have hxl' : xl'.length = xl.length := by
    have := congrArg List.length hx0; simpa using this.symm
  have hpt : patch (hd :: (xl ++ [xt] ++ rest)) 2 xl = .ok (hd :: x0 :: (xl ++ rest)) := by
    rw [hx0, patch_eq (by simp; omega)]
    simp [← hxl', Nat.add_comm 2]
  rw [hpt, ok_bind]
  have hwr : wrW (hd :: x0 :: (xl ++ rest)) 1 z = .ok (hd :: ((z :: xl) ++ rest)) := by
    rw [wrW_eq (by simp)]; rfl
  rw [hwr, ok_bind]
  obtain ⟨a1, ha1, va1⟩ := i32Word_spec hd ((z :: xl) ++ rest) (hd - 32)
    (by rw [List.length_append, List.length_cons]; omega)
  rw [ha1, ok_bind]
  obtain ⟨b0, hb0, vb0⟩ := i32Word_spec hd ms (hd - 32) hoffw
  rw [hb0, ok_bind]
  -- their values
  obtain ⟨M, hM⟩ : ∃ M, M = val ms := ⟨_, rfl⟩
  obtain ⟨X, hX⟩ : ∃ X, X = val (xl ++ [xt]) := ⟨_, rfl⟩
  obtain ⟨A, hA⟩ : ∃ A, A = X * 2 ^ 32 + z.toNat := ⟨_, rfl⟩
  obtain ⟨Y, hY⟩ : ∃ Y, Y = val (z :: xl) := ⟨_, rfl⟩
  have hYA : A = Y + B ms.length * xt.toNat := by
    rw [hA, hX, hY, val_append, val_singleton, val_cons, ← hxl, B_succ]; ring
  have hBM : M < B ms.length := by rw [hM]; exact val_lt ms
  have hYlt : Y < B ms.length := by rw [hY, ← hxl]; exact val_lt (z :: xl)
  have h32 : k - 32 + 32 ≤ 32 * ms.length := by omega
  rw [← hM] at hMlt hMge vb0 hx
  rw [← hX] at hx
  rw [hoff] at va0 va1 vb0
  have hS0 : 0 < 2 ^ (k - 32) := Nat.two_pow_pos _
  have hS1 : 2 ^ (k - 32) * 2 ^ 32 = 2 ^ k := by rw [← pow_add]; congr 1; omega
  have vb0' : b0.toNat = M / 2 ^ (k - 32) := by
    rw [vb0, Nat.mod_eq_of_lt]; rw [Nat.div_lt_iff_lt_mul hS0, Nat.mul_comm, hS1]; exact hMlt
  have va0' : a0.toNat = X / 2 ^ (k - 32) := by
    rw [va0, val_append, hl, B_eq, high_div h32, ← hX, Nat.mod_eq_of_lt]
    rw [Nat.div_lt_iff_lt_mul hS0, Nat.mul_comm, hS1]; omega
  have va1' : a1.toNat = A / 2 ^ (k - 32) % 2 ^ 32 := by
    rw [va1, val_append, ← hY, List.length_cons, hxl, B_eq, high_div h32, hYA, B_eq, high_div h32]
  obtain ⟨T, hT⟩ : ∃ T, T = A / 2 ^ (k - 32) := ⟨_, rfl⟩
  have hT0 : T / 2 ^ 32 = a0.toNat := by
    rw [hT, Nat.div_div_eq_div_mul, Nat.mul_comm, ← Nat.div_div_eq_div_mul, va0']
    congr 1; omega
  have hTT : T = a0.toNat * 2 ^ 32 + a1.toNat := by
    rw [va1', ← hT, ← hT0]; omega
  have hab : a0.toNat ≤ b0.toNat := by rw [va0', vb0']; exact Nat.div_le_div_right hx.le
  -- the quotient
  obtain ⟨q, hq⟩ : ∃ q, q = MUX (EQ a0 b0) 0xFFFFFFFF (MUX (EQ (divrem a0 a1 b0).1 0) 0 ((divrem a0 a1 b0).1 - 1)) := ⟨_, rfl⟩
  have vq : q.toNat = if a0.toNat = b0.toNat then 2 ^ 32 - 1 else T / b0.toNat - 1 := by
    rw [hq, EQ_spec, EQ_spec, MUX_bit, MUX_bit]
    by_cases hc : a0 = b0
    · simp [hc]
    · have hc' : a0.toNat ≠ b0.toNat := fun h => hc (BitVec.eq_of_toNat_eq h)
      have hg := (divrem_lt a0 a1 b0 (by omega)).1
      rw [← hTT] at hg
      simp only [hc, hc', decide_false, Bool.false_eq_true, if_false]
      have hgl := (divrem a0 a1 b0).1.isLt
      rw [← hg]
      generalize (divrem a0 a1 b0).1 = g at *
      by_cases hg0 : g = 0
      · subst hg0; simp
      · have : g.toNat ≠ 0 := fun h => hg0 ((word_zero_iff g).2 h)
        simp only [hg0, decide_false, Bool.false_eq_true, if_false]
        rw [BitVec.toNat_sub]
        show (2 ^ 32 - 1 + g.toNat) % 2 ^ 32 = _
        omega
  rw [← hq]
  obtain ⟨hq1, hq2⟩ := knuth (X := X) (z := z.toNat) (M := M) (k := k) (q := q.toNat) hx hz hk hMge va0' (hA ▸ hT) vb0' vq hT0
  rw [← hA] at hq1 hq2
  -- subtraction of the multiple
  rw [slice_one hd (z :: xl) rest ms.length (by simpa using hxl), ok_bind]
  have e : slice (hd :: ms) 1 ms.length = .ok ms := by simpa using slice_one hd ms [] _ rfl
  rw [e, ok_bind]
  obtain ⟨r, cc, tb, h1, h2, h3, h4, h5⟩ := mulSubLoop_spec q (z :: xl) ms 0 true (by simpa using hxl) (by simp)
  rw [show (1 : Word) = bit true from rfl, h1, ok_bind]
  dsimp only
  rw [patch_one hd (z :: xl) rest r h2.symm, ok_bind]
  obtain ⟨o, u, ho, ho', hu, hu'⟩ := over_under cc h3 xt tb
  rw [ho, hu]
  have hrl : r.length = ms.length := by rw [h2]; simpa using hxl
  obtain ⟨r1, k1, p1, p2, p3, p4⟩ := i32Add_spec hd r rest ms o hrl hb (by omega)
  rw [p1, ok_bind]
  obtain ⟨r2, k2, s1, s2, s3, s4⟩ := i32Sub_spec hd r1 rest ms u p2 hb (by omega)
  rw [s1]
  refine ⟨r2, rfl, s2, ?_⟩
  rw [← hX, ← hA, ← hM]
  -- arithmetic
  have hr := val_lt r
  have hr1 := val_lt r1
  have hr2 := val_lt r2
  rw [hrl] at hr
  rw [p2] at hr1
  rw [s2] at hr2
  rw [← hM] at p4 s4 h4 h5
  rw [← hY, h2.symm.trans hrl] at h4
  have z0 : (0 : DWord).toNat = 0 := rfl
  rw [z0, Nat.add_zero] at h4
  clear h1 p1 s1 ho hu ha0 ha1 hb0 hrd hsl hpt hwr e hq vq hoff hoffw va0 va1 vb0 hT0 hTT hT hab hS0 hS1 vb0' va0' va1' hY hX hM hA
  generalize B ms.length = BB at *
  have hfin : val r2 < M ∧ ∃ c, A = val r2 + M * c := by
    have e1 : (q.toNat + 2) * M = q.toNat * M + 2 * M := by ring
    rw [e1] at hq2
    have hstep : (o = true ∧ A + M = q.toNat * M + val r2 ∧ val r2 < M) ∨ (o = false ∧ u = false ∧ A = q.toNat * M + val r2 ∧ val r2 < M) ∨
        (o = false ∧ u = true ∧ A = q.toNat * M + M + val r2 ∧ val r2 < M) := by
      clear e1
      generalize q.toNat * M = qM at *
      -- the difference of the carry and the top word
      rcases Nat.lt_trichotomy cc.toNat xt.toNat with hc | hc | hc
      · -- one extra bit
        have h6 : BB * xt.toNat = BB * cc.toNat + BB * (xt.toNat - cc.toNat) := by rw [← Nat.mul_add]; congr 1; omega
        have h7 : BB ≤ BB * (xt.toNat - cc.toNat) := Nat.le_mul_of_pos_right _ (by omega)
        have o0 : o = false := by
          cases o
          · rfl
          · have := ho'.1 rfl; omega
        have u1 : u = true := hu'.2 ⟨by omega, Or.inr hc⟩
        have hr1e := p3 o0
        have s5 := s4 u1
        have h8 : BB * (xt.toNat - cc.toNat) = BB := by
          by_contra hne
          have : 2 ≤ xt.toNat - cc.toNat := by
            by_contra h'; have : xt.toNat - cc.toNat = 1 := by omega
            rw [this] at hne; omega
          have : BB * 2 ≤ BB * (xt.toNat - cc.toNat) := Nat.mul_le_mul_left _ this
          omega
        refine Or.inr (Or.inr ⟨o0, u1, ?_⟩)
        rw [hr1e] at s5
        cases k2 <;> simp only [Bool.false_eq_true, if_false, if_true] at s5 <;> omega
      · -- no extra bit
        have o0 : o = false := by
          cases o
          · rfl
          · have := ho'.1 rfl; omega
        have hr1e := p3 o0
        rw [← hc] at hYA
        by_cases ht : tb = true
        · have u1 : u = true := hu'.2 ⟨by omega, Or.inl ht⟩
          have hge := h5.1 ht
          have hge' : M ≤ val r := by rcases hge with h | ⟨h, _⟩ <;> omega
          have s5 := s4 u1
          rw [hr1e] at s5
          refine Or.inr (Or.inr ⟨o0, u1, ?_⟩)
          cases k2 <;> simp only [Bool.false_eq_true, if_false, if_true] at s5 <;> omega
        · have u0 : u = false := by
            cases u
            · rfl
            · rcases (hu'.1 rfl).2 with h | h
              · exact absurd h ht
              · omega
          have hlt : val r < M := by
            by_contra hge
            apply ht
            rw [h5]
            rcases Nat.lt_or_ge M (val r) with h | h
            · exact Or.inl h
            · exact Or.inr ⟨by omega, rfl⟩
          have := s3 u0
          refine Or.inr (Or.inl ⟨o0, u0, ?_⟩)
          rw [this, hr1e]
          omega
      · -- overestimated
        have h6 : BB * cc.toNat = BB * xt.toNat + BB * (cc.toNat - xt.toNat) := by rw [← Nat.mul_add]; congr 1; omega
        have h7 : BB ≤ BB * (cc.toNat - xt.toNat) := Nat.le_mul_of_pos_right _ (by omega)
        have o1 : o = true := ho'.2 hc
        have u0 : u = false := by
          cases u
          · rfl
          · have := (hu'.1 rfl).1; omega
        have := s3 u0
        rw [this]
        have p5 := p4 o1
        have h8 : BB * (cc.toNat - xt.toNat) = BB := by
          by_contra hne
          have : 2 ≤ cc.toNat - xt.toNat := by
            by_contra h'; have : cc.toNat - xt.toNat = 1 := by omega
            rw [this] at hne; omega
          have : BB * 2 ≤ BB * (cc.toNat - xt.toNat) := Nat.mul_le_mul_left _ this
          omega
        refine Or.inl ⟨o1, ?_⟩
        cases k1 <;> simp only [Bool.false_eq_true, if_false, if_true] at p5 <;> omega
    rcases hstep with ⟨_, h6, h7⟩ | ⟨_, _, h6, h7⟩ | ⟨_, _, h6, h7⟩
    · refine ⟨h7, q.toNat - 1, ?_⟩
      rcases Nat.eq_zero_or_pos q.toNat with h0 | h0
      · rw [h0] at h6; omega
      · rw [Nat.mul_sub, Nat.mul_comm M]; have : M ≤ q.toNat * M := Nat.le_mul_of_pos_left _ h0; omega
    · exact ⟨h7, q.toNat, by rw [Nat.mul_comm M]; omega⟩
    · exact ⟨h7, q.toNat + 1, by rw [Nat.mul_add, Nat.mul_comm M]; omega⟩
  obtain ⟨hlt, c, hc⟩ := hfin
  rw [hc, Nat.add_mul_mod_self_left, Nat.mod_eq_of_lt hlt]

theorem muladdSmall_spec (hd : Word) (xs rest ms : List Word) (z : Word) (H : Hdr hd ms) (hl : xs.length = ms.length)
    (hx : val xs < val ms) :
    ∃ r, muladdSmall (hd :: (xs ++ rest)) z (hd :: ms) = .ok (hd :: (r ++ rest)) ∧ r.length = ms.length ∧
      val r = (val xs * 2 ^ 32 + z.toNat) % val ms := by
  rcases Nat.lt_or_ge 32 hd.toNat with h | h
  · exact muladdSmall_big hd xs rest ms z H hl hx h
  · exact muladdSmall_small hd xs rest ms z H hl hx h

end Ack.Powm
