import Verif.Proof.PowmMont
import Mathlib.Data.Nat.ModEq
/-! # Exponentiation on Montgomery words -/
namespace Ack.Powm
open Ack.Big (Byte)

theorem geMod_spec (m num : List Word) : ∀ i, i ≤ m.length → i ≤ num.length →
    geMod m num i = .ok (decide (val (m.take i) ≤ val (num.take i))) := by
  intro i
  induction i with
  | zero => intro _ _; simp [geMod]
  | succ i ih =>
    intro h1 h2
    rw [geMod, rdW_of_lt (show i < num.length by omega), ok_bind, rdW_of_lt (show i < m.length by omega), ok_bind,
      val_take_succ m i (by omega), val_take_succ num i (by omega), ih (by omega) (by omega)]
    have b1 := val_take_lt m i
    have b2 := val_take_lt num i
    generalize val (m.take i) = u at *
    generalize val (num.take i) = v at *
    generalize 2 ^ (32 * i) = P at *
    have hxy : ∀ x y : Word, (x < y) = (x.toNat < y.toNat) := fun _ _ => rfl
    by_cases c1 : num[i] < m[i]
    · rw [if_pos c1]; rw [hxy] at c1
      have : (num[i].toNat + 1) * P ≤ m[i].toNat * P := Nat.mul_le_mul_right _ c1
      rw [Nat.add_mul] at this
      congr 1; symm; rw [decide_eq_false_iff_not]; omega
    · rw [if_neg c1]; rw [hxy] at c1
      by_cases c2 : num[i] > m[i]
      · rw [if_pos c2]; rw [gt_iff_lt, hxy] at c2
        have : (m[i].toNat + 1) * P ≤ num[i].toNat * P := Nat.mul_le_mul_right _ c2
        rw [Nat.add_mul] at this
        congr 1; symm; rw [decide_eq_true_eq]; omega
      · rw [if_neg c2]; rw [gt_iff_lt, hxy] at c2
        have : m[i].toNat = num[i].toNat := by omega
        rw [this]; congr 1; simp

/-! ## Bits of the exponent -/

theorem one_shl_bit (i j : Nat) : ((1 : BitVec 64) <<< i).getLsbD j = (decide (j < 64) && decide (i = j)) := by
  have : (1 : BitVec 64) <<< i = BitVec.ofNat 64 (2 ^ i) := by
    apply BitVec.eq_of_toNat_eq
    rw [BitVec.toNat_shiftLeft, BitVec.toNat_ofNat, Nat.shiftLeft_eq]
    show 1 % 2 ^ 64 * 2 ^ i % 2 ^ 64 = _
    simp
  rw [this, BitVec.getLsbD_ofNat, Nat.testBit_two_pow]

theorem expBit_spec (e : BitVec 64) (i : Nat) : expBit e i = (decide (i < 32) && e.toNat.testBit i) := by
  unfold expBit
  have hg : ∀ j, ((e &&& ((1 : BitVec 64) <<< i)).setWidth 32 : BitVec 32).getLsbD j = (decide (j < 32) && (e.toNat.testBit j && decide (i = j))) := by
    intro j
    rw [BitVec.getLsbD_setWidth, BitVec.getLsbD_and, one_shl_bit]
    by_cases h : j < 32
    · have : j < 64 := by omega
      simp only [h, this, decide_true, Bool.true_and]; rfl
    · simp [h]
  have h : ((e &&& ((1 : BitVec 64) <<< i)).setWidth 32 : BitVec 32) = 0 ↔ (decide (i < 32) && e.toNat.testBit i) = false := by
    constructor
    · intro h
      have := hg i
      rw [h] at this
      simpa using this.symm
    · intro h
      apply BitVec.eq_of_getLsbD_eq
      intro j hj
      rw [hg]
      by_cases hji : i = j
      · subst hji
        simpa using h
      · simp [hji]
  by_cases hc : ((e &&& ((1 : BitVec 64) <<< i)).setWidth 32 : BitVec 32) = 0
  · rw [h.1 hc]; simpa using hc
  · have : ¬ (decide (i < 32) && e.toNat.testBit i) = false := fun q => hc (h.2 q)
    rw [Bool.not_eq_false] at this
    rw [this]; simpa using hc

theorem expBitsLoop_spec : ∀ (f : Nat) (e : BitVec 64) (c : Nat), e ≠ 0 → Spec.bitLen e.toNat ≤ f →
    expBitsLoop f e c = some (c + (Spec.bitLen e.toNat - 1)) := by
  intro f
  induction f with
  | zero =>
    intro e c he hb
    have : e.toNat ≠ 0 := fun h => he (BitVec.eq_of_toNat_eq (by simpa using h))
    have := bitLen_pos this; omega
  | succ f ih =>
    intro e c he hb
    have hne : e.toNat ≠ 0 := fun h => he (BitVec.eq_of_toNat_eq (by simpa using h))
    have hv : (e >>> 1).toNat = e.toNat / 2 := by rw [BitVec.toNat_ushiftRight, Nat.shiftRight_eq_div_pow]
    rw [expBitsLoop]
    by_cases h0 : e >>> 1 = 0
    · rw [if_pos h0]
      have : e.toNat / 2 = 0 := by rw [← hv, h0]; rfl
      have h1 : e.toNat = 1 := by omega
      rw [h1]; rfl
    · rw [if_neg h0]
      have hge : 2 ^ 1 ≤ e.toNat := by
        by_contra h
        apply h0
        apply BitVec.eq_of_toNat_eq
        rw [hv]; simp; omega
      have hd := bitLen_div e.toNat 1 hge
      rw [pow_one] at hd
      have hp : 0 < Spec.bitLen (e.toNat / 2) := bitLen_pos (by omega)
      rw [ih _ _ h0 (by rw [hv]; omega), hv]
      congr 1; omega

theorem numExpBits_spec (e : BitVec 64) : numExpBits e = some (Spec.bitLen e.toNat) := by
  unfold numExpBits
  by_cases h : e = 0
  · rw [if_pos h, h]; rfl
  · have hne : e.toNat ≠ 0 := fun q => h (BitVec.eq_of_toNat_eq (by simpa using q))
    have hp := bitLen_pos hne
    have hle : Spec.bitLen e.toNat ≤ 64 := by
      have h1 := le_bitLen hne
      have h2 := e.isLt
      have := (Nat.pow_lt_pow_iff_right (a := 2) (by norm_num)).1 (lt_of_le_of_lt h1 h2)
      omega
    rw [if_neg h, expBitsLoop_spec 64 e 1 h hle]
    congr 1; omega

/-- The exponent the loop really uses: below the top bit only the low 32 bits count. -/
def effExp (e : Nat) : Nat := if e < 2 ^ 33 then e else 2 ^ (Spec.bitLen e - 1) + e % 2 ^ 32

theorem effExp_testBit (e : BitVec 64) (i : Nat) (h : i + 1 < Spec.bitLen e.toNat) : (effExp e.toNat).testBit i = expBit e i := by
  rw [expBit_spec]
  unfold effExp
  split
  · next h33 =>
    have h0 : e.toNat ≠ 0 := by intro q; rw [q] at h; simp [Spec.bitLen] at h
    have h1 := le_bitLen h0
    have := (Nat.pow_lt_pow_iff_right (a := 2) (by norm_num)).1 (lt_of_le_of_lt h1 h33)
    have : i < 32 := by omega
    simp [this]
  · have e1 : 2 ^ (Spec.bitLen e.toNat - 1) + e.toNat % 2 ^ 32 = 2 ^ (Spec.bitLen e.toNat - 1) * 1 + e.toNat % 2 ^ 32 := by ring
    have hlt : e.toNat % 2 ^ 32 < 2 ^ (Spec.bitLen e.toNat - 1) := by
      next h33 =>
      have h2 := bitLen_lt e.toNat
      have h3 : 2 ^ 33 < 2 ^ Spec.bitLen e.toNat := by omega
      have h4 := (Nat.pow_lt_pow_iff_right (a := 2) (by norm_num)).1 h3
      have h5 : 2 ^ 32 ≤ 2 ^ (Spec.bitLen e.toNat - 1) := Nat.pow_le_pow_right (by norm_num) (by omega)
      omega
    rw [e1, Nat.testBit_two_pow_mul_add _ hlt, if_pos (by omega), Nat.testBit_mod_two_pow]

theorem effExp_top (e : Nat) (h : 2 ≤ Spec.bitLen e) : effExp e / 2 ^ (Spec.bitLen e - 1) = 1 := by
  have h0 : e ≠ 0 := by intro q; rw [q] at h; simp [Spec.bitLen] at h
  have hl := le_bitLen h0
  have hu := bitLen_lt e
  obtain ⟨k, hk⟩ : ∃ k, Spec.bitLen e = k + 1 := ⟨Spec.bitLen e - 1, by omega⟩
  unfold effExp
  rw [hk] at hl hu ⊢
  rw [Nat.add_sub_cancel] at *
  rw [pow_succ 2 k] at hu
  have hp := Nat.two_pow_pos k
  have hf : ∀ f, 2 ^ k ≤ f → f < 2 ^ k * 2 → f / 2 ^ k = 1 := by
    intro f h1 h2
    apply Nat.div_eq_of_lt_le <;> omega
  split
  · exact hf e hl hu
  · next h33 =>
    have h3 : 2 ^ 33 < 2 ^ (k + 1) := by rw [pow_succ 2 k]; omega
    have h4 := (Nat.pow_lt_pow_iff_right (a := 2) (by norm_num)).1 h3
    have h5 : 2 ^ 32 ≤ 2 ^ k := Nat.pow_le_pow_right (by norm_num) (by omega)
    apply hf <;> omega

theorem effExp_odd (e : Nat) : effExp e % 2 = e % 2 := by
  unfold effExp
  split
  · rfl
  · next h33 =>
    have h2 := bitLen_lt e
    have h3 : 2 ^ 33 < 2 ^ Spec.bitLen e := by omega
    have h4 := (Nat.pow_lt_pow_iff_right (a := 2) (by norm_num)).1 h3
    obtain ⟨k, hk⟩ : ∃ k, Spec.bitLen e - 1 = k + 1 := ⟨Spec.bitLen e - 2, by omega⟩
    rw [hk, pow_succ]; omega

/-! ## The square-and-multiply loop -/

/-- The key is usable for exact arithmetic. -/
structure KeyExact (k : Key) : Prop where
  inv : IsInv k.n0inv k.modulus
  pos : 0 < val k.modulus
  cop : Nat.Coprime (val k.modulus) (B k.len)

theorem montMul_exact (k : Key) (he : KeyExact k) (a b : List Word) (ha : a.length = k.len) (hb : b.length = k.len)
    (hm : k.modulus.length = k.len) (h0 : 0 < k.len) (x y : Nat) (hx : val a ≡ x * B k.len [MOD val k.modulus])
    (hy : val b ≡ y * B k.len [MOD val k.modulus]) :
    ∃ r, montMul k a b = .ok r ∧ r.length = k.len ∧ val r ≡ x * y * B k.len [MOD val k.modulus] := by
  obtain ⟨r, h1, h2, h3⟩ := montMul_spec k a b ha hb hm h0
  obtain ⟨h4, _⟩ := h3 he.inv
  refine ⟨r, h1, h2, ?_⟩
  apply Nat.ModEq.cancel_left_of_coprime he.cop
  calc B k.len * val r ≡ val a * val b [MOD val k.modulus] := h4
    _ ≡ (x * B k.len) * (y * B k.len) [MOD val k.modulus] := hx.mul hy
    _ = B k.len * (x * y * B k.len) := by ring

/-- Safety of the loop, and its value when the key is exact. -/
theorem powLoop_spec (k : Key) (s : List Word) (hs : s.length = k.len) (hm : k.modulus.length = k.len) (h0 : 0 < k.len) :
    ∀ (j : Nat) (acc : List Word), acc.length = k.len →
    ∃ r, powLoop k s j acc = .ok r ∧ r.length = k.len ∧
      (KeyExact k → ∀ v f, val s ≡ v * B k.len [MOD val k.modulus] →
        (∀ i, 1 ≤ i → i ≤ j → f.testBit i = expBit k.exponent i) →
        val acc ≡ v ^ (f / 2 ^ (j + 1)) * B k.len [MOD val k.modulus] →
        val r ≡ v ^ (f / 2) * B k.len [MOD val k.modulus]) := by
  intro j
  induction j with
  | zero => intro acc ha; exact ⟨acc, rfl, ha, fun _ v f _ _ h => by simpa using h⟩
  | succ j ih =>
    intro acc ha
    rw [powLoop]
    obtain ⟨t, t1, t2, t3⟩ := montMul_spec k acc acc ha ha hm h0
    rw [t1, ok_bind]
    have hbit : ∀ f : Nat, f / 2 ^ (j + 1) = 2 * (f / 2 ^ (j + 1 + 1)) + (f.testBit (j + 1)).toNat := by
      intro f
      rw [Nat.toNat_testBit, pow_succ 2 (j + 1), ← Nat.div_div_eq_div_mul]; omega
    have sq : KeyExact k → ∀ v f, val acc ≡ v ^ (f / 2 ^ (j + 1 + 1)) * B k.len [MOD val k.modulus] →
        val t ≡ v ^ (2 * (f / 2 ^ (j + 1 + 1))) * B k.len [MOD val k.modulus] := by
      intro hk v f hacc
      obtain ⟨r, h1, _, h3⟩ := montMul_exact k hk acc acc ha ha hm h0 _ _ hacc hacc
      rw [t1] at h1; cases h1
      rw [← pow_add, ← two_mul] at h3; exact h3
    by_cases hb : expBit k.exponent (j + 1)
    · rw [if_pos hb]
      obtain ⟨u, u1, u2, u3⟩ := montMul_spec k t s t2 hs hm h0
      rw [u1, ok_bind]
      obtain ⟨r, r1, r2, r3⟩ := ih u u2
      refine ⟨r, r1, r2, fun hk v f hv hf hacc => r3 hk v f hv (fun i h1 h2 => hf i h1 (by omega)) ?_⟩
      obtain ⟨w, w1, _, w3⟩ := montMul_exact k hk t s t2 hs hm h0 _ _ (sq hk v f hacc) hv
      rw [u1] at w1; cases w1
      rw [hbit, hf (j + 1) (by omega) (le_refl _), hb, Bool.toNat_true, pow_succ]; exact w3
    · rw [if_neg hb]
      obtain ⟨r, r1, r2, r3⟩ := ih t t2
      refine ⟨r, r1, r2, fun hk v f hv hf hacc => r3 hk v f hv (fun i h1 h2 => hf i h1 (by omega)) ?_⟩
      rw [hbit, hf (j + 1) (by omega) (le_refl _)]
      rw [Bool.not_eq_true] at hb
      rw [hb, Bool.toNat_false, Nat.add_zero]; exact sq hk v f hacc

/-- `pow_mod`. -/
theorem powMod_spec (k : Key) (inout : List Word) (h0 : 0 < k.len) (hm : k.modulus.length = k.len) (hr : k.rr.length = k.len)
    (hio : k.len ≤ inout.length) :
    ((k.exponent.toNat < 2 ∨ k.exponent.toNat % 2 = 0) → powMod k inout = .ok none) ∧
    (¬ (k.exponent.toNat < 2 ∨ k.exponent.toNat % 2 = 0) → ∃ ws, ws.length = k.len ∧
      powMod k inout = .ok (some (ws.reverse.map swab32 ++ inout.drop k.len)) ∧
      (KeyExact k → val k.rr ≡ B k.len * B k.len [MOD val k.modulus] →
        val ws ≡ val ((inout.take k.len).reverse.map swab32) ^ effExp k.exponent.toNat [MOD val k.modulus] ∧
        (val ((inout.take k.len).reverse.map swab32) < val k.modulus → val ws < val k.modulus))) := by
  unfold powMod
  rw [if_neg (by omega), slice_eq (by omega), ok_bind, List.drop_zero, numExpBits_spec]
  dsimp only
  obtain ⟨v, hv⟩ : ∃ v, v = (inout.take k.len).reverse.map swab32 := ⟨_, rfl⟩
  rw [← hv]
  have hvl : v.length = k.len := by rw [hv]; simp; omega
  have hbl : Spec.bitLen k.exponent.toNat < 2 ↔ k.exponent.toNat < 2 := by
    constructor
    · intro h
      have := bitLen_lt k.exponent.toNat
      have h2 : 2 ^ Spec.bitLen k.exponent.toNat ≤ 2 ^ 1 := Nat.pow_le_pow_right (by norm_num) (by omega)
      omega
    · intro h
      rcases (show k.exponent.toNat = 0 ∨ k.exponent.toNat = 1 by omega) with h | h <;> rw [h] <;> decide
  have hb0 : expBit k.exponent 0 = decide (k.exponent.toNat % 2 = 1) := by
    rw [expBit_spec, Nat.testBit_zero]; simp
  constructor
  · intro h
    by_cases h2 : k.exponent.toNat < 2
    · rw [if_pos (hbl.2 h2)]
    · rw [if_neg (fun q => h2 (hbl.1 q)), if_pos]
      rw [hb0]; rcases h with h | h
      · exact absurd h h2
      · simp [h]
  · intro h
    have h2 : ¬ k.exponent.toNat < 2 := fun q => h (Or.inl q)
    have h3 : k.exponent.toNat % 2 = 1 := by
      have : ¬ k.exponent.toNat % 2 = 0 := fun q => h (Or.inr q)
      omega
    rw [if_neg (fun q => h2 (hbl.1 q)), if_neg (by rw [hb0, h3]; simp)]
    obtain ⟨a, a1, a2, a3⟩ := montMul_spec k v k.rr hvl hr hm h0
    rw [a1, ok_bind]
    obtain ⟨c, c1, c2, c3⟩ := powLoop_spec k a a2 hm h0 (Spec.bitLen k.exponent.toNat - 2) a a2
    rw [c1, ok_bind]
    obtain ⟨t, t1, t2, t3⟩ := montMul_spec k c c c2 c2 hm h0
    rw [t1, ok_bind]
    obtain ⟨u, u1, u2, u3⟩ := montMul_spec k t v t2 hvl hm h0
    rw [u1, ok_bind, geMod_spec _ _ _ (by omega) (by omega), ok_bind, List.take_of_length_le (by omega), List.take_of_length_le (by omega)]
    -- the value before the final correction
    have hu : KeyExact k → val k.rr ≡ B k.len * B k.len [MOD val k.modulus] →
        val u ≡ val v ^ effExp k.exponent.toNat [MOD val k.modulus] ∧ val u < val v + val k.modulus := by
      intro hk hrr
      obtain ⟨_, u4⟩ := u3 hk.inv
      refine ⟨?_, u4 hk.pos⟩
      have ea : val a ≡ val v * B k.len [MOD val k.modulus] := by
        apply Nat.ModEq.cancel_left_of_coprime hk.cop
        calc B k.len * val a ≡ val v * val k.rr [MOD val k.modulus] := (a3 hk.inv).1
          _ ≡ val v * (B k.len * B k.len) [MOD val k.modulus] := Nat.ModEq.mul_left _ hrr
          _ = B k.len * (val v * B k.len) := by ring
      have hb2 : 2 ≤ Spec.bitLen k.exponent.toNat := by
        by_contra q; exact h2 (hbl.1 (by omega))
      have ec := c3 hk (val v) (effExp k.exponent.toNat) ea (fun i _ h2 => effExp_testBit _ i (by omega)) (by
        rw [show Spec.bitLen k.exponent.toNat - 2 + 1 = Spec.bitLen k.exponent.toNat - 1 by omega, effExp_top _ hb2, pow_one]
        exact ea)
      obtain ⟨t', t1', _, t3'⟩ := montMul_exact k hk c c c2 c2 hm h0 _ _ ec ec
      rw [t1] at t1'; cases t1'
      apply Nat.ModEq.cancel_left_of_coprime hk.cop
      have hodd : effExp k.exponent.toNat = effExp k.exponent.toNat / 2 + effExp k.exponent.toNat / 2 + 1 := by
        have := effExp_odd k.exponent.toNat; omega
      calc B k.len * val u ≡ val t * val v [MOD val k.modulus] := (u3 hk.inv).1
        _ ≡ (val v ^ (effExp k.exponent.toNat / 2) * val v ^ (effExp k.exponent.toNat / 2) * B k.len) * val v [MOD val k.modulus] :=
            Nat.ModEq.mul_right _ t3'
        _ = B k.len * val v ^ (effExp k.exponent.toNat / 2 + effExp k.exponent.toNat / 2 + 1) := by rw [pow_succ, pow_add]; ring
        _ = B k.len * val v ^ effExp k.exponent.toNat := by rw [← hodd]
    by_cases hge : val k.modulus ≤ val u
    · rw [if_pos (by simpa using hge)]
      obtain ⟨w, w1, w2, w3, _⟩ := subMod_spec u k.modulus (by omega)
      rw [w1, ok_bind, patch_eq (by simp; omega), ok_bind]
      refine ⟨w, by omega, ?_, fun hk hrr => ?_⟩
      · simp [w2, u2]
      · obtain ⟨e1, e2⟩ := hu hk hrr
        rw [w3 hge]
        refine ⟨?_, fun hlt => by omega⟩
        calc val u - val k.modulus ≡ val u - val k.modulus + val k.modulus [MOD val k.modulus] := by simp [Nat.ModEq]
          _ = val u := by omega
          _ ≡ _ [MOD val k.modulus] := e1
    · rw [if_neg (by simpa using hge)]
      simp only [pure_bind]
      rw [patch_eq (by simp; omega), ok_bind]
      refine ⟨u, u2, by simp [u2], fun hk hrr => ⟨(hu hk hrr).1, fun _ => by omega⟩⟩

end Ack.Powm
