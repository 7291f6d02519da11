import Verif.Proof.PowmKey
/-! # Montgomery multiplication -/
namespace Ack.Powm
open Ack.Big (Byte)

theorem sshiftRight_toInt (x : DWord) : (x.sshiftRight 32).toInt = x.toInt / 2 ^ 32 := by
  rw [BitVec.toInt_sshiftRight, Int.shiftRight_eq_div_pow]; rfl

/-- Subtraction of the modulus: the accumulator is a borrow of 0 or -1. -/
theorem subModLoop_spec : ∀ (num m : List Word) (acc : DWord), num.length = m.length → (acc.toInt = 0 ∨ acc.toInt = -1) →
    ∃ r c, subModLoop num m acc = .ok r ∧ r.length = num.length ∧ (c = 0 ∨ c = -1) ∧
      (val r : Int) + B num.length * c = val num - val m + acc.toInt := by
  intro num
  induction num with
  | nil =>
    intro m acc h ha
    cases m with
    | nil => exact ⟨[], acc.toInt, rfl, rfl, ha, by simp⟩
    | cons => simp at h
  | cons x num ih =>
    intro m acc h ha
    cases m with
    | nil => simp at h
    | cons y m =>
      have hx := x.isLt; have hy := y.isLt
      rw [subModLoop]
      obtain ⟨s, hs⟩ : ∃ s, s = acc + (x.setWidth 64 - y.setWidth 64) := ⟨_, rfl⟩
      have e1 : (x.setWidth 64 : DWord).toNat = x.toNat := by rw [BitVec.toNat_setWidth]; omega
      have e2 : (y.setWidth 64 : DWord).toNat = y.toNat := by rw [BitVec.toNat_setWidth]; omega
      have e3 : (acc.toInt = 0 ∧ acc.toNat = 0) ∨ (acc.toInt = -1 ∧ acc.toNat = 2 ^ 64 - 1) := by
        rcases ha with h | h
        · left; refine ⟨h, ?_⟩; rw [BitVec.toInt_eq_toNat_cond] at h; have := acc.isLt; split at h <;> omega
        · right; refine ⟨h, ?_⟩; rw [BitVec.toInt_eq_toNat_cond] at h; have := acc.isLt; split at h <;> omega
      have e4 : s.toInt = acc.toInt + x.toNat - y.toNat := by
        rw [hs, BitVec.toInt_eq_toNat_cond, BitVec.toNat_add, BitVec.toNat_sub, e1, e2]
        rcases e3 with ⟨h1, h2⟩ | ⟨h1, h2⟩ <;> rw [h1, h2] <;> split <;> omega
      have e5 : ((s.setWidth 32 : Word).toNat : Int) = s.toInt % 2 ^ 32 := by
        rw [BitVec.toNat_setWidth, BitVec.toInt_eq_toNat_cond]; have := s.isLt; split <;> omega
      rw [← hs]
      obtain ⟨r, c, h1, h2, h3, h4⟩ := ih m (s.sshiftRight 32) (by simpa using h)
        (by rw [sshiftRight_toInt, e4]; rcases ha with h | h <;> rw [h] <;> omega)
      rw [h1, ok_bind]
      refine ⟨_, c, rfl, by simp [h2], h3, ?_⟩
      rw [sshiftRight_toInt] at h4
      simp only [val_cons, List.length_cons, B_succ]
      push_cast
      rw [e5]
      have h5 : (4294967296 * (B num.length : Int)) * c = 4294967296 * (B num.length * c) := by ring
      rw [h5]
      have h6 : acc.toInt = s.toInt - x.toNat + y.toNat := by rw [e4]; ring
      rw [h6]
      generalize (B num.length : Int) * c = bc at *
      generalize s.toInt = v at *
      clear h1 h6 e4 e5 h5 ih hs e3 ha
      omega

theorem subMod_spec (num m : List Word) (h : num.length = m.length) :
    ∃ r, subModLoop num m 0 = .ok r ∧ r.length = num.length ∧
      (val m ≤ val num → val r = val num - val m) ∧ (val num < val m → val r = val num + B num.length - val m) := by
  obtain ⟨r, c, h1, h2, h3, h4⟩ := subModLoop_spec num m 0 h (Or.inl rfl)
  have z : (0 : DWord).toInt = 0 := rfl
  rw [z] at h4
  have hr := val_lt r
  have hn := val_lt num
  have hm := val_lt m
  rw [h2] at hr
  rw [← h] at hm
  refine ⟨r, h1, h2, ?_, ?_⟩ <;> intro hle <;> rcases h3 with rfl | rfl <;> omega

theorem stepLoop_spec (a d0 : Word) : ∀ (b m r : List Word) (A Bb : DWord), b.length = r.length → m.length = r.length →
    ∃ ws A' B', stepLoop a d0 b m r A Bb = .ok (ws, A', B') ∧ ws.length = r.length ∧
      val ws + B r.length * (A'.toNat / 2 ^ 32 + B'.toNat / 2 ^ 32) =
        a.toNat * val b + val r + d0.toNat * val m + A.toNat / 2 ^ 32 + Bb.toNat / 2 ^ 32 := by
  intro b
  induction b with
  | nil =>
    intro m r A Bb h1 h2
    cases r with
    | cons => simp at h1
    | nil =>
      cases m with
      | cons => simp at h2
      | nil => exact ⟨[], A, Bb, rfl, rfl, by simp⟩
  | cons bw b ih =>
    intro m r A Bb h1 h2
    cases r with
    | nil => simp at h1
    | cons rw' r =>
      cases m with
      | nil => simp at h2
      | cons mw m =>
        have ha := a.isLt; have hb := bw.isLt; have hd := d0.isLt; have hm := mw.isLt; have hr := rw'.isLt
        have hA := A.isLt; have hB := Bb.isLt
        rw [stepLoop]
        dsimp only
        have p1 : a.toNat * bw.toNat ≤ 4294967295 * 4294967295 := Nat.mul_le_mul (by omega) (by omega)
        have p2 : d0.toNat * mw.toNat ≤ 4294967295 * 4294967295 := Nat.mul_le_mul (by omega) (by omega)
        obtain ⟨A1, hA1⟩ : ∃ v, v = (A >>> 32) + MUL a bw + rw'.setWidth 64 := ⟨_, rfl⟩
        have eA : A1.toNat = A.toNat / 2 ^ 32 + a.toNat * bw.toNat + rw'.toNat := by
          rw [hA1, BitVec.toNat_add, BitVec.toNat_add, MUL_toNat, BitVec.toNat_ushiftRight, Nat.shiftRight_eq_div_pow, BitVec.toNat_setWidth]
          omega
        rw [← hA1]
        obtain ⟨B1, hB1⟩ : ∃ v, v = (Bb >>> 32) + MUL d0 mw + (A1.setWidth 32).setWidth 64 := ⟨_, rfl⟩
        have eB : B1.toNat = Bb.toNat / 2 ^ 32 + d0.toNat * mw.toNat + A1.toNat % 2 ^ 32 := by
          rw [hB1, BitVec.toNat_add, BitVec.toNat_add, MUL_toNat, BitVec.toNat_ushiftRight, Nat.shiftRight_eq_div_pow, BitVec.toNat_setWidth,
            BitVec.toNat_setWidth]
          omega
        rw [← hB1]
        obtain ⟨ws, A', B', q1, q2, q3⟩ := ih m r A1 B1 (by simpa using h1) (by simpa using h2)
        rw [q1, ok_bind]
        refine ⟨_, A', B', rfl, by simp [q2], ?_⟩
        simp only [val_cons, List.length_cons, B_succ]
        have e5 : (B1.setWidth 32 : Word).toNat = B1.toNat % 2 ^ 32 := by rw [BitVec.toNat_setWidth]
        rw [e5]
        have e6 : a.toNat * (bw.toNat + 4294967296 * val b) = a.toNat * bw.toNat + 4294967296 * (a.toNat * val b) := by ring
        have e7 : d0.toNat * (mw.toNat + 4294967296 * val m) = d0.toNat * mw.toNat + 4294967296 * (d0.toNat * val m) := by ring
        rw [e6, e7, Nat.mul_assoc]
        generalize a.toNat * val b = ab at *
        generalize d0.toNat * val m = dm at *
        generalize B r.length * (A'.toNat / 2 ^ 32 + B'.toNat / 2 ^ 32) = bb at *
        generalize a.toNat * bw.toNat = abw at *
        generalize d0.toNat * mw.toNat = dmw at *
        clear q1 hA1 hB1 e5 e6 e7 ih
        omega

/-- The Montgomery constant of a modulus. -/
def IsInv (n0inv : Word) (m : List Word) : Prop := ∀ w ∈ m.head?, n0inv * w = -1

/-- One step: exact up to a multiple of the modulus when the constant is right; always in bounds. -/
theorem mulAddStep_spec (n0inv : Word) (m : List Word) (a : Word) (b r : List Word) (hb : b.length = m.length)
    (hr : r.length = m.length) (h0 : m ≠ []) :
    ∃ r', mulAddStep n0inv m a b r = .ok r' ∧ r'.length = m.length ∧
      (IsInv n0inv m → (∃ d : Nat, ∃ s : Nat, d < 2 ^ 32 ∧ s ≤ 1 ∧
        2 ^ 32 * (val r' + s * val m) = a.toNat * val b + val r + d * val m)) := by
  match b, m, r, hb, hr, h0 with
  | [], m, _, hb, _, h0 => exact absurd (List.length_eq_zero_iff.1 hb.symm) h0
  | b0 :: b, m0 :: ms, r0 :: r, hb, hr, _ =>
    have ha := a.isLt; have hb0 := b0.isLt; have hr0 := r0.isLt; have hm0 := m0.isLt
    rw [mulAddStep]
    dsimp only
    have p1 : a.toNat * b0.toNat ≤ 4294967295 * 4294967295 := Nat.mul_le_mul (by omega) (by omega)
    obtain ⟨A0, hA0⟩ : ∃ v, v = MUL a b0 + r0.setWidth 64 := ⟨_, rfl⟩
    have eA : A0.toNat = a.toNat * b0.toNat + r0.toNat := by
      rw [hA0, BitVec.toNat_add, MUL_toNat, BitVec.toNat_setWidth]; omega
    rw [← hA0]
    obtain ⟨d0, hd0⟩ : ∃ v, v = A0.setWidth 32 * n0inv := ⟨_, rfl⟩
    rw [← hd0]
    have hd := d0.isLt
    have p2 : d0.toNat * m0.toNat ≤ 4294967295 * 4294967295 := Nat.mul_le_mul (by omega) (by omega)
    obtain ⟨B0, hB0⟩ : ∃ v, v = MUL d0 m0 + (A0.setWidth 32).setWidth 64 := ⟨_, rfl⟩
    have eB : B0.toNat = d0.toNat * m0.toNat + A0.toNat % 2 ^ 32 := by
      rw [hB0, BitVec.toNat_add, MUL_toNat, BitVec.toNat_setWidth, BitVec.toNat_setWidth]; omega
    rw [← hB0]
    have hbl : b.length = r.length := by simp at hb hr; omega
    have hml : ms.length = r.length := by simp at hb hr; omega
    obtain ⟨ws, A', B', q1, q2, q3⟩ := stepLoop_spec a d0 b ms r A0 B0 hbl hml
    rw [q1, ok_bind]
    dsimp only
    obtain ⟨C, hC⟩ : ∃ v, v = (A' >>> 32) + (B' >>> 32) := ⟨_, rfl⟩
    have hA'l := A'.isLt; have hB'l := B'.isLt
    have eC : C.toNat = A'.toNat / 2 ^ 32 + B'.toNat / 2 ^ 32 := by
      rw [hC, BitVec.toNat_add, BitVec.toNat_ushiftRight, BitVec.toNat_ushiftRight, Nat.shiftRight_eq_div_pow, Nat.shiftRight_eq_div_pow]
      omega
    rw [← hC]
    obtain ⟨res, hres⟩ : ∃ v, v = ws ++ [C.setWidth 32] := ⟨_, rfl⟩
    rw [← hres]
    have hresl : res.length = (m0 :: ms).length := by rw [hres]; simp; omega
    have hresv : val res + B (m0 :: ms).length * (C.toNat / 2 ^ 32) = val ws + B r.length * C.toNat := by
      rw [hres, val_append, val_singleton, BitVec.toNat_setWidth, q2, List.length_cons, B_succ, hml]
      have : C.toNat = C.toNat % 2 ^ 32 + 4294967296 * (C.toNat / 2 ^ 32) := by omega
      conv_rhs => rw [this]
      ring
    have hCC : (C >>> 32 ≠ 0) ↔ C.toNat / 2 ^ 32 ≠ 0 := by
      rw [not_iff_not]
      constructor
      · intro h
        have := congrArg BitVec.toNat h
        rwa [BitVec.toNat_ushiftRight, Nat.shiftRight_eq_div_pow] at this
      · intro h
        apply BitVec.eq_of_toNat_eq
        rw [BitVec.toNat_ushiftRight, Nat.shiftRight_eq_div_pow, h]; rfl
    have key : IsInv n0inv (m0 :: ms) →
        2 ^ 32 * (val res + B (m0 :: ms).length * (C.toNat / 2 ^ 32)) = a.toNat * val (b0 :: b) + val (r0 :: r) + d0.toNat * val (m0 :: ms) := by
      intro hinv
      have hi := hinv m0 (by simp)
      have hz : B0.toNat % 2 ^ 32 = 0 := by
        have e : (B0.setWidth 32 : Word) = 0 := by
          have : (B0.setWidth 32 : Word) = d0 * m0 + A0.setWidth 32 := by
            apply BitVec.eq_of_toNat_eq
            rw [BitVec.toNat_setWidth, eB, BitVec.toNat_add, BitVec.toNat_mul, BitVec.toNat_setWidth]
            omega
          rw [this, hd0, mul_assoc, hi]; ring
        have := congrArg BitVec.toNat e
        rwa [BitVec.toNat_setWidth] at this
      rw [hresv, eC, q3]
      simp only [val_cons]
      have e6 : a.toNat * (b0.toNat + 4294967296 * val b) = a.toNat * b0.toNat + 4294967296 * (a.toNat * val b) := by ring
      have e7 : d0.toNat * (m0.toNat + 4294967296 * val ms) = d0.toNat * m0.toNat + 4294967296 * (d0.toNat * val ms) := by ring
      rw [e6, e7]
      generalize a.toNat * val b = ab at *
      generalize d0.toNat * val ms = dm at *
      generalize a.toNat * b0.toNat = abw at *
      generalize d0.toNat * m0.toNat = dmw at *
      clear q1 q3 hresv hA0 hB0 hC hd0 e6 e7
      omega
    by_cases hc : C >>> 32 ≠ 0
    · rw [if_pos hc]
      obtain ⟨r', s1, s2, s3, s4⟩ := subMod_spec res (m0 :: ms) hresl
      refine ⟨r', s1, s2.trans hresl, fun hinv => ⟨d0.toNat, 1, hd, le_refl _, ?_⟩⟩
      have hk := key hinv
      have hc' := hCC.1 hc
      have hrv := val_lt res
      have hmv := val_lt (m0 :: ms)
      rw [hresl] at hrv s4
      -- the carry is exactly one and the word part is below the modulus
      have hbv := val_lt (b0 :: b)
      have hrrv := val_lt (r0 :: r)
      have hbl' : (b0 :: b).length = (m0 :: ms).length := hb
      have hrl' : (r0 :: r).length = (m0 :: ms).length := hr
      rw [hbl'] at hbv
      rw [hrl'] at hrrv
      obtain ⟨BB, hBB⟩ : ∃ v, v = B (m0 :: ms).length := ⟨_, rfl⟩
      rw [← hBB] at hk hrv hmv hbv hrrv s4
      obtain ⟨M, hM⟩ : ∃ v, v = val (m0 :: ms) := ⟨_, rfl⟩
      rw [← hM] at hk hmv s3 s4 ⊢
      have u1 : a.toNat * val (b0 :: b) ≤ 4294967295 * (BB - 1) := Nat.mul_le_mul (by omega) (by omega)
      have u2 : d0.toNat * M ≤ 4294967295 * M := Nat.mul_le_mul (by omega) (le_refl _)
      have u3 : BB ≤ BB * (C.toNat / 2 ^ 32) := Nat.le_mul_of_pos_right _ (by omega)
      have u4 : BB * (C.toNat / 2 ^ 32) = BB := by
        by_contra hne
        have h2 : 2 ≤ C.toNat / 2 ^ 32 := by
          by_contra h'
          have h1 : C.toNat / 2 ^ 32 = 1 := by omega
          rw [h1] at hne; omega
        have : BB * 2 ≤ BB * (C.toNat / 2 ^ 32) := Nat.mul_le_mul_left _ h2
        clear s3 s4 s1 s2 key hresv eC q3
        omega
      rw [u4] at hk
      have hlt : val res < M := by
        clear s3 s4 s1 s2 key hresv eC q3
        omega
      have := s4 hlt
      rw [this, ← hk, Nat.one_mul]
      congr 1; omega
    · rw [if_neg hc]
      refine ⟨res, rfl, hresl, fun hinv => ⟨d0.toNat, 0, hd, by omega, ?_⟩⟩
      have hk := key hinv
      have hc' : C.toNat / 2 ^ 32 = 0 := by
        by_contra h; exact hc (hCC.2 h)
      rw [hc', Nat.mul_zero, Nat.add_zero] at hk
      rw [Nat.zero_mul, Nat.add_zero]; exact hk

theorem montLoop_spec (n0inv : Word) (m b : List Word) (hb : b.length = m.length) (h0 : m ≠ []) : ∀ (a r : List Word),
    r.length = m.length →
    ∃ r', montLoop n0inv m b a r = .ok r' ∧ r'.length = m.length ∧
      (IsInv n0inv m → (B a.length * val r') % val m = (val a * val b + val r) % val m ∧
        (val r < val b + val m → val r' < val b + val m)) := by
  intro a
  induction a with
  | nil => intro r hr; exact ⟨r, rfl, hr, fun _ => ⟨by simp, fun h => h⟩⟩
  | cons a as ih =>
    intro r hr
    obtain ⟨r1, p1, p2, p3⟩ := mulAddStep_spec n0inv m a b r hb hr h0
    obtain ⟨r2, q1, q2, q3⟩ := ih r1 p2
    rw [montLoop, p1, ok_bind]
    refine ⟨r2, q1, q2, fun hinv => ?_⟩
    obtain ⟨d, s, hd, hs, he⟩ := p3 hinv
    obtain ⟨e1, e2⟩ := q3 hinv
    constructor
    · rw [List.length_cons, B_succ, val_cons, Nat.mul_assoc, Nat.mul_mod, e1, ← Nat.mul_mod]
      have : 4294967296 * (val as * val b + val r1) + val m * (4294967296 * s) =
          ((a.toNat + 4294967296 * val as) * val b + val r) + val m * d := by
        have h2 : 4294967296 * (val as * val b + val r1) + val m * (4294967296 * s) = 4294967296 * (val as * val b) + 2 ^ 32 * (val r1 + s * val m) := by ring
        rw [h2, he]; ring
      have h3 := congrArg (· % val m) this
      simpa only [Nat.add_mul_mod_self_left] using h3
    · intro hlt
      apply e2
      have ha := a.isLt
      have u1 : a.toNat * val b ≤ 4294967295 * val b := Nat.mul_le_mul (by omega) (le_refl _)
      have u2 : d * val m ≤ 4294967295 * val m := Nat.mul_le_mul (by omega) (le_refl _)
      have u3 : val r1 ≤ val r1 + s * val m := Nat.le_add_right _ _
      generalize val r1 + s * val m = x at *
      generalize a.toNat * val b = y at *
      generalize d * val m = z at *
      omega

theorem montMul_spec (k : Key) (a b : List Word) (ha : a.length = k.len) (hb : b.length = k.len) (hm : k.modulus.length = k.len)
    (h0 : 0 < k.len) :
    ∃ r, montMul k a b = .ok r ∧ r.length = k.len ∧
      (IsInv k.n0inv k.modulus → (B k.len * val r) % val k.modulus = (val a * val b) % val k.modulus ∧
        (0 < val k.modulus → val r < val b + val k.modulus)) := by
  obtain ⟨r, h1, h2, h3⟩ := montLoop_spec k.n0inv k.modulus b (by omega) (fun h => by rw [h] at hm; simp at hm; omega) a
    (List.replicate k.len 0) (by simp [hm])
  refine ⟨r, h1, by omega, fun hinv => ?_⟩
  obtain ⟨e1, e2⟩ := h3 hinv
  rw [val_replicate_zero] at e1 e2
  rw [ha] at e1
  exact ⟨by simpa using e1, fun hp => e2 (by omega)⟩

end Ack.Powm
