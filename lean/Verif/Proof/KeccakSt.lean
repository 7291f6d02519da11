import Verif.Proof.KeccakF
/-!
# Keccak-f: each step map of the code is the step map of FIPS 202 on the state array
-/
namespace Ack.Keccak
open Ack.Big (Byte)
open Ack.Sha (rd wr rdB)

theorem list25 (s : List U) (h : s.length = 25) : ∃ s0 s1 s2 s3 s4 s5 s6 s7 s8 s9 s10 s11 s12 s13 s14 s15 s16 s17 s18 s19 s20 s21 s22 s23 s24 : U, s = [s0, s1, s2, s3, s4, s5, s6, s7, s8, s9, s10, s11, s12, s13, s14, s15, s16, s17, s18, s19, s20, s21, s22, s23, s24] := by
  match s, h with
  | [s0, s1, s2, s3, s4, s5, s6, s7, s8, s9, s10, s11, s12, s13, s14, s15, s16, s17, s18, s19, s20, s21, s22, s23, s24], _ => exact ⟨_, _, _, _, _, _, _, _, _, _, _, _, _, _, _, _, _, _, _, _, _, _, _, _, _, rfl⟩

theorem list5 (s : List U) (h : s.length = 5) : ∃ b0 b1 b2 b3 b4 : U, s = [b0, b1, b2, b3, b4] := by
  match s, h with
  | [b0, b1, b2, b3, b4], _ => exact ⟨_, _, _, _, _, rfl⟩

theorem v0 : (0 : Fin 5).val = 0 := rfl
theorem v1 : (1 : Fin 5).val = 1 := rfl
theorem v2 : (2 : Fin 5).val = 2 := rfl
theorem v3 : (3 : Fin 5).val = 3 := rfl
theorem v4 : (4 : Fin 5).val = 4 := rfl

theorem fin5 (x : Fin 5) : x = 0 ∨ x = 1 ∨ x = 2 ∨ x = 3 ∨ x = 4 := by revert x; decide

theorem theta_st (s B : List U) (hs : s.length = 25) (hB : B.length = 5) : ∃ B' s', parityLoop s 5 0 B = .ok B' ∧
    thetaLoop B' 5 0 s = .ok s' ∧ B'.length = 5 ∧ s'.length = 25 ∧ st s' = Spec.Keccak.theta (st s) := by
  obtain ⟨s0, s1, s2, s3, s4, s5, s6, s7, s8, s9, s10, s11, s12, s13, s14, s15, s16, s17, s18, s19, s20, s21, s22, s23, s24, rfl⟩ := list25 s hs
  obtain ⟨b0, b1, b2, b3, b4, rfl⟩ := list5 B hB
  refine ⟨_, _, parity_eq .., theta_eq .., rfl, rfl, ?_⟩
  funext x y z
  have hz : ∀ a : U, (ro a 1).getLsbD z.val = a.getLsbD (z - 1).val := fun a => ro_bit a 1 (by decide) z
  have h0 : ∀ i, (0 : U).getLsbD i = false := fun i => BitVec.getLsbD_zero
  simp only [Spec.Keccak.theta]
  rcases fin5 x with rfl | rfl | rfl | rfl | rfl <;> rcases fin5 y with rfl | rfl | rfl | rfl | rfl <;>
    simp only [st, Fin.reduceSub, Fin.reduceAdd, v0, v1, v2, v3, v4, Nat.reduceMod, Nat.reduceMul, Nat.reduceAdd, zero_add, List.getD_cons_zero, List.getD_cons_succ, BitVec.getLsbD_xor, hz, h0, Bool.false_xor]

theorem chi_st (s B : List U) (hs : s.length = 25) (hB : B.length = 5) : ∃ B' s', chiLoop 5 0 s B = .ok (s', B') ∧
    B'.length = 5 ∧ s'.length = 25 ∧ st s' = Spec.Keccak.chi (st s) := by
  obtain ⟨s0, s1, s2, s3, s4, s5, s6, s7, s8, s9, s10, s11, s12, s13, s14, s15, s16, s17, s18, s19, s20, s21, s22, s23, s24, rfl⟩ := list25 s hs
  obtain ⟨b0, b1, b2, b3, b4, rfl⟩ := list5 B hB
  refine ⟨_, _, chi_eq .., rfl, rfl, ?_⟩
  funext x y z
  have hn : ∀ a : U, (~~~a).getLsbD z.val = (a.getLsbD z.val ^^ true) := fun a => by
    rw [BitVec.getLsbD_not, Bool.xor_true, decide_eq_true z.isLt, Bool.true_and]
  simp only [Spec.Keccak.chi]
  rcases fin5 x with rfl | rfl | rfl | rfl | rfl <;> rcases fin5 y with rfl | rfl | rfl | rfl | rfl <;>
    simp only [st, Fin.reduceSub, Fin.reduceAdd, v0, v1, v2, v3, v4, Nat.reduceMod, Nat.reduceMul, Nat.reduceAdd, zero_add, List.getD_cons_zero, List.getD_cons_succ, BitVec.getLsbD_xor, BitVec.getLsbD_and, hn]

/-- The rotation distances of ρ, by lane. -/
def offs : List Nat := [0, 1, 190, 28, 91, 36, 300, 6, 55, 276, 3, 10, 171, 153, 231, 105, 45, 15, 21, 136, 210, 66, 253, 120, 78]

theorem rho_eq (A : Spec.Keccak.State) (x y : Fin 5) (z : Fin 64) : Spec.Keccak.rho A x y z =
    if x = 0 ∧ y = 0 then A x y z else A x y (z - Fin.ofNat 64 (offs.getD (x.val + 5 * y.val) 0 % 64)) := by
  rcases fin5 x with rfl | rfl | rfl | rfl | rfl <;> rcases fin5 y with rfl | rfl | rfl | rfl | rfl <;> rfl

theorem walk_st (s : List U) (hs : s.length = 25) : ∃ t s', rd s 1 = .ok t ∧ walkLoop 24 0 t 1 0 0 s = .ok s' ∧
    s'.length = 25 ∧ st s' = Spec.Keccak.pi (Spec.Keccak.rho (st s)) := by
  obtain ⟨s0, s1, s2, s3, s4, s5, s6, s7, s8, s9, s10, s11, s12, s13, s14, s15, s16, s17, s18, s19, s20, s21, s22, s23, s24, rfl⟩ := list25 s hs
  refine ⟨_, _, rfl, walk_eq .., rfl, ?_⟩
  funext x y z
  have hz : ∀ (a : U) (n : Nat), 0 < n ∧ n < 64 → (ro a n).getLsbD z.val = a.getLsbD (z - Fin.ofNat 64 n).val :=
    fun a n h => ro_bit a n h z
  simp only [Spec.Keccak.pi, rho_eq]
  rcases fin5 x with rfl | rfl | rfl | rfl | rfl <;> rcases fin5 y with rfl | rfl | rfl | rfl | rfl <;>
    first
    | rfl
    | exact hz _ _ (by decide)

/-- The word `iotaLoop` leaves in lane 0. -/
def iw : (n j : Nat) → Byte → U → U
  | 0, _, _, a => a
  | n + 1, j, R, a => iw n (j + 1) (lfsr R) (if lfsr R &&& 2 ≠ 0 then a ^^^ ((1 : U) <<< (2 ^ j - 1)) else a)

theorem iota_eq (a : U) (l : List U) : ∀ (n j : Nat) (R : Byte) (a : U), j + n ≤ 7 →
    iotaLoop n j R (a :: l) = .ok (Nat.repeat lfsr n R, iw n j R a :: l) := by
  intro n
  induction n with
  | zero => intro j R a _; rfl
  | succ n ih =>
    intro j R a h
    have hj : ¬ 64 ≤ 2 ^ j - 1 := by
      have : 2 ^ j ≤ 2 ^ 6 := Nat.pow_le_pow_right (by omega) (by omega)
      omega
    have hr : Nat.repeat lfsr (n + 1) R = Nat.repeat lfsr n (lfsr R) := by
      clear ih h hj
      induction n with
      | zero => rfl
      | succ n ih => rw [Nat.repeat, ih]; rfl
    rw [hr, iw, iotaLoop]
    dsimp only
    rw [if_neg hj]
    by_cases hb : lfsr R &&& 2 ≠ 0
    · rw [if_pos hb, if_pos hb]
      show (do iotaLoop n (j + 1) (lfsr R) ((a ^^^ ((1 : U) <<< (2 ^ j - 1))) :: l)) = _
      exact ih _ _ _ (by omega)
    · rw [if_neg hb, if_neg hb]
      exact ih _ _ _ (by omega)

theorem iw_xor : ∀ (n j : Nat) (R : Byte) (a : U), iw n j R a = a ^^^ iw n j R 0 := by
  intro n
  induction n with
  | zero => intro j R a; exact (BitVec.xor_zero).symm
  | succ n ih =>
    intro j R a
    have z : ∀ x : U, (0 : U) ^^^ x = x := fun x => BitVec.zero_xor
    rw [iw, iw, ih]
    conv_rhs => rw [ih]
    by_cases hb : lfsr R &&& 2 ≠ 0
    · rw [if_pos hb, if_pos hb, z, BitVec.xor_assoc]
    · rw [if_neg hb, if_neg hb, z]

/-- The 24 round constants. -/
theorem rc_table : ∀ ir, ir < 24 → ∀ z : Fin 64, (iw 7 0 (Nat.repeat lfsr (7 * ir) 1) 0).getLsbD z.val = Spec.Keccak.RC ir z := by
  decide +kernel

theorem iota_st (s : List U) (hs : s.length = 25) (ir : Nat) (h : ir < 24) : ∃ s',
    iotaLoop 7 0 (Nat.repeat lfsr (7 * ir) 1) s = .ok (Nat.repeat lfsr (7 * (ir + 1)) 1, s') ∧
    s'.length = 25 ∧ st s' = Spec.Keccak.iota ir (st s) := by
  cases s with
  | nil => cases hs
  | cons a l =>
    refine ⟨_, iota_eq a l 7 0 _ a (by omega), hs, ?_⟩
    funext x y z
    simp only [Spec.Keccak.iota]
    by_cases hc : x = 0 ∧ y = 0
    · rw [if_pos hc, hc.1, hc.2, ← rc_table ir h z, iw_xor]
      exact BitVec.getLsbD_xor
    · rw [if_neg hc]
      unfold st
      obtain ⟨k, hk⟩ : ∃ k, x.val + 5 * y.val = k + 1 := by
        have : ¬ (x.val = 0 ∧ y.val = 0) := fun h => hc ⟨Fin.ext h.1, Fin.ext h.2⟩
        exact ⟨x.val + 5 * y.val - 1, by omega⟩
      rw [hk]
      rfl

theorem round_st (s B : List U) (hs : s.length = 25) (hB : B.length = 5) (ir : Nat) (h : ir < 24) : ∃ B' s',
    round (Nat.repeat lfsr (7 * ir) 1) B s = .ok (Nat.repeat lfsr (7 * (ir + 1)) 1, B', s') ∧ B'.length = 5 ∧ s'.length = 25 ∧
    st s' = Spec.Keccak.rnd (st s) ir := by
  obtain ⟨B1, s1, p1, p2, p3, p4, p5⟩ := theta_st s B hs hB
  obtain ⟨t, s2, q1, q2, q3, q4⟩ := walk_st s1 p4
  obtain ⟨B3, s3, r1, r2, r3, r4⟩ := chi_st s2 B1 q3 p3
  obtain ⟨s4, u1, u2, u3⟩ := iota_st s3 r3 ir h
  refine ⟨B3, s4, ?_, r2, u2, ?_⟩
  · unfold round
    rw [p1, ok_bind, p2, ok_bind, q1, ok_bind, q2, ok_bind, r1, ok_bind]
    dsimp only
    rw [u1, ok_bind]
  · rw [u3, r4, q4, p5]; rfl

theorem roundLoop_st (n : Nat) : ∀ (ir : Nat) (s B : List U), ir + n = 24 → s.length = 25 → B.length = 5 → ∃ s',
    roundLoop n (Nat.repeat lfsr (7 * ir) 1) B s = .ok s' ∧ s'.length = 25 ∧
      st s' = (List.range' ir n).foldl Spec.Keccak.rnd (st s) := by
  induction n with
  | zero => intro ir s B _ hs _; exact ⟨s, rfl, hs, rfl⟩
  | succ n ih =>
    intro ir s B h hs hB
    obtain ⟨B', s1, p1, p2, p3, p4⟩ := round_st s B hs hB ir (by omega)
    obtain ⟨s', q1, q2, q3⟩ := ih (ir + 1) s1 B' (by omega) p3 p2
    refine ⟨s', ?_, q2, ?_⟩
    · rw [roundLoop, p1, ok_bind]; exact q1
    · rw [q3, p4, List.range'_succ, List.foldl_cons]

/-- The permutation of the code on 25 words is the 24 rounds of FIPS 202 on the state array. -/
theorem F_st (s : List U) (hs : s.length = 25) : ∃ s', F s = .ok s' ∧ s'.length = 25 ∧
    st s' = (List.range 24).foldl Spec.Keccak.rnd (st s) := by
  rw [List.range_eq_range']
  exact roundLoop_st 24 0 s _ rfl hs rfl

end Ack.Keccak
