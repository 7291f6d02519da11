import Mathlib.Tactic.FinCases
import Verif.Model.Keccak
import Verif.Spec.Keccak
import Verif.Proof.Words
/-!
# Keccak-f: the word-level permutation is the bit-level one
-/
namespace Ack.Keccak
open Ack.Big (Byte)
open Ack.Sha (rd wr rdB)

/-- The state array of the words. -/
def st (s : List U) : Spec.Keccak.State := fun x y z => (s.getD (x.val + 5 * y.val) 0).getLsbD z.val

/-- Rotation, total. -/
def ro (a : U) (n : Nat) : U := (a <<< n) ^^^ (a >>> (64 - n))

theorem ro_bit (a : U) (n : Nat) (hn : 0 < n ∧ n < 64) (z : Fin 64) : (ro a n).getLsbD z.val = a.getLsbD (z - Fin.ofNat 64 n).val := by
  have hz := z.isLt
  have hv : (z - Fin.ofNat 64 n).val = (z.val + (64 - n)) % 64 := by
    rw [Fin.sub_def]
    show (64 - n % 64 + z.val) % 64 = _
    omega
  rw [hv]
  unfold ro
  rw [BitVec.getLsbD_xor, BitVec.getLsbD_shiftLeft, BitVec.getLsbD_ushiftRight]
  by_cases h : z.val < n
  · rw [show (z.val + (64 - n)) % 64 = 64 - n + z.val by omega]
    simp [h]
  · rw [show (z.val + (64 - n)) % 64 = z.val - n by omega]
    have : a.getLsbD (64 - n + z.val) = false := BitVec.getLsbD_of_ge _ _ (by omega)
    simp [h, this, hz]

theorem rot_eq (a : U) (n : Nat) : rot a n = if n = 0 ∨ 64 ≤ n then .error .ub else .ok (ro a n) := rfl

theorem rd_cons_zero (a : U) (l : List U) : rd (a :: l) 0 = .ok a := rfl
theorem rd_cons_succ (a : U) (l : List U) (i : Nat) : rd (a :: l) (i + 1) = rd l i := rfl
theorem wr_eq (l : List U) (i : Nat) (w : U) (h : i < l.length) : wr l i w = .ok (l.set i w) := if_pos h

theorem parity_eq (s0 s1 s2 s3 s4 s5 s6 s7 s8 s9 s10 s11 s12 s13 s14 s15 s16 s17 s18 s19 s20 s21 s22 s23 s24 b0 b1 b2 b3 b4 : U) :
    parityLoop [s0, s1, s2, s3, s4, s5, s6, s7, s8, s9, s10, s11, s12, s13, s14, s15, s16, s17, s18, s19, s20, s21, s22, s23, s24] 5 0
      [b0, b1, b2, b3, b4] = .ok [0 ^^^ s0 ^^^ s5 ^^^ s10 ^^^ s15 ^^^ s20, 0 ^^^ s1 ^^^ s6 ^^^ s11 ^^^ s16 ^^^ s21,
        0 ^^^ s2 ^^^ s7 ^^^ s12 ^^^ s17 ^^^ s22, 0 ^^^ s3 ^^^ s8 ^^^ s13 ^^^ s18 ^^^ s23, 0 ^^^ s4 ^^^ s9 ^^^ s14 ^^^ s19 ^^^ s24] := by
  simp only [parityLoop, colLoop, wr, rd, Nat.reduceAdd, Nat.reduceMul, List.length_cons, List.length_nil, Nat.reduceLT, if_true,
    List.set_cons_zero, List.set_cons_succ, ok_bind, List.getElem?_cons_zero, List.getElem?_cons_succ]

theorem theta_eq (s0 s1 s2 s3 s4 s5 s6 s7 s8 s9 s10 s11 s12 s13 s14 s15 s16 s17 s18 s19 s20 s21 s22 s23 s24 b0 b1 b2 b3 b4 : U) :
    thetaLoop [b0, b1, b2, b3, b4] 5 0 [s0, s1, s2, s3, s4, s5, s6, s7, s8, s9, s10, s11, s12, s13, s14, s15, s16, s17, s18, s19, s20, s21, s22, s23, s24] = .ok [
      s0 ^^^ (b4 ^^^ ro b1 1), s1 ^^^ (b0 ^^^ ro b2 1), s2 ^^^ (b1 ^^^ ro b3 1), s3 ^^^ (b2 ^^^ ro b4 1), s4 ^^^ (b3 ^^^ ro b0 1), s5 ^^^ (b4 ^^^ ro b1 1), s6 ^^^ (b0 ^^^ ro b2 1), s7 ^^^ (b1 ^^^ ro b3 1), s8 ^^^ (b2 ^^^ ro b4 1), s9 ^^^ (b3 ^^^ ro b0 1), s10 ^^^ (b4 ^^^ ro b1 1), s11 ^^^ (b0 ^^^ ro b2 1), s12 ^^^ (b1 ^^^ ro b3 1), s13 ^^^ (b2 ^^^ ro b4 1), s14 ^^^ (b3 ^^^ ro b0 1), s15 ^^^ (b4 ^^^ ro b1 1), s16 ^^^ (b0 ^^^ ro b2 1), s17 ^^^ (b1 ^^^ ro b3 1), s18 ^^^ (b2 ^^^ ro b4 1), s19 ^^^ (b3 ^^^ ro b0 1), s20 ^^^ (b4 ^^^ ro b1 1), s21 ^^^ (b0 ^^^ ro b2 1), s22 ^^^ (b1 ^^^ ro b3 1), s23 ^^^ (b2 ^^^ ro b4 1), s24 ^^^ (b3 ^^^ ro b0 1)] := by
  simp only [thetaLoop, xorCol, wr, rd, rot_eq, Nat.reduceEqDiff, Nat.reduceLeDiff, or_false, or_self, if_false, OfNat.ofNat_ne_zero, one_ne_zero, Nat.reduceAdd, Nat.reduceMul, Nat.reduceMod, List.length_cons, List.length_nil, Nat.reduceLT, if_true,
    List.set_cons_zero, List.set_cons_succ, ok_bind, List.getElem?_cons_zero, List.getElem?_cons_succ]

theorem walk_eq (s0 s1 s2 s3 s4 s5 s6 s7 s8 s9 s10 s11 s12 s13 s14 s15 s16 s17 s18 s19 s20 s21 s22 s23 s24 : U) :
    walkLoop 24 0 s1 1 0 0 [s0, s1, s2, s3, s4, s5, s6, s7, s8, s9, s10, s11, s12, s13, s14, s15, s16, s17, s18, s19, s20, s21, s22, s23, s24] = .ok [
      s0, ro s6 44, ro s12 43, ro s18 21, ro s24 14, ro s3 28, ro s9 20, ro s10 3, ro s16 45, ro s22 61, ro s1 1, ro s7 6, ro s13 25, ro s19 8, ro s20 18, ro s4 27, ro s5 36, ro s11 10, ro s17 15, ro s23 56, ro s2 62, ro s8 55, ro s14 39, ro s15 41, ro s21 2] := by
  simp only [walkLoop, wr, rd, rot_eq, Nat.reduceEqDiff, Nat.reduceLeDiff, or_false, or_self, if_false, OfNat.ofNat_ne_zero, one_ne_zero, BitVec.toNat_ofNat, BitVec.reduceToNat, Nat.reducePow, BitVec.reduceOfNat, Nat.reduceAdd, Nat.reduceMul, Nat.reduceMod, List.length_cons, List.length_nil, Nat.reduceLT, if_true,
    List.set_cons_zero, List.set_cons_succ, ok_bind, List.getElem?_cons_zero, List.getElem?_cons_succ]

theorem chi_eq (s0 s1 s2 s3 s4 s5 s6 s7 s8 s9 s10 s11 s12 s13 s14 s15 s16 s17 s18 s19 s20 s21 s22 s23 s24 b0 b1 b2 b3 b4 : U) :
    chiLoop 5 0 [s0, s1, s2, s3, s4, s5, s6, s7, s8, s9, s10, s11, s12, s13, s14, s15, s16, s17, s18, s19, s20, s21, s22, s23, s24] [b0, b1, b2, b3, b4] = .ok ([
      s0 ^^^ (~~~s1 &&& s2), s1 ^^^ (~~~s2 &&& s3), s2 ^^^ (~~~s3 &&& s4), s3 ^^^ (~~~s4 &&& s0), s4 ^^^ (~~~s0 &&& s1), s5 ^^^ (~~~s6 &&& s7), s6 ^^^ (~~~s7 &&& s8), s7 ^^^ (~~~s8 &&& s9), s8 ^^^ (~~~s9 &&& s5), s9 ^^^ (~~~s5 &&& s6), s10 ^^^ (~~~s11 &&& s12), s11 ^^^ (~~~s12 &&& s13), s12 ^^^ (~~~s13 &&& s14), s13 ^^^ (~~~s14 &&& s10), s14 ^^^ (~~~s10 &&& s11), s15 ^^^ (~~~s16 &&& s17), s16 ^^^ (~~~s17 &&& s18), s17 ^^^ (~~~s18 &&& s19), s18 ^^^ (~~~s19 &&& s15), s19 ^^^ (~~~s15 &&& s16), s20 ^^^ (~~~s21 &&& s22), s21 ^^^ (~~~s22 &&& s23), s22 ^^^ (~~~s23 &&& s24), s23 ^^^ (~~~s24 &&& s20), s24 ^^^ (~~~s20 &&& s21)], [s20, s21, s22, s23, s24]) := by
  simp only [chiLoop, rowLoad, rowStore, wr, rd, Nat.reduceAdd, Nat.reduceMul, Nat.reduceMod, List.length_cons, List.length_nil, Nat.reduceLT, if_true,
    List.set_cons_zero, List.set_cons_succ, ok_bind, List.getElem?_cons_zero, List.getElem?_cons_succ]

end Ack.Keccak
