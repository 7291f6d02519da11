import Verif.Model.Print
import Verif.Spec.Print
import Verif.Props.Utils
import Verif.Proof.KeyCode
/-!
# Printing (C98)
-/
namespace Ack.Props
open Ack Ack.Big

theorem printHex_eq (d : List Byte) : printHex d = hexText false d := by
  have h : ∀ n < 16, hexChar n = hexLower.getD n 0 := by decide
  induction d with
  | nil => rfl
  | cons b t ih =>
    have e : hexText false (b :: t) = hexLower.getD (b.toNat / 16) 0 :: hexLower.getD (b.toNat % 16) 0 :: hexText false t := rfl
    rw [printHex, ih, e, h _ (by have := b.isLt; omega), h _ (by omega)]

theorem hexText_cons {d : List Byte} (h : d ≠ []) : ∃ c t, hexText false d = c :: t ∧ c ≠ 0x2d := by
  match d, h with
  | b :: t, _ =>
    refine ⟨_, _, rfl, ?_⟩
    have : ∀ b : Byte, hexLower.getD (b.toNat / 16) 0 ≠ 0x2d := by decide +kernel
    exact this b

/-- C98: what `print` prints of an integer denotes it, and is the shortest such text of whole bytes, with a sign for negative numbers only. -/
theorem C98_print (x : Big) (hx : x.Canon) : Spec.Tidy x.toInt x.print ∧ Spec.hexInt x.print = some x.toInt := by
  obtain ⟨v, ne, -⟩ := C10_export x hx
  have v' : beVal (toBytes x) = x.toInt.natAbs := by rw [Int.abs_eq_natAbs] at v; exact_mod_cast v
  have hn := isNegative_iff hx
  have hp : x.print = (if x.toInt < 0 then [0x2d] else []) ++ hexText false (toBytes x) := by
    unfold Big.print
    rw [printHex_eq]
    by_cases h : x.toInt < 0
    · rw [if_pos (hn.2 h), if_pos h]
    · rw [if_neg (fun c => h (hn.1 c)), if_neg h]
  refine ⟨⟨toBytes x, hp, v', ne, ?_⟩, ?_⟩
  · by_cases h0 : x.toInt = 0
    · left
      obtain ⟨-, -, least⟩ := C10_export x hx
      have := least [0] (by simp) (by rw [h0]; rfl)
      have := List.length_pos_iff.2 ne
      simp at *; omega
    · exact .inr (toBytes_head hx h0)
  · rw [hp]
    have hv := (hexNum_text false (toBytes x)).1
    obtain ⟨c, t, e, hc⟩ := hexText_cons ne
    by_cases h : x.toInt < 0
    · rw [if_pos h, List.singleton_append, Spec.hexInt, if_pos rfl, if_neg (by rw [e]; simp), hv, v']
      show some (-(x.toInt.natAbs : Int)) = some _; congr 1; omega
    · rw [if_neg h, List.nil_append, e, Spec.hexInt, if_neg hc, ← e, hv, v']
      show some (x.toInt.natAbs : Int) = some _; congr 1; omega

/-- C98: two integers print alike exactly when they are equal. -/
theorem C98_injective (x y : Big) (hx : x.Canon) (hy : y.Canon) : x.print = y.print ↔ x.toInt = y.toInt := by
  constructor
  · intro h
    have h1 := (C98_print x hx).2
    rw [h, (C98_print y hy).2] at h1
    exact (Option.some.inj h1).symm
  · intro h
    obtain ⟨d, e, v, n, l⟩ := (C98_print x hx).1
    obtain ⟨d', e', v', n', l'⟩ := (C98_print y hy).1
    rw [h] at e v
    have key : ∀ a b : List Byte, a ≠ [] → b ≠ [] → (a.length = 1 ∨ a.headD 0 ≠ 0) → (b.length = 1 ∨ b.headD 0 ≠ 0) → beVal a = beVal b → a.length ≤ b.length := by
      intro a b ha hb la lb hv
      rcases la with la | la
      · have := List.length_pos_iff.2 hb; omega
      by_contra hlt
      match a, ha with
      | b0 :: t, _ =>
        have h1 := beVal_lt b
        have h3 : (256:Nat) ^ b.length ≤ 256 ^ t.length := Nat.pow_le_pow_right (by norm_num) (by simp at hlt; omega)
        have h4 : 1 ≤ b0.toNat := by
          have : b0 ≠ 0 := la
          rw [ne_eq, ← BitVec.toNat_inj] at this
          simp at this; omega
        have h5 : 1 * 256 ^ t.length ≤ b0.toNat * 256 ^ t.length := Nat.mul_le_mul_right _ h4
        rw [← hv] at h1
        simp only [beVal] at h1
        omega
    have hd := v.trans v'.symm
    have : d = d' := beVal_inj (le_antisymm (key d d' n n' l l' hd) (key d' d n' n l' l hd.symm)) hd
    rw [e, e', this]

/-- C98: the text of a non-negative integer, given to the constructor from hexadecimal text, makes the same integer; that of a negative
one is refused. -/
theorem C98_read_back (x : Big) (hx : x.Canon) :
    (0 ≤ x.toInt → ∃ y, Big.ofHex none x.print = .ok y ∧ y.Canon ∧ y.toInt = x.toInt) ∧ (x.toInt < 0 → Big.ofHex none x.print = .error .abort) := by
  obtain ⟨d, e, v, n, -⟩ := (C98_print x hx).1
  constructor
  · intro h
    rw [if_neg (by omega), List.nil_append] at e
    obtain ⟨y, ey, cy, vy⟩ := C10_import d
    refine ⟨y, ?_, cy, by rw [vy, v]; omega⟩
    rw [e]; unfold Big.ofHex; rw [C59_roundtrip, ok_bind, ey]
  · intro h
    rw [if_pos h] at e
    have hl : x.print.getLast? ≠ some 0 := by
      obtain ⟨c, t, ec, -⟩ := hexText_cons n
      have hs := hexText_last false d
      unfold stripNul at hs
      rw [e, List.singleton_append, ec, List.getLast?_cons_cons, ← ec]
      intro h0
      rw [if_pos h0] at hs
      have := congrArg List.length hs
      rw [List.length_dropLast, ec] at this
      simp at this
    have hx0 : hexNum x.print = none := by rw [e]; rfl
    unfold Big.ofHex
    rw [(C59_decode _ hl).2 hx0]; rfl

/-- C98: a field element prints as the number it holds. -/
theorem C98_element (a : Fe) (h : a.v.Canon) : Spec.hexInt a.print = some a.v.toInt := (C98_print a.v h).2

/-- C98: printing an object of a program prints the integer it holds, whichever object it is and wherever its storage lies. -/
theorem C98_object (s : Mem.BigSt) (x : Nat) (X : Big) (h : Mem.Rep s x X) (c : X.Canon) :
    ∃ t, s.print x = .ok t ∧ Spec.Tidy X.toInt t ∧ Spec.hexInt t = some X.toInt := by
  obtain ⟨h1, h2⟩ := C98_print X c
  refine ⟨X.print, ?_, h1, h2⟩
  unfold Mem.BigSt.print Big.print
  rw [Mem.toBytes_eq h c, ok_bind, Mem.isNegative_mem h, ok_bind]
  cases X.isNegative <;> rfl

example : exB.Canon ∧ exB.print = chars "07fffffffe00000000" ∧ (⟨true, [0x0a]⟩ : Big).print = chars "-0a" ∧ negZero.print = chars "00" ∧
    Spec.hexInt (chars "-0a") = some (-10) ∧ Big.ofHex none (chars "-0a") = .error .abort := by decide +kernel

end Ack.Props
