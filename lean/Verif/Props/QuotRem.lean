import Verif.Proof.AliasProg
import Verif.Proof.BigCtor
/-!
# `quot_rem` on storage of a fixed size (C04)

On growable storage `C04_quot_rem` gives the floor.  On `N` words the rounding step adds one to the magnitude of the truncated
quotient, and that addition wants room for one more word than the truncated quotient has.
-/
namespace Ack.Props
open Ack Ack.Big Ack.Spec.Prog Ack.Mem

/-- C04: `quot_rem` on `N` words, every pair of operands and every non-zero divisor.  The remainder is always the floor
remainder.  The quotient is the floor of the quotient, except when it has to be rounded down (the division is not exact and
the signs differ) and the truncated quotient already has `N` words: then the quotient reported is 0. -/
theorem C04_quot_rem_fixed (N : Nat) (x y : Big) (hx : x.Canon) (hy : y.Canon) (fx : Big.Fits (some N) x)
    (fy : Big.Fits (some N) y) (h0 : y.toInt ≠ 0) :
    ∃ q r, quotRem (some N) x y = .ok (q, r) ∧ r.toInt = x.toInt.fmod y.toInt ∧
      q.toInt = if x.toInt.fmod y.toInt ≠ 0 ∧ (x.toInt < 0 ↔ 0 < y.toInt) ∧ N ≤ words (x.toInt.tdiv y.toInt) then 0
        else x.toInt.fdiv y.toInt := by
  obtain ⟨q, r, d, h1, -, -, -, -, h6, -, h8, h9, -, h11⟩ := quotRem_exact (some N) x y hx hy fx fy h0
  refine ⟨q, r, h1, h6, ?_⟩
  have hfit : Cap.fits (some N) (d.ws.length + 1) = false ↔ N ≤ words (x.toInt.tdiv y.toInt) := by
    rw [← h9, ← words_eq h8, ← Bool.not_eq_true, fits_iff]
    constructor
    · intro h
      by_contra hc
      exact h fun M hM => by cases hM; omega
    · intro h hh
      have := hh N rfl
      omega
  have hs : ∀ {z : Big}, z.toInt ≠ 0 → (z.neg = true ↔ z.toInt < 0) := by
    intro z hz
    unfold toInt at hz ⊢
    cases z.neg <;> simp at hz ⊢ <;> omega
  have hsign : x.toInt.fmod y.toInt ≠ 0 → (x.neg ≠ y.neg ↔ (x.toInt < 0 ↔ 0 < y.toInt)) := by
    intro hm
    have hx0 : x.toInt ≠ 0 := by
      intro h; rw [h] at hm; exact hm (by simp)
    have h1 := hs hx0
    have h2 := hs h0
    cases hxn : x.neg <;> cases hyn : y.neg <;> rw [hxn] at h1 <;> rw [hyn] at h2 <;> simp at h1 h2 ⊢ <;> omega
  rcases h11 with ⟨⟨c1, c2, c3⟩, h⟩ | ⟨hn, h⟩
  · rw [if_pos ⟨c1, (hsign c1).1 c2, hfit.1 c3⟩, h]; rfl
  · rw [if_neg, h]
    rintro ⟨c1, c2, c3⟩
    exact hn ⟨c1, (hsign c1).2 c2, hfit.2 c3⟩

/-- Hypotheses are met, and the exceptional case occurs: on one word, `-7 quot_rem 2` leaves remainder 1 but quotient 0, where
the floor is -4; on two words the quotient is right. -/
example : quotRem (some 1) ⟨true, [7]⟩ ⟨false, [2]⟩ = .ok (⟨false, [0]⟩, ⟨false, [1]⟩) ∧
    quotRem (some 2) ⟨true, [7]⟩ ⟨false, [2]⟩ = .ok (⟨true, [4]⟩, ⟨false, [1]⟩) := by decide +kernel

/-- C04: the identity `x = q*y + r` is not a property of the fixed storage. -/
theorem C04_quot_rem_fixed_wrong : ¬ ∀ (N : Nat) (x y : Big), x.Canon → y.Canon → Big.Fits (some N) x → Big.Fits (some N) y →
    y.toInt ≠ 0 → ∃ q r, quotRem (some N) x y = .ok (q, r) ∧ x.toInt = q.toInt * y.toInt + r.toInt := by
  intro h
  obtain ⟨q, r, e, hq⟩ := h 1 ⟨true, [7]⟩ ⟨false, [2]⟩ (by decide) (by decide) (by intro N hN; cases hN; decide)
    (by intro N hN; cases hN; decide) (by decide)
  have e' : quotRem (some 1) ⟨true, [7]⟩ ⟨false, [2]⟩ = .ok (⟨false, [0]⟩, ⟨false, [1]⟩) := by decide +kernel
  rw [e'] at e
  obtain ⟨rfl, rfl⟩ : q = ⟨false, [0]⟩ ∧ r = ⟨false, [1]⟩ := by
    simp only [Except.ok.injEq, Prod.mk.injEq] at e; exact ⟨e.1.symm, e.2.symm⟩
  exact absurd hq (by decide)

end Ack.Props
