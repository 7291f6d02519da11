import Verif.Proof.Div
/-!
# C101: how often the loops of the long division run
-/
namespace Ack.Props
open Ack

theorem dfbLoop_more (y : List Word) (rev : Word) : ∀ (f g : ℕ) (q x : List Word) (r : List Word × List Word), f ≤ g →
    dfbLoop y rev f q x = .ok r → dfbLoop y rev g q x = .ok r := by
  intro f
  induction f with
  | zero => intro g q x r _ h; cases h
  | succ f ih =>
    intro g q x r hg h
    obtain ⟨g, rfl⟩ : ∃ k, g = k + 1 := ⟨g - 1, by omega⟩
    rw [dfbLoop] at h ⊢
    split
    · rename_i h1
      rw [if_pos h1] at h
      split
      · rename_i h2
        rw [if_pos h2] at h
        exact ih g _ _ r (by omega) h
      · rename_i h2
        rw [if_neg h2] at h
        cases hs : dfbStep y rev q x with
        | inl v => rw [hs] at h; exact ih g _ _ r (by omega) h
        | inr v => rw [hs] at h; exact h
    · rename_i h1
      rw [if_neg h1] at h
      exact h

theorem divSmallLoop_more (y : List Word) : ∀ (f g : ℕ) (x : List Word) (qv : Word) (r : List Word × Word), f ≤ g →
    divSmallLoop y f x qv = .ok r → divSmallLoop y g x qv = .ok r := by
  intro f
  induction f with
  | zero => intro g x qv r _ h; cases h
  | succ f ih =>
    intro g x qv r hg h
    obtain ⟨g, rfl⟩ : ∃ k, g = k + 1 := ⟨g - 1, by omega⟩
    rw [divSmallLoop] at h ⊢
    split
    · rename_i h1
      rw [if_pos h1] at h
      exact ih g _ _ r (by omega) h
    · rename_i h1
      rw [if_neg h1] at h
      exact h

/-- **C101, the main loop** (`div_full_bit`): for a divisor of two or more words whose top bit is set and a dividend of at most `qn` words more,
whatever their values, the loop ends after at most twelve passes for every word that the dividend has more, and thirteen, with the words of
the quotient and the remainder; with more passes allowed it does the same. -/
theorem C101_long (qn : ℕ) (x y : List Word) (hy : 2 ≤ y.length) (hxl : x.length ≤ y.length + qn) (hxl' : y.length - 1 ≤ x.length)
    (htop : 2 ^ 31 ≤ (y.getLastD 0).toNat) (hX : val x < val y * 2 ^ (32 * qn)) (rev : Word)
    (hrev : y.getLastD 0 ≠ 0xffffffff#32 → rev = (divWord1 0x80000000#32 0 (y.getLastD 0 + 1)).1) :
    ∃ q r : List Word, q.length = qn ∧ val q = val x / val y ∧ val r = val x % val y ∧
      ∀ f, 12 * (x.length - y.length) + 13 ≤ f → dfbLoop y rev f (List.replicate qn 0) x = .ok (q, r) := by
  have hB : B qn = 2 ^ (32 * qn) := by unfold B; rw [pow_mul]; rfl
  obtain ⟨q, r, e1, e2, e3, e4, -, -⟩ := dfbLoop_spec y rev (val x) qn hy htop hrev (by rw [hB]; exact hX) (12 * (x.length - y.length) + 13)
    (List.replicate qn 0) x ⟨by simp, by rw [val_replicate_zero]; omega, hxl, hxl'⟩ (by have := dfbRank_le y x.length (val x); omega)
  exact ⟨q, r, e2, e3, e4, fun f hf => dfbLoop_more y rev _ f _ _ _ hf e1⟩

/-- **C101, the loop of `div_small`**: dividend and divisor have as many words, the top word of the divisor is at least 2^16: after the first
estimate the loop subtracts the divisor at most once more. -/
theorem C101_small (x y : List Word) (hy : 2 ≤ y.length) (hlen : x.length = y.length) (hbig : 65536 ≤ (y.getLastD 0).toNat) (hlt : val y < val x) :
    let st : List Word × Word := if y.getLastD 0 = 0xffffffff#32 then ((subN x y).1, 1)
      else ((subN x (mulWordN y (x.getLastD 0 / (y.getLastD 0 + 1))).1).1, x.getLastD 0 / (y.getLastD 0 + 1))
    ∃ (r : List Word) (qv : Word), qv.toNat = val x / val y ∧ val r = val x % val y ∧ ∀ f, 2 ≤ f → divSmallLoop y f st.1 st.2 = .ok (r, qv) := by
  intro st
  have hx : x ≠ [] := by intro h; rw [h] at hlen; simp at hlen; omega
  have hyne : y ≠ [] := by intro h; rw [h] at hy; simp at hy
  obtain ⟨st', e, hl, hi, h2⟩ := divSmall_first x y hx hy hlen hbig hlt
  have e : st = st' := e
  have hYge := val_ge_top y hyne
  have hBp := B_pos (y.length - 1)
  have hYpos : 0 < val y := by
    have := Nat.mul_pos hBp (show 0 < (y.getLastD 0).toNat by omega)
    omega
  have hq : val x / val y < 4294967296 := by
    rw [Nat.div_lt_iff_lt_mul hYpos]
    have h1 := val_lt x
    rw [hlen, show y.length = (y.length - 1) + 1 by omega, B_succ] at h1
    have h3 : B (y.length - 1) * 1 ≤ B (y.length - 1) * (y.getLastD 0).toNat := Nat.mul_le_mul_left _ (by omega)
    omega
  obtain ⟨r, qv, e1, -, e3, e4⟩ := divSmallLoop_spec y (val x) hYpos hq 2 st'.1 st'.2 hl hi (by
    rw [Nat.div_lt_iff_lt_mul hYpos]; exact h2)
  rw [e]
  exact ⟨r, qv, e3, e4, fun f hf => divSmallLoop_more y _ f _ _ _ hf e1⟩

/-! ### Cases -/

/-- A dividend of four words by a divisor of two: 37 passes by the bound; the loop needs eleven. -/
example : dfbLoop [0, 0x80000000] (divWord1 0x80000000#32 0 0x80000001).1 37 [0, 0, 0] [0xffffffff, 0xffffffff, 0xffffffff, 0xffffffff] =
      .ok ([0xffffffff, 0xffffffff, 1], [0xffffffff, 0x7fffffff]) ∧
    dfbLoop [0, 0x80000000] (divWord1 0x80000000#32 0 0x80000001).1 11 [0, 0, 0] [0xffffffff, 0xffffffff, 0xffffffff, 0xffffffff] =
      .ok ([0xffffffff, 0xffffffff, 1], [0xffffffff, 0x7fffffff]) ∧
    dfbLoop [0, 0x80000000] (divWord1 0x80000000#32 0 0x80000001).1 10 [0, 0, 0] [0xffffffff, 0xffffffff, 0xffffffff, 0xffffffff] =
      .error .fuel := by decide +kernel

/-- The divisor 2^48, the dividend 2^49 + 2^32 + 5: the first estimate is 1, one subtraction follows. -/
example : (subN [5, 0x20001] (mulWordN [0, 0x10000] (0x20001 / 0x10001)).1).1 = [5, 0x10001] ∧
    divSmallLoop [0, 0x10000] 2 [5, 0x10001] 1 = .ok ([5, 1], 2) ∧ divSmallLoop [0, 0x10000] 1 [5, 0x10001] 1 = .error .fuel := by decide +kernel

end Ack.Props
