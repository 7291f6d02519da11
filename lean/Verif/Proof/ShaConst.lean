import Verif.Model.Sha
import Verif.Spec.Sha
import Mathlib.Data.Nat.Count
/-! # The constants of SHA-384 -/
namespace Ack.Sha
open Ack

theorem floorRoot_eq {k n x : Nat} (hk : k ≠ 0) (h1 : x ^ k ≤ n) (h2 : n < (x + 1) ^ k) : Spec.Sha.floorRoot k n = x := by
  unfold Spec.Sha.floorRoot
  rw [Nat.findGreatest_eq_iff]
  refine ⟨le_trans (Nat.le_self_pow hk x) h1, fun _ => h1, fun m hm _ => ?_⟩
  have : (x + 1) ^ k ≤ m ^ k := Nat.pow_le_pow_left hm k
  omega

/-- Trial division. -/
def isP (n : Nat) : Bool := decide (2 ≤ n) && (List.range n).all fun m => decide (m < 2) || decide (n % m ≠ 0)

theorem isP_iff (n : Nat) : Nat.Prime n ↔ isP n = true := by
  rw [Nat.prime_def_lt', isP]
  simp only [Bool.and_eq_true, decide_eq_true_eq, List.all_eq_true, List.mem_range, Bool.or_eq_true, ne_eq]
  constructor
  · rintro ⟨h1, h2⟩
    refine ⟨h1, fun m hm => ?_⟩
    by_cases h : m < 2
    · exact Or.inl h
    · exact Or.inr fun q => h2 m (by omega) hm (Nat.dvd_of_mod_eq_zero q)
  · rintro ⟨h1, h2⟩
    refine ⟨h1, fun m h3 h4 h5 => ?_⟩
    rcases h2 m h4 with h | h
    · omega
    · exact h (Nat.mod_eq_zero_of_dvd h5)

/-- The first eighty primes. -/
def primes80 : List Nat := [2, 3, 5, 7, 11, 13, 17, 19, 23, 29, 31, 37, 41, 43, 47, 53, 59, 61, 67, 71, 73, 79, 83, 89, 97,
  101, 103, 107, 109, 113, 127, 131, 137, 139, 149, 151, 157, 163, 167, 173, 179, 181, 191, 193, 197, 199, 211, 223, 227,
  229, 233, 239, 241, 251, 257, 263, 269, 271, 277, 281, 283, 293, 307, 311, 313, 317, 331, 337, 347, 349, 353, 359, 367,
  373, 379, 383, 389, 397, 401, 409]

theorem count_check : ∀ t, t < 80 → isP (primes80.getD t 0) = true ∧ Nat.count (fun n => isP n = true) (primes80.getD t 0) = t := by
  decide +kernel

theorem nth_prime (t : Nat) (h : t < 80) : Nat.nth Nat.Prime t = primes80.getD t 0 := by
  obtain ⟨h1, h2⟩ := count_check t h
  have e : (Nat.Prime : Nat → Prop) = fun n => isP n = true := funext fun n => propext (isP_iff n)
  rw [e]
  have := Nat.nth_count (p := fun n => isP n = true) h1
  rw [h2] at this
  exact this

/-- `w` is the fraction of the `k`-th root of `p` to 64 bits; the integer part is below 40. -/
def chk (k p : Nat) (w : BitVec 64) : Bool :=
  (List.range 40).any fun a => decide ((a * 2 ^ 64 + w.toNat) ^ k ≤ p * 2 ^ (64 * k)) && decide (p * 2 ^ (64 * k) < (a * 2 ^ 64 + w.toNat + 1) ^ k)

theorem chk_sound {k p : Nat} {w : BitVec 64} (hk : k ≠ 0) (h : chk k p w = true) : Spec.Sha.fracRoot k p = w := by
  rw [chk, List.any_eq_true] at h
  obtain ⟨a, -, ha⟩ := h
  rw [Bool.and_eq_true, decide_eq_true_eq, decide_eq_true_eq] at ha
  unfold Spec.Sha.fracRoot
  rw [floorRoot_eq hk ha.1 ha.2]
  apply BitVec.eq_of_toNat_eq
  rw [BitVec.toNat_ofNat]
  have := w.isLt
  omega

theorem K_check : ∀ t, t < 80 → chk 3 (primes80.getD t 0) (K512.getD t 0) = true := by decide +kernel
theorem H_check : ∀ t, t < 8 → chk 2 (primes80.getD (8 + t) 0) (initial384.getD t 0) = true := by decide +kernel

theorem K_eq (t : Nat) (h : t < 80) : Spec.Sha.K t = K512.getD t 0 := by
  unfold Spec.Sha.K; rw [nth_prime t h]; exact chk_sound (k := 3) (by decide) (K_check t h)

theorem H_eq (t : Nat) (h : t < 8) : Spec.Sha.H0 t = initial384.getD t 0 := by
  unfold Spec.Sha.H0; rw [nth_prime (8 + t) (by omega)]; exact chk_sound (k := 2) (by decide) (H_check t h)

end Ack.Sha
