import Verif.Props.BigArith
/-!
# Properties of powers, modular inverse, gcd and the Jacobi symbol (C15-C18)
-/
namespace Ack.Props
open Ack Ack.Big

/-! ## C15 -/

/-- C15: `x.pow(y)` is `x^y` for every non-negative exponent (growable storage). -/
theorem C15_pow (x y : Big) (hx : x.Canon) (hy : y.Canon) (hn : y.neg = false) :
    ∃ z, pow none x y = .ok z ∧ z.Canon ∧ z.toInt = x.toInt ^ y.toInt.toNat := by
  rcases pow?_spec none x y hx hy (Fits_none x) hn with ⟨-, h⟩ | ⟨z, e, c, -, v⟩
  · exact absurd rfl h
  · refine ⟨z, by unfold pow; rw [e]; rfl, c, ?_⟩
    rw [v, toInt_of_nonneg hn]; rfl

/-- C15: on a fixed capacity the power is exact or the call aborts. -/
theorem C15_pow_fixed (cap : Cap) (x y : Big) (hx : x.Canon) (hy : y.Canon) (fx : Fits cap x) :
    pow cap x y = .error .abort ∨ ∃ z, pow cap x y = .ok z ∧ z.toInt = x.toInt ^ y.toInt.toNat := by
  by_cases hn : y.neg = true
  · left; unfold pow pow?; rw [if_pos hn]; rfl
  · have hn : y.neg = false := by simpa using hn
    rcases pow?_spec cap x y hx hy fx hn with ⟨e, -⟩ | ⟨z, e, c, -, v⟩
    · left; unfold pow; rw [e]; rfl
    · right; refine ⟨z, by unfold pow; rw [e]; rfl, ?_⟩
      rw [v, toInt_of_nonneg hn]; rfl

/-- C15: `x.modexp(y, m)` for `x ≥ 0`, `y ≥ 2`, `m > 0`: the least non-negative residue of `x^y` modulo `m`; for every
capacity: on a capacity that cannot hold twice the longer of `x`, `m` the call may abort instead. -/
theorem C15_modexp (cap : Cap) (x y m : Big) (hx : x.Canon) (hy : y.Canon) (hm : m.Canon) (fx : Fits cap x)
    (h0 : 0 ≤ x.toInt) (h2 : 2 ≤ y.toInt) (hm0 : 0 < m.toInt) :
    (∃ z, modexp cap x y m = .ok z ∧ z.toInt = x.toInt ^ y.toInt.toNat % m.toInt) ∨
    (modexp cap x y m = .error .abort ∧ cap.fits (2 * max x.ws.length m.ws.length) = false) := by
  have hn := neg_of_toInt_pos (x := y) (by omega)
  have hyv := toInt_of_nonneg hn
  rcases modexpGo_spec cap x m y.ws hx hm fx hy.1 h0 (by omega) with ⟨e, h⟩ | ⟨er, e, h⟩ | ⟨z, e, c, f, hc, hz0, -, hz2, -⟩
  · right; refine ⟨?_, h.2⟩
    unfold modexp modexp?; rw [hn]
    simp only [Bool.false_eq_true, if_false]; rw [e]; rfl
  · cases h.1
  · left; refine ⟨z, ?_, ?_⟩
    · unfold modexp modexp?; rw [hn]
      simp only [Bool.false_eq_true, if_false]; rw [e]; rfl
    · have hlt := hz2 (by rw [hyv] at h2; exact_mod_cast h2)
      rw [abs_of_pos hm0] at hlt
      rw [hyv, Int.toNat_natCast]
      have : z.toInt % m.toInt = x.toInt ^ val y.ws % m.toInt := hc
      rw [← this, Int.emod_eq_of_lt hz0 hlt]

/-- C15: what the code returns for the exponents 0 and 1: one, and the base *unreduced*; a negative exponent (and a zero
with minus sign) aborts. -/
theorem C15_modexp_small (cap : Cap) (x y m : Big) (hy : y.Canon) :
    (y.neg = false → y.toInt = 0 → modexp cap x y m = .ok (ofInt32 1)) ∧
    (y.toInt = 1 → modexp cap x y m = .ok x) ∧
    (y.neg = true → modexp cap x y m = .error .abort) := by
  refine ⟨fun hn h => ?_, fun h => ?_, fun h => ?_⟩
  · have : y = zero := by
      obtain ⟨n, w⟩ := y
      simp only at hn; subst hn
      have hw : w = [0] := canonW_val_zero hy.w ((toInt_zero_iff _).1 h)
      rw [hw]; rfl
    subst this; rfl
  · have : y = ofInt32 1 := (C09_unique y (ofInt32 1) hy one_canon (by rw [one_toInt, h])).2.2.2.2 (by omega)
    subst this; rfl
  · unfold modexp modexp?; rw [if_pos h]; rfl

/-- C15 deviation: with exponent 1 the result is not reduced, with exponent 0 and modulus 1 it is 1. -/
theorem C15_modexp_unreduced : modexp none (ofInt32 9) (ofInt32 1) (ofInt32 5) = .ok (ofInt32 9) ∧
    modexp none (ofInt32 9) (ofInt32 0) (ofInt32 1) = .ok (ofInt32 1) := by decide

/-- C15: `x.modexp(e, m)` with a native exponent `e ≥ 2`. -/
theorem C15_modexp_word (x : Big) (y : Word) (m : Big) (hx : x.Canon) (hm : m.Canon)
    (h0 : 0 ≤ x.toInt) (h2 : 2 ≤ y.toNat) (hm0 : 0 < m.toInt) :
    ∃ z, modexpWord none x y m = .ok z ∧ z.toInt = x.toInt ^ y.toNat % m.toInt := by
  rcases modexpGo_spec none x m [y] hx hm (Fits_none x) (by simp) h0 (by omega) with ⟨e, h⟩ | ⟨er, e, h⟩ | ⟨z, e, c, f, hc, hz0, -, hz2, -⟩
  · cases h.2
  · cases h.1
  · rw [val_singleton] at hc hz2
    refine ⟨z, by unfold modexpWord; rw [e]; rfl, ?_⟩
    have hlt := hz2 h2
    rw [abs_of_pos hm0] at hlt
    have : z.toInt % m.toInt = x.toInt ^ y.toNat % m.toInt := hc
    rw [← this, Int.emod_eq_of_lt hz0 hlt]

/-- C15: `x.pow(e)` with a native 64-bit exponent. -/
theorem C15_pow_int64 (x : Big) (y : BitVec 64) (hx : x.Canon) :
    (0 ≤ y.toInt → ∃ z, powInt64 none x y = .ok z ∧ z.toInt = x.toInt ^ y.toInt.toNat) ∧
    (y.toInt < 0 → powInt64 none x y = .error .abort) := by
  constructor
  · intro h
    have hc := cabs64_toNat y
    rw [abs_of_nonneg h] at hc
    set ua := cabs64 y with hua
    have hl := ua.isLt
    have e0 : (ua.setWidth 32).toNat = ua.toNat % 4294967296 := by rw [BitVec.toNat_setWidth]
    have e1 : ((ua >>> 32).setWidth 32).toNat = ua.toNat / 4294967296 := by
      rw [BitVec.toNat_setWidth, BitVec.toNat_ushiftRight, Nat.shiftRight_eq_div_pow]
      apply Nat.mod_eq_of_lt; omega
    have key : ∀ ys : List Word, ys ≠ [] → val ys = ua.toNat →
        ∃ z, powGo (fun a b => .ok (mul? none a b)) (fun a => .ok (sqr? none a)) x ys = .ok (some z) ∧ z.toInt = x.toInt ^ y.toInt.toNat := by
      intro ys hys hv
      have hc' := trim_canon false ys hys
      -- `_pow` looks only at the significant words
      have := powGo_spec (P := fun z n => z.Canon ∧ z.toInt = x.toInt ^ n) (bad := fun _ => False)
        (mul := fun a b => .ok (mul? none a b)) (sqr := fun a => .ok (sqr? none a))
        (by
          rintro a b i j ⟨ca, va⟩ ⟨cb, vb⟩
          rcases mul?_spec none a b ca cb with ⟨z, e, cz, -, vz, -⟩ | ⟨-, hf⟩
          · exact Or.inr (Or.inr ⟨z, by rw [e], cz, by rw [vz, va, vb, pow_add]⟩)
          · cases hf)
        (by
          rintro a i ⟨ca, va⟩
          rcases mul?_spec none a a ca ca with ⟨z, e, cz, -, vz, -⟩ | ⟨-, hf⟩
          · exact Or.inr (Or.inr ⟨z, by unfold sqr?; rw [e], cz, by rw [vz, va, pow_add]⟩)
          · cases hf)
        x ys hys ⟨hx, by rw [pow_one]⟩ ⟨one_canon, by rw [one_toInt, pow_zero]⟩
      rcases this with ⟨-, h⟩ | ⟨-, -, h⟩ | ⟨z, e, -, v⟩
      · exact h.elim
      · exact h.elim
      · refine ⟨z, e, ?_⟩
        rw [v, hv]; congr 1; omega
    unfold powInt64
    rw [if_neg (by omega)]
    simp only [← hua]
    have hne : (if (ua >>> 32).setWidth 32 ≠ (0 : Word) then [ua.setWidth 32, (ua >>> 32).setWidth 32] else [ua.setWidth 32] : List Word) ≠ [] := by
      split <;> simp
    obtain ⟨z, e, v⟩ := key _ hne (by
      split
      · simp only [val_cons, val_nil]; omega
      · rename_i hz
        have : ((ua >>> 32).setWidth 32 : Word).toNat = 0 := by
          rw [not_not] at hz; rw [hz]; rfl
        simp only [val_cons, val_nil]; omega)
    exact ⟨z, by rw [e]; rfl, v⟩
  · intro h; unfold powInt64; rw [if_pos h]

example : exA.Canon ∧ exB.Canon ∧ 0 ≤ exB.toInt ∧ 2 ≤ (ofInt32 13).toInt ∧ 0 < (ofInt32 1000).toInt ∧
    modexp none exB (ofInt32 13) (ofInt32 1000) = .ok ⟨false, [656]⟩ ∧ pow none (ofInt32 (-3)) (ofInt32 21) = .ok ⟨true, [0x6F7C52B3, 2]⟩ := by
  decide +kernel

/-! ## C16 -/

/-- C16: for `x ≥ 0` and `m > 1` (growable storage): the inverse in `(0, m)` when `gcd(x, m) = 1`, otherwise the call
aborts (the wrapper checks the returned flag). -/
theorem C16_modinv (x m : Big) (hx : x.Canon) (hm : m.Canon) (h0 : 0 ≤ x.toInt) (h1 : 1 < m.toInt) :
    (Int.gcd x.toInt m.toInt = 1 → ∃ z, modinv none x m = .ok z ∧ z.Canon ∧ 0 < z.toInt ∧ z.toInt < m.toInt ∧
      x.toInt * z.toInt % m.toInt = 1) ∧
    (Int.gcd x.toInt m.toInt ≠ 1 → modinv none x m = .error .abort) := by
  rcases modinv?_spec (cap := none) (K := max x.ws.length m.ws.length) rfl hm (le_max_right _ _) hx (Fits_none x) (Fits_none m) h0 h1
    (le_max_left _ _) with ⟨e, hg⟩ | ⟨z, e, hg, cz, -, z0, zm, zc⟩
  · exact ⟨fun h => absurd h hg, fun _ => by unfold modinv; rw [e]; rfl⟩
  · refine ⟨fun _ => ⟨z, by unfold modinv; rw [e]; rfl, cz, z0, zm, ?_⟩, fun h => absurd hg h⟩
    rw [mul_comm]
    have : z.toInt * x.toInt % m.toInt = 1 % m.toInt := zc
    rw [this]; exact Int.emod_eq_of_lt (by omega) h1

/-- C16 on a fixed capacity `N`: full statement as above for every capacity that holds the operands; violated
(`C16_fixed_wrong`).  It holds when one spare word is available. -/
theorem C16_modinv_fixed_partial (N : Nat) (x m : Big) (hx : x.Canon) (hm : m.Canon) (fx : x.ws.length + 1 ≤ N) (fm : m.ws.length + 1 ≤ N)
    (h0 : 0 ≤ x.toInt) (h1 : 1 < m.toInt) :
    (Int.gcd x.toInt m.toInt = 1 → ∃ z, modinv (some N) x m = .ok z ∧ 0 < z.toInt ∧ z.toInt < m.toInt ∧
      x.toInt * z.toInt % m.toInt = 1) ∧
    (Int.gcd x.toInt m.toInt ≠ 1 → modinv (some N) x m = .error .abort) := by
  have hK : Cap.fits (some N) (max x.ws.length m.ws.length + 1) = true := by rw [fits_iff]; intro M hM; cases hM; omega
  have Fx : Fits (some N) x := by intro M hM; cases hM; omega
  have Fm : Fits (some N) m := by intro M hM; cases hM; omega
  rcases modinv?_spec (K := max x.ws.length m.ws.length) hK hm (le_max_right _ _) hx Fx Fm h0 h1
    (le_max_left _ _) with ⟨e, hg⟩ | ⟨z, e, hg, cz, -, z0, zm, zc⟩
  · exact ⟨fun h => absurd h hg, fun _ => by unfold modinv; rw [e]; rfl⟩
  · refine ⟨fun _ => ⟨z, by unfold modinv; rw [e]; rfl, z0, zm, ?_⟩, fun h => absurd hg h⟩
    rw [mul_comm]
    have : z.toInt * x.toInt % m.toInt = 1 % m.toInt := zc
    rw [this]; exact Int.emod_eq_of_lt (by omega) h1

/-- C16 is violated on a fixed capacity: `fixed_bigint<32>(5).modinv(7)` is 1 (the inverse is 3). -/
theorem C16_fixed_wrong : modinv (some 1) (ofInt32 5) (ofInt32 7) = .ok (ofInt32 1) ∧ (5 * 1) % 7 ≠ 1 := by decide

/-- C16: a zero modulus aborts; the inverse modulo 1 of a number greater than 1 is 1, out of `[0, m)`. -/
theorem C16_modulus_small : modinv none (ofInt32 5) (ofInt32 0) = .error .abort ∧
    modinv none (ofInt32 5) (ofInt32 1) = .ok (ofInt32 1) ∧ modinv none (ofInt32 1) (ofInt32 1) = .ok zero := by decide

example : exB.Canon ∧ (ofInt32 1000003).Canon ∧ 0 ≤ exB.toInt ∧ 1 < (ofInt32 1000003).toInt ∧ modinv none exB (ofInt32 1000003) = .ok ⟨false, [184275]⟩ := by
  decide

/-! ## C17 (the gcd part; `lcm` is in `Props/Alias.lean`) -/

/-- C17: `gcd` of two non-negative numbers, on every capacity: it returns the greatest common divisor. -/
theorem C17_gcd (cap : Cap) (x y : Big) (hx : x.Canon) (hy : y.Canon) (fx : Fits cap x) (fy : Fits cap y)
    (nx : x.neg = false) (ny : y.neg = false) :
    ∃ z, gcd cap x y = .ok z ∧ 0 ≤ z.toInt ∧ z.toInt ∣ x.toInt ∧ z.toInt ∣ y.toInt ∧
      ∀ d : Int, d ∣ x.toInt → d ∣ y.toInt → d ∣ z.toInt := by
  obtain ⟨z, e, -, -, v, n⟩ := gcd_spec cap x y hx hy fx fy
  have hz : z.toInt = Int.gcd x.toInt y.toInt := by
    rw [← v, natAbs_toInt, toInt_of_nonneg (n nx ny)]
  exact ⟨z, e, by omega, by rw [hz]; exact Int.gcd_dvd_left _ _, by rw [hz]; exact Int.gcd_dvd_right _ _, fun d h1 h2 => by rw [hz]; exact Int.dvd_coe_gcd h1 h2⟩

/-- C17: for arguments of any sign the result has the magnitude of the gcd. -/
theorem C17_gcd_abs (cap : Cap) (x y : Big) (hx : x.Canon) (hy : y.Canon) (fx : Fits cap x) (fy : Fits cap y) :
    ∃ z, gcd cap x y = .ok z ∧ z.toInt.natAbs = Int.gcd x.toInt y.toInt := by
  obtain ⟨z, e, -, -, v, -⟩ := gcd_spec cap x y hx hy fx fy
  exact ⟨z, e, v⟩

/-- C17 (outside its quantifier): with a negative argument the sign may be negative. -/
theorem C17_gcd_negative : gcd none (ofInt32 4) (ofInt32 (-6)) = .ok (ofInt32 (-2)) := by decide

example : gcd (some 3) exB ⟨false, [0, 6]⟩ = .ok ⟨false, [0, 6]⟩ ∧ exB.neg = false := by decide

/-! ## C18 -/

/-- C18: `jacobi(m, n)` is the Jacobi symbol for every odd `n > 0` and every integer `m`; it returns. -/
theorem C18_jacobi (cap : Cap) (m n : Big) (hm : m.Canon) (hn : n.Canon) (fm : Fits cap m) (fn : Fits cap n)
    (n0 : 0 < n.toInt) (odd : n.toInt % 2 = 1) : jacobi cap m n = .ok (jacobiSym m.toInt n.toInt.natAbs) :=
  jacobi_spec cap m n hm hn fm fn n0 odd

example : exA.Canon ∧ (ofInt32 1000003).Canon ∧ 0 < (ofInt32 1000003).toInt ∧ (ofInt32 1000003).toInt % 2 = 1 ∧
    jacobi none exA (ofInt32 1000003) = .ok (-1) := by decide

end Ack.Props
