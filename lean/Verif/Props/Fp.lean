import Verif.Proof.Fe
/-!
# Properties of prime-field arithmetic (C22-C26)

Every theorem ranges over all storage capacities with room for a product of two residues (`Room`), all moduli and all
elements.  `Elt p v` says that `v` is stored canonically and lies in `[0, p)`.
-/
namespace Ack.Props
open Ack Ack.Big

/-! ## C22 -/

/-- A field element: the value is canonical, lies in `[0, p)`, and the modulus pointer leads to `p`. -/
def IsElt (p : Big) (a : Fe) : Prop := a.pm = some p ∧ Elt p a.v

theorem IsElt.rep {p : Big} {a : Fe} (h : IsElt p a) (P : ℕ) : Rep P p a (res P a.v) := ⟨h.1, h.2, rfl⟩

theorem res_eq {P : ℕ} {p : Big} (hP : p.toInt = P) {z : Big} (h : Elt p z) {k : ℤ} (hk : res P z = (k : ZMod P)) :
    z.toInt = k % p.toInt := by
  unfold res at hk
  have h := h
  have := (ZMod.intCast_eq_intCast_iff _ _ _).1 hk
  rw [← hP] at this
  have e : z.toInt % p.toInt = k % p.toInt := this
  rw [← e, Int.emod_eq_of_lt h.nn h.lt]

theorem modOf {cap : Cap} {p : Big} (r : Room cap p) (c : p.Canon) (h : 1 < p.toInt) : Mod cap p p.toInt.toNat :=
  ⟨r, c, by omega, by omega⟩

section
variable {cap : Cap} {p : Big} (r : Room cap p) (cp : p.Canon) (hp : 1 < p.toInt)
include r cp hp

/-- C22: `a + b` on two field elements. -/
theorem C22_add (a b : Fe) (ha : IsElt p a) (hb : IsElt p b) :
    ∃ c, Fe.add cap a b = .ok c ∧ IsElt p c ∧ c.v.toInt = (a.v.toInt + b.v.toInt) % p.toInt := by
  have M := modOf r cp hp
  obtain ⟨c, e, h⟩ := (ha.rep p.toInt.toNat).add M (hb.rep _)
  exact ⟨c, e, ⟨h.pm, h.elt⟩, res_eq M.eq h.elt (by rw [h.val]; unfold res; push_cast; rfl)⟩

/-- C22: `a - b` on two field elements. -/
theorem C22_sub (a b : Fe) (ha : IsElt p a) (hb : IsElt p b) :
    ∃ c, Fe.sub cap a b = .ok c ∧ IsElt p c ∧ c.v.toInt = (a.v.toInt - b.v.toInt) % p.toInt := by
  have M := modOf r cp hp
  obtain ⟨c, e, h⟩ := (ha.rep p.toInt.toNat).sub M (hb.rep _)
  exact ⟨c, e, ⟨h.pm, h.elt⟩, res_eq M.eq h.elt (by rw [h.val]; unfold res; push_cast; rfl)⟩

/-- C22: `-a`. -/
theorem C22_neg (a : Fe) (ha : IsElt p a) :
    ∃ c, Fe.neg cap a = .ok c ∧ IsElt p c ∧ c.v.toInt = (-a.v.toInt) % p.toInt := by
  have M := modOf r cp hp
  obtain ⟨c, e, h⟩ := (ha.rep p.toInt.toNat).neg M
  exact ⟨c, e, ⟨h.pm, h.elt⟩, res_eq M.eq h.elt (by rw [h.val]; unfold res; push_cast; rfl)⟩

/-- C22: `a * b` on two field elements. -/
theorem C22_mul (a b : Fe) (ha : IsElt p a) (hb : IsElt p b) :
    ∃ c, Fe.mul cap a b = .ok c ∧ IsElt p c ∧ c.v.toInt = (a.v.toInt * b.v.toInt) % p.toInt := by
  have M := modOf r cp hp
  obtain ⟨c, e, h⟩ := (ha.rep p.toInt.toNat).mul M (hb.rep _)
  exact ⟨c, e, ⟨h.pm, h.elt⟩, res_eq M.eq h.elt (by rw [h.val]; unfold res; push_cast; rfl)⟩

/-- C22: `a.sqr()`. -/
theorem C22_sqr (a : Fe) (ha : IsElt p a) :
    ∃ c, Fe.sqr cap a = .ok c ∧ IsElt p c ∧ c.v.toInt = (a.v.toInt * a.v.toInt) % p.toInt := by
  have M := modOf r cp hp
  obtain ⟨c, e, h⟩ := (ha.rep p.toInt.toNat).sqr M
  exact ⟨c, e, ⟨h.pm, h.elt⟩, res_eq M.eq h.elt (by rw [h.val]; unfold res; push_cast; ring)⟩

/-- C22 with a native `int` operand in `[0, p)`: `a + k`, `a - k`, `a * k`. -/
theorem C22_int (a : Fe) (k : BitVec 32) (ha : IsElt p a) (k0 : 0 ≤ k.toInt) (kp : k.toInt < p.toInt) :
    (∃ c, Fe.addS cap a k = .ok c ∧ IsElt p c ∧ c.v.toInt = (a.v.toInt + k.toInt) % p.toInt) ∧
    (∃ c, Fe.subS cap a k = .ok c ∧ IsElt p c ∧ c.v.toInt = (a.v.toInt - k.toInt) % p.toInt) ∧
    (∃ c, Fe.mulS cap a k = .ok c ∧ IsElt p c ∧ c.v.toInt = (a.v.toInt * k.toInt) % p.toInt) := by
  have M := modOf r cp hp
  have kp' : k.toInt < (p.toInt.toNat : ℤ) := by rw [← M.eq]; exact kp
  refine ⟨?_, ?_, ?_⟩
  · obtain ⟨c, e, h⟩ := (ha.rep p.toInt.toNat).addS M k0 kp'
    exact ⟨c, e, ⟨h.pm, h.elt⟩, res_eq M.eq h.elt (by rw [h.val]; unfold res; push_cast; rfl)⟩
  · obtain ⟨c, e, h⟩ := (ha.rep p.toInt.toNat).subS M k0 kp'
    exact ⟨c, e, ⟨h.pm, h.elt⟩, res_eq M.eq h.elt (by rw [h.val]; unfold res; push_cast; rfl)⟩
  · obtain ⟨c, e, h⟩ := (ha.rep p.toInt.toNat).mulS M k0 kp'
    exact ⟨c, e, ⟨h.pm, h.elt⟩, res_eq M.eq h.elt (by rw [h.val]; unfold res; push_cast; ring)⟩

/-- C22: comparisons of elements of one field agree with equality of residues. -/
theorem C22_eq (a b : Fe) (ha : IsElt p a) (hb : IsElt p b) :
    (Fe.eq a b = true ↔ a.v.toInt = b.v.toInt) ∧ (Fe.lt a b = true ↔ a.v.toInt < b.v.toInt) ∧
    (Fe.isZero a = true ↔ a.v.toInt = 0) ∧ (Fe.isOne a = true ↔ a.v.toInt = 1) := by
  have M := modOf r cp hp
  refine ⟨opEq_iff ha.2.c hb.2.c, opLt_iff ha.2.c hb.2.c, ?_, Big.isOne_iff ha.2.c⟩
  rw [(ha.rep _).isZero_iff M, res_eq_zero_iff M ha.2]

/-! ## C23 -/

/-- C23: `inv` on a prime field: zero aborts, every other element is inverted. -/
theorem C23_inv (prime : Nat.Prime p.toInt.toNat) (a : Fe) (ha : IsElt p a) :
    (a.v.toInt = 0 → Fe.inv cap a = .error .abort) ∧
    (a.v.toInt ≠ 0 → ∃ c, Fe.inv cap a = .ok c ∧ IsElt p c ∧ (a.v.toInt * c.v.toInt) % p.toInt = 1) := by
  have M := modOf r cp hp
  haveI := Fact.mk prime
  have h := ha.rep p.toInt.toNat
  refine ⟨fun h0 => h.inv_zero M ((res_eq_zero_iff M ha.2).2 h0), fun h0 => ?_⟩
  have hn : res p.toInt.toNat a.v ≠ 0 := fun hz => h0 ((res_eq_zero_iff M ha.2).1 hz)
  obtain ⟨c, e, hc⟩ := h.inv M hn
  refine ⟨c, e, ⟨hc.pm, hc.elt⟩, ?_⟩
  have : (((a.v.toInt * c.v.toInt : ℤ)) : ZMod p.toInt.toNat) = ((1 : ℤ) : ZMod p.toInt.toNat) := by
    have h1 := hc.val
    push_cast
    change res _ a.v * res _ c.v = 1
    rw [h1, mul_inv_cancel₀ hn]
  have := (ZMod.intCast_eq_intCast_iff _ _ _).1 this
  rw [← M.eq] at this
  have e : (a.v.toInt * c.v.toInt) % p.toInt = 1 % p.toInt := this
  rw [e, Int.emod_eq_of_lt (by omega) hp]

/-- C23: `a / b` on a prime field: dividing by zero aborts; otherwise the quotient times `b` is `a`. -/
theorem C23_div (prime : Nat.Prime p.toInt.toNat) (a b : Fe) (ha : IsElt p a) (hb : IsElt p b) :
    (b.v.toInt = 0 → Fe.div cap a b = .error .abort) ∧
    (b.v.toInt ≠ 0 → ∃ c, Fe.div cap a b = .ok c ∧ IsElt p c ∧ (c.v.toInt * b.v.toInt) % p.toInt = a.v.toInt) := by
  have M := modOf r cp hp
  haveI := Fact.mk prime
  have h := ha.rep p.toInt.toNat
  refine ⟨fun h0 => h.divB_zero M hb.2 ((res_eq_zero_iff M hb.2).2 h0), fun h0 => ?_⟩
  have hn : res p.toInt.toNat b.v ≠ 0 := fun hz => h0 ((res_eq_zero_iff M hb.2).1 hz)
  obtain ⟨c, e, hc⟩ := h.divB M hb.2 hn
  refine ⟨c, e, ⟨hc.pm, hc.elt⟩, ?_⟩
  have h1 := hc.val
  refine (res_eq M.eq ha.2 (k := c.v.toInt * b.v.toInt) ?_).symm
  push_cast
  change res _ a.v = res _ c.v * res _ b.v
  rw [h1, div_mul_cancel₀ _ hn]

/-- C23, any modulus: a divisor that is not invertible aborts, an invertible one gives a quotient. -/
theorem C23_div_composite (a b : Big) (ha : Elt p a) (hb : Elt p b) :
    (Int.gcd b.toInt p.toInt ≠ 1 → Fp.div cap a b p = .error .abort) ∧
    (Int.gcd b.toInt p.toInt = 1 → ∃ c, Fp.div cap a b p = .ok c ∧ Elt p c ∧ (c.toInt * b.toInt) % p.toInt = a.toInt) := by
  rcases fpDiv_spec r cp hp ha hb with ⟨e, hg⟩ | ⟨z, e, hg, hz, hc⟩
  · exact ⟨fun _ => e, fun h => absurd h hg⟩
  · refine ⟨fun h => absurd hg h, fun _ => ⟨z, e, hz, ?_⟩⟩
    have h : (z.toInt * b.toInt) % p.toInt = a.toInt % p.toInt := hc
    rw [h, Int.emod_eq_of_lt ha.nn ha.lt]

/-! ## C24 -/

/-- C24: `sqrt` on a field of odd prime order terminates; its result squares to the argument when that is a square, and
is zero when it is not. -/
theorem C24_sqrt (prime : Nat.Prime p.toInt.toNat) (odd : p.toInt ≠ 2) (a : Fe) (ha : IsElt p a) :
    ∃ c, Fe.sqrt cap a = .ok c ∧ IsElt p c ∧
      ((∃ y : ℤ, (y * y) % p.toInt = a.v.toInt) → (c.v.toInt * c.v.toInt) % p.toInt = a.v.toInt) ∧
      ((¬ ∃ y : ℤ, (y * y) % p.toInt = a.v.toInt) → c.v.toInt = 0) := by
  have M := modOf r cp hp
  haveI := Fact.mk prime
  obtain ⟨c, y, e, hc, h1, h2⟩ := (ha.rep p.toInt.toNat).sqrt M (by omega)
  have key : (∃ y : ℤ, (y * y) % p.toInt = a.v.toInt) ↔ IsSquare (res p.toInt.toNat a.v) := by
    constructor
    · rintro ⟨y, hy⟩
      refine ⟨(y : ZMod _), ?_⟩
      rw [res_emod M.eq hy.symm]; push_cast; rfl
    · rintro ⟨y, hy⟩
      haveI : NeZero p.toInt.toNat := ⟨by omega⟩
      refine ⟨(y.val : ℤ), ?_⟩
      refine (res_eq M.eq ha.2 (k := y.val * y.val) ?_).symm
      rw [hy]; push_cast; rw [ZMod.natCast_zmod_val]
  refine ⟨c, e, ⟨hc.pm, hc.elt⟩, fun h => ?_, fun h => ?_⟩
  · have := h1 (key.1 h)
    refine (res_eq M.eq ha.2 (k := c.v.toInt * c.v.toInt) ?_).symm
    rw [← this, ← hc.val]; unfold res; push_cast; ring
  · have := h2 (fun hs => h (key.2 hs))
    rw [← hc.val, res_eq_zero_iff M hc.elt] at this
    exact this

end

/-- A modulus of two words (2^61-1) on a capacity of four, and two elements that wrap around. -/
def exP : Big := ⟨false, [0xffffffff, 0x1fffffff]⟩
def exF : Fe := ⟨⟨false, [0xfffffffe, 0x1fffffff]⟩, some exP⟩
def exG : Fe := ⟨⟨false, [0x12345678, 0x1abcdef0]⟩, some exP⟩
def exR (o : Res Fe) : Option ℤ := match o with | .ok c => some c.v.toInt | _ => none

example : Room (some 4) exP ∧ exP.Canon ∧ 1 < exP.toInt ∧ exF.v.Canon ∧ 0 ≤ exF.v.toInt ∧ exF.v.toInt < exP.toInt ∧
    exG.v.Canon ∧ 0 ≤ exG.v.toInt ∧ exG.v.toInt < exP.toInt ∧
    exR (Fe.add (some 4) exF exG) = some 1926659863286666871 ∧ exR (Fe.sub (some 4) exG exF) = some 1926659863286666873 ∧
    exR (Fe.neg (some 4) exG) = some 379183145927027079 ∧ exR (Fe.mul (some 4) exF exG) = some 379183145927027079 ∧
    exR (Fe.sqr (some 4) exF) = some 1 := by decide +kernel

example : exR (Fe.inv (some 4) exF) = some (2 ^ 61 - 2) ∧ exR (Fe.div (some 4) exG exF) = some 379183145927027079 ∧
    Fe.div (some 4) exG ⟨zero, some exP⟩ = .error .abort ∧ Fe.inv (some 4) ⟨zero, some exP⟩ = .error .abort := by decide +kernel

/-- 13 is prime with 13 ≡ 1 modulo 4 (the Tonelli-Shanks branch); 7 ≡ 3 modulo 4. -/
example : Nat.Prime (ofInt32 13).toInt.toNat ∧ Room (some 2) (ofInt32 13) ∧
    exR (Fe.sqrt (some 2) ⟨ofInt32 10, some (ofInt32 13)⟩) = some 7 ∧ exR (Fe.sqrt (some 2) ⟨ofInt32 5, some (ofInt32 13)⟩) = some 0 ∧
    exR (Fe.sqrt (some 2) ⟨ofInt32 2, some (ofInt32 7)⟩) = some 4 ∧ exR (Fe.sqrt (some 2) ⟨ofInt32 3, some (ofInt32 7)⟩) = some 0 := by
  refine ⟨by rw [show (ofInt32 13).toInt.toNat = 13 by decide]; decide, by decide, by decide +kernel, by decide +kernel, by decide +kernel, by decide +kernel⟩

/-- Outside the precondition of C22 (a native factor not below the modulus): `1 * 8` modulo 5 is returned as 8. -/
theorem C22_int_unreduced : Fe.mulS none ⟨ofInt32 1, some (ofInt32 5)⟩ 8 = .ok ⟨ofInt32 8, some (ofInt32 5)⟩ := by decide

/-- An element without modulus is zero, but arithmetic on it dereferences a null pointer. -/
theorem C22_null : Fe.zero.isZero = true ∧ Fe.add none Fe.zero Fe.zero = .error .ub ∧ Fe.neg none Fe.zero = .error .ub ∧
    Fe.mul none Fe.zero Fe.zero = .error .ub ∧ Fe.mul none Fe.zero Fe.one = .ok Fe.zero := by decide

/-! ## C25 -/

/-- `a` is longer than `p` in bytes: some power of 256 separates them. -/
def Longer (a p : Big) : Prop := ∃ k : ℕ, p.toInt < 256 ^ k ∧ 256 ^ k ≤ |a.toInt|

/-- C25, exact: the result is always congruent to `a`; it lies in `[0, p)` exactly for the listed `a`. -/
theorem C25_normalize_partial (cap : Cap) (a p : Big) (ca : a.Canon) (cp : p.Canon) (fa : Fits cap a) (fp : Fits cap p)
    (hp : 0 < p.toInt) :
    ∃ z, Fp.normalize cap a p = .ok z ∧ z.toInt ≡ a.toInt [ZMOD p.toInt] ∧
      ((0 ≤ z.toInt ∧ z.toInt < p.toInt) ↔
        (0 ≤ a.toInt ∧ a.toInt < p.toInt) ∨
        (p.toInt ≤ a.toInt ∧ (Longer a p ∨ a.toInt < 2 * p.toInt)) ∨
        (a.toInt < 0 ∧ Longer a p ∧ ¬ p.toInt ∣ a.toInt) ∨
        (a.toInt < 0 ∧ ¬ Longer a p ∧ -p.toInt ≤ a.toInt)) := by
  obtain ⟨z, e, c, v⟩ := normalize_spec ca cp fa fp hp
  have hL := longer_iff ca cp hp
  refine ⟨z, e, ?_⟩
  have hm := Int.emod_nonneg a.toInt hp.ne'
  have hm' := Int.emod_lt_of_pos a.toInt hp
  unfold Longer
  rw [← hL]
  by_cases h1 : a.toInt < 0
  · rw [if_pos h1] at v
    by_cases h2 : a.byteLength > p.byteLength
    · rw [if_pos h2] at v
      have ht : a.toInt.tmod p.toInt = if p.toInt ∣ a.toInt then 0 else a.toInt % p.toInt - p.toInt := by
        rw [Int.tmod_eq_emod]
        by_cases hd : p.toInt ∣ a.toInt
        · simp [hd, Int.emod_eq_zero_of_dvd hd]
        · rw [if_neg (by simp [hd]; omega), if_neg hd]; omega
      rw [ht] at v
      constructor
      · refine Int.modEq_iff_dvd.2 ?_
        split at v
        · rename_i hd; rw [v]; exact (Int.dvd_sub hd (by simp))
        · rw [v, sub_add_cancel]; exact Int.dvd_self_sub_emod
      · split at v
        · rename_i hd; simp only [hd]; simp; constructor <;> intros <;> omega
        · rename_i hd; simp only [hd]; simp; omega
    · rw [if_neg h2] at v
      refine ⟨by rw [v]; exact Int.modEq_iff_dvd.2 (by simp), ?_⟩
      simp [h2]; omega
  · rw [if_neg h1] at v
    by_cases h3 : p.toInt ≤ a.toInt
    · rw [if_pos h3] at v
      by_cases h2 : a.byteLength > p.byteLength
      · rw [if_pos h2] at v
        refine ⟨by rw [v]; exact Int.mod_modEq _ _, ?_⟩
        simp [h2]; omega
      · rw [if_neg h2] at v
        refine ⟨by rw [v]; exact Int.modEq_iff_dvd.2 (by simp), ?_⟩
        simp [h2]; omega
    · rw [if_neg h3] at v
      refine ⟨by rw [v], ?_⟩
      omega

/-- C25 is violated: 600 modulo 257 becomes 343, -300 becomes -43, -65792 (a multiple of 257) becomes 257. -/
theorem C25_wrong :
    Fp.normalize none (ofInt32 600) (ofInt32 257) = .ok (ofInt32 343) ∧
    Fp.normalize none (ofInt32 (-300)) (ofInt32 257) = .ok (ofInt32 (-43)) ∧
    Fp.normalize none (ofInt32 (-65792)) (ofInt32 257) = .ok (ofInt32 257) := by decide

example : (ofInt32 (-70000)).Canon ∧ (ofInt32 257).Canon ∧ 0 < (ofInt32 257).toInt ∧
    Fp.normalize none (ofInt32 (-70000)) (ofInt32 257) = .ok (ofInt32 161) := by decide

/-! ## C26 -/

/-- C26, the commutative operators: an integer on the left of `+` and `*`. -/
theorem C26_left_partial (cap : Cap) (p k : Big) (x : Fe) (r : Room cap p) (cp : p.Canon) (hp : 1 < p.toInt) (hk : Elt p k) (hx : IsElt p x) :
    (∃ c, Fe.bigAdd cap k x = .ok c ∧ IsElt p c ∧ c.v.toInt = (k.toInt + x.v.toInt) % p.toInt) ∧
    (∃ c, Fe.bigMul cap k x = .ok c ∧ IsElt p c ∧ c.v.toInt = (k.toInt * x.v.toInt) % p.toInt) := by
  have M := modOf r cp hp
  refine ⟨?_, ?_⟩
  · obtain ⟨c, e, h⟩ := (hx.rep p.toInt.toNat).addB M hk
    exact ⟨c, e, ⟨h.pm, h.elt⟩, res_eq M.eq h.elt (by rw [h.val]; unfold res; push_cast; ring)⟩
  · obtain ⟨c, e, h⟩ := (hx.rep p.toInt.toNat).mulB M hk
    exact ⟨c, e, ⟨h.pm, h.elt⟩, res_eq M.eq h.elt (by rw [h.val]; unfold res; push_cast; ring)⟩

/-- C26 is violated: what `k - x` and `k / x` compute is `x - k` and `x / k`, for every `k` and `x`. -/
theorem C26_reversed (cap : Cap) (p k : Big) (x : Fe) (r : Room cap p) (cp : p.Canon) (hp : 1 < p.toInt) (hk : Elt p k) (hx : IsElt p x) :
    (∃ c, Fe.bigSub cap k x = .ok c ∧ IsElt p c ∧ c.v.toInt = (x.v.toInt - k.toInt) % p.toInt) ∧
    (Nat.Prime p.toInt.toNat → k.toInt ≠ 0 →
      ∃ c, Fe.bigDiv cap k x = .ok c ∧ IsElt p c ∧ (c.v.toInt * k.toInt) % p.toInt = x.v.toInt) := by
  have M := modOf r cp hp
  refine ⟨?_, fun prime h0 => ?_⟩
  · obtain ⟨c, e, h⟩ := (hx.rep p.toInt.toNat).subB M hk
    exact ⟨c, e, ⟨h.pm, h.elt⟩, res_eq M.eq h.elt (by rw [h.val]; unfold res; push_cast; rfl)⟩
  · exact (C23_div r cp hp prime x ⟨k, some p⟩ hx ⟨rfl, hk⟩).2 h0

/-- C26 is violated, concretely: modulo 7, `1 - 3` gives 2 (not 5), `1 / 3` gives 3 (not 5); also for native integers. -/
theorem C26_wrong :
    Fe.bigSub none (ofInt32 1) ⟨ofInt32 3, some (ofInt32 7)⟩ = .ok ⟨ofInt32 2, some (ofInt32 7)⟩ ∧
    Fe.intSub none 1 ⟨ofInt32 3, some (ofInt32 7)⟩ = .ok ⟨ofInt32 2, some (ofInt32 7)⟩ ∧
    Fe.bigDiv none (ofInt32 1) ⟨ofInt32 3, some (ofInt32 7)⟩ = .ok ⟨ofInt32 3, some (ofInt32 7)⟩ := by decide

example : Room (some 2) (ofInt32 7) ∧ (ofInt32 7).Canon ∧ 1 < (ofInt32 7).toInt ∧ (ofInt32 4).Canon ∧ (ofInt32 4).toInt < (ofInt32 7).toInt ∧
    exR (Fe.bigAdd (some 2) (ofInt32 4) ⟨ofInt32 5, some (ofInt32 7)⟩) = some 2 ∧
    exR (Fe.bigMul (some 2) (ofInt32 4) ⟨ofInt32 5, some (ofInt32 7)⟩) = some 6 := by decide

/-- C26 for native integers on the left: `k + x` and `k * x` are right; `k - x` computes `x - k`. -/
theorem C26_int_partial (cap : Cap) (p : Big) (k : BitVec 32) (x : Fe) (r : Room cap p) (cp : p.Canon) (hp : 1 < p.toInt) (hx : IsElt p x)
    (k0 : 0 ≤ k.toInt) (kp : k.toInt < p.toInt) :
    (∃ c, Fe.intAdd cap k x = .ok c ∧ IsElt p c ∧ c.v.toInt = (k.toInt + x.v.toInt) % p.toInt) ∧
    (∃ c, Fe.intMul cap k x = .ok c ∧ IsElt p c ∧ c.v.toInt = (k.toInt * x.v.toInt) % p.toInt) ∧
    (∃ c, Fe.intSub cap k x = .ok c ∧ IsElt p c ∧ c.v.toInt = (x.v.toInt - k.toInt) % p.toInt) := by
  obtain ⟨h1, h2, h3⟩ := C22_int r cp hp x k hx k0 kp
  refine ⟨?_, ?_, h2⟩
  · obtain ⟨c, e, i, v⟩ := h1
    exact ⟨c, e, i, by rw [v, Int.add_comm]⟩
  · obtain ⟨c, e, i, v⟩ := h3
    exact ⟨c, e, i, by rw [v, Int.mul_comm]⟩

example : exR (Fe.intAdd (some 2) 4 ⟨ofInt32 5, some (ofInt32 7)⟩) = some 2 ∧
    exR (Fe.intMul (some 2) 4 ⟨ofInt32 5, some (ofInt32 7)⟩) = some 6 ∧
    exR (Fe.intSub (some 2) 4 ⟨ofInt32 5, some (ofInt32 7)⟩) = some 1 := by decide

/-! ## C71 -/

/-- C71: construction with checking succeeds exactly for values in `[0, p)` and aborts otherwise; the element holds the value. -/
theorem C71_construct (v p : Big) (cv : v.Canon) (cp : p.Canon) :
    ((0 ≤ v.toInt ∧ v.toInt < p.toInt) → ∃ c, Fe.mk' v p true = .ok c ∧ IsElt p c ∧ c.v.toInt = v.toInt) ∧
    (¬ (0 ≤ v.toInt ∧ v.toInt < p.toInt) → Fe.mk' v p true = .error .abort) := by
  have h := fp_isValid_iff cv cp
  constructor
  · intro hv
    refine ⟨⟨v, some p⟩, ?_, ⟨rfl, cv, hv.1, hv.2⟩, rfl⟩
    unfold Fe.mk' Fe.isValid
    rw [if_pos rfl]; dsimp only; rw [h.2 hv]; rfl
  · intro hv
    have : Fp.isValid v p = false := by rw [← Bool.not_eq_true, h]; exact hv
    unfold Fe.mk' Fe.isValid
    rw [if_pos rfl]; dsimp only; rw [this]; rfl

/-- C71: assignment with checking: in range it stores the value and keeps the modulus, out of range it aborts; an element without
modulus is left alone. -/
theorem C71_assign (a : Fe) (v p : Big) (cv : v.Canon) (cp : p.Canon) (ha : a.pm = some p) :
    ((0 ≤ v.toInt ∧ v.toInt < p.toInt) → ∃ c, Fe.assign a v true = .ok c ∧ IsElt p c ∧ c.v.toInt = v.toInt) ∧
    (¬ (0 ≤ v.toInt ∧ v.toInt < p.toInt) → Fe.assign a v true = .error .abort) := by
  have h := fp_isValid_iff cv cp
  constructor
  · intro hv
    refine ⟨⟨v, some p⟩, ?_, ⟨rfl, cv, hv.1, hv.2⟩, rfl⟩
    unfold Fe.assign
    rw [ha]; dsimp only; rw [if_pos rfl, h.2 hv]; rfl
  · intro hv
    have : Fp.isValid v p = false := by rw [← Bool.not_eq_true, h]; exact hv
    unfold Fe.assign
    rw [ha]; dsimp only; rw [if_pos rfl, this]; rfl

/-- C71: without checking, construction and assignment always succeed; `is_valid` then says whether the value is in range. -/
theorem C71_unchecked (a : Fe) (v p : Big) (cv : v.Canon) (cp : p.Canon) (ha : a.pm = some p) :
    ∃ c d, Fe.mk' v p false = .ok c ∧ Fe.assign a v false = .ok d ∧ c.v.toInt = v.toInt ∧ d.v.toInt = v.toInt ∧
      Fe.modulus c = .ok p ∧ Fe.modulus d = .ok p ∧
      (Fe.isValid c = true ↔ 0 ≤ v.toInt ∧ v.toInt < p.toInt) ∧ (Fe.isValid d = true ↔ 0 ≤ v.toInt ∧ v.toInt < p.toInt) ∧
      (Fe.isNegative c = true ↔ v.toInt < 0) := by
  have h := fp_isValid_iff cv cp
  refine ⟨⟨v, some p⟩, ⟨v, some p⟩, rfl, ?_, rfl, rfl, rfl, rfl, h, h, Big.isNegative_iff cv⟩
  unfold Fe.assign; rw [ha]; rfl

/-- C71: an element without modulus is invalid, ignores assignment, and its modulus cannot be read. -/
theorem C71_null (a : Fe) (v : Big) (chk : Bool) (ha : a.pm = none) :
    Fe.isValid a = false ∧ Fe.assign a v chk = .ok a ∧ Fe.modulus a = .error .abort ∧ (Fe.isZero a = true ↔ Fe.isOne a = false) := by
  refine ⟨?_, ?_, ?_, ?_⟩
  · unfold Fe.isValid; rw [ha]
  · unfold Fe.assign; rw [ha]
  · unfold Fe.modulus; rw [ha]
  · unfold Fe.isZero Fe.isOne; rw [ha]; simp

example : (ofInt32 7).Canon ∧ (ofInt32 6).Canon ∧ Fe.mk' (ofInt32 6) (ofInt32 7) true = .ok ⟨ofInt32 6, some (ofInt32 7)⟩ ∧
    Fe.mk' (ofInt32 7) (ofInt32 7) true = .error .abort ∧ Fe.mk' (ofInt32 (-1)) (ofInt32 7) true = .error .abort ∧
    Fe.assign ⟨ofInt32 1, some (ofInt32 7)⟩ (ofInt32 8) true = .error .abort ∧
    Fe.assign ⟨ofInt32 1, some (ofInt32 7)⟩ (ofInt32 8) false = .ok ⟨ofInt32 8, some (ofInt32 7)⟩ := by decide

end Ack.Props
