import Verif.Proof.Weier
import Mathlib.GroupTheory.OrderOfElement
import Mathlib.GroupTheory.Perm.Cycle.Type
import Mathlib.FieldTheory.Finite.Basic
import Mathlib.Data.Nat.Prime.Basic
import Mathlib.Tactic.LinearCombination
import Mathlib.Tactic.FieldSimp
/-!
# Checking multiples of a point by computation on natural numbers

`mulCheck N a x y e` runs double-and-add in Jacobian coordinates modulo `N` and checks `e·(x,y) = -(x,y)`.  Because the
`z`-coordinate collects every denominator met on the way, `gcd(z, N) = 1` at the end shows that no exceptional case was
passed, modulo any prime factor of `N`.  `ecpp` is the Goldwasser-Kilian primality criterion with the elementary bound
`#E ≤ 2q + 1`.  These functions are part of proofs about constants; they do not model any code.
-/
namespace Ack
open WeierstrassCurve

/-- Evaluates `n` before going on (the match makes the kernel compute the number). -/
def force {α : Type} (n : Nat) (k : Nat → α) : α :=
  match n with
  | 0 => k 0
  | m + 1 => k (m + 1)

theorem force_eq {α : Type} (n : Nat) (k : Nat → α) : force n k = k n := by cases n <;> rfl

/-- `-t` modulo `N`. -/
def ng (N t : Nat) : Nat := N - t % N

def jdbl (N a X Y Z : Nat) (k : Nat → Nat → Nat → Bool) : Bool :=
  force (Y * Y % N) fun YY =>
  force (4 * X * YY % N) fun S =>
  force (Z * Z % N) fun ZZ =>
  force ((3 * X * X + a * (ZZ * ZZ)) % N) fun M =>
  force ((M * M + ng N (2 * S)) % N) fun X' =>
  force ((M * (S + ng N X') + ng N (8 * (YY * YY))) % N) fun Y' =>
  force (2 * Y * Z % N) fun Z' => k X' Y' Z'

def jadd (N x y X Y Z : Nat) (k : Nat → Nat → Nat → Bool) : Bool :=
  force (Z * Z % N) fun ZZ =>
  force ((x * ZZ + ng N X) % N) fun H =>
  force ((y * (ZZ * Z) + ng N Y) % N) fun R =>
  force (H * H % N) fun HH =>
  force (HH * H % N) fun HHH =>
  force (X * HH % N) fun V =>
  force ((R * R + ng N (HHH + 2 * V)) % N) fun X' =>
  force ((R * (V + ng N X') + ng N (Y * HHH)) % N) fun Y' =>
  force (H * Z % N) fun Z' => k X' Y' Z'

def jrun (N a x y e : Nat) : Nat → Nat → Nat → Nat → (Nat → Nat → Nat → Bool) → Bool
  | 0, X, Y, Z, k => k X Y Z
  | i + 1, X, Y, Z, k =>
    jdbl N a X Y Z fun X Y Z =>
      bif Nat.beq (Nat.mod (Nat.shiftRight e i) 2) 1 then jadd N x y X Y Z fun X Y Z => jrun N a x y e i X Y Z k
      else jrun N a x y e i X Y Z k

def mulCheck (N a x y e : Nat) : Bool :=
  jrun N a x y e (Nat.log2 e) x y 1 fun X Y Z =>
    Nat.beq (Nat.gcd Z N) 1 && Nat.beq X (x * (Z * Z) % N) && Nat.beq ((Y + y * (Z * (Z * Z))) % N) 0

section
variable {q : ℕ} [Fact q.Prime] {N : ℕ} (hq : q ∣ N) (hN : 0 < N)
include hq hN

theorem ng_cast (t : ℕ) : ((ng N t : ℕ) : ZMod q) = -(t : ZMod q) := by
  unfold ng
  have h0 : ((N : ℕ) : ZMod q) = 0 := (ZMod.natCast_eq_zero_iff _ _).2 hq
  have h1 : ((t % N : ℕ) : ZMod q) = t := by
    have := congrArg (fun n : ℕ => (n : ZMod q)) (Nat.mod_add_div t N)
    push_cast at this
    rw [h0, zero_mul, add_zero] at this
    exact this
  rw [Nat.cast_sub (Nat.mod_lt _ hN).le, h1, h0, zero_sub]

omit hN in
theorem modN_cast (t : ℕ) : ((t % N : ℕ) : ZMod q) = t := by
  have h0 : ((N : ℕ) : ZMod q) = 0 := (ZMod.natCast_eq_zero_iff _ _).2 hq
  have := congrArg (fun n : ℕ => (n : ZMod q)) (Nat.mod_add_div t N)
  push_cast at this
  rw [h0, zero_mul, add_zero] at this
  exact this

variable {A B : ZMod q} (hd : 4 * A ^ 3 + 27 * B ^ 2 ≠ 0) (h2 : (2 : ZMod q) ≠ 0)

/-- The coordinates denote the point, or the third one is zero. -/
def Den (Q : (shortW A B).Point) (X Y Z : ZMod q) : Prop :=
  Z = 0 ∨ ∃ u v h, Q = .some u v h ∧ X = u * Z ^ 2 ∧ Y = v * Z ^ 3

omit hq hN in
include h2 in
theorem den_dbl {Q : (shortW A B).Point} {X Y Z : ZMod q} (h : Den Q X Y Z) (X' Y' Z' : ZMod q)
    (e1 : X' = (3 * X ^ 2 + A * Z ^ 4) ^ 2 - 2 * (4 * X * Y ^ 2))
    (e2 : Y' = (3 * X ^ 2 + A * Z ^ 4) * (4 * X * Y ^ 2 - X') - 8 * Y ^ 4) (e3 : Z' = 2 * Y * Z) : Den (Q + Q) X' Y' Z' := by
  by_cases hz : Z' = 0
  · exact Or.inl hz
  rcases h with h | ⟨u, v, hn, rfl, hX, hY⟩
  · exact absurd (by rw [e3, h, mul_zero]) hz
  have hZ : Z ≠ 0 := by rintro rfl; exact hz (by rw [e3, mul_zero])
  have hv : v ≠ 0 := by rintro rfl; exact hz (by rw [e3, hY]; ring)
  have hd : 2 * v ≠ 0 := mul_ne_zero h2 hv
  obtain ⟨l, hl⟩ : ∃ l, l * (2 * v) = 3 * u ^ 2 + A := ⟨(3 * u ^ 2 + A) / (2 * v), div_mul_cancel₀ _ hd⟩
  obtain ⟨h', e⟩ := dbl_at h2 hn hv hl rfl rfl
  have hA : A = l * (2 * v) - 3 * u ^ 2 := by rw [hl]; ring
  have eX : X' = (l ^ 2 - 2 * u) * Z' ^ 2 := by rw [e1, e3, hX, hY, hA]; ring
  refine Or.inr ⟨_, _, h', e, eX, ?_⟩
  rw [e2, eX, e3, hX, hY, hA]; ring

omit hq hN in
theorem den_add {Q : (shortW A B).Point} {X Y Z x y : ZMod q} (hxy : (shortW A B).Nonsingular x y) (h : Den Q X Y Z) (X' Y' Z' : ZMod q)
    (e1 : X' = (y * Z ^ 3 - Y) ^ 2 - ((x * Z ^ 2 - X) ^ 3 + 2 * (X * (x * Z ^ 2 - X) ^ 2)))
    (e2 : Y' = (y * Z ^ 3 - Y) * (X * (x * Z ^ 2 - X) ^ 2 - X') - Y * (x * Z ^ 2 - X) ^ 3)
    (e3 : Z' = (x * Z ^ 2 - X) * Z) : Den (Q + .some x y hxy) X' Y' Z' := by
  by_cases hz : Z' = 0
  · exact Or.inl hz
  rcases h with h | ⟨u, v, hn, rfl, hX, hY⟩
  · exact absurd (by rw [e3, h, mul_zero]) hz
  have hux : u ≠ x := by rintro rfl; exact hz (by rw [e3, hX]; ring)
  have hne : x - u ≠ 0 := sub_ne_zero.2 hux.symm
  obtain ⟨l, hl⟩ : ∃ l, l * (x - u) = y - v := ⟨(y - v) / (x - u), div_mul_cancel₀ _ hne⟩
  obtain ⟨h', e⟩ := add_at hn hxy hux hl rfl rfl
  have hy : y = v + l * (x - u) := by rw [hl]; ring
  have eX : X' = (l ^ 2 - u - x) * Z' ^ 2 := by rw [e1, e3, hX, hY, hy]; ring
  refine Or.inr ⟨_, _, h', e, eX, ?_⟩
  rw [e2, eX, e3, hX, hY, hy]; ring

include h2 in
theorem jdbl_spec {a : ℕ} (ha : (a : ZMod q) = A) {Q : (shortW A B).Point} {X Y Z : ℕ} (h : Den Q (X : ZMod q) Y Z)
    {k : Nat → Nat → Nat → Bool} (hk : jdbl N a X Y Z k = true) :
    ∃ X' Y' Z' : ℕ, k X' Y' Z' = true ∧ Den (Q + Q) (X' : ZMod q) Y' Z' := by
  unfold jdbl at hk
  simp only [force_eq] at hk
  refine ⟨_, _, _, hk, den_dbl h2 h _ _ _ ?_ ?_ ?_⟩
  · simp only [modN_cast hq, Nat.cast_add, Nat.cast_mul, ng_cast hq hN, ha, Nat.cast_ofNat]; ring
  · simp only [modN_cast hq, Nat.cast_add, Nat.cast_mul, ng_cast hq hN, ha, Nat.cast_ofNat]; ring
  · simp only [modN_cast hq, Nat.cast_add, Nat.cast_mul, ng_cast hq hN, ha, Nat.cast_ofNat]

theorem jadd_spec {x y : ℕ} (hxy : (shortW A B).Nonsingular (x : ZMod q) (y : ZMod q)) {Q : (shortW A B).Point} {X Y Z : ℕ}
    (h : Den Q (X : ZMod q) Y Z) {k : Nat → Nat → Nat → Bool} (hk : jadd N x y X Y Z k = true) :
    ∃ X' Y' Z' : ℕ, k X' Y' Z' = true ∧ Den (Q + .some _ _ hxy) (X' : ZMod q) Y' Z' := by
  unfold jadd at hk
  simp only [force_eq] at hk
  refine ⟨_, _, _, hk, den_add hxy h _ _ _ ?_ ?_ ?_⟩
  · simp only [modN_cast hq, Nat.cast_add, Nat.cast_mul, ng_cast hq hN, Nat.cast_ofNat]; ring
  · simp only [modN_cast hq, Nat.cast_add, Nat.cast_mul, ng_cast hq hN, Nat.cast_ofNat]; ring
  · simp only [modN_cast hq, Nat.cast_add, Nat.cast_mul, ng_cast hq hN]; ring

include h2 in
theorem jrun_spec {a x y e : ℕ} (ha : (a : ZMod q) = A) (hxy : (shortW A B).Nonsingular (x : ZMod q) (y : ZMod q))
    {k : Nat → Nat → Nat → Bool} : ∀ (i X Y Z : ℕ), Den ((e >>> i) • (Affine.Point.some _ _ hxy : (shortW A B).Point)) (X : ZMod q) Y Z →
    jrun N a x y e i X Y Z k = true →
    ∃ X' Y' Z' : ℕ, k X' Y' Z' = true ∧ Den (e • (Affine.Point.some _ _ hxy : (shortW A B).Point)) (X' : ZMod q) Y' Z' := by
  intro i
  induction i with
  | zero => intro X Y Z h hk; exact ⟨X, Y, Z, hk, by simpa using h⟩
  | succ i ih =>
    intro X Y Z h hk
    rw [jrun] at hk
    obtain ⟨X1, Y1, Z1, hk1, h1⟩ := jdbl_spec hq hN h2 ha h hk
    have hs : e >>> i = 2 * (e >>> (i + 1)) + (e >>> i) % 2 := by
      rw [Nat.shiftRight_succ]; omega
    rw [← two_nsmul, ← mul_nsmul'] at h1
    by_cases hb : (e >>> i) % 2 = 1
    · have hb' : Nat.beq (Nat.mod (Nat.shiftRight e i) 2) 1 = true := by rw [Nat.beq_eq]; exact hb
      rw [hb', cond_true] at hk1
      obtain ⟨X2, Y2, Z2, hk2, h2'⟩ := jadd_spec hq hN hxy h1 hk1
      refine ih _ _ _ ?_ hk2
      rw [hs, hb, add_nsmul, one_nsmul]; exact h2'
    · have hb' : Nat.beq (Nat.mod (Nat.shiftRight e i) 2) 1 = false := by
        rw [← Bool.not_eq_true, Nat.beq_eq]; exact hb
      rw [hb', cond_false] at hk1
      refine ih _ _ _ ?_ hk1
      rw [hs, show (e >>> i) % 2 = 0 by omega, add_zero]; exact h1

include h2 in
/-- What the check establishes modulo a prime factor. -/
theorem mulCheck_spec {a x y e : ℕ} (ha : (a : ZMod q) = A) (hxy : (shortW A B).Nonsingular (x : ZMod q) (y : ZMod q))
    (he : e ≠ 0) (h : mulCheck N a x y e = true) :
    (e + 1) • (Affine.Point.some _ _ hxy : (shortW A B).Point) = 0 := by
  unfold mulCheck at h
  have h0 : e >>> Nat.log2 e = 1 := by
    rw [Nat.shiftRight_eq_div_pow]
    have h1 := Nat.log2_self_le he
    have h2 := Nat.lt_log2_self (n := e)
    rw [pow_succ] at h2
    have hp : 0 < 2 ^ e.log2 := by positivity
    exact Nat.div_eq_of_lt_le (by omega) (by omega)
  obtain ⟨X, Y, Z, hk, hden⟩ := jrun_spec hq hN h2 ha hxy (Nat.log2 e) x y 1 (by
    rw [h0, one_nsmul]; exact Or.inr ⟨_, _, hxy, rfl, by simp, by simp⟩) h
  rw [Bool.and_eq_true, Bool.and_eq_true, Nat.beq_eq, Nat.beq_eq, Nat.beq_eq] at hk
  obtain ⟨⟨hg, hX⟩, hY⟩ := hk
  have hZ : (Z : ZMod q) ≠ 0 := by
    rw [Ne, ZMod.natCast_eq_zero_iff]
    intro hdv
    have := Nat.dvd_gcd hdv hq
    rw [hg] at this
    exact (Fact.out : q.Prime).one_lt.ne' (Nat.dvd_one.1 this)
  have hX' := congrArg (fun n : ℕ => (n : ZMod q)) hX
  have hY' := congrArg (fun n : ℕ => (n : ZMod q)) hY
  simp only [modN_cast hq, Nat.cast_add, Nat.cast_mul, Nat.cast_zero] at hX' hY'
  rcases hden with h | ⟨u, v, hn, e1, e2, e3⟩
  · exact absurd h hZ
  rw [add_nsmul, one_nsmul, e1]
  have hu : u = x := by
    apply mul_right_cancel₀ (pow_ne_zero 2 hZ); rw [← e2, hX']; ring
  have hv : v = -y := by
    apply mul_right_cancel₀ (pow_ne_zero 3 hZ); rw [← e3]; linear_combination hY'
  obtain ⟨h', en⟩ := neg_at hxy
  rw [← eq_neg_iff_add_eq_zero, en]
  subst hu hv; rfl

end

/-- A curve over the field with `q` elements has at most `2q + 1` points. -/
theorem card_points {q : ℕ} [Fact q.Prime] (A B : ZMod q) : Finite (shortW A B).Point ∧ Nat.card (shortW A B).Point ≤ 2 * q + 1 := by
  classical
  let S : Finset (ZMod q × ZMod q) := Finset.univ.filter fun p => p.2 ^ 2 = p.1 ^ 3 + A * p.1 + B
  let f : (shortW A B).Point → Option S := fun P => match P with
    | .zero => none
    | .some x y h => some ⟨(x, y), by simp only [S, Finset.mem_filter, Finset.mem_univ, true_and]; exact (shortW_eq x y).1 h.1⟩
  have hf : Function.Injective f := by
    intro P Q h
    cases P with
    | zero => cases Q with
      | zero => rfl
      | some x y hn => simp [f] at h
    | some x y hn => cases Q with
      | zero => simp [f] at h
      | some x' y' hn' => simp [f] at h; obtain ⟨rfl, rfl⟩ := h; rfl
  have fin : Finite (shortW A B).Point := Finite.of_injective f hf
  refine ⟨fin, le_trans (Nat.card_le_card_of_injective f hf) ?_⟩
  have hS : S.card ≤ 2 * q := by
    refine le_trans (Finset.card_le_mul_card_image (f := Prod.fst) S 2 ?_) (Nat.mul_le_mul_left _ ?_)
    · intro a _
      by_cases he : ∃ y, (a, y) ∈ S
      · obtain ⟨y, hy⟩ := he
        refine le_trans (Finset.card_le_card (t := {(a, y), (a, -y)}) ?_) Finset.card_le_two
        intro p hp
        obtain ⟨hp1, rfl⟩ := Finset.mem_filter.1 hp
        simp only [S, Finset.mem_filter, Finset.mem_univ, true_and] at hy hp1
        have : (p.2 - y) * (p.2 + y) = 0 := by linear_combination hp1 - hy
        simp only [Finset.mem_insert, Finset.mem_singleton, Prod.ext_iff, true_and]
        rcases mul_eq_zero.1 this with h | h
        · exact Or.inl (sub_eq_zero.1 h)
        · exact Or.inr (eq_neg_of_add_eq_zero_left h)
      · rw [Finset.card_eq_zero.2]
        · omega
        · rw [Finset.filter_eq_empty_iff]
          rintro p hp rfl
          exact he ⟨p.2, hp⟩
    · refine le_trans (Finset.card_le_univ _) ?_
      rw [ZMod.card]
  rw [Nat.card_eq_fintype_card, Fintype.card_option, Fintype.card_coe]
  omega

/-- The certificate check: `r·(x,y) = O` on y² = x³ + a x + b modulo `N`, for the `b` that puts `(x,y)` on the curve. -/
def ecppCheck (N a b x y r : Nat) : Bool :=
  Nat.ble 2 N && Nat.ble 2 r && Nat.ble (4 * N + 1) ((r - 1) * (r - 1)) &&
  Nat.beq (Nat.gcd (2 * (4 * (a * a * a) + 27 * (b * b)) % N) N) 1 &&
  Nat.beq (y * y % N) ((x * x * x + a * x + b) % N) && mulCheck N a x y (r - 1)

/-- Facts the check gives modulo every prime factor. -/
theorem ecppCheck_spec {N a b x y r : ℕ} (h : ecppCheck N a b x y r = true) {q : ℕ} [Fact q.Prime] (hq : q ∣ N) :
    (2 : ZMod q) ≠ 0 ∧ 4 * (a : ZMod q) ^ 3 + 27 * (b : ZMod q) ^ 2 ≠ 0 ∧
    (y : ZMod q) ^ 2 = (x : ZMod q) ^ 3 + a * x + b ∧
    ∀ hxy : (shortW (a : ZMod q) (b : ZMod q)).Nonsingular (x : ZMod q) (y : ZMod q),
      r • (Affine.Point.some _ _ hxy : (shortW (a : ZMod q) (b : ZMod q)).Point) = 0 := by
  unfold ecppCheck at h
  simp only [Bool.and_eq_true, Nat.beq_eq, Nat.ble_eq] at h
  obtain ⟨⟨⟨⟨⟨hN, hr⟩, hb⟩, hg⟩, hon⟩, hm⟩ := h
  have hN0 : 0 < N := by omega
  have hprime : q.Prime := Fact.out
  have hdisc : ((2 * (4 * (a * a * a) + 27 * (b * b)) : ℕ) : ZMod q) ≠ 0 := by
    rw [← modN_cast hq, Ne, ZMod.natCast_eq_zero_iff]
    intro hdv
    have := Nat.dvd_gcd hdv hq
    rw [hg] at this
    exact hprime.one_lt.ne' (Nat.dvd_one.1 this)
  push_cast at hdisc
  have h2 : (2 : ZMod q) ≠ 0 := left_ne_zero_of_mul hdisc
  have hon' := congrArg (fun n : ℕ => (n : ZMod q)) hon
  simp only [modN_cast hq, Nat.cast_add, Nat.cast_mul] at hon'
  refine ⟨h2, ?_, by linear_combination hon', fun hxy => ?_⟩
  · have := right_ne_zero_of_mul hdisc
    intro h0; apply this; linear_combination h0
  · have := mulCheck_spec hq hN0 h2 rfl hxy (by omega) hm
    rwa [show r - 1 + 1 = r by omega] at this

/-- Goldwasser-Kilian: a checked certificate with prime `r` makes `N` prime. -/
theorem ecpp {N a b x y r : ℕ} (hr : r.Prime) (h : ecppCheck N a b x y r = true) : N.Prime := by
  have h' := h
  unfold ecppCheck at h'
  simp only [Bool.and_eq_true, Nat.beq_eq, Nat.ble_eq] at h'
  obtain ⟨⟨⟨⟨⟨hN, hr2⟩, hb⟩, -⟩, -⟩, -⟩ := h'
  by_contra hp
  have hpr := Nat.minFac_prime (n := N) (by omega)
  haveI : Fact N.minFac.Prime := ⟨hpr⟩
  have hsq := Nat.minFac_sq_le_self (by omega) hp
  obtain ⟨h2, hd, hon, hm⟩ := ecppCheck_spec h (q := N.minFac) (Nat.minFac_dvd N)
  have hxy := (shortW_ns hd h2).2 hon
  have hm := hm hxy
  obtain ⟨fin, hc⟩ := card_points (a : ZMod N.minFac) (b : ZMod N.minFac)
  have ho : addOrderOf (Affine.Point.some _ _ hxy : (shortW (a : ZMod N.minFac) (b : ZMod N.minFac)).Point) = r := by
    haveI := Fact.mk hr
    exact addOrderOf_eq_prime hm (Affine.Point.some_ne_zero hxy)
  have hle : r ≤ 2 * N.minFac + 1 := by
    rw [← ho]; exact le_trans addOrderOf_le_card hc
  have : (r - 1) * (r - 1) ≤ (2 * N.minFac) * (2 * N.minFac) := Nat.mul_le_mul (by omega) (by omega)
  have e : 2 * N.minFac * (2 * N.minFac) = 4 * N.minFac ^ 2 := by ring
  rw [e] at this
  omega

/-- Trial division by the odd numbers `d, d + 2, ...`. -/
def trial (N : Nat) : Nat → Nat → Bool
  | 0, _ => false
  | f + 1, d => bif Nat.ble (N + 1) (d * d) then true else
      bif Nat.beq (N % d) 0 then false else force (d + 2) fun d => trial N f d

theorem trial_spec {N : ℕ} (hodd : N % 2 = 1) : ∀ (f d : ℕ), d % 2 = 1 → trial N f d = true →
    (∀ m, 2 ≤ m → m < d → ¬ m ∣ N) → ∀ m, 2 ≤ m → m * m ≤ N → ¬ m ∣ N := by
  intro f
  induction f with
  | zero => intro d _ h; simp [trial] at h
  | succ f ih =>
    intro d hd h hlt m hm hmm
    rw [trial] at h
    by_cases h1 : N + 1 ≤ d * d
    · refine hlt m hm ?_
      by_contra hh
      have : d * d ≤ m * m := Nat.mul_le_mul (by omega) (by omega)
      omega
    · rw [show Nat.ble (N + 1) (d * d) = false by rw [← Bool.not_eq_true, Nat.ble_eq]; exact h1, cond_false] at h
      by_cases h2 : N % d = 0
      · rw [show Nat.beq (N % d) 0 = true by rw [Nat.beq_eq]; exact h2, cond_true] at h; cases h
      · rw [show Nat.beq (N % d) 0 = false by rw [← Bool.not_eq_true, Nat.beq_eq]; exact h2, cond_false, force_eq] at h
        refine ih (d + 2) (by omega) h ?_ m hm hmm
        intro k hk hkd hdv
        by_cases hk' : k < d
        · exact hlt k hk hk' hdv
        · by_cases hkd' : k = d
          · subst hkd'; exact h2 (Nat.mod_eq_zero_of_dvd hdv)
          · have : k = d + 1 := by omega
            have : 2 ∣ N := dvd_trans (by omega) hdv
            omega

theorem prime_of_trial {N f : ℕ} (h : (Nat.ble 2 N && Nat.beq (N % 2) 1 && trial N f 3) = true) : N.Prime := by
  simp only [Bool.and_eq_true, Nat.beq_eq, Nat.ble_eq] at h
  obtain ⟨⟨h2, hodd⟩, ht⟩ := h
  have := trial_spec hodd f 3 (by norm_num) ht (by
    intro m hm hm3 hdv
    have : m = 2 := by omega
    subst this; omega)
  by_contra hp
  have hsq := Nat.minFac_sq_le_self (by omega) hp
  exact this N.minFac (Nat.minFac_prime (by omega)).two_le (by nlinarith) (Nat.minFac_dvd N)

/-! ## No root of x³ + a x + b

`x^P` is computed modulo the cubic; a combination of the cubic and `x^P - x` that equals 1 shows that there is no root. -/

def xrun (N a b e : Nat) : Nat → Nat → Nat → Nat → (Nat → Nat → Nat → Bool) → Bool
  | 0, c0, c1, c2, k => k c0 c1 c2
  | i + 1, c0, c1, c2, k =>
    force (2 * c1 * c2 % N) fun d3 =>
    force (c2 * c2 % N) fun d4 =>
    force ((c0 * c0 + ng N (b * d3)) % N) fun e0 =>
    force ((2 * c0 * c1 + ng N (a * d3 + b * d4)) % N) fun e1 =>
    force ((2 * c0 * c2 + c1 * c1 + ng N (a * d4)) % N) fun e2 =>
      bif Nat.beq (Nat.mod (Nat.shiftRight e i) 2) 1 then
        force (ng N (b * e2) % N) fun f0 => force ((e0 + ng N (a * e2)) % N) fun f1 => xrun N a b e i f0 f1 e1 k
      else xrun N a b e i e0 e1 e2 k

def noRootCheck (N a b u0 u1 v0 v1 v2 : Nat) : Bool :=
  Nat.ble 2 N && xrun N a b N (Nat.log2 N) 0 1 0 fun g0 c1 g2 =>
    force ((c1 + ng N 1) % N) fun g1 =>
      Nat.beq ((u0 * b + v0 * g0) % N) 1 && Nat.beq ((u0 * a + u1 * b + v0 * g1 + v1 * g0) % N) 0 &&
      Nat.beq ((u1 * a + v0 * g2 + v1 * g1 + v2 * g0) % N) 0 && Nat.beq ((u0 + v1 * g2 + v2 * g1) % N) 0 &&
      Nat.beq ((u1 + v2 * g2) % N) 0

theorem xrun_spec {q : ℕ} [Fact q.Prime] {a b e : ℕ} {r : ZMod q} (hr : r ^ 3 + a * r + b = 0) {k : Nat → Nat → Nat → Bool} :
    ∀ (i c0 c1 c2 : ℕ), (r ^ (e >>> i) = c0 + c1 * r + c2 * r ^ 2) → xrun q a b e i c0 c1 c2 k = true →
    ∃ c0 c1 c2 : ℕ, k c0 c1 c2 = true ∧ r ^ e = c0 + c1 * r + c2 * r ^ 2 := by
  have hq := dvd_refl q
  have hN : 0 < q := (Fact.out : q.Prime).pos
  intro i
  induction i with
  | zero => intro c0 c1 c2 h hk; exact ⟨c0, c1, c2, hk, by simpa using h⟩
  | succ i ih =>
    intro c0 c1 c2 h hk
    rw [xrun] at hk
    simp only [force_eq] at hk
    have hs : e >>> i = 2 * (e >>> (i + 1)) + (e >>> i) % 2 := by
      rw [Nat.shiftRight_succ]; omega
    have h3 : r ^ 3 = -(a * r) - b := by linear_combination hr
    have h4 : r ^ 4 = -(a * r ^ 2) - b * r := by rw [pow_succ, h3]; ring
    by_cases hb : (e >>> i) % 2 = 1
    · have hb' : Nat.beq (Nat.mod (Nat.shiftRight e i) 2) 1 = true := by rw [Nat.beq_eq]; exact hb
      rw [hb', cond_true] at hk
      refine ih _ _ _ ?_ hk
      rw [hs, hb, pow_add, pow_mul', h, pow_one]
      simp only [modN_cast hq, Nat.cast_add, Nat.cast_mul, ng_cast hq hN, Nat.cast_ofNat]
      linear_combination (2 * c0 * c2 + c1 ^ 2 - a * c2 ^ 2 + 2 * c1 * c2 * r + c2 ^ 2 * r ^ 2) * h3
    · have hb' : Nat.beq (Nat.mod (Nat.shiftRight e i) 2) 1 = false := by
        rw [← Bool.not_eq_true, Nat.beq_eq]; exact hb
      rw [hb', cond_false] at hk
      refine ih _ _ _ ?_ hk
      rw [hs, show (e >>> i) % 2 = 0 by omega, add_zero, pow_mul', h]
      simp only [modN_cast hq, Nat.cast_add, Nat.cast_mul, ng_cast hq hN, Nat.cast_ofNat]
      linear_combination 2 * c1 * c2 * h3 + c2 ^ 2 * h4

theorem noRoot {P : ℕ} [Fact P.Prime] {a b u0 u1 v0 v1 v2 : ℕ} (h : noRootCheck P a b u0 u1 v0 v1 v2 = true) (r : ZMod P) :
    r ^ 3 + a * r + b ≠ 0 := by
  intro hr
  have hq := dvd_refl P
  have hN : 0 < P := (Fact.out : P.Prime).pos
  unfold noRootCheck at h
  rw [Bool.and_eq_true] at h
  obtain ⟨-, h⟩ := h
  have h0 : P >>> Nat.log2 P = 1 := by
    rw [Nat.shiftRight_eq_div_pow]
    have h1 := Nat.log2_self_le hN.ne'
    have h2 := Nat.lt_log2_self (n := P)
    rw [pow_succ] at h2
    have hp : 0 < 2 ^ P.log2 := by positivity
    exact Nat.div_eq_of_lt_le (by omega) (by omega)
  obtain ⟨c0, c1, c2, hk, e⟩ := xrun_spec hr (Nat.log2 P) 0 1 0 (by rw [h0]; simp) h
  rw [ZMod.pow_card] at e
  simp only [force_eq, Bool.and_eq_true, Nat.beq_eq] at hk
  obtain ⟨⟨⟨⟨e0, e1⟩, e2⟩, e3⟩, e4⟩ := hk
  replace e0 := congrArg (fun n : ℕ => (n : ZMod P)) e0
  replace e1 := congrArg (fun n : ℕ => (n : ZMod P)) e1
  replace e2 := congrArg (fun n : ℕ => (n : ZMod P)) e2
  replace e3 := congrArg (fun n : ℕ => (n : ZMod P)) e3
  replace e4 := congrArg (fun n : ℕ => (n : ZMod P)) e4
  simp only [modN_cast hq, Nat.cast_add, Nat.cast_mul, ng_cast hq hN, Nat.cast_one, Nat.cast_zero] at e0 e1 e2 e3 e4
  have : (1 : ZMod P) = 0 := by
    linear_combination -e0 - r * e1 - r ^ 2 * e2 - r ^ 3 * e3 - r ^ 4 * e4 + (u0 + u1 * r) * hr - (v0 + v1 * r + v2 * r ^ 2) * e
  exact one_ne_zero this

/-- With a point of prime order `n`, `2P + 1 < 3n` and no point of order two, the group has exactly `n` elements. -/
theorem card_eq {P n : ℕ} [Fact P.Prime] {A B : ZMod P} (h2 : (2 : ZMod P) ≠ 0) (hn : n.Prime) (hlt : 2 * P + 1 < 3 * n)
    (hr : ∀ r : ZMod P, r ^ 3 + A * r + B ≠ 0) (G : (shortW A B).Point) (h0 : G ≠ 0) (hG : n • G = 0) :
    Nat.card (shortW A B).Point = n := by
  obtain ⟨fin, hc⟩ := card_points A B
  haveI := Fact.mk hn
  have ho : addOrderOf G = n := addOrderOf_eq_prime hG h0
  obtain ⟨k, hk⟩ : n ∣ Nat.card (shortW A B).Point := ho ▸ addOrderOf_dvd_natCard G
  have hpos : 0 < Nat.card (shortW A B).Point := Nat.card_pos
  have hk3 : k < 3 := by
    by_contra hge
    have : n * 3 ≤ n * k := Nat.mul_le_mul_left _ (by omega)
    omega
  have hk0 : k ≠ 0 := by rintro rfl; omega
  have hk2 : k ≠ 2 := by
    rintro rfl
    haveI : Fact (Nat.Prime 2) := ⟨Nat.prime_two⟩
    obtain ⟨Q, hQ⟩ := exists_prime_addOrderOf_dvd_card' (G := (shortW A B).Point) 2 ⟨n, by rw [hk, mul_comm]⟩
    have hQ2 : 2 • Q = 0 := hQ ▸ addOrderOf_nsmul_eq_zero Q
    have hQ0 : Q ≠ 0 := by
      rintro rfl
      rw [addOrderOf_zero] at hQ; omega
    cases Q with
    | zero => exact hQ0 rfl
    | some x y h =>
      by_cases hy : y = 0
      · have := (shortW_eq x y).1 h.1
        rw [hy] at this
        exact hr x (by linear_combination -this)
      · obtain ⟨l, hl⟩ : ∃ l, l * (2 * y) = 3 * x ^ 2 + A := ⟨(3 * x ^ 2 + A) / (2 * y), div_mul_cancel₀ _ (mul_ne_zero h2 hy)⟩
        obtain ⟨h', e⟩ := dbl_at h2 h hy hl rfl rfl
        rw [two_nsmul, e] at hQ2
        exact Affine.Point.some_ne_zero h' hQ2
  have : k = 1 := by omega
  rw [hk, this, mul_one]

end Ack
