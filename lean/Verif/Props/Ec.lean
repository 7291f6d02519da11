import Verif.Proof.EcVerify
/-!
# Properties of elliptic-curve points (C27-C37, C39, C66)

`CurveOk P cap C` says that `C` is a curve object over the prime field of order `P > 3` whose storage has room for
products of residues, that is not singular and has `b ≠ 0`.  `q.Rep C Q` says that the point object `q` denotes the
element `Q` of Mathlib's group of points of the curve.  Everything is for all capacities, primes, curves and points.
-/
namespace Ack.Props
open Ack Ack.Big WeierstrassCurve

/-! ## Concrete case: y² = x³ + 2x + 2 over GF(17), a group of prime order 19 -/

instance fact17 : Fact (Nat.Prime 17) := ⟨by decide⟩

/-- The curve, built by the constructor, on storage of two words. -/
def ex17 : Curve :=
  ⟨1, ofInt32 17, ofInt32 2, ofInt32 2, ⟨ofInt32 5, some (ofInt32 17)⟩, ⟨ofInt32 1, some (ofInt32 17)⟩, ofInt32 19, 1, false, false, ofInt32 (-2)⟩

example : Curve.make (some 2) 1 (ofInt32 17) (ofInt32 2) (ofInt32 2) (ofInt32 5) (ofInt32 1) (ofInt32 19) 1 = .ok ex17 := by decide

theorem canon1 (k : BitVec 32) : (ofInt32 k).Canon := ⟨by simp [ofInt32], by simp [ofInt32]⟩

theorem ex17_ok : CurveOk 17 (some 2) ex17 where
  M := ⟨by decide, canon1 _, by decide, by decide⟩
  gt3 := by decide
  a := ⟨canon1 _, by decide, by decide⟩
  b := ⟨canon1 _, by decide, by decide⟩
  b0 := by unfold res; decide
  disc := by unfold res; decide
  m3 := by decide
  z := by decide

/-- A point object on that curve. -/
def pt17 (x y : BitVec 32) : APt := ⟨some ex17, ⟨ofInt32 x, some (ofInt32 17)⟩, ⟨ofInt32 y, some (ofInt32 17)⟩⟩

theorem rep17 {x : BitVec 32} (h0 : 0 ≤ x.toInt) (h1 : x.toInt < 17) : Rep 17 ex17.p ⟨ofInt32 x, some (ofInt32 17)⟩ ((x.toInt : ℤ) : ZMod 17) :=
  ⟨rfl, elt_int (cap := some 2) (p := ex17.p) ex17_ok.M h0 h1, res_int _⟩

theorem ns17 : (ex17.W 17).Nonsingular 5 1 := ex17_ok.ns.2 (by unfold res; decide)
theorem ns17' : (ex17.W 17).Nonsingular 6 3 := ex17_ok.ns.2 (by unfold res; decide)

/-- G = (5,1) and 2G = (6,3) as elements of the group. -/
def G17 : ex17.Pt 17 := .some 5 1 ns17
def H17 : ex17.Pt 17 := .some 6 3 ns17'

theorem G17_rep : (pt17 5 1).Rep ex17 G17 := ⟨rfl, rep17 (x := 5) (by decide) (by decide), rep17 (x := 1) (by decide) (by decide)⟩
theorem H17_rep : (pt17 6 3).Rep ex17 H17 := ⟨rfl, rep17 (x := 6) (by decide) (by decide), rep17 (x := 3) (by decide) (by decide)⟩

/-- Jacobian and homogeneous representatives with z = 2. -/
def fe17 (x : BitVec 32) : Fe := ⟨ofInt32 x, some (ofInt32 17)⟩
def jpt17 : JPt := ⟨some ex17, fe17 3, fe17 8, fe17 2⟩
def ppt17 : PPt := ⟨some ex17, fe17 10, fe17 2, fe17 2⟩

theorem jpt17_rep : jpt17.Rep ex17 G17 :=
  ⟨rfl, 2, by decide, (rep17 (x := 3) (by decide) (by decide)).congr (by decide), (rep17 (x := 8) (by decide) (by decide)).congr (by decide),
    (rep17 (x := 2) (by decide) (by decide)).congr (by decide)⟩
theorem ppt17_rep : ppt17.Rep ex17 G17 :=
  ⟨rfl, 2, by decide, (rep17 (x := 10) (by decide) (by decide)).congr (by decide), (rep17 (x := 2) (by decide) (by decide)).congr (by decide),
    (rep17 (x := 2) (by decide) (by decide)).congr (by decide)⟩

section
variable {P : ℕ} [Fact P.Prime] {cap : Cap} {C : Curve}

/-! ## C27 -/

/-- C27: affine addition, doubling, subtraction and negation are the group operations, exceptional cases included. -/
theorem C27_affine_group_law (K : CurveOk P cap C) (p q : APt) (A B : C.Pt P) (hp : p.Rep C A) (hq : q.Rep C B) :
    (∃ r, p.add cap q = .ok r ∧ r.Rep C (A + B)) ∧ (∃ r, p.doubled cap = .ok r ∧ r.Rep C (A + A)) ∧
    (∃ r, p.sub cap q = .ok r ∧ r.Rep C (A - B)) ∧ (∃ r, p.inverted cap = .ok r ∧ r.Rep C (-A)) :=
  ⟨APt.add_spec K hp hq, APt.doubled_spec K hp, APt.sub_spec K hp hq, APt.inverted_spec K hp⟩

/-- C27: an affine point object denotes at most one group element, and is the identity object exactly when that element
is zero. -/
theorem C27_denotation (K : CurveOk P cap C) (q : APt) (A B : C.Pt P) (ha : q.Rep C A) :
    (q.Rep C B ↔ B = A) ∧ (q.isIdentity = true ↔ A = 0) :=
  ⟨⟨fun hb => hb.unique K ha, fun h => h ▸ ha⟩, ha.zero_iff K⟩

example : CurveOk 17 (some 2) ex17 ∧ (pt17 5 1).Rep ex17 G17 ∧ (pt17 6 3).Rep ex17 H17 ∧
    (pt17 5 1).add (some 2) (pt17 6 3) = .ok (pt17 10 6) ∧ (pt17 5 1).doubled (some 2) = .ok (pt17 6 3) ∧
    (pt17 5 1).add (some 2) (pt17 5 16) = .ok APt.identity := ⟨ex17_ok, G17_rep, H17_rep, by decide, by decide, by decide⟩

/-- The hypothesis `b ≠ 0` of C27 is needed: on y² = x³ + x over GF(5) the point (0,0) of order two is taken for the
identity, and adding it to (2,0) gives (2,0) instead of (3,0). -/
theorem C27_b_zero_wrong :
    let c : Curve := ⟨1, ofInt32 5, ofInt32 1, ofInt32 0, ⟨ofInt32 2, some (ofInt32 5)⟩, ⟨ofInt32 0, some (ofInt32 5)⟩, ofInt32 2, 2, false, false, ofInt32 3⟩
    let f := fun k : BitVec 32 => (⟨ofInt32 k, some (ofInt32 5)⟩ : Fe)
    APt.add none ⟨some c, f 2, f 0⟩ ⟨some c, f 0, f 0⟩ = .ok ⟨some c, f 2, f 0⟩ := by decide

/-! ## C28 -/

/-- C28: the operations in homogeneous coordinates are the group operations for all representatives. -/
theorem C28_projective_group_law (K : CurveOk P cap C) (p q : PPt) (A B : C.Pt P) (hp : p.Rep C A) (hq : q.Rep C B) :
    (∃ r, p.add cap q = .ok r ∧ r.Rep C (A + B)) ∧ (∃ r, p.doubled cap = .ok r ∧ r.Rep C (A + A)) ∧
    (∃ r, p.sub cap q = .ok r ∧ r.Rep C (A - B)) ∧ (∃ r, p.inverted cap = .ok r ∧ r.Rep C (-A)) :=
  ⟨PPt.add_spec K hp hq, PPt.doubled_spec K hp, PPt.sub_spec K hp hq, PPt.inverted_spec K hp⟩

/-- C28: uniqueness of the denoted element. -/
theorem C28_denotation (K : CurveOk P cap C) (q : PPt) (A B : C.Pt P) (ha : q.Rep C A) :
    (q.Rep C B ↔ B = A) ∧ (q.isIdentity = true ↔ A = 0) :=
  ⟨⟨fun hb => hb.unique K ha, fun h => h ▸ ha⟩, ha.zero_iff K⟩

example : CurveOk 17 (some 2) ex17 ∧ ppt17.Rep ex17 G17 ∧
    (ppt17.doubled (some 2) >>= (·.toAffine (some 2))) = .ok (pt17 6 3) := ⟨ex17_ok, ppt17_rep, by decide⟩

/-! ## C29 -/

/-- C29: the operations in Jacobian coordinates are the group operations for all representatives, over fields of order
greater than 8. -/
theorem C29_jacobian_group_law (K : CurveOk P cap C) (h8 : 8 < P) (p q : JPt) (A B : C.Pt P) (hp : p.Rep C A) (hq : q.Rep C B) :
    (∃ r, p.add cap q = .ok r ∧ r.Rep C (A + B)) ∧ (∃ r, p.doubled cap = .ok r ∧ r.Rep C (A + A)) ∧
    (∃ r, p.sub cap q = .ok r ∧ r.Rep C (A - B)) ∧ (∃ r, p.inverted cap = .ok r ∧ r.Rep C (-A)) :=
  ⟨JPt.add_spec K h8 hp hq, JPt.doubled_spec K h8 hp, JPt.sub_spec K h8 hp hq, JPt.inverted_spec K hp⟩

/-- C29: uniqueness of the denoted element. -/
theorem C29_denotation (K : CurveOk P cap C) (q : JPt) (A B : C.Pt P) (ha : q.Rep C A) :
    (q.Rep C B ↔ B = A) ∧ (q.isIdentity = true ↔ A = 0) :=
  ⟨⟨fun hb => hb.unique K ha, fun h => h ▸ ha⟩, ha.zero_iff K⟩

example : CurveOk 17 (some 2) ex17 ∧ 8 < 17 ∧ jpt17.Rep ex17 G17 ∧
    (jpt17.doubled (some 2) >>= (·.toAffine (some 2))) = .ok (pt17 6 3) := ⟨ex17_ok, by decide, jpt17_rep, by decide⟩

/-- The hypothesis `8 < P` of C29 is needed: over GF(7), doubling (4,1) on y² = x³ + x + 3 in Jacobian coordinates gives
an unreduced y-coordinate (-1 instead of 6), since the literal 8 is multiplied without reduction. -/
theorem C29_small_field_wrong :
    let c : Curve := ⟨1, ofInt32 7, ofInt32 1, ofInt32 3, ⟨ofInt32 4, some (ofInt32 7)⟩, ⟨ofInt32 1, some (ofInt32 7)⟩, ofInt32 6, 1, false, false, ofInt32 1⟩
    let f := fun k : BitVec 32 => (⟨ofInt32 k, some (ofInt32 7)⟩ : Fe)
    (JPt.ofAffine ⟨some c, f 4, f 1⟩ >>= fun j => j.doubled none >>= fun d => d.toAffine none) = .ok ⟨some c, f 6, f (-1)⟩ ∧
    APt.doubled none ⟨some c, f 4, f 1⟩ = .ok ⟨some c, f 6, f 6⟩ := by decide

/-! ## C30 -/

/-- C30: scalar multiplication by every integer, in all three coordinate systems.  The Jacobian version needs storage for
one word more than the scalar. -/
theorem C30_scalar_mul (K : CurveOk P cap C) (s : Big) (hs : s.Canon) (Q : C.Pt P) :
    (∀ q : APt, q.Rep C Q → ∃ r, q.mul cap s = .ok r ∧ r.Rep C (s.toInt • Q)) ∧
    (∀ q : PPt, q.Rep C Q → ∃ r, q.mul cap s = .ok r ∧ r.Rep C (s.toInt • Q)) ∧
    (∀ q : JPt, q.Rep C Q → 8 < P → cap.fits (s.ws.length + 1) = true → ∃ r, q.mul cap s = .ok r ∧ r.Rep C (s.toInt • Q)) :=
  ⟨fun _ h => APt.mul_spec K h hs, fun _ h => PPt.mul_spec K h hs, fun _ h h8 f => JPt.mul_spec K h8 h hs f⟩

example : CurveOk 17 (some 2) ex17 ∧ (ofInt32 (-17)).Canon ∧ (pt17 5 1).Rep ex17 G17 ∧ jpt17.Rep ex17 G17 ∧
    (pt17 5 1).mul (some 2) (ofInt32 (-17)) = .ok (pt17 6 3) ∧
    (jpt17.mul (some 2) (ofInt32 (-17)) >>= (·.toAffine (some 2))) = .ok (pt17 6 3) ∧
    (ppt17.mul (some 2) (ofInt32 (-17)) >>= (·.toAffine (some 2))) = .ok (pt17 6 3) :=
  ⟨ex17_ok, canon1 _, G17_rep, jpt17_rep, by decide +kernel, by decide +kernel, by decide +kernel⟩

/-! ## C31 -/

/-- C31: `ec_mul_add_fast(a, P, b, Q)` is `aP + bQ`, for non-negative scalars, in all three coordinate systems. -/
theorem C31_mul_add (K : CurveOk P cap C) (a b : Big) (ca : a.Canon) (cb : b.Canon) (ha : 0 ≤ a.toInt) (hb : 0 ≤ b.toInt)
    (fa : cap.fits (a.ws.length + 1) = true) (fb : cap.fits (b.ws.length + 1) = true) (A B : C.Pt P) :
    (∀ p q : APt, p.Rep C A → q.Rep C B → ∃ r, mulAddFast cap (APt.ops cap) a p b q = .ok r ∧ r.Rep C (a.toInt • A + b.toInt • B)) ∧
    (∀ p q : PPt, p.Rep C A → q.Rep C B → ∃ r, mulAddFast cap (PPt.ops cap) a p b q = .ok r ∧ r.Rep C (a.toInt • A + b.toInt • B)) ∧
    (∀ p q : JPt, 8 < P → p.Rep C A → q.Rep C B → ∃ r, mulAddFast cap (JPt.ops cap) a p b q = .ok r ∧ r.Rep C (a.toInt • A + b.toInt • B)) :=
  ⟨fun _ _ hp hq => mulAddFast_spec (APt.opsOk K) cap hp hq ca cb ha hb fa fb,
   fun _ _ hp hq => mulAddFast_spec (PPt.opsOk K) cap hp hq ca cb ha hb fa fb,
   fun _ _ h8 hp hq => mulAddFast_spec (JPt.opsOk K h8) cap hp hq ca cb ha hb fa fb⟩

example : CurveOk 17 (some 2) ex17 ∧ (pt17 5 1).Rep ex17 G17 ∧ (pt17 6 3).Rep ex17 H17 ∧
    mulAddFast (some 2) (APt.ops (some 2)) (ofInt32 11) (pt17 5 1) (ofInt32 6) (pt17 6 3) = (pt17 5 1).mul (some 2) (ofInt32 23) ∧
    (pt17 5 1).mul (some 2) (ofInt32 23) = .ok (pt17 3 1) := ⟨ex17_ok, G17_rep, H17_rep, by decide +kernel, by decide +kernel⟩

/-- C31 for scalars of any sign: a negative scalar counts as zero. -/
theorem C31_exact (K : CurveOk P cap C) (a b : Big) (ca : a.Canon) (cb : b.Canon)
    (fa : cap.fits (a.ws.length + 1) = true) (fb : cap.fits (b.ws.length + 1) = true) (A B : C.Pt P) :
    (∀ p q : APt, p.Rep C A → q.Rep C B → ∃ r, mulAddFast cap (APt.ops cap) a p b q = .ok r ∧ r.Rep C (max a.toInt 0 • A + max b.toInt 0 • B)) ∧
    (∀ p q : PPt, p.Rep C A → q.Rep C B → ∃ r, mulAddFast cap (PPt.ops cap) a p b q = .ok r ∧ r.Rep C (max a.toInt 0 • A + max b.toInt 0 • B)) ∧
    (∀ p q : JPt, 8 < P → p.Rep C A → q.Rep C B → ∃ r, mulAddFast cap (JPt.ops cap) a p b q = .ok r ∧ r.Rep C (max a.toInt 0 • A + max b.toInt 0 • B)) :=
  ⟨fun _ _ hp hq => mulAddFast_exact (APt.opsOk K) cap hp hq ca cb fa fb,
   fun _ _ hp hq => mulAddFast_exact (PPt.opsOk K) cap hp hq ca cb fa fb,
   fun _ _ h8 hp hq => mulAddFast_exact (JPt.opsOk K h8) cap hp hq ca cb fa fb⟩

/-- The hypothesis that the scalars are not negative is needed: a negative scalar counts as zero. -/
theorem C31_negative_wrong :
    mulAddFast (some 2) (APt.ops (some 2)) (ofInt32 (-2)) (pt17 5 1) (ofInt32 1) (pt17 5 1) = .ok (pt17 5 1) ∧
    (pt17 5 1).mul (some 2) (ofInt32 (-1)) = .ok (pt17 5 16) := by decide +kernel

/-! ## C32 -/

/-- C32: `is_on_curve` of a point object with curve `C` and coordinates in the field. -/
theorem C32_on_curve (K : CurveOk P cap C) (x y z : ZMod P) (fx fy fz : Fe) (hx : Rep P C.p fx x) (hy : Rep P C.p fy y) (hz : Rep P C.p fz z) :
    (∃ b, APt.isOnCurve cap ⟨some C, fx, fy⟩ = .ok b ∧ (b = true ↔ (x = 0 ∧ y = 0) ∨ y ^ 2 = x ^ 3 + res P C.a * x + res P C.b)) ∧
    (∃ b, PPt.isOnCurve cap ⟨some C, fx, fy, fz⟩ = .ok b ∧
      (b = true ↔ z = 0 ∨ y ^ 2 * z = x ^ 3 + res P C.a * x * z ^ 2 + res P C.b * z ^ 3)) ∧
    (∃ b, JPt.isOnCurve cap ⟨some C, fx, fy, fz⟩ = .ok b ∧
      (b = true ↔ z = 0 ∨ y ^ 2 = x ^ 3 + res P C.a * x * z ^ 4 + res P C.b * z ^ 6)) :=
  ⟨APt.isOnCurve_spec K rfl hx hy, PPt.isOnCurve_spec K rfl hx hy hz, JPt.isOnCurve_spec K rfl hx hy hz⟩

/-- C32: `is_valid` is true exactly for the objects denoting a non-zero group element annihilated by `n`. -/
theorem C32_valid (K : CurveOk P cap C) (hn : C.n.Canon) (fx fy fz : Fe) (x y z : ZMod P) (hx : Rep P C.p fx x) (hy : Rep P C.p fy y)
    (hz : Rep P C.p fz z) :
    (∃ b, APt.isValid cap ⟨some C, fx, fy⟩ = .ok b ∧ (b = true ↔ ∃ Q : C.Pt P, APt.Rep C ⟨some C, fx, fy⟩ Q ∧ Q ≠ 0 ∧ C.n.toInt • Q = 0)) ∧
    (∃ b, PPt.isValid cap ⟨some C, fx, fy, fz⟩ = .ok b ∧
      (b = true ↔ ∃ Q : C.Pt P, PPt.Rep C ⟨some C, fx, fy, fz⟩ Q ∧ Q ≠ 0 ∧ C.n.toInt • Q = 0)) ∧
    (8 < P → cap.fits (C.n.ws.length + 1) = true → ∃ b, JPt.isValid cap ⟨some C, fx, fy, fz⟩ = .ok b ∧
      (b = true ↔ ∃ Q : C.Pt P, JPt.Rep C ⟨some C, fx, fy, fz⟩ Q ∧ Q ≠ 0 ∧ C.n.toInt • Q = 0)) :=
  ⟨APt.isValid_spec K hn rfl hx hy, PPt.isValid_spec K hn rfl hx hy hz, fun h8 f => JPt.isValid_spec K h8 hn f rfl hx hy hz⟩

/-- C32: the identity objects (no curve) are on the curve and not valid. -/
theorem C32_identity (cap : Cap) :
    APt.isOnCurve cap APt.identity = .ok true ∧ APt.isValid cap APt.identity = .ok false ∧
    PPt.isOnCurve cap PPt.identity = .ok true ∧ PPt.isValid cap PPt.identity = .ok false ∧
    JPt.isOnCurve cap JPt.identity = .ok true ∧ JPt.isValid cap JPt.identity = .ok false := ⟨rfl, rfl, rfl, rfl, rfl, rfl⟩

example : CurveOk 17 (some 2) ex17 ∧ ex17.n.Canon ∧ (pt17 5 1).isOnCurve (some 2) = .ok true ∧ (pt17 5 2).isOnCurve (some 2) = .ok false ∧
    (pt17 5 1).isValid (some 2) = .ok true ∧ jpt17.isValid (some 2) = .ok true ∧ ppt17.isValid (some 2) = .ok true :=
  ⟨ex17_ok, canon1 _, by decide +kernel, by decide +kernel, by decide +kernel, by decide +kernel, by decide +kernel⟩

/-! ## C33 -/

/-- C33: `==` on projective and Jacobian objects compares the group elements denoted. -/
theorem C33_eq (K : CurveOk P cap C) (A B : C.Pt P) :
    (∀ p q : PPt, p.Rep C A → q.Rep C B → ∃ b, p.eq cap q = .ok b ∧ (b = true ↔ A = B)) ∧
    (∀ p q : JPt, p.Rep C A → q.Rep C B → ∃ b, p.eq cap q = .ok b ∧ (b = true ↔ A = B)) :=
  ⟨fun _ _ hp hq => PPt.eq_spec K hp hq, fun _ _ hp hq => JPt.eq_spec K hp hq⟩

/-- C33: `==` on affine objects; objects that count as the identity have zero coordinates. -/
theorem C33_eq_affine (K : CurveOk P cap C) (A B : C.Pt P) (p q : APt) (hp : p.Rep C A) (hq : q.Rep C B)
    (zp : p.isIdentity = true → p.x.v.Canon ∧ p.x.v.toInt = 0 ∧ p.y.v.Canon ∧ p.y.v.toInt = 0)
    (zq : q.isIdentity = true → q.x.v.Canon ∧ q.x.v.toInt = 0 ∧ q.y.v.Canon ∧ q.y.v.toInt = 0) :
    p.eq q = true ↔ A = B := APt.eq_spec K hp hq zp zq

example : CurveOk 17 (some 2) ex17 ∧ jpt17.Rep ex17 G17 ∧ (JPt.ofAffine (pt17 5 1) >>= jpt17.eq (some 2)) = .ok true ∧
    (PPt.ofAffine (pt17 5 1) >>= ppt17.eq (some 2)) = .ok true ∧ (pt17 5 1).eq (pt17 6 3) = false :=
  ⟨ex17_ok, jpt17_rep, by decide +kernel, by decide +kernel, by decide⟩

/-- Across curves the affine `==` does not tell points with x = 0 apart: (0,1) on y² = x³ + 1 and (0,1) on
y² = x³ + 2x + 1 over GF(17) compare equal although neither is the identity. -/
theorem C33_affine_across_curves :
    let f := fun k : BitVec 32 => (⟨ofInt32 k, some (ofInt32 17)⟩ : Fe)
    let c := fun (addr : Nat) (a : BitVec 32) => (⟨addr, ofInt32 17, ofInt32 a, ofInt32 1, f 0, f 1, ofInt32 19, 1, false, a == 0, ofInt32 (-2)⟩ : Curve)
    APt.eq ⟨some (c 1 0), f 0, f 1⟩ ⟨some (c 2 2), f 0, f 1⟩ = true ∧ APt.isIdentity ⟨some (c 1 0), f 0, f 1⟩ = false := by decide

/-! ## C34 -/

/-- C34: conversions preserve the point; `normalize` also makes z one. -/
theorem C34_conversions (K : CurveOk P cap C) (Q : C.Pt P) :
    (∀ q : APt, q.Rep C Q → (∃ r, PPt.ofAffine q = .ok r ∧ r.Rep C Q) ∧ (∃ r, JPt.ofAffine q = .ok r ∧ r.Rep C Q)) ∧
    (∀ q : PPt, q.Rep C Q → (∃ r, q.toAffine cap = .ok r ∧ r.Rep C Q) ∧
      (∃ r, q.normalized cap = .ok r ∧ r.Rep C Q ∧ (Q ≠ 0 → r.z.isOne = true))) ∧
    (∀ q : JPt, q.Rep C Q → (∃ r, q.toAffine cap = .ok r ∧ r.Rep C Q) ∧
      (∃ r, q.normalized cap = .ok r ∧ r.Rep C Q ∧ (Q ≠ 0 → r.z.isOne = true))) :=
  ⟨fun _ h => ⟨PPt.ofAffine_spec K h, JPt.ofAffine_spec K h⟩, fun _ h => ⟨PPt.toAffine_spec K h, PPt.normalized_spec K h⟩,
   fun _ h => ⟨JPt.toAffine_spec K h, JPt.normalized_spec K h⟩⟩

/-- C34: converting to projective or Jacobian form and back gives the same object, or the identity object. -/
theorem C34_round_trip (K : CurveOk P cap C) (q : APt) (Q : C.Pt P) (h : q.Rep C Q) :
    (∃ r, (PPt.ofAffine q >>= (·.toAffine cap)) = .ok r ∧ (Q ≠ 0 → r = q) ∧ (Q = 0 → r = APt.identity)) ∧
    (∃ r, (JPt.ofAffine q >>= (·.toAffine cap)) = .ok r ∧ (Q ≠ 0 → r = q) ∧ (Q = 0 → r = APt.identity)) := by
  have hp := K.M.one_lt
  cases Q with
  | zero =>
    have hq : q.isIdentity = true := h
    refine ⟨⟨APt.identity, ?_, fun h => absurd rfl h, fun _ => rfl⟩, ⟨APt.identity, ?_, fun h => absurd rfl h, fun _ => rfl⟩⟩
    · unfold PPt.ofAffine; rw [hq]; rfl
    · unfold JPt.ofAffine; rw [hq]; rfl
  | some x y hn =>
    have hq : q.isIdentity = false := h.not_id K
    obtain ⟨hc, hx, hy⟩ := h
    have one : (ofInt32 1).isOne = true := by decide
    have nz : Fe.isZero ⟨ofInt32 1, some C.p⟩ = false := by unfold Fe.isZero; rw [one]; rfl
    refine ⟨⟨q, ?_, fun _ => rfl, fun h => absurd h (by rintro ⟨⟩)⟩, ⟨q, ?_, fun _ => rfl, fun h => absurd h (by rintro ⟨⟩)⟩⟩
    · unfold PPt.ofAffine PPt.toAffine PPt.isIdentity
      rw [hq, if_pos (by rfl), hc, curveOf_some, ok_bind, ok_bind]
      rw [if_neg (by simp; exact nz), if_pos (by exact one)]
      rw [← hc]; cases q; simp_all [curveOf_some, ok_bind]
    · unfold JPt.ofAffine JPt.toAffine JPt.isIdentity
      rw [hq, if_pos (by rfl), hc, curveOf_some, ok_bind, ok_bind]
      rw [if_neg (by simp; exact nz), if_pos (by exact one)]
      rw [← hc]; cases q; simp_all [curveOf_some, ok_bind]

example : CurveOk 17 (some 2) ex17 ∧ ppt17.Rep ex17 G17 ∧ ppt17.toAffine (some 2) = .ok (pt17 5 1) ∧ jpt17.toAffine (some 2) = .ok (pt17 5 1) ∧
    jpt17.normalized (some 2) = .ok ⟨some ex17, fe17 5, fe17 1, fe17 1⟩ := ⟨ex17_ok, ppt17_rep, by decide +kernel, by decide +kernel, by decide +kernel⟩

/-! ## C35 -/

/-- C35: decompression. -/
theorem C35_decompress (K : CurveOk P cap C) (x : Fe) (X : ZMod P) (hx : Rep P C.p x X) (odd : Bool) :
    ∃ r, Curve.decompress cap C x odd = .ok r ∧
      ((∃ y : ZMod P, y ≠ 0 ∧ y ^ 2 = X ^ 3 + res P C.a * X + res P C.b) →
        ∃ Y h, r.Rep C (.some X Y h) ∧ Y ≠ 0 ∧ (Y.val % 2 = 1 ↔ odd = true)) ∧
      ((¬ ∃ y : ZMod P, y ≠ 0 ∧ y ^ 2 = X ^ 3 + res P C.a * X + res P C.b) → r = APt.identity) := decompress_spec K hx odd

example : CurveOk 17 (some 2) ex17 ∧ ex17.decompress (some 2) (fe17 6) true = .ok (pt17 6 3) ∧
    ex17.decompress (some 2) (fe17 6) false = .ok (pt17 6 14) ∧ ex17.decompress (some 2) (fe17 1) true = .ok APt.identity :=
  ⟨ex17_ok, by decide +kernel, by decide +kernel, by decide +kernel⟩

/-! ## C36 -/

/-- C36: decoding the uncompressed encoding of any point, or the compressed encoding of any point with y ≠ 0, returns it. -/
theorem C36_round_trip (K : CurveOk P cap C) (q : APt) (Q : C.Pt P) (h : q.Rep C Q) (compress : Bool)
    (hy : compress = true → ∀ x hn, Q ≠ .some x 0 hn) :
    ∃ r, Curve.decode cap C (Curve.encode cap q compress) = .ok r ∧ r.Rep C Q := by
  cases compress with
  | false => exact roundtrip_uncompressed K h
  | true => exact roundtrip_compressed K h (hy rfl)

/-- C36: distinct points have distinct encodings, even when the two forms are mixed. -/
theorem C36_injective (K : CurveOk P cap C) (p q : APt) (A B : C.Pt P) (hp : p.Rep C A) (hq : q.Rep C B) (c c' : Bool)
    (hA : c = true → ∀ x hn, A ≠ .some x 0 hn) (hB : c' = true → ∀ x hn, B ≠ .some x 0 hn)
    (h : Curve.encode cap p c = Curve.encode cap q c') : A = B := by
  obtain ⟨r, e, hr⟩ := C36_round_trip K p A hp c hA
  obtain ⟨r', e', hr'⟩ := C36_round_trip K q B hq c' hB
  rw [h, e'] at e
  cases e
  exact hr.unique K hr'

/-- C36: the encoding is the SEC1 one: the tag byte, then the coordinates as big-endian numbers of the byte length of p. -/
theorem C36_format (K : CurveOk P cap C) (q : APt) (x y : ZMod P) (hn) (h : q.Rep C (.some x y hn)) :
    (∃ bx : List Byte, Curve.encode cap q true = (if y.val % 2 = 1 then 3 else 2) :: bx ∧ bx.length = C.p.byteLength ∧ beVal bx = x.val) ∧
    (∃ bx b_y : List Byte, Curve.encode cap q false = 4 :: (bx ++ b_y) ∧ bx.length = C.p.byteLength ∧ beVal bx = x.val ∧
      b_y.length = C.p.byteLength ∧ beVal b_y = y.val) := by
  have hq := h.not_id K
  obtain ⟨hc, hx, hy⟩ := h
  obtain ⟨lx, vx⟩ := feBytes_spec K hx
  obtain ⟨ly, vy⟩ := feBytes_spec K hy
  unfold Curve.encode
  rw [hq]
  refine ⟨⟨_, ?_, lx, vx⟩, ⟨_, _, rfl, lx, vx, ly, vy⟩⟩
  simp [hy.bit0 K.M]

example : CurveOk 17 (some 2) ex17 ∧ (pt17 6 3).Rep ex17 H17 ∧ ex17.decode (some 2) (Curve.encode (some 2) (pt17 6 3) true) = .ok (pt17 6 3) ∧
    Curve.encode (some 2) (pt17 6 3) true = [3, 6] ∧ Curve.encode (some 2) (pt17 6 3) false = [4, 6, 3] :=
  ⟨ex17_ok, H17_rep, by decide +kernel, by decide +kernel, by decide +kernel⟩

/-! ## C37 -/

/-- C37, the part that holds: the empty string, unknown tags, wrong lengths after the tags 2, 3, 4, and coordinates not
below p after the tag 4 abort.  Missing (see the witnesses below): after tag 4 the curve equation is not checked, after
tags 2 and 3 neither the range of x nor the existence of y is enforced, after tag 0 anything may follow. -/
theorem C37_malformed_partial (K : CurveOk P cap C) :
    Curve.decode cap C [] = .error .abort ∧
    (∀ (t : Byte) (r : List Byte), t ≠ 0 → t ≠ 2 → t ≠ 3 → t ≠ 4 → Curve.decode cap C (t :: r) = .error .abort) ∧
    (∀ (t : Byte) (r : List Byte), t = 2 ∨ t = 3 → r.length ≠ C.p.byteLength → Curve.decode cap C (t :: r) = .error .abort) ∧
    (∀ r : List Byte, r.length ≠ 2 * C.p.byteLength → Curve.decode cap C (4 :: r) = .error .abort) ∧
    (∀ x y : List Byte, x.length = C.p.byteLength → y.length = C.p.byteLength → ¬ (beVal x < P ∧ beVal y < P) →
      Curve.decode cap C (4 :: (x ++ y)) = .error .abort) := by
  refine ⟨rfl, ?_, ?_, ?_, fun x y hx hy => (decode_uncompressed K hx hy).2⟩
  · intro t r h0 h2 h3 h4
    rw [decode_cons, check_false]
    · rfl
    · rw [Bool.and_eq_false_iff]
      by_cases h1 : t = 1
      · right; simp [h1]
      · left
        have : 4 < t.toNat := by
          by_contra hh
          have : t.toNat = 0 ∨ t.toNat = 1 ∨ t.toNat = 2 ∨ t.toNat = 3 ∨ t.toNat = 4 := by omega
          rcases this with h | h | h | h | h <;> simp_all [← BitVec.toNat_inj]
        simpa using this
  · intro t r ht hl
    rw [decode_cons, if_pos ht]
    rw [check_true (b := _ && _) (by rcases ht with rfl | rfl <;> decide), ok_bind, check_false]
    · rfl
    · simpa using hl
  · intro r hl
    rw [decode_cons, if_neg (by decide), if_pos rfl, check_true (b := _ && _) (by decide), ok_bind, check_false]
    · rfl
    · simpa using hl

/-- C37, tag 4, in full: the coordinates are taken as they are whenever both are below p. -/
theorem C37_uncompressed_accepts (K : CurveOk P cap C) (x y : List Byte) (hx : x.length = C.p.byteLength) (hy : y.length = C.p.byteLength)
    (h : beVal x < P ∧ beVal y < P) :
    ∃ q, Curve.decode cap C (4 :: (x ++ y)) = .ok q ∧ q.curve = some C ∧ Rep P C.p q.x ((beVal x : ℕ) : ZMod P) ∧
      Rep P C.p q.y ((beVal y : ℕ) : ZMod P) := by
  obtain ⟨bx, b_y, e, h1, h2⟩ := (decode_uncompressed K hx hy).1 h
  exact ⟨_, e, rfl, h1, h2⟩

/-- C37, tags 2 and 3: for x below p the result is the point with that x and the parity of the tag, or the identity. -/
theorem C37_compressed (K : CurveOk P cap C) (x : List Byte) (hx : x.length = C.p.byteLength) (odd : Bool) (h : beVal x < P) :
    ∃ q, Curve.decode cap C ((if odd then 3 else 2) :: x) = .ok q ∧
      (q = APt.identity ∨ ∃ Y hn, q.Rep C (.some ((beVal x : ℕ) : ZMod P) Y hn) ∧ (Y.val % 2 = 1 ↔ odd = true)) := by
  obtain ⟨bx, e, h1⟩ := decode_compressed K hx odd h
  obtain ⟨r, e2, h2, h3⟩ := decompress_spec K h1 odd
  refine ⟨r, by rw [e, e2], ?_⟩
  by_cases hh : ∃ y : ZMod P, y ≠ 0 ∧ y ^ 2 = ((beVal x : ℕ) : ZMod P) ^ 3 + res P C.a * ((beVal x : ℕ) : ZMod P) + res P C.b
  · obtain ⟨Y, hn, a, -, c⟩ := h2 hh
    exact Or.inr ⟨Y, hn, a, c⟩
  · exact Or.inl (h3 hh)

/-- C37 is violated: a point off the curve is accepted, x = 1 without a y gives the identity, x = 22 ≥ p is accepted and
kept unreduced, bytes after the tag 0 are ignored. -/
theorem C37_wrong :
    ex17.decode (some 2) [4, 5, 2] = .ok (pt17 5 2) ∧ (pt17 5 2).isOnCurve (some 2) = .ok false ∧
    ex17.decode (some 2) [2, 1] = .ok APt.identity ∧
    ex17.decode (some 2) [3, 22] = .ok (pt17 22 1) ∧
    ex17.decode (some 2) [0, 1, 2, 3] = .ok APt.identity := by decide +kernel

example : CurveOk 17 (some 2) ex17 ∧ ex17.p.byteLength = 1 ∧ ex17.decode (some 2) [4, 5] = .error .abort ∧
    ex17.decode (some 2) [4, 17, 1] = .error .abort ∧ ex17.decode (some 2) [5, 1] = .error .abort := ⟨ex17_ok, by decide +kernel⟩

/-- C37: `make_point` on integers checks the range of the coordinates always, and validity on request. -/
theorem C37_make_point (K : CurveOk P cap C) (hn : C.n.Canon) (x y : Big) (cx : x.Canon) (cy : y.Canon) :
    (¬ (0 ≤ x.toInt ∧ x.toInt < P ∧ 0 ≤ y.toInt ∧ y.toInt < P) → ∀ v, Curve.makePoint cap C x y v = .error .abort) ∧
    (0 ≤ x.toInt ∧ x.toInt < P ∧ 0 ≤ y.toInt ∧ y.toInt < P →
      Curve.makePoint cap C x y false = .ok ⟨some C, ⟨x, some C.p⟩, ⟨y, some C.p⟩⟩ ∧
      ((∃ Q : C.Pt P, APt.Rep C ⟨some C, ⟨x, some C.p⟩, ⟨y, some C.p⟩⟩ Q ∧ Q ≠ 0 ∧ C.n.toInt • Q = 0) →
        Curve.makePoint cap C x y true = .ok ⟨some C, ⟨x, some C.p⟩, ⟨y, some C.p⟩⟩) ∧
      ((¬ ∃ Q : C.Pt P, APt.Rep C ⟨some C, ⟨x, some C.p⟩, ⟨y, some C.p⟩⟩ Q ∧ Q ≠ 0 ∧ C.n.toInt • Q = 0) →
        Curve.makePoint cap C x y true = .error .abort)) := by
  obtain ⟨h1, h2⟩ := makePoint_spec K hn cx cy
  refine ⟨h1, fun h => ⟨(h2 h).1, fun hh => ?_, fun hh => ?_⟩⟩
  · rw [(h2 h).2, if_pos hh]
  · rw [(h2 h).2, if_neg hh]

example : CurveOk 17 (some 2) ex17 ∧ ex17.makePoint (some 2) (ofInt32 5) (ofInt32 1) true = .ok (pt17 5 1) ∧
    ex17.makePoint (some 2) (ofInt32 5) (ofInt32 2) true = .error .abort ∧
    ex17.makePoint (some 2) (ofInt32 17) (ofInt32 2) false = .error .abort := ⟨ex17_ok, by decide +kernel⟩

/-! ## C39 -/

/-- C39: `generate_point` aborts outside `[1, n-1]` and otherwise returns the multiple of the generator. -/
theorem C39_generate (K : CurveOk P cap C) (x : Big) (cx : x.Canon) (cn : C.n.Canon) (G : C.Pt P) (hG : C.g.Rep C G) :
    (¬ (0 < x.toInt ∧ x.toInt < C.n.toInt) →
      C.generateA cap x = .error .abort ∧ C.generateP cap x = .error .abort ∧ C.generateJ cap x = .error .abort) ∧
    (0 < x.toInt ∧ x.toInt < C.n.toInt →
      (∃ r, C.generateA cap x = .ok r ∧ r.Rep C (x.toInt • G)) ∧ (∃ r, C.generateP cap x = .ok r ∧ r.Rep C (x.toInt • G)) ∧
      (8 < P → cap.fits (C.n.ws.length + 1) = true → ∃ r, C.generateJ cap x = .ok r ∧ r.Rep C (x.toInt • G))) :=
  ⟨generate_abort cx cn, fun h => generate_ok K cx cn h hG⟩

example : CurveOk 17 (some 2) ex17 ∧ ex17.g.Rep ex17 G17 ∧ ex17.generateA (some 2) (ofInt32 2) = .ok (pt17 6 3) ∧
    ex17.generateA (some 2) (ofInt32 19) = .error .abort ∧ ex17.generateJ (some 2) (ofInt32 0) = .error .abort :=
  ⟨ex17_ok, G17_rep, by decide +kernel, by decide +kernel, by decide +kernel⟩

/-! ## C66 -/

/-- C66: `verify()` of a curve object over a prime field with b ≠ 0 is true exactly when the parameters are admissible. -/
theorem C66_verify (M : Mod cap C.p P) (ca : C.a.Canon) (cb : C.b.Canon) (cn : C.n.Canon) (fn : Big.Fits cap C.n) (hb : C.b.toInt ≠ 0)
    (gx : Rep P C.p C.gx (res P C.gx.v)) (gy : Rep P C.p C.gy (res P C.gy.v))
    (m3 : C.aIsMinus3 = true → res P C.a = -3) (z : C.aIsZero = true → res P C.a = 0) :
    ∃ r, C.verify cap = .ok r ∧ (r = true ↔ 3 < P ∧ 0 < C.n.toInt ∧ (0 ≤ C.a.toInt ∧ C.a.toInt < P) ∧
      (0 ≤ C.b.toInt ∧ C.b.toInt < P) ∧ 4 * res P C.a ^ 3 + 27 * res P C.b ^ 2 ≠ 0 ∧
      (∃ Q : C.Pt P, C.g.Rep C Q ∧ Q ≠ 0 ∧ C.n.toInt • Q = 0) ∧ 1 ≤ C.h.toNat ∧ C.h.toNat < P ∧
      C.n.toInt * C.h.toNat ≠ P - 1) := verify_spec M ca cb cn fn hb gx gy m3 z

/-- C66: the constructor aborts when a generator coordinate is out of range, and sets the cached flags correctly. -/
theorem C66_constructor (addr : Nat) (p a b gx gy n : Big) (h : Word) (M : Mod cap p P) (hP : 3 < P) (ca : Elt p a)
    (cx : gx.Canon) (cy : gy.Canon) :
    (¬ (0 ≤ gx.toInt ∧ gx.toInt < P ∧ 0 ≤ gy.toInt ∧ gy.toInt < P) → Curve.make cap addr p a b gx gy n h = .error .abort) ∧
    (0 ≤ gx.toInt ∧ gx.toInt < P ∧ 0 ≤ gy.toInt ∧ gy.toInt < P → ∃ c, Curve.make cap addr p a b gx gy n h = .ok c ∧
      c.addr = addr ∧ c.p = p ∧ c.a = a ∧ c.b = b ∧ c.gx = ⟨gx, some p⟩ ∧ c.gy = ⟨gy, some p⟩ ∧ c.n = n ∧ c.h = h ∧
      (c.aIsMinus3 = true ↔ res P a = -3) ∧ (c.aIsZero = true ↔ res P a = 0) ∧ c.pMinusN = sub cap p n) := make_spec M hP ca cx cy

example : Mod (some 2) ex17.p 17 ∧ ex17.n.Canon ∧ ex17.b.toInt ≠ 0 ∧ ex17.verify (some 2) = .ok true ∧
    ({ex17 with n := ofInt32 18} : Curve).verify (some 2) = .ok false ∧ ({ex17 with h := 17} : Curve).verify (some 2) = .ok false ∧
    ({ex17 with a := ofInt32 14, b := ofInt32 2} : Curve).verify (some 2) = .ok false :=
  ⟨ex17_ok.M, canon1 _, by decide, by decide +kernel, by decide +kernel, by decide +kernel, by decide +kernel⟩

end
end Ack.Props
