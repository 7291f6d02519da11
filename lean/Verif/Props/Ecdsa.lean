import Mathlib.Tactic.NormNum.Prime
import Verif.Proof.EcdsaNamed
import Verif.Props.Ec
/-!
# Properties of ECDSA (C40-C45, C64, C67)

`EcdsaValid N G Q e r s` is the verification equation of FIPS 186-5 over Mathlib's group of points.  `Domain N cap C G`
says that `C` is an admissible curve object with generator `G` of prime order `N ≥ p/2`.
-/
namespace Ack.Props
open Ack Ack.Big WeierstrassCurve

/-! ## Concrete case: y² = x³ + 5x + 7 over GF(229), a group of prime order 211, G = (2,5), Q = 37 G -/

instance fact229 : Fact (Nat.Prime 229) := ⟨by norm_num⟩

def fe229 (x : BitVec 32) : Fe := ⟨ofInt32 x, some (ofInt32 229)⟩
def ex229 : Curve := ⟨1, ofInt32 229, ofInt32 5, ofInt32 7, fe229 2, fe229 5, ofInt32 211, 1, false, false, ofInt32 18⟩
def pt229 (x y : BitVec 32) : APt := ⟨some ex229, fe229 x, fe229 y⟩

theorem ex229_ok : CurveOk 229 (some 2) ex229 where
  M := ⟨by decide, canon1 _, by decide, by decide⟩
  gt3 := by decide
  a := ⟨canon1 _, by decide, by decide⟩
  b := ⟨canon1 _, by decide, by decide⟩
  b0 := by unfold res; decide
  disc := by unfold res; decide
  m3 := by decide
  z := by decide

theorem rep229 {x : BitVec 32} (h0 : 0 ≤ x.toInt) (h1 : x.toInt < 229) : Rep 229 ex229.p (fe229 x) ((x.toInt : ℤ) : ZMod 229) :=
  ⟨rfl, elt_int (cap := some 2) (p := ex229.p) ex229_ok.M h0 h1, res_int _⟩

def G229 : ex229.Pt 229 := .some 2 5 (ex229_ok.ns.2 (by unfold res; decide))
def Q229 : ex229.Pt 229 := .some 187 94 (ex229_ok.ns.2 (by unfold res; decide))

theorem G229_rep : (pt229 2 5).Rep ex229 G229 := ⟨rfl, rep229 (x := 2) (by decide) (by decide), rep229 (x := 5) (by decide) (by decide)⟩
theorem Q229_rep : (pt229 187 94).Rep ex229 Q229 := ⟨rfl, rep229 (x := 187) (by decide) (by decide), rep229 (x := 94) (by decide) (by decide)⟩

theorem G229_ord : (211 : ℤ) • G229 = 0 := by
  obtain ⟨r, e, hr⟩ := APt.mul_spec ex229_ok G229_rep (canon1 211)
  have : (pt229 2 5).mul (some 2) (ofInt32 211) = .ok APt.identity := by decide +kernel
  rw [this] at e; cases e
  exact (hr.zero_iff ex229_ok).1 rfl

theorem Q229_eq : Q229 = (37 : ℤ) • G229 := by
  obtain ⟨r, e, hr⟩ := APt.mul_spec ex229_ok G229_rep (canon1 37)
  have : (pt229 2 5).mul (some 2) (ofInt32 37) = .ok (pt229 187 94) := by decide +kernel
  rw [this] at e; cases e
  exact Q229_rep.unique ex229_ok hr

theorem Q229_ord : (211 : ℤ) • Q229 = 0 := by rw [Q229_eq, smul_comm, G229_ord, zsmul_zero]

theorem ex229_dom : Domain 211 (some 2) ex229 G229 :=
  ⟨⟨ex229_ok, by decide, ⟨by decide, canon1 _, by decide, by decide⟩, by norm_num, G229_rep, by rintro ⟨⟩, G229_ord, by decide⟩, by decide⟩

theorem G17_ord : (19 : ℤ) • G17 = 0 := by
  obtain ⟨r, e, hr⟩ := APt.mul_spec ex17_ok G17_rep (canon1 19)
  have : (pt17 5 1).mul (some 2) (ofInt32 19) = .ok APt.identity := by decide +kernel
  rw [this] at e; cases e
  exact (hr.zero_iff ex17_ok).1 rfl

theorem ex17_dom : Domain 19 (some 2) ex17 G17 :=
  ⟨⟨ex17_ok, by decide, ⟨by decide, canon1 _, by decide, by decide⟩, by norm_num, G17_rep, by rintro ⟨⟩, G17_ord, by decide⟩, by decide⟩

section
variable {P N : ℕ} [Fact P.Prime] {cap : Cap} {C : Curve} {G : C.Pt P}

/-! ## C40 -/

/-- C40, for p ≤ 2n (missing: larger cofactors, see `C40_cofactor_wrong`): `ecdsa_verify` returns true exactly on valid signatures of the integer made of the leading bytes of the message,
and returns (no abort, no undefined behaviour) on all inputs. -/
theorem C40_accepts_iff_partial (D : Domain N cap C G) (q : APt) (Q : C.Pt P) (hq : q.Rep C Q) (msg : List Byte) (r s : Big) (cr : r.Canon) (cs : s.Canon) :
    ∃ b, ecdsaVerify cap q msg r s = .ok b ∧ (b = true ↔ EcdsaValid N G Q (beVal (leadBytes N.size msg)) r.toInt s.toInt) :=
  ecdsaVerify_spec D hq msg cr cs

/-- C40 for every cofactor: `ecdsa_verify` returns on all inputs; it returns true exactly on the valid signatures whose point
has an x-coordinate below `2n`. -/
theorem C40_exact (D : AnyDomain N cap C G) (q : APt) (Q : C.Pt P) (hq : q.Rep C Q) (msg : List Byte) (r s : Big) (cr : r.Canon) (cs : s.Canon) :
    ∃ b, ecdsaVerify cap q msg r s = .ok b ∧ (b = true ↔ EcdsaValidSmall N G Q (beVal (leadBytes N.size msg)) r.toInt s.toInt) :=
  ecdsaVerify_exact D hq msg cr cs

/-- C40 for every cofactor: an accepted signature is valid. -/
theorem C40_sound (D : AnyDomain N cap C G) (q : APt) (Q : C.Pt P) (hq : q.Rep C Q) (msg : List Byte) (r s : Big) (cr : r.Canon) (cs : s.Canon)
    (h : ecdsaVerify cap q msg r s = .ok true) : EcdsaValid N G Q (beVal (leadBytes N.size msg)) r.toInt s.toInt := by
  obtain ⟨b, e, hb⟩ := ecdsaVerify_exact D hq msg cr cs
  rw [h] at e
  cases e
  exact (hb.1 rfl).valid

/-- C40: `assert_ecdsa` returns on exactly those inputs and aborts on the others. -/
theorem C40_assert (D : Domain N cap C G) (q : APt) (Q : C.Pt P) (hq : q.Rep C Q) (msg : List Byte) (r s : Big) (cr : r.Canon) (cs : s.Canon) :
    (EcdsaValid N G Q (beVal (leadBytes N.size msg)) r.toInt s.toInt → assertEcdsa cap q msg r s = .ok ()) ∧
    (¬ EcdsaValid N G Q (beVal (leadBytes N.size msg)) r.toInt s.toInt → assertEcdsa cap q msg r s = .error .abort) := by
  obtain ⟨b, e, h⟩ := ecdsaVerify_spec D hq msg cr cs
  unfold assertEcdsa
  rw [e, ok_bind, ← h]
  cases b
  · exact ⟨fun h => absurd h (by simp), fun _ => rfl⟩
  · exact ⟨fun _ => rfl, fun h => absurd rfl h⟩

/-- C67: the hypotheses hold for every named curve, in native and wasm builds; there moreover `n` annihilates all points,
is less than `p` and has as many bits as the name of the curve says. -/
theorem C67_named_domain (c : Named) (wasm : Bool) (addr : Nat) :
    ∃ (P N : ℕ) (_ : Fact P.Prime) (C : Curve) (G : C.Pt P), c.params.build wasm addr = .ok C ∧ Domain N (c.params.cap wasm) C G ∧
      (∀ Q : C.Pt P, (N : ℤ) • Q = 0) ∧ N < P ∧ N.size = c.params.bits := named_domain c wasm addr

example : Domain 211 (some 2) ex229 G229 ∧ (pt229 187 94).Rep ex229 Q229 ∧
    ecdsaVerify (some 2) (pt229 187 94) [0xab, 7, 7] (ofInt32 134) (ofInt32 138) = .ok true ∧
    ecdsaVerify (some 2) (pt229 187 94) [0xab] (ofInt32 17) (ofInt32 119) = .ok true ∧
    ecdsaVerify (some 2) (pt229 187 94) [0xaa] (ofInt32 134) (ofInt32 138) = .ok false ∧
    assertEcdsa (some 2) (pt229 187 94) [0xab] (ofInt32 134) (ofInt32 137) = .error .abort :=
  ⟨ex229_dom, Q229_rep, by decide +kernel, by decide +kernel, by decide +kernel, by decide +kernel⟩

/-- The hypothesis `p ≤ 2n` of C40 is needed: the x-coordinate is reduced by a single subtraction.  On y² = x³ + x + 4 over
GF(17) with the generator (4,2) of order 7, the signature (2,4) of the number 1 made with nonce 3 (point (16,6), 16 mod 7 = 2)
and private key 2 is rejected. -/
theorem C40_cofactor_wrong :
    let f := fun k : BitVec 32 => (⟨ofInt32 k, some (ofInt32 17)⟩ : Fe)
    let c : Curve := ⟨1, ofInt32 17, ofInt32 1, ofInt32 4, f 4, f 2, ofInt32 7, 2, false, false, ofInt32 10⟩
    Curve.make none 1 (ofInt32 17) (ofInt32 1) (ofInt32 4) (ofInt32 4) (ofInt32 2) (ofInt32 7) 2 = .ok c ∧
    c.verify none = .ok true ∧
    c.g.mul none (ofInt32 2) = .ok ⟨some c, f 5, f 7⟩ ∧ c.g.mul none (ofInt32 3) = .ok ⟨some c, f 16, f 6⟩ ∧
    ((4 : ℤ) * 3 ≡ 1 + 2 * 2 [ZMOD 7]) ∧
    ecdsaVerify none ⟨some c, f 5, f 7⟩ [1] (ofInt32 2) (ofInt32 4) = .ok false := by decide +kernel

def exCof : Curve := ⟨1, ofInt32 17, ofInt32 1, ofInt32 4, ⟨ofInt32 4, some (ofInt32 17)⟩, ⟨ofInt32 2, some (ofInt32 17)⟩, ofInt32 7, 2, false, false, ofInt32 10⟩

theorem exCof_ok : CurveOk 17 (some 2) exCof where
  M := ⟨by decide, canon1 _, by decide, by decide⟩
  gt3 := by decide
  a := ⟨canon1 _, by decide, by decide⟩
  b := ⟨canon1 _, by decide, by decide⟩
  b0 := by unfold res; decide
  disc := by unfold res; decide
  m3 := by decide
  z := by decide

def GCof : exCof.Pt 17 := .some 4 2 (exCof_ok.ns.2 (by unfold res; decide))

theorem GCof_rep : exCof.g.Rep exCof GCof :=
  ⟨rfl, ⟨rfl, elt_int (cap := some 2) (p := exCof.p) (k := 4) exCof_ok.M (by decide) (by decide), res_int _⟩,
    ⟨rfl, elt_int (cap := some 2) (p := exCof.p) (k := 2) exCof_ok.M (by decide) (by decide), res_int _⟩⟩

theorem GCof_ord : (7 : ℤ) • GCof = 0 := by
  obtain ⟨r, e, hr⟩ := APt.mul_spec exCof_ok GCof_rep (canon1 7)
  have : exCof.g.mul (some 2) (ofInt32 7) = .ok APt.identity := by decide +kernel
  rw [this] at e; cases e
  exact (hr.zero_iff exCof_ok).1 rfl

theorem exCof_dom : AnyDomain 7 (some 2) exCof GCof :=
  ⟨exCof_ok, by decide, ⟨by decide, canon1 _, by decide, by decide⟩, by norm_num, GCof_rep, by rintro ⟨⟩, GCof_ord, by decide⟩

/-! `exCof` is the curve of `C40_cofactor_wrong`, of cofactor 2; some signatures on it are accepted. -/
example : AnyDomain 7 (some 2) exCof GCof ∧ exCof.g.mul (some 2) (ofInt32 2) = .ok ⟨some exCof, ⟨ofInt32 5, some (ofInt32 17)⟩, ⟨ofInt32 7, some (ofInt32 17)⟩⟩ ∧
    ecdsaVerify (some 2) ⟨some exCof, ⟨ofInt32 5, some (ofInt32 17)⟩, ⟨ofInt32 7, some (ofInt32 17)⟩⟩ [1] (ofInt32 4) (ofInt32 2) = .ok true :=
  ⟨exCof_dom, by decide +kernel, by decide +kernel⟩

/-! ## C41 -/

/-- C41, for p ≤ 2n (missing: larger cofactors, see `C40_cofactor_wrong`): every signature made as FIPS 186-5 prescribes, with any private key `d` and nonce `k`, is accepted. -/
theorem C41_honest_partial (D : Domain N cap C G) (q : APt) (Q : C.Pt P) (hq : q.Rep C Q) (msg : List Byte) (r s : Big) (cr : r.Canon) (cs : s.Canon)
    (d k : ℤ) (hQ : Q = d • G) (hQ0 : Q ≠ 0) (x y : ZMod P) (h) (hk : k • G = .some x y h) (hr : r.toInt = (x.val : ℤ) % N) (hr1 : r.toInt ≠ 0)
    (hs1 : 1 ≤ s.toInt) (hs2 : s.toInt < N) (hs : s.toInt * k ≡ beVal (leadBytes N.size msg) + r.toInt * d [ZMOD N]) :
    ecdsaVerify cap q msg r s = .ok true := by
  obtain ⟨b, e, hb⟩ := ecdsaVerify_spec D hq msg cr cs
  have hr0 : 0 ≤ r.toInt := by rw [hr]; exact Int.emod_nonneg _ (by have := D.np.pos; omega)
  rw [e, hb.2 (honest_valid D.np D.ord hQ hQ0 hk hr (by omega) hs1 hs2 hs)]

example : Domain 211 (some 2) ex229 G229 ∧ (pt229 187 94).Rep ex229 Q229 ∧ Q229 = (37 : ℤ) • G229 ∧ Q229 ≠ 0 ∧
    beVal (leadBytes (Nat.size 211) [0xab, 1, 2, 3]) = 0xab ∧ ((138 : ℤ) * 2 ≡ 0xab + 134 * 37 [ZMOD 211]) ∧
    (pt229 2 5).mul (some 2) (ofInt32 2) = .ok (pt229 134 137) :=
  ⟨ex229_dom, Q229_rep, Q229_eq, by rintro ⟨⟩, by decide +kernel, by decide, by decide +kernel⟩

/-- C41 for every cofactor: a signature made as FIPS 186-5 prescribes, with any private key `d` and nonce `k`, is accepted
exactly when the x-coordinate of the nonce point is below `2n`. -/
theorem C41_exact (D : AnyDomain N cap C G) (q : APt) (Q : C.Pt P) (hq : q.Rep C Q) (msg : List Byte) (r s : Big) (cr : r.Canon) (cs : s.Canon)
    (d k : ℤ) (hQ : Q = d • G) (hQ0 : Q ≠ 0) (x y : ZMod P) (h) (hk : k • G = .some x y h) (hr : r.toInt = (x.val : ℤ) % N) (hr1 : r.toInt ≠ 0)
    (hs1 : 1 ≤ s.toInt) (hs2 : s.toInt < N) (hs : s.toInt * k ≡ beVal (leadBytes N.size msg) + r.toInt * d [ZMOD N]) :
    ecdsaVerify cap q msg r s = .ok (decide (x.val < 2 * N)) := by
  obtain ⟨b, e, hb⟩ := ecdsaVerify_exact D hq msg cr cs
  have hr0 : 0 ≤ r.toInt := by rw [hr]; exact Int.emod_nonneg _ (by have := D.np.pos; omega)
  have hQN : (N : ℤ) • Q = 0 := by rw [hQ, smul_comm, D.ord, zsmul_zero]
  obtain ⟨h1, h2, h3, h4, h5, w, hw, x', y', h', e1, e2⟩ := honest_valid D.np D.ord hQ hQ0 hk hr (by omega) hs1 hs2 hs
  have key : ∀ w : ℤ, s.toInt * w ≡ 1 [ZMOD N] →
      ((beVal (leadBytes N.size msg) : ℤ) * w % N) • G + (r.toInt * w % N) • Q = k • G := by
    intro w hw
    rw [zsmul_emod D.ord, zsmul_emod hQN, hQ, ← mul_zsmul, ← add_zsmul]
    apply zsmul_congr D.ord
    calc (beVal (leadBytes N.size msg) : ℤ) * w + r.toInt * w * d = (beVal (leadBytes N.size msg) + r.toInt * d) * w := by ring
      _ ≡ (s.toInt * k) * w [ZMOD N] := (hs.symm).mul_right _
      _ = k * (s.toInt * w) := by ring
      _ ≡ k * 1 [ZMOD N] := hw.mul_left _
      _ = k := mul_one _
  rw [e]
  congr 1
  rw [Bool.eq_iff_iff, hb, decide_eq_true_iff]
  constructor
  · rintro ⟨-, -, -, -, -, w, hw, X, Y, H, g1, g2, g3⟩
    rw [key w hw, hk] at g1
    cases g1
    exact g3
  · intro hx
    exact ⟨h1, h2, h3, h4, h5, w, hw, x, y, h, by rw [key w hw, hk], hr.symm, hx⟩

/-- C41 is violated for larger cofactors: the signature (2,4) of the number 1, made with the private key 2 and the nonce 3 on
the curve of cofactor 2 above, is rejected; its nonce point is (16,6), and 16 ≥ 2 * 7. -/
theorem C41_wrong : ∃ Q : exCof.Pt 17,
    (⟨some exCof, ⟨ofInt32 5, some (ofInt32 17)⟩, ⟨ofInt32 7, some (ofInt32 17)⟩⟩ : APt).Rep exCof Q ∧ Q = (2 : ℤ) • GCof ∧ Q ≠ 0 ∧
    (∃ h, (3 : ℤ) • GCof = .some 16 6 h) ∧ (16 : ℤ) % 7 = 2 ∧ ((4 : ℤ) * 3 ≡ beVal (leadBytes (Nat.size 7) [1]) + 2 * 2 [ZMOD 7]) ∧
    ecdsaVerify (some 2) ⟨some exCof, ⟨ofInt32 5, some (ofInt32 17)⟩, ⟨ofInt32 7, some (ofInt32 17)⟩⟩ [1] (ofInt32 2) (ofInt32 4) = .ok false := by
  obtain ⟨r, e, hr⟩ := APt.mul_spec exCof_ok GCof_rep (canon1 2)
  have h2 : exCof.g.mul (some 2) (ofInt32 2) = .ok ⟨some exCof, ⟨ofInt32 5, some (ofInt32 17)⟩, ⟨ofInt32 7, some (ofInt32 17)⟩⟩ := by decide +kernel
  rw [h2] at e; cases e
  obtain ⟨r, e, hr3⟩ := APt.mul_spec exCof_ok GCof_rep (canon1 3)
  have h3 : exCof.g.mul (some 2) (ofInt32 3) = .ok ⟨some exCof, ⟨ofInt32 16, some (ofInt32 17)⟩, ⟨ofInt32 6, some (ofInt32 17)⟩⟩ := by decide +kernel
  rw [h3] at e; cases e
  have e2 : (ofInt32 2).toInt = 2 := by decide
  have e3 : (ofInt32 3).toInt = 3 := by decide
  rw [e2] at hr
  rw [e3] at hr3
  refine ⟨_, hr, rfl, ?_, ?_, by decide, by decide +kernel, by decide +kernel⟩
  · intro h0
    have := (hr.zero_iff exCof_ok).2 h0
    revert this; decide +kernel
  · have hp : (⟨some exCof, ⟨ofInt32 16, some (ofInt32 17)⟩, ⟨ofInt32 6, some (ofInt32 17)⟩⟩ : APt).Rep exCof
        (.some 16 6 (exCof_ok.ns.2 (by unfold res; decide +kernel)) : exCof.Pt 17) :=
      ⟨rfl, ⟨rfl, elt_int (cap := some 2) (p := exCof.p) (k := 16) exCof_ok.M (by decide) (by decide), res_int _⟩,
        ⟨rfl, elt_int (cap := some 2) (p := exCof.p) (k := 6) exCof_ok.M (by decide) (by decide), res_int _⟩⟩
    exact ⟨_, hr3.unique exCof_ok hp⟩

/-! ## C42 -/

/-- C42: components outside [1, n-1], or the identity as public key, give false: for all messages and point objects, on
the curve or not. -/
theorem C42_range (cap : Cap) (q : APt) (C : Curve) (hc : q.curve = some C) (cn : C.n.Canon) (msg : List Byte) (r s : Big) (cr : r.Canon) (cs : s.Canon)
    (h : ¬ (1 ≤ r.toInt ∧ r.toInt < C.n.toInt ∧ 1 ≤ s.toInt ∧ s.toInt < C.n.toInt)) : ecdsaVerify cap q msg r s = .ok false := by
  unfold ecdsaVerify
  by_cases hi : q.isIdentity = true
  · rw [if_pos hi]
  rw [if_neg hi, hc, curveOf_some, ok_bind, if_pos]
  have e1 : (1 : BitVec 32).toInt = 1 := by decide
  simp only [Bool.or_eq_true, ltS_iff cr (y := 1), opGe_iff cr cn, ltS_iff cs (y := 1), opGe_iff cs cn, e1]
  omega

/-- C42: the identity. -/
theorem C42_identity (cap : Cap) (q : APt) (h : q.isIdentity = true) (msg : List Byte) (r s : Big) : ecdsaVerify cap q msg r s = .ok false := by
  unfold ecdsaVerify; rw [if_pos h]

example : (pt229 1 1).curve = some ex229 ∧ ex229.n.Canon ∧ ecdsaVerify (some 2) (pt229 1 1) [1] (ofInt32 0) (ofInt32 5) = .ok false ∧
    ecdsaVerify (some 2) (pt229 187 94) [0xab] (ofInt32 (134 + 211)) (ofInt32 138) = .ok false ∧
    ecdsaVerify (some 2) (pt229 187 94) [0xab] (ofInt32 134) (ofInt32 (138 - 211)) = .ok false ∧ APt.identity.isIdentity = true :=
  ⟨rfl, canon1 _, by decide +kernel, by decide +kernel, by decide +kernel, rfl⟩

/-! ## C43 -/

/-- C43, the part that holds: when the bit length of n is a multiple of 8, or the message has at most that many bits, the
integer is the one of FIPS 186-5.  Missing: other lengths, where the excess bits are not shifted out (`C43_wrong`). -/
theorem C43_truncation_partial (D : Domain N cap C G) (q : APt) (Q : C.Pt P) (hq : q.Rep C Q) (msg : List Byte) (r s : Big) (cr : r.Canon) (cs : s.Canon)
    (h : N.size % 8 = 0 ∨ 8 * msg.length ≤ N.size) :
    ∃ b, ecdsaVerify cap q msg r s = .ok b ∧ (b = true ↔ EcdsaValid N G Q (fipsE N.size msg) r.toInt s.toInt) := by
  rw [← lead_eq_fips _ _ h]
  exact ecdsaVerify_spec D hq msg cr cs

/-- C43, the exact law for all lengths: the integer of FIPS 186-5 is the integer in use (that of the leading bytes, by `C40_exact`)
with the excess bits shifted out.  The code leaves out the shift, at most seven bits. -/
theorem C43_exact (nbits : ℕ) (msg : List Byte) :
    fipsE nbits msg = beVal (leadBytes nbits msg) / 2 ^ (8 * (leadBytes nbits msg).length - nbits) := by
  have hl : (leadBytes nbits msg).length = min ((nbits + 7) / 8) msg.length := by simp [leadBytes]
  unfold fipsE
  split
  · rename_i h
    rw [hl, Nat.sub_eq_zero_of_le (by omega), pow_zero, Nat.div_one]
    unfold leadBytes
    rw [List.take_of_length_le (by omega)]
  · rename_i h
    rw [hl]
    unfold leadBytes
    rw [beVal_take _ _ (by omega), Nat.div_div_eq_div_mul, ← pow_add]
    congr 2
    omega

example : beVal (leadBytes 5 [0xff, 3]) = 0xff ∧ 8 * (leadBytes 5 [0xff, 3]).length - 5 = 3 ∧ fipsE 5 [0xff, 3] = 0xff / 2 ^ 3 := by
  decide +kernel

/-- C67: on the named curves verification is that of FIPS 186-5 for all messages of at most 65 bytes (all digests of up to
520 bits), and, except on secp521r1, for all messages. -/
theorem C67_named_verify (c : Named) (wasm : Bool) (addr : Nat) :
    ∃ (P N : ℕ) (_ : Fact P.Prime) (C : Curve) (G : C.Pt P), c.params.build wasm addr = .ok C ∧ Domain N (c.params.cap wasm) C G ∧
      ∀ (q : APt) (Q : C.Pt P) (msg : List Byte) (r s : Big), q.Rep C Q → r.Canon → s.Canon → (c = .secp521r1 → msg.length ≤ 65) →
        ∃ b, ecdsaVerify (c.params.cap wasm) q msg r s = .ok b ∧ (b = true ↔ EcdsaValid N G Q (fipsE N.size msg) r.toInt s.toInt) := by
  obtain ⟨P, N, hP, C, G, e, D, -, -, hs⟩ := named_domain c wasm addr
  refine ⟨P, N, hP, C, G, e, D, fun q Q msg r s hq cr cs hm => C43_truncation_partial D q Q hq msg r s cr cs ?_⟩
  rw [hs]
  cases c
  case secp521r1 => right; have := hm rfl; show 8 * _ ≤ 521; omega
  all_goals left; rfl

example : Domain 211 (some 2) ex229 G229 ∧ Nat.size 211 % 8 = 0 ∧ fipsE 8 [0xab, 1, 2] = 0xab := ⟨ex229_dom, by decide, by decide +kernel⟩

/-- C43 is violated when the bit length of n is not a multiple of 8.  With n = 19 (5 bits) and the message [0xff], FIPS 186-5
takes e = 31; the signature (6,12), valid for it, is rejected, and (6,10) is accepted instead. -/
theorem C43_wrong :
    fipsE (Nat.size 19) [0xff] = 31 ∧ EcdsaValid 19 G17 H17 (fipsE (Nat.size 19) [0xff]) 6 12 ∧
    ecdsaVerify (some 2) (pt17 6 3) [0xff] (ofInt32 6) (ofInt32 12) = .ok false ∧
    ecdsaVerify (some 2) (pt17 6 3) [0xff] (ofInt32 6) (ofInt32 10) = .ok true := by
  have he : fipsE (Nat.size 19) [0xff] = 31 := by decide +kernel
  refine ⟨he, ?_, by decide +kernel, by decide +kernel⟩
  rw [he]
  obtain ⟨b, e, h⟩ := C40_accepts_iff_partial ex17_dom _ _ H17_rep [31] (ofInt32 6) (ofInt32 12) (canon1 _) (canon1 _)
  have : ecdsaVerify (some 2) (pt17 6 3) [31] (ofInt32 6) (ofInt32 12) = .ok true := by decide +kernel
  rw [this] at e; cases e
  have hv := h.1 rfl
  have e2 : beVal (leadBytes (Nat.size 19) [31]) = 31 := by decide +kernel
  rw [e2] at hv
  exact hv

/-- C43: on secp521r1 the integers differ for 66-byte messages, for instance 1 followed by 65 zero bytes: 2^520 against 2^513. -/
theorem C43_secp521r1 : beVal (leadBytes 521 (1 :: List.replicate 65 0)) = 2 ^ 520 ∧ fipsE 521 (1 :: List.replicate 65 0) = 2 ^ 513 := by
  decide +kernel

/-! ## C44 -/

/-- C44, as far as it holds: a key returned by `ecdsa_recover` accepts the signature.  Assumed beyond the domain: `n ≤ p`, a
message of at most as many bits as n when that is not a multiple of 8, and that `n` annihilates the recovered nonce point
(checked by the code when `verify` is set, and true on curves with cofactor 1).  All of this holds for named curves and
digests of up to 520 bits (`C67_named_recover_sound`). -/
theorem C44_sound_partial (D : AnyDomain N cap C G) (hNP : N ≤ P) (msg : List Byte) (hm : N.size % 8 = 0 ∨ 8 * msg.length ≤ N.size) (r s : Big)
    (cr : r.Canon) (cs : s.Canon) (recid : BitVec 64) (v : Bool) (hv : v = true ∨ ∀ R : C.Pt P, (N : ℤ) • R = 0) :
    ∃ q, ecdsaRecover cap C msg r s recid v = .ok q ∧
      (q.isIdentity = true ∨ ∃ Q : C.Pt P, q.Rep C Q ∧ EcdsaValidSmall N G Q (beVal (leadBytes N.size msg)) r.toInt s.toInt ∧
        ecdsaVerify cap q msg r s = .ok true) := by
  by_cases hr : (1 ≤ r.toInt ∧ r.toInt < N) ∧ (1 ≤ s.toInt ∧ s.toInt < N) ∧ recid.toNat < 4
  · obtain ⟨hr, hs, hk⟩ := hr
    obtain ⟨q, e, h⟩ := ecdsaRecover_spec D hNP msg (lead_le D.np.pos _ hm) cr cs hr hs hk v
    refine ⟨q, e, ?_⟩
    rcases h with ⟨rfl, -⟩ | ⟨R, w, hn, hR, hw, hq⟩
    · exact Or.inl rfl
    · by_cases h0 : q.isIdentity = true
      · exact Or.inl h0
      · right
        have hRN : (N : ℤ) • R = 0 := by
          rcases hv with hv | hv
          · exact hR hv
          · exact hv R
        have hval := recovered_valid D.np D.ord hRN hr.1 hr.2 hs.1 hs.2 hw hk hn rfl (by rwa [Ne, ← hq.zero_iff D.K])
        refine ⟨_, hq, hval, ?_⟩
        obtain ⟨b, e2, hb⟩ := ecdsaVerify_exact D hq msg cr cs
        rw [e2, hb.2 hval]
  · exact ⟨_, ecdsaRecover_range D msg cr cs recid v hr, Or.inl rfl⟩

/-- C44: components out of range or a recovery number above 3 give the identity. -/
theorem C44_range (D : AnyDomain N cap C G) (msg : List Byte) (r s : Big) (cr : r.Canon) (cs : s.Canon) (recid : BitVec 64) (v : Bool)
    (h : ¬ ((1 ≤ r.toInt ∧ r.toInt < N) ∧ (1 ≤ s.toInt ∧ s.toInt < N) ∧ recid.toNat < 4)) :
    ecdsaRecover cap C msg r s recid v = .ok APt.identity := ecdsaRecover_range D msg cr cs recid v h

/-- C67, soundness of recovery on the named curves, with or without `verify`. -/
theorem C67_named_recover_sound (c : Named) (wasm : Bool) (addr : Nat) :
    ∃ (P N : ℕ) (_ : Fact P.Prime) (C : Curve) (G : C.Pt P), c.params.build wasm addr = .ok C ∧ Domain N (c.params.cap wasm) C G ∧
      ∀ (msg : List Byte) (r s : Big) (recid : BitVec 64) (v : Bool), r.Canon → s.Canon → (c = .secp521r1 → msg.length ≤ 65) →
        ∃ q, ecdsaRecover (c.params.cap wasm) C msg r s recid v = .ok q ∧
          (q.isIdentity = true ∨ ∃ Q : C.Pt P, q.Rep C Q ∧ EcdsaValid N G Q (fipsE N.size msg) r.toInt s.toInt ∧
            ecdsaVerify (c.params.cap wasm) q msg r s = .ok true) := by
  obtain ⟨P, N, hP, C, G, e, D, ho, hlt, hs⟩ := named_domain c wasm addr
  refine ⟨P, N, hP, C, G, e, D, fun msg r s recid v cr cs hm => ?_⟩
  have hm' : N.size % 8 = 0 ∨ 8 * msg.length ≤ N.size := by
    rw [hs]
    cases c
    case secp521r1 => right; have := hm rfl; show 8 * _ ≤ 521; omega
    all_goals left; rfl
  rw [← lead_eq_fips _ _ hm']
  obtain ⟨q, eq, h⟩ := C44_sound_partial D.toAnyDomain hlt.le msg hm' r s cr cs recid v (Or.inr ho)
  refine ⟨q, eq, h.imp_right ?_⟩
  rintro ⟨Q, h1, h2, h3⟩
  exact ⟨Q, h1, h2.valid, h3⟩

example : Domain 211 (some 2) ex229 G229 ∧ 211 ≤ 229 ∧ Nat.size 211 % 8 = 0 ∧
    ecdsaRecover (some 2) ex229 [0xab, 9] (ofInt32 134) (ofInt32 138) 1 true = .ok (pt229 187 94) ∧
    ecdsaRecover (some 2) ex229 [0xab] (ofInt32 134) (ofInt32 138) 4 true = .ok APt.identity :=
  ⟨ex229_dom, by decide, by decide, by decide +kernel, by decide +kernel⟩

/-- C44, the exact result for `n ≤ p`, all cofactors and all messages.  The code returns the identity when no point has the
x-coordinate and parity that `r` and `recid` describe (or, with `verify`, `n` does not annihilate it); otherwise, with `R` that
point, it returns `r⁻¹ (s R - e G)`, except that the term `e G` is missing when `e > 2n`. -/
theorem C44_exact (D : AnyDomain N cap C G) (hNP : N ≤ P) (msg : List Byte) (r s : Big) (cr : r.Canon) (cs : s.Canon)
    (hr : 1 ≤ r.toInt ∧ r.toInt < N) (hs : 1 ≤ s.toInt ∧ s.toInt < N) (recid : BitVec 64) (hk : recid.toNat < 4) (v : Bool) :
    ∃ q, ecdsaRecover cap C msg r s recid v = .ok q ∧
      ((q = APt.identity ∧ ∀ R : C.Pt P, IsNonce N r.toInt recid.toNat R → v = true ∧ (N : ℤ) • R ≠ 0) ∨
       ∃ (R : C.Pt P) (w : ℤ), IsNonce N r.toInt recid.toNat R ∧ (v = true → (N : ℤ) • R = 0) ∧ r.toInt * w ≡ 1 [ZMOD N] ∧
         q.Rep C ((if beVal (leadBytes N.size msg) ≤ 2 * N then -(beVal (leadBytes N.size msg)) * w % N else 0 : ℤ) • G +
           (s.toInt * w % N) • R)) := ecdsaRecover_exact D hNP msg cr cs hr hs hk v

example : Domain 211 (some 2) ex229 G229 ∧ 211 ≤ 229 ∧ beVal (leadBytes (Nat.size 211) [0xab, 9]) = 0xab ∧
    (∃ R w, IsNonce 211 134 1 (R : ex229.Pt 229) ∧ (134 : ℤ) * w ≡ 1 [ZMOD 211]) :=
  ⟨ex229_dom, by decide, by decide +kernel, .some 134 137 (ex229_ok.ns.2 (by unfold res; decide +kernel)), 137,
    ⟨134, 137, _, rfl, by decide +kernel, by decide +kernel, by decide +kernel⟩, by decide⟩

/-- C44 is violated when e > 2n: the negative multiplier counts as zero.  (6,10) is accepted for the message [0xff] and
the key (6,3), but (10,11) is recovered, for which it is rejected. -/
theorem C44_negative_wrong :
    ecdsaVerify (some 2) (pt17 6 3) [0xff] (ofInt32 6) (ofInt32 10) = .ok true ∧
    ecdsaRecover (some 2) ex17 [0xff] (ofInt32 6) (ofInt32 10) 1 true = .ok (pt17 10 11) ∧
    ecdsaVerify (some 2) (pt17 10 11) [0xff] (ofInt32 6) (ofInt32 10) = .ok false := by decide +kernel

/-- C44 is violated when n > p: an r not below p is taken for an x-coordinate.  On the curve with p = 17, n = 19 and
r = 17 a key is recovered for which the signature is rejected. -/
theorem C44_unreduced_wrong :
    ∃ q, ecdsaRecover (some 2) ex17 [7] (ofInt32 17) (ofInt32 10) 1 true = .ok q ∧ q.isIdentity = false ∧
      ecdsaVerify (some 2) q [7] (ofInt32 17) (ofInt32 10) = .ok false := by
  have : (match ecdsaRecover (some 2) ex17 [7] (ofInt32 17) (ofInt32 10) 1 true with
    | .ok q => !q.isIdentity && decide (ecdsaVerify (some 2) q [7] (ofInt32 17) (ofInt32 10) = .ok false)
    | .error _ => false) = true := by decide +kernel
  revert this
  generalize ecdsaRecover (some 2) ex17 [7] (ofInt32 17) (ofInt32 10) 1 true = o
  cases o with
  | error => intro h; cases h
  | ok q =>
    intro h
    simp only [Bool.and_eq_true, Bool.not_eq_true', decide_eq_true_iff] at h
    exact ⟨q, rfl, h⟩

/-! ## C45 -/

/-- C45, with the same restrictions as C44: for every valid signature `ecdsa_recover` returns the public key, given the
number that consists of the parity of the y-coordinate of the nonce point and of the quotient of its x-coordinate by n. -/
theorem C45_complete_partial (D : AnyDomain N cap C G) (hN2 : 2 < N) (hNP : N ≤ P) (msg : List Byte) (hm : N.size % 8 = 0 ∨ 8 * msg.length ≤ N.size) (r s : Big)
    (cr : r.Canon) (cs : s.Canon) (Q : C.Pt P) (hQN : (N : ℤ) • Q = 0)
    (hval : EcdsaValidSmall N G Q (beVal (leadBytes N.size msg)) r.toInt s.toInt) :
    ∃ w : ℤ, s.toInt * w ≡ 1 [ZMOD N] ∧ ∃ x y h, (beVal (leadBytes N.size msg) * w) • G + (r.toInt * w) • Q = (.some x y h : C.Pt P) ∧
      x.val / N < 2 ∧
      ∀ (recid : BitVec 64) (v : Bool), recid.toNat = 2 * (x.val / N) + y.val % 2 →
        ∃ q, ecdsaRecover cap C msg r s recid v = .ok q ∧ q.Rep C Q := by
  obtain ⟨h0, r1, r2, s1, s2, w, hw, x, y, h, e1, e2, hlt⟩ := hval
  refine ⟨w, hw, x, y, h, by rw [← e1, zsmul_emod D.ord, zsmul_emod hQN], ?_, ?_⟩
  · exact Nat.div_lt_of_lt_mul (by omega)
  intro recid v hrec
  have hRN : (N : ℤ) • (.some x y h : C.Pt P) = 0 := by
    rw [← e1, zsmul_add, smul_comm, D.ord, zsmul_zero, smul_comm, hQN, zsmul_zero, zero_add]
  have hodd : N % 2 = 1 := by
    rcases D.np.eq_two_or_odd with h2 | h2
    · omega
    · exact h2
  have hlt : x.val / N < 2 := Nat.div_lt_of_lt_mul (by omega)
  have hnon : IsNonce N r.toInt recid.toNat (.some x y h : C.Pt P) := by
    refine ⟨x, y, h, rfl, ?_, y_ne_zero hodd hRN, by omega⟩
    have hq : recid.toNat / 2 = x.val / N := by omega
    rw [hq, ← e2]
    have := Int.emod_add_mul_ediv (x.val : ℤ) N
    push_cast
    rw [mul_comm ((x.val : ℤ) / N)]; omega
  obtain ⟨q, e, hq⟩ := ecdsaRecover_spec D hNP msg (lead_le D.np.pos _ hm) cr cs ⟨r1, r2⟩ ⟨s1, s2⟩ (k := recid) (by omega) v
  refine ⟨q, e, ?_⟩
  rcases hq with ⟨-, hq⟩ | ⟨R, u, hn, -, hu, hq⟩
  · exact absurd hRN (hq _ hnon).2
  · rw [hn.unique D.K hnon, key_of_valid D.ord hQN hw hu e1.symm] at hq
    exact hq

/-- C45, the exact law for all messages and `n ≤ p`: from a valid signature and the recovery number of its nonce point
`ecdsa_recover` returns the public key when `e ≤ 2n`, and otherwise the public key plus `e r⁻¹ G`. -/
theorem C45_exact (D : AnyDomain N cap C G) (hN2 : 2 < N) (hNP : N ≤ P) (msg : List Byte) (r s : Big)
    (cr : r.Canon) (cs : s.Canon) (Q : C.Pt P) (hQN : (N : ℤ) • Q = 0)
    (hval : EcdsaValidSmall N G Q (beVal (leadBytes N.size msg)) r.toInt s.toInt) :
    ∃ w : ℤ, s.toInt * w ≡ 1 [ZMOD N] ∧ ∃ x y h, (beVal (leadBytes N.size msg) * w) • G + (r.toInt * w) • Q = (.some x y h : C.Pt P) ∧
      x.val / N < 2 ∧ ∃ u : ℤ, r.toInt * u ≡ 1 [ZMOD N] ∧
      ∀ (recid : BitVec 64) (v : Bool), recid.toNat = 2 * (x.val / N) + y.val % 2 →
        ∃ q, ecdsaRecover cap C msg r s recid v = .ok q ∧
          q.Rep C (if beVal (leadBytes N.size msg) ≤ 2 * N then Q else Q + (beVal (leadBytes N.size msg) * u) • G) := by
  obtain ⟨h0, r1, r2, s1, s2, w, hw, x, y, h, e1, e2, hlt⟩ := hval
  obtain ⟨u, hu⟩ := exists_inv D.np r1 r2
  refine ⟨w, hw, x, y, h, by rw [← e1, zsmul_emod D.ord, zsmul_emod hQN], ?_, u, hu, ?_⟩
  · exact Nat.div_lt_of_lt_mul (by omega)
  intro recid v hrec
  have hRN : (N : ℤ) • (.some x y h : C.Pt P) = 0 := by
    rw [← e1, zsmul_add, smul_comm, D.ord, zsmul_zero, smul_comm, hQN, zsmul_zero, zero_add]
  have hodd : N % 2 = 1 := by
    rcases D.np.eq_two_or_odd with h2 | h2
    · omega
    · exact h2
  have hlt : x.val / N < 2 := Nat.div_lt_of_lt_mul (by omega)
  have hnon : IsNonce N r.toInt recid.toNat (.some x y h : C.Pt P) := by
    refine ⟨x, y, h, rfl, ?_, y_ne_zero hodd hRN, by omega⟩
    have hq : recid.toNat / 2 = x.val / N := by omega
    rw [hq, ← e2]
    have := Int.emod_add_mul_ediv (x.val : ℤ) N
    push_cast
    rw [mul_comm ((x.val : ℤ) / N)]; omega
  obtain ⟨q, e, hq⟩ := ecdsaRecover_exact D hNP msg cr cs ⟨r1, r2⟩ ⟨s1, s2⟩ (k := recid) (by omega) v
  refine ⟨q, e, ?_⟩
  rcases hq with ⟨-, hq⟩ | ⟨R, u', hn, -, hu', hq⟩
  · exact absurd hRN (hq _ hnon).2
  · rw [hn.unique D.K hnon] at hq
    have hk := key_of_valid D.ord hQN hw hu' e1.symm
    split at hq
    · rename_i hle
      rw [if_pos hle, ← hk]; exact hq
    · rename_i hle
      rw [if_neg hle]
      convert hq using 1
      rw [← hk, add_right_comm, zsmul_emod D.ord, ← add_zsmul, zero_zsmul, ← zero_zsmul G]
      congr 1
      apply zsmul_congr D.ord
      have huu : u ≡ u' [ZMOD N] := by
        calc u = u * 1 := (mul_one _).symm
          _ ≡ u * (r.toInt * u') [ZMOD N] := (hu'.symm).mul_left _
          _ = (r.toInt * u) * u' := by ring
          _ ≡ 1 * u' [ZMOD N] := hu.mul_right _
          _ = u' := one_mul _
      calc -(beVal (leadBytes N.size msg) : ℤ) * u' + beVal (leadBytes N.size msg) * u
          ≡ -(beVal (leadBytes N.size msg) : ℤ) * u' + beVal (leadBytes N.size msg) * u' [ZMOD N] := (huu.mul_left _).add_left _
        _ = 0 := by ring

/-- C45 is violated when e > 2n, also for n < p: on the curve of cofactor 2, with n = 7, the signature (4,3) of the message
[0xfe] is accepted for the key (5,7), but (4,15) is recovered. -/
theorem C45_wrong :
    let pt := fun x y : BitVec 32 => (⟨some exCof, ⟨ofInt32 x, some (ofInt32 17)⟩, ⟨ofInt32 y, some (ofInt32 17)⟩⟩ : APt)
    AnyDomain 7 (some 2) exCof GCof ∧ exCof.g.mul (some 2) (ofInt32 2) = .ok (pt 5 7) ∧
    ecdsaVerify (some 2) (pt 5 7) [0xfe] (ofInt32 4) (ofInt32 3) = .ok true ∧
    ecdsaRecover (some 2) exCof [0xfe] (ofInt32 4) (ofInt32 3) 0 true = .ok (pt 4 15) :=
  ⟨exCof_dom, by decide +kernel, by decide +kernel, by decide +kernel⟩

/-! The signature of `C45_wrong` meets the hypotheses of `C45_exact`. -/
example : ∃ Q : exCof.Pt 17, (7 : ℤ) • Q = 0 ∧ EcdsaValidSmall 7 GCof Q (beVal (leadBytes (Nat.size 7) [0xfe])) (ofInt32 4).toInt (ofInt32 3).toInt := by
  obtain ⟨r, e, hr⟩ := APt.mul_spec exCof_ok GCof_rep (canon1 2)
  rw [C45_wrong.2.1] at e; cases e
  refine ⟨(ofInt32 2).toInt • GCof, by rw [smul_comm, GCof_ord, zsmul_zero], ?_⟩
  obtain ⟨b, e, hb⟩ := C40_exact exCof_dom _ _ hr [0xfe] (ofInt32 4) (ofInt32 3) (canon1 _) (canon1 _)
  have h := C45_wrong.2.2.1
  rw [e] at h
  cases h
  exact hb.1 rfl

/-- C67, recovery on the named curves: a signature is valid for a key exactly when one of the four recovery numbers gives the key. -/
theorem C67_named_recover_iff (c : Named) (wasm : Bool) (addr : Nat) :
    ∃ (P N : ℕ) (_ : Fact P.Prime) (C : Curve) (G : C.Pt P), c.params.build wasm addr = .ok C ∧ Domain N (c.params.cap wasm) C G ∧
      ∀ (msg : List Byte) (r s : Big) (Q : C.Pt P) (v : Bool), r.Canon → s.Canon → (c = .secp521r1 → msg.length ≤ 65) → Q ≠ 0 →
        (EcdsaValid N G Q (fipsE N.size msg) r.toInt s.toInt ↔
          ∃ recid : BitVec 64, recid.toNat < 4 ∧ ∃ q, ecdsaRecover (c.params.cap wasm) C msg r s recid v = .ok q ∧ q.Rep C Q) := by
  obtain ⟨P, N, hP, C, G, e, D, ho, hlt, hs⟩ := named_domain c wasm addr
  refine ⟨P, N, hP, C, G, e, D, fun msg r s Q v cr cs hm hQ0 => ?_⟩
  have hm' : N.size % 8 = 0 ∨ 8 * msg.length ≤ N.size := by
    rw [hs]
    cases c
    case secp521r1 => right; have := hm rfl; show 8 * _ ≤ 521; omega
    all_goals left; rfl
  rw [← lead_eq_fips _ _ hm']
  constructor
  · intro hval
    obtain ⟨w, -, x, y, h, -, h2, hall⟩ := C45_complete_partial D.toAnyDomain (by have := D.pn; have := D.P8; omega) hlt.le msg hm' r s cr cs Q (ho Q) (hval.small D.pn)
    refine ⟨BitVec.ofNat 64 (2 * (x.val / N) + y.val % 2), ?_, hall _ v ?_⟩
    · rw [BitVec.toNat_ofNat, Nat.mod_eq_of_lt (by omega)]; omega
    · rw [BitVec.toNat_ofNat, Nat.mod_eq_of_lt (by omega)]
  · rintro ⟨recid, -, q, e, hq⟩
    obtain ⟨q', e', h⟩ := C44_sound_partial D.toAnyDomain hlt.le msg hm' r s cr cs recid v (Or.inr ho)
    rw [e] at e'; cases e'
    rcases h with h | ⟨Q', hq', hval, -⟩
    · exact absurd ((hq.zero_iff D.K).1 h) hQ0
    · rw [hq.unique D.K hq']; exact hval.valid

example : Domain 211 (some 2) ex229 G229 ∧ (211 : ℤ) • Q229 = 0 ∧ EcdsaValid 211 G229 Q229 (beVal (leadBytes (Nat.size 211) [0xab])) 17 119 ∧
    ecdsaRecover (some 2) ex229 [0xab] (ofInt32 17) (ofInt32 119) 2 false = .ok (pt229 187 94) ∧
    ecdsaRecover (some 2) ex229 [0xab] (ofInt32 17) (ofInt32 92) 3 true = .ok (pt229 187 94) := by
  refine ⟨ex229_dom, Q229_ord, ?_, by decide +kernel, by decide +kernel⟩
  obtain ⟨b, e, h⟩ := C40_accepts_iff_partial ex229_dom _ _ Q229_rep [0xab] (ofInt32 17) (ofInt32 119) (canon1 _) (canon1 _)
  have : ecdsaVerify (some 2) (pt229 187 94) [0xab] (ofInt32 17) (ofInt32 119) = .ok true := by decide +kernel
  rw [this] at e; cases e
  exact h.1 rfl

/-! ## C64 -/

/-- C64: `(r, n - s)` is accepted exactly when `(r, s)` is, for keys annihilated by n. -/
theorem C64_malleable (D : Domain N cap C G) (q : APt) (Q : C.Pt P) (hq : q.Rep C Q) (hQN : (N : ℤ) • Q = 0) (msg : List Byte) (r s s' : Big)
    (cr : r.Canon) (cs : s.Canon) (cs' : s'.Canon) (hs : s'.toInt = N - s.toInt) : ecdsaVerify cap q msg r s' = ecdsaVerify cap q msg r s := by
  obtain ⟨b, e, h⟩ := ecdsaVerify_spec D hq msg cr cs
  obtain ⟨b', e', h'⟩ := ecdsaVerify_spec D hq msg cr cs'
  rw [e, e']
  have : b' = true ↔ b = true := by
    rw [h, h', hs]
    constructor
    · intro hv
      have := valid_symm D.ord hQN hv
      rwa [sub_sub_cancel] at this
    · exact valid_symm D.ord hQN
  cases b <;> cases b' <;> simp_all

example : Domain 211 (some 2) ex229 G229 ∧ (pt229 187 94).Rep ex229 Q229 ∧ (211 : ℤ) • Q229 = 0 ∧ (73 : ℤ) = 211 - 138 ∧
    ecdsaVerify (some 2) (pt229 187 94) [0xab] (ofInt32 134) (ofInt32 138) = .ok true ∧
    ecdsaVerify (some 2) (pt229 187 94) [0xab] (ofInt32 134) (ofInt32 73) = .ok true :=
  ⟨ex229_dom, Q229_rep, Q229_ord, by decide, by decide +kernel, by decide +kernel⟩

end
end Ack.Props
