import Verif.Proof.Certs.BrainpoolP256r1
import Verif.Proof.Certs.BrainpoolP320r1
import Verif.Proof.Certs.BrainpoolP384r1
import Verif.Proof.Certs.BrainpoolP512r1
import Verif.Proof.Certs.Secp256k1
import Verif.Proof.Certs.Secp256r1
import Verif.Proof.Certs.Secp384r1
import Verif.Proof.Certs.Secp521r1
import Verif.Spec.Curves
/-!
# Properties of the named curves (C38)
-/
namespace Ack.Props
open Ack Ack.Big WeierstrassCurve

theorem certs (c : Named) : ∃ P A B X Y N, NumCert c.params P A B X Y N := by
  cases c
  · exact ⟨_, _, _, _, _, _, Certs.brainpoolP256r1⟩
  · exact ⟨_, _, _, _, _, _, Certs.brainpoolP320r1⟩
  · exact ⟨_, _, _, _, _, _, Certs.brainpoolP384r1⟩
  · exact ⟨_, _, _, _, _, _, Certs.brainpoolP512r1⟩
  · exact ⟨_, _, _, _, _, _, Certs.secp256k1⟩
  · exact ⟨_, _, _, _, _, _, Certs.secp256r1⟩
  · exact ⟨_, _, _, _, _, _, Certs.secp384r1⟩
  · exact ⟨_, _, _, _, _, _, Certs.secp521r1⟩

/-- C38: every named curve, in native and wasm builds, is constructed without abort from its constants `P`, `A`, `B`, `X`,
`Y`, `N` (the numbers the texts in the source denote).  `P` and `N` are primes of the stated bit size, `A` and `B` lie in
[0, P) and `B` is not zero, the curve is not singular, `G = (X, Y)` is a point other than the identity, `N·G` is the
identity, the group has exactly `N` elements (so the cofactor 1 is right and every point has order `N` or 1), `P < 2N`, and
`verify()` returns true. -/
theorem C38_named_curves (c : Named) (wasm : Bool) (addr : Nat) :
    ∃ (P A B X Y N : ℕ) (_ : Fact P.Prime) (C : Curve) (G : C.Pt P),
      hexNum (chars c.params.p) = some P ∧ hexNum (chars c.params.a) = some A ∧ hexNum (chars c.params.b) = some B ∧
      hexNum (chars c.params.gx) = some X ∧ hexNum (chars c.params.gy) = some Y ∧ hexNum (chars c.params.n) = some N ∧
      c.params.build wasm addr = .ok C ∧ N.Prime ∧
      C.p.toInt = P ∧ C.a.toInt = A ∧ C.b.toInt = B ∧ C.gx.v.toInt = X ∧ C.gy.v.toInt = Y ∧ C.n.toInt = N ∧ C.h = 1 ∧
      2 ^ (c.params.bits - 1) ≤ P ∧ P < 2 ^ c.params.bits ∧ 2 ^ (c.params.bits - 1) ≤ N ∧ N < 2 ^ c.params.bits ∧
      A < P ∧ 0 < B ∧ B < P ∧ P < 2 * N ∧
      CurveOk P (c.params.cap wasm) C ∧ 8 < P ∧
      (Y : ZMod P) ^ 2 = (X : ZMod P) ^ 3 + A * X + B ∧ 4 * (A : ZMod P) ^ 3 + 27 * (B : ZMod P) ^ 2 ≠ 0 ∧
      C.g.Rep C G ∧ G ≠ 0 ∧ (N : ℤ) • G = 0 ∧ Nat.card (C.Pt P) = N ∧ C.verify (c.params.cap wasm) = .ok true := by
  obtain ⟨P, A, B, X, Y, N, K⟩ := certs c
  haveI hP : Fact P.Prime := ⟨ecpp K.np K.run⟩
  obtain ⟨C, G, h1, h2, h3, h4, h5, h6, h7, h8, h9, h10, h11, h12, h13, h14, h15, h16, h17, h18, h19⟩ := named_spec K wasm addr
  obtain ⟨n1, n2, n3, n4, n5, n6, n7, n8, n9, n10, n11, n12, n13, n14, n15⟩ := K.num
  obtain ⟨-, hd, hon, -⟩ := ecppCheck_spec K.run (dvd_refl P)
  exact ⟨P, A, B, X, Y, N, hP, C, G, K.hp.1, K.ha.1, K.hb.1, K.hgx.1, K.hgy.1, K.hn.1, h1, K.np, h3, h4, h5, h6, h7, h8, h9, n11, n10, n13, n12,
    n2, n3, n4, n7, h13, n1, hon, hd, h14, h15, h16, h17, h19⟩

/-- C38: the group of a named curve has no proper subgroup: every point other than the identity generates it, and `n`
annihilates every point. -/
theorem C38_no_small_subgroup (c : Named) (wasm : Bool) (addr : Nat) :
    ∃ (P : ℕ) (_ : Fact P.Prime) (C : Curve), c.params.build wasm addr = .ok C ∧ CurveOk P (c.params.cap wasm) C ∧
      ∀ Q : C.Pt P, C.n.toInt • Q = 0 ∧ (Q ≠ 0 → ∀ k : ℤ, k • Q = 0 ↔ C.n.toInt ∣ k) := by
  obtain ⟨P, A, B, X, Y, N, K⟩ := certs c
  haveI hP : Fact P.Prime := ⟨ecpp K.np K.run⟩
  obtain ⟨C, G, h1, -, -, -, -, -, -, h8, -, -, -, -, h13, -, -, -, h17, -, -⟩ := named_spec K wasm addr
  refine ⟨P, hP, C, h1, h13, fun Q => ?_⟩
  have hz : N • Q = 0 := by
    have := card_nsmul_eq_zero' (G := C.Pt P) (x := Q)
    rwa [h17] at this
  rw [h8]
  refine ⟨by rw [natCast_zsmul]; exact hz, fun hQ k => ?_⟩
  haveI := Fact.mk K.np
  rw [← addOrderOf_eq_prime hz hQ, addOrderOf_dvd_iff_zsmul_eq_zero]

/-- C38: the field primes and coefficients of the SECG curves are those of the standard (SEC 2 sections 2.4-2.6). -/
theorem C38_secg_values :
    hexNum (chars Named.secp256k1.params.p) = some (2 ^ 256 - 2 ^ 32 - 977) ∧
    hexNum (chars Named.secp256k1.params.a) = some 0 ∧ hexNum (chars Named.secp256k1.params.b) = some 7 ∧
    hexNum (chars Named.secp256r1.params.p) = some (2 ^ 256 - 2 ^ 224 + 2 ^ 192 + 2 ^ 96 - 1) ∧
    hexNum (chars Named.secp256r1.params.a) = some (2 ^ 256 - 2 ^ 224 + 2 ^ 192 + 2 ^ 96 - 1 - 3) ∧
    hexNum (chars Named.secp384r1.params.p) = some (2 ^ 384 - 2 ^ 128 - 2 ^ 96 + 2 ^ 32 - 1) ∧
    hexNum (chars Named.secp384r1.params.a) = some (2 ^ 384 - 2 ^ 128 - 2 ^ 96 + 2 ^ 32 - 1 - 3) ∧
    hexNum (chars Named.secp521r1.params.p) = some (2 ^ 521 - 1) ∧
    hexNum (chars Named.secp521r1.params.a) = some (2 ^ 521 - 1 - 3) := by decide +kernel

/-- The standard that defines the curve of this name. -/
def stdCurve : Named → Spec.StdCurve
  | .brainpoolP256r1 => Spec.brainpoolP256r1
  | .brainpoolP320r1 => Spec.brainpoolP320r1
  | .brainpoolP384r1 => Spec.brainpoolP384r1
  | .brainpoolP512r1 => Spec.brainpoolP512r1
  | .secp256k1 => Spec.secp256k1
  | .secp256r1 => Spec.secp256r1
  | .secp384r1 => Spec.secp384r1
  | .secp521r1 => Spec.secp521r1

/-- A curve object has the domain parameters of a standard. -/
structure IsStd (C : Curve) (S : Spec.StdCurve) : Prop where
  p : C.p.toInt = S.p
  a : C.a.toInt = S.a
  b : C.b.toInt = S.b
  gx : C.gx.v.toInt = S.gx
  gy : C.gy.v.toInt = S.gy
  n : C.n.toInt = S.n
  h : C.h.toNat = S.h

theorem NumCert.std {q : CurveParams} {P A B X Y N : ℕ} (K : NumCert q P A B X Y N) (S : Spec.StdCurve)
    (e : [P, A, B, X, Y, N] = [S.p, S.a, S.b, S.gx, S.gy, S.n]) : NumCert q S.p S.a S.b S.gx S.gy S.n := by
  simp only [List.cons.injEq, and_true] at e
  obtain ⟨e1, e2, e3, e4, e5, e6⟩ := e
  rw [← e1, ← e2, ← e3, ← e4, ← e5, ← e6]
  exact K

/-- The texts of a curve in the source denote the numbers of the standard. -/
theorem std_cert (c : Named) :
    NumCert c.params (stdCurve c).p (stdCurve c).a (stdCurve c).b (stdCurve c).gx (stdCurve c).gy (stdCurve c).n := by
  cases c
  · exact NumCert.std Certs.brainpoolP256r1 Spec.brainpoolP256r1 (by decide +kernel)
  · exact NumCert.std Certs.brainpoolP320r1 Spec.brainpoolP320r1 (by decide +kernel)
  · exact NumCert.std Certs.brainpoolP384r1 Spec.brainpoolP384r1 (by decide +kernel)
  · exact NumCert.std Certs.brainpoolP512r1 Spec.brainpoolP512r1 (by decide +kernel)
  · exact NumCert.std Certs.secp256k1 Spec.secp256k1 (by decide +kernel)
  · exact NumCert.std Certs.secp256r1 Spec.secp256r1 (by decide +kernel)
  · exact NumCert.std Certs.secp384r1 Spec.secp384r1 (by decide +kernel)
  · exact NumCert.std Certs.secp521r1 Spec.secp521r1 (by decide +kernel)

theorem std_bits (c : Named) : c.params.bits = (stdCurve c).bits ∧ (stdCurve c).h = 1 := by
  cases c <;> exact ⟨rfl, rfl⟩

/-- C38: every named curve is the curve of that name in SEC 2 or RFC 5639: all seven parameters agree, in every build. -/
theorem C38_standard (c : Named) (wasm : Bool) (addr : Nat) :
    ∃ C, c.params.build wasm addr = .ok C ∧ IsStd C (stdCurve c) ∧ c.params.bits = (stdCurve c).bits := by
  have K := std_cert c
  haveI hP : Fact (stdCurve c).p.Prime := ⟨ecpp K.np K.run⟩
  obtain ⟨C, G, h1, h2, h3, h4, h5, h6, h7, h8, h9, -⟩ := named_spec K wasm addr
  exact ⟨C, h1, ⟨h3, h4, h5, h6, h7, h8, by rw [h9, (std_bits c).2]; rfl⟩, (std_bits c).1⟩

end Ack.Props
