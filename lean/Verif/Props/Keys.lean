import Verif.Proof.Keys
import Verif.Props.Ecdsa
/-!
# C104: private keys and public keys correspond one to one

`generate_point` maps the numbers from 1 to n - 1 to valid public keys, different numbers to different points and to
different encodings; on the named curves every point but the identity is the public key of exactly one number.
-/
namespace Ack.Props
open Ack Ack.Big WeierstrassCurve

section
variable {P N : ℕ} [Fact P.Prime] {cap : Cap} {C : Curve} {G : C.Pt P}

theorem generated_key (D : AnyDomain N cap C G) {k : Big} (ck : k.Canon) {q : APt} (h : C.generateA cap k = .ok q) :
    0 < k.toInt ∧ k.toInt < N ∧ q.Rep C (k.toInt • G) ∧ k.toInt • G ≠ 0 := by
  have hN : C.n.toInt = N := D.Mn.eq
  have hg := C39_generate D.K k ck D.Mn.canon G D.g
  by_cases hr : 0 < k.toInt ∧ k.toInt < C.n.toInt
  · obtain ⟨⟨r, e, hq⟩, -⟩ := hg.2 hr
    rw [h] at e; cases e
    rw [hN] at hr
    refine ⟨hr.1, hr.2, hq, fun h0 => ?_⟩
    have := Int.le_of_dvd hr.1 (zsmul_zero_dvd D.np D.g0 D.ord h0)
    omega
  · rw [(hg.1 hr).1] at h; cases h

/-- **C104, valid.**  Whatever `generate_point` returns for a number is a valid public key of order `n`, not the identity. -/
theorem C104_valid (D : AnyDomain N cap C G) (k : Big) (ck : k.Canon) (q : APt) (h : C.generateA cap k = .ok q) :
    q.isIdentity = false ∧ q.isOnCurve cap = .ok true ∧ q.isValid cap = .ok true := by
  obtain ⟨-, -, hq, h0⟩ := generated_key D ck h
  cases hQ : k.toInt • G with
  | zero => exact absurd hQ h0
  | some x y hn =>
    rw [hQ] at hq
    have hid := hq.not_id D.K
    obtain ⟨hc, hx, hy⟩ := hq
    obtain ⟨c, fx, fy⟩ := q
    subst hc
    refine ⟨hid, ?_, ?_⟩
    · obtain ⟨b, e, hb⟩ := APt.isOnCurve_spec D.K rfl hx hy
      rw [e, hb.2 (Or.inr (D.K.ns.1 hn))]
    · obtain ⟨b, e, hb⟩ := APt.isValid_spec D.K D.Mn.canon rfl hx hy
      rw [e, hb.2 ⟨.some x y hn, ⟨rfl, hx, hy⟩, by rintro ⟨⟩, ?_⟩]
      rw [D.Mn.eq, ← hQ, smul_comm, D.ord, zsmul_zero]

/-- **C104, one to one.**  Two numbers whose public keys compare equal, or have an encoding in common (compressed or not),
are equal. -/
theorem C104_inj (D : AnyDomain N cap C G) (hN : 2 < N) (k k' : Big) (ck : k.Canon) (ck' : k'.Canon) (q q' : APt)
    (h : C.generateA cap k = .ok q) (h' : C.generateA cap k' = .ok q')
    (e : q.eq q' = true ∨ ∃ c c', Curve.encode cap q c = Curve.encode cap q' c') : k.toInt = k'.toInt := by
  obtain ⟨k0, k1, hq, h0⟩ := generated_key D ck h
  obtain ⟨k0', k1', hq', h0'⟩ := generated_key D ck' h'
  apply zsmul_inj_range D.np D.g0 D.ord (by omega) k1 (by omega) k1'
  have hy : ∀ a : ℤ, a • G ≠ 0 → ∀ x hn, a • G ≠ (.some x 0 hn : C.Pt P) := by
    intro a ha x hn he
    have h2 : (2 : ℤ) • (a • G) = 0 := by
      rw [he, two_zsmul, add_eq_zero_iff_eq_neg, Affine.Point.neg_some]
      exact some_eq_iff.2 ⟨rfl, by simp [Affine.negY, Curve.W, shortW]⟩
    rw [← mul_zsmul] at h2
    have hd := zsmul_zero_dvd D.np D.g0 D.ord h2
    have hp := Int.prime_iff_natAbs_prime.2 (show (N : ℤ).natAbs.Prime by simpa using D.np)
    rcases hp.dvd_or_dvd hd with h3 | h3
    · have := Int.le_of_dvd (by norm_num) h3
      omega
    · obtain ⟨b, rfl⟩ := h3
      apply ha
      rw [mul_comm, mul_zsmul, D.ord, zsmul_zero]
  rcases e with e | ⟨c, c', e⟩
  · exact (APt.eq_spec D.K hq hq' (fun hi => absurd ((hq.zero_iff D.K).1 hi) h0) (fun hi => absurd ((hq'.zero_iff D.K).1 hi) h0')).1 e
  · exact C36_injective D.K q q' _ _ hq hq' c c' (fun _ => hy _ h0) (fun _ => hy _ h0') e

/-- **C104, onto.**  When `n` annihilates every point, every point but the identity is the public key of some number. -/
theorem C104_onto (D : Domain N cap C G) (h5 : 5 ≤ N) (ho : ∀ Q : C.Pt P, (N : ℤ) • Q = 0) (Q : C.Pt P) (hQ : Q ≠ 0) :
    ∃ k : Big, k.Canon ∧ ∃ q, C.generateA cap k = .ok q ∧ q.Rep C Q := by
  obtain ⟨k, hk⟩ := generated D h5 ho Q
  have hN : (0 : ℤ) < N := by omega
  have e : (k % N) • G = Q := by rw [zsmul_emod D.ord, hk]
  have h1 := Int.emod_nonneg k hN.ne'
  have h2 := Int.emod_lt_of_pos k hN
  obtain ⟨b, cb, hb⟩ : ∃ b : Big, b.Canon ∧ b.toInt = k % N := by
    obtain ⟨b, cb, hb⟩ := exists_big (k % N).toNat
    exact ⟨b, cb, by rw [hb]; exact Int.toNat_of_nonneg h1⟩
  refine ⟨b, cb, ?_⟩
  have hr : 0 < b.toInt ∧ b.toInt < C.n.toInt := by
    rw [D.Mn.eq, hb]
    refine ⟨lt_of_le_of_ne h1 (fun h0 => hQ ?_), h2⟩
    rw [← e, ← h0, zero_zsmul]
  obtain ⟨⟨q, eq, hq⟩, -⟩ := (C39_generate D.K b cb D.Mn.canon G D.g).2 hr
  rw [hb, e] at hq
  exact ⟨q, eq, hq⟩

/-- C104 on the named curves, in native and wasm builds: every point but the identity is the public key of exactly one
number, every number from 1 to n - 1 has a public key, and it is valid. -/
theorem C104_named (c : Named) (wasm : Bool) (addr : Nat) :
    ∃ (P N : ℕ) (_ : Fact P.Prime) (C : Curve) (G : C.Pt P), c.params.build wasm addr = .ok C ∧ AnyDomain N (c.params.cap wasm) C G ∧
      (∀ k : Big, k.Canon → 0 < k.toInt → k.toInt < N → ∃ q, C.generateA (c.params.cap wasm) k = .ok q ∧ q.isValid (c.params.cap wasm) = .ok true) ∧
      (∀ Q : C.Pt P, Q ≠ 0 → ∃ d : ℤ, ∀ k : Big, k.Canon →
        ((∃ q, C.generateA (c.params.cap wasm) k = .ok q ∧ q.Rep C Q) ↔ k.toInt = d)) := by
  obtain ⟨P, N, hP, C, G, e, D, ho, -, hs⟩ := named_domain c wasm addr
  have h5 : 5 ≤ N := by
    have h6 : 192 ≤ N.size := by rw [hs]; cases c <;> decide
    by_contra h7
    have h8 : N.size ≤ 3 := Nat.size_le.2 (by omega)
    omega
  refine ⟨P, N, hP, C, G, e, D.toAnyDomain, fun k ck k0 k1 => ?_, fun Q hQ => ?_⟩
  · obtain ⟨⟨q, eq, hq⟩, -⟩ := (C39_generate D.K k ck D.Mn.canon G D.g).2 ⟨k0, by rw [D.Mn.eq]; exact k1⟩
    exact ⟨q, eq, (C104_valid D.toAnyDomain k ck q eq).2.2⟩
  · obtain ⟨k, ck, q, eq, hq⟩ := C104_onto D h5 ho Q hQ
    obtain ⟨k0, k1, hq', -⟩ := generated_key D.toAnyDomain ck eq
    refine ⟨k.toInt, fun k' ck' => ⟨?_, fun hk => ?_⟩⟩
    · rintro ⟨q', eq', hr⟩
      obtain ⟨k0', k1', hr', -⟩ := generated_key D.toAnyDomain ck' eq'
      apply zsmul_inj_range D.np D.g0 D.ord (by omega) k1' (by omega) k1
      rw [← hr.unique D.K hr', hq.unique D.K hq']
    · obtain ⟨⟨r, er, hr⟩, -⟩ := (C39_generate D.K k' ck' D.Mn.canon G D.g).2 ⟨by omega, by rw [D.Mn.eq]; omega⟩
      refine ⟨r, er, ?_⟩
      rw [hk, ← hq.unique D.K hq'] at hr
      exact hr

/-! On the curve over GF(229) the private key 37 of C40. -/
example : Domain 211 (some 2) ex229 G229 ∧ ex229.generateA (some 2) (ofInt32 37) = .ok (pt229 187 94) ∧
    (pt229 187 94).isValid (some 2) = .ok true ∧ ex229.generateA (some 2) (ofInt32 174) = .ok (pt229 187 135) ∧
    (pt229 187 94).eq (pt229 187 135) = false ∧ Curve.encode (some 2) (pt229 187 94) true = [2, 187] ∧
    Curve.encode (some 2) (pt229 187 135) true = [3, 187] :=
  ⟨ex229_dom, by decide +kernel, by decide +kernel, by decide +kernel, by decide, by decide +kernel, by decide +kernel⟩

end
end Ack.Props
