import Verif.Props.EcdsaBind
/-!
# C107: key recovery names exactly the keys that accept a signature

For every signature, message and key: the key accepts the signature exactly when `ecdsa_recover` returns it, and then it does so for
one recovery number only.
-/
namespace Ack.Props
open Ack Ack.Big WeierstrassCurve

section
variable {P N : ℕ} [Fact P.Prime] {cap : Cap} {C : Curve} {G : C.Pt P}

theorem nonce_number {r : ℤ} {k k' : ℕ} {R : C.Pt P} (hN : 0 < N) (h : IsNonce N r k R) (h' : IsNonce N r k' R) : k = k' := by
  obtain ⟨X, Y, hn, rfl, x1, -, y1⟩ := h
  obtain ⟨X', Y', hn', e, x1', -, y1'⟩ := h'
  obtain ⟨rfl, rfl⟩ := some_eq_iff.1 e
  have : ((k / 2 : ℕ) : ℤ) * N = (k' / 2 : ℕ) * N := by omega
  have := mul_right_cancel₀ (by omega : (N : ℤ) ≠ 0) this
  omega

theorem nonce_of_key (D : AnyDomain N cap C G) {R R' : C.Pt P} {e r s w w' : ℤ} (hs : 1 ≤ s ∧ s < N) (hR : (N : ℤ) • R = 0) (hR' : (N : ℤ) • R' = 0)
    (hw : r * w ≡ 1 [ZMOD N]) (hw' : r * w' ≡ 1 [ZMOD N]) (p : Prop) [Decidable p]
    (h : (if p then -e * w % N else 0 : ℤ) • G + (s * w % N) • R = (if p then -e * w' % N else 0 : ℤ) • G + (s * w' % N) • R') : R = R' := by
  have hww : w ≡ w' [ZMOD N] := by
    calc w = w * 1 := (mul_one _).symm
      _ ≡ w * (r * w') [ZMOD N] := (hw'.symm).mul_left _
      _ = (r * w) * w' := by ring
      _ ≡ 1 * w' [ZMOD N] := hw.mul_right _
      _ = w' := one_mul _
  have e1 : -e * w % N = -e * w' % N := hww.mul_left _
  have e2 : s * w % N = s * w' % N := hww.mul_left _
  rw [e1, e2] at h
  have h := add_left_cancel h
  rw [zsmul_emod hR, zsmul_emod hR'] at h
  by_contra hne
  have h1 : (s * w') • (R - R') = 0 := by rw [zsmul_sub, h, sub_self]
  have h2 : (N : ℤ) • (R - R') = 0 := by rw [zsmul_sub, hR, hR', sub_self]
  have h3 := inv_cancel_dvd D.np hw' (zsmul_zero_dvd D.np (sub_ne_zero.2 hne) h2 h1)
  have := Int.le_of_dvd (by omega) h3
  omega

/-- **C107, different recovery numbers give different keys**, for every message: keys that `ecdsa_recover` returns for one signature and
message with two recovery numbers are different points.  `n ≤ p`; the points of the nonces have order `n`, which `verify` checks and
which holds for cofactor 1. -/
theorem C107_distinct (D : AnyDomain N cap C G) (hNP : N ≤ P) (msg : List Byte) (r s : Big) (cr : r.Canon) (cs : s.Canon)
    (k k' : BitVec 64) (v v' : Bool) (hv : v = true ∧ v' = true ∨ ∀ R : C.Pt P, (N : ℤ) • R = 0) (q q' : APt) (Q : C.Pt P)
    (h : ecdsaRecover cap C msg r s k v = .ok q) (h' : ecdsaRecover cap C msg r s k' v' = .ok q') (hq : q.Rep C Q) (hq' : q'.Rep C Q)
    (h0 : Q ≠ 0) : k = k' := by
  have id : ∀ {a : APt}, a = APt.identity → a.Rep C Q → False := by
    rintro a rfl ha
    exact h0 ((ha.zero_iff D.K).1 rfl)
  have rng : ∀ {k : BitVec 64} {v : Bool} {q : APt}, ecdsaRecover cap C msg r s k v = .ok q → q.Rep C Q →
      (1 ≤ r.toInt ∧ r.toInt < N) ∧ (1 ≤ s.toInt ∧ s.toInt < N) ∧ k.toNat < 4 := by
    intro k v q h hq
    by_contra hn
    rw [C44_range D msg r s cr cs k v hn] at h
    cases h
    exact id rfl hq
  obtain ⟨hr, hs, hk⟩ := rng h hq
  obtain ⟨-, -, hk'⟩ := rng h' hq'
  obtain ⟨a, ea, ha⟩ := C44_exact D hNP msg r s cr cs hr hs k hk v
  obtain ⟨b, eb, hb⟩ := C44_exact D hNP msg r s cr cs hr hs k' hk' v'
  rw [h] at ea; cases ea
  rw [h'] at eb; cases eb
  rcases ha with ⟨e, -⟩ | ⟨R, w, hn, hv1, hw, hq1⟩
  · exact (id e hq).elim
  rcases hb with ⟨e, -⟩ | ⟨R', w', hn', hv1', hw', hq1'⟩
  · exact (id e hq').elim
  have hR : (N : ℤ) • R = 0 := hv.elim (fun h => hv1 h.1) (fun h => h R)
  have hR' : (N : ℤ) • R' = 0 := hv.elim (fun h => hv1' h.2) (fun h => h R')
  have heq := (hq1.unique D.K hq).trans (hq1'.unique D.K hq').symm
  have := nonce_of_key D hs hR hR' hw hw' _ heq
  subst this
  exact BitVec.eq_of_toNat_eq (nonce_number D.np.pos hn hn')

/-- **C107, exactly the recovered keys accept, each for one recovery number.**  The conditions on domain and
message are those of C44 and C45 (`C44_negative_wrong`, `C44_unreduced_wrong` without them). -/
theorem C107_exactly (D : AnyDomain N cap C G) (hN2 : 2 < N) (hNP : N ≤ P) (msg : List Byte) (hm : N.size % 8 = 0 ∨ 8 * msg.length ≤ N.size)
    (r s : Big) (cr : r.Canon) (cs : s.Canon) (v : Bool) (hv : v = true ∨ ∀ R : C.Pt P, (N : ℤ) • R = 0) (q : APt) (Q : C.Pt P) (hq : q.Rep C Q)
    (hQN : (N : ℤ) • Q = 0) (h0 : Q ≠ 0) :
    ecdsaVerify cap q msg r s = .ok true ↔ ∃! k : BitVec 64, ∃ q', ecdsaRecover cap C msg r s k v = .ok q' ∧ q'.Rep C Q := by
  obtain ⟨b, e, hb⟩ := ecdsaVerify_exact D hq msg cr cs
  rw [e, Except.ok.injEq, hb]
  constructor
  · intro hval
    obtain ⟨w, -, x, y, h, -, hlt, hrec⟩ := C45_complete_partial D hN2 hNP msg hm r s cr cs Q hQN hval
    have hk : (BitVec.ofNat 64 (2 * (x.val / N) + y.val % 2)).toNat = 2 * (x.val / N) + y.val % 2 := by
      rw [BitVec.toNat_ofNat, Nat.mod_eq_of_lt]
      have : 2 * (x.val / N) + y.val % 2 < 4 := by omega
      omega
    obtain ⟨q', e', hq'⟩ := hrec _ v hk
    refine ⟨_, ⟨q', e', hq'⟩, ?_⟩
    rintro k ⟨q'', e'', hq''⟩
    exact C107_distinct D hNP msg r s cr cs _ _ v v (hv.imp_left fun h => ⟨h, h⟩) q'' q' Q e'' e' hq'' hq' h0
  · rintro ⟨k, ⟨q', e', hq'⟩, -⟩
    obtain ⟨a, ea, ha⟩ := C44_sound_partial D hNP msg hm r s cr cs k v hv
    rw [e'] at ea; cases ea
    rcases ha with ha | ⟨Q', hQ', hval, -⟩
    · exact absurd ((hq'.zero_iff D.K).1 ha) h0
    · rw [hQ'.unique D.K hq'] at hval
      exact hval

/-- **C107 on the named curves**, with or without `verify`: for every key on the curve, message (of at most 65 bytes for secp521r1) and
signature. -/
theorem C107_named (c : Named) (wasm : Bool) (addr : Nat) :
    ∃ (P N : ℕ) (_ : Fact P.Prime) (C : Curve) (G : C.Pt P), c.params.build wasm addr = .ok C ∧ AnyDomain N (c.params.cap wasm) C G ∧
      ∀ (msg : List Byte) (r s : Big) (v : Bool) (q : APt) (Q : C.Pt P), r.Canon → s.Canon → (c = .secp521r1 → msg.length ≤ 65) → q.Rep C Q → Q ≠ 0 →
        (ecdsaVerify (c.params.cap wasm) q msg r s = .ok true ↔
          ∃! k : BitVec 64, ∃ q', ecdsaRecover (c.params.cap wasm) C msg r s k v = .ok q' ∧ q'.Rep C Q) := by
  obtain ⟨P, N, hP, C, G, e, D, ho, hlt, hs⟩ := named_domain c wasm addr
  refine ⟨P, N, hP, C, G, e, D.toAnyDomain, fun msg r s v q Q cr cs hm hq h0 => ?_⟩
  have hm' : N.size % 8 = 0 ∨ 8 * msg.length ≤ N.size := by
    rw [hs]
    cases c
    case secp521r1 => right; have := hm rfl; show 8 * _ ≤ 521; omega
    all_goals left; rfl
  have hN2 : 2 < N := by
    by_contra hn
    have h1 : N.size ≤ 2 := Nat.size_le.2 (by omega)
    rw [hs] at h1
    revert h1
    cases c <;> decide
  exact C107_exactly D.toAnyDomain hN2 hlt.le msg hm' r s cr cs v (Or.inr ho) q Q hq (ho Q) h0

/-- The signature (9, 23) of C102: its four keys, one for each recovery number; and (134, 138) with two. -/
example : Domain 211 (some 2) ex229 G229 ∧ 211 ≤ 229 ∧ Nat.size 211 % 8 = 0 ∧ (211 : ℤ) • Q229 = 0 ∧ (pt229 187 94).Rep ex229 Q229 ∧
    ((List.range 4).map fun k => ecdsaRecover (some 2) ex229 [0xab] (ofInt32 9) (ofInt32 23) (BitVec.ofNat 64 k) true) =
      [.ok (pt229 187 94), .ok (pt229 156 29), .ok (pt229 57 192), .ok (pt229 168 205)] ∧
    ((List.range 4).map fun k => ecdsaRecover (some 2) ex229 [0xab] (ofInt32 134) (ofInt32 138) (BitVec.ofNat 64 k) true) =
      [.ok (pt229 151 195), .ok (pt229 187 94), .ok APt.identity, .ok APt.identity] :=
  ⟨ex229_dom, by decide, by decide, Q229_ord, Q229_rep, by decide +kernel, by decide +kernel⟩

end
end Ack.Props
