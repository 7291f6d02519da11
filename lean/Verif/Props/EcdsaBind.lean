import Verif.Proof.EcdsaBind
import Verif.Props.Ecdsa
/-!
# C102: what an accepted ECDSA signature says

For a key and a message, `r` leaves only `s` and `n - s` (C102_s), or four values when both `r` and `r + n` are below `p`
(C102_s_count).  A signature is accepted under one key for at most four digests (as numbers modulo `n`; two unless
`r + n < p`), and for one digest under at most four keys.  The bounds are reached.
-/
namespace Ack.Props
open Ack Ack.Big WeierstrassCurve

section
variable {P N : ℕ} [Fact P.Prime] {cap : Cap} {C : Curve} {G : C.Pt P}

theorem accepted (D : AnyDomain N cap C G) {q : APt} {Q : C.Pt P} (hq : q.Rep C Q) {msg : List Byte} {r s : Big} (cr : r.Canon)
    (cs : s.Canon) (h : ecdsaVerify cap q msg r s = .ok true) :
    1 ≤ r.toInt ∧ r.toInt < N ∧ 1 ≤ s.toInt ∧ s.toInt < N ∧ ∃ w : ℤ, s.toInt * w ≡ 1 [ZMOD N] ∧
      SigPt C N r.toInt (((beVal (leadBytes N.size msg) : ℤ) * w % N) • G + (r.toInt * w % N) • Q) := by
  obtain ⟨b, e, hb⟩ := ecdsaVerify_exact D hq msg cr cs
  rw [h] at e; cases e
  obtain ⟨-, r1, r2, s1, s2, w, hw, x, y, hn, e1, e2, e3⟩ := hb.1 rfl
  exact ⟨r1, r2, s1, s2, w, hw, x, y, hn, e1, e2, e3⟩

/-- **C102, the second component.**  For a key of order `n`, a message and an `r` with `r + n ≥ p`, two accepted signatures
`(r, s)` and `(r, s')` are the same or each other's mirror image `s' = n - s`: apart from that (C64) nobody can change an
accepted signature into another one with the same `r`. -/
theorem C102_s (D : AnyDomain N cap C G) (q : APt) (Q : C.Pt P) (hq : q.Rep C Q) (hQN : (N : ℤ) • Q = 0) (msg : List Byte) (r s s' : Big)
    (cr : r.Canon) (cs : s.Canon) (cs' : s'.Canon) (hr : (P : ℤ) ≤ r.toInt + N) (h : ecdsaVerify cap q msg r s = .ok true)
    (h' : ecdsaVerify cap q msg r s' = .ok true) : s'.toInt = s.toInt ∨ s'.toInt = N - s.toInt := by
  obtain ⟨-, -, s1, s2, w, hw, R⟩ := accepted D hq cr cs h
  obtain ⟨-, -, s1', s2', w', hw', R'⟩ := accepted D hq cr cs' h'
  have a := s_of_pt D hQN s1 s2 s1' s2' hw hw' R.ne
  have l := sigNo_lt_two R hr
  have l' := sigNo_lt_two R' hr
  rcases sigPt_eq_or_neg D.K R R' (by omega) with e | e
  · exact Or.inl (a.1 e)
  · exact Or.inr (a.2 e)

/-- **C102, the second component, for every `r`.**  Among five accepted signatures of a message under one key with the same
`r` two have the same `s`. -/
theorem C102_s_count (D : AnyDomain N cap C G) (q : APt) (Q : C.Pt P) (hq : q.Rep C Q) (hQN : (N : ℤ) • Q = 0) (msg : List Byte) (r : Big)
    (cr : r.Canon) (s : Fin 5 → Big) (cs : ∀ i, (s i).Canon) (h : ∀ i, ecdsaVerify cap q msg r (s i) = .ok true) :
    ∃ i j, i ≠ j ∧ (s i).toInt = (s j).toInt := by
  have a := fun i => accepted D hq cr (cs i) (h i)
  choose r1 r2 s1 s2 w hw R using a
  obtain ⟨i, j, hij, e⟩ := sigPt_pigeon D.K (Or.inl (by omega)) _ R
  exact ⟨i, j, hij, (s_of_pt D hQN (s1 j) (s2 j) (s1 i) (s2 i) (hw j) (hw i) (R j).ne).1 e⟩

/-- **C102, the digest.**  A signature is accepted under one key for at most four digests, and for at most two when
`r + n ≥ p`: among more accepted messages two give congruent numbers modulo `n`.  The key is any point of the curve. -/
theorem C102_digest (D : AnyDomain N cap C G) (q : APt) (Q : C.Pt P) (hq : q.Rep C Q) (r s : Big) (cr : r.Canon) (cs : s.Canon) (k : ℕ)
    (hk : 4 < k ∨ (P : ℤ) ≤ r.toInt + N ∧ 2 < k) (msg : Fin k → List Byte) (h : ∀ i, ecdsaVerify cap q (msg i) r s = .ok true) :
    ∃ i j, i ≠ j ∧ (beVal (leadBytes N.size (msg i)) : ℤ) ≡ beVal (leadBytes N.size (msg j)) [ZMOD N] := by
  have a := fun i => accepted D hq cr cs (h i)
  choose r1 r2 s1 s2 w hw R using a
  obtain ⟨i, j, hij, e⟩ := sigPt_pigeon D.K hk _ R
  exact ⟨i, j, hij, digest_of_pt D (hw i) (hw j) e⟩

/-- **C102, the key.**  A signature of a message is accepted under at most four keys of order `n`, and under at most two
when `r + n ≥ p`. -/
theorem C102_key (D : AnyDomain N cap C G) (msg : List Byte) (r s : Big) (cr : r.Canon) (cs : s.Canon) (k : ℕ)
    (hk : 4 < k ∨ (P : ℤ) ≤ r.toInt + N ∧ 2 < k) (q : Fin k → APt) (Q : Fin k → C.Pt P) (hq : ∀ i, (q i).Rep C (Q i))
    (hQN : ∀ i, (N : ℤ) • Q i = 0) (h : ∀ i, ecdsaVerify cap (q i) msg r s = .ok true) : ∃ i j, i ≠ j ∧ Q i = Q j := by
  have a := fun i => accepted D (hq i) cr cs (h i)
  choose r1 r2 s1 s2 w hw R using a
  obtain ⟨i, j, hij, e⟩ := sigPt_pigeon D.K hk _ R
  exact ⟨i, j, hij, key_of_pt D (hQN i) (hQN j) (r1 i) (r2 i) (hw i) (hw j) e⟩

/-- C102 on the named curves, in native and wasm builds, where every key on the curve has order `n`. -/
theorem C102_named (c : Named) (wasm : Bool) (addr : Nat) :
    ∃ (P N : ℕ) (_ : Fact P.Prime) (C : Curve) (G : C.Pt P), c.params.build wasm addr = .ok C ∧ AnyDomain N (c.params.cap wasm) C G ∧
      (∀ (q : APt) (Q : C.Pt P) (msg : List Byte) (r s s' : Big), q.Rep C Q → r.Canon → s.Canon → s'.Canon → (P : ℤ) ≤ r.toInt + N →
        ecdsaVerify (c.params.cap wasm) q msg r s = .ok true → ecdsaVerify (c.params.cap wasm) q msg r s' = .ok true →
        s'.toInt = s.toInt ∨ s'.toInt = N - s.toInt) ∧
      (∀ (q : APt) (Q : C.Pt P) (r s : Big) (msg : Fin 5 → List Byte), q.Rep C Q → r.Canon → s.Canon →
        (∀ i, ecdsaVerify (c.params.cap wasm) q (msg i) r s = .ok true) →
        ∃ i j, i ≠ j ∧ (beVal (leadBytes N.size (msg i)) : ℤ) ≡ beVal (leadBytes N.size (msg j)) [ZMOD N]) ∧
      (∀ (msg : List Byte) (r s : Big) (q : Fin 5 → APt) (Q : Fin 5 → C.Pt P), r.Canon → s.Canon → (∀ i, (q i).Rep C (Q i)) →
        (∀ i, ecdsaVerify (c.params.cap wasm) (q i) msg r s = .ok true) → ∃ i j, i ≠ j ∧ Q i = Q j) := by
  obtain ⟨P, N, hP, C, G, e, D, ho, -, -⟩ := named_domain c wasm addr
  exact ⟨P, N, hP, C, G, e, D.toAnyDomain,
    fun q Q msg r s s' hq cr cs cs' hr h h' => C102_s D.toAnyDomain q Q hq (ho Q) msg r s s' cr cs cs' hr h h',
    fun q Q r s msg hq cr cs h => C102_digest D.toAnyDomain q Q hq r s cr cs 5 (Or.inl (by omega)) msg h,
    fun msg r s q Q cr cs hq h => C102_key D.toAnyDomain msg r s cr cs 5 (Or.inl (by omega)) q Q hq (fun i => ho _) h⟩

/-! The signature (134, 138) of C40 and its mirror image; 134 + 211 ≥ 229.  It is accepted for [0xab], [0x29] and [0xfc];
0x29 and 0xfc are congruent modulo 211. -/
example : Domain 211 (some 2) ex229 G229 ∧ (pt229 187 94).Rep ex229 Q229 ∧ (211 : ℤ) • Q229 = 0 ∧
    ((229 : ℕ) : ℤ) ≤ (ofInt32 134).toInt + (211 : ℕ) ∧
    ecdsaVerify (some 2) (pt229 187 94) [0xab] (ofInt32 134) (ofInt32 138) = .ok true ∧
    ecdsaVerify (some 2) (pt229 187 94) [0xab] (ofInt32 134) (ofInt32 73) = .ok true ∧
    (∀ i : Fin 3, ecdsaVerify (some 2) (pt229 187 94) (![[0xab], [0x29], [0xfc]] i) (ofInt32 134) (ofInt32 138) = .ok true) :=
  ⟨ex229_dom, Q229_rep, Q229_ord, by decide, by decide +kernel, by decide +kernel, by decide +kernel⟩

/-- **C102, the bounds are reached**: for r = 9 < p - n there are four `s`, four digests and four keys. -/
theorem C102_four :
    (∀ i : Fin 4, ecdsaVerify (some 2) (pt229 187 94) [0xab] (ofInt32 9) (ofInt32 (![23, 46, 165, 188] i)) = .ok true) ∧
    (∀ i : Fin 4, ecdsaVerify (some 2) (pt229 187 94) [![7, 48, 130, 171] i] (ofInt32 9) (ofInt32 23) = .ok true) ∧
    (∀ i : Fin 4, ecdsaVerify (some 2) (pt229 (![57, 187, 156, 168] i) (![192, 94, 29, 205] i)) [0xab] (ofInt32 9) (ofInt32 23) = .ok true) := by
  decide +kernel

end
end Ack.Props
