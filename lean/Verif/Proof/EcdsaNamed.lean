import Verif.Proof.EcdsaAlg
import Verif.Props.Curves
/-!
# ECDSA domains: named curves, messages
-/
namespace Ack
open Big WeierstrassCurve

/-- On every named curve the order is below the field prime. -/
theorem named_order_lt (c : Named) : ∃ P N, hexNum (chars c.params.p) = some P ∧ hexNum (chars c.params.n) = some N ∧ N < P := by
  have key : ∀ o o' : Option ℕ, (match o, o' with | some P, some N => decide (N < P) | _, _ => false) = true →
      ∃ P N, o = some P ∧ o' = some N ∧ N < P := by
    intro o o' h
    cases o <;> cases o' <;> simp at h
    exact ⟨_, _, rfl, rfl, h⟩
  apply key
  cases c <;> decide +kernel

/-- Every named curve is a domain; the order is exact and has the nominal number of bits. -/
theorem named_domain (c : Named) (wasm : Bool) (addr : Nat) :
    ∃ (P N : ℕ) (_ : Fact P.Prime) (C : Curve) (G : C.Pt P), c.params.build wasm addr = .ok C ∧ Domain N (c.params.cap wasm) C G ∧
      (∀ Q : C.Pt P, (N : ℤ) • Q = 0) ∧ N < P ∧ N.size = c.params.bits := by
  obtain ⟨P, A, B, X, Y, N, K⟩ := Props.certs c
  haveI hP : Fact P.Prime := ⟨ecpp K.np K.run⟩
  obtain ⟨C, G, h1, h2, h3, h4, h5, h6, h7, h8, h9, h10, h11, h12, h13, h14, h15, h16, h17, h18, h19⟩ := named_spec K wasm addr
  obtain ⟨n1, n2, n3, n4, n5, n6, n7, n8, n9, n10, n11, n12, n13, n14, n15⟩ := K.num
  obtain ⟨P', N', e1, e2, hlt⟩ := named_order_lt c
  rw [K.hp.1] at e1
  rw [K.hn.1] at e2
  cases e1; cases e2
  refine ⟨P, N, hP, C, G, h1, ⟨⟨h13, n1, ⟨cap_fits _ _ (by omega), h10, h8, K.np.one_lt⟩, K.np, h14, h15, h16, h18⟩, by omega⟩, ?_, hlt, ?_⟩
  · intro Q
    have := card_nsmul_eq_zero' (G := C.Pt P) (x := Q)
    rw [h17] at this
    rw [natCast_zsmul]; exact this
  · apply le_antisymm (Nat.size_le.2 n12)
    have := Nat.lt_size.2 n13
    omega

theorem beVal_take (d : List Byte) (k : ℕ) (h : k ≤ d.length) : beVal (d.take k) = beVal d / 2 ^ (8 * (d.length - k)) := by
  have h1 : beVal d = beVal (d.take k) * 256 ^ (d.drop k).length + beVal (d.drop k) := by
    rw [← beVal_append, List.take_append_drop]
  have h2 := beVal_lt (d.drop k)
  rw [h1, ← pow256]
  rw [List.length_drop] at *
  rw [Nat.add_comm, Nat.add_mul_div_right _ _ (by positivity), Nat.div_eq_of_lt h2, zero_add]

theorem lead_eq_fips (nbits : ℕ) (msg : List Byte) (h : nbits % 8 = 0 ∨ 8 * msg.length ≤ nbits) : beVal (leadBytes nbits msg) = fipsE nbits msg := by
  unfold leadBytes fipsE
  by_cases hl : 8 * msg.length ≤ nbits
  · rw [if_pos hl, List.take_of_length_le (by omega)]
  · rw [if_neg hl, beVal_take _ _ (by omega)]
    congr 3
    omega

theorem lead_le {N : ℕ} (hN : 0 < N) (msg : List Byte) (h : N.size % 8 = 0 ∨ 8 * msg.length ≤ N.size) : beVal (leadBytes N.size msg) ≤ 2 * N := by
  have h1 := beVal_lt (leadBytes N.size msg)
  rw [pow256] at h1
  have h2 : 8 * (leadBytes N.size msg).length ≤ N.size := by
    unfold leadBytes
    rw [List.length_take]
    omega
  have h3 : 0 < N.size := Nat.size_pos.2 hN
  have h4 : 2 ^ (N.size - 1) ≤ N := Nat.lt_size.1 (by omega)
  have h5 : 2 ^ (8 * (leadBytes N.size msg).length) ≤ 2 ^ (N.size - 1 + 1) := Nat.pow_le_pow_right (by norm_num) (by omega)
  rw [pow_succ] at h5
  omega

end Ack
