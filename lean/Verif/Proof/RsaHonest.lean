import Verif.Proof.RsaApi
import Verif.Proof.PowmPrim
/-!
# PSS encodings made for a modulus whose bit length is not a multiple of eight
-/
namespace Ack
open Ack.Big

theorem xor_low {x b j : Nat} (hj : j ≤ 6) (hx : x < 2 ^ (7 - j)) :
    (x ^^^ b) % 128 < 2 ^ (7 - j) ↔ b % 128 < 2 ^ (7 - j) := by
  have h7 : (2 : Nat) ^ (7 - j) ≤ 2 ^ 7 := Nat.pow_le_pow_right (by norm_num) (by omega)
  have hx7 : x % 2 ^ 7 = x := Nat.mod_eq_of_lt (by omega)
  rw [show (128 : Nat) = 2 ^ 7 from rfl, Nat.xor_mod_two_pow, hx7]
  constructor
  · intro h
    have := Nat.xor_lt_two_pow hx h
    rwa [← Nat.xor_assoc, Nat.xor_self, Nat.zero_xor] at this
  · exact fun h => Nat.xor_lt_two_pow hx h

/-- An encoded message made for a modulus of `8 k - j` bits, read as one for `8 k` bits. -/
theorem pss_wider {H : Hash} {hLen sLen k j : Nat} {mHash EM : List Byte} (hk : 1 ≤ k) (hj : j ≤ 6)
    (hE : Spec.PssConsistent H hLen sLen mHash EM (8 * k - j - 1)) :
    Spec.PssConsistent H hLen sLen mHash EM (8 * k - 1) ↔
      ∀ b ∈ (Spec.mgf1 H hLen ((EM.drop (k - hLen - 1)).take hLen) (k - hLen - 1)).head?, b.toNat % 128 < 2 ^ (7 - j) := by
  obtain ⟨hsz, mdb, Hh, salt, hem, hml, hHl, htop, hdb, hsl, hH⟩ := hE
  rw [show (8 * k - j - 1 + 7) / 8 = k by omega] at hsz hml htop hdb
  rw [show 8 * k - (8 * k - j - 1) = j + 1 by omega] at htop hdb
  have hHh : (EM.drop (k - hLen - 1)).take hLen = Hh := by
    rw [hem, List.append_assoc, ← hml, List.drop_left, ← hHl, List.take_left]
  rw [hHh]
  unfold Spec.PssConsistent
  dsimp only
  rw [show (8 * k - 1 + 7) / 8 = k by omega, show 8 * k - (8 * k - 1) = 1 by omega]
  have hne : List.zipWith (· ^^^ ·) mdb (Spec.mgf1 H hLen Hh (k - hLen - 1)) ≠ [] := by
    intro h0; rw [h0] at hdb; simp [Spec.clearTop] at hdb
  obtain ⟨x, m, rfl⟩ : ∃ x m, mdb = x :: m := by
    cases mdb with
    | nil => simp at hne
    | cons x m => exact ⟨x, m, rfl⟩
  generalize hM : Spec.mgf1 H hLen Hh (k - hLen - 1) = M at *
  obtain ⟨b, M, rfl⟩ : ∃ b t, M = b :: t := by
    cases M with
    | nil => simp at hne
    | cons x m => exact ⟨x, m, rfl⟩
  have hx : x.toNat < 2 ^ (7 - j) := by
    have := htop x (by simp)
    rwa [show 8 - (j + 1) = 7 - j by omega] at this
  have h7 : (2 : Nat) ^ (7 - j) ≤ 2 ^ 7 := Nat.pow_le_pow_right (by norm_num) (by omega)
  simp only [List.zipWith_cons_cons, Spec.clearTop, show 8 - (j + 1) = 7 - j by omega] at hdb
  simp only [List.head?_cons, Option.mem_some_iff, forall_eq']
  rw [← xor_low hj hx, ← BitVec.toNat_xor]
  constructor
  · rintro ⟨-, mdb', Hh', salt', hem', hml', hHl', -, hdb', -, -⟩
    have ha := (List.append_inj' (hem.symm.trans hem') rfl).1
    obtain ⟨rfl, rfl⟩ := List.append_inj ha (by rw [hml, hml'])
    rw [hM] at hdb'
    simp only [List.zipWith_cons_cons, Spec.clearTop] at hdb'
    have e1 := congrArg List.head? hdb
    have e2 := congrArg List.head? hdb'
    generalize (x ^^^ b).toNat = y at e1 e2 ⊢
    have e3 : BitVec.ofNat 8 (y % 2 ^ (8 - 1)) = BitVec.ofNat 8 (y % 2 ^ (7 - j)) := by
      cases hr : k - hLen - sLen - 2 with
      | zero =>
        rw [hr] at e1 e2
        simp only [List.replicate_zero, List.nil_append, List.cons_append, List.head?_cons, Option.some.injEq] at e1 e2
        rw [e1, e2]
      | succ t =>
        rw [hr] at e1 e2
        simp only [List.replicate_succ, List.cons_append, List.head?_cons, Option.some.injEq] at e1 e2
        rw [e1, e2]
    have e4 := congrArg BitVec.toNat e3
    have l1 := Nat.mod_lt y (show 0 < 2 ^ (7 - j) by positivity)
    have l2 := Nat.mod_lt y (show 0 < 2 ^ (8 - 1) by norm_num)
    have l3 : (2 : Nat) ^ (8 - 1) = 128 := rfl
    rw [BitVec.toNat_ofNat, BitVec.toNat_ofNat, Nat.mod_eq_of_lt (a := y % 2 ^ (8 - 1)) (by omega),
      Nat.mod_eq_of_lt (a := y % 2 ^ (7 - j)) (by omega)] at e4
    rw [show (128 : Nat) = 2 ^ (8 - 1) from rfl, e4]
    exact l1
  · intro hlt
    refine ⟨hsz, x :: m, Hh, salt, hem, hml, hHl, ?_, ?_, hsl, hH⟩
    · intro c hc
      simp only [List.head?_cons, Option.mem_some_iff] at hc
      subst hc
      show _ < 2 ^ 7
      omega
    · rw [hM]
      simp only [List.zipWith_cons_cons, Spec.clearTop]
      rw [← hdb]
      congr 2
      have : (2 : Nat) ^ (7 - j) ∣ 2 ^ 7 := Nat.pow_dvd_pow 2 (by omega)
      show (x ^^^ b).toNat % 2 ^ 7 = _
      rw [← Nat.mod_mod_of_dvd _ this, Nat.mod_eq_of_lt (a := (x ^^^ b).toNat % 2 ^ 7) (by exact hlt)]

end Ack
