import Mathlib.Data.Fintype.Pigeonhole
import Verif.Proof.RsaApi
/-!
# Only the holder of the private exponent's signatures are accepted (for C103)
-/
namespace Ack
open Big

/-- Raising the result of the public operation to the private exponent gives the base back. -/
theorem rsa_inverse {p q d e : Nat} (s : Nat) (hp : p.Prime) (hq : q.Prime) (hpq : p ≠ q) (h1 : ∃ k, e * d = 1 + k * (p - 1))
    (h2 : ∃ k, e * d = 1 + k * (q - 1)) : (s ^ e % (p * q)) ^ d % (p * q) = s % (p * q) := by
  have hpos : 0 < p * q := Nat.mul_pos hp.pos hq.pos
  have h := rsa_roundtrip (m := s % (p * q)) (d := e) (e := d) hp hq hpq (by rwa [Nat.mul_comm]) (by rwa [Nat.mul_comm]) (Nat.mod_lt _ hpos)
  rw [← Nat.pow_mod] at h
  rw [← Nat.pow_mod, ← h, Nat.pow_mod (s ^ e), Nat.pow_mod s, ← Nat.pow_mod]

/-- The encoded message of PKCS #1 v1.5 is determined by its length and contents. -/
theorem emsa_unique {T EM EM' : List Byte} {k : Nat} (h : Spec.IsEmsaPkcs1 T k EM) (h' : Spec.IsEmsaPkcs1 T k EM') : EM = EM' := by
  obtain ⟨a, _, e1, l1⟩ := h
  obtain ⟨b, _, e2, l2⟩ := h'
  have : a = b := by
    rw [e1] at l1; rw [e2] at l2
    simp at l1 l2
    omega
  rw [e1, e2, this]

/-- For an RSA key, the valid PKCS #1 v1.5 signatures are those of the private exponent. -/
theorem pkcs1_private {n e T EM sig : List Byte} {p q d : Nat} (hn : ∃ b ∈ n.head?, b ≠ 0) (hp : p.Prime) (hq : q.Prime)
    (hpq : p ≠ q) (hN : beVal n = p * q) (h1 : ∃ k, beVal e * d = 1 + k * (p - 1)) (h2 : ∃ k, beVal e * d = 1 + k * (q - 1))
    (hE : Spec.IsEmsaPkcs1 T n.length EM) :
    Spec.Pkcs1Valid n e T sig ↔ sig.length = n.length ∧ beVal sig = beVal EM ^ d % beVal n := by
  refine ⟨fun h => ?_, fun h => pkcs1_honest hn hp hq hpq hN h1 h2 hE h.1 h.2⟩
  obtain ⟨l, hlt, EM', hE', hv⟩ := h
  refine ⟨l, ?_⟩
  rw [emsa_unique hE hE', hv, hN, rsa_inverse _ hp hq hpq h1 h2, Nat.mod_eq_of_lt (by rw [← hN]; exact hlt)]

theorem xor_top {b b' m : Byte} {j : Nat} (hj : j ≤ 8) (h : b.toNat < 2 ^ j) (h' : b'.toNat < 2 ^ j)
    (e : BitVec.ofNat 8 ((b ^^^ m).toNat % 2 ^ j) = BitVec.ofNat 8 ((b' ^^^ m).toNat % 2 ^ j)) : b = b' := by
  have hle : 2 ^ j ≤ 2 ^ 8 := Nat.pow_le_pow_right (by omega) hj
  have hp : 0 < 2 ^ j := Nat.two_pow_pos j
  have e2 := congrArg BitVec.toNat e
  rw [BitVec.toNat_ofNat, BitVec.toNat_ofNat, Nat.mod_eq_of_lt (lt_of_lt_of_le (Nat.mod_lt _ hp) hle),
    Nat.mod_eq_of_lt (lt_of_lt_of_le (Nat.mod_lt _ hp) hle), BitVec.toNat_xor, BitVec.toNat_xor, Nat.xor_mod_two_pow, Nat.xor_mod_two_pow,
    Nat.mod_eq_of_lt h, Nat.mod_eq_of_lt h'] at e2
  apply BitVec.eq_of_toNat_eq
  have e3 := congrArg (· ^^^ m.toNat % 2 ^ j) e2
  simpa [Nat.xor_assoc] using e3

theorem zip_xor_inj : ∀ {a b m : List Byte}, a.length = b.length → a.length ≤ m.length →
    List.zipWith (· ^^^ ·) a m = List.zipWith (· ^^^ ·) b m → a = b
  | [], [], _, _, _, _ => rfl
  | x :: a, y :: b, [], _, h, _ => by simp at h
  | x :: a, y :: b, z :: m, h1, h2, e => by
    simp only [List.zipWith_cons_cons, List.cons.injEq] at e
    obtain ⟨e1, e2⟩ := e
    have hx : x = y := by
      have := congrArg (· ^^^ z) e1
      simpa [BitVec.xor_assoc] using this
    rw [hx, zip_xor_inj (by simpa using h1) (by simpa using h2) e2]

theorem unmask_inj {a b m : List Byte} {k : Nat} (hk : k ≤ 8) (hl : a.length = b.length) (hm : a.length ≤ m.length) (ta : Spec.TopZero k a)
    (tb : Spec.TopZero k b) (e : Spec.clearTop k (List.zipWith (· ^^^ ·) a m) = Spec.clearTop k (List.zipWith (· ^^^ ·) b m)) : a = b := by
  cases a with
  | nil => cases b with
    | nil => rfl
    | cons => simp at hl
  | cons x a => cases b with
    | nil => simp at hl
    | cons y b => cases m with
      | nil => simp at hm
      | cons z m =>
        simp only [List.zipWith_cons_cons, Spec.clearTop, List.cons.injEq] at e
        have h1 := xor_top (j := 8 - k) (by omega) (ta x (by simp)) (tb y (by simp)) e.1
        rw [h1, zip_xor_inj (by simpa using hl) (by simpa using hm) e.2]

/-- `PssConsistent` with the salt shown. -/
def PssSalt (H : List Byte → List Byte) (hLen sLen : Nat) (mHash EM : List Byte) (emBits : Nat) (salt : List Byte) : Prop :=
  let emLen := (emBits + 7) / 8
  hLen + sLen + 2 ≤ emLen ∧
  ∃ maskedDB Hh : List Byte,
    EM = maskedDB ++ Hh ++ [0xbc] ∧ maskedDB.length = emLen - hLen - 1 ∧ Hh.length = hLen ∧
    Spec.TopZero (8 * emLen - emBits) maskedDB ∧
    Spec.clearTop (8 * emLen - emBits) (List.zipWith (· ^^^ ·) maskedDB (Spec.mgf1 H hLen Hh (emLen - hLen - 1))) =
      List.replicate (emLen - hLen - sLen - 2) 0x00 ++ [0x01] ++ salt ∧
    salt.length = sLen ∧
    H (List.replicate 8 0x00 ++ mHash ++ salt) = Hh

theorem pssSalt_of {H : List Byte → List Byte} {hLen sLen : Nat} {mHash EM : List Byte} {emBits : Nat}
    (h : Spec.PssConsistent H hLen sLen mHash EM emBits) : ∃ salt, salt.length = sLen ∧ PssSalt H hLen sLen mHash EM emBits salt := by
  obtain ⟨h0, a, b, c, h1, h2, h3, h4, h5, h6, h7⟩ := h
  exact ⟨c, h6, h0, a, b, h1, h2, h3, h4, h5, h6, h7⟩

theorem pssSalt_unique {H : List Byte → List Byte} {hLen sLen : Nat} {mHash EM EM' : List Byte} {emBits : Nat} {salt : List Byte}
    (hM : ∀ Z l, (Spec.mgf1 H hLen Z l).length = l)
    (h : PssSalt H hLen sLen mHash EM emBits salt) (h' : PssSalt H hLen sLen mHash EM' emBits salt) : EM = EM' := by
  obtain ⟨h0, a, b, h1, h2, h3, h4, h5, h6, h7⟩ := h
  obtain ⟨-, a', b', h1', h2', h3', h4', h5', h6', h7'⟩ := h'
  have hb : b = b' := by rw [← h7, ← h7']
  subst hb
  have ha : a = a' := unmask_inj (by omega) (by rw [h2, h2']) (by rw [hM b, h2]) h4 h4' (by rw [h5, h5'])
  rw [h1, h1', ha]

end Ack
