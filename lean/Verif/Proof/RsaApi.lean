import Mathlib.FieldTheory.Finite.Basic
import Verif.Proof.RsaPss
/-!
# The host's exponentiation, honest signatures and binding
-/
namespace Ack
open Big (Byte)

theorem encodeBE_length (k v : Nat) : (encodeBE k v).length = k := by
  induction k with
  | zero => rfl
  | succ k ih => simp [encodeBE, ih]

theorem encodeBE_val (k v : Nat) : beVal (encodeBE k v) = v % 256 ^ k := by
  induction k with
  | zero => simp [encodeBE, beVal, Nat.mod_one]
  | succ k ih =>
    rw [encodeBE, beVal, encodeBE_length, ih, BitVec.toNat_ofNat, 
      show (2 : Nat) ^ 8 = 256 from rfl, pow_succ 256 k, Nat.mod_mul, Nat.mul_comm]
    exact Nat.add_comm _ _

theorem hostModExp_at (n e : List Byte) : ModExpAt hostModExp n e := by
  intro s _ hs
  refine ⟨encodeBE n.length (beVal s ^ beVal e % beVal n), ?_, encodeBE_length _ _, ?_⟩
  · unfold hostModExp; rw [if_neg (by omega)]
  · rw [encodeBE_val]
    apply Nat.mod_eq_of_lt
    have := beVal_lt n
    have : beVal s ^ beVal e % beVal n < beVal n := Nat.mod_lt _ (by omega)
    omega

theorem hostModExp_all {n : List Byte} (e : List Byte) (hn : beVal n ≠ 0) : ModExpAll hostModExp n e := by
  intro s _
  refine ⟨encodeBE n.length (beVal s ^ beVal e % beVal n), ?_, encodeBE_length _ _, ?_⟩
  · unfold hostModExp; rw [if_neg hn]
  · rw [encodeBE_val]
    apply Nat.mod_eq_of_lt
    have := beVal_lt n
    have : beVal s ^ beVal e % beVal n < beVal n := Nat.mod_lt _ (by omega)
    omega

/-- Raising to `e*d` is the identity modulo a prime `p` with `e*d ≡ 1 (mod p-1)`. -/
theorem pow_mod_prime {p m k : Nat} (hp : p.Prime) : m ^ (1 + k * (p - 1)) ≡ m [MOD p] := by
  haveI : Fact p.Prime := ⟨hp⟩
  rw [← ZMod.natCast_eq_natCast_iff]
  push_cast
  by_cases h : (m : ZMod p) = 0
  · rw [h, zero_pow (by omega)]
  · rw [pow_add, pow_one, mul_comm k, pow_mul, ZMod.pow_card_sub_one_eq_one h, one_pow, mul_one]

theorem rsa_roundtrip {p q m d e : Nat} (hp : p.Prime) (hq : q.Prime) (hpq : p ≠ q) (h1 : ∃ k, e * d = 1 + k * (p - 1))
    (h2 : ∃ k, e * d = 1 + k * (q - 1)) (hm : m < p * q) : (m ^ d % (p * q)) ^ e % (p * q) = m := by
  have hc : Nat.Coprime p q := (Nat.coprime_primes hp hq).2 hpq
  obtain ⟨k, hk⟩ := h1
  obtain ⟨l, hl⟩ := h2
  have hmod : m ^ (e * d) ≡ m [MOD p * q] := by
    rw [← Nat.modEq_and_modEq_iff_modEq_mul hc]
    constructor
    · rw [hk]; exact pow_mod_prime hp
    · rw [hl]; exact pow_mod_prime hq
  rw [← Nat.pow_mod, ← pow_mul, Nat.mul_comm d e]
  rw [show m ^ (e * d) % (p * q) = m % (p * q) from hmod]
  exact Nat.mod_eq_of_lt hm

/-- An encoded message starting with a zero byte is below a modulus that does not. -/
theorem lt_of_head {n EM : List Byte} (hn : ∃ b ∈ n.head?, b ≠ 0) (hl : EM.length = n.length) (h : EM.head? = some 0x00) :
    beVal EM < beVal n := by
  cases EM with
  | nil => simp at h
  | cons a t =>
    simp only [List.head?_cons, Option.some.injEq] at h
    subst h
    have h1 := dropLead_ge n (by
      rw [leadZeros_head hn, ← hl]; simp)
    rw [leadZeros_head hn, ← hl] at h1
    have h2 := beVal_lt t
    simp only [List.length_cons, Nat.sub_zero, Nat.add_sub_cancel] at h1
    rw [beVal]
    simp only [BitVec.ofNat_eq_ofNat, BitVec.toNat_ofNat, Nat.zero_mod, Nat.zero_mul, Nat.zero_add]
    omega

theorem emsa_head {T EM : List Byte} {k : Nat} (h : Spec.IsEmsaPkcs1 T k EM) : EM.head? = some 0x00 := by
  obtain ⟨ps, _, h, _⟩ := h; rw [h]; rfl

theorem run_inj {T U : List Byte} : ∀ (a b : Nat),
    List.replicate a (0xff : Byte) ++ 0x00 :: T = List.replicate b 0xff ++ 0x00 :: U → T = U
  | 0, 0, h => by simpa using h
  | 0, _ + 1, h => by simp [List.replicate_succ] at h
  | _ + 1, 0, h => by simp [List.replicate_succ] at h
  | a + 1, b + 1, h => by
    simp only [List.replicate_succ, List.cons_append, List.cons.injEq, true_and] at h
    exact run_inj a b h

theorem emsa_inj {T U EM : List Byte} {k l : Nat} (h1 : Spec.IsEmsaPkcs1 T k EM) (h2 : Spec.IsEmsaPkcs1 U l EM) : T = U := by
  obtain ⟨a, _, e1, _⟩ := h1
  obtain ⟨b, _, e2, _⟩ := h2
  rw [e1] at e2
  simp only [List.cons_append, List.nil_append, List.append_assoc, List.cons.injEq, true_and] at e2
  exact run_inj a b e2

theorem pkcs1_honest {n e T EM sig : List Byte} {p q d : Nat} (hn : ∃ b ∈ n.head?, b ≠ 0) (hp : p.Prime) (hq : q.Prime)
    (hpq : p ≠ q) (hN : beVal n = p * q) (h1 : ∃ k, beVal e * d = 1 + k * (p - 1)) (h2 : ∃ k, beVal e * d = 1 + k * (q - 1))
    (hE : Spec.IsEmsaPkcs1 T n.length EM) (hl : sig.length = n.length) (hs : beVal sig = beVal EM ^ d % beVal n) :
    Spec.Pkcs1Valid n e T sig := by
  have hpos := beVal_pos hn
  have hlt := lt_of_head hn hE.choose_spec.2.2 (emsa_head hE)
  refine ⟨hl, ?_, EM, hE, ?_⟩
  · rw [hs]; exact Nat.mod_lt _ hpos
  · rw [hs, hN]; symm; exact rsa_roundtrip hp hq hpq h1 h2 (by rw [← hN]; exact hlt)

theorem pss_honest {H : Hash} {hLen sLen : Nat} {n e mHash EM sig : List Byte} {p q d : Nat}
    (hn : ∃ b ∈ n.head?, 128 ≤ b.toNat) (hp : p.Prime) (hq : q.Prime) (hpq : p ≠ q) (hN : beVal n = p * q)
    (h1 : ∃ k, beVal e * d = 1 + k * (p - 1)) (h2 : ∃ k, beVal e * d = 1 + k * (q - 1)) (hEl : EM.length = n.length)
    (hE : Spec.PssConsistent H hLen sLen mHash EM (8 * n.length - 1)) (hl : sig.length = n.length)
    (hs : beVal sig = beVal EM ^ d % beVal n) : Spec.PssValid H hLen sLen n e mHash sig := by
  have hn' : ∃ b ∈ n.head?, b ≠ 0 := by
    obtain ⟨b, h1, h2⟩ := hn
    refine ⟨b, h1, ?_⟩
    rintro rfl; simp at h2
  have hpos := beVal_pos hn'
  have hk : 1 ≤ n.length := by
    obtain ⟨b, h1, _⟩ := hn
    cases n with
    | nil => simp at h1
    | cons x t => simp
  have hlt : beVal EM < beVal n := by
    obtain ⟨hsz, mdb, Hh, salt, hem, hml, hHl, htop, _⟩ := hE
    rw [show (8 * n.length - 1 + 7) / 8 = n.length by omega] at hsz hml htop
    rw [show 8 * n.length - (8 * n.length - 1) = 1 by omega] at htop
    cases mdb with
    | nil => simp at hml; omega
    | cons x m =>
      have hx : x.toNat < 128 := htop x (by simp)
      rw [List.cons_append, List.cons_append] at hem
      generalize m ++ Hh ++ [0xbc] = t at hem
      obtain ⟨b, hb, h128⟩ := hn
      cases n with
      | nil => simp at hb
      | cons y u =>
        simp only [List.head?_cons, Option.mem_some_iff] at hb
        subst hb
        have htu : t.length = u.length := by rw [hem] at hEl; simpa using hEl
        have := beVal_lt t
        rw [hem, beVal, beVal]
        rw [htu] at this ⊢
        have h3 := Nat.mul_le_mul_right (256 ^ u.length) (show x.toNat + 1 ≤ y.toNat by omega)
        rw [Nat.add_mul] at h3
        omega
  refine ⟨hl, ?_, EM, ?_, ?_, ?_⟩
  · rw [hs]; exact Nat.mod_lt _ hpos
  · rw [bitLen_top hn]; omega
  · rw [hs, hN]; symm; exact rsa_roundtrip hp hq hpq h1 h2 (by rw [← hN]; exact hlt)
  · rw [bitLen_top hn]; exact hE

/-- One signature accepted for two digests exhibits two colliding hash inputs. -/
theorem pss_binding {H : Hash} {hLen sLen : Nat} {n e d1 d2 sig : List Byte}
    (h1 : Spec.PssValid H hLen sLen n e d1 sig) (h2 : Spec.PssValid H hLen sLen n e d2 sig) :
    ∃ salt : List Byte, salt.length = sLen ∧
      H (List.replicate 8 0x00 ++ d1 ++ salt) = H (List.replicate 8 0x00 ++ d2 ++ salt) := by
  obtain ⟨_, _, E1, l1, v1, z1, m1, H1, s1, e1, ml1, hl1, t1, c1, sl1, k1⟩ := h1
  obtain ⟨_, _, E2, l2, v2, z2, m2, H2, s2, e2, ml2, hl2, t2, c2, sl2, k2⟩ := h2
  have hE : E1 = E2 := beVal_inj (by omega) (by omega)
  rw [e1, e2] at hE
  have a1 := List.append_inj' hE rfl
  have a2 := List.append_inj a1.1 (by rw [ml1, ml2])
  obtain ⟨rfl, rfl⟩ := a2
  rw [c1] at c2
  have a3 := List.append_inj c2 rfl
  refine ⟨s1, sl1, ?_⟩
  rw [k1, ← k2, a3.2]

end Ack
