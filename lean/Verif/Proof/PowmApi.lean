import Verif.Proof.PowmExp
/-! # The software modular exponentiation as called by `powm` -/
namespace Ack.Powm
open Ack.Big (Byte)

/-- The sizes under which the software path stays inside its buffers. -/
def SafeSizes (s e n : List Byte) : Prop :=
  n.length < 2 ^ 27 ∧ e.length ≤ 8 ∧ n.drop (leadZeros n) ≠ [] ∧ (n.drop (leadZeros n)).length % 4 = 0 ∧ s.length % 4 = 0 ∧
    (n.drop (leadZeros n)).length ≤ s.length

instance (s e n : List Byte) : Decidable (SafeSizes s e n) := by unfold SafeSizes; infer_instance

theorem genKeyProp_ub (n e : List Byte)
    (h : ¬ (n.length < 2 ^ 27 ∧ e.length ≤ 8 ∧ n.drop (leadZeros n) ≠ [] ∧ (n.drop (leadZeros n)).length % 4 = 0)) :
    genKeyProp n e = .error .ub := by
  unfold genKeyProp
  by_cases h1 : n.length ≥ 2 ^ 27
  · rw [if_pos h1]; rfl
  rw [if_neg h1]
  dsimp only
  by_cases h2 : e.length > 8
  · rw [if_pos h2]; rfl
  rw [if_neg h2]
  obtain ⟨m, hm⟩ : ∃ m, m = n.drop (leadZeros n) := ⟨_, rfl⟩
  rw [← hm] at h ⊢
  by_cases h4 : m.length % 4 = 0
  · have h5 : m = [] := by
      by_contra h6; exact h ⟨by omega, by omega, h6, h4⟩
    rw [h5]; rfl
  · have : decode (List.replicate (1 + m.length * 8 / 32) 0) m = .error .ub := by
      unfold decode patch
      dsimp only
      rw [if_neg]
      · rfl
      · rw [decWords_length, List.length_reverse, List.length_replicate]; omega
    rw [this]; rfl

theorem bytesWords_take (s : List Byte) (k : Nat) : (bytesWords s).take k = bytesWords (s.take (4 * k)) := by
  induction s using bytesWords.induct generalizing k with
  | case1 a b c d t ih =>
    cases k with
    | zero => rfl
    | succ k => rw [show 4 * (k + 1) = 4 * k + 4 by ring]; simp only [bytesWords, List.take_succ_cons, ih]
  | case2 l h =>
    have e : bytesWords l = [] := by
      rcases l with _ | ⟨a, _ | ⟨b, _ | ⟨c, _ | ⟨d, t⟩⟩⟩⟩ <;> first | exact (h _ _ _ _ _ rfl).elim | rfl
    rw [e, List.take_nil]
    symm
    apply List.length_eq_zero_iff.1
    have hl : (bytesWords l).length = l.length / 4 := bytesWords_length l
    rw [e] at hl
    rw [bytesWords_length, List.length_take]; simp at hl; omega

theorem wordBytes_drop (ws : List Word) (k : Nat) : wordBytes (ws.drop k) = (wordBytes ws).drop (4 * k) := by
  induction ws generalizing k with
  | nil => simp [wordBytes]
  | cons w t ih =>
    cases k with
    | zero => rfl
    | succ k =>
      rw [List.drop_succ_cons, ih, wordBytes, show 4 * (k + 1) = 4 + 4 * k by ring, ← List.drop_drop, List.drop_left' (by simp [st32])]

theorem coprime_B {n : Nat} (h : n % 2 = 1) (k : Nat) : Nat.Coprime n (B k) := by
  rw [B_eq]
  apply Nat.Coprime.pow_right
  rw [Nat.coprime_comm]
  show Nat.gcd 2 n = 1
  rw [Nat.gcd_rec, h]; rfl

theorem swModExp_spec (s e n : List Byte) (hs : SafeSizes s e n) :
    ((beVal e < 2 ∨ beVal e % 2 = 0) → swModExp s e n = .ok none) ∧
    (¬ (beVal e < 2 ∨ beVal e % 2 = 0) → ∃ front, swModExp s e n = .ok (some (front ++ s.drop (n.drop (leadZeros n)).length)) ∧
      front.length = (n.drop (leadZeros n)).length ∧
      (beVal n % 2 = 1 →
        beVal front % beVal n = beVal (s.take (n.drop (leadZeros n)).length) ^ effExp (beVal e) % beVal n ∧
        (beVal (s.take (n.drop (leadZeros n)).length) < beVal n → beVal front < beVal n))) := by
  obtain ⟨hn, he, h0, h4, hs4, hsl⟩ := hs
  obtain ⟨p, hp, K⟩ := genKeyProp_ok n e hn he h4 h0
  have hmn : beVal (n.drop (leadZeros n)) = beVal n := beVal_dropLead n
  unfold swModExp
  rw [hp, ok_bind]
  unfold modExpSw
  obtain ⟨w, hw1, hw2⟩ := loadExp_spec p.exponent K.expLen
  obtain ⟨m, hm⟩ : ∃ m, m = n.drop (leadZeros n) := ⟨_, rfl⟩
  rw [← hm] at h0 h4 hsl hmn K ⊢
  have hmp : 0 < m.length := List.length_pos_iff.2 h0
  rw [hw1, ok_bind, if_neg (by rw [K.bits]; omega), if_neg (by rw [K.bits]; omega)]
  rw [K.exp] at hw2
  obtain ⟨k, hk⟩ : ∃ k, m.length = 4 * k := ⟨m.length / 4, by omega⟩
  have hlen : p.numBits / 32 = k := by rw [K.bits]; omega
  rw [hlen]
  have hml : (bytesWords p.modulus).length = k := by rw [bytesWords_length, K.modulus]; omega
  have hrl : (bytesWords p.rr).length = k := by rw [bytesWords_length, K.rrLen]; omega
  unfold convertBE
  rw [slice_eq (by omega), ok_bind, ok_bind, slice_eq (by omega), ok_bind, ok_bind, if_neg (by omega), List.drop_zero, List.drop_zero,
    List.take_of_length_le (by omega), List.take_of_length_le (by omega)]
  obtain ⟨key, hkey⟩ : ∃ key : Key, key = ⟨k, p.n0inv, (bytesWords p.modulus).reverse.map swab32, (bytesWords p.rr).reverse.map swab32, w⟩ := ⟨_, rfl⟩
  rw [← hkey]
  have k1 : key.len = k := by rw [hkey]
  have k2 : key.modulus = (bytesWords p.modulus).reverse.map swab32 := by rw [hkey]
  have k3 : key.rr = (bytesWords p.rr).reverse.map swab32 := by rw [hkey]
  have k4 : key.exponent = w := by rw [hkey]
  have k5 : key.n0inv = p.n0inv := by rw [hkey]
  have hmv : val key.modulus = beVal n := by rw [k2, val_revSwab _ (by rw [K.modulus]; omega), K.modulus, hmn]
  have hrv : val key.rr = 2 ^ (2 * (8 * m.length)) % beVal n := by rw [k3, val_revSwab _ (by rw [K.rrLen]; omega), K.rr, hmn]
  obtain ⟨a1, a2⟩ := powMod_spec key (bytesWords s) (by omega) (by rw [k2]; simp; omega) (by rw [k3]; simp; omega)
    (by rw [bytesWords_length]; omega)
  rw [k4, hw2] at a1 a2
  constructor
  · intro hbad; rw [a1 hbad, ok_bind]
  · intro hgood
    obtain ⟨ws, b1, b2, b3⟩ := a2 hgood
    rw [b2, ok_bind]
    refine ⟨wordBytes (ws.reverse.map swab32), ?_, by rw [wordBytes_length]; simp; omega, fun hodd => ?_⟩
    · dsimp only
      rw [wordBytes_append, wordBytes_drop, wordBytes_bytesWords s hs4, k1, hk]
    · have hexact : KeyExact key := by
        refine ⟨?_, by rw [hmv]; omega, by rw [hmv]; exact coprime_B hodd _⟩
        intro w' hw'
        obtain ⟨x, hx1, hx2⟩ := K.n0
        have hwx : w' = x := by
          cases hc : key.modulus with
          | nil => rw [hc] at hw'; simp at hw'
          | cons y t =>
            rw [hc] at hw'
            have : w' = y := by simpa using hw'.symm
            subst this
            apply BitVec.eq_of_toNat_eq
            rw [hx2, hmn, ← hmv, hc, val_cons]; have := w'.isLt; omega
        rw [hwx, k5, hx1]
        exact ninv32_odd x (by rw [hx2, hmn]; omega)
      have hrr : val key.rr ≡ B key.len * B key.len [MOD val key.modulus] := by
        rw [hrv, hmv, k1, B_eq, ← pow_add, show 32 * k + 32 * k = 2 * (8 * m.length) by omega]
        exact Nat.mod_modEq _ _
      obtain ⟨c1, c2⟩ := b3 hexact hrr
      have hvv : val (((bytesWords s).take key.len).reverse.map swab32) = beVal (s.take m.length) := by
        rw [bytesWords_take, k1, ← hk, val_revSwab]
        rw [List.length_take]; omega
      rw [hmv, hvv] at c1 c2
      rw [beVal_wordBytes]
      exact ⟨c1, c2⟩

theorem swModExp_ub (s e n : List Byte) (hs : ¬ SafeSizes s e n) :
    swModExp s e n = .error .ub := by
  unfold swModExp
  by_cases hg : n.length < 2 ^ 27 ∧ e.length ≤ 8 ∧ n.drop (leadZeros n) ≠ [] ∧ (n.drop (leadZeros n)).length % 4 = 0
  · obtain ⟨hn, he, h0, h4⟩ := hg
    obtain ⟨p, hp, K⟩ := genKeyProp_ok n e hn he h4 h0
    have hbad : ¬ (s.length % 4 = 0 ∧ (n.drop (leadZeros n)).length ≤ s.length) := fun q => hs ⟨hn, he, h0, h4, q.1, q.2⟩
    rw [hp, ok_bind]
    unfold modExpSw
    obtain ⟨w, hw1, hw2⟩ := loadExp_spec p.exponent K.expLen
    obtain ⟨m, hm⟩ : ∃ m, m = n.drop (leadZeros n) := ⟨_, rfl⟩
    rw [← hm] at h0 h4 hbad K
    have hmp : 0 < m.length := List.length_pos_iff.2 h0
    rw [hw1, ok_bind, if_neg (by rw [K.bits]; omega), if_neg (by rw [K.bits]; omega)]
    obtain ⟨k, hk⟩ : ∃ k, m.length = 4 * k := ⟨m.length / 4, by omega⟩
    have hlen : p.numBits / 32 = k := by rw [K.bits]; omega
    rw [hlen]
    have hml : (bytesWords p.modulus).length = k := by rw [bytesWords_length, K.modulus]; omega
    have hrl : (bytesWords p.rr).length = k := by rw [bytesWords_length, K.rrLen]; omega
    unfold convertBE
    rw [slice_eq (by omega), ok_bind, ok_bind, slice_eq (by omega), ok_bind, ok_bind]
    by_cases hs4 : s.length % 4 = 0
    · rw [if_neg (by omega)]
      unfold powMod
      dsimp only
      rw [if_neg (by omega)]
      have : slice (bytesWords s) 0 k = .error .ub := by
        unfold slice
        rw [if_neg]
        rw [bytesWords_length]
        intro h
        exact hbad ⟨hs4, by omega⟩
      rw [this]; rfl
    · rw [if_pos hs4]; rfl
  · rw [genKeyProp_ub n e hg]; rfl

end Ack.Powm
