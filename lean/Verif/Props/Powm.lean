import Verif.Proof.PowmApi
import Verif.Props.Rsa
/-!
# Properties of the software modular exponentiation (C52-C55, C70)

`swModExp base exponent modulus` is what `powm` runs when the host intrinsics are disabled: `ok (some out)` is success with
the final content of the output buffer, `ok none` an error code, `error ub` an access outside an array.
-/
namespace Ack.Props
open Ack Ack.Big Ack.Powm

theorem drop_leadZeros (n : List Byte) : n.drop (leadZeros n) = n.dropWhile (· == 0) := by
  induction n with
  | nil => rfl
  | cons b t ih =>
    by_cases h : b = 0
    · subst h
      rw [leadZeros, if_pos rfl, List.drop_succ_cons, ih]
      simp
    · rw [leadZeros, if_neg h, List.drop_zero, List.dropWhile_cons_of_neg (by simpa using h)]

/-! ## C53: word primitives -/

/-- A comparison result: one for true, zero for false. -/
def asWord (p : Prop) [Decidable p] : Word := if p then 1 else 0

theorem bit_asWord (p : Prop) [Decidable p] : bit (decide p) = asWord p := by
  unfold asWord; by_cases h : p <;> simp [h]

/-- C53: the comparisons return 1 or 0 as their comments say, for all 32-bit words. -/
theorem C53_compare (x y : Word) :
    EQ x y = asWord (x = y) ∧ NEQ x y = asWord (x ≠ y) ∧ GT x y = asWord (x.toNat > y.toNat) ∧
    GE x y = asWord (x.toNat ≥ y.toNat) ∧ LT x y = asWord (x.toNat < y.toNat) := by
  rw [EQ_spec, NEQ_spec, GT_spec, GE_spec, LT_spec]
  exact ⟨bit_asWord _, bit_asWord _, bit_asWord _, bit_asWord _, bit_asWord _⟩

example : GT 0x80000000 0x7fffffff = 1 ∧ GT 5 5 = 0 ∧ GE 5 5 = 1 := by decide

/-- C53: `NOT` negates and `MUX` selects. -/
theorem C53_select (p : Prop) [Decidable p] (x y : Word) :
    NOT (asWord p) = asWord (¬ p) ∧ MUX (asWord p) x y = if p then x else y := by
  unfold asWord
  by_cases h : p
  · simp only [h, if_true, not_true, if_false]
    exact ⟨by decide, by have := MUX_bit true x y; simpa using this⟩
  · simp only [h, if_false, not_false_eq_true, if_true]
    exact ⟨by decide, by have := MUX_bit false x y; simpa using this⟩

/-- C53: `BIT_LENGTH` is the least number of bits that hold the word. -/
theorem C53_bit_length (x : Word) (k : Nat) : (BIT_LENGTH x).toNat ≤ k ↔ x.toNat < 2 ^ k := by
  rw [BIT_LENGTH_spec]
  constructor
  · intro h
    exact lt_of_lt_of_le (bitLen_lt _) (Nat.pow_le_pow_right (by norm_num) h)
  · intro h
    by_cases h0 : x.toNat = 0
    · rw [h0, bitLen_zero]; omega
    · have := (Nat.pow_lt_pow_iff_right (a := 2) (by norm_num)).1 (lt_of_le_of_lt (le_bitLen h0) h)
      omega

example : BIT_LENGTH 0 = 0 ∧ BIT_LENGTH 0xffffffff = 32 ∧ BIT_LENGTH 0x10000 = 17 := by decide

/-- C53: the byte swaps reverse the bytes of a word. -/
theorem C53_swab (a b c d e f g h : Byte) :
    swab16 (b ++ a) = a ++ b ∧ swab32 (d ++ c ++ b ++ a) = a ++ b ++ c ++ d ∧
    swab64 ((d ++ c ++ b ++ a : Word) ++ (h ++ g ++ f ++ e : Word)) = (e ++ f ++ g ++ h : Word) ++ (a ++ b ++ c ++ d : Word) := by
  refine ⟨swab16_append a b, swab32_ld32 a b c d, ?_⟩
  rw [swab64_append]
  have h1 : swab32 (h ++ g ++ f ++ e) = (e ++ f ++ g ++ h : Word) := swab32_ld32 e f g h
  have h2 : swab32 (d ++ c ++ b ++ a) = (a ++ b ++ c ++ d : Word) := swab32_ld32 a b c d
  rw [h1, h2]

/-- C53: `br_divrem` divides the 64-bit number `hi:lo` when `hi < d`. -/
theorem C53_divrem (hi lo d : Word) (h : hi.toNat < d.toNat) :
    (divrem hi lo d).1.toNat = (hi.toNat * 2 ^ 32 + lo.toNat) / d.toNat ∧
    (divrem hi lo d).2.toNat = (hi.toNat * 2 ^ 32 + lo.toNat) % d.toNat := divrem_lt hi lo d h

/-- C53: when `hi = d` the quotient is truncated to 32 bits and the remainder is right. -/
theorem C53_divrem_eq (lo d : Word) (h : 0 < d.toNat) :
    (divrem d lo d).1.toNat = (d.toNat * 2 ^ 32 + lo.toNat) / d.toNat % 2 ^ 32 ∧
    (divrem d lo d).2.toNat = (d.toNat * 2 ^ 32 + lo.toNat) % d.toNat := divrem_eq lo d h

example : divrem 0x12345678 0x9abcdef0 0x87654321 = (0x226b9022, 0x38bc648e) := by decide +kernel

/-! ## C54: Montgomery constants -/

/-- C54: `br_i32_ninv32` is minus the inverse modulo 2^32 for every odd word, and zero for an even one. -/
theorem C54_ninv (x : Word) : (x.toNat % 2 = 1 → (ninv32 x).toNat * x.toNat % 2 ^ 32 = 2 ^ 32 - 1) ∧
    (x.toNat % 2 = 0 → ninv32 x = 0) := by
  refine ⟨fun h => ?_, ninv32_even x⟩
  have := congrArg BitVec.toNat (ninv32_odd x h)
  rw [BitVec.toNat_mul] at this
  rw [this]; rfl

example : (ninv32 0x12345679).toNat * 0x12345679 % 2 ^ 32 = 2 ^ 32 - 1 := by decide

/-- C54: the key constants: for every non-zero modulus whose significant byte length is a multiple of four,
`rsa_gen_key_prop` succeeds with `rr = 2^(2 bits) mod n` on the significant bytes, `n0inv n = -1 mod 2^32` when `n` is
odd, the significant modulus and the exponent padded to eight bytes. -/
theorem C54_key (n e : List Byte) (hn : n.length < 2 ^ 27) (he : e.length ≤ 8) (h0 : n.dropWhile (· == 0) ≠ [])
    (h4 : (n.dropWhile (· == 0)).length % 4 = 0) :
    ∃ p, genKeyProp n e = .ok p ∧ p.modulus = n.dropWhile (· == 0) ∧ p.numBits = 8 * p.modulus.length ∧
      p.exponent.length = 8 ∧ beVal p.exponent = beVal e ∧
      p.rr.length = p.modulus.length ∧ beVal p.rr = 2 ^ (2 * p.numBits) % beVal n ∧
      (beVal n % 2 = 1 → p.n0inv.toNat * beVal n % 2 ^ 32 = 2 ^ 32 - 1) := by
  rw [← drop_leadZeros] at h0 h4 ⊢
  obtain ⟨p, hp, K⟩ := genKeyProp_ok n e hn he h4 h0
  have hmn : beVal (n.drop (leadZeros n)) = beVal n := beVal_dropLead n
  refine ⟨p, hp, K.modulus, by rw [K.modulus, K.bits], K.expLen, K.exp, by rw [K.modulus, K.rrLen], ?_, fun hodd => ?_⟩
  · rw [K.rr, K.bits, hmn]
  · obtain ⟨w, hw1, hw2⟩ := K.n0
    rw [hmn] at hw2
    have := (C54_ninv w).1 (by omega)
    rw [hw1, ← Nat.mul_mod_mod, ← hw2]
    exact this

example : ∃ p, genKeyProp [0, 0xc0, 0, 0, 1, 0, 0, 0, 7] [1, 0, 1] = .ok p ∧ p.numBits = 64 ∧
    beVal p.rr = 2 ^ 128 % 0xc000000100000007 := by
  obtain ⟨p, h1, h2, h3, -, -, -, h4, -⟩ := C54_key [0, 0xc0, 0, 0, 1, 0, 0, 0, 7] [1, 0, 1] (by decide) (by decide) (by decide) (by decide)
  have : p.numBits = 64 := by rw [h3, h2]; rfl
  exact ⟨p, h1, this, by rw [h4, this]; decide⟩

/-- C54: the conversions between octet strings and word arrays: an octet string of any length that fits the array, decoded and
encoded again into `len` octets, has the value modulo `256^len` (cut off on the left, or padded with zeros). -/
theorem C54_bytes (x : List Word) (src : List Byte) (len : Nat) (h : 1 + (src.length + 3) / 4 ≤ x.length) (hx : x.length < 2 ^ 27) :
    ∃ y r, decode x src = .ok y ∧ encode len y = .ok r ∧ r.length = len ∧ beVal r = beVal src % 256 ^ len :=
  decode_encode x src len h hx

example : (decode (List.replicate 3 0xffffffff) [0, 1, 2, 3, 4, 5, 6]).bind (encode 3) = .ok [4, 5, 6] ∧
    (decode (List.replicate 3 0xffffffff) [0, 1, 2, 3, 4, 5, 6]).bind (encode 8) = .ok [0, 0, 1, 2, 3, 4, 5, 6] := by decide

/-! ## C52: exactness -/

/-- C52: the exact outcome for every odd modulus whose significant byte length `L` is a multiple of four, every base
buffer of at least `L` bytes (a multiple of four) and every odd exponent of at least 3 in at most eight bytes.  The first
`L` bytes hold the power, the rest of the buffer is untouched.  The exponent used is the given one below 2^33; above, all
bits from 32 up to just below the top one are ignored. -/
theorem C52_effective (s e n : List Byte) (hn : n.length < 2 ^ 27) (he : e.length ≤ 8) (hodd : beVal n % 2 = 1)
    (h4 : (n.dropWhile (· == 0)).length % 4 = 0) (hs4 : s.length % 4 = 0) (hsl : (n.dropWhile (· == 0)).length ≤ s.length)
    (he2 : beVal e % 2 = 1) (he3 : 3 ≤ beVal e) (hb : beVal (s.take (n.dropWhile (· == 0)).length) < beVal n) :
    ∃ front, swModExp s e n = .ok (some (front ++ s.drop (n.dropWhile (· == 0)).length)) ∧
      front.length = (n.dropWhile (· == 0)).length ∧
      beVal front = beVal (s.take (n.dropWhile (· == 0)).length) ^
        (if beVal e < 2 ^ 33 then beVal e else 2 ^ (Spec.bitLen (beVal e) - 1) + beVal e % 2 ^ 32) % beVal n := by
  rw [← drop_leadZeros] at *
  have h0 : n.drop (leadZeros n) ≠ [] := by
    intro h
    have hz := beVal_dropLead n
    rw [h] at hz
    simp [beVal] at hz
    omega
  obtain ⟨front, h1, h2, h3⟩ := (swModExp_spec s e n ⟨hn, he, h0, h4, hs4, hsl⟩).2 (by omega)
  obtain ⟨h5, h6⟩ := h3 hodd
  refine ⟨front, h1, h2, ?_⟩
  rw [Nat.mod_eq_of_lt (h6 hb)] at h5
  exact h5

/-- C52: the software exponentiation is exact for every odd modulus whose byte length is a multiple of four and that has
no leading zero byte, every base below it and every odd exponent `3 ≤ e < 2^33`.  Missing from the full claim: exponents
of 2^33 and more, where it is wrong (`C52_wrong_exponent`). -/
theorem C52_exact_partial (n e : List Byte) (hn : n.length < 2 ^ 27) (he : e.length ≤ 8) (hh : ∃ b ∈ n.head?, b ≠ 0)
    (hodd : beVal n % 2 = 1) (h4 : n.length % 4 = 0) (he2 : beVal e % 2 = 1) (he3 : 3 ≤ beVal e) (he33 : beVal e < 2 ^ 33) :
    ModExpAt swModExp n e := by
  have hdw : n.dropWhile (· == 0) = n := by
    obtain ⟨b, h1, h2⟩ := hh
    cases n with
    | nil => cases h1
    | cons c t =>
      have : c = b := by simpa using h1
      subst this
      rw [List.dropWhile_cons_of_neg (by simpa using h2)]
  intro s hs hlt
  obtain ⟨front, h1, h2, h3⟩ := C52_effective s e n hn he hodd (by rw [hdw]; exact h4) (by omega) (by rw [hdw]; omega) he2 he3
    (by rw [hdw, List.take_of_length_le (by omega)]; exact hlt)
  rw [hdw, List.drop_eq_nil_of_le (by omega), List.append_nil] at h1
  rw [hdw] at h2 h3
  rw [List.take_of_length_le (by omega), if_pos he33] at h3
  exact ⟨front, h1, h2, h3⟩

/-- With a usual key, the software path gives RFC 8017 verification. -/
example (sig T : List Byte) (n : List Byte) (hl : n.length = 256) (hn : ∃ b ∈ n.head?, b ≠ 0) (hodd : beVal n % 2 = 1) :
    ∃ b, pkcs1Verify swModExp T.length n [1, 0, 1] sig (.ok T) = .ok b ∧ (b = true ↔ Spec.Pkcs1Valid n [1, 0, 1] T sig) :=
  C48_pkcs1_partial swModExp n [1, 0, 1] sig T hn
    (C52_exact_partial n [1, 0, 1] (by omega) (by decide) hn hodd (by omega) (by decide) (by decide) (by decide)) (by decide) (by decide)

example : swModExp [0, 0, 0x12, 0x34, 0x56, 0x78, 0x9a, 0xbc] [1, 0, 1] [0xc0, 0, 0, 1, 0, 0, 0, 7] =
    .ok (some [0x0f, 0x5e, 0x73, 0xae, 0x13, 0x0a, 0x19, 0x60]) := by decide +kernel

/-- C52 fails for larger exponents: bit 32 of `2^33 + 2^32 + 1` is ignored, so modulo `2^31 + 1` the power of 2 comes out
as `2^(2^33+1)` = 0x200 instead of 0x2000. -/
theorem C52_wrong_exponent :
    swModExp [0, 0, 0, 2] [3, 0, 0, 0, 1] [0x80, 0, 0, 1] = .ok (some [0, 0, 2, 0]) ∧
    beVal [0, 0, 0, 2] ^ beVal [3, 0, 0, 0, 1] % beVal [0x80, 0, 0, 1] = 0x2000 := by
  refine ⟨by decide +kernel, ?_⟩
  have h1 : beVal [0, 0, 0, 2] = 2 := by decide
  have h2 : beVal [3, 0, 0, 0, 1] = 62 * 207820998 + 13 := by decide
  have h3 : beVal [0x80, 0, 0, 1] = 2147483649 := by decide
  rw [h1, h2, h3]
  have key : ∀ q : Nat, 2 ^ (62 * q + 13) % 2147483649 = 0x2000 := by
    intro q
    rw [pow_add, pow_mul, Nat.mul_mod, Nat.pow_mod]
    norm_num
  exact key _

/-- C52: an exponent that is even or below 3 is refused with an error code. -/
theorem C52_refused (s e n : List Byte) (hn : n.length < 2 ^ 27) (he : e.length ≤ 8) (h0 : n.dropWhile (· == 0) ≠ [])
    (h4 : (n.dropWhile (· == 0)).length % 4 = 0) (hs4 : s.length % 4 = 0) (hsl : (n.dropWhile (· == 0)).length ≤ s.length)
    (hbad : beVal e < 3 ∨ beVal e % 2 = 0) : swModExp s e n = .ok none := by
  rw [← drop_leadZeros] at *
  exact (swModExp_spec s e n ⟨hn, he, h0, h4, hs4, hsl⟩).1 (by omega)

example : swModExp [1, 2, 3, 4] [2] [5, 6, 7, 9] = .ok none := by decide +kernel

/-- C52: a modulus with a leading zero word is computed in the wrong place: the power of the leading bytes of the base
lands at the front of the buffer. -/
theorem C52_wrong_leading_zero :
    swModExp [0, 0, 0, 0, 0, 0, 0, 2] [3] [0, 0, 0, 0, 0xff, 0xff, 0xff, 0xfb] = .ok (some [0, 0, 0, 0, 0, 0, 0, 2]) := by
  decide +kernel

/-! ## C55: memory safety -/

/-- C55: the software path stays inside its buffers exactly when the exponent has at most eight bytes, the modulus is not
zero, its significant length is a multiple of four, and the base buffer is at least as long and a multiple of four. -/
theorem C55_safe_iff (s e n : List Byte) (hn : n.length < 2 ^ 27) :
    (∃ r, swModExp s e n = .ok r) ↔
      e.length ≤ 8 ∧ n.dropWhile (· == 0) ≠ [] ∧ (n.dropWhile (· == 0)).length % 4 = 0 ∧ s.length % 4 = 0 ∧
        (n.dropWhile (· == 0)).length ≤ s.length := by
  rw [← drop_leadZeros]
  constructor
  · rintro ⟨r, hr⟩
    by_contra h
    rw [swModExp_ub s e n (fun q => h q.2)] at hr
    cases hr
  · rintro ⟨he, h0, h4, hs4, hsl⟩
    obtain ⟨h1, h2⟩ := swModExp_spec s e n ⟨hn, he, h0, h4, hs4, hsl⟩
    by_cases hb : beVal e < 2 ∨ beVal e % 2 = 0
    · exact ⟨_, h1 hb⟩
    · obtain ⟨f, hf, _⟩ := h2 hb
      exact ⟨_, hf⟩

/-- C55: outside those sizes the behaviour is undefined: nothing is checked. -/
theorem C55_unsafe (s e n : List Byte)
    (h : e.length > 8 ∨ n.dropWhile (· == 0) = [] ∨ (n.dropWhile (· == 0)).length % 4 ≠ 0) : swModExp s e n = .error .ub := by
  rw [← drop_leadZeros] at h
  apply swModExp_ub
  rintro ⟨_, h1, h2, h3, _⟩
  rcases h with h | h | h
  · omega
  · exact h2 h
  · exact h h3

/-- The significant length counts: 2049-bit keys and a zero modulus are unsafe. -/
example : swModExp [1, 2, 3, 4] [3] [0, 6, 7, 9] = .error .ub ∧ swModExp [1, 2, 3, 4] [3] [0, 0, 0, 0] = .error .ub ∧
    swModExp [1, 2, 3, 4] [0, 0, 0, 0, 0, 0, 0, 0, 3] [5, 6, 7, 9] = .error .ub := by decide +kernel

theorem pkcs1_total {me : ModExp} {n e sig T : List Byte} (h : sig.length = n.length → ∃ out, rsavp1 me n e sig = .ok out) :
    ∃ b, pkcs1Verify me T.length n e sig (.ok T) = .ok b := by
  unfold pkcs1Verify
  by_cases hl : sig.length ≠ n.length
  · rw [if_pos hl]; exact ⟨_, rfl⟩
  · rw [if_neg hl]
    obtain ⟨em, hem⟩ := h (by omega)
    rw [hem, ok_bind]
    by_cases h1 : em.length < T.length + 11
    · rw [if_pos h1]; exact ⟨_, rfl⟩
    · rw [if_neg h1, rdByte_lt (show 0 < em.length by omega), ok_bind, rdByte_lt (show 1 < em.length by omega), ok_bind]
      split
      · exact ⟨_, rfl⟩
      · dsimp only
        rw [rdByte_lt (show 2 < em.length by omega), ok_bind,
          rdByte_lt (show 2 + (em.length - T.length - 3) < em.length by omega), ok_bind]
        split
        · exact ⟨_, rfl⟩
        · unfold memEq
          rw [if_pos (by omega), ok_bind]
          split
          · exact ⟨_, rfl⟩
          · rw [ok_bind, if_pos (by omega)]; exact ⟨_, rfl⟩

theorem rsavp1_total {me : ModExp} {n e sig : List Byte} (he0 : e ≠ []) (he : e.length ≤ 8) (hn0 : n ≠ []) (hl : sig.length = n.length)
    (h : ∃ r, me sig e n = .ok r) : ∃ out, rsavp1 me n e sig = .ok out := by
  have hnp : 0 < n.length := List.length_pos_iff.2 hn0
  have hep : 0 < e.length := List.length_pos_iff.2 he0
  unfold rsavp1
  rw [isSValid_spec, ok_bind]
  split
  · exact ⟨_, rfl⟩
  · unfold powm powmC
    obtain ⟨r, hr⟩ := h
    rw [if_neg (by omega), check_true (by simp only [bne_iff_ne, Bool.and_eq_true]; omega), ok_bind, check_true (by simpa using hl), ok_bind, if_neg (by simp; omega),
      check_true (by simp; omega), ok_bind, hr, ok_bind]
    cases r <;> exact ⟨_, rfl⟩

/-- C55 at the interface: with the software path, PKCS #1 v1.5 verification returns true or false for every signature and
digest if the modulus has a non-zero first byte and a length that is a multiple of four and the exponent one to eight
bytes (any value, also even or zero). -/
theorem C55_pkcs1_total (alg : PkcsAlg) (n e digest sig : List Byte) (hd : digest.length = alg.size)
    (hh : ∃ b ∈ n.head?, b ≠ 0) (hn : n.length < 2 ^ 27) (h4 : n.length % 4 = 0) (he0 : e ≠ []) (he : e.length ≤ 8) :
    ∃ b, alg.verify swModExp n e digest sig = .ok b := by
  have hdw : n.dropWhile (· == 0) = n := by
    obtain ⟨b, h1, h2⟩ := hh
    cases n with
    | nil => cases h1
    | cons c t =>
      have : c = b := by simpa using h1
      subst this
      rw [List.dropWhile_cons_of_neg (by simpa using h2)]
  have hn0 : n ≠ [] := by rintro rfl; obtain ⟨b, h1, _⟩ := hh; cases h1
  have key : ∀ pfx : List Byte, ∃ b, pkcs1Verify swModExp (pfx.length + alg.size) n e sig (genT (pfx.length + alg.size) pfx digest) = .ok b := by
    intro pfx
    obtain ⟨h1, h2⟩ := gen_ok (pfx := pfx) hd
    rw [h1, h2]
    refine pkcs1_total fun hl => rsavp1_total he0 he hn0 hl ((C55_safe_iff sig e n hn).2 ?_)
    rw [hdw]
    exact ⟨he, hn0, h4, by omega, by omega⟩
  cases alg <;> exact key _

example : ∃ b, PkcsAlg.sha256.verify swModExp [0x80, 1, 2, 4] [0] (List.replicate 32 7) [1, 2, 3, 4] = .ok b :=
  C55_pkcs1_total .sha256 _ _ _ _ (by simp [PkcsAlg.size]) ⟨_, rfl, by decide⟩ (by decide) (by decide) (by decide) (by decide)

/-! ## C70: failed exponentiation -/

theorem rsavp1_none {me : ModExp} {n e sig out : List Byte} (h : me sig e n = .ok none) (ho : rsavp1 me n e sig = .ok out) :
    ∃ k, out = List.replicate k 0 := by
  unfold rsavp1 at ho
  rw [isSValid_spec, ok_bind] at ho
  split at ho
  · cases ho; exact ⟨0, rfl⟩
  · unfold powm at ho
    have key : ∀ z, powmC me sig e n (List.replicate n.length 0) = .ok z → z.2 = List.replicate n.length 0 := by
      intro z hz
      unfold powmC at hz
      rcases hc : check (sig.length != 0 && n.length != 0 && e.length != 0 && n.length != 0) with x | u
      · rw [hc] at hz; cases hz
      · rw [hc, ok_bind] at hz
        rcases hc2 : check (sig.length == n.length) with x | u
        · rw [hc2] at hz; cases hz
        · rw [hc2, ok_bind] at hz
          split at hz
          · cases hz; rfl
          · rcases hc3 : check (decide ((List.replicate n.length (0 : Byte)).length ≥ sig.length)) with x | u
            · rw [hc3] at hz; cases hz
            · rw [hc3, ok_bind, h, ok_bind] at hz
              cases hz; rfl
    refine ⟨n.length, ?_⟩
    have fin : ∀ r : Res (Nat × List Byte), (∀ z, r = .ok z → z.2 = List.replicate n.length 0) →
        (do let (_, result) ← r; .ok result : Res (List Byte)) = .ok out → out = List.replicate n.length 0 := by
      intro r hr hq
      rcases r with x | z
      · cases hq
      · have := hr z rfl
        rw [ok_bind] at hq
        cases hq; exact this
    split at ho
    · rcases hc : check ((e.take (e.length - 8)).all (· == 0)) with x | u
      · rw [hc] at ho; cases ho
      · rw [hc, ok_bind] at ho
        exact fin _ key ho
    · exact fin _ key ho

theorem pkcs1_none {me : ModExp} {t : Nat} {n e sig : List Byte} {g : Res (List Byte)} (h : me sig e n = .ok none) :
    pkcs1Verify me t n e sig g ≠ .ok true := by
  intro ht
  unfold pkcs1Verify at ht
  split at ht
  · cases ht
  · rcases hr : rsavp1 me n e sig with x | em
    · rw [hr] at ht; cases ht
    · obtain ⟨k, hk⟩ := rsavp1_none h hr
      rw [hr, ok_bind] at ht
      split at ht
      · cases ht
      · next hlen =>
        rw [rdByte_lt (show 0 < em.length by omega), ok_bind, rdByte_lt (show 1 < em.length by omega), ok_bind] at ht
        rw [if_pos] at ht
        · cases ht
        · right
          subst hk
          rw [List.getElem_replicate]; decide

/-- C70: if the exponentiation reports an error for the signature, the PKCS #1 v1.5 interface never accepts. -/
theorem C70_pkcs1 (alg : PkcsAlg) (me : ModExp) (n e digest sig : List Byte) (h : me sig e n = .ok none) :
    alg.verify me n e digest sig ≠ .ok true := by
  cases alg <;> exact pkcs1_none h

/-- C70: the same for PSS. -/
theorem C70_pss (W : Nat) (me : ModExp) (H : Hash) (hLen : Nat) (n e digest sig : List Byte) (saltLen : Option (BitVec 32))
    (h : me sig e n = .ok none) : pssVerify W me H hLen n e saltLen digest sig ≠ .ok true := by
  intro ht
  unfold pssVerify at ht
  split at ht
  · cases ht
  · rcases hr : rsavp1 me n e sig with x | em
    · rw [hr] at ht; cases ht
    · obtain ⟨k, hk⟩ := rsavp1_none h hr
      rw [hr, ok_bind] at ht
      dsimp only at ht
      split at ht
      · cases ht
      · by_cases hp : 0 < em.length
        · rw [rdByte_lt (show em.length - 1 < em.length by omega), ok_bind, if_pos] at ht
          · cases ht
          · subst hk
            rw [List.getElem_replicate]; decide
        · have : em = [] := List.length_eq_zero_iff.1 (by omega)
          subst this
          cases ht

/-- An even exponent is refused by the software path, so nothing verifies under it. -/
example (digest sig : List Byte) (hs : sig.length = 4) : PkcsAlg.sha256.verify swModExp [5, 6, 7, 9] [4] digest sig ≠ .ok true :=
  C70_pkcs1 .sha256 swModExp _ _ _ _ (C52_refused sig [4] [5, 6, 7, 9] (by decide) (by decide) (by decide) (by decide) (by omega)
    (by rw [hs]; decide) (by decide))

end Ack.Props
