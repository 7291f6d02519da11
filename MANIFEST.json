{
 "claims": [
  {
   "property": "C01",
   "status": "partial",
   "theorems": [
    "Ack.Props.C01_in_place_partial",
    "Ack.Props.C01_in_place_wrong",
    "Ack.Props.C01_add",
    "Ack.Props.C01_sub",
    "Ack.Props.C01_incr",
    "Ack.Props.C01_decr",
    "Ack.Props.C01_neg_abs"
   ],
   "note": "x + y and x - y proved for all operands; +=, -= proved on fixed storage and on growable storage for operands of at most the inline words or subtracted magnitudes; beyond that the code has undefined behaviour (C01_in_place_wrong, C63_flex_dangling)"
  },
  {
   "property": "C02",
   "status": "proved",
   "theorems": [
    "Ack.Props.C02_mul",
    "Ack.Props.C02_mulAssign",
    "Ack.Props.C02_sqr"
   ],
   "note": "growable storage; destination aliasing is C63"
  },
  {
   "property": "C03",
   "status": "proved",
   "theorems": [
    "Ack.Props.C03_div_mod",
    "Ack.Props.C03_truncated",
    "Ack.Props.C03_zero"
   ],
   "note": "all capacities"
  },
  {
   "property": "C04",
   "status": "partial",
   "theorems": [
    "Ack.Props.C04_quot_rem",
    "Ack.Props.C04_quot_rem_fixed",
    "Ack.Props.C04_quot_rem_fixed_wrong"
   ],
   "note": "proved on growable storage; on N words the remainder is always right and the quotient is given exactly: it is 0 when it has to be rounded down and the truncated quotient has N words (C04_quot_rem_fixed, C04_quot_rem_fixed_wrong)"
  },
  {
   "property": "C05",
   "status": "proved",
   "theorems": [
    "Ack.Props.C05_relational",
    "Ack.Props.C05_compare"
   ],
   "note": ""
  },
  {
   "property": "C06",
   "status": "partial",
   "theorems": [
    "Ack.Props.C06_int",
    "Ack.Props.C06_word_partial",
    "Ack.Props.C06_word_negZero",
    "Ack.Props.C06_int64"
   ],
   "note": "violated for a minus-sign zero against unsigned 0 (C06_word_negZero); proved for int, int64, uint64 and every other word pair"
  },
  {
   "property": "C07",
   "status": "proved",
   "theorems": [
    "Ack.Props.C07_shl",
    "Ack.Props.C07_shr"
   ],
   "note": "growable storage"
  },
  {
   "property": "C08",
   "status": "partial",
   "theorems": [
    "Ack.Props.C08_add",
    "Ack.Props.C08_sub",
    "Ack.Props.C08_mul",
    "Ack.Props.C08_mulAssign_partial",
    "Ack.Props.C08_mulAssign_wrong",
    "Ack.Props.C08_add_spurious",
    "Ack.Props.C08_shl_partial",
    "Ack.Props.C08_shl_ub",
    "Ack.Props.C08_exact"
   ],
   "note": "+, - and operator* proved; operator*= keeps the left operand on overflow (C08_mulAssign_wrong), << writes outside the array (C08_shl_ub)"
  },
  {
   "property": "C09",
   "status": "proved",
   "theorems": [
    "Ack.Props.C09_reachable",
    "Ack.Props.C09_unique"
   ],
   "note": "by induction over all operation histories; set_bit is C13"
  },
  {
   "property": "C10",
   "status": "proved",
   "theorems": [
    "Ack.Props.C10_import",
    "Ack.Props.C10_import_fixed",
    "Ack.Props.C10_export",
    "Ack.Props.C10_roundtrip",
    "Ack.Props.C10_roundtrip_bytes"
   ],
   "note": "run-time path of set_bytes"
  },
  {
   "property": "C11",
   "status": "proved",
   "theorems": [
    "Ack.Props.C11_get_bytes"
   ],
   "note": ""
  },
  {
   "property": "C12",
   "status": "proved",
   "theorems": [
    "Ack.Props.C12_bit_length",
    "Ack.Props.C12_byte_length",
    "Ack.Props.C12_test_bit",
    "Ack.Props.C12_predicates"
   ],
   "note": ""
  },
  {
   "property": "C13",
   "status": "partial",
   "theorems": [
    "Ack.Props.C13_in_words_partial",
    "Ack.Props.C13_tail",
    "Ack.Props.C13_fresh",
    "Ack.Props.C13_full_wrong",
    "Ack.Props.C13_grow_wrong",
    "Ack.Props.C13_stale_wrong",
    "Ack.Props.C13_zero_wrong"
   ],
   "note": "exact behaviour for every position and storage content; the full statement is false (C13_stale_wrong, C13_grow_wrong, C13_full_wrong, C13_zero_wrong)"
  },
  {
   "property": "C14",
   "status": "proved",
   "theorems": [
    "Ack.Props.C14_naf",
    "Ack.Props.C14_unique",
    "Ack.Props.C14_negative",
    "Ack.Props.C14_unique_top",
    "Ack.Props.C14_fixed",
    "Ack.Props.C14_negative_any"
   ],
   "note": "growable storage and every fixed storage with one free word (C14_fixed); the digits are unique (C14_unique_top)"
  },
  {
   "property": "C15",
   "status": "proved",
   "theorems": [
    "Ack.Props.C15_pow",
    "Ack.Props.C15_pow_fixed",
    "Ack.Props.C15_modexp",
    "Ack.Props.C15_modexp_small",
    "Ack.Props.C15_modexp_unreduced",
    "Ack.Props.C15_modexp_word",
    "Ack.Props.C15_pow_int64"
   ],
   "note": ""
  },
  {
   "property": "C16",
   "status": "partial",
   "theorems": [
    "Ack.Props.C16_modinv",
    "Ack.Props.C16_modinv_fixed_partial",
    "Ack.Props.C16_fixed_wrong",
    "Ack.Props.C16_modulus_small"
   ],
   "note": "values: growable storage; fixed capacity without a spare word returns a wrong value (C16_fixed_wrong). On the storage itself C81_modinv_partial: growable storage needs a modulus of at most the inline words, beyond that the code has undefined behaviour (C81_modinv_wrong)"
  },
  {
   "property": "C17",
   "status": "partial",
   "theorems": [
    "Ack.Props.C17_lcm_partial",
    "Ack.Props.C17_lcm_abs_partial",
    "Ack.Props.C17_lcm_negative",
    "Ack.Props.C17_lcm_zero",
    "Ack.Props.C17_lcm_wrong",
    "Ack.Props.C17_gcd",
    "Ack.Props.C17_gcd_abs",
    "Ack.Props.C17_gcd_negative"
   ],
   "note": "gcd proved in full; lcm for non-negative arguments whose gcd is one word, has a clear top bit in its top word, or exceeds half of x; outside of that the code is wrong (C17_lcm_wrong) and lcm(0,0) aborts (C17_lcm_zero). For arguments of any sign the magnitude, under the same conditions (C17_lcm_abs_partial)"
  },
  {
   "property": "C18",
   "status": "proved",
   "theorems": [
    "Ack.Props.C18_jacobi"
   ],
   "note": "against Mathlib jacobiSym"
  },
  {
   "property": "C19",
   "status": "partial",
   "theorems": [
    "Ack.Props.C19_or",
    "Ack.Props.C19_and",
    "Ack.Props.C19_word_partial",
    "Ack.Props.C19_negZero"
   ],
   "note": "or/and proved; word overload and |= wrong for a minus-sign zero (C19_negZero)"
  },
  {
   "property": "C20",
   "status": "partial",
   "theorems": [
    "Ack.Props.C20_int",
    "Ack.Props.C20_word",
    "Ack.Props.C20_div_int",
    "Ack.Props.C20_div_word_partial",
    "Ack.Props.C20_divu1_sign",
    "Ack.Props.C20_modu1_ub",
    "Ack.Props.C20_int64",
    "Ack.Props.C20_uint64",
    "Ack.Props.C20_modAssign64_wrong",
    "Ack.Props.C20_ctor",
    "Ack.Props.C20_div_word_exact",
    "Ack.Props.C20_modAssign64_exact"
   ],
   "note": "exact for int and 64-bit operands; division by an unsigned word loses the sign, % by an unsigned word is undefined behaviour, %= by 64-bit divides (witnesses); what these overloads do compute is proved for every operand (C20_div_word_exact, C20_modu1_ub, C20_modAssign64_exact)"
  },
  {
   "property": "C21",
   "status": "proved",
   "theorems": [
    "Ack.Props.C21_histories",
    "Ack.Props.C21_no_ub",
    "Ack.Props.C21_independent",
    "Ack.Props.C21_grown_elements_unset"
   ],
   "note": "Every finite history of construction, copy, move, assignment, resize, clear, swap and element access refines independent sequences with capacity N (fixed_buffer) or unbounded (flexbuffer); no history is undefined behaviour except reading an element that was never written. C21_grown_elements_unset records that elements added by resize have no defined value (stale inline words, indeterminate heap words). Allocation failure, size_t overflow and the constant-evaluated branches are not modelled."
  },
  {
   "property": "C22",
   "status": "proved",
   "theorems": [
    "Ack.Props.C22_add",
    "Ack.Props.C22_sub",
    "Ack.Props.C22_neg",
    "Ack.Props.C22_mul",
    "Ack.Props.C22_sqr",
    "Ack.Props.C22_int",
    "Ack.Props.C22_eq",
    "Ack.Props.C22_int_unreduced",
    "Ack.Props.C22_null"
   ],
   "note": "all moduli > 1, all capacities with room for a product; native operands in [0,p)"
  },
  {
   "property": "C23",
   "status": "proved",
   "theorems": [
    "Ack.Props.C23_inv",
    "Ack.Props.C23_div",
    "Ack.Props.C23_div_composite"
   ],
   "note": "prime moduli; composite moduli: aborts exactly for non-invertible divisors"
  },
  {
   "property": "C24",
   "status": "proved",
   "theorems": [
    "Ack.Props.C24_sqrt"
   ],
   "note": "odd primes; includes termination of the Tonelli-Shanks loops"
  },
  {
   "property": "C25",
   "status": "partial",
   "theorems": [
    "Ack.Props.C25_normalize_partial",
    "Ack.Props.C25_wrong"
   ],
   "note": "violated by the code (C25_wrong); the exact set of inputs that are normalised is proved"
  },
  {
   "property": "C26",
   "status": "partial",
   "theorems": [
    "Ack.Props.C26_left_partial",
    "Ack.Props.C26_reversed",
    "Ack.Props.C26_wrong",
    "Ack.Props.C26_int_partial"
   ],
   "note": "violated by the code for - and / (C26_reversed, C26_wrong); + and * proved"
  },
  {
   "property": "C27",
   "status": "proved",
   "theorems": [
    "Ack.Props.C27_affine_group_law",
    "Ack.Props.C27_denotation",
    "Ack.Props.C27_b_zero_wrong"
   ],
   "note": "For all curves over prime fields p > 3 with b != 0 (the hypothesis of the statement; C27_b_zero_wrong shows it is needed)."
  },
  {
   "property": "C28",
   "status": "proved",
   "theorems": [
    "Ack.Props.C28_projective_group_law",
    "Ack.Props.C28_denotation"
   ],
   "note": "All representatives, exceptional cases included."
  },
  {
   "property": "C29",
   "status": "partial",
   "theorems": [
    "Ack.Props.C29_jacobian_group_law",
    "Ack.Props.C29_denotation",
    "Ack.Props.C29_small_field_wrong"
   ],
   "note": "Proved for all fields of order p > 8; for p = 5, 7 the code is wrong (C29_small_field_wrong): the literal 8 is not reduced."
  },
  {
   "property": "C30",
   "status": "proved",
   "theorems": [
    "Ack.Props.C30_scalar_mul"
   ],
   "note": "All integers; Jacobian version over p > 8 with one spare word of storage."
  },
  {
   "property": "C31",
   "status": "proved",
   "theorems": [
    "Ack.Props.C31_mul_add",
    "Ack.Props.C31_exact",
    "Ack.Props.C31_negative_wrong"
   ],
   "note": "Non-negative scalars as stated; C31_negative_wrong shows negative scalars count as zero."
  },
  {
   "property": "C32",
   "status": "proved",
   "theorems": [
    "Ack.Props.C32_on_curve",
    "Ack.Props.C32_valid",
    "Ack.Props.C32_identity"
   ],
   "note": ""
  },
  {
   "property": "C33",
   "status": "proved",
   "theorems": [
    "Ack.Props.C33_eq",
    "Ack.Props.C33_eq_affine",
    "Ack.Props.C33_affine_across_curves"
   ],
   "note": "Points of one curve; C33_affine_across_curves shows affine == confuses x = 0 points of different curves."
  },
  {
   "property": "C34",
   "status": "proved",
   "theorems": [
    "Ack.Props.C34_conversions",
    "Ack.Props.C34_round_trip"
   ],
   "note": ""
  },
  {
   "property": "C35",
   "status": "proved",
   "theorems": [
    "Ack.Props.C35_decompress"
   ],
   "note": ""
  },
  {
   "property": "C36",
   "status": "proved",
   "theorems": [
    "Ack.Props.C36_round_trip",
    "Ack.Props.C36_injective",
    "Ack.Props.C36_format"
   ],
   "note": "Uncompressed: all points; compressed: y != 0 (points with y = 0 decode to the identity, see C35)."
  },
  {
   "property": "C37",
   "status": "partial",
   "theorems": [
    "Ack.Props.C37_malformed_partial",
    "Ack.Props.C37_uncompressed_accepts",
    "Ack.Props.C37_compressed",
    "Ack.Props.C37_wrong",
    "Ack.Props.C37_make_point",
    "Ack.Props.C37_exact",
    "Ack.Props.C37_unreduced_encode",
    "Ack.Props.C37_total",
    "Ack.Props.C37_unreduced_wrong"
   ],
   "note": "Violated by the code (C37_wrong): no on-curve check after tag 4, no range check after tags 2/3, trailing bytes after tag 0, non-residue gives the identity. C37_malformed_partial proves what does abort; C37_uncompressed_accepts and C37_compressed characterise the rest below the modulus; C37_exact gives the result for every x of the right length, reduced or not, and C37_total that no byte string is undefined. C37_unreduced_encode: a compressed x at or above p that decodes to a point re-encodes to the tag byte alone, which does not decode, and equals no reduced point; C37_unreduced_wrong shows two such encodings, one of which makes is_valid abort."
  },
  {
   "property": "C38",
   "status": "proved",
   "theorems": [
    "Ack.Props.C38_named_curves",
    "Ack.Props.C38_no_small_subgroup",
    "Ack.Props.C38_secg_values",
    "Ack.Props.C38_standard"
   ],
   "note": "All eight curves, native and wasm builds; p and n are proved prime by elliptic-curve certificates checked in the kernel, and the group order is exactly n."
  },
  {
   "property": "C39",
   "status": "proved",
   "theorems": [
    "Ack.Props.C39_generate"
   ],
   "note": ""
  },
  {
   "property": "C40",
   "status": "partial",
   "theorems": [
    "Ack.Props.C40_accepts_iff_partial",
    "Ack.Props.C40_exact",
    "Ack.Props.C40_sound",
    "Ack.Props.C40_assert",
    "Ack.Props.C40_cofactor_wrong"
   ],
   "note": "Exact result for every cofactor (C40_exact) and no false acceptance for any cofactor (C40_sound). The full equivalence holds for p <= 2n (all named curves, C67) and is violated for larger cofactors: C40_cofactor_wrong."
  },
  {
   "property": "C41",
   "status": "partial",
   "theorems": [
    "Ack.Props.C41_honest_partial",
    "Ack.Props.C41_exact",
    "Ack.Props.C41_wrong"
   ],
   "note": "Exact law for every cofactor (C41_exact): an honest signature is accepted iff the x-coordinate of its nonce point is below 2n; hence all for p <= 2n (all named curves, C67). Violated otherwise: C41_wrong."
  },
  {
   "property": "C42",
   "status": "proved",
   "theorems": [
    "Ack.Props.C42_range",
    "Ack.Props.C42_identity"
   ],
   "note": "For every point object, on the curve or not."
  },
  {
   "property": "C43",
   "status": "partial",
   "theorems": [
    "Ack.Props.C43_truncation_partial",
    "Ack.Props.C43_exact",
    "Ack.Props.C43_wrong",
    "Ack.Props.C43_secp521r1"
   ],
   "note": "Exact law for all lengths (C40_exact with C43_exact): the code uses the leading whole bytes and omits the final shift. So the claim holds when the bit length of n is a multiple of 8 or the message is not longer than n, and is violated otherwise: C43_wrong, C43_secp521r1."
  },
  {
   "property": "C44",
   "status": "partial",
   "theorems": [
    "Ack.Props.C44_sound_partial",
    "Ack.Props.C44_range",
    "Ack.Props.C44_exact",
    "Ack.Props.C44_negative_wrong",
    "Ack.Props.C44_unreduced_wrong"
   ],
   "note": "Exact result for all cofactors and messages when n <= p (C44_exact). Soundness proved for messages as in C43; violated otherwise: C44_negative_wrong, C44_unreduced_wrong."
  },
  {
   "property": "C45",
   "status": "partial",
   "theorems": [
    "Ack.Props.C45_complete_partial",
    "Ack.Props.C45_exact",
    "Ack.Props.C45_wrong"
   ],
   "note": "Exact law for all messages and n <= p (C45_exact): the key is recovered when e <= 2n, otherwise the key plus e/r G (C45_wrong)."
  },
  {
   "property": "C46",
   "status": "partial",
   "theorems": [
    "Ack.Props.C46_range_partial",
    "Ack.Props.C46_exact",
    "Ack.Props.C46_never_rejects",
    "Ack.Props.C46_wrong"
   ],
   "note": "Exact for a modulus without leading zero byte, and never rejects a valid signature for any modulus; for a modulus with leading zero bytes the check lets signatures above the modulus through (C46_wrong: a second accepted signature for the same digest). C46_exact gives the exact law for every modulus."
  },
  {
   "property": "C47",
   "status": "proved",
   "theorems": [
    "Ack.Props.C47_exact",
    "Ack.Props.C47_host"
   ],
   "note": "For every exponentiation that is exact at the key; the documented host function is exact at every key (C47_host), the software routine under C52."
  },
  {
   "property": "C48",
   "status": "partial",
   "theorems": [
    "Ack.Props.C48_pkcs1_partial",
    "Ack.Props.C48_api_partial",
    "Ack.Props.C48_exact",
    "Ack.Props.C48_host_all",
    "Ack.Props.C48_sound"
   ],
   "note": "Exact equivalence with RFC 8017 8.2.2 for all four interface functions, for moduli without leading zero byte (see C46_wrong for the others). C48_exact gives the exact accepted set for every modulus other than zero; C48_sound: an accepted signature reduced modulo n is RFC-valid."
  },
  {
   "property": "C49",
   "status": "partial",
   "theorems": [
    "Ack.Props.C49_wrapped",
    "Ack.Props.C49_accept",
    "Ack.Props.C49_pss_partial",
    "Ack.Props.C49_exact",
    "Ack.Props.C49_rejects_valid",
    "Ack.Props.C49_accepts_invalid",
    "Ack.Props.C49_overflow",
    "Ack.Props.C49_pss_sha384_partial",
    "Ack.Props.C49_pss_host_partial"
   ],
   "note": "Exact equivalence with RFC 8017 8.1.2 for every hash, salt length and digest when the top bit of the modulus is set and sizes fit size_t. Other moduli: C49_rejects_valid and C49_accepts_invalid; wrap-around of the size check on 32 bits: C49_overflow. verify_rsa_pss_sha384 with the modelled SHA-384: C49_pss_sha384_partial. C49_exact gives the exact accepted set for every modulus other than zero. For every salt length exactly the consistent signatures are accepted (C49_accept), none with a wrapping one (C49_wrapped)"
  },
  {
   "property": "C50",
   "status": "proved",
   "theorems": [
    "Ack.Props.C50_mgf1",
    "Ack.Props.C50_mgf1_xor"
   ],
   "note": "For both copy callbacks, all lengths."
  },
  {
   "property": "C51",
   "status": "proved",
   "theorems": [
    "Ack.Props.C51_assert_rsa",
    "Ack.Props.C51_assert_pss"
   ],
   "note": "PKCS#1 v1.5 and PSS wrappers; assert_ecdsa in C40_assert."
  },
  {
   "property": "C52",
   "status": "partial",
   "theorems": [
    "Ack.Props.C52_effective",
    "Ack.Props.C52_exact_partial",
    "Ack.Props.C52_wrong_exponent",
    "Ack.Props.C52_refused",
    "Ack.Props.C52_wrong_leading_zero"
   ],
   "note": "Exact for every odd modulus of 4k bytes without leading zero byte and every odd exponent 3 <= e < 2^33; the exact outcome (exponent bits from 32 up to below the top bit ignored) is proved for all 64-bit exponents in C52_effective, with counterexamples to the full claim in C52_wrong_exponent and C52_wrong_leading_zero."
  },
  {
   "property": "C53",
   "status": "proved",
   "theorems": [
    "Ack.Props.C53_compare",
    "Ack.Props.C53_select",
    "Ack.Props.C53_bit_length",
    "Ack.Props.C53_swab",
    "Ack.Props.C53_divrem",
    "Ack.Props.C53_divrem_eq"
   ],
   "note": "All 32-bit inputs."
  },
  {
   "property": "C54",
   "status": "proved",
   "theorems": [
    "Ack.Props.C54_ninv",
    "Ack.Props.C54_key",
    "Ack.Props.C54_bytes"
   ],
   "note": "All moduli below 2^27 bytes with a significant length that is a multiple of four; other lengths are undefined behaviour (C55)."
  },
  {
   "property": "C55",
   "status": "proved",
   "theorems": [
    "Ack.Props.C55_safe_iff",
    "Ack.Props.C55_unsafe",
    "Ack.Props.C55_pkcs1_total"
   ],
   "note": "Exact characterisation of the safe sizes (modulus below 2^27 bytes); every other size leads to an access outside an array."
  },
  {
   "property": "C56",
   "status": "proved",
   "theorems": [
    "Ack.Props.C56_sha384",
    "Ack.Props.C56_padding",
    "Ack.Props.C56_length"
   ],
   "note": "All byte strings below 2^64 bytes; the constants are proved to be the fractional roots of primes the standard defines."
  },
  {
   "property": "C57",
   "status": "proved",
   "theorems": [
    "Ack.Props.C57_sha3_256",
    "Ack.Props.C57_sha3_384",
    "Ack.Props.C57_sha3_512",
    "Ack.Props.C57_shake128",
    "Ack.Props.C57_shake256",
    "Ack.Props.C57_bits_injective"
   ],
   "note": "All messages and output lengths; the permutation, the padding and the sponge are proved against a bit-level FIPS 202."
  },
  {
   "property": "C58",
   "status": "proved",
   "theorems": [
    "Ack.Props.C58_shake128",
    "Ack.Props.C58_shake256"
   ],
   "note": ""
  },
  {
   "property": "C59",
   "status": "proved",
   "theorems": [
    "Ack.Props.C59_decode",
    "Ack.Props.C59_terminator",
    "Ack.Props.C59_two_zeros",
    "Ack.Props.C59_roundtrip",
    "Ack.Props.C59_buffer",
    "Ack.Props.C59_required_size",
    "Ack.Props.C59_fixed",
    "Ack.Props.C59_bigint"
   ],
   "note": "All strings and buffers; a null pointer argument has no counterpart in the model."
  },
  {
   "property": "C60",
   "status": "proved",
   "theorems": [
    "Ack.Props.C60_memxor"
   ],
   "note": "Source and destination are separate buffers."
  },
  {
   "property": "C61",
   "status": "proved",
   "theorems": [
    "Ack.Props.C61_roundtrip",
    "Ack.Props.C61_overlong_prefix_undefined"
   ],
   "note": "Byte strings below 2^32; the eosio varint format is modelled from its documentation. C61_overlong_prefix_undefined: operator>> does not reject a length beyond the stream."
  },
  {
   "property": "C62",
   "status": "proved",
   "theorems": [
    "Ack.Props.C62_key_equality"
   ],
   "note": "Views into the same memory are assumed coherent."
  },
  {
   "property": "C63",
   "status": "partial",
   "theorems": [
    "Ack.Props.C63_fixed_partial",
    "Ack.Props.C63_flex",
    "Ack.Props.C63_flex_partial",
    "Ack.Props.C63_flex_wrong",
    "Ack.Props.C63_flex_dangling",
    "Ack.Props.C63_div_wrong",
    "Ack.Props.C63_add_sub",
    "Ack.Props.C63_mul",
    "Ack.Props.C63_word",
    "Ack.Props.C63_bits_partial",
    "Ack.Props.C63_bits_wrong"
   ],
   "note": "every straight-line program with any aliasing on fixed_buffer and flexbuffer; the full statement is false for sums on flexbuffer (C63_flex_wrong, C63_flex_dangling), quotient into divisor (C63_div_wrong), sign of or_bit/and_bit (C63_bits_wrong)"
  },
  {
   "property": "C64",
   "status": "proved",
   "theorems": [
    "Ack.Props.C64_malleable"
   ],
   "note": "For domains with p <= 2n and keys annihilated by n."
  },
  {
   "property": "C65",
   "status": "proved",
   "theorems": [
    "Ack.Props.C65_pkcs1",
    "Ack.Props.C65_pss"
   ],
   "note": "For every exponentiation routine, exact or not."
  },
  {
   "property": "C66",
   "status": "proved",
   "theorems": [
    "Ack.Props.C66_verify",
    "Ack.Props.C66_constructor"
   ],
   "note": "Over prime fields with b != 0."
  },
  {
   "property": "C67",
   "status": "proved",
   "theorems": [
    "Ack.Props.C67_named_domain",
    "Ack.Props.C67_named_verify",
    "Ack.Props.C67_named_recover_sound",
    "Ack.Props.C67_named_recover_iff"
   ],
   "note": ""
  },
  {
   "property": "C68",
   "status": "partial",
   "theorems": [
    "Ack.Props.C68_pkcs1_honest",
    "Ack.Props.C68_pss_honest_partial",
    "Ack.Props.C68_pss_any",
    "Ack.Props.C68_pss_exact",
    "Ack.Props.C68_pss_wrong"
   ],
   "note": "PKCS#1 v1.5 in full. PSS: for moduli with the top bit set, and the exact law for all others (C68_pss_any, C68_pss_exact: acceptance of an honest signature depends on the mask); violated there: C68_pss_wrong."
  },
  {
   "property": "C69",
   "status": "proved",
   "theorems": [
    "Ack.Props.C69_pkcs1_binding",
    "Ack.Props.C69_pss_binding",
    "Ack.Props.C69_pkcs1_any",
    "Ack.Props.C69_pss_any",
    "Ack.Props.C69_pss_salts",
    "Ack.Props.C69_actions",
    "Ack.Props.C69_pss_actions"
   ],
   "note": "for every key and every exponentiation routine (C69_pkcs1_any, C69_pss_any); for two different salt lengths with an exact exponentiation (C69_pss_salts); for the contract's actions (C69_actions, C69_pss_actions)"
  },
  {
   "property": "C70",
   "status": "proved",
   "theorems": [
    "Ack.Props.C70_pkcs1",
    "Ack.Props.C70_pss"
   ],
   "note": "For every exponentiation routine, host or software."
  },
  {
   "property": "C71",
   "status": "proved",
   "theorems": [
    "Ack.Props.C71_construct",
    "Ack.Props.C71_assign",
    "Ack.Props.C71_unchecked",
    "Ack.Props.C71_null"
   ],
   "note": ""
  },
  {
   "property": "C72",
   "status": "proved",
   "theorems": [
    "Ack.Props.C72_formula"
   ],
   "note": "modulus prime (a field), room for products in the buffer"
  },
  {
   "property": "C73",
   "status": "proved",
   "theorems": [
    "Ack.Props.C73_set_array",
    "Ack.Props.C73_set_array_false",
    "Ack.Props.C73_get_array",
    "Ack.Props.C73_round_trip"
   ],
   "note": ""
  },
  {
   "property": "C74",
   "status": "proved",
   "theorems": [
    "Ack.Props.C74_bytes",
    "Ack.Props.C74_literal",
    "Ack.Props.C74_named_curves"
   ],
   "note": "constant evaluation of buffers modelled as a fixed capacity (flexbuffer refuses to grow)"
  },
  {
   "property": "C75",
   "status": "partial",
   "theorems": [
    "Ack.Props.C75_ecdsa_partial",
    "Ack.Props.C75_total",
    "Ack.Props.C75_off_curve_wrong"
   ],
   "note": "exact for every public key on the curve; keys off the curve are not refused (C75_off_curve_wrong)"
  },
  {
   "property": "C76",
   "status": "partial",
   "theorems": [
    "Ack.Props.C76_rsa_exact",
    "Ack.Props.C76_rsa_partial",
    "Ack.Props.C76_pss_exact",
    "Ack.Props.C76_pss_wrong",
    "Ack.Props.C76_pss_accept"
   ],
   "note": "RFC 8017 for moduli without leading zero byte, and the exact accepted set otherwise; PSS exact while salt length + 72 < 2^W, false above (C76_pss_wrong). For every salt length the action completes exactly for consistent signatures (C76_pss_accept)"
  },
  {
   "property": "C77",
   "status": "proved",
   "theorems": [
    "Ack.Props.C77_decode_round_trip",
    "Ack.Props.C77_decode_agree",
    "Ack.Props.C77_decompress",
    "Ack.Props.C77_compute_y",
    "Ack.Props.C77_make_point",
    "Ack.Props.C77_generate_hex"
   ],
   "note": "Jacobian verification needs p > 8 and one spare word, as C29"
  },
  {
   "property": "C78",
   "status": "partial",
   "theorems": [
    "Ack.Props.C78_compare",
    "Ack.Props.C78_negative_zero_wrong",
    "Ack.Props.C78_compare_abort",
    "Ack.Props.C78_compare_big",
    "Ack.Props.C78_arith",
    "Ack.Props.C78_fp_native",
    "Ack.Props.C78_field_law",
    "Ack.Props.C78_field",
    "Ack.Props.C78_field_compare"
   ],
   "note": "the comparison of a negative zero with an unsigned 32-bit zero is wrong (C78_negative_zero_wrong gives its exact value for every operator); everything else is exact"
  },
  {
   "property": "C79",
   "status": "proved",
   "theorems": [
    "Ack.Props.C79_add",
    "Ack.Props.C79_sub",
    "Ack.Props.C79_neg",
    "Ack.Props.C79_mul",
    "Ack.Props.C79_sqr",
    "Ack.Props.C79_inv",
    "Ack.Props.C79_div",
    "Ack.Props.C79_sqrt",
    "Ack.Props.C79_formula",
    "Ack.Props.C79_negative_zero_wrong"
   ],
   "note": "for elements constructed without a minus sign; C79_negative_zero_wrong shows the constructor accepts a negative zero"
  },
  {
   "property": "C80",
   "status": "proved",
   "theorems": [
    "Ack.Props.C80_copy",
    "Ack.Props.C80_move",
    "Ack.Props.C80_move_assign",
    "Ack.Props.C80_swap",
    "Ack.Props.C80_source",
    "Ack.Props.C80_reuse",
    "Ack.Props.C80_stale_wrong"
   ],
   "note": "Copy construction, move construction, move assignment and swap in every state that a program reaches, both kinds of buffer; the programs of C63 contain the same statements. C80_stale_wrong records that word_length() of a moved-from growable integer is stale."
  },
  {
   "property": "C81",
   "status": "partial",
   "theorems": [
    "Ack.Props.C81_partial",
    "Ack.Props.C81_modinv_partial",
    "Ack.Props.C81_modinv_abort_partial",
    "Ack.Props.C81_modinv_wrong",
    "Ack.Props.C81_pow",
    "Ack.Props.C81_modexp_partial",
    "Ack.Props.C81_modexp_wrong"
   ],
   "note": "all programs on fixed and growable storage with any aliasing of result and operands; excluded because false: modulus longer than the inline words of growable storage (C81_modinv_wrong), modexp into its modulus (C81_modexp_wrong), lcm with a gcd that fills its top word (C17_lcm_wrong)"
  },
  {
   "property": "C82",
   "status": "partial",
   "theorems": [
    "Ack.Props.C82_partial",
    "Ack.Props.C82_dangling",
    "Ack.Props.C82_copy_wrong",
    "Ack.Props.C82_left_behind",
    "Ack.Props.C82_eq",
    "Ack.Props.C82_eq_wrong",
    "Ack.Props.C82_kinds_partial",
    "Ack.Props.C82_jacobian_dangling",
    "Ack.Props.C82_homogeneous_dangling",
    "Ack.Props.C82_jacobian_left_behind",
    "Ack.Props.C82_homogeneous_left_behind",
    "Ack.Props.C82_kinds_end_wrong"
   ],
   "note": "all programs that use objects and points while the objects live to which they refer; false and therefore excluded: a copy of a curve object used on its own (C82_dangling, C82_copy_wrong), equality with points of a copy (C82_eq_wrong, exact law in C82_eq); affine, Jacobian and homogeneous points (C82_kinds_partial: with Jacobian points fields of more than seven elements and scalars that leave a word of the storage free)"
  },
  {
   "property": "C83",
   "status": "partial",
   "theorems": [
    "Ack.Props.C83_partial",
    "Ack.Props.C83_div_abort_partial",
    "Ack.Props.C83_div_wrong",
    "Ack.Props.C83_compare"
   ],
   "note": "all programs on fixed and growable storage, operands and modulus may coincide; excluded because false: on growable storage divisions by a modulus longer than the inline words (C83_div_wrong), numbers fp_normalize does not reduce (C25), and what C81 excludes"
  },
  {
   "property": "C84",
   "status": "proved",
   "theorems": [
    "Ack.Props.C84_programs",
    "Ack.Props.C84_stops",
    "Ack.Props.C84_generator",
    "Ack.Props.C84_refines"
   ],
   "note": "every program, fixed and growable storage; the storage conditions are part of the statement (on growable storage with longer residues the claim fails already for fp_div, C83_div_wrong)"
  },
  {
   "property": "C85",
   "status": "proved",
   "theorems": [
    "Ack.Props.C85_no_undefined",
    "Ack.Props.C85_total",
    "Ack.Props.C85_full_scalar_wrong"
   ],
   "note": "every well-formed program; C85_full_scalar_wrong records that completing is not computing the multiple when the scalar fills the storage"
  },
  {
   "property": "C86",
   "status": "proved",
   "theorems": [
    "Ack.Props.C86_programs",
    "Ack.Props.C86_stops"
   ],
   "note": "every program within the domains of its functions; recovery for groups of order at most the field size (all curves of the library); compressed encodings of numbers that are not residues are in C88"
  },
  {
   "property": "C87",
   "status": "proved",
   "theorems": [
    "Ack.Props.C87_programs",
    "Ack.Props.C87_action_values",
    "Ack.Props.C87_action_valid",
    "Ack.Props.C87_action_total",
    "Ack.Props.C87_off_curve_wrong"
   ],
   "note": "every named curve, both builds, every program and every argument; off-curve keys are accepted as in C75 (C87_off_curve_wrong), so validity is stated for keys on the curve"
  },
  {
   "property": "C88",
   "status": "proved",
   "theorems": [
    "Ack.Props.C88_no_undefined",
    "Ack.Props.C88_total",
    "Ack.Props.C88_decode_any"
   ],
   "note": "every well-formed program and every byte string; compressed forms with an unreduced x are covered as the last decoding of a program (C88_decode_any), what later statements make of such a point is not"
  },
  {
   "property": "C89",
   "status": "proved",
   "theorems": [
    "Ack.Props.C89_verify",
    "Ack.Props.C89_generator",
    "Ack.Props.C89_domain",
    "Ack.Props.C89_refines",
    "Ack.Props.C89_named"
   ],
   "note": "coefficients in range and an order above 1 are part of the setting (EcSetting), as is b \u2260 0 for C89_verify; what validation says of other parameters is C66 on values"
  },
  {
   "property": "C90",
   "status": "partial",
   "theorems": [
    "Ack.Props.C90_views",
    "Ack.Props.C90_write",
    "Ack.Props.C90_ecdsa",
    "Ack.Props.C90_ecdsa_partial",
    "Ack.Props.C90_rsa",
    "Ack.Props.C90_rsa_partial",
    "Ack.Props.C90_pss",
    "Ack.Props.C90_pss_key",
    "Ack.Props.C90_owned_key",
    "Ack.Props.C90_overlong_wrong"
   ],
   "note": "everything but the last sentence, which is false: operator>> does not compare the length with what is left (C90_overlong_wrong); C90_views, C90_ecdsa_partial and C90_rsa_partial give exactly the data with undefined behaviour. The streams and the dispatcher of EOSIO are modelled from the documented wire format"
  },
  {
   "property": "C91",
   "status": "proved",
   "theorems": [
    "Ack.Props.C91_programs",
    "Ack.Props.C91_exclusive",
    "Ack.Props.C91_setting",
    "Ack.Props.C91_unchecked_wrong"
   ],
   "note": "values below the modulus are a stated precondition of unchecked construction, big-integer and native operands (C91_unchecked_wrong shows why); p > 8"
  },
  {
   "property": "C92",
   "status": "proved",
   "theorems": [
    "Ack.Props.C92_programs",
    "Ack.Props.C92_stops",
    "Ack.Props.C92_no_undefined",
    "Ack.Props.C92_total",
    "Ack.Props.C92_refines"
   ],
   "note": "domains of the functions as in C84; swap of points is not modelled"
  },
  {
   "property": "C93",
   "status": "proved",
   "theorems": [
    "Ack.Props.C93",
    "Ack.Props.C93_stops"
   ],
   "note": "arithmetic statements under the conditions of C81; to_naf needs a free word of storage and a non-negative number; a quotient that is rounded down needs a free word"
  },
  {
   "property": "C94",
   "status": "proved",
   "theorems": [
    "Ack.Props.C94",
    "Ack.Props.C94_append_self_wrong",
    "Ack.Props.C94_view_left_behind_wrong",
    "Ack.Props.C94_memxor_overlap_wrong"
   ],
   "note": "views may not be used after their vector was appended to, even if it did not move; comparison of keys reads all four parts in the specification"
  },
  {
   "property": "C95",
   "status": "proved",
   "theorems": [
    "Ack.Props.C95",
    "Ack.Props.C95_unique",
    "Ack.Props.C95_factorial",
    "Ack.Props.C95_euclid",
    "Ack.Props.C95_rules_needed",
    "Ack.Props.C95_inline_needed",
    "Ack.Props.C95_stops",
    "Ack.Props.C95_divisors"
   ],
   "note": "terminating programs; the rules exclude what C20, C26, C63, C78, C81 show to be wrong (minus zero with unsigned operands, /, % by uint32_t, %= by 64-bit operands, sums into an operand on growable storage, lcm, modinv), witnesses C95_rules_needed, C95_inline_needed"
  },
  {
   "property": "C96",
   "status": "proved",
   "theorems": [
    "Ack.Props.C96_client",
    "Ack.Props.C96_stops",
    "Ack.Props.C96_no_undefined",
    "Ack.Props.C96_order"
   ],
   "note": "before every statement the client reads all variables; the points within the domains of C86/C92 (C96_client, C96_stops), arbitrary points (C96_no_undefined)"
  },
  {
   "property": "C97",
   "status": "proved",
   "theorems": [
    "Ack.Props.C97_pkcs1",
    "Ack.Props.C97_pss",
    "Ack.Props.C97_pss_entry",
    "Ack.Props.C97_pkcs1_rfc",
    "Ack.Props.C97_pss_rfc",
    "Ack.Props.C97_sized",
    "Ack.Props.C97_mgf1",
    "Ack.Props.C97_mgf1_xor",
    "Ack.Props.C97_mgf1_overlap"
   ],
   "note": "the exponentiation is a parameter that returns as many bytes as the modulus has (both do: C97_sized); C97_mgf1_overlap: a seed overlapping the mask gives another mask, the library never calls it so"
  },
  {
   "property": "C98",
   "status": "proved",
   "theorems": [
    "Ack.Props.C98_print",
    "Ack.Props.C98_injective",
    "Ack.Props.C98_read_back",
    "Ack.Props.C98_element",
    "Ack.Props.C98_object"
   ],
   "note": "eosio::print and eosio::printhex by their documentation (text; two lower-case digits per byte)"
  },
  {
   "property": "C99",
   "status": "proved",
   "theorems": [
    "Ack.Props.C99_client",
    "Ack.Props.C99_order"
   ],
   "note": "unchecked values and integer operands are residues, as for C91; square roots: either root may be returned"
  },
  {
   "property": "C100",
   "status": "proved",
   "theorems": [
    "Ack.Props.C100_gcd",
    "Ack.Props.C100_gcd_tight",
    "Ack.Props.C100_modinv",
    "Ack.Props.C100_passes",
    "Ack.Props.C100_five",
    "Ack.Props.C100_named",
    "Ack.Props.C100_action"
   ],
   "note": "the passes of the loops of gcd, modinv, jacobi, fp_sqrt and of everything built on them; the inner loop of the long division is C101"
  },
  {
   "property": "C101",
   "status": "proved",
   "theorems": [
    "Ack.Props.C101_long",
    "Ack.Props.C101_small"
   ],
   "note": "the fuel of the model of the division is this bound, so every theorem about a function that divides includes it"
  },
  {
   "property": "C102",
   "status": "proved",
   "theorems": [
    "Ack.Props.C102_s",
    "Ack.Props.C102_s_count",
    "Ack.Props.C102_digest",
    "Ack.Props.C102_key",
    "Ack.Props.C102_named",
    "Ack.Props.C102_four"
   ],
   "note": "keys of order n; C102_four shows on a small curve that the bounds cannot be lowered"
  },
  {
   "property": "C103",
   "status": "proved",
   "theorems": [
    "Ack.Props.C103_pkcs1",
    "Ack.Props.C103_pkcs1_unique",
    "Ack.Props.C103_pkcs1_any",
    "Ack.Props.C103_action",
    "Ack.Props.C103_pss",
    "Ack.Props.C103_pss_count"
   ],
   "note": "PKCS#1 v1.5: exact for moduli without leading zero byte, up to multiples of the modulus otherwise (C46_wrong); PSS: up to multiples of the modulus, for every modulus"
  },
  {
   "property": "C104",
   "status": "proved",
   "theorems": [
    "Ack.Props.C104_valid",
    "Ack.Props.C104_inj",
    "Ack.Props.C104_onto",
    "Ack.Props.C104_named"
   ],
   "note": "C104_onto for curves with p <= 2n on which n annihilates every point, so for all named curves (C104_named)"
  },
  {
   "property": "C105",
   "status": "proved",
   "theorems": [
    "Ack.Props.C105",
    "Ack.Props.C105_safe"
   ],
   "note": "growable storage; the forms left out are those that C95_rules_needed, C95_inline_needed and C81 show to be wrong, and calls of number-theoretic functions"
  },
  {
   "property": "C106",
   "status": "proved",
   "theorems": [
    "Ack.Props.C106",
    "Ack.Props.C106_safe",
    "Ack.Props.C106_no_abort",
    "Ack.Props.C106_needed"
   ],
   "note": "C106 (run, values, abort, range), C106_safe (no undefined behaviour), C106_no_abort (no division, no abort); C106_needed: what is left out. Excluded: <<, & and |, / and % by uint32_t, %= by a 64-bit operand, number-theoretic calls."
  },
  {
   "property": "C107",
   "status": "proved",
   "theorems": [
    "Ack.Props.C107_distinct",
    "Ack.Props.C107_exactly",
    "Ack.Props.C107_named"
   ],
   "note": "C107_distinct for every message and domain with n <= p; C107_exactly under the conditions of C44 and C45 on domain and message; C107_named for the named curves (messages of at most 65 bytes on secp521r1, which covers every supported digest)"
  },
  {
   "property": "C108",
   "status": "proved",
   "theorems": [
    "Ack.Props.C108_owners",
    "Ack.Props.C108_amount",
    "Ack.Props.C108_clear",
    "Ack.Props.C108_tidy",
    "Ack.Props.C108_lost",
    "Ack.Props.C108_after_end",
    "Ack.Props.C108_leak",
    "Ack.Props.C108_int_clear_keeps",
    "Ack.Props.C108_int_move_releases",
    "Ack.Props.C108_int_programs",
    "Ack.Props.C108_int_owners",
    "Ack.Props.C108_int_statement",
    "Ack.Props.C108_int_bits",
    "Ack.Props.C108_int_div_loses",
    "Ack.Props.C108_int_div_lost"
   ],
   "note": "every history; what the end of an uncleared buffer loses is C108_lost and C108_leak (n rounds of a loop lose n blocks, for every n); programs on big integers lose no block (C108_int_programs), the quotient left out because its local remainder is not in the memory model"
  }
 ]
}