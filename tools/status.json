{
 "C01": [
  "partial",
  "x + y and x - y proved for all operands; +=, -= proved on fixed storage and on growable storage for operands of at most the inline words or subtracted magnitudes; beyond that the code has undefined behaviour (C01_in_place_wrong, C63_flex_dangling)"
 ],
 "C02": [
  "proved",
  "growable storage; destination aliasing is C63"
 ],
 "C03": [
  "proved",
  "all capacities"
 ],
 "C04": [
  "partial",
  "proved on growable storage; on N words the remainder is always right and the quotient is given exactly: it is 0 when it has to be rounded down and the truncated quotient has N words (C04_quot_rem_fixed, C04_quot_rem_fixed_wrong)"
 ],
 "C05": [
  "proved",
  ""
 ],
 "C06": [
  "partial",
  "violated for a minus-sign zero against unsigned 0 (C06_word_negZero); proved for int, int64, uint64 and every other word pair"
 ],
 "C07": [
  "proved",
  "growable storage"
 ],
 "C08": [
  "partial",
  "+, - and operator* proved; operator*= keeps the left operand on overflow (C08_mulAssign_wrong), << writes outside the array (C08_shl_ub)"
 ],
 "C09": [
  "proved",
  "by induction over all operation histories; set_bit is C13"
 ],
 "C10": [
  "proved",
  "run-time path of set_bytes"
 ],
 "C11": [
  "proved",
  ""
 ],
 "C12": [
  "proved",
  ""
 ],
 "C14": [
  "proved",
  "growable storage and every fixed storage with one free word (C14_fixed); the digits are unique (C14_unique_top)"
 ],
 "C15": [
  "proved",
  ""
 ],
 "C16": [
  "partial",
  "values: growable storage; fixed capacity without a spare word returns a wrong value (C16_fixed_wrong). On the storage itself C81_modinv_partial: growable storage needs a modulus of at most the inline words, beyond that the code has undefined behaviour (C81_modinv_wrong)"
 ],
 "C17": [
  "partial",
  "gcd proved in full; lcm for non-negative arguments whose gcd is one word, has a clear top bit in its top word, or exceeds half of x; outside of that the code is wrong (C17_lcm_wrong) and lcm(0,0) aborts (C17_lcm_zero). For arguments of any sign the magnitude, under the same conditions (C17_lcm_abs_partial)"
 ],
 "C18": [
  "proved",
  "against Mathlib jacobiSym"
 ],
 "C19": [
  "partial",
  "or/and proved; word overload and |= wrong for a minus-sign zero (C19_negZero)"
 ],
 "C20": [
  "partial",
  "exact for int and 64-bit operands; division by an unsigned word loses the sign, % by an unsigned word is undefined behaviour, %= by 64-bit divides (witnesses); what these overloads do compute is proved for every operand (C20_div_word_exact, C20_modu1_ub, C20_modAssign64_exact)"
 ],
 "C22": [
  "proved",
  "all moduli > 1, all capacities with room for a product; native operands in [0,p)"
 ],
 "C23": [
  "proved",
  "prime moduli; composite moduli: aborts exactly for non-invertible divisors"
 ],
 "C24": [
  "proved",
  "odd primes; includes termination of the Tonelli-Shanks loops"
 ],
 "C25": [
  "partial",
  "violated by the code (C25_wrong); the exact set of inputs that are normalised is proved"
 ],
 "C26": [
  "partial",
  "violated by the code for - and / (C26_reversed, C26_wrong); + and * proved"
 ],
 "C27": [
  "proved",
  "For all curves over prime fields p > 3 with b != 0 (the hypothesis of the statement; C27_b_zero_wrong shows it is needed)."
 ],
 "C28": [
  "proved",
  "All representatives, exceptional cases included."
 ],
 "C29": [
  "partial",
  "Proved for all fields of order p > 8; for p = 5, 7 the code is wrong (C29_small_field_wrong): the literal 8 is not reduced."
 ],
 "C30": [
  "proved",
  "All integers; Jacobian version over p > 8 with one spare word of storage."
 ],
 "C31": [
  "proved",
  "Non-negative scalars as stated; C31_negative_wrong shows negative scalars count as zero."
 ],
 "C32": [
  "proved",
  ""
 ],
 "C33": [
  "proved",
  "Points of one curve; C33_affine_across_curves shows affine == confuses x = 0 points of different curves."
 ],
 "C34": [
  "proved",
  ""
 ],
 "C35": [
  "proved",
  ""
 ],
 "C36": [
  "proved",
  "Uncompressed: all points; compressed: y != 0 (points with y = 0 decode to the identity, see C35)."
 ],
 "C37": [
  "partial",
  "Violated by the code (C37_wrong): no on-curve check after tag 4, no range check after tags 2/3, trailing bytes after tag 0, non-residue gives the identity. C37_malformed_partial proves what does abort; C37_uncompressed_accepts and C37_compressed characterise the rest below the modulus; C37_exact gives the result for every x of the right length, reduced or not, and C37_total that no byte string is undefined. C37_unreduced_encode: a compressed x at or above p that decodes to a point re-encodes to the tag byte alone, which does not decode, and equals no reduced point; C37_unreduced_wrong shows two such encodings, one of which makes is_valid abort."
 ],
 "C39": [
  "proved",
  ""
 ],
 "C66": [
  "proved",
  "Over prime fields with b != 0."
 ],
 "C38": [
  "proved",
  "All eight curves, native and wasm builds; p and n are proved prime by elliptic-curve certificates checked in the kernel, and the group order is exactly n."
 ],
 "C59": [
  "proved",
  "All strings and buffers; a null pointer argument has no counterpart in the model."
 ],
 "C60": [
  "proved",
  "Source and destination are separate buffers."
 ],
 "C61": [
  "proved",
  "Byte strings below 2^32; the eosio varint format is modelled from its documentation. C61_overlong_prefix_undefined: operator>> does not reject a length beyond the stream."
 ],
 "C62": [
  "proved",
  "Views into the same memory are assumed coherent."
 ],
 "C40": [
  "partial",
  "Exact result for every cofactor (C40_exact) and no false acceptance for any cofactor (C40_sound). The full equivalence holds for p <= 2n (all named curves, C67) and is violated for larger cofactors: C40_cofactor_wrong."
 ],
 "C41": [
  "partial",
  "Exact law for every cofactor (C41_exact): an honest signature is accepted iff the x-coordinate of its nonce point is below 2n; hence all for p <= 2n (all named curves, C67). Violated otherwise: C41_wrong."
 ],
 "C42": [
  "proved",
  "For every point object, on the curve or not."
 ],
 "C43": [
  "partial",
  "Exact law for all lengths (C40_exact with C43_exact): the code uses the leading whole bytes and omits the final shift. So the claim holds when the bit length of n is a multiple of 8 or the message is not longer than n, and is violated otherwise: C43_wrong, C43_secp521r1."
 ],
 "C44": [
  "partial",
  "Exact result for all cofactors and messages when n <= p (C44_exact). Soundness proved for messages as in C43; violated otherwise: C44_negative_wrong, C44_unreduced_wrong."
 ],
 "C45": [
  "partial",
  "Exact law for all messages and n <= p (C45_exact): the key is recovered when e <= 2n, otherwise the key plus e/r G (C45_wrong)."
 ],
 "C64": [
  "proved",
  "For domains with p <= 2n and keys annihilated by n."
 ],
 "C67": [
  "proved",
  ""
 ],
 "C46": [
  "partial",
  "Exact for a modulus without leading zero byte, and never rejects a valid signature for any modulus; for a modulus with leading zero bytes the check lets signatures above the modulus through (C46_wrong: a second accepted signature for the same digest). C46_exact gives the exact law for every modulus."
 ],
 "C47": [
  "proved",
  "For every exponentiation that is exact at the key; the documented host function is exact at every key (C47_host), the software routine under C52."
 ],
 "C48": [
  "partial",
  "Exact equivalence with RFC 8017 8.2.2 for all four interface functions, for moduli without leading zero byte (see C46_wrong for the others). C48_exact gives the exact accepted set for every modulus other than zero; C48_sound: an accepted signature reduced modulo n is RFC-valid."
 ],
 "C49": [
  "partial",
  "Exact equivalence with RFC 8017 8.1.2 for every hash, salt length and digest when the top bit of the modulus is set and sizes fit size_t. Other moduli: C49_rejects_valid and C49_accepts_invalid; wrap-around of the size check on 32 bits: C49_overflow. verify_rsa_pss_sha384 with the modelled SHA-384: C49_pss_sha384_partial. C49_exact gives the exact accepted set for every modulus other than zero. For every salt length exactly the consistent signatures are accepted (C49_accept), none with a wrapping one (C49_wrapped)"
 ],
 "C50": [
  "proved",
  "For both copy callbacks, all lengths."
 ],
 "C51": [
  "proved",
  "PKCS#1 v1.5 and PSS wrappers; assert_ecdsa in C40_assert."
 ],
 "C65": [
  "proved",
  "For every exponentiation routine, exact or not."
 ],
 "C68": [
  "partial",
  "PKCS#1 v1.5 in full. PSS: for moduli with the top bit set, and the exact law for all others (C68_pss_any, C68_pss_exact: acceptance of an honest signature depends on the mask); violated there: C68_pss_wrong."
 ],
 "C69": [
  "proved",
  "for every key and every exponentiation routine (C69_pkcs1_any, C69_pss_any); for two different salt lengths with an exact exponentiation (C69_pss_salts); for the contract's actions (C69_actions, C69_pss_actions)"
 ],
 "C52": [
  "partial",
  "Exact for every odd modulus of 4k bytes without leading zero byte and every odd exponent 3 <= e < 2^33; the exact outcome (exponent bits from 32 up to below the top bit ignored) is proved for all 64-bit exponents in C52_effective, with counterexamples to the full claim in C52_wrong_exponent and C52_wrong_leading_zero."
 ],
 "C53": [
  "proved",
  "All 32-bit inputs."
 ],
 "C54": [
  "proved",
  "All moduli below 2^27 bytes with a significant length that is a multiple of four; other lengths are undefined behaviour (C55)."
 ],
 "C55": [
  "proved",
  "Exact characterisation of the safe sizes (modulus below 2^27 bytes); every other size leads to an access outside an array."
 ],
 "C70": [
  "proved",
  "For every exponentiation routine, host or software."
 ],
 "C56": [
  "proved",
  "All byte strings below 2^64 bytes; the constants are proved to be the fractional roots of primes the standard defines."
 ],
 "C57": [
  "proved",
  "All messages and output lengths; the permutation, the padding and the sponge are proved against a bit-level FIPS 202."
 ],
 "C58": [
  "proved",
  ""
 ],
 "C21": [
  "proved",
  "Every finite history of construction, copy, move, assignment, resize, clear, swap and element access refines independent sequences with capacity N (fixed_buffer) or unbounded (flexbuffer); no history is undefined behaviour except reading an element that was never written. C21_grown_elements_unset records that elements added by resize have no defined value (stale inline words, indeterminate heap words). Allocation failure, size_t overflow and the constant-evaluated branches are not modelled."
 ],
 "C13": [
  "partial",
  "exact behaviour for every position and storage content; the full statement is false (C13_stale_wrong, C13_grow_wrong, C13_full_wrong, C13_zero_wrong)"
 ],
 "C63": [
  "partial",
  "every straight-line program with any aliasing on fixed_buffer and flexbuffer; the full statement is false for sums on flexbuffer (C63_flex_wrong, C63_flex_dangling), quotient into divisor (C63_div_wrong), sign of or_bit/and_bit (C63_bits_wrong)"
 ],
 "C71": [
  "proved",
  ""
 ],
 "C72": [
  "proved",
  "modulus prime (a field), room for products in the buffer"
 ],
 "C73": [
  "proved",
  ""
 ],
 "C74": [
  "proved",
  "constant evaluation of buffers modelled as a fixed capacity (flexbuffer refuses to grow)"
 ],
 "C75": [
  "partial",
  "exact for every public key on the curve; keys off the curve are not refused (C75_off_curve_wrong)"
 ],
 "C76": [
  "partial",
  "RFC 8017 for moduli without leading zero byte, and the exact accepted set otherwise; PSS exact while salt length + 72 < 2^W, false above (C76_pss_wrong). For every salt length the action completes exactly for consistent signatures (C76_pss_accept)"
 ],
 "C77": [
  "proved",
  "Jacobian verification needs p > 8 and one spare word, as C29"
 ],
 "C78": [
  "partial",
  "the comparison of a negative zero with an unsigned 32-bit zero is wrong (C78_negative_zero_wrong gives its exact value for every operator); everything else is exact"
 ],
 "C79": [
  "proved",
  "for elements constructed without a minus sign; C79_negative_zero_wrong shows the constructor accepts a negative zero"
 ],
 "C80": [
  "proved",
  "Copy construction, move construction, move assignment and swap in every state that a program reaches, both kinds of buffer; the programs of C63 contain the same statements. C80_stale_wrong records that word_length() of a moved-from growable integer is stale."
 ],
 "C81": [
  "partial",
  "all programs on fixed and growable storage with any aliasing of result and operands; excluded because false: modulus longer than the inline words of growable storage (C81_modinv_wrong), modexp into its modulus (C81_modexp_wrong), lcm with a gcd that fills its top word (C17_lcm_wrong)"
 ],
 "C82": [
  "partial",
  "all programs that use objects and points while the objects live to which they refer; false and therefore excluded: a copy of a curve object used on its own (C82_dangling, C82_copy_wrong), equality with points of a copy (C82_eq_wrong, exact law in C82_eq); affine, Jacobian and homogeneous points (C82_kinds_partial: with Jacobian points fields of more than seven elements and scalars that leave a word of the storage free)"
 ],
 "C83": [
  "partial",
  "all programs on fixed and growable storage, operands and modulus may coincide; excluded because false: on growable storage divisions by a modulus longer than the inline words (C83_div_wrong), numbers fp_normalize does not reduce (C25), and what C81 excludes"
 ],
 "C84": [
  "proved",
  "every program, fixed and growable storage; the storage conditions are part of the statement (on growable storage with longer residues the claim fails already for fp_div, C83_div_wrong)"
 ],
 "C85": [
  "proved",
  "every well-formed program; C85_full_scalar_wrong records that completing is not computing the multiple when the scalar fills the storage"
 ],
 "C86": [
  "proved",
  "every program within the domains of its functions; recovery for groups of order at most the field size (all curves of the library); compressed encodings of numbers that are not residues are in C88"
 ],
 "C87": [
  "proved",
  "every named curve, both builds, every program and every argument; off-curve keys are accepted as in C75 (C87_off_curve_wrong), so validity is stated for keys on the curve"
 ],
 "C88": [
  "proved",
  "every well-formed program and every byte string; compressed forms with an unreduced x are covered as the last decoding of a program (C88_decode_any), what later statements make of such a point is not"
 ],
 "C89": [
  "proved",
  "coefficients in range and an order above 1 are part of the setting (EcSetting), as is b ≠ 0 for C89_verify; what validation says of other parameters is C66 on values"
 ],
 "C90": [
  "partial",
  "everything but the last sentence, which is false: operator>> does not compare the length with what is left (C90_overlong_wrong); C90_views, C90_ecdsa_partial and C90_rsa_partial give exactly the data with undefined behaviour. The streams and the dispatcher of EOSIO are modelled from the documented wire format"
 ],
 "C91": [
  "proved",
  "values below the modulus are a stated precondition of unchecked construction, big-integer and native operands (C91_unchecked_wrong shows why); p > 8"
 ],
 "C92": [
  "proved",
  "domains of the functions as in C84; swap of points is not modelled"
 ],
 "C93": [
  "proved",
  "arithmetic statements under the conditions of C81; to_naf needs a free word of storage and a non-negative number; a quotient that is rounded down needs a free word"
 ],
 "C94": [
  "proved",
  "views may not be used after their vector was appended to, even if it did not move; comparison of keys reads all four parts in the specification"
 ],
 "C95": [
  "proved",
  "terminating programs; the rules exclude what C20, C26, C63, C78, C81 show to be wrong (minus zero with unsigned operands, /, % by uint32_t, %= by 64-bit operands, sums into an operand on growable storage, lcm, modinv), witnesses C95_rules_needed, C95_inline_needed"
 ],
 "C96": [
  "proved",
  "before every statement the client reads all variables; the points within the domains of C86/C92 (C96_client, C96_stops), arbitrary points (C96_no_undefined)"
 ],
 "C97": [
  "proved",
  "the exponentiation is a parameter that returns as many bytes as the modulus has (both do: C97_sized); C97_mgf1_overlap: a seed overlapping the mask gives another mask, the library never calls it so"
 ],
 "C98": [
  "proved",
  "eosio::print and eosio::printhex by their documentation (text; two lower-case digits per byte)"
 ],
 "C99": [
  "proved",
  "unchecked values and integer operands are residues, as for C91; square roots: either root may be returned"
 ],
 "C100": [
  "proved",
  "the passes of the loops of gcd, modinv, jacobi, fp_sqrt and of everything built on them; the inner loop of the long division is C101"
 ],
 "C101": [
  "proved",
  "the fuel of the model of the division is this bound, so every theorem about a function that divides includes it"
 ],
 "C102": [
  "proved",
  "keys of order n; C102_four shows on a small curve that the bounds cannot be lowered"
 ],
 "C103": [
  "proved",
  "PKCS#1 v1.5: exact for moduli without leading zero byte, up to multiples of the modulus otherwise (C46_wrong); PSS: up to multiples of the modulus, for every modulus"
 ],
 "C104": [
  "proved",
  "C104_onto for curves with p <= 2n on which n annihilates every point, so for all named curves (C104_named)"
 ],
 "C105": [
  "proved",
  "growable storage; the forms left out are those that C95_rules_needed, C95_inline_needed and C81 show to be wrong, and calls of number-theoretic functions"
 ],
 "C106": [
  "proved",
  "C106 (run, values, abort, range), C106_safe (no undefined behaviour), C106_no_abort (no division, no abort); C106_needed: what is left out. Excluded: <<, & and |, / and % by uint32_t, %= by a 64-bit operand, number-theoretic calls."
 ],
 "C107": [
  "proved",
  "C107_distinct for every message and domain with n <= p; C107_exactly under the conditions of C44 and C45 on domain and message; C107_named for the named curves (messages of at most 65 bytes on secp521r1, which covers every supported digest)"
 ],
 "C108": [
  "proved",
  "every history; what the end of an uncleared buffer loses is C108_lost and C108_leak (n rounds of a loop lose n blocks, for every n); programs on big integers lose no block (C108_int_programs), the quotient left out because its local remainder is not in the memory model"
 ]
}