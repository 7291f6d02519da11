{"id": "C01", "title": "Addition and subtraction are exact", "statement": "For arbitrary-precision integers x and y, x + y and x - y (and +=, -=, ++, --) return the exact integer sum and difference, whatever the signs and whatever the two lengths.", "quantifier": "all pairs of integers of any size and sign", "why_tests_cant": "The operands range over unboundedly many magnitudes, signs and word counts; carries, borrows and quotient corrections that fail only on rare word patterns are not reached by sampled vectors.", "anchors": ["include/ack/bigint.hpp: bigint::add, bigint::sub, _add, uadd, usub, detail::add_n, detail::sub_n"]}
{"id": "C02", "title": "Multiplication and squaring are exact", "statement": "x * y and x.sqr() return the exact integer product and square for arbitrary-precision integers, including when the destination is one of the operands.", "quantifier": "all pairs of integers of any size and sign", "why_tests_cant": "The operands range over unboundedly many magnitudes, signs and word counts; carries, borrows and quotient corrections that fail only on rare word patterns are not reached by sampled vectors.", "anchors": ["include/ack/bigint.hpp: bigint::mul, bigint::sqr, detail::mul_nm, detail::mul_word_n"]}
{"id": "C03", "title": "Truncated division identity", "statement": "div_mod, operator / and operator % return q and r with x = q*y + r, |r| < |y| and r = 0 or sign(r) = sign(x) (C semantics), for every non-zero divisor; a zero divisor aborts and never returns a value.", "quantifier": "all dividends and divisors, any number of words", "why_tests_cant": "The operands range over unboundedly many magnitudes, signs and word counts; carries, borrows and quotient corrections that fail only on rare word patterns are not reached by sampled vectors. The multi-word quotient estimate (top-word estimate plus corrections) is the classic place of one-in-2^32 errors.", "anchors": ["include/ack/bigint.hpp: bigint::div_mod, bigint::udiv, detail::div, detail::div_full_bit, detail::div_small, detail::div_word"]}
{"id": "C04", "title": "Floor division identity", "statement": "quot_rem returns q and r with x = q*y + r, |r| < |y| and r = 0 or sign(r) = sign(y) (floor division, Python semantics) for every non-zero divisor.", "quantifier": "all dividends and divisors", "why_tests_cant": "The operands range over unboundedly many magnitudes, signs and word counts; carries, borrows and quotient corrections that fail only on rare word patterns are not reached by sampled vectors.", "anchors": ["include/ack/bigint.hpp: bigint::quot_rem"]}
{"id": "C05", "title": "Comparison is the integer order", "statement": "compare and the operators ==, !=, <, <=, >, >= between two big integers agree with the order of the integers denoted, including for a zero that carries a minus sign.", "quantifier": "all pairs of integers", "why_tests_cant": "Every pair of representations, including the two representations of zero that only arise through particular operation histories.", "anchors": ["include/ack/bigint.hpp: bigint::compare, detail::cmp_n, operator<=>"]}
{"id": "C06", "title": "Comparison with native integers is the integer order", "statement": "Comparing a big integer with a native signed or unsigned word gives the order of the integers denoted.", "quantifier": "all big integers and all 32-bit words", "why_tests_cant": "Requires all values incl. the minus-sign zero that only arises after particular histories.", "anchors": ["include/ack/bigint.hpp: bigint::compares1, bigint::compareu1"]}
{"id": "C07", "title": "Shifts multiply and divide by powers of two", "statement": "x << k equals x*2^k and x >> k equals the magnitude of x divided by 2^k rounded toward zero, with the sign of x, for all shift counts.", "quantifier": "all integers and all shift counts", "why_tests_cant": "The operands range over unboundedly many magnitudes, signs and word counts; carries, borrows and quotient corrections that fail only on rare word patterns are not reached by sampled vectors.", "anchors": ["include/ack/bigint.hpp: bigint::shl, bigint::shr, detail::shift_left, detail::shift_right, detail::shl_n, detail::shr_n"]}
{"id": "C08", "title": "Fixed-capacity integers never return a wrong non-zero value", "statement": "For fixed-capacity integers each of +, -, *, *=, << either returns the exact result or, when the capacity does not suffice, returns zero or aborts; it never returns a wrong non-zero value and never writes outside its storage.", "quantifier": "all operands and all capacities", "why_tests_cant": "Overflow happens at capacity boundaries of every size; truncation is value-dependent.", "anchors": ["include/ack/bigint.hpp: bigint::add, bigint::mul, bigint::shl", "include/ack/buffer.hpp: fixed_buffer::resize"]}
{"id": "C09", "title": "Results are canonical", "statement": "Every arithmetic result is stored without superfluous leading zero words (zero is exactly one zero word), so word count, byte_length and bit_length are functions of the value.", "quantifier": "all operations on all inputs and all operation histories", "why_tests_cant": "An invariant over all reachable objects, not about a sampled call.", "anchors": ["include/ack/bigint.hpp: bigint::trim, bigint::byte_length, bigint::bit_length"]}
{"id": "C10", "title": "Big-endian byte import and export round-trip", "statement": "Constructing an integer from a big-endian byte string yields the number the string denotes in base 256; to_bytes yields the shortest big-endian encoding; importing an exported non-negative integer returns the same integer.", "quantifier": "all byte strings of every length and all integers", "why_tests_cant": "Every length modulo the word size and every content; leading zeros.", "anchors": ["include/ack/bigint.hpp: bigint::set_bytes, bigint::get_bytes, bigint::to_bytes, detail::convert_array_as"]}
{"id": "C11", "title": "Byte export never writes past the given buffer", "statement": "get_bytes into a buffer of given length succeeds exactly when the value fits, and then writes only inside the buffer; otherwise it fails and reports zero bytes.", "quantifier": "all integers and all buffer lengths", "why_tests_cant": "Boundary between all values and all lengths.", "anchors": ["include/ack/bigint.hpp: bigint::get_bytes"]}
{"id": "C12", "title": "Bit length and bit test describe the binary expansion", "statement": "bit_length is the position of the highest set bit plus one (1 for zero), byte_length the number of bytes needed, test_bit(i) is bit i of the magnitude for every i (false beyond the end), is_even/is_odd its parity.", "quantifier": "all integers and all bit positions", "why_tests_cant": "All values and positions.", "anchors": ["include/ack/bigint.hpp: bigint::bit_length, bigint::test_bit, bigint::byte_length, detail::bsr"]}
{"id": "C13", "title": "set_bit changes exactly one bit", "statement": "set_bit(i, v) yields the integer whose bit i is v and whose other bits are unchanged, for every earlier history of the object.", "quantifier": "all integers, positions and previous contents of the storage", "why_tests_cant": "The outcome depends on stale memory from earlier, larger values: it is a property of histories.", "anchors": ["include/ack/bigint.hpp: bigint::set_bit", "include/ack/buffer.hpp: fixed_buffer::resize, flexbuffer::resize"]}
{"id": "C14", "title": "Non-adjacent form is a signed-digit expansion of the integer", "statement": "to_naf returns digits in {-1,0,1}, no two consecutive digits non-zero, whose weighted sum is the integer; to_rnaf is its reverse; hence no non-negative scalar is mis-encoded.", "quantifier": "all non-negative integers", "why_tests_cant": "All scalars; carry runs have unbounded length.", "anchors": ["include/ack/bigint.hpp: bigint::to_naf, bigint::to_rnaf"]}
{"id": "C15", "title": "Power and modular exponentiation are exact", "statement": "pow(x, y) = x^y and x.modexp(y, m) = x^y mod m (in [0,m)) for every x >= 0, exponent y >= 2 and modulus m > 0; the small exponents 0 and 1 are covered by what the code returns for them.", "quantifier": "all bases, exponents and moduli", "why_tests_cant": "The operands range over unboundedly many magnitudes, signs and word counts; carries, borrows and quotient corrections that fail only on rare word patterns are not reached by sampled vectors. The 4-bit window walks every alignment of exponent bits.", "anchors": ["include/ack/bigint.hpp: bigint::pow, bigint::modexp, bigint::_pow"]}
{"id": "C16", "title": "Modular inverse", "statement": "For x >= 0 and m > 1, x.modinv(m) returns y in (0,m) with x*y mod m = 1 whenever gcd(x,m)=1, and aborts when gcd(x,m) > 1; it never returns a number that is not the inverse, whatever the storage capacity.", "quantifier": "all x and all moduli", "why_tests_cant": "Euclid runs through arbitrary quotient sequences.", "anchors": ["include/ack/bigint.hpp: bigint::modinv"]}
{"id": "C17", "title": "gcd and lcm", "statement": "gcd returns the greatest common divisor of non-negative arguments and lcm the least common multiple.", "quantifier": "all pairs of non-negative integers", "why_tests_cant": "The operands range over unboundedly many magnitudes, signs and word counts; carries, borrows and quotient corrections that fail only on rare word patterns are not reached by sampled vectors.", "anchors": ["include/ack/bigint.hpp: bigint::gcd, bigint::lcm"]}
{"id": "C18", "title": "Jacobi symbol", "statement": "n.jacobi(m) is the Jacobi symbol (n/m) for every odd m > 0 and n >= 0; it terminates.", "quantifier": "all n and all odd m", "why_tests_cant": "All reduction sequences; reciprocity sign bookkeeping is data dependent.", "anchors": ["include/ack/bigint.hpp: bigint::jacobi"]}
{"id": "C19", "title": "Bitwise and/or", "statement": "and_bit and or_bit of non-negative integers are the bitwise conjunction and disjunction.", "quantifier": "all pairs of non-negative integers", "why_tests_cant": "The operands range over unboundedly many magnitudes, signs and word counts; carries, borrows and quotient corrections that fail only on rare word patterns are not reached by sampled vectors.", "anchors": ["include/ack/bigint.hpp: bigint::and_bit, bigint::or_bit"]}
{"id": "C20", "title": "Mixed big/native arithmetic is exact", "statement": "Adding, subtracting, multiplying, dividing and reducing a big integer by a native word gives the exact integer result.", "quantifier": "all integers and all 32-bit words", "why_tests_cant": "The operands range over unboundedly many magnitudes, signs and word counts; carries, borrows and quotient corrections that fail only on rare word patterns are not reached by sampled vectors.", "anchors": ["include/ack/bigint.hpp: bigint::addu1, subu1, mulu1, adds1, subs1, muls1, divs1, mods1, modu1, udiv_modu1"]}
{"id": "C21", "title": "Buffer access stays in bounds and resize preserves content", "statement": "Any index accepted by a checked buffer access is below the current size; growing a buffer preserves the old prefix; fixed buffers refuse to grow beyond their capacity; copies are independent of the original.", "quantifier": "all sequences of resize, write, clear, copy and move operations", "why_tests_cant": "Property of histories of operations.", "anchors": ["include/ack/buffer.hpp: fixed_buffer, flexbuffer"]}
{"id": "C22", "title": "Prime-field addition, subtraction, negation and multiplication", "statement": "For operands in [0,p), field add, sub, neg, mul and sqr return the canonical representative in [0,p) of the result modulo p.", "quantifier": "all p > 1 and all canonical operands", "why_tests_cant": "All moduli and operands; wrap-around only at boundaries.", "anchors": ["include/ack/fp.hpp: fp_add, fp_sub, fp_neg, fp_mul, fp_element::add, sub, mul, sqr, neg"]}
{"id": "C23", "title": "Prime-field inverse and division", "statement": "For a prime p, operands in [0,p) and a non-zero divisor, inv and div return the canonical representative of the field inverse/quotient; dividing by zero or inverting zero aborts and never returns a value.", "quantifier": "all primes p and all operands", "why_tests_cant": "The operands range over unboundedly many magnitudes, signs and word counts; carries, borrows and quotient corrections that fail only on rare word patterns are not reached by sampled vectors.", "anchors": ["include/ack/fp.hpp: fp_div, fp_element::inv, div"]}
{"id": "C24", "title": "Prime-field square root", "statement": "For an odd prime p and n in [0,p), sqrt returns r in [0,p) with r*r = n mod p when n is a square and 0 when it is not; the search loops terminate.", "quantifier": "all odd primes and all n", "why_tests_cant": "Tonelli-Shanks runs depend on the 2-adic structure of p-1 and on n; the loops carry no bound in the code.", "anchors": ["include/ack/fp.hpp: detail::fp_sqrt", "include/ack/bigint.hpp: bigint::jacobi, bigint::modexp"]}
{"id": "C25", "title": "Normalisation brings any integer into the field range", "statement": "fp_normalize(a, p) replaces a by the representative of a modulo p in [0,p) for every integer a.", "quantifier": "all integers a and moduli p", "why_tests_cant": "All a; the failing cases sit between p and the next power of 256.", "anchors": ["include/ack/fp.hpp: detail::fp_normalize"]}
{"id": "C26", "title": "Mixed integer/field operators respect operand order", "statement": "a - x and a / x with a native or big integer a on the left denote a minus x and a divided by x in the field.", "quantifier": "all integers a and field elements x", "why_tests_cant": "For all values; for symmetric samples the error is invisible.", "anchors": ["include/ack/fe.hpp: operator- (bigint, Derived), operator/ (bigint, Derived)"]}
{"id": "C27", "title": "Affine point addition is the elliptic-curve group law", "statement": "For points on a non-singular curve with b != 0 over GF(p), p > 3 prime, add, doubled, sub and inverted compute the group operation, with the identity represented by the identity point.", "quantifier": "all curves, all pairs of points", "why_tests_cant": "Exceptional cases (P=Q, P=-Q, identity, 2-torsion) and infinitely many curves.", "anchors": ["include/ack/ec.hpp: ec_point_fp::add, doubled, sub, inverted"]}
{"id": "C28", "title": "Projective point arithmetic is the group law", "statement": "Addition, doubling and negation in homogeneous coordinates give a representative of the group result for every choice of representatives of the operands.", "quantifier": "all curves, all points and all representatives", "why_tests_cant": "All z coordinates, exceptional cases.", "anchors": ["include/ack/ec.hpp: ec_point_fp_proj::add, doubled, inverted, to_affine, normalize"]}
{"id": "C29", "title": "Jacobian point arithmetic is the group law", "statement": "Addition (all z=1 shortcuts), doubling (all curve-coefficient shortcuts) and negation in Jacobian coordinates give a representative of the group result for every choice of representatives.", "quantifier": "all curves, all points and all representatives", "why_tests_cant": "All z coordinates, exceptional cases, shortcut branches.", "anchors": ["include/ack/ec.hpp: ec_point_fp_jacobi::add, addex, add_z_1, add_z2_1, add_ne, doubled, inverted, to_affine"]}
{"id": "C30", "title": "Scalar multiplication", "statement": "k * P is the k-fold group sum of P for every integer k (zero and negative included) and every point, in affine, projective and Jacobian coordinates.", "quantifier": "all scalars and all points", "why_tests_cant": "All scalars.", "anchors": ["include/ack/ec.hpp: ec_point_fp::mul, ec_point_fp_proj::mul, ec_point_fp_jacobi::mul"]}
{"id": "C31", "title": "Simultaneous scalar multiplication", "statement": "ec_mul_add_fast(a, P, b, Q) equals a*P + b*Q for all non-negative scalars and all points of the curve.", "quantifier": "all pairs of scalars and points", "why_tests_cant": "All scalars; digit combinations of two expansions.", "anchors": ["include/ack/ec.hpp: ec_mul_add_fast"]}
{"id": "C32", "title": "On-curve and validity tests", "statement": "is_on_curve is true exactly when the coordinates satisfy the curve equation (or the point is the identity), in all three coordinate systems; is_valid is true exactly for non-identity points on the curve that n annihilates.", "quantifier": "all curves and all coordinate tuples", "why_tests_cant": "All tuples.", "anchors": ["include/ack/ec.hpp: is_on_curve, is_valid"]}
{"id": "C33", "title": "Point equality does not depend on the representation", "statement": "Two projective (Jacobian) points compare equal exactly when they denote the same affine point or are both the identity.", "quantifier": "all pairs of representatives", "why_tests_cant": "All z coordinates.", "anchors": ["include/ack/ec.hpp: operator== of ec_point_fp, ec_point_fp_proj, ec_point_fp_jacobi"]}
{"id": "C34", "title": "Conversions between coordinate systems preserve the point", "statement": "to_affine and normalize return the affine point denoted; converting an affine point to projective or Jacobian form and back is the identity.", "quantifier": "all points and representatives", "why_tests_cant": "All z coordinates.", "anchors": ["include/ack/ec.hpp: to_affine, normalize, converting constructors"]}
{"id": "C35", "title": "Point decompression", "statement": "decompress_point(x, odd) returns a point on the curve with the given x and the requested parity of y if one with y != 0 exists, and the identity otherwise.", "quantifier": "all curves and all x in [0,p)", "why_tests_cant": "All x; half of them are non-residues.", "anchors": ["include/ack/ec.hpp: compute_y, decompress_point"]}
{"id": "C36", "title": "Point encoding round-trips", "statement": "Decoding the compressed or uncompressed encoding of a curve point returns that point; distinct points have distinct encodings.", "quantifier": "all points with y != 0", "why_tests_cant": "All points, lengths of coordinates (leading zero bytes).", "anchors": ["include/ack/ec.hpp: encode_point, decode_point", "include/ack/fp.hpp: fp_element::to_bytes"]}
{"id": "C37", "title": "Point decoding halts on malformed or invalid encodings", "statement": "decode_point aborts unless the input is a well-formed SEC1 encoding of a point with coordinates in [0,p) that lies on the curve.", "quantifier": "all byte strings", "why_tests_cant": "All byte strings of all lengths.", "anchors": ["include/ack/ec.hpp: decode_point"]}
{"id": "C38", "title": "Named curve constants are consistent", "statement": "For each named curve, in native and wasm builds, the curve object is constructed from its constants without abort; p and n are primes of the stated size, the generator satisfies the curve equation and is not the identity, the discriminant is non-zero, b is non-zero, n*G is the identity, p < 2n (so that one conditional subtraction reduces an x-coordinate modulo n), a and b are in [0,p), the group has exactly n elements (cofactor 1, no point of small order), and verify() returns true.", "quantifier": "each of the eight curves (finite), a fact about constants used by every verification", "why_tests_cant": "A constant typo that keeps sampled vectors passing is only excluded by the algebraic checks.", "anchors": ["include/ack/ec_curve.hpp"]}
{"id": "C39", "title": "Key generation refuses out-of-range scalars", "statement": "generate_point(x) aborts unless 1 <= x <= n-1 and otherwise returns x*G.", "quantifier": "all scalars", "why_tests_cant": "All scalars.", "anchors": ["include/ack/ec.hpp: generate_point"]}
{"id": "C40", "title": "ECDSA verification accepts exactly the valid signatures", "statement": "For a public key point on the curve, ecdsa_verify returns true exactly when r,s are in [1,n-1], the key is not the identity, and the point R = (e/s)G + (r/s)Q is not the identity and has x-coordinate congruent to r modulo n, where e is the integer of the leftmost bytes of the message.", "quantifier": "all curves, keys, messages and signature pairs", "why_tests_cant": "Acceptance set is over 2^512 signatures per key; forged pairs are never sampled.", "anchors": ["include/ack/ecdsa.hpp: ecdsa_verify"]}
{"id": "C41", "title": "Honestly generated ECDSA signatures are accepted", "statement": "If Q = d*G and (r,s) was produced from d and nonce k by the signing equation with r,s != 0, ecdsa_verify accepts (r,s).", "quantifier": "all keys, nonces and messages", "why_tests_cant": "All keys and nonces.", "anchors": ["include/ack/ecdsa.hpp: ecdsa_verify"]}
{"id": "C42", "title": "ECDSA rejects out-of-range signature components and the identity key", "statement": "ecdsa_verify returns false (no abort, no other effect) whenever r or s is < 1 or >= n or the key is the identity.", "quantifier": "all inputs", "why_tests_cant": "Infinite range of r and s.", "anchors": ["include/ack/ecdsa.hpp: ecdsa_verify"]}
{"id": "C43", "title": "ECDSA message truncation follows the standard", "statement": "The integer derived from the message is congruent modulo n to the leftmost bitlength(n) bits of the message (FIPS 186-5), for every message length.", "quantifier": "all curve orders and messages", "why_tests_cant": "All lengths and orders; the discrepancy needs an order whose bit length is not a multiple of 8 and a long message.", "anchors": ["include/ack/ecdsa.hpp: ecdsa_verify, ecdsa_recover"]}
{"id": "C44", "title": "ECDSA key recovery is sound", "statement": "If ecdsa_recover returns a non-identity point Q, the same (r,s) verifies under Q.", "quantifier": "all curves of prime order, messages, signatures and recovery ids", "why_tests_cant": "All signatures.", "anchors": ["include/ack/ecdsa.hpp: ecdsa_recover, ecdsa_verify"]}
{"id": "C45", "title": "ECDSA key recovery is complete", "statement": "For a signature made with key d and nonce k there is a recovery id <= 3 for which ecdsa_recover returns d*G.", "quantifier": "all keys and nonces", "why_tests_cant": "The cases x(R) >= n have probability 2^-128 and are never sampled.", "anchors": ["include/ack/ecdsa.hpp: ecdsa_recover"]}
{"id": "C46", "title": "RSA signature representative range check", "statement": "The RSA verification primitive proceeds exactly when the signature, read as an integer, is below the modulus and has the length of the modulus.", "quantifier": "all signatures and moduli", "why_tests_cant": "All byte strings; failing cases need leading zero bytes.", "anchors": ["include/ack/rsa.hpp: detail::is_s_valid, detail::rsavp1"]}
{"id": "C47", "title": "RSA verification primitive computes s^e mod n", "statement": "For a valid representative the primitive returns the big-endian encoding, padded to the length of the modulus, of s^e mod n.", "quantifier": "all moduli, exponents and signatures", "why_tests_cant": "The operands range over unboundedly many magnitudes, signs and word counts; carries, borrows and quotient corrections that fail only on rare word patterns are not reached by sampled vectors.", "anchors": ["include/ack/rsa.hpp: detail::powm, detail::rsavp1"]}
{"id": "C48", "title": "PKCS#1 v1.5 verification accepts exactly the RFC 8017 encoding", "statement": "rsassa_pkcs1_v1_5 verification returns true exactly when the recovered block equals 00 01 FF..FF 00 || DigestInfo || digest with at least eight FF bytes filling the modulus length; no trailing or misplaced bytes are tolerated.", "quantifier": "all public keys, digests and signatures", "why_tests_cant": "Bleichenbacher-style forgeries live in tiny corners of a 2^2048 space.", "anchors": ["include/ack/rsa.hpp: rsassa_pkcs1_v1_5_verify, rsa_1_5_t_generator"]}
{"id": "C49", "title": "PSS verification accepts exactly the RFC 8017 EMSA-PSS encodings", "statement": "rsassa_pss_mgf1 verification returns true exactly when RFC 8017 section 9.1.2 says 'consistent' for the configured salt length.", "quantifier": "all public keys, salt lengths, digests and signatures", "why_tests_cant": "All encoded messages and lengths.", "anchors": ["include/ack/rsa.hpp: rsassa_pss_mgf1_verify"]}
{"id": "C50", "title": "MGF1", "statement": "mgf1 writes exactly the first maskLen bytes of H(seed||0) || H(seed||1) || ... with 4-byte big-endian counters.", "quantifier": "all seeds, mask lengths and hash functions", "why_tests_cant": "All lengths; partial last block.", "anchors": ["include/ack/mgf.hpp: mgf1"]}
{"id": "C51", "title": "assert_* functions abort exactly when verification fails", "statement": "Each assert_ function returns normally exactly when the matching verify_ function returns true and otherwise aborts.", "quantifier": "all inputs", "why_tests_cant": "All inputs.", "anchors": ["include/ack/rsa.hpp: assert_rsa_*", "include/ack/ecdsa.hpp: assert_ecdsa"]}
{"id": "C52", "title": "Software Montgomery exponentiation is exact", "statement": "The software modular exponentiation returns base^e mod n for every odd modulus whose byte length is a multiple of four and has no leading zero byte, every base < n and every odd exponent e >= 3 of up to 64 bits.", "quantifier": "all moduli, bases and exponents", "why_tests_cant": "The operands range over unboundedly many magnitudes, signs and word counts; carries, borrows and quotient corrections that fail only on rare word patterns are not reached by sampled vectors. Exponent bits above bit 31 are never exercised by common exponents (3, 65537).", "anchors": ["include/ack/c/powm.h: rsa_gen_key_prop, rsa_mod_exp_sw, pow_mod, montgomery_mul, montgomery_mul_add_step, is_public_exponent_bit_set"]}
{"id": "C53", "title": "Branch-free word primitives compute their comparisons", "statement": "NOT, MUX, EQ, NEQ, GT, GE, LT, BIT_LENGTH, the byte swaps and the 64/32 constant-time division return what their comments say for all 32-bit inputs.", "quantifier": "all 32-bit words", "why_tests_cant": "2^64 input pairs each.", "anchors": ["include/ack/c/powm.h: NOT, MUX, EQ, NEQ, GT, BIT_LENGTH, br_divrem, br_i32_ninv32"]}
{"id": "C54", "title": "Montgomery constants are right", "statement": "n0inv equals -1/n mod 2^32 for odd n and rr equals 2^(2*bits) mod n.", "quantifier": "all odd moduli", "why_tests_cant": "The operands range over unboundedly many magnitudes, signs and word counts; carries, borrows and quotient corrections that fail only on rare word patterns are not reached by sampled vectors.", "anchors": ["include/ack/c/powm.h: br_i32_ninv32, br_i32_reduce, br_i32_muladd_small, br_i32_decode, br_i32_encode"]}
{"id": "C55", "title": "Software exponentiation memory safety", "statement": "For every non-zero modulus whose significant byte length is a multiple of four, the software path reads and writes only inside the memory it allocates; no other modulus length is safe.", "quantifier": "all modulus lengths", "why_tests_cant": "All lengths; out-of-bounds writes of a few bytes go unnoticed in tests.", "anchors": ["include/ack/c/powm.h: rsa_gen_key_prop, rsa_mod_exp_sw"]}
{"id": "C56", "title": "SHA-384 equals FIPS 180-4", "statement": "sha384(m) equals the FIPS 180-4 SHA-384 digest for every message.", "quantifier": "all messages of every length", "why_tests_cant": "All lengths modulo the block size and all contents.", "anchors": ["include/ack/sha.hpp: sha384, detail::sha512_compute"]}
{"id": "C57", "title": "SHA-3 and SHAKE equal FIPS 202", "statement": "sha3_256, sha3_384, sha3_512, shake128 and shake256 equal the FIPS 202 functions for every message and output length; no shift by the full word width occurs.", "quantifier": "all messages and output lengths", "why_tests_cant": "All lengths modulo the rate, all contents.", "anchors": ["include/ack/keccak.hpp: keccak, F, sha3_*, shake*"]}
{"id": "C58", "title": "SHAKE output is prefix-consistent", "statement": "The first k bytes of a longer SHAKE output equal the k-byte SHAKE output.", "quantifier": "all messages and lengths", "why_tests_cant": "All lengths.", "anchors": ["include/ack/keccak.hpp: shake128, shake256"]}
{"id": "C59", "title": "Hex decoding", "statement": "from_hex decodes exactly the hexadecimal digits, aborting on any other character, accepts odd lengths by treating the first digit as its own byte, never writes past the output, and is inverse to hex encoding.", "quantifier": "all strings and output sizes", "why_tests_cant": "All strings.", "anchors": ["include/ack/utils.hpp: from_hex, from_hex_char"]}
{"id": "C60", "title": "memxor is bytewise exclusive or", "statement": "memxor xors exactly the first min(len) bytes and leaves the others untouched, for all lengths.", "quantifier": "all buffers and lengths", "why_tests_cant": "Block/tail split boundary for each length.", "anchors": ["include/ack/utils.hpp: memxor"]}
{"id": "C61", "title": "Byte-view serialisation round-trips", "statement": "Deserialising a serialised byte view returns the same bytes and leaves the stream directly behind it.", "quantifier": "all byte strings", "why_tests_cant": "Length varint has several widths.", "anchors": ["include/ack/types.hpp: operator<<, operator>>"]}
{"id": "C62", "title": "Key equality", "statement": "Two RSA public keys compare equal exactly when modulus, exponent (and salt length for PSS keys) are equal.", "quantifier": "all pairs of keys", "why_tests_cant": "All pairs.", "anchors": ["include/ack/public_key.hpp: operator=="]}
{"id": "C63", "title": "Aliased destinations are safe", "statement": "An arithmetic operation whose destination is one of its operands (x += y, x *= x, x <<= k) leaves the same value as with a separate destination.", "quantifier": "all operands and storage capacities", "why_tests_cant": "Depends on the order of reads and writes for every length and on whether a resize reallocates.", "anchors": ["include/ack/bigint.hpp: uadd, usub, mul, shift_left, shift_right, addu1", "include/ack/buffer.hpp: flexbuffer::resize"]}
{"id": "C64", "title": "ECDSA acceptance is symmetric in s", "statement": "(r, s) is accepted exactly when (r, n-s) is accepted: callers must not treat signatures as unique identifiers.", "quantifier": "all keys, messages and signatures", "why_tests_cant": "All signatures.", "anchors": ["include/ack/ecdsa.hpp: ecdsa_verify"]}
{"id": "C65", "title": "RSA exponent and length preconditions", "statement": "Exponents longer than eight significant bytes, and signatures whose length differs from the modulus, never yield acceptance.", "quantifier": "all keys and signatures", "why_tests_cant": "All lengths.", "anchors": ["include/ack/rsa.hpp: detail::powm, detail::rsavp1"]}
{"id": "C66", "title": "Curve validation accepts exactly admissible domain parameters", "statement": "For a curve object over a prime field with b != 0, verify() returns true exactly when p > 3, n > 0, a and b lie in [0,p), 4a^3+27b^2 != 0, the generator is a non-identity point of the curve annihilated by n, 1 <= h < p and n*h != p-1; constructing a curve aborts when a generator coordinate is outside [0,p).", "quantifier": "all curve objects over prime fields", "why_tests_cant": "All parameter sets; each conjunct must be enforced for every curve.", "anchors": ["include/ack/ec.hpp: ec_curve_fp::verify, ec_curve_fp constructor"]}
{"id": "C67", "title": "ECDSA on the named curves is FIPS 186-5 verification, and recovery inverts it", "statement": "On each of the eight named curves, for messages of any length (at most 65 bytes on secp521r1), ecdsa_verify returns true exactly when FIPS 186-5 accepts; a non-identity point returned by ecdsa_recover accepts the signature; and a key accepts a signature exactly when one of the recovery ids 0..3 returns it.", "quantifier": "all named curves, native and wasm builds, all keys, messages, signatures and recovery ids", "why_tests_cant": "All signatures over groups of 2^256 and more elements; depends on the primality of the constants and the exact group order.", "anchors": ["include/ack/ecdsa.hpp: ecdsa_verify, ecdsa_recover", "include/ack/ec_curve.hpp"]}
{"id": "C68", "title": "Honest RSA signatures are accepted", "statement": "A PKCS#1 v1.5 or PSS signature computed with the private exponent of an RSA key (n = p q, e d = 1 modulo p-1 and q-1) over a correctly encoded digest is accepted by the matching verify function.", "quantifier": "all RSA keys, digests, hash functions and (for PSS) salts and salt lengths", "why_tests_cant": "Tests use a handful of keys; the statement needs Fermat's little theorem and the Chinese remainder theorem for every key.", "anchors": ["include/ack/rsa.hpp: verify_rsa_*, rsassa_pss_mgf1_verify"]}
{"id": "C69", "title": "An RSA signature is bound to one digest", "statement": "Under one key, one PKCS#1 v1.5 signature is accepted for at most one hash function and one digest; one PSS signature accepted for two digests exhibits an explicit hash collision. A PSS signature is accepted with one salt length only, and no signature is accepted by two PKCS#1 v1.5 actions of the contract or for two messages of different hash.", "quantifier": "all keys, signatures, digests, messages, salt lengths and pairs of hash functions", "why_tests_cant": "A statement about all pairs of digests and all signatures; tests only try a few.", "anchors": ["include/ack/rsa.hpp: verify_rsa_sha1, verify_rsa_sha256, verify_rsa_sha384, verify_rsa_sha512, rsassa_pss_mgf1_verify"]}
{"id": "C70", "title": "A failed exponentiation is never accepted", "statement": "If the modular exponentiation reports an error (its return code is ignored by the callers), no PKCS #1 v1.5 or PSS verification returns true.", "quantifier": "all keys, digests, signatures, hash functions, salt lengths, and all exponentiation routines", "why_tests_cant": "Which inputs make the routine fail depends on the host and on the key; no test suite forces a failure for every key and digest.", "anchors": ["include/ack/rsa.hpp: powm, rsavp1, rsassa_pkcs1_v1_5_verify, rsassa_pss_mgf1_verify"]}
{"id": "C71", "title": "Checked construction of field elements", "statement": "Constructing a field element, or assigning an integer to one, with checking aborts exactly when the integer is outside [0, p) and otherwise stores it with its modulus; without checking it always succeeds and is_valid tells whether the value is in range. An element without modulus is invalid and ignores assignment.", "quantifier": "all integers, all moduli, both checking modes", "why_tests_cant": "Tests probe a few boundary values of a few moduli.", "anchors": ["include/ack/fe.hpp: fe_element, assign, is_valid, modulus, is_negative"]}
{"id": "C72", "title": "Field expressions compute the field value", "statement": "Any expression over field elements built from +, -, unary -, *, /, sqr and inv evaluates to the value of the same expression in the prime field, and aborts exactly when it divides by zero.", "quantifier": "all expressions of any size, all elements, all prime moduli", "why_tests_cant": "The set of expressions and moduli is infinite; each operation is tested on its own and errors may only show in composition.", "anchors": ["include/ack/fe.hpp: fp_element operators"]}
{"id": "C73", "title": "Import and export of word arrays", "statement": "set_array on elements of 1, 2, 4 or 8 bytes yields the integer whose digits are the elements in the requested order, or returns false exactly when it does not fit; get_array writes the magnitude padded with zero words, or returns false exactly when the array is too short; reading back what was written gives the absolute value.", "quantifier": "all arrays of any length, all element sizes, both orders, all capacities", "why_tests_cant": "Packing depends on element size, length modulo the word size, order and capacity; tests cover a handful of combinations.", "anchors": ["include/ack/bigint.hpp: set_array, get_array, convert_array_as"]}
{"id": "C74", "title": "Constants and run time agree", "statement": "Bytes and hexadecimal literals imported by the compiler in a constant give the same integer (or failure) as at run time, and each named curve, evaluated by the compiler in buffers that cannot grow, is the curve of C38.", "quantifier": "all byte strings, literals and capacities; all named curves, both targets", "why_tests_cant": "The two paths are different code; equality for all inputs needs a proof about both.", "anchors": ["include/ack/bigint.hpp: set_bytes, bigint(const char(&)[N])", "include/ack/buffer.hpp: flexbuffer::resize", "include/ack/ec_curve.hpp"]}
{"id": "C75", "title": "ECDSA actions of the contract", "statement": "Each ECDSA verification action of the example contract completes exactly when the byte strings are a public key on the action's curve and a signature valid by FIPS 186-5 for the digest of the message, and aborts the transaction otherwise.", "quantifier": "all eight actions, all byte strings for key, message, r and s, any SHA-256/512 of the host", "why_tests_cant": "The action accepts arbitrary bytes from any caller; tests show single transactions only, and rejecting every invalid one is a universal claim.", "anchors": ["examples/helloack/src/helloack.cpp: check_ecdsa and the ecdsa actions", "examples/helloack/include/helloack/helloack.hpp"]}
{"id": "C76", "title": "RSA actions of the contract", "statement": "Each RSA action of the example contract completes exactly when the signature is valid by RFC 8017 (PKCS #1 v1.5 or PSS) for the digest of the message under the given key, aborts otherwise, and never shows undefined behaviour.", "quantifier": "all eight actions, all byte strings for key, message and signature, all salt lengths", "why_tests_cant": "Key, salt length and signature all come from the caller; the space of malformed inputs is unbounded.", "anchors": ["examples/helloack/src/helloack.cpp: rsasha*, rsapsssha*", "include/ack/types.hpp: rsa_public_key_view, rsa_pss_public_key_view"]}
{"id": "C77", "title": "Points in any representation", "statement": "make_point, decompress_point and decode_point asked for an affine, homogeneous or Jacobian point return representatives of the same group element and abort on the same inputs; generate_point on hexadecimal text (view or literal) is the multiple of the generator by the numeral, and aborts when the text is no numeral, too long or outside [1, n-1].", "quantifier": "all curves over prime fields, all coordinates, all byte strings, all texts, three point types", "why_tests_cant": "The functions are templates; each instantiation is different code, and agreement on all inputs including malformed ones cannot be sampled.", "anchors": ["include/ack/ec.hpp: ec_curve_fp::make_point, decompress_point, decode_point, generate_point, compute_y"]}
{"id": "C78", "title": "Native operands and comparison operators", "statement": "Every comparison operator between a big integer (or field element) and a big integer, a field element or a native integer of any of the types int, uint32_t, int64_t, uint64_t, with the native operand on either side, answers as the comparison of the two integers; +, - and * with a native operand are exact; the field members with a native operand in [0, p) are the field operations.", "quantifier": "all values of the big integer, all values of each native type, all six operators, both operand orders, all storage capacities", "why_tests_cant": "There are 54 comparison operators on unbounded operands; the boundary values of each native type, both signs and both zeros interact.", "anchors": ["include/ack/bigint.hpp: operator ==, !=, <, <=, >, >=, +, -, *", "include/ack/fp.hpp: fp_is_valid, fp_neg, fp_add, fp_sub, fp_mul, fp_element comparison operators", "include/ack/fe.hpp: operators with IntU"]}
{"id": "C79", "title": "No negative zero in field computations", "statement": "A computation on elements of a prime field that were constructed without a minus sign never produces a negative zero, so that a result can be compared with zero of any native type.", "quantifier": "all prime moduli, all elements, all expressions built from +, -, *, /, negation, squaring and inversion; and square roots", "why_tests_cant": "The sign flag of a zero depends on the path through addition, subtraction and reduction; the expressions are unbounded.", "anchors": ["include/ack/fp.hpp: fp_element", "include/ack/bigint.hpp: _add, _adds1, mod, compareu1"]}
{"id": "C80", "title": "Copies are independent, moves transfer, swaps exchange", "statement": "Copy-constructing a big integer gives a new integer of equal value and leaves the source unchanged; move construction and move assignment give the target the value of the source and affect no third object; swap exchanges two values; an object that was moved from can be assigned again and then behaves like any other. Moving an object to itself and swapping an object with itself change nothing.", "quantifier": "all states reached by any program on any number of integers, fixed and growable storage, all choices of source and target including equal ones", "why_tests_cant": "whether two objects share a heap block after a copy or a move depends on the whole history of the objects (inline or heap storage, block sizes); a test sees one history", "anchors": ["include/ack/bigint.hpp: bigint(const bigint&), bigint(bigint&&), operator=(bigint&&), swap", "include/ack/buffer.hpp: flexbuffer, fixed_buffer"]}
{"id": "C81", "title": "Number-theoretic functions may overwrite their arguments and never touch other objects", "statement": "pow, modexp, modinv, gcd and lcm of big integers return the exact power, the least residue of the power, the inverse (with a flag that says whether it exists), the greatest common divisor and the least common multiple also when the result object is one of the arguments; all other integers keep their values; every call returns and none has undefined behaviour, on fixed and on growable storage.", "quantifier": "all programs that mix these calls with the arithmetic operations, copies and moves, all choices of result and argument objects, all values in the domain of the functions, all storage capacities", "why_tests_cant": "the functions run loops over temporary objects whose storage moves between inline words and heap blocks depending on the values; whether a temporary or an overwritten argument is read after it changed depends on the aliasing pattern, the sizes and the quotient sequence", "anchors": ["include/ack/bigint.hpp: _pow, mod_mul_t, mod_sqr_t, pow, modexp, modinv, gcd, lcm", "include/ack/buffer.hpp: flexbuffer, fixed_buffer"]}
{"id": "C82", "title": "Points stay usable while their curve object lives, and a copy of a curve object is a curve of its own", "statement": "Points made with a curve object, sums, differences, negatives, doubles and multiples of such points, also of points made with different objects of the same curve, can be used as long as the curve objects live with which the operands were made, whatever happens to other curve objects; the results denote the right group elements. A copy of a curve object works after the original has ended, and its points compare equal to equal points made with it.", "quantifier": "all programs that create, copy and end curve objects and compute with points, every order of these events, all curves, points and scalars", "why_tests_cant": "points hold pointers to a curve and to a modulus that come from different operands; whether a dangling pointer is followed depends on which objects have ended at that moment, and following one often still gives the right value in a test run", "anchors": ["include/ack/ec.hpp: ec_point_base, ec_point_fp, ec_curve_fp (implicit copy), make_point, generate_point", "include/ack/fp.hpp: fp_element (pm_)"]}
{"id": "C83", "title": "The field functions are correct on real storage", "statement": "A program that calls fp_add, fp_sub, fp_mul, fp_sqr, fp_div, fp_neg and fp_normalize, on integers in fixed or growable storage, gets the residues modulo p, whichever of the operands and the modulus are the same object; no operand and no other object changes its value, comparisons and fp_is_valid give the answers for the integers, a division by an element without inverse aborts, and no storage is read after its release or out of bounds.", "quantifier": "all programs of field and integer operations, all integers, all choices of operand objects, every capacity that suffices", "why_tests_cant": "the functions work in place on a result object that has been sized by an earlier step, and release temporaries; whether an in-place step reads released storage depends on the lengths of the numbers and on the inline capacity", "anchors": ["include/ack/fp.hpp: fp_is_valid, fp_normalize, fp_neg, fp_add, fp_sub, fp_mul, fp_sqr, fp_div", "include/ack/bigint.hpp: bigint::compare, operators, modinv, byte_length", "include/ack/buffer.hpp: fixed_buffer, flexbuffer"]}
{"id": "C84", "title": "Programs on curves compute in the group, on real storage", "statement": "A program reads domain parameters and integers from bytes, makes a curve, makes points from coordinates and from scalars, converts them between affine, projective and Jacobian form, adds, subtracts, doubles, negates and multiplies them in any order, compares and validates them and verifies signatures. Run on integer objects with fixed storage that holds products of residues, or on growable storage whose inline part holds a residue, it sees in the end exactly what the group of the curve says: the coordinates of each point, the answers and the integers. A statement with arguments that the library rejects stops the program. For programs outside the domain of the functions (points off the curve made without check, composite modulus) storage adds nothing: the outcome is the one of the functions on values.", "quantifier": "all programs of any length over these operations, all domain parameters with a prime field above 8 and a generator of prime order (for the last sentence: any modulus above 8), all integers and messages, every capacity that suffices, both kinds of storage", "why_tests_cant": "the number of programs is infinite; each operation leaves its result in a representative and in storage that depends on the history (stale words, heap or inline storage, pointers to the modulus of another object), and an error may show only for a later operation on that object", "anchors": ["include/ack/ec.hpp: ec_point_fp, ec_point_fp_proj, ec_point_fp_jacobi, ec_mul_add_fast, ec_curve_fp", "include/ack/ecdsa.hpp: ecdsa_verify", "include/ack/fp.hpp: fp_element", "include/ack/buffer.hpp: fixed_buffer, flexbuffer"]}
{"id": "C85", "title": "Programs on curves have no undefined behaviour, whatever their points", "statement": "A program as in C84 that uses declared variables of the right classes ends normally or is stopped by a check of the library, also when its points are not on the curve (made from coordinates without the check, or received as a public key) and when its scalars fill the storage: no out-of-bounds access, no use of ended objects, no endless loop, no division by zero. In the end every point it reads has residues as coordinates. If bytes fit, unverified coordinates are residues and private scalars are in range, it ends normally.", "quantifier": "all programs of any length over the operations of C84, all coordinates and scalars, all domain parameters with a prime field above 8 and a generator of prime order, every capacity that suffices, both kinds of storage", "why_tests_cant": "off-curve coordinates take the formulas into cases (vanishing denominators, doubling of the result) that no group law excludes; that none of them inverts zero or leaves the storage is a statement about all of them and about all sequences of operations", "anchors": ["include/ack/ec.hpp: ec_point_fp, ec_point_fp_proj, ec_point_fp_jacobi, ec_mul_add_fast, ec_curve_fp", "include/ack/ecdsa.hpp: ecdsa_verify", "include/ack/bigint.hpp: to_naf", "include/ack/buffer.hpp: fixed_buffer, flexbuffer"]}
{"id": "C86", "title": "Programs that encode, decode and decompress points and recover keys compute in the group, on real storage", "statement": "A program as in C84 may also decompress points from a coordinate and a parity, decode points from byte strings (also strings it made), encode points in full and in compressed form, and recover public keys from signatures. On fixed storage that holds products of residues, or growable storage whose inline part holds a residue, it sees in the end exactly: the point with the given coordinate and parity, or the point at infinity if there is none with y not 0; the encoded point; the bytes of SEC 1; for recovery the point -m/r G + s/r R for the point R that r and the recovery number describe, or the point at infinity if the signature is out of range, no such R exists, or R fails the requested check. Malformed encodings and unreduced coordinates where they are checked stop the program.", "quantifier": "all programs of any length over these operations, all domain parameters with a prime field above 8 and a generator of prime order (recovery: of order at most the field size), all integers, byte strings and messages, every capacity that suffices, both kinds of storage", "why_tests_cant": "the square root, the exponentiation and the recovery allocate and move many integers; whether each result is right on storage with any history, for every encoding and every curve, is not settled by any number of runs", "anchors": ["include/ack/ec.hpp: ec_curve_fp::decompress_point, ec_curve_fp::decode_point, ec_curve_fp::encode_point", "include/ack/fp.hpp: fp_element::sqrt, fp_element::to_bytes", "include/ack/ecdsa.hpp: ecdsa_recover", "include/ack/bigint.hpp: modexp, to_bytes", "include/ack/buffer.hpp: fixed_buffer, flexbuffer"]}
{"id": "C87", "title": "The named curves and the contract's ECDSA actions are right on the storage the library gives them", "statement": "For every named curve, in a build for the chain and in a native build, the parameters read from the source text and stored in the integer type of that curve make the curve of SEC 2 or RFC 5639, a group of prime order; every program on it as in C86 sees in the end exactly what that group gives, and is stopped where a check fails. Each ECDSA action of the example contract, run on that storage, completes for a public key on the curve exactly when the signature is valid by FIPS 186-5 and no argument is longer than the storage; for any arguments whatever it completes or aborts, without undefined behaviour.", "quantifier": "all eight named curves, both builds, all programs of any length, all action arguments (bytes of any length), all host hash functions of the stated digest lengths", "why_tests_cant": "whether the storage chosen for each curve suffices for every intermediate number, and whether no object history or argument makes the code read or write outside it, depends on all inputs; tests use a few keys on the curve", "anchors": ["include/ack/ec_curve.hpp: all curves", "include/ack/ec.hpp: ec_curve_fp, ec_fixed_bigint", "include/ack/ecdsa.hpp: assert_ecdsa", "examples/helloack/src/helloack.cpp: ECDSA actions"]}
{"id": "C88", "title": "Programs on encodings and key recovery have no undefined behaviour, and decoding is exact for every byte string", "statement": "A program that declares integers, points and byte strings, converts, decompresses, encodes, decodes and recovers keys, and names declared variables of the right classes, ends normally with one value per variable or is stopped by a check, whatever the coordinates of its points, its numbers and its bytes; if its literals pass the checks it ends normally and its own encodings can be decoded. Decoding of any byte string after such a program stops it if the bytes are malformed; otherwise it yields exactly: nothing for a leading zero byte, for a compressed x without a point with y not 0, and for the full form of (0, 0); the two numbers of the full form, on the curve or not; for a compressed form the x as it stands, reduced or not, with the y of the given parity. Every other variable keeps its value. On fixed and on growable storage.", "quantifier": "all curves over prime fields within the storage, all programs of any length, all byte strings of any length, all storage sizes", "why_tests_cant": "malformed and off-curve inputs are unlimited in number, and undefined behaviour shows in tests only when it happens to misbehave", "anchors": ["include/ack/ec.hpp: decode_point, encode_point, decompress_point, compute_y", "include/ack/fe.hpp: sqrt", "include/ack/ecdsa.hpp: ecdsa_recover"]}
{"id": "C89", "title": "Validation of curve parameters on real storage is exact", "statement": "A program that makes six integers from bytes and a curve of them and asks the curve to validate itself is told true exactly when the curve is not singular, the generator is a point of it other than the point at infinity, the order times the generator is the point at infinity, the cofactor is at least 1 and less than the modulus, and order times cofactor is not the modulus minus one; a generator whose coordinates are not residues stops the program. No undefined behaviour, on fixed and on growable storage. If the order is prime, a curve that passes is in the domain of every other theorem about curves. Every named curve passes in both builds. For a modulus that is not prime, the storage gives what the functions on values give.", "quantifier": "all primes above 27 within the storage, all coefficients below the modulus with b not 0, all generators, orders above 1 and cofactors; all named curves; both kinds of storage", "why_tests_cant": "the answer depends on group orders of arbitrary curves; tests try a handful of curves, and a validation that accepts too much is only noticed on parameters nobody tried", "anchors": ["include/ack/ec.hpp: ec_curve_fp::verify", "include/ack/ec_curve.hpp: named curves"]}
{"id": "C90", "title": "Serialised keys and action data", "statement": "Deserialising byte views from any data yields exactly the byte strings whose EOSIO serialisation the data begin with, or fails a check when the data end within a length field. A key with its salt length, written and read back as view or as owning object, is the same key. An action on the serialisation of its arguments does what it does on the arguments, whatever follows, and succeeds on no other data. No data make an action read outside its data.", "quantifier": "all byte strings as action data, all arguments of less than 2^32 bytes, all actions, all hosts", "why_tests_cant": "action data are chosen by anyone who sends a transaction; malformed data are unlimited in number, and reading past the end shows only by accident", "anchors": ["include/ack/types.hpp: operator<<, operator>> for bytes_view", "include/ack/public_key.hpp: EOSLIB_SERIALIZE", "examples/helloack/include/helloack.hpp: actions"]}
{"id": "C91", "title": "Programs on field elements compute in the prime field", "statement": "A program that makes finite-field elements over one prime modulus, applies +, -, *, / (with elements, big integers or native integers), negation, squaring, inversion and square root, assigns results with =, +=, -=, *=, /= (also to an element that is an operand, as in x /= x), copies, compares and encodes elements, sees exactly the values of arithmetic in GF(p): encodings have the fixed length of p-1, square roots square back or are zero for non-squares. It stops with a failed check exactly when it divides by or inverts zero, gives bytes that do not fit, or gives a checked value that is not below the modulus; it never has undefined behaviour.", "quantifier": "all primes p > 8 that the storage has room for, both storage kinds, all well-formed programs of any length, all aliasing among their elements", "why_tests_cant": "results of one statement are operands of others, in any order and with any aliasing, for any modulus; tests run single operations on fresh objects for a few curves", "anchors": ["include/ack/fe.hpp: field_element operators and compound assignments", "include/ack/fp.hpp: fp_element, fp_add, fp_sub, fp_mul, fp_div, fp_sqrt"]}
{"id": "C92", "title": "Points can be assigned to in place, also from themselves", "statement": "A program that keeps curve points in variables and updates them with +=, -=, *=, = (copy) or = followed by any expression that yields a point of the class (sum, difference, multiple, negation, double, conversion, generate_point, make_point), where the updated point may itself occur in the expression (P += P, P -= P, P = P), finds in each variable the group element its last assignment gave it; no assignment changes another point, an integer or the curve, and no point is left referring to a temporary. With points off the curve or large scalars it still has no undefined behaviour.", "quantifier": "all curve parameters over primes p > 8 that the storage has room for, both storage kinds, all three point classes, all well-formed programs of any length, all aliasing among operands and target", "why_tests_cant": "aliasing between target and operands and the lifetime of temporaries whose buffers are moved from matter in every interleaving of statements; tests use fresh variables", "anchors": ["include/ack/ec.hpp: ec_point_base operators +=, -=, *=; implicit assignments of ec_point_fp, ec_point_fp_proj, ec_point_fp_jacobi", "include/ack/fp.hpp: fp_element assignments"]}
{"id": "C93", "title": "Questions about integers are answered correctly wherever the integers live", "statement": "A program that computes with integers, imports them from bytes and divides them with quot_rem gets the right answer to every question it asks about them: is_zero, is_one, is_negative, is_odd, is_even, the comparisons with integers and ints, bit_length, byte_length, test_bit, to_bytes (the unique shortest big-endian string), to_naf (the unique non-adjacent form) and jacobi (any argument, any positive odd modulus, also 1 and composite ones). quot_rem rounds down and may overwrite its operands. Asking changes nothing, and afterwards every object holds its integer. A division by zero and bytes that need more words than there are end the program.", "quantifier": "all programs of any length on fixed storage of any size and on growable storage with any number of inline words, all values and all aliasing between operands and results, all answers", "why_tests_cant": "the answers depend on the representation left by earlier statements (negative zeros, stale words, blocks that moved), which differs for every program", "anchors": ["include/ack/bigint.hpp: quot_rem, jacobi, to_naf, to_bytes, set_bytes, bit_length, byte_length, test_bit, is_zero, is_one, is_negative, is_odd, is_even, comparison operators"]}
{"id": "C94", "title": "Byte strings, views of them and keys made of views behave as values while their storage lives", "statement": "A program that builds byte vectors, copies views into new vectors (make_bytes), concatenates vectors (a + b), appends one to another (a += b), takes views and parts of views, xors views into each other with memxor (source and destination may be the same bytes, and the source may begin behind the beginning of the destination) and compares views, vectors, RSA keys and RSA-PSS keys (== and !=) gets exactly the byte strings and answers that the same operations on values give. Nothing outside the destination changes and nothing undefined happens, provided no vector is appended to itself, no view is used after its vector was appended to or destroyed, and memxor is not given a source that begins before its destination and reaches into it. Each of these conditions is needed.", "quantifier": "all programs of any length, all byte strings of any length, all placements and capacities an allocator may choose", "why_tests_cant": "views are raw addresses: whether they still point at the right bytes depends on when vectors move, which depends on the allocator and on the history of the program", "anchors": ["include/ack/types.hpp: make_bytes, operator+, operator+=", "include/ack/utils.hpp: memxor", "include/ack/span_ext.hpp: operator==, operator!=", "include/ack/public_key.hpp: rsa_public_key_view, rsa_pss_public_key_view, operator==, operator!="]}
{"id": "C95", "title": "Programs written with the integer operators compute what they say", "statement": "A program written with the operators of the big integer classes, with nested expressions, operands of the four native integer types, compound assignment, increments, shifts, comparisons, member functions (pow, modinv, gcd, lcm, modexp, abs, swap), conditions, loops and blocks with local variables, ends with every variable holding the integer that the same program computes on mathematical integers. It does so on fixed and on growable storage and whether or not the compiler elides the moves of returned results; temporaries and results never disturb a variable. Conditions: the results fit, no division by zero, and the operators that are known to be wrong are avoided (each exclusion is needed). A program that gets to a division by zero, or to the inverse of a number that has none, aborts there.", "quantifier": "all programs that terminate, with any nesting of expressions and any number of loop iterations, all integers of any length, both kinds of storage, all capacities", "why_tests_cant": "the interaction of temporaries, moves, aliasing and native operands over unboundedly many programs and iterations cannot be enumerated", "anchors": ["include/ack/bigint.hpp: bigint::operator+ - * / % & | << >>, +=, -=, *=, /=, %=, &=, |=, <<=, >>=, ++, --, ==, !=, <, <=, >, >=, bigint(int), bigint(uint32_t), bigint(int64_t), bigint(uint64_t), operator=, pow, modexp, modinv, gcd, lcm, abs, neg, swap"]}
{"id": "C96", "title": "Programs on curves that decide by what they see", "statement": "A program that chooses its next statement by any function of everything it has read so far (coordinates, integers, answers, encoded bytes), declares points, integers, answers and byte strings, assigns to points in place (also from decoded bytes and recovered keys), and reads all its variables between statements, sees at every moment exactly the values that the group operations give, so that its branches and loops take the course they take on paper. If it makes a statement that the library rejects, it stops there. If it only names declared variables of the right classes, nothing it does is undefined and no call is endless, whether or not its points are on the curve. In particular the loop that adds the generator until is_identity() runs exactly as often as the order says.", "quantifier": "all decision functions, all numbers of statements, all domain parameters, both kinds of storage", "why_tests_cant": "the decision function is arbitrary, and later statements depend on all earlier results; tests follow a few fixed scripts", "anchors": ["include/ack/ec.hpp: ec_point_fp, ec_point_fp_proj, ec_point_fp_jacobi, operator+=, -=, *=, =, is_identity, is_valid, ec_curve::generate_point, make_point, decode_point, decompress_point, encode_point", "include/ack/ecdsa.hpp: ecdsa_verify, ecdsa_recover"]}
{"id": "C97", "title": "RSA verification and mask generation in memory", "statement": "RSA verification (PKCS #1 v1.5 and PSS, all hashes) on views of memory gives the answer that the byte strings shown by the views determine, wherever the views of modulus, exponent, digest and signature lie and however they overlap one another, wherever the functions' own vectors and arrays are placed and whatever uninitialised arrays contain; it reads and writes only inside objects that are alive and copies only between disjoint ones, and when it returns every byte of memory is as it was before. Mask generation writes exactly the RFC 8017 mask (or xors it onto what was there) to the part of memory it is given and nothing else, provided the seed does not overlap the mask.", "quantifier": "all memories, all placements and overlaps of the views, all placements of temporaries, all initial contents, all keys, digests and signatures, both exponentiation routines", "why_tests_cant": "tests use separate buffers at addresses the allocator happens to choose; overlaps, placements and garbage in uninitialised arrays cannot be enumerated", "anchors": ["include/ack/rsa.hpp: rsavp1, powm, is_s_valid, rsassa_pkcs1_v1_5_verify, rsa_1_5_t_generator, rsassa_pss_mgf1_verify, verify_rsa_sha1, verify_rsa_sha256, verify_rsa_sha384, verify_rsa_sha512, verify_rsa_pss_sha1, verify_rsa_pss_sha256, verify_rsa_pss_sha384, verify_rsa_pss_sha512", "include/ack/mgf.hpp: mgf1", "include/ack/utils.hpp: memxor"]}
{"id": "C98", "title": "Printed integers", "statement": "What print() prints of an integer or field element is a minus sign for negative numbers and then lower-case hexadecimal digits of the magnitude, two for each byte of its shortest byte string; read as a number it is the integer, and two integers print alike exactly when they are equal (minus zero prints as zero). Given to the constructor from hexadecimal text, the text of a non-negative integer makes the same integer; that of a negative one aborts.", "quantifier": "all integers and field elements of any size, on either storage", "why_tests_cant": "injectivity and minimality range over all integers; print output is not inspected by unit tests", "anchors": ["include/ack/bigint.hpp: bigint::print, to_bytes, is_negative, bigint(std::string_view)", "include/ack/fp.hpp: fp_element::print", "include/ack/fe.hpp: print"]}
{"id": "C99", "title": "Programs on field elements that decide by what they see", "statement": "A program that chooses its next statement on elements of a prime field by any function of everything it has read so far (the values of all its elements, its answers, its encoded bytes), with operators on aliased operands, assignment, comparison, inversion, square roots and encodings, sees at every moment the values that the field gives, so that its branches and loops take the course they take on paper; or it stops with a failed check at the first statement that divides by zero, inverts zero, gives bytes that do not fit, or gives a checked value that is no residue. Nothing it does is undefined and no call is endless. In particular the loop that multiplies by an element until the product is one runs exactly as often as the multiplicative order of the element says.", "quantifier": "all decision functions that name existing elements, all numbers of statements, all prime moduli above 8 that the storage has room for, both kinds of storage", "why_tests_cant": "the decision function is arbitrary, and later statements depend on all earlier results; tests follow a few fixed scripts", "anchors": ["include/ack/fe.hpp: operators of fe_element", "include/ack/fp.hpp: fp_element, assign, add, sub, mul, div, inv, sqrt, to_bytes, comparisons"]}
{"id": "C100", "title": "No argument makes a call run long", "statement": "The loops whose length the code does not fix end after a number of passes linear in the bits of the numbers: gcd within two for every bit and one, modinv within one for every bit, Jacobi symbols, field inversion, scalar multiplication, signature verification and recovery on the eight named curves within 2 bits + 3, hence 1045; an ECDSA action of the contract, whatever its arguments, ends within that bound and more passes change nothing. Square roots need no search if the prime is 3 mod 4, one step of it if it is 5 mod 8, and otherwise at most about the square root of the prime. For gcd a linear number of passes is also needed (successive Fibonacci numbers).", "quantifier": "all integers of any size, all prime fields, all named curves, all arguments of the actions, both storages", "why_tests_cant": "the slowest argument is one among all; tests measure a few", "anchors": ["include/ack/bigint.hpp: gcd, modinv, jacobi", "include/ack/fp.hpp: fp_sqrt, modinv, jacobi", "include/ack/ecdsa.hpp: ecdsa_verify, ecdsa_recover", "examples/helloack/src/helloack.cpp: the ecdsa actions"]}
{"id": "C101", "title": "Long division is quick for every pair of numbers", "statement": "Dividing (and reducing) an integer by another of two or more words runs its main loop at most twelve times for every word that the dividend has more than the divisor, and thirteen times more, whatever the values; if both have as many words and the divisor's top word is at least 2^16, the loop that corrects the first estimate subtracts at most once. No pair of numbers makes the estimate so poor that the loop runs long.", "quantifier": "all dividends and divisors of any number of words", "why_tests_cant": "the number of passes depends on the values, 2^64 and more of them; a poor estimate shows only for special top words", "anchors": ["include/ack/bigint.hpp: bigint operators / and %, div, div_full_bit, div_small"]}
{"id": "C102", "title": "An ECDSA signature cannot be changed into many others", "statement": "For a public key, a message and a signature component r, the accepted s are at most two, s and n - s, unless r + n < p, and never more than four. A signature is accepted under one key for at most four digests (as numbers modulo n), at most two unless r + n < p, and for one digest under at most four keys, at most two unless r + n < p.", "quantifier": "all curves with a generator of prime order, any cofactor; all keys of order n, messages, r and s; all named curves on both targets", "why_tests_cant": "it says that no other accepted value exists among all 2^256 and more candidates", "anchors": ["include/ack/ecdsa.hpp: ecdsa_verify"]}
{"id": "C103", "title": "Only the private key's RSA signatures are accepted", "statement": "For an RSA key (n = p q, e d = 1 modulo p-1 and q-1) a PKCS#1 v1.5 signature of a digest is accepted exactly when it is the private exponent applied to the encoded digest, so a digest has one accepted signature; the contract's action succeeds on that byte string and aborts on every other. An accepted PSS signature is, modulo n, the private exponent applied to an encoded message consistent with the digest, and a digest has at most as many of them, modulo n, as there are salts.", "quantifier": "all RSA keys with two prime factors, all digests, signatures, hash functions and salt lengths", "why_tests_cant": "it says that no other byte string among all 2^2048 and more is accepted", "anchors": ["include/ack/rsa.hpp: verify_rsa_sha1, verify_rsa_sha256, verify_rsa_sha384, verify_rsa_sha512, rsassa_pss_mgf1_verify", "examples/helloack/src/helloack.cpp: rsasha*"]}
{"id": "C104", "title": "Private keys and public keys correspond one to one", "statement": "The point generated from a private key between 1 and n - 1 is a valid public key and never the identity; different private keys give public keys that compare unequal and have no encoding in common, compressed or not; on the named curves every point but the identity is the public key of exactly one private key.", "quantifier": "all curves with a generator of prime order, all pairs of private keys; all points of all named curves, both targets", "why_tests_cant": "it speaks about all pairs among 2^192 and more keys, and that no point is left out", "anchors": ["include/ack/ec.hpp: ec_curve_fp::generate_point, ec_point_fp::is_valid, operator==, encode_point"]}
{"id": "C105", "title": "Programs on growable integers have no undefined behaviour", "statement": "A program on integers with growable storage that declares what it names and avoids a short list of forms (&, |, / and % with a uint32_t operand, comparison with 0u, += and -= with big or 64-bit operands, %= with 64-bit operands, pow, gcd, lcm, modinv, modexp) either ends with every variable holding the integer that the program computes on mathematical integers, or aborts exactly where the program divides by zero, or runs for ever as it does on mathematical integers. No size of the numbers and no control flow leads to undefined behaviour or to another abort.", "quantifier": "all programs of this form, terminating or not, all integers of any length, all inline capacities, after any number of steps", "why_tests_cant": "it covers programs that do not terminate or of which nobody knows whether they do, and numbers of any length", "anchors": ["include/ack/bigint.hpp: bigint::operator+ - * / % << >>, *=, /=, %=, <<=, >>=, ++, --, ==, !=, <, <=, >, >=, abs, neg, swap", "include/ack/buffer.hpp: flexbuffer"]}
{"id": "C106", "title": "Programs on fixed-size integers have no undefined behaviour, and overflow only yields zero", "statement": "A program on big integers with fixed storage of two words or more, written with + - * / % (and += -= *= /= %=), native operands, right shifts, signs, comparisons, assignment, ++ --, swaps, branches, loops and blocks, has no undefined behaviour however often its numbers outgrow the storage. A sum or product that lacks room is zero; *= by a big integer without room keeps the old value; everything else is exact; every variable stays within the storage. The program aborts only where it divides by zero, so one without divisions never aborts.", "quantifier": "every such program, every size of storage of at least two words, every run of any length, with and without elision of returned objects", "why_tests_cant": "Tests run a few programs on numbers that fit; the claim is about every program, every loop length and every point at which the storage overflows.", "anchors": ["include/ack/bigint.hpp: add, sub, uadd, uadd1, mul, mulu1, muls1, div, mod, operators 2448-2596", "include/ack/buffer.hpp: fixed_buffer::resize"]}
{"id": "C107", "title": "Key recovery names exactly the keys that accept a signature", "statement": "On the named curves, with a message no longer than the order of the curve, a public key on the curve accepts a signature exactly when ecdsa_recover returns that key for some recovery number, and then for one recovery number only; different recovery numbers never give the same key. So verifying a signature and comparing the recovered key with the expected one are the same check.", "quantifier": "all named curves in both builds, all public keys on the curve, messages, signatures (r, s), recovery numbers, with and without the verify flag; and all other domains with n <= p and a generator of prime order, if the recovered points have that order", "why_tests_cant": "Tests recover keys of a handful of signatures with the right recovery number; that no other key accepts, and that no other number yields the same key, quantifies over all keys, numbers and signatures.", "anchors": ["include/ack/ecdsa.hpp: ecdsa_recover, ecdsa_verify"]}
{"id": "C108", "title": "Heap memory of growable buffers", "statement": "The heap blocks in use at any moment are exactly those the buffers hold: at most one per buffer, never one shared by two, none for buffers that never asked for more than their inline words and none for fixed buffers. A block has fewer than twice as many words as the largest size ever asked for. Growing, copying, moving, swapping, assigning and clearing lose no block, and clearing all buffers gives everything back. As documented, the end of a buffer gives nothing back: a buffer cleared before its end loses nothing, one that is not loses its block for good. Clearing a big integer sets it to zero but does not release its block; assigning to it by move does. Arithmetic, shifts, bit operations, remainders, assignments, moves and swaps of big integers on growable storage lose no block either, whichever arguments are the same object; a quotient loses the block of its local remainder.", "quantifier": "all histories of constructions, copies, moves, assignments, swaps, resizes, clears, writes, reads and ends of any number of buffers, all sizes and inline capacities", "why_tests_cant": "A lost block changes no result, so no assertion on values sees it; the claim is about every history and about memory nobody can reach any more.", "anchors": ["include/ack/buffer.hpp: fixed_buffer, flexbuffer (resize, clear, copy and move members, the commented-out destructor)", "include/ack/bigint.hpp: add, sub, mul, shl, shr, mod, divs1, set_bit, assignment and swap"]}
