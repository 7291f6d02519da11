# Formal model of ZeroPass/ack

Source of truth: `/repo/include/ack` (C++ headers) and `/repo/include/ack/c/powm.h`.
Everything here was derived by reading that code; nothing is built or run.

## 1. Trusted base

* The Lean 4.33.0 kernel and the three standard axioms `propext`, `Classical.choice`, `Quot.sound`
  (no `sorry`, no `native_decide`, no `bv_decide`, no added axioms). See section 6 for how it is checked.
* The reading of the C++ code: each model definition cites file and lines and states each simplification.
* The specifications in `Verif/Spec/*` (short; they restate RFC 8017, FIPS 180-4, FIPS 202, FIPS 186-5,
  the integers and Mathlib's elliptic-curve group law).
* Facts about the platform: 32-bit words (`word_t = uint32_t`), 8-bit bytes, wasm32 `size_t`, little endian,
  C++20 two's complement, unsigned wrap-around.

## 2. Outcomes

`check(cond, msg)` (eosio) aborts the transaction; `assert` is compiled out (Release builds define `NDEBUG`).
The model therefore uses

    inductive Err | abort | ub | fuel
    abbrev Res α := Except Err α

* `abort`: a failed `check`; observable as a failed transaction, never as a value.
* `ub`: undefined behaviour (null write, out-of-bounds access, shift by the word width, violated precondition that
  the code documents through `assert`).
* `fuel`: a `while` loop did not finish within the fuel given by the model. The theorems show that this outcome does
  not occur, which is the termination claim. The fuel is linear in the bits or in the length of the data (C100, C101), except for the
  search of `fp_sqrt`. Loops with a syntactic bound are structural recursions and have no fuel.

## 3. Layers

| layer | model file | what is modelled | refinement target |
|---|---|---|---|
| words | `Model/Words.lean` | `detail::` routines of bigint.hpp on little-endian `List (BitVec 32)` | `Nat` arithmetic |
| integers | `Model/Bigint.lean`, `Model/BigintNT.lean`, `Model/BigintOps.lean` | class `bigint` over flexible or fixed capacity | `Int` arithmetic |
| buffers | `Model/Buffer.lean` | `fixed_buffer`, `flexbuffer` on an explicit heap, with stale and indeterminate contents | independent sequences (`Spec/Buffer.lean`) |
| integers in memory | `Model/Alias.lean`, `Model/AliasOps.lean`, `Model/AliasNT.lean`, `Model/AliasFp.lean` | the `bigint` routines and the `fp_*` functions on buffer objects, any operand may be the destination; copy, move, swap | value semantics of programs (`Spec/Prog.lean`) |
| field | `Model/Fp.lean`, `Model/Native.lean` | `fp_*` functions and `fp_element`; operators with a native operand of any type | `ZMod p` |
| curve | `Model/Ec.lean`, `Model/EcGeneric.lean`, `Model/Named.lean` | affine, homogeneous and Jacobian points, curve object (templates over the point type in `EcGeneric`), the eight named curves | Mathlib `WeierstrassCurve.Affine.Point` |
| ECDSA | `Model/Ecdsa.lean` | verify and recover | FIPS 186-5 / SEC 1 predicate |
| RSA | `Model/Rsa.lean`, `Model/RsaApi.lean` | PKCS#1 v1.5 and PSS verification | RFC 8017 predicate |
| powm | `Model/Powm.lean` | u-boot/BearSSL software exponentiation | `base^e mod n` |
| hashes | `Model/Sha.lean`, `Model/Keccak.lean` | SHA-384, SHA-3, SHAKE | FIPS 180-4 / FIPS 202 |
| keys in memory | `Model/KeyMem.lean` | square root, decompression, encoding and decoding of points, ECDSA recovery on buffer objects; programs with byte strings | the group and SEC 1 (`Spec/KeyProg.lean`) |
| curve validation in memory | `Model/CurveMem.lean` | `ec_curve_fp::verify` with its temporaries on buffer objects | the group (`ValidDomain` in `Props/CurveMem.lean`) |
| serialised keys, action data | `Model/Action.lean` | keys on streams; the actions of helloack on the data they are sent | the wire format (`Spec/Wire.lean`) |
| programs on field elements | `Model/FeProg.lean` | operators, compound assignment, comparison and encoding of `fp_element` on memory | arithmetic in `ZMod P` (`Spec/FeProg.lean`) |
| programs that assign to points | `Model/PtProg.lean` | `+=`, `-=`, `*=`, move and copy assignment of the three point classes, on memory | the group, one element replaced per assignment (`Spec/PtProg.lean`) |
| questions about integers | `Model/Query.lean` | `quot_rem`, the predicates, comparisons, lengths, bits, bytes, `to_naf`, `jacobi`, import of bytes, on memory, in any program | integers (`Spec/Query.lean`) |
| byte vectors and views | `Model/Views.lean` | `make_bytes`, `operator+`, `operator+=` on vectors, views, `memxor`, `==`, `!=` on views and keys, on flat memory with any allocator | byte strings (`Spec/Views.lean`) |
| programs with integer operators | `Model/IntProg.lean` | the operators of `bigint` with temporaries, native operands, compound assignment, conditions, loops and blocks, on memory | integers, big-step (`Spec/IntProg.lean`) |
| clients | `Model/Client.lean` | the statements of C86 and C92 in one language, the next statement chosen by what was seen | the group, any decision function (`Spec/Client.lean`) |
| RSA in memory | `Model/RsaMem.lean` | `powm`, `rsavp1`, both verifications and `mgf1` with their vectors, arrays and spans in the byte memory of C94 | RFC 8017; `Holds`, `Written`, `Disjoint` (`Spec/RsaMem.lean`) |
| printing | `Model/Print.lean` | `print` of integers and field elements; the host's output functions by their documentation | hexadecimal numerals with sign (`Spec/Print.lean`) |
| clients on fields | `Spec/FeClient.lean` (`fePlay` on the statements of `Model/FeProg.lean`) | adaptive sequences of statements | histories of sights in `ZMod P` (`Spec/FeClient.lean`) |
| passes | the bound `fuel` of the functions on memory | number of passes of `gcd`, `modinv`, `jacobi`, the search of `fp_sqrt` | `Passes P fuel` (`Spec/Passes.lean`), `Nat.size` |
| named curves in memory | `Model/NamedMem.lean` | the literals of ec_curve.hpp and the storage chosen for each curve; the ECDSA actions on buffer objects | the standards (`Spec/Curves.lean`), the group, FIPS 186-5 |
| curves in memory | `Model/EcMem.lean`, `Model/EcProg.lean` | field elements, points of all classes, curve objects and ECDSA verification on buffer objects; straight-line programs | the group (`Spec/EcProg.lean`) |
| lifetimes | `Model/Life.lean`, `Model/LifeJ.lean` | pointers of affine, Jacobian and homogeneous points and of field elements, copies and ends of curve objects (ec.hpp, fp.hpp) | `Spec/Life.lean`, `Spec/LifeJ.lean` |
| contract | `Model/Contract.lean` | the signature actions of examples/helloack | FIPS 186-5, RFC 8017 |
| utils | `Model/Utils.lean` | hex, memxor, serialisation, key equality | list functions |

`Spec/` has the independent specifications, `Proof/` helper lemmas, `Props/` the property theorems
(one file per property group, each theorem next to a non-vacuity example).

### Simplifications common to all layers

* Arrays are lists. A routine that writes `z[i]` for consecutive `i` returns the list it writes. In-place calls
  (`z == x`) read each index before writing it; the separate memory model of C63 covers the aliasing question.
* Template dispatch is resolved by hand. `constexpr` and inlining have no effect (branches on
  constant evaluation are compared in C74).
* `size_t` counters of lengths are `Nat` except where the 32-bit wrap-around is reachable (PSS length check).
* Allocation failure and stack exhaustion (variable-length arrays) are not modelled.
* Timing is not modelled.
* `memcpy` with a null pointer and length 0 (hashing an empty view, sha.hpp:234; an empty seed, mgf.hpp:29) copies nothing; that
  the C standard calls the null pointer undefined there is not modelled.

## 4. Properties: plan

Every line: what is modelled; proof method.

* C01-C02: words add/sub/mul with explicit carries; induction on the word lists, then case split on signs.
* C03: `div_word`, `div_small`, `div_full_bit`, `div` and the shift normalisation; loop invariant
  `x_original = q*y + x` with `q` never exceeding the true quotient, decreasing measure for termination.
* C04: case analysis on top of C03.  On `N` words the rounding step may lack room (`uadd1` clears its result): `C04_quot_rem_fixed` gives
  the quotient exactly, `C04_quot_rem_fixed_wrong` refutes `x = q*y + r`.
* C05-C06: lexicographic comparison from the top word; C06 fails for the minus-sign zero against an unsigned word
  (`compareu1`), negation proved with a witness and a `_partial` theorem for all other values.
* C07: word and bit shifts by induction.
* C08: capacity parameter `cap : Option Nat`; exact-or-zero theorem. Known deviation: none expected for add/sub/mul;
  `shl` ignores a failed resize (modelled as UB/abort).
* C09: invariant `Canon` preserved by every operation.
* C10-C11: base-256 value, induction on bytes in groups of four.
* C12: `bit_length`, `test_bit` against `Nat.size`, `Nat.testBit`.
* C13: raw buffer model with stale words; the claim is false in general (stale words appear), witness + partial.
* C14: induction on the value, standard NAF invariant; fixed storage with a free word gives the same digits (`C14_fixed`, by uniqueness).
* C15: window loop invariant over the exponent bits.
* C16: extended Euclid invariant.
* C17: Euclid; `lcm` aliases quotient and divisor, deviation to be proved with a witness, partial theorem otherwise.
* C18: against Mathlib `jacobiSym`, quadratic reciprocity.
* C19: `Nat.land`, `Nat.lor` by words.
* C20: word operand versions; `modu1` writes through a null pointer (UB), `%=` with 64-bit native calls division:
  witnesses + partial.
* C21: state machine of buffer operations, invariant by induction over operation sequences.
* C22-C23: modular arithmetic in `Int`/`ZMod p`, on top of integer layer.
* C24: Legendre symbol, Tonelli-Shanks invariants, termination.
* C25: false in general (single addition/subtraction), witness + partial on the range where it holds.
* C26: false: `a - x` computes `x - a`, `a / x` computes `x / a`; witnesses, and the exact law that the code obeys.
* C27-C31: field identities (`field_simp`/`ring`) against Mathlib's group law; scalar multiplication by loop invariants.
* C32-C35: direct.
* C36-C37: bytes layer + C35; C37 is false in several ways (no on-curve check for uncompressed points, trailing bytes
  after the identity tag, compressed x >= p): witnesses + partial; the outcome for every byte string is given exactly
  (`C37_exact`, `C37_total`; `Proof/EcPre` follows an operand that is not reduced).
* C38: kernel computation on constants; `C38_standard` compares them with the published parameters (`Spec/Curves.lean`).
* C39: direct.
* C40-C45, C64: on top of C29-C31; C43 false for orders whose bit length is not a multiple of 8; witness + partial.
* C46: false for moduli with leading zero bytes (`sofs < nofs` returns true); witness + partial (normalised moduli).
* C47-C51, C65: byte-level decision logic against RFC 8017.
* C52-C55: word-level Montgomery arithmetic; C52 false for exponents with a set bit j with 32 <= j < top
  (`int` truncation in `is_public_exponent_bit_set`), witness + partial.
* C56-C58: code against bit/word level standards.
* C59-C62: list functions.
* C63: explicit memory model for the aliased routines.
* C71: constructors and assignment of `fp_element`; case split.
* C72: evaluation of expressions against formulas over `ZMod p`; induction on the expression.
* C73: `set_array`/`get_array` against `Nat.ofDigits`; induction on the array.
* C74: the constant-evaluated branches against the run-time ones; both equal the canonical integer of C13.
* C75: bytes to integers (C13), point construction (C37), verification (C40); keys off the curve by running the same formulas
  over the trivial group (`Proof/EcAny.lean`), which shows that they end without undefined behaviour.
* C76: the RSA layer with the host exponentiation as documented; exact for every input.
* C77: the templates equal the affine function followed by the conversion; then C34-C37 and C39.
* C78: every operator computes a sign of the comparison; case split on operator and type.
* C79: which zero each routine produces; induction on the expression.
* C80: the memory model of C63 with copies, moves and swaps; the specification marks moved-from objects; invariant over programs.
* C81: `_pow`, `modexp`, `modinv`, `gcd`, `lcm` on the memory model of C63, temporaries as objects of their own that are
  created and destroyed; each function refines the value-level one, then invariant over programs.
* C82: points with pointers in a world of curve objects that begin and end; following a pointer to an ended object is undefined
  behaviour.  While the objects live the pointer model simulates the value model of C27-C37; invariant over programs.
* C83: the functions of fp.hpp on the memory model of C63, statement by statement, temporaries as objects; every step is a statement
  of the integer programs of C63/C81, so that the proof is about integers; invariant over programs.
* C84: ec.hpp and `ecdsa_verify` on the memory model of C63, every coordinate an object; the run on storage simulates the value model
  step by step (`Proof/EcSim`, `EcPts`, `EcNaf`, `EcJac`, `EcProg`), the value model computes in the group (C27-C40); induction on
  the program.
* C85: the functions of C27-C40 complete on every pair or triple of field elements (`Proof/EcAny`, `EcAny2`; the scalar
  multiplications are generic in the group refined, so the trivial group gives totality), the expansion of a scalar completes without
  room too; then C84's simulation and induction on the program (`Proof/EcTotal`).
* C86: exponentiation, square root, byte conversion, decompression and recovery on the memory model (`Proof/KeyNT`, `KeySqrt`, `KeyCode`)
  simulate the value model; value-level theorems of C35-C37, C43-C45 give the group; induction on the program (`Proof/KeyProg`).
* C87: the certificates of the named curves (C38, C67) meet the storage conditions of C84 and C86; the six statements of an action are
  a program of C84, whose simulation gives the action on values for all arguments (`Proof/NamedMem`); then C75.
* C88: decoding, encoding, decompression and recovery complete on every pair of field elements (`Proof/KeyTotal`); for an unreduced
  compressed x the field operations and the square root are simulated on operands that are only congruent to residues, and the value
  level gives the exact answer (`Proof/KeyPre`, `Spec/KeyForm`: `Answers`); induction on the program.
* C89: the discriminant, the check of the generator and the cofactor test on the memory model simulate the value model
  (`Proof/CurveMem`); then C66; the named curves by their certificates.
* C90: every byte string begins with a length field, or ends within one, or has none that ends (`Proof/Action`); induction on the number
  of views. Partial: a length beyond the data is undefined behaviour, not a failed check.
* C91: the invariant says that object 0 holds the modulus and that the elements are held by pairwise distinct other objects; each operator
  makes a new object (for the square root: by the simulation of `Proof/KeySqrt` with all old objects excluded), a move assignment leaves the
  others alone (`Proof/FeProg`); induction on the statements. Values below the modulus are a precondition (`C91_unchecked_wrong`).
* C92: the curve is made of objects below `B`, the coordinates and integers of the variables of pairwise distinct objects from `B` on
  (`MInv`, `Proof/PtProg`); a right side is C84's simulation with all existing objects excluded from its results, so its coordinates are
  new and distinct, the moves change the coordinates of one variable only, and the curve and modulus pointers stay valid; then C84 and C85.
* C93: each member function on memory equals the one of the value model on the integer the object represents (`quotRem_mem`, `jacobi_mem`,
  `toNaf_mem`, `Proof/Query`), whose results are characterised by C04-C14; the specification fixes bytes and non-adjacent forms only up to
  their defining equations, so their uniqueness is proved (`beVal_inj`, `naf_unique`); induction on the statements with C81's step.
* C94: memory is a partial function from addresses to bytes; the invariant says that live vectors occupy disjoint blocks, hold the bytes of
  the specification, and that every view whose vector has not been appended to since points into that vector (`Inv`, `Proof/Views`). A
  vector is moved, extended or written by one lemma (`Inv.replace`); `memxor` is followed byte by byte (`partly`); induction on the statements.
* C95: an expression evaluated in any memory that holds given integers leaves memory with these integers and new ones behind them
  (`eval_spec`, `Proof/IntProg`), the position of its result depending on the integers only; so the steps of C63, C81 and C93 compose.
  Variables are at distinct positions (`Sees`), which temporaries do not reach; induction on the big-step derivation gives the fuel that a
  loop needs. Factorials of all `uint32_t` (`C95_factorial`) and Euclid's algorithm (`C95_euclid`) are instances.
  `Spec/IntStop` says where a program gets to a division by zero; `cmd_stops` (`C95_stops`) by induction on that derivation.
* C96: a declaration adds one variable and keeps the others (`kstep_add`, `Proof/Client`), an assignment replaces one (`set_run` of C92),
  looking at the variables keeps all of them; so the steps of a client compose, whatever function it is, by induction over the number of
  statements. `C96_order` is an instance: counting the multiples of the generator until `is_identity()`.
* C97: memory is that of C94; a temporary is a block of addresses that held nothing, an uninitialised array holds arbitrary bytes. Every
  step is shown to turn `create m a l` (memory `m` with `l` at `a`) into `create m a l'` (`Proof/RsaMem`), so the proof follows the functions
  line by line; destroying the temporaries gives back `m`. The answers are those of C48 and C49.
* C98: `to_bytes` is minimal (C10), the digits are those of `Spec/Hex`; equal values have equal minimal byte strings.
* C99: the invariant of C91 holds before every statement and determines what is read; induction on the number of statements. The order loop: the history has as many sights as the order says (`orderOf` of Mathlib).
* C100: `Proof/BigNT.lean` bounds the passes: the remainder halves every second pass of `gcd`; the product of the two numbers at least halves in a
  pass of `modinv` and `jacobi`. The theorems C84 to C99 assume `Passes P fuel` (2 bits + 3, and a non-square within the search if P ≡ 1 mod 4)
  and `N.size ≤ fuel` instead of `P < fuel`, `N < fuel`; `Proof/Passes.lean` shows that the latter imply the former and that the least non-square z
  has z (z - 1) < P.
* C101: a rank of the state of the main loop (`dfbRank` in `Proof/Div.lean`): twelve for every word left, plus a stage: the window is at least the
  divisor; it is below but its upper word is above 4; then it loses half a power every pass. The estimate is at most 3 too small relative to the top words
  (`dfbStep_v_low`), so one pass brings the upper word to 4 or less. The fuel of `divFullBit`, `divSmall`, `gcd`, `modinv?` and `jacobi` in the model is the
  linear bound itself.
* C102: an accepted signature has a point whose x-coordinate is `r` or `r + n`; such a point is given by that choice and the parity of y
  (`sigNo`, the recovery number), so there are at most four (`Proof/EcdsaBind.lean`). The digest, the key and `s` are each determined by the
  point, because n is prime. Pigeonhole. `C102_four` is a signature on the curve over GF(229) for which each bound is reached.
* C103: the private operation inverts the public one (`rsa_inverse`), the encoding of PKCS#1 v1.5 is unique for its length (`emsa_unique`), and
  that of PSS for its salt (`pssSalt_unique`: the mask is determined by the hash, and the cleared top bits are zero). With C48, C49 and C76; the
  count by pigeonhole over the salts.
* C104: a prime order makes multiples below it distinct (`zsmul_inj_range`), with C33, C36 and C39. Onto (`generated`): two independent points
  of order n would span n^2 points, more than the 2 p + 1 the curve has (`card_points`).
* C105: `CmdFree` is a condition on the text of a program; for such texts the relations of C95 are total on growable storage (`ex_total`,
  `cond_total`, `once_total`), and expressions without calls need no fuel; then induction on the fuel (`comes`, `Proof/IntTotal`) gives every outcome.
* C106: programs on fixed storage without rules on the numbers.  `Spec/IntFix.lean` says what expressions, conditions and commands
  yield when a sum or product without room is zero (`Val`, `Tru`, `Ends`; `none`: division by zero) and which programs are meant (`CmdFix`);
  by induction on the fuel every run is in one of the three outcomes (`Proof/IntFix.lean`: `binop_fix`, `runN_fix`, `ex_fix`, `cond_fix`,
  `cmd_fix`).  A zero may carry a minus sign, so a sum with zero at full length is either exact or zero; the specification allows both.
* C107: the recovered key is `r⁻¹(sR - eG)` (C44_exact), from which R is determined because n is prime and s is not a multiple of it, and R has one
  recovery number (x-coordinate and parity). With C45 for the other direction. `Props/EcdsaWho.lean`.
* C69, two calls: from the exact laws of acceptance (C49_accept's sense, C76_rsa_exact, C76_pss_accept) the two encoded messages are one; the
  first non-zero byte of the unmasked block marks where the salt begins, so the salt lengths agree (`Props/RsaTwice.lean`).
* C82, Jacobian and homogeneous points: the simulation of C82 for the functions of the two other kinds and the conversions, then
  the value theorems C29-C33; programs mix the three kinds (`Props/LifeJ.lean`).
* C108: the memory model of C21 with ends of objects that release nothing; invariant over histories: every block in use has an
  owner; the bound on a block follows from how `resize` adds; frame lemma for objects that have ended.
  For programs on big integers (C63) the same owner invariant is carried through every array loop and operation (`C108_int_programs`, `C108_int_owners`, `C108_int_bits`);
  the quotient is left out: its local remainder (bigint.hpp:1868) ends uncleared in the code but is not in the memory model.

## 5. Deviations found (code vs. property)

Each line: what the code does, and the theorem with the concrete witness.

Integers
* C06: `-0` (reachable, e.g. `-x` for `x = 0`) compared with an unsigned word 0 is "less" (`C06_word_negZero`,
  exact for all operators in `C78_negative_zero_wrong`).
* C08: on fixed capacity `*=` keeps the left operand when the product does not fit (`C08_mulAssign_wrong`); a sum that would
  fit may be refused (`C08_add_spurious`, allowed by the statement); `<<` ignores the failed resize and writes outside the
  array (`C08_shl_ub`).
* C13: `set_bit` beyond the current words exposes stale words of the buffer or reads indeterminate heap words
  (`C13_stale_wrong`, `C13_grow_wrong`); on a full fixed buffer the object becomes 0 (`C13_full_wrong`); clearing the last set
  bit of a negative number leaves `-0` (`C13_zero_wrong`).
* C16: on fixed capacity without a spare word the inverse is wrong (`C16_fixed_wrong`); `m <= 1` is characterised in
  `C16_modulus_small`.
* C17: `lcm` divides with the quotient stored in its own divisor: wrong when the top bit of the gcd's top word is set and the
  gcd has several words (`C17_lcm_wrong`); `lcm(0, 0)` aborts (`C17_lcm_zero`).
* C19: `or_bit`/`|=` with a word on `-0` (`C19_negZero`).
* C20: division by an unsigned word loses the sign (`C20_divu1_sign`); `%` with an unsigned word writes through a null
  pointer (`C20_modu1_ub`); `%=` with a 64-bit operand divides (`C20_modAssign64_wrong`).
* C63: sums on `flexbuffer` keep pointers into storage that a growing destination frees; the comment at bigint.hpp:825 does
  not hold (`C63_flex_wrong`, `C63_flex_dangling`).  `div(q = y)` is wrong (`C63_div_wrong`).  `or_bit`/`and_bit` take the
  sign from the destination (`C63_bits_wrong`).
* C01, C16, C81: on `flexbuffer`, `x += y` with operands longer than the inline words, and with it `modinv` for such a modulus,
  reads released storage (`C01_in_place_wrong`, `C81_modinv_wrong`).  The value-level theorems of C01 and C16 are about results in
  fresh objects.  `modexp` into the object of its modulus gives 0 or aborts (`C81_modexp_wrong`).
  `fp_div` inherits the fault of `modinv` (`C83_div_wrong`); the other functions of fp.hpp only add into an operand of the opposite
  sign and are not affected.
* C80: a moved-from integer keeps its `word_length()` although its storage is gone (`C80_stale_wrong`); all other readers abort.

Field
* C22: multiplication by a native integer outside `[0,p)` gives an unreduced result (`C22_int_unreduced`); an element
  without modulus is undefined behaviour (`C22_null`).
* C79: the constructor of an element accepts a negative zero, which is then not equal to `0u` (`C79_negative_zero_wrong`).
* C25: `fp_normalize` is one addition or subtraction (`C25_wrong`).
* C26: `a - x` is `x - a`, `a / x` is `x / a` (`C26_wrong`).

Curves
* C27 needs `b != 0`: the identity is the pair (0,0), a curve point when `b = 0` (`C27_b_zero_wrong`).
* C29: the literal 8 is not reduced, so the Jacobian formulas are wrong for `p = 5, 7` (`C29_small_field_wrong`).
* C31: negative scalars count as zero in `ec_mul_add_fast` (`C31_negative_wrong`).
* C85: on fixed storage a scalar that fills the storage has no room for its expansion; `uadd1` returns 0 unnoticed and the Jacobian
  class computes another multiple (`C85_full_scalar_wrong`; C29, C31 and C84 ask for a free word).
* C33: affine `==` treats points with x = 0 of different curves as equal (`C33_affine_across_curves`).
* C82: a copied curve object keeps the generator of its original, pointers included: after the original has ended
  `generate_point` of the copy follows a dangling pointer (`C82_dangling`, `C82_copy_wrong`), and `copy.make_point(g.x, g.y)` is not
  equal to `copy.g` (`C82_eq_wrong`).  For Jacobian and homogeneous points also `generate_point` with the scalar one is affected, because the
  generator is converted first (`C82_jacobian_dangling`, `C82_homogeneous_dangling`).
* C108: `flexbuffer` has no destructor, so a buffer that ends while it holds a heap block loses it for ever (`C108_lost`,
  `C108_leak`); this is documented (buffer.hpp:138-142).  The remedy named there, `clear`, is not the `clear` of a big integer, which
  keeps the block (`C108_int_clear_keeps`); move assignment releases it (`C108_int_move_releases`).  So each quotient on growable storage
  whose local remainder needs the heap loses a block (`C108_int_div_lost`, `C108_int_div_loses`).
* C37: no on-curve check after tag 4, no range check after tags 2/3, trailing bytes after tag 0, identity for a non-residue
  (`C37_wrong`).  A compressed x at or above p stays unreduced: the point passes is_on_curve, is unequal to the reduced point and
  re-encodes to its tag alone (`C37_unreduced_encode`); is_valid may abort on it (`C37_unreduced_wrong`).

ECDSA
* C40, C41: with `p > 2n` one subtraction does not reduce x modulo n (`C40_cofactor_wrong`); `C41_exact` says which honest
  signatures are refused, `C41_wrong` is one.
* C43: no bit shift when the bit length of n is not a multiple of 8 (`C43_wrong`, `C43_secp521r1`);
  `C43_exact` relates the two integers for all lengths.
* C44, C45: the multiplier may be negative and is dropped by C31's defect (`C44_negative_wrong`); r is not reduced for `n > p`
  (`C44_unreduced_wrong`).  `C45_exact` says which key is recovered instead, `C45_wrong` is a case with `n < p`.

RSA
* C46: for a modulus with leading zero bytes signatures above the modulus pass (`C46_wrong`).
* C49, C68: `embits` is taken as 8*len - 1 whatever the modulus (`C49_rejects_valid`, `C49_accepts_invalid`); `C68_pss_exact`
  says which honest signatures are refused (`C68_pss_wrong`: with the same key one salt passes and another does not); the size check wraps
  in a 32-bit `size_t` and the code then reads outside the block (`C49_overflow`).
* C52: exponent bits 32..top-1 are ignored (`C52_wrong_exponent`); modulus with leading zero bytes (`C52_wrong_leading_zero`);
  exponents 1 and even ones are refused with an error code that the caller ignores (`C52_refused`, harmless by C70).
* C55: modulus lengths that are not a multiple of four bytes access memory outside the arrays (`C55_unsafe`); an exponent
  longer than eight bytes (leading zeros allowed by rsa.hpp) is undefined behaviour in the software path.

Contract
* C75: the actions build the public key without verification: a key off the curve is used as if it were on it
  (`C75_off_curve_wrong`).
* C76: the salt length comes from the caller; 2^32 - 1 drives `rsapsssha1` into undefined behaviour on chain (`C76_pss_wrong`).
  No such call completes, and no salt length makes an inconsistent signature accepted (`C49_wrapped`, `C49_accept`, `C76_pss_accept`).

* C95: the rules of `Spec/IntProg.lean` list the operators that do not compute what they say (`C95_rules_needed`, `C95_inline_needed`).

Utilities
* C94: `v += v` inserts a range of the vector into itself, which is undefined (`C94_append_self_wrong`); a view is left behind when its
  vector grows (`C94_view_left_behind_wrong`); `memxor` onto bytes behind an overlapping source uses changed bytes
  (`C94_memxor_overlap_wrong`). The library itself does none of these.
* C97: `mgf1` rereads the seed before each block, so a seed that overlaps the mask gives another mask (`C97_mgf1_overlap`). PSS
  verification passes disjoint parts of one vector.
* C61: `operator>>` does not reject a length prefix beyond the stream (`C61_overlong_prefix_undefined`); so every action of the example
  contract can be made to read outside its data (`C90_overlong_wrong`).

### Not modelled

* Allocation failure, stack exhaustion (variable-length arrays of powm.h), `size_t` overflow of buffer sizes, the conversion
  of sizes above 4 GiB to `uint32_t`, timing; memory leaks except for buffers (C108).
* Constant evaluation is modelled for `set_bytes`, hexadecimal literals and the named curves only (C74).
* `eosio::mod_exp` and the host hashes SHA-1/256/512 (parameters; `hostModExp` is the documented behaviour);
  conversion of digest bytes to `eosio::checksum` types; the eosio `datastream` beyond the varint format.
* Unaligned 32-bit loads (`set_bytes`, powm.h) are assumed to work; `assert` is assumed disabled and its condition, where
  the code relies on it, is an explicit `ub` outcome.
* The `tests` directory; in `examples` the benchmark actions (`bt_*`) and the build files.

## 6. Checking

`lake build` in `/verif/lean` builds everything from `Verif.lean`. `Verif/Audit.lean` prints the axioms of each
property theorem (only `propext`, `Classical.choice`, `Quot.sound` may appear).

`tools/manifest.py` regenerates `MANIFEST.json` and `lean/Verif/Audit.lean` from the theorem names in `Props/`.

Wrong programs: `seeded/LOG.jsonl` has one line per edit of a model definition in a scratch copy (definition, edit, claim it
breaks, theorems that stopped proving, theorems tightened because of it).
