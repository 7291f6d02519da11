import Verif.Props.Action
import Verif.Props.Alias
import Verif.Props.AliasFp
import Verif.Props.AliasNT
import Verif.Props.Array
import Verif.Props.BigArith
import Verif.Props.BigBits
import Verif.Props.BigNT
import Verif.Props.Buffer
import Verif.Props.BufferEnd
import Verif.Props.Client
import Verif.Props.Contract
import Verif.Props.CurveMem
import Verif.Props.Curves
import Verif.Props.DivPasses
import Verif.Props.Ec
import Verif.Props.EcGeneric
import Verif.Props.EcProg
import Verif.Props.EcTotal
import Verif.Props.Ecdsa
import Verif.Props.EcdsaBind
import Verif.Props.EcdsaWho
import Verif.Props.Exact
import Verif.Props.FeClient
import Verif.Props.FeProg
import Verif.Props.Formula
import Verif.Props.Fp
import Verif.Props.IntFix
import Verif.Props.IntOwn
import Verif.Props.IntProg
import Verif.Props.IntTotal
import Verif.Props.Keccak
import Verif.Props.KeyProg
import Verif.Props.KeyTotal
import Verif.Props.Keys
import Verif.Props.Life
import Verif.Props.LifeJ
import Verif.Props.Move
import Verif.Props.NamedMem
import Verif.Props.Native
import Verif.Props.Passes
import Verif.Props.Powm
import Verif.Props.Print
import Verif.Props.PssAny
import Verif.Props.PtProg
import Verif.Props.Query
import Verif.Props.QuotRem
import Verif.Props.Rsa
import Verif.Props.RsaBind
import Verif.Props.RsaMem
import Verif.Props.RsaOnly
import Verif.Props.RsaTwice
import Verif.Props.Sha
import Verif.Props.Utils
import Verif.Props.Views
/-! Axioms of every property theorem (generated by tools/manifest.py). -/
#print axioms Ack.Props.C01_in_place_partial
#print axioms Ack.Props.C01_in_place_wrong
#print axioms Ack.Props.C01_add
#print axioms Ack.Props.C01_sub
#print axioms Ack.Props.C01_incr
#print axioms Ack.Props.C01_decr
#print axioms Ack.Props.C01_neg_abs
#print axioms Ack.Props.C02_mul
#print axioms Ack.Props.C02_mulAssign
#print axioms Ack.Props.C02_sqr
#print axioms Ack.Props.C03_div_mod
#print axioms Ack.Props.C03_truncated
#print axioms Ack.Props.C03_zero
#print axioms Ack.Props.C04_quot_rem
#print axioms Ack.Props.C04_quot_rem_fixed
#print axioms Ack.Props.C04_quot_rem_fixed_wrong
#print axioms Ack.Props.C05_relational
#print axioms Ack.Props.C05_compare
#print axioms Ack.Props.C06_int
#print axioms Ack.Props.C06_word_partial
#print axioms Ack.Props.C06_word_negZero
#print axioms Ack.Props.C06_int64
#print axioms Ack.Props.C07_shl
#print axioms Ack.Props.C07_shr
#print axioms Ack.Props.C08_add
#print axioms Ack.Props.C08_sub
#print axioms Ack.Props.C08_mul
#print axioms Ack.Props.C08_mulAssign_partial
#print axioms Ack.Props.C08_mulAssign_wrong
#print axioms Ack.Props.C08_add_spurious
#print axioms Ack.Props.C08_shl_partial
#print axioms Ack.Props.C08_shl_ub
#print axioms Ack.Props.C08_exact
#print axioms Ack.Props.C09_reachable
#print axioms Ack.Props.C09_unique
#print axioms Ack.Props.C10_import
#print axioms Ack.Props.C10_import_fixed
#print axioms Ack.Props.C10_export
#print axioms Ack.Props.C10_roundtrip
#print axioms Ack.Props.C10_roundtrip_bytes
#print axioms Ack.Props.C100_gcd
#print axioms Ack.Props.C100_gcd_tight
#print axioms Ack.Props.C100_modinv
#print axioms Ack.Props.C100_passes
#print axioms Ack.Props.C100_five
#print axioms Ack.Props.C100_named
#print axioms Ack.Props.C100_action
#print axioms Ack.Props.C101_long
#print axioms Ack.Props.C101_small
#print axioms Ack.Props.C102_s
#print axioms Ack.Props.C102_s_count
#print axioms Ack.Props.C102_digest
#print axioms Ack.Props.C102_key
#print axioms Ack.Props.C102_named
#print axioms Ack.Props.C102_four
#print axioms Ack.Props.C103_pkcs1
#print axioms Ack.Props.C103_pkcs1_unique
#print axioms Ack.Props.C103_pkcs1_any
#print axioms Ack.Props.C103_action
#print axioms Ack.Props.C103_pss
#print axioms Ack.Props.C103_pss_count
#print axioms Ack.Props.C104_valid
#print axioms Ack.Props.C104_inj
#print axioms Ack.Props.C104_onto
#print axioms Ack.Props.C104_named
#print axioms Ack.Props.C105
#print axioms Ack.Props.C105_safe
#print axioms Ack.Props.C106
#print axioms Ack.Props.C106_safe
#print axioms Ack.Props.C106_no_abort
#print axioms Ack.Props.C106_needed
#print axioms Ack.Props.C107_distinct
#print axioms Ack.Props.C107_exactly
#print axioms Ack.Props.C107_named
#print axioms Ack.Props.C108_owners
#print axioms Ack.Props.C108_amount
#print axioms Ack.Props.C108_clear
#print axioms Ack.Props.C108_tidy
#print axioms Ack.Props.C108_lost
#print axioms Ack.Props.C108_after_end
#print axioms Ack.Props.C108_leak
#print axioms Ack.Props.C108_int_clear_keeps
#print axioms Ack.Props.C108_int_move_releases
#print axioms Ack.Props.C108_int_programs
#print axioms Ack.Props.C108_int_owners
#print axioms Ack.Props.C108_int_statement
#print axioms Ack.Props.C108_int_bits
#print axioms Ack.Props.C108_int_div_loses
#print axioms Ack.Props.C108_int_div_lost
#print axioms Ack.Props.C11_get_bytes
#print axioms Ack.Props.C12_bit_length
#print axioms Ack.Props.C12_byte_length
#print axioms Ack.Props.C12_test_bit
#print axioms Ack.Props.C12_predicates
#print axioms Ack.Props.C13_in_words_partial
#print axioms Ack.Props.C13_tail
#print axioms Ack.Props.C13_fresh
#print axioms Ack.Props.C13_full_wrong
#print axioms Ack.Props.C13_grow_wrong
#print axioms Ack.Props.C13_stale_wrong
#print axioms Ack.Props.C13_zero_wrong
#print axioms Ack.Props.C14_naf
#print axioms Ack.Props.C14_unique
#print axioms Ack.Props.C14_negative
#print axioms Ack.Props.C14_unique_top
#print axioms Ack.Props.C14_fixed
#print axioms Ack.Props.C14_negative_any
#print axioms Ack.Props.C15_pow
#print axioms Ack.Props.C15_pow_fixed
#print axioms Ack.Props.C15_modexp
#print axioms Ack.Props.C15_modexp_small
#print axioms Ack.Props.C15_modexp_unreduced
#print axioms Ack.Props.C15_modexp_word
#print axioms Ack.Props.C15_pow_int64
#print axioms Ack.Props.C16_modinv
#print axioms Ack.Props.C16_modinv_fixed_partial
#print axioms Ack.Props.C16_fixed_wrong
#print axioms Ack.Props.C16_modulus_small
#print axioms Ack.Props.C17_lcm_partial
#print axioms Ack.Props.C17_lcm_abs_partial
#print axioms Ack.Props.C17_lcm_negative
#print axioms Ack.Props.C17_lcm_zero
#print axioms Ack.Props.C17_lcm_wrong
#print axioms Ack.Props.C17_gcd
#print axioms Ack.Props.C17_gcd_abs
#print axioms Ack.Props.C17_gcd_negative
#print axioms Ack.Props.C18_jacobi
#print axioms Ack.Props.C19_or
#print axioms Ack.Props.C19_and
#print axioms Ack.Props.C19_word_partial
#print axioms Ack.Props.C19_negZero
#print axioms Ack.Props.C20_int
#print axioms Ack.Props.C20_word
#print axioms Ack.Props.C20_div_int
#print axioms Ack.Props.C20_div_word_partial
#print axioms Ack.Props.C20_divu1_sign
#print axioms Ack.Props.C20_modu1_ub
#print axioms Ack.Props.C20_int64
#print axioms Ack.Props.C20_uint64
#print axioms Ack.Props.C20_modAssign64_wrong
#print axioms Ack.Props.C20_ctor
#print axioms Ack.Props.C20_div_word_exact
#print axioms Ack.Props.C20_modAssign64_exact
#print axioms Ack.Props.C21_histories
#print axioms Ack.Props.C21_no_ub
#print axioms Ack.Props.C21_independent
#print axioms Ack.Props.C21_grown_elements_unset
#print axioms Ack.Props.C22_add
#print axioms Ack.Props.C22_sub
#print axioms Ack.Props.C22_neg
#print axioms Ack.Props.C22_mul
#print axioms Ack.Props.C22_sqr
#print axioms Ack.Props.C22_int
#print axioms Ack.Props.C22_eq
#print axioms Ack.Props.C22_int_unreduced
#print axioms Ack.Props.C22_null
#print axioms Ack.Props.C23_inv
#print axioms Ack.Props.C23_div
#print axioms Ack.Props.C23_div_composite
#print axioms Ack.Props.C24_sqrt
#print axioms Ack.Props.C25_normalize_partial
#print axioms Ack.Props.C25_wrong
#print axioms Ack.Props.C26_left_partial
#print axioms Ack.Props.C26_reversed
#print axioms Ack.Props.C26_wrong
#print axioms Ack.Props.C26_int_partial
#print axioms Ack.Props.C27_affine_group_law
#print axioms Ack.Props.C27_denotation
#print axioms Ack.Props.C27_b_zero_wrong
#print axioms Ack.Props.C28_projective_group_law
#print axioms Ack.Props.C28_denotation
#print axioms Ack.Props.C29_jacobian_group_law
#print axioms Ack.Props.C29_denotation
#print axioms Ack.Props.C29_small_field_wrong
#print axioms Ack.Props.C30_scalar_mul
#print axioms Ack.Props.C31_mul_add
#print axioms Ack.Props.C31_exact
#print axioms Ack.Props.C31_negative_wrong
#print axioms Ack.Props.C32_on_curve
#print axioms Ack.Props.C32_valid
#print axioms Ack.Props.C32_identity
#print axioms Ack.Props.C33_eq
#print axioms Ack.Props.C33_eq_affine
#print axioms Ack.Props.C33_affine_across_curves
#print axioms Ack.Props.C34_conversions
#print axioms Ack.Props.C34_round_trip
#print axioms Ack.Props.C35_decompress
#print axioms Ack.Props.C36_round_trip
#print axioms Ack.Props.C36_injective
#print axioms Ack.Props.C36_format
#print axioms Ack.Props.C37_malformed_partial
#print axioms Ack.Props.C37_uncompressed_accepts
#print axioms Ack.Props.C37_compressed
#print axioms Ack.Props.C37_wrong
#print axioms Ack.Props.C37_make_point
#print axioms Ack.Props.C37_exact
#print axioms Ack.Props.C37_unreduced_encode
#print axioms Ack.Props.C37_total
#print axioms Ack.Props.C37_unreduced_wrong
#print axioms Ack.Props.C38_named_curves
#print axioms Ack.Props.C38_no_small_subgroup
#print axioms Ack.Props.C38_secg_values
#print axioms Ack.Props.C38_standard
#print axioms Ack.Props.C39_generate
#print axioms Ack.Props.C40_accepts_iff_partial
#print axioms Ack.Props.C40_exact
#print axioms Ack.Props.C40_sound
#print axioms Ack.Props.C40_assert
#print axioms Ack.Props.C40_cofactor_wrong
#print axioms Ack.Props.C41_honest_partial
#print axioms Ack.Props.C41_exact
#print axioms Ack.Props.C41_wrong
#print axioms Ack.Props.C42_range
#print axioms Ack.Props.C42_identity
#print axioms Ack.Props.C43_truncation_partial
#print axioms Ack.Props.C43_exact
#print axioms Ack.Props.C43_wrong
#print axioms Ack.Props.C43_secp521r1
#print axioms Ack.Props.C44_sound_partial
#print axioms Ack.Props.C44_range
#print axioms Ack.Props.C44_exact
#print axioms Ack.Props.C44_negative_wrong
#print axioms Ack.Props.C44_unreduced_wrong
#print axioms Ack.Props.C45_complete_partial
#print axioms Ack.Props.C45_exact
#print axioms Ack.Props.C45_wrong
#print axioms Ack.Props.C46_range_partial
#print axioms Ack.Props.C46_exact
#print axioms Ack.Props.C46_never_rejects
#print axioms Ack.Props.C46_wrong
#print axioms Ack.Props.C47_exact
#print axioms Ack.Props.C47_host
#print axioms Ack.Props.C48_pkcs1_partial
#print axioms Ack.Props.C48_api_partial
#print axioms Ack.Props.C48_exact
#print axioms Ack.Props.C48_host_all
#print axioms Ack.Props.C48_sound
#print axioms Ack.Props.C49_wrapped
#print axioms Ack.Props.C49_accept
#print axioms Ack.Props.C49_pss_partial
#print axioms Ack.Props.C49_exact
#print axioms Ack.Props.C49_rejects_valid
#print axioms Ack.Props.C49_accepts_invalid
#print axioms Ack.Props.C49_overflow
#print axioms Ack.Props.C49_pss_sha384_partial
#print axioms Ack.Props.C49_pss_host_partial
#print axioms Ack.Props.C50_mgf1
#print axioms Ack.Props.C50_mgf1_xor
#print axioms Ack.Props.C51_assert_rsa
#print axioms Ack.Props.C51_assert_pss
#print axioms Ack.Props.C52_effective
#print axioms Ack.Props.C52_exact_partial
#print axioms Ack.Props.C52_wrong_exponent
#print axioms Ack.Props.C52_refused
#print axioms Ack.Props.C52_wrong_leading_zero
#print axioms Ack.Props.C53_compare
#print axioms Ack.Props.C53_select
#print axioms Ack.Props.C53_bit_length
#print axioms Ack.Props.C53_swab
#print axioms Ack.Props.C53_divrem
#print axioms Ack.Props.C53_divrem_eq
#print axioms Ack.Props.C54_ninv
#print axioms Ack.Props.C54_key
#print axioms Ack.Props.C54_bytes
#print axioms Ack.Props.C55_safe_iff
#print axioms Ack.Props.C55_unsafe
#print axioms Ack.Props.C55_pkcs1_total
#print axioms Ack.Props.C56_sha384
#print axioms Ack.Props.C56_padding
#print axioms Ack.Props.C56_length
#print axioms Ack.Props.C57_sha3_256
#print axioms Ack.Props.C57_sha3_384
#print axioms Ack.Props.C57_sha3_512
#print axioms Ack.Props.C57_shake128
#print axioms Ack.Props.C57_shake256
#print axioms Ack.Props.C57_bits_injective
#print axioms Ack.Props.C58_shake128
#print axioms Ack.Props.C58_shake256
#print axioms Ack.Props.C59_decode
#print axioms Ack.Props.C59_terminator
#print axioms Ack.Props.C59_two_zeros
#print axioms Ack.Props.C59_roundtrip
#print axioms Ack.Props.C59_buffer
#print axioms Ack.Props.C59_required_size
#print axioms Ack.Props.C59_fixed
#print axioms Ack.Props.C59_bigint
#print axioms Ack.Props.C60_memxor
#print axioms Ack.Props.C61_roundtrip
#print axioms Ack.Props.C61_overlong_prefix_undefined
#print axioms Ack.Props.C62_key_equality
#print axioms Ack.Props.C63_fixed_partial
#print axioms Ack.Props.C63_flex
#print axioms Ack.Props.C63_flex_partial
#print axioms Ack.Props.C63_flex_wrong
#print axioms Ack.Props.C63_flex_dangling
#print axioms Ack.Props.C63_div_wrong
#print axioms Ack.Props.C63_add_sub
#print axioms Ack.Props.C63_mul
#print axioms Ack.Props.C63_word
#print axioms Ack.Props.C63_bits_partial
#print axioms Ack.Props.C63_bits_wrong
#print axioms Ack.Props.C64_malleable
#print axioms Ack.Props.C65_pkcs1
#print axioms Ack.Props.C65_pss
#print axioms Ack.Props.C66_verify
#print axioms Ack.Props.C66_constructor
#print axioms Ack.Props.C67_named_domain
#print axioms Ack.Props.C67_named_verify
#print axioms Ack.Props.C67_named_recover_sound
#print axioms Ack.Props.C67_named_recover_iff
#print axioms Ack.Props.C68_pkcs1_honest
#print axioms Ack.Props.C68_pss_honest_partial
#print axioms Ack.Props.C68_pss_any
#print axioms Ack.Props.C68_pss_exact
#print axioms Ack.Props.C68_pss_wrong
#print axioms Ack.Props.C69_pkcs1_binding
#print axioms Ack.Props.C69_pss_binding
#print axioms Ack.Props.C69_pkcs1_any
#print axioms Ack.Props.C69_pss_any
#print axioms Ack.Props.C69_pss_salts
#print axioms Ack.Props.C69_actions
#print axioms Ack.Props.C69_pss_actions
#print axioms Ack.Props.C70_pkcs1
#print axioms Ack.Props.C70_pss
#print axioms Ack.Props.C71_construct
#print axioms Ack.Props.C71_assign
#print axioms Ack.Props.C71_unchecked
#print axioms Ack.Props.C71_null
#print axioms Ack.Props.C72_formula
#print axioms Ack.Props.C73_set_array
#print axioms Ack.Props.C73_set_array_false
#print axioms Ack.Props.C73_get_array
#print axioms Ack.Props.C73_round_trip
#print axioms Ack.Props.C74_bytes
#print axioms Ack.Props.C74_literal
#print axioms Ack.Props.C74_named_curves
#print axioms Ack.Props.C75_ecdsa_partial
#print axioms Ack.Props.C75_total
#print axioms Ack.Props.C75_off_curve_wrong
#print axioms Ack.Props.C76_rsa_exact
#print axioms Ack.Props.C76_rsa_partial
#print axioms Ack.Props.C76_pss_exact
#print axioms Ack.Props.C76_pss_wrong
#print axioms Ack.Props.C76_pss_accept
#print axioms Ack.Props.C77_decode_round_trip
#print axioms Ack.Props.C77_decode_agree
#print axioms Ack.Props.C77_decompress
#print axioms Ack.Props.C77_compute_y
#print axioms Ack.Props.C77_make_point
#print axioms Ack.Props.C77_generate_hex
#print axioms Ack.Props.C78_compare
#print axioms Ack.Props.C78_negative_zero_wrong
#print axioms Ack.Props.C78_compare_abort
#print axioms Ack.Props.C78_compare_big
#print axioms Ack.Props.C78_arith
#print axioms Ack.Props.C78_fp_native
#print axioms Ack.Props.C78_field_law
#print axioms Ack.Props.C78_field
#print axioms Ack.Props.C78_field_compare
#print axioms Ack.Props.C79_add
#print axioms Ack.Props.C79_sub
#print axioms Ack.Props.C79_neg
#print axioms Ack.Props.C79_mul
#print axioms Ack.Props.C79_sqr
#print axioms Ack.Props.C79_inv
#print axioms Ack.Props.C79_div
#print axioms Ack.Props.C79_sqrt
#print axioms Ack.Props.C79_formula
#print axioms Ack.Props.C79_negative_zero_wrong
#print axioms Ack.Props.C80_copy
#print axioms Ack.Props.C80_move
#print axioms Ack.Props.C80_move_assign
#print axioms Ack.Props.C80_swap
#print axioms Ack.Props.C80_source
#print axioms Ack.Props.C80_reuse
#print axioms Ack.Props.C80_stale_wrong
#print axioms Ack.Props.C81_partial
#print axioms Ack.Props.C81_modinv_partial
#print axioms Ack.Props.C81_modinv_abort_partial
#print axioms Ack.Props.C81_modinv_wrong
#print axioms Ack.Props.C81_pow
#print axioms Ack.Props.C81_modexp_partial
#print axioms Ack.Props.C81_modexp_wrong
#print axioms Ack.Props.C82_partial
#print axioms Ack.Props.C82_dangling
#print axioms Ack.Props.C82_copy_wrong
#print axioms Ack.Props.C82_left_behind
#print axioms Ack.Props.C82_eq
#print axioms Ack.Props.C82_eq_wrong
#print axioms Ack.Props.C82_kinds_partial
#print axioms Ack.Props.C82_jacobian_dangling
#print axioms Ack.Props.C82_homogeneous_dangling
#print axioms Ack.Props.C82_jacobian_left_behind
#print axioms Ack.Props.C82_homogeneous_left_behind
#print axioms Ack.Props.C82_kinds_end_wrong
#print axioms Ack.Props.C83_partial
#print axioms Ack.Props.C83_div_abort_partial
#print axioms Ack.Props.C83_div_wrong
#print axioms Ack.Props.C83_compare
#print axioms Ack.Props.C84_programs
#print axioms Ack.Props.C84_stops
#print axioms Ack.Props.C84_generator
#print axioms Ack.Props.C84_refines
#print axioms Ack.Props.C85_no_undefined
#print axioms Ack.Props.C85_total
#print axioms Ack.Props.C85_full_scalar_wrong
#print axioms Ack.Props.C86_programs
#print axioms Ack.Props.C86_stops
#print axioms Ack.Props.C87_programs
#print axioms Ack.Props.C87_action_values
#print axioms Ack.Props.C87_action_valid
#print axioms Ack.Props.C87_action_total
#print axioms Ack.Props.C87_off_curve_wrong
#print axioms Ack.Props.C88_no_undefined
#print axioms Ack.Props.C88_total
#print axioms Ack.Props.C88_decode_any
#print axioms Ack.Props.C89_verify
#print axioms Ack.Props.C89_generator
#print axioms Ack.Props.C89_domain
#print axioms Ack.Props.C89_refines
#print axioms Ack.Props.C89_named
#print axioms Ack.Props.C90_views
#print axioms Ack.Props.C90_write
#print axioms Ack.Props.C90_ecdsa
#print axioms Ack.Props.C90_ecdsa_partial
#print axioms Ack.Props.C90_rsa
#print axioms Ack.Props.C90_rsa_partial
#print axioms Ack.Props.C90_pss
#print axioms Ack.Props.C90_pss_key
#print axioms Ack.Props.C90_owned_key
#print axioms Ack.Props.C90_overlong_wrong
#print axioms Ack.Props.C91_programs
#print axioms Ack.Props.C91_exclusive
#print axioms Ack.Props.C91_setting
#print axioms Ack.Props.C91_unchecked_wrong
#print axioms Ack.Props.C92_programs
#print axioms Ack.Props.C92_stops
#print axioms Ack.Props.C92_no_undefined
#print axioms Ack.Props.C92_total
#print axioms Ack.Props.C92_refines
#print axioms Ack.Props.C93
#print axioms Ack.Props.C93_stops
#print axioms Ack.Props.C94
#print axioms Ack.Props.C94_append_self_wrong
#print axioms Ack.Props.C94_view_left_behind_wrong
#print axioms Ack.Props.C94_memxor_overlap_wrong
#print axioms Ack.Props.C95
#print axioms Ack.Props.C95_unique
#print axioms Ack.Props.C95_factorial
#print axioms Ack.Props.C95_euclid
#print axioms Ack.Props.C95_rules_needed
#print axioms Ack.Props.C95_inline_needed
#print axioms Ack.Props.C95_stops
#print axioms Ack.Props.C95_divisors
#print axioms Ack.Props.C96_client
#print axioms Ack.Props.C96_stops
#print axioms Ack.Props.C96_no_undefined
#print axioms Ack.Props.C96_order
#print axioms Ack.Props.C97_pkcs1
#print axioms Ack.Props.C97_pss
#print axioms Ack.Props.C97_pss_entry
#print axioms Ack.Props.C97_pkcs1_rfc
#print axioms Ack.Props.C97_pss_rfc
#print axioms Ack.Props.C97_sized
#print axioms Ack.Props.C97_mgf1
#print axioms Ack.Props.C97_mgf1_xor
#print axioms Ack.Props.C97_mgf1_overlap
#print axioms Ack.Props.C98_print
#print axioms Ack.Props.C98_injective
#print axioms Ack.Props.C98_read_back
#print axioms Ack.Props.C98_element
#print axioms Ack.Props.C98_object
#print axioms Ack.Props.C99_client
#print axioms Ack.Props.C99_order
