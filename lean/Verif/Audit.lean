import Verif.Props.AlgebraicProver
import Verif.Props.Appendix
import Verif.Props.Benchmarks
import Verif.Props.Blake2b
import Verif.Props.Circuit
import Verif.Props.Circuit2
import Verif.Props.Circuit3
import Verif.Props.Circuit4
import Verif.Props.CircuitFile
import Verif.Props.CircuitRelease
import Verif.Props.CircuitText
import Verif.Props.Cli
import Verif.Props.EdDSA
import Verif.Props.EdDSAOpen
import Verif.Props.Field2Bits
import Verif.Props.FixedBase
import Verif.Props.Frames
import Verif.Props.Groth16
import Verif.Props.JsonFormat
import Verif.Props.Jubjub
import Verif.Props.JubjubBench
import Verif.Props.JubjubOrder
import Verif.Props.Lookup
import Verif.Props.LowOrder
import Verif.Props.Merkle
import Verif.Props.MerkleIV
import Verif.Props.MiMC
import Verif.Props.Montgomery
import Verif.Props.Numerals
import Verif.Props.OneOfN
import Verif.Props.Pedersen
import Verif.Props.PinocchioMain
import Verif.Props.PinocchioMain2
import Verif.Props.PinocchioTests
import Verif.Props.PinocchioTests2
import Verif.Props.PinocchioTrace
import Verif.Props.Points
import Verif.Props.PolySolver
import Verif.Props.Poseidon
import Verif.Props.PoseidonDefault
import Verif.Props.PoseidonMDS
import Verif.Props.PoseidonSize
import Verif.Props.PyCliSol
import Verif.Props.PyContractSol
import Verif.Props.PyEdDSA
import Verif.Props.PyEdDSAScript
import Verif.Props.PyEncoding
import Verif.Props.PyEvmAsm
import Verif.Props.PyExport
import Verif.Props.PyField
import Verif.Props.PyJubjub
import Verif.Props.PyMerkle
import Verif.Props.PyMiMCContract
import Verif.Props.PyNonce
import Verif.Props.PyNumberTheory
import Verif.Props.PyPedersen
import Verif.Props.PyPoseidon
import Verif.Props.PyPoseidonContract
import Verif.Props.PyShamir
import Verif.Props.PyUtils
import Verif.Props.PyVerifier
import Verif.Props.RunExample
import Verif.Props.SageCurve
import Verif.Props.ScalarMult
import Verif.Props.Serialise
import Verif.Props.Sha256C
import Verif.Props.Sha256Gadgets
import Verif.Props.Shamir
import Verif.Props.Sieve
import Verif.Props.SnarkUtils
import Verif.Props.SolJubjub
import Verif.Props.SolMerkle
import Verif.Props.SolMiMC
import Verif.Props.SolMigrations
import Verif.Props.SolVerifier
import Verif.Props.Streams
import Verif.Props.SubAdd
import Verif.Props.TestMains
import Verif.Props.TestMains2
import Verif.Props.TestPrograms
import Verif.Props.TestPrograms2
import Verif.Props.TestPyEdDSA
import Verif.Props.TestPyJubjub
import Verif.Props.TestPyLib
import Verif.Props.TestPyMisc
import Verif.Props.TestSha256
import Verif.Props.TestSol
import Verif.Props.TestVerify
import Verif.Props.Utils
import Verif.Props.Zcash

/-! Axioms of every property theorem (expected: at most propext, Classical.choice, Quot.sound).
Generated by /verif/tools/manifest.py. -/

#print axioms Ethsnarks.C01_bytes_to_bv
#print axioms Ethsnarks.C01_roundtrip
#print axioms Ethsnarks.C02_bit_list_to_ints
#print axioms Ethsnarks.C03_int_list_to_bits_false
#print axioms Ethsnarks.C03_int_list_to_bits_partial
#print axioms Ethsnarks.C04_bytes_to_field
#print axioms Ethsnarks.C04_endianness
#print axioms Ethsnarks.C04_injective
#print axioms Ethsnarks.C04_too_long
#print axioms Ethsnarks.C04_collision_32
#print axioms Ethsnarks.C05_padding_values
#print axioms Ethsnarks.C05_rejects
#print axioms Ethsnarks.C06_padding_not_enforced_false
#print axioms Ethsnarks.C06_padding_enforced_partial
#print axioms Ethsnarks.C07_hex_ok
#print axioms Ethsnarks.C07_hex_ok_only
#print axioms Ethsnarks.C07_hex_length
#print axioms Ethsnarks.C07_hex_throws
#print axioms Ethsnarks.C08_is_negative
#print axioms Ethsnarks.C09_lookup1_sound
#print axioms Ethsnarks.C09_lookup1_complete
#print axioms Ethsnarks.C09_lookup1_ub
#print axioms Ethsnarks.C09_lookup1_selector_unconstrained
#print axioms Ethsnarks.C09_lookup1_size
#print axioms Ethsnarks.C10_lookup2_sound
#print axioms Ethsnarks.C10_lookup2_complete
#print axioms Ethsnarks.C10_lookup2_nonbool
#print axioms Ethsnarks.C100_parameters
#print axioms Ethsnarks.C100_affine
#print axioms Ethsnarks.C100_projective
#print axioms Ethsnarks.C100_extended
#print axioms Ethsnarks.C100_as_etec_partial
#print axioms Ethsnarks.C100_as_etec_false
#print axioms Ethsnarks.C100_eq_false
#print axioms Ethsnarks.C100_montgomery_partial
#print axioms Ethsnarks.C100_montgomery_zero_false
#print axioms Ethsnarks.C100_loworder
#print axioms Ethsnarks.C101_mult
#print axioms Ethsnarks.C101_mult_montgomery_partial
#print axioms Ethsnarks.C101_mult_montgomery_false
#print axioms Ethsnarks.C101_scalar
#print axioms Ethsnarks.C101_scalar_false
#print axioms Ethsnarks.C101_mult_negative_false
#print axioms Ethsnarks.C101_wnaf
#print axioms Ethsnarks.C101_mult_naf
#print axioms Ethsnarks.C101_naf_negative_false
#print axioms Ethsnarks.C101_width_false
#print axioms Ethsnarks.C101_naf_montgomery_false
#print axioms Ethsnarks.C102_from_y
#print axioms Ethsnarks.C102_from_y_sign
#print axioms Ethsnarks.C102_from_x
#print axioms Ethsnarks.C102_compress
#print axioms Ethsnarks.C102_compress_injective
#print axioms Ethsnarks.C102_decompress_partial
#print axioms Ethsnarks.C102_decompress_false
#print axioms Ethsnarks.C102_from_hash
#print axioms Ethsnarks.C102_cpp
#print axioms Ethsnarks.C102_identity_false
#print axioms Ethsnarks.C103_basepoint
#print axioms Ethsnarks.C103_basepoint_cpp
#print axioms Ethsnarks.C103_windows
#print axioms Ethsnarks.C103_bases
#print axioms Ethsnarks.C103_bits
#print axioms Ethsnarks.C103_cpp
#print axioms Ethsnarks.C103_bytes
#print axioms Ethsnarks.C103_name
#print axioms Ethsnarks.C103_injective_partial
#print axioms Ethsnarks.C103_padding_false
#print axioms Ethsnarks.C103_scalars_false
#print axioms Ethsnarks.C104_verify
#print axioms Ethsnarks.C104_key
#print axioms Ethsnarks.C104_sign
#print axioms Ethsnarks.C104_honest_partial
#print axioms Ethsnarks.C104_honest_false
#print axioms Ethsnarks.C104_pure
#print axioms Ethsnarks.C104_message
#print axioms Ethsnarks.C104_eddsa
#print axioms Ethsnarks.C104_cpp_pure
#print axioms Ethsnarks.C104_cpp_eddsa
#print axioms Ethsnarks.C104_malleable_false
#print axioms Ethsnarks.C104_neutral_false
#print axioms Ethsnarks.C104_off_curve_false
#print axioms Ethsnarks.C104_padding_false
#print axioms Ethsnarks.C104_mimc
#print axioms Ethsnarks.C105_poseidon
#print axioms Ethsnarks.C105_refuses
#print axioms Ethsnarks.C105_constants
#print axioms Ethsnarks.C105_constants_cpp
#print axioms Ethsnarks.C105_matrix
#print axioms Ethsnarks.C105_matrix_cpp
#print axioms Ethsnarks.C105_matrix_false
#print axioms Ethsnarks.C105_cpp
#print axioms Ethsnarks.C105_params
#print axioms Ethsnarks.C105_cubic_false
#print axioms Ethsnarks.C105_default
#print axioms Ethsnarks.C105_default_hash
#print axioms Ethsnarks.C105_injective_false
#print axioms Ethsnarks.C105_chained_too_long
#print axioms Ethsnarks.C106_assemble
#print axioms Ethsnarks.C106_jump
#print axioms Ethsnarks.C106_push
#print axioms Ethsnarks.C106_push_range
#print axioms Ethsnarks.C106_deploy
#print axioms Ethsnarks.C106_pending
#print axioms Ethsnarks.C106_redefinition
#print axioms Ethsnarks.C106_backward_false
#print axioms Ethsnarks.C106_swap_false
#print axioms Ethsnarks.C107_contract
#print axioms Ethsnarks.C107_selectors
#print axioms Ethsnarks.C107_call
#print axioms Ethsnarks.C107_short
#print axioms Ethsnarks.C107_exponents
#print axioms Ethsnarks.C108_contract
#print axioms Ethsnarks.C108_selector
#print axioms Ethsnarks.C108_call_partial
#print axioms Ethsnarks.C108_length_false
#print axioms Ethsnarks.C108_narrow_false
#print axioms Ethsnarks.C108_wide_false
#print axioms Ethsnarks.C108_too_wide_false
#print axioms Ethsnarks.C108_modulus_false
#print axioms Ethsnarks.C108_default
#print axioms Ethsnarks.C109_poly
#print axioms Ethsnarks.C109_short
#print axioms Ethsnarks.C109_lagrange
#print axioms Ethsnarks.C109_recover
#print axioms Ethsnarks.C109_one_short
#print axioms Ethsnarks.C109_one_short_iff
#print axioms Ethsnarks.C109_roundtrip
#print axioms Ethsnarks.C109_secrecy
#print axioms Ethsnarks.C109_inverse
#print axioms Ethsnarks.C109_duplicate_false
#print axioms Ethsnarks.C109_gadget
#print axioms Ethsnarks.C109_r1cs
#print axioms Ethsnarks.C109_r1cs_mismatch_false
#print axioms Ethsnarks.C11_lookup3_sound
#print axioms Ethsnarks.C11_lookup3_complete
#print axioms Ethsnarks.C110_elements
#print axioms Ethsnarks.C110_field
#print axioms Ethsnarks.C110_contract
#print axioms Ethsnarks.C110_chunk
#print axioms Ethsnarks.C110_chunk_false
#print axioms Ethsnarks.C110_length_false
#print axioms Ethsnarks.C110_unpack_partial
#print axioms Ethsnarks.C110_words_partial
#print axioms Ethsnarks.C110_unpack_false
#print axioms Ethsnarks.C110_long_false
#print axioms Ethsnarks.C110_negative
#print axioms Ethsnarks.C110_native
#print axioms Ethsnarks.C110_native_false
#print axioms Ethsnarks.C111_proof
#print axioms Ethsnarks.C111_key
#print axioms Ethsnarks.C111_reload_key
#print axioms Ethsnarks.C111_reload_proof
#print axioms Ethsnarks.C111_text
#print axioms Ethsnarks.C111_format
#print axioms Ethsnarks.C111_injective
#print axioms Ethsnarks.C111_cpp_key
#print axioms Ethsnarks.C111_cpp_proof
#print axioms Ethsnarks.C111_empty_false
#print axioms Ethsnarks.C111_native
#print axioms Ethsnarks.C111_agree_partial
#print axioms Ethsnarks.C111_short_false
#print axioms Ethsnarks.C111_wide_false
#print axioms Ethsnarks.C111_negative_false
#print axioms Ethsnarks.C112_total
#print axioms Ethsnarks.C112_mimc_partial
#print axioms Ethsnarks.C112_returns
#print axioms Ethsnarks.C112_files
#print axioms Ethsnarks.C112_contracts
#print axioms Ethsnarks.C112_mimc_false
#print axioms Ethsnarks.C112_exponent_false
#print axioms Ethsnarks.C112_main_partial
#print axioms Ethsnarks.C112_main_false
#print axioms Ethsnarks.C112_main_usage
#print axioms Ethsnarks.C113_constants
#print axioms Ethsnarks.C113_distinct
#print axioms Ethsnarks.C113_matrix
#print axioms Ethsnarks.C113_default
#print axioms Ethsnarks.C113_bijective
#print axioms Ethsnarks.C113_cpp
#print axioms Ethsnarks.C113_full
#print axioms Ethsnarks.C113_python
#print axioms Ethsnarks.C113_blake
#print axioms Ethsnarks.C113_contract
#print axioms Ethsnarks.C113_reference
#print axioms Ethsnarks.C114_proof
#print axioms Ethsnarks.C114_key
#print axioms Ethsnarks.C114_proof_injective
#print axioms Ethsnarks.C114_key_injective
#print axioms Ethsnarks.C114_export
#print axioms Ethsnarks.C114_words
#print axioms Ethsnarks.C114_compiles_false
#print axioms Ethsnarks.C114_compiles_partial
#print axioms Ethsnarks.C114_main
#print axioms Ethsnarks.C114_negative_false
#print axioms Ethsnarks.C115_state
#print axioms Ethsnarks.C115_upgrade_false
#print axioms Ethsnarks.C115_upgrade_partial
#print axioms Ethsnarks.C115_restricted
#print axioms Ethsnarks.C116_public
#print axioms Ethsnarks.C116_laws
#print axioms Ethsnarks.C116_validation_false
#print axioms Ethsnarks.C117_data
#print axioms Ethsnarks.C117_nonce
#print axioms Ethsnarks.C117_key
#print axioms Ethsnarks.C117_mimc
#print axioms Ethsnarks.C117_mimc_types
#print axioms Ethsnarks.C117_eddsa
#print axioms Ethsnarks.C117_pure_partial
#print axioms Ethsnarks.C117_pure_false
#print axioms Ethsnarks.C117_key_revealed_false
#print axioms Ethsnarks.C118_run_partial
#print axioms Ethsnarks.C118_release
#print axioms Ethsnarks.C118_debug
#print axioms Ethsnarks.C118_debug_abort_false
#print axioms Ethsnarks.C118_run_exact
#print axioms Ethsnarks.C118_test_exact
#print axioms Ethsnarks.C118_dummy
#print axioms Ethsnarks.C119_points_exact
#print axioms Ethsnarks.C119_field2bits
#print axioms Ethsnarks.C119_isnonzero
#print axioms Ethsnarks.C119_subadd
#print axioms Ethsnarks.C119_mimc
#print axioms Ethsnarks.C119_authenticator
#print axioms Ethsnarks.C119_add
#print axioms Ethsnarks.C119_dbl
#print axioms Ethsnarks.C119_isoncurve
#print axioms Ethsnarks.C119_notloworder
#print axioms Ethsnarks.C119_mul
#print axioms Ethsnarks.C119_mul_fixed
#print axioms Ethsnarks.C119_hash
#print axioms Ethsnarks.C119_mul_fixed_zcash
#print axioms Ethsnarks.C119_commitment
#print axioms Ethsnarks.C119_release
#print axioms Ethsnarks.C119_lookup1
#print axioms Ethsnarks.C119_lookup3
#print axioms Ethsnarks.C119_lookup2_turn
#print axioms Ethsnarks.C119_lookup2
#print axioms Ethsnarks.C119_one_of_n
#print axioms Ethsnarks.C119_shamir
#print axioms Ethsnarks.C119_selector
#print axioms Ethsnarks.C119_mimc_hash
#print axioms Ethsnarks.C12_lookupS3_sound
#print axioms Ethsnarks.C12_lookupS3_complete
#print axioms Ethsnarks.C120_status
#print axioms Ethsnarks.C120_loop
#print axioms Ethsnarks.C120_field2bits
#print axioms Ethsnarks.C120_isnonzero
#print axioms Ethsnarks.C120_subadd
#print axioms Ethsnarks.C120_lookup2
#print axioms Ethsnarks.C120_mimc
#print axioms Ethsnarks.C120_mimc_hash
#print axioms Ethsnarks.C120_authenticator
#print axioms Ethsnarks.C120_add
#print axioms Ethsnarks.C120_dbl
#print axioms Ethsnarks.C120_mul
#print axioms Ethsnarks.C120_mul_fixed
#print axioms Ethsnarks.C120_isoncurve
#print axioms Ethsnarks.C120_notloworder
#print axioms Ethsnarks.C120_commitment
#print axioms Ethsnarks.C120_point
#print axioms Ethsnarks.C120_hash
#print axioms Ethsnarks.C120_zcash
#print axioms Ethsnarks.C120_eddsa
#print axioms Ethsnarks.C120_mimc_hash_main
#print axioms Ethsnarks.C120_merkle_main
#print axioms Ethsnarks.C120_poseidon_prove
#print axioms Ethsnarks.C120_poseidon_status
#print axioms Ethsnarks.C120_poseidon
#print axioms Ethsnarks.C120_poseidon_status_exact
#print axioms Ethsnarks.C120_poseidon_status_false
#print axioms Ethsnarks.C121_many_fips
#print axioms Ethsnarks.C121_full_fips
#print axioms Ethsnarks.C121_many
#print axioms Ethsnarks.C121_many_passes
#print axioms Ethsnarks.C121_many_main
#print axioms Ethsnarks.C121_full_compare_vacuous
#print axioms Ethsnarks.C121_full
#print axioms Ethsnarks.C121_full_recorded
#print axioms Ethsnarks.C121_full_main
#print axioms Ethsnarks.C121_packing
#print axioms Ethsnarks.C121_packing_contract
#print axioms Ethsnarks.C121_packing_main
#print axioms Ethsnarks.C122_conversions_partial
#print axioms Ethsnarks.C122_serialise_exact
#print axioms Ethsnarks.C122_point_r
#print axioms Ethsnarks.C122_random_points
#print axioms Ethsnarks.C122_multiplicative
#print axioms Ethsnarks.C122_via_all
#print axioms Ethsnarks.C122_validity_partial
#print axioms Ethsnarks.C122_validity_false
#print axioms Ethsnarks.C122_mult_all_random_partial
#print axioms Ethsnarks.C122_naf
#print axioms Ethsnarks.C122_doubles
#print axioms Ethsnarks.C122_mult_all_known
#print axioms Ethsnarks.C122_equality
#print axioms Ethsnarks.C122_negate
#print axioms Ethsnarks.C122_zero
#print axioms Ethsnarks.C122_known
#print axioms Ethsnarks.C122_hash_to_point
#print axioms Ethsnarks.C122_nonsquares
#print axioms Ethsnarks.C122_loworder
#print axioms Ethsnarks.C122_lmask
#print axioms Ethsnarks.C123_shamir_random
#print axioms Ethsnarks.C123_shamir_random_false
#print axioms Ethsnarks.C123_shamir_static
#print axioms Ethsnarks.C123_poly_constraints
#print axioms Ethsnarks.C123_one_of_n
#print axioms Ethsnarks.C123_pedersen_zcash
#print axioms Ethsnarks.C123_pedersen_scalars
#print axioms Ethsnarks.C123_pedersen_bytes
#print axioms Ethsnarks.C123_pedersen_exact
#print axioms Ethsnarks.C123_pedersen_bits
#print axioms Ethsnarks.C123_zcash_passes
#print axioms Ethsnarks.C124_mimc
#print axioms Ethsnarks.C124_mimc_evm
#print axioms Ethsnarks.C124_poseidon
#print axioms Ethsnarks.C124_poseidon_evm
#print axioms Ethsnarks.C124_packing
#print axioms Ethsnarks.C124_tree
#print axioms Ethsnarks.C124_tree_passes
#print axioms Ethsnarks.C124_update
#print axioms Ethsnarks.C124_update_false
#print axioms Ethsnarks.C124_known1
#print axioms Ethsnarks.C124_known_2pow28
#print axioms Ethsnarks.C124_uniques
#print axioms Ethsnarks.C125_hash
#print axioms Ethsnarks.C125_pure
#print axioms Ethsnarks.C125_mimc
#print axioms Ethsnarks.C125_sign
#print axioms Ethsnarks.C126_jubjub_exact
#print axioms Ethsnarks.C126_jubjub
#print axioms Ethsnarks.C126_mimc_exact
#print axioms Ethsnarks.C126_mimc
#print axioms Ethsnarks.C126_unique_exact
#print axioms Ethsnarks.C126_tree_exact
#print axioms Ethsnarks.C126_tree
#print axioms Ethsnarks.C126_reverse_exact
#print axioms Ethsnarks.C126_pack_exact
#print axioms Ethsnarks.C126_snarkutils
#print axioms Ethsnarks.C126_verifier
#print axioms Ethsnarks.C127_point_add_exact
#print axioms Ethsnarks.C127_point_add
#print axioms Ethsnarks.C127_fast_main
#print axioms Ethsnarks.C127_fast_passes
#print axioms Ethsnarks.C127_mixed_add
#print axioms Ethsnarks.C127_mixed_main
#print axioms Ethsnarks.C127_mixed_passes
#print axioms Ethsnarks.C127_two_bit
#print axioms Ethsnarks.C127_three_bit
#print axioms Ethsnarks.C127_loworder
#print axioms Ethsnarks.C127_range
#print axioms Ethsnarks.C127_range_count
#print axioms Ethsnarks.C127_range_peaks
#print axioms Ethsnarks.C127_range_stale_false
#print axioms Ethsnarks.C127_mimc_js_partial
#print axioms Ethsnarks.C127_mimc_js_false
#print axioms Ethsnarks.C128_primes
#print axioms Ethsnarks.C128_primes_false
#print axioms Ethsnarks.C128_coding
#print axioms Ethsnarks.C128_coding_check
#print axioms Ethsnarks.C129_two_operands
#print axioms Ethsnarks.C129_one_operand
#print axioms Ethsnarks.C129_recorded
#print axioms Ethsnarks.C129_systems
#print axioms Ethsnarks.C129_jsnark
#print axioms Ethsnarks.C129_rule
#print axioms Ethsnarks.C129_rule_result
#print axioms Ethsnarks.C129_make_false
#print axioms Ethsnarks.C129_crash_false
#print axioms Ethsnarks.C129_make
#print axioms Ethsnarks.C129_program
#print axioms Ethsnarks.C13_isnonzero_sound
#print axioms Ethsnarks.C13_isnonzero_complete
#print axioms Ethsnarks.C130_roundtrip_exact
#print axioms Ethsnarks.C130_roundtrip_fails
#print axioms Ethsnarks.C130_verify_exact
#print axioms Ethsnarks.C130_roundtrip
#print axioms Ethsnarks.C130_records
#print axioms Ethsnarks.C130_roundtrip_passes
#print axioms Ethsnarks.C130_verify_same
#print axioms Ethsnarks.C130_verify
#print axioms Ethsnarks.C131_accumulator
#print axioms Ethsnarks.C131_pairing_exact
#print axioms Ethsnarks.C131_pairing
#print axioms Ethsnarks.C131_constant
#print axioms Ethsnarks.C131_two
#print axioms Ethsnarks.C131_load_usage
#print axioms Ethsnarks.C131_load_partial
#print axioms Ethsnarks.C131_load_false
#print axioms Ethsnarks.C131_profile
#print axioms Ethsnarks.C131_profile_false
#print axioms Ethsnarks.C131_profile_usage
#print axioms Ethsnarks.C132_eval
#print axioms Ethsnarks.C132_solutions
#print axioms Ethsnarks.C132_satisfiable
#print axioms Ethsnarks.C132_script_partial
#print axioms Ethsnarks.C132_import_false
#print axioms Ethsnarks.C133_keypair
#print axioms Ethsnarks.C133_script_partial
#print axioms Ethsnarks.C133_zero_false
#print axioms Ethsnarks.C134_group
#print axioms Ethsnarks.C134_orders
#print axioms Ethsnarks.C134_basepoint
#print axioms Ethsnarks.C134_script
#print axioms Ethsnarks.C135_calls
#print axioms Ethsnarks.C135_values_partial
#print axioms Ethsnarks.C135_script_partial
#print axioms Ethsnarks.C135_montgomery_false
#print axioms Ethsnarks.C14_field2bits_not_unique_false
#print axioms Ethsnarks.C14_field2bits_sound_partial
#print axioms Ethsnarks.C14_field2bits_complete
#print axioms Ethsnarks.C15_selector_sound
#print axioms Ethsnarks.C15_selector_complete
#print axioms Ethsnarks.C15_selector_nonboolean_false
#print axioms Ethsnarks.C16_path_general
#print axioms Ethsnarks.C16_path_mimc
#print axioms Ethsnarks.C16_path_faults
#print axioms Ethsnarks.C16_ivs
#print axioms Ethsnarks.C16_ivs_unconstrained
#print axioms Ethsnarks.C17_authenticator
#print axioms Ethsnarks.C18_binding
#print axioms Ethsnarks.C19_mimc_e7_sound
#print axioms Ethsnarks.C19_mimc_e5_sound
#print axioms Ethsnarks.C19_mimc_e7_complete
#print axioms Ethsnarks.C19_mimc_e5_complete
#print axioms Ethsnarks.C19_mimc_native
#print axioms Ethsnarks.C19_mimc_no_constants_ub
#print axioms Ethsnarks.C20_mimc_bijective
#print axioms Ethsnarks.C20_mimc_native_unique
#print axioms Ethsnarks.C20_mimc_gadget_injective
#print axioms Ethsnarks.C21_mimc_hash_e7
#print axioms Ethsnarks.C21_mimc_hash_e5
#print axioms Ethsnarks.C21_mimc_hash_native
#print axioms Ethsnarks.C21_mimc_hash_empty_ub
#print axioms Ethsnarks.C22_constraints_first_false
#print axioms Ethsnarks.C22_witness_first_partial
#print axioms Ethsnarks.C22_our_item_free_false
#print axioms Ethsnarks.C22_complete_partial
#print axioms Ethsnarks.C22_reuse_false
#print axioms Ethsnarks.C22_empty
#print axioms Ethsnarks.C23_shamir_false
#print axioms Ethsnarks.C23_shamir_sound_partial
#print axioms Ethsnarks.C23_shamir_complete_partial
#print axioms Ethsnarks.C23_shamir_two_ub
#print axioms Ethsnarks.C23_shamir_small
#print axioms Ethsnarks.C24_subadd_sound
#print axioms Ethsnarks.C24_subadd_witness
#print axioms Ethsnarks.C24_subadd_needs_range_checks
#print axioms Ethsnarks.C24_subadd_too_wide
#print axioms Ethsnarks.C25_poseidon_sound
#print axioms Ethsnarks.C25_poseidon_complete
#print axioms Ethsnarks.C25_permute
#print axioms Ethsnarks.C25_poseidon_few_rounds_ub
#print axioms Ethsnarks.C25_size
#print axioms Ethsnarks.C26_cauchy_injective
#print axioms Ethsnarks.C26_cauchy_det
#print axioms Ethsnarks.C26_matrix_fill
#print axioms Ethsnarks.C26_matrix_equal_constants
#print axioms Ethsnarks.C26_poseidon_bijective
#print axioms Ethsnarks.C27_sha256_many_witness
#print axioms Ethsnarks.C27_sha256_many_sound_partial
#print axioms Ethsnarks.C27_sha256_many_sound_false
#print axioms Ethsnarks.C28_sha256_full_witness
#print axioms Ethsnarks.C28_sha256_full_sound_partial
#print axioms Ethsnarks.C28_sha256_full_sound_false
#print axioms Ethsnarks.C28_witness_block_skips_final
#print axioms Ethsnarks.C29_adder_sound
#print axioms Ethsnarks.C29_adder_closed
#print axioms Ethsnarks.C29_adder_complete
#print axioms Ethsnarks.C29_no_exceptions
#print axioms Ethsnarks.C30_doubler_sound
#print axioms Ethsnarks.C30_doubler_complete
#print axioms Ethsnarks.C31_conditional_iff
#print axioms Ethsnarks.C31_conditional_complete
#print axioms Ethsnarks.C32_isoncurve_sound
#print axioms Ethsnarks.C32_isoncurve_complete
#print axioms Ethsnarks.C33_loworder_points
#print axioms Ethsnarks.C33_notloworder_sound
#print axioms Ethsnarks.C33_notloworder_complete
#print axioms Ethsnarks.C33_validator_sound
#print axioms Ethsnarks.C33_validator_complete
#print axioms Ethsnarks.C34_accepts
#print axioms Ethsnarks.C34_scalarmult_sound
#print axioms Ethsnarks.C34_scalarmult_complete
#print axioms Ethsnarks.C35_accepts
#print axioms Ethsnarks.C35_odd
#print axioms Ethsnarks.C35_fixed_base_sound_partial
#print axioms Ethsnarks.C35_fixed_base_complete_partial
#print axioms Ethsnarks.C35_short_scalar_false
#print axioms Ethsnarks.C36_accepts
#print axioms Ethsnarks.C36_one_window_false
#print axioms Ethsnarks.C36_sound
#print axioms Ethsnarks.C36_complete
#print axioms Ethsnarks.C37_adder_sound
#print axioms Ethsnarks.C37_adder_chord
#print axioms Ethsnarks.C37_adder_complete
#print axioms Ethsnarks.C37_adder_equal_false
#print axioms Ethsnarks.C37_adder_equal_witness
#print axioms Ethsnarks.C37_to_edwards_sound
#print axioms Ethsnarks.C37_to_edwards_complete
#print axioms Ethsnarks.C37_to_edwards_zero_false
#print axioms Ethsnarks.C38_accepts
#print axioms Ethsnarks.C38_hash_sound
#print axioms Ethsnarks.C38_hash_complete
#print axioms Ethsnarks.C38_tobits_complete
#print axioms Ethsnarks.C38_tobits_sound_partial
#print axioms Ethsnarks.C38_tobits_alias_false
#print axioms Ethsnarks.C39_homomorphic
#print axioms Ethsnarks.C39_accepts
#print axioms Ethsnarks.C39_commitment_sound
#print axioms Ethsnarks.C39_commitment_complete
#print axioms Ethsnarks.C40_pure_message_length
#print axioms Ethsnarks.C40_pure_exact
#print axioms Ethsnarks.C40_pure_sound_partial
#print axioms Ethsnarks.C40_pure_complete
#print axioms Ethsnarks.C40_honest
#print axioms Ethsnarks.C40_malleable_false
#print axioms Ethsnarks.C40_neutral_key_false
#print axioms Ethsnarks.C40_alias_false
#print axioms Ethsnarks.C40_eddsa_exact
#print axioms Ethsnarks.C40_open_pure
#print axioms Ethsnarks.C40_open_eddsa
#print axioms Ethsnarks.C40_pure_accepts
#print axioms Ethsnarks.C40_open_honest
#print axioms Ethsnarks.C40_open_pure_valid
#print axioms Ethsnarks.C40_open_eddsa_valid
#print axioms Ethsnarks.C41_add
#print axioms Ethsnarks.C41_group
#print axioms Ethsnarks.C42_as_montgomery
#print axioms Ethsnarks.C42_as_edwards
#print axioms Ethsnarks.C42_v_zero
#print axioms Ethsnarks.C43_from_y
#print axioms Ethsnarks.C43_from_y_total
#print axioms Ethsnarks.C43_from_y_none
#print axioms Ethsnarks.C43_from_y_root_independent
#print axioms Ethsnarks.C43_from_hash
#print axioms Ethsnarks.C43_make_basepoints
#print axioms Ethsnarks.C43_message_format
#print axioms Ethsnarks.C43_message_injective
#print axioms Ethsnarks.C43_trailing_space_false
#print axioms Ethsnarks.C44_sound_partial
#print axioms Ethsnarks.C44_wires
#print axioms Ethsnarks.C44_zerop_false
#print axioms Ethsnarks.C44_lines
#print axioms Ethsnarks.C44_const_mul
#print axioms Ethsnarks.C45_eval_satisfies_partial
#print axioms Ethsnarks.C46_primary_partial
#print axioms Ethsnarks.C46_secret_published_false
#print axioms Ethsnarks.C46_duplicate_false
#print axioms Ethsnarks.C47_first_output_partial
#print axioms Ethsnarks.C47_eval_never_satisfies_false
#print axioms Ethsnarks.C47_eval_example_false
#print axioms Ethsnarks.C48_table12_partial
#print axioms Ethsnarks.C48_table3_output_free_false
#print axioms Ethsnarks.C48_eval_never_satisfies_false
#print axioms Ethsnarks.C49_generator_returns
#print axioms Ethsnarks.C49_completeness_partial
#print axioms Ethsnarks.C49_release
#print axioms Ethsnarks.C49_debug_returns
#print axioms Ethsnarks.C49_debug_abort_false
#print axioms Ethsnarks.C50_wrong_length
#print axioms Ethsnarks.C50_right_length
#print axioms Ethsnarks.C50_weak_long
#print axioms Ethsnarks.C50_weak_short
#print axioms Ethsnarks.C51_equation
#print axioms Ethsnarks.C51_processed
#print axioms Ethsnarks.C51_affine
#print axioms Ethsnarks.C51_ill_formed
#print axioms Ethsnarks.C52_roundtrip_partial
#print axioms Ethsnarks.C52_inputs
#print axioms Ethsnarks.C52_infinity_false
#print axioms Ethsnarks.C52_g2_unnormalised
#print axioms Ethsnarks.C52_g2_false
#print axioms Ethsnarks.C53_roundtrip_partial
#print axioms Ethsnarks.C53_length
#print axioms Ethsnarks.C53_infinity_false
#print axioms Ethsnarks.C53_empty_false
#print axioms Ethsnarks.C54_numerals_partial
#print axioms Ethsnarks.C54_texts_false
#print axioms Ethsnarks.C54_export_injective
#print axioms Ethsnarks.C54_alias_false
#print axioms Ethsnarks.C54_two_lists_false
#print axioms Ethsnarks.C54_value_partial
#print axioms Ethsnarks.C54_negative_false
#print axioms Ethsnarks.C54_overflow_false
#print axioms Ethsnarks.C55_sha256
#print axioms Ethsnarks.C55_length
#print axioms Ethsnarks.C55_constants
#print axioms Ethsnarks.C55_iv
#print axioms Ethsnarks.C56_chunks
#print axioms Ethsnarks.C56_same
#print axioms Ethsnarks.C57_chunks
#print axioms Ethsnarks.C58_blake2b
#print axioms Ethsnarks.C58_illegal
#print axioms Ethsnarks.C58_accepts
#print axioms Ethsnarks.C58_length
#print axioms Ethsnarks.C58_iv
#print axioms Ethsnarks.C59_lookup1
#print axioms Ethsnarks.C59_lookup2
#print axioms Ethsnarks.C59_lookup3
#print axioms Ethsnarks.C59_lookup_signed3
#print axioms Ethsnarks.C59_isnonzero
#print axioms Ethsnarks.C59_field2bits
#print axioms Ethsnarks.C59_point_adder
#print axioms Ethsnarks.C59_point_doubler
#print axioms Ethsnarks.C59_conditional_point
#print axioms Ethsnarks.C59_isoncurve
#print axioms Ethsnarks.C59_not_low_order
#print axioms Ethsnarks.C59_validator
#print axioms Ethsnarks.C59_scalarmult
#print axioms Ethsnarks.C59_montgomery_adder
#print axioms Ethsnarks.C59_montgomery_to_edwards
#print axioms Ethsnarks.C59_fixed_base_mul
#print axioms Ethsnarks.C59_commitment
#print axioms Ethsnarks.C59_fixed_base_mul_zcash
#print axioms Ethsnarks.C59_pedersen_hash
#print axioms Ethsnarks.C59_pedersen_hash_to_bits
#print axioms Ethsnarks.C59_hash_ram
#print axioms Ethsnarks.C59_pure_eddsa
#print axioms Ethsnarks.C59_eddsa
#print axioms Ethsnarks.C59_mimc_e5
#print axioms Ethsnarks.C59_mimc_e7
#print axioms Ethsnarks.C59_mimc_hash_e7
#print axioms Ethsnarks.C59_mimc_hash_e5
#print axioms Ethsnarks.C59_merkle_damgard
#print axioms Ethsnarks.C59_selector
#print axioms Ethsnarks.C59_merkle_path
#print axioms Ethsnarks.C59_merkle_authenticator
#print axioms Ethsnarks.C59_one_of_n
#print axioms Ethsnarks.C59_shamir_poly
#print axioms Ethsnarks.C59_shamir_poly_input
#print axioms Ethsnarks.C59_subadd
#print axioms Ethsnarks.C59_poseidon
#print axioms Ethsnarks.C59_sha256_many
#print axioms Ethsnarks.C59_sha256_full
#print axioms Ethsnarks.C59_compose
#print axioms Ethsnarks.C60_zero
#print axioms Ethsnarks.C60_one
#print axioms Ethsnarks.C60_two
#print axioms Ethsnarks.C60_codes
#print axioms Ethsnarks.C60_not_json
#print axioms Ethsnarks.C60_program
#print axioms Ethsnarks.C61_round_constants
#print axioms Ethsnarks.C61_round_counts
#print axioms Ethsnarks.C62_merkle_damgard
#print axioms Ethsnarks.C63_curve_order
#print axioms Ethsnarks.C63_generator_order
#print axioms Ethsnarks.C63_subgroup_iff
#print axioms Ethsnarks.C63_cofactor_cleared
#print axioms Ethsnarks.C63_subgroup_proper
#print axioms Ethsnarks.C64_exact
#print axioms Ethsnarks.C64_false
#print axioms Ethsnarks.C64_overflow_false
#print axioms Ethsnarks.C64_enough
#print axioms Ethsnarks.C65_point_injective
#print axioms Ethsnarks.C65_x_injective
#print axioms Ethsnarks.C65_gadget_binding
#print axioms Ethsnarks.C66_flatten
#print axioms Ethsnarks.C67_same_system_partial
#print axioms Ethsnarks.C67_zerop_false
#print axioms Ethsnarks.C67_assert_false
#print axioms Ethsnarks.C68_sha224
#print axioms Ethsnarks.C68_chunks
#print axioms Ethsnarks.C68_iv
#print axioms Ethsnarks.C69_scale
#print axioms Ethsnarks.C69_shift
#print axioms Ethsnarks.C70_zero_knowledge
#print axioms Ethsnarks.C71_unsatisfied_rejected
#print axioms Ethsnarks.C72_level_constants
#print axioms Ethsnarks.C72_messages_distinct
#print axioms Ethsnarks.C72_distinct
#print axioms Ethsnarks.C73_verdict
#print axioms Ethsnarks.C73_end_to_end
#print axioms Ethsnarks.C74_debug_proof
#print axioms Ethsnarks.C74_release_proof_partial
#print axioms Ethsnarks.C74_release_false
#print axioms Ethsnarks.C74_debug_vk_partial
#print axioms Ethsnarks.C74_release_vk_partial
#print axioms Ethsnarks.C74_empty_false
#print axioms Ethsnarks.C75_proof_false
#print axioms Ethsnarks.C75_vk_false
#print axioms Ethsnarks.C75_accepted_partial
#print axioms Ethsnarks.C75_off_curve_rejected
#print axioms Ethsnarks.C76_proof_partial
#print axioms Ethsnarks.C76_vk_partial
#print axioms Ethsnarks.C76_well_formed
#print axioms Ethsnarks.C76_only_json
#print axioms Ethsnarks.C77_pk
#print axioms Ethsnarks.C77_vk
#print axioms Ethsnarks.C77_pvk
#print axioms Ethsnarks.C77_proof
#print axioms Ethsnarks.C77_eq
#print axioms Ethsnarks.C77_file
#print axioms Ethsnarks.C77_missing_debug
#print axioms Ethsnarks.C77_missing_release_false
#print axioms Ethsnarks.C78_pipeline_partial
#print axioms Ethsnarks.C78_unwritable_false
#print axioms Ethsnarks.C78_same_file_false
#print axioms Ethsnarks.C78_codes
#print axioms Ethsnarks.C79_file_sound
#print axioms Ethsnarks.C79_file_complete
#print axioms Ethsnarks.C79_meaning_partial
#print axioms Ethsnarks.C79_missing
#print axioms Ethsnarks.C79_release_drops_gate_false
#print axioms Ethsnarks.C79_line_sound
#print axioms Ethsnarks.C79_line_complete
#print axioms Ethsnarks.C79_line_defined
#print axioms Ethsnarks.C79_long_word_false
#print axioms Ethsnarks.C79_input_sound
#print axioms Ethsnarks.C79_input_complete
#print axioms Ethsnarks.C79_two_separators_false
#print axioms Ethsnarks.C79_hex_text
#print axioms Ethsnarks.C80_eval_partial
#print axioms Ethsnarks.C80_usage
#print axioms Ethsnarks.C80_verify
#print axioms Ethsnarks.C80_end_to_end_partial
#print axioms Ethsnarks.C80_test_partial
#print axioms Ethsnarks.C80_test_unsatisfied
#print axioms Ethsnarks.C80_prove_unsatisfied_false
#print axioms Ethsnarks.C81_trace
#print axioms Ethsnarks.C81_print_roundtrip_partial
#print axioms Ethsnarks.C81_print_const_false
#print axioms Ethsnarks.C82_refines
#print axioms Ethsnarks.C82_file_sound
#print axioms Ethsnarks.C82_sound_partial
#print axioms Ethsnarks.C82_sized_sound_partial
#print axioms Ethsnarks.C82_sized_same
#print axioms Ethsnarks.C82_eval_partial
#print axioms Ethsnarks.C82_extra_operand_false
#print axioms Ethsnarks.C82_missing_operand_false
#print axioms Ethsnarks.C82_selector_false
#print axioms Ethsnarks.C82_zerop_one_output_false
#print axioms Ethsnarks.C83_no_outputs_partial
#print axioms Ethsnarks.C83_outputs_not_public_false
#print axioms Ethsnarks.C83_output_unbound_false
#print axioms Ethsnarks.C84_knowledge_sound
#print axioms Ethsnarks.C84_sound
#print axioms Ethsnarks.C84_honest_algebraic
#print axioms Ethsnarks.C84_complete
#print axioms Ethsnarks.C85_constants_e7
#print axioms Ethsnarks.C85_constants_e5
#print axioms Ethsnarks.C85_constants_python
#print axioms Ethsnarks.C85_constants_distinct
#print axioms Ethsnarks.C86_permutation_e7
#print axioms Ethsnarks.C86_permutation_e5
#print axioms Ethsnarks.C86_generated_e7_partial
#print axioms Ethsnarks.C86_generated_e5_partial
#print axioms Ethsnarks.C86_gadget_contract_e7
#print axioms Ethsnarks.C86_gadget_contract_e5
#print axioms Ethsnarks.C86_generated_false
#print axioms Ethsnarks.C86_mp_contract
#print axioms Ethsnarks.C86_md_contract
#print axioms Ethsnarks.C86_python
#print axioms Ethsnarks.C86_python_hash
#print axioms Ethsnarks.C87_parameters
#print axioms Ethsnarks.C87_pointAdd
#print axioms Ethsnarks.C87_pointDouble
#print axioms Ethsnarks.C87_scalarMult
#print axioms Ethsnarks.C87_gadget_contract
#print axioms Ethsnarks.C87_naf_partial
#print axioms Ethsnarks.C87_naf_reverts
#print axioms Ethsnarks.C87_naf_zero_false
#print axioms Ethsnarks.C87_generator
#print axioms Ethsnarks.C87_naf_unreduced_false
#print axioms Ethsnarks.C87_naf5_null_false
#print axioms Ethsnarks.C87_naf5_large_false
#print axioms Ethsnarks.C87_naf5_window
#print axioms Ethsnarks.C87_naf5_table
#print axioms Ethsnarks.C87_naf5_iff
#print axioms Ethsnarks.C88_wnaf
#print axioms Ethsnarks.C88_unique
#print axioms Ethsnarks.C88_overflow_false
#print axioms Ethsnarks.C89_verify_partial
#print axioms Ethsnarks.C89_equation_false
#print axioms Ethsnarks.C89_honest_false
#print axioms Ethsnarks.C89_forgery_false
#print axioms Ethsnarks.C90_root
#print axioms Ethsnarks.C90_proof
#print axioms Ethsnarks.C90_placeholder_accepted
#print axioms Ethsnarks.C90_reverts
#print axioms Ethsnarks.C90_path
#print axioms Ethsnarks.C90_gadget
#print axioms Ethsnarks.C90_membership
#print axioms Ethsnarks.C90_binding
#print axioms Ethsnarks.C90_alias_false
#print axioms Ethsnarks.C91_root
#print axioms Ethsnarks.C91_proof_partial
#print axioms Ethsnarks.C91_proof_binary
#print axioms Ethsnarks.C91_duplicate_false
#print axioms Ethsnarks.C91_overfull_false
#print axioms Ethsnarks.C91_full
#print axioms Ethsnarks.C91_level_constants
#print axioms Ethsnarks.C91_hash
#print axioms Ethsnarks.C91_contract
#print axioms Ethsnarks.C91_zero_false
#print axioms Ethsnarks.C91_gadget
#print axioms Ethsnarks.C92_exact
#print axioms Ethsnarks.C92_inputs
#print axioms Ethsnarks.C92_length
#print axioms Ethsnarks.C92_malleable_false
#print axioms Ethsnarks.C92_agrees_partial
#print axioms Ethsnarks.C92_vkx_false
#print axioms Ethsnarks.C92_vkx_witness
#print axioms Ethsnarks.C93_exact
#print axioms Ethsnarks.C93_alias_false
#print axioms Ethsnarks.C93_weak
#print axioms Ethsnarks.C93_agrees_partial
#print axioms Ethsnarks.C93_export
#print axioms Ethsnarks.C93_short_false
#print axioms Ethsnarks.C93_decimal_false
#print axioms Ethsnarks.C93_string_point_false
#print axioms Ethsnarks.C94_order
#print axioms Ethsnarks.C94_g1
#print axioms Ethsnarks.C94_wf1
#print axioms Ethsnarks.C94_g2_partial
#print axioms Ethsnarks.C94_subgroup_false
#print axioms Ethsnarks.C95_reverse
#print axioms Ethsnarks.C95_pack
#print axioms Ethsnarks.C95_injective
#print axioms Ethsnarks.C95_inputs
#print axioms Ethsnarks.C95_same_length_false
#print axioms Ethsnarks.C96_jacobi
#print axioms Ethsnarks.C96_jacobi_assert
#print axioms Ethsnarks.C96_sqrt
#print axioms Ethsnarks.C97_inverse
#print axioms Ethsnarks.C97_gcd2
#print axioms Ethsnarks.C97_gcd
#print axioms Ethsnarks.C97_lcm
#print axioms Ethsnarks.C98_accepted_partial
#print axioms Ethsnarks.C98_small_partial
#print axioms Ethsnarks.C98_prime_false
#print axioms Ethsnarks.C99_ring
#print axioms Ethsnarks.C99_mismatch
#print axioms Ethsnarks.C99_new
#print axioms Ethsnarks.C99_exp
#print axioms Ethsnarks.C99_field
#print axioms Ethsnarks.C99_sqrt
#print axioms Ethsnarks.C99_eq
#print axioms Ethsnarks.C99_eq_false
#print axioms Ethsnarks.C99_fr_inverse_false
#print axioms Ethsnarks.C99_bits
#print axioms Ethsnarks.C99_to_bytes
#print axioms Ethsnarks.C99_random
