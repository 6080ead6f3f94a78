{
 "claims": [
  {
   "property": "C01",
   "status": "proved",
   "theorems": [
    "Ethsnarks.C01_bytes_to_bv",
    "Ethsnarks.C01_roundtrip"
   ],
   "note": "All byte sequences; includes absence of out-of-bounds writes and an untouched tail of the output buffer."
  },
  {
   "property": "C02",
   "status": "proved",
   "theorems": [
    "Ethsnarks.C02_bit_list_to_ints"
   ],
   "note": "All bit vectors, word sizes 1..64."
  },
  {
   "property": "C03",
   "status": "partial",
   "theorems": [
    "Ethsnarks.C03_int_list_to_bits_false",
    "Ethsnarks.C03_int_list_to_bits_partial"
   ],
   "note": "The property is false: with two or more integers every call is undefined behaviour (C03_int_list_to_bits_false, includes the documented example). The single-integer case is proved."
  },
  {
   "property": "C04",
   "status": "proved",
   "theorems": [
    "Ethsnarks.C04_bytes_to_field",
    "Ethsnarks.C04_endianness",
    "Ethsnarks.C04_injective",
    "Ethsnarks.C04_too_long",
    "Ethsnarks.C04_collision_32"
   ],
   "note": "Value, byte order, injectivity up to 31 bytes, assertion above 32 bytes, and a collision at 32 bytes showing the bound is sharp."
  },
  {
   "property": "C05",
   "status": "proved",
   "theorems": [
    "Ethsnarks.C05_padding_values",
    "Ethsnarks.C05_rejects"
   ],
   "note": "Every message of whole bytes, every block size of at least 64 bits."
  },
  {
   "property": "C06",
   "status": "partial",
   "theorems": [
    "Ethsnarks.C06_padding_not_enforced_false",
    "Ethsnarks.C06_padding_enforced_partial"
   ],
   "note": "The property is false: the zero padding bits are unconstrained (C06_padding_not_enforced_false, for every message). The first bit and the 64-bit length are proved to be enforced."
  },
  {
   "property": "C07",
   "status": "proved",
   "theorems": [
    "Ethsnarks.C07_hex_ok",
    "Ethsnarks.C07_hex_ok_only",
    "Ethsnarks.C07_hex_length",
    "Ethsnarks.C07_hex_throws"
   ],
   "note": "Success, converse, length mismatch, bad digit."
  },
  {
   "property": "C08",
   "status": "proved",
   "theorems": [
    "Ethsnarks.C08_is_negative"
   ],
   "note": "All field elements."
  },
  {
   "property": "C09",
   "status": "proved",
   "theorems": [
    "Ethsnarks.C09_lookup1_sound",
    "Ethsnarks.C09_lookup1_complete",
    "Ethsnarks.C09_lookup1_ub",
    "Ethsnarks.C09_lookup1_selector_unconstrained",
    "Ethsnarks.C09_lookup1_size"
   ],
   "note": "Lookup1: exact soundness, completeness, frame, the out-of-bounds case, and a theorem that the selector must be range-checked by the caller."
  },
  {
   "property": "C10",
   "status": "proved",
   "theorems": [
    "Ethsnarks.C10_lookup2_sound",
    "Ethsnarks.C10_lookup2_complete",
    "Ethsnarks.C10_lookup2_nonbool"
   ],
   "note": "Lookup2: exact soundness, completeness, frame, assertion on non-boolean selectors."
  },
  {
   "property": "C11",
   "status": "proved",
   "theorems": [
    "Ethsnarks.C11_lookup3_sound",
    "Ethsnarks.C11_lookup3_complete"
   ],
   "note": "Lookup3: soundness, completeness, frame."
  },
  {
   "property": "C12",
   "status": "proved",
   "theorems": [
    "Ethsnarks.C12_lookupS3_sound",
    "Ethsnarks.C12_lookupS3_complete"
   ],
   "note": "Signed 3-bit lookup: soundness, completeness, frame."
  },
  {
   "property": "C13",
   "status": "proved",
   "theorems": [
    "Ethsnarks.C13_isnonzero_sound",
    "Ethsnarks.C13_isnonzero_complete"
   ],
   "note": "IsNonZero over any field: soundness, completeness, frame."
  },
  {
   "property": "C14",
   "status": "partial",
   "theorems": [
    "Ethsnarks.C14_field2bits_not_unique_false",
    "Ethsnarks.C14_field2bits_sound_partial",
    "Ethsnarks.C14_field2bits_complete"
   ],
   "note": "the decomposition is not unique: values below 2^254-r also satisfy with bits of x+r (C14_..._false); soundness up to that alias, uniqueness outside it, and completeness are proved"
  },
  {
   "property": "C15",
   "status": "proved",
   "theorems": [
    "Ethsnarks.C15_selector_sound",
    "Ethsnarks.C15_selector_complete",
    "Ethsnarks.C15_selector_nonboolean_false"
   ],
   "note": "C15_selector_nonboolean_false shows that is_right must be constrained by the caller"
  },
  {
   "property": "C16",
   "status": "proved",
   "theorems": [
    "Ethsnarks.C16_path_general",
    "Ethsnarks.C16_path_mimc",
    "Ethsnarks.C16_path_faults",
    "Ethsnarks.C16_ivs",
    "Ethsnarks.C16_ivs_unconstrained"
   ],
   "note": "level IVs are not constrained by the gadget (C16_ivs_unconstrained)"
  },
  {
   "property": "C17",
   "status": "proved",
   "theorems": [
    "Ethsnarks.C17_authenticator"
   ],
   "note": ""
  },
  {
   "property": "C18",
   "status": "proved",
   "theorems": [
    "Ethsnarks.C18_binding"
   ],
   "note": ""
  },
  {
   "property": "C19",
   "status": "proved",
   "theorems": [
    "Ethsnarks.C19_mimc_e7_sound",
    "Ethsnarks.C19_mimc_e5_sound",
    "Ethsnarks.C19_mimc_e7_complete",
    "Ethsnarks.C19_mimc_e5_complete",
    "Ethsnarks.C19_mimc_native",
    "Ethsnarks.C19_mimc_no_constants_ub"
   ],
   "note": ""
  },
  {
   "property": "C20",
   "status": "proved",
   "theorems": [
    "Ethsnarks.C20_mimc_bijective",
    "Ethsnarks.C20_mimc_native_unique",
    "Ethsnarks.C20_mimc_gadget_injective"
   ],
   "note": ""
  },
  {
   "property": "C21",
   "status": "proved",
   "theorems": [
    "Ethsnarks.C21_mimc_hash_e7",
    "Ethsnarks.C21_mimc_hash_e5",
    "Ethsnarks.C21_mimc_hash_native",
    "Ethsnarks.C21_mimc_hash_empty_ub"
   ],
   "note": ""
  },
  {
   "property": "C22",
   "status": "partial",
   "theorems": [
    "Ethsnarks.C22_constraints_first_false",
    "Ethsnarks.C22_witness_first_partial",
    "Ethsnarks.C22_our_item_free_false",
    "Ethsnarks.C22_complete_partial",
    "Ethsnarks.C22_reuse_false",
    "Ethsnarks.C22_empty"
   ],
   "note": "The property is false in several ways, each proved: coefficients are fixed when the constraints are generated, our_item is not tied to the items, and a re-used gadget keeps stale toggles. What does hold (constraints generated after the witness) is proved."
  },
  {
   "property": "C23",
   "status": "partial",
   "theorems": [
    "Ethsnarks.C23_shamir_false",
    "Ethsnarks.C23_shamir_sound_partial",
    "Ethsnarks.C23_shamir_complete_partial",
    "Ethsnarks.C23_shamir_two_ub",
    "Ethsnarks.C23_shamir_small"
   ],
   "note": "The property is false: the variable for x^1 is unconstrained so any result can be proved when a_1 is non-zero (C23_shamir_false), and two coefficients read out of bounds (C23_shamir_two_ub). The exact relation that is enforced, and completeness, are proved for three or more coefficients."
  },
  {
   "property": "C24",
   "status": "proved",
   "theorems": [
    "Ethsnarks.C24_subadd_sound",
    "Ethsnarks.C24_subadd_witness",
    "Ethsnarks.C24_subadd_needs_range_checks",
    "Ethsnarks.C24_subadd_too_wide"
   ],
   "note": "All widths accepted by the constructor (up to 252 bits, where uniqueness of the 254-bit packing needs the actual modulus); witness satisfies the constraints exactly when no underflow or overflow; the range check on inputs is shown to be necessary."
  },
  {
   "property": "C25",
   "status": "proved",
   "theorems": [
    "Ethsnarks.C25_poseidon_sound",
    "Ethsnarks.C25_poseidon_complete",
    "Ethsnarks.C25_permute",
    "Ethsnarks.C25_poseidon_few_rounds_ub",
    "Ethsnarks.C25_size"
   ],
   "note": "All widths, S-box counts, round counts (at least four full and one partial round; below that the constructor is undefined behaviour, proved as C25_poseidon_few_rounds_ub), inputs, outputs, constants and matrices, with and without constrained outputs; also the native permute()."
  },
  {
   "property": "C26",
   "status": "proved",
   "theorems": [
    "Ethsnarks.C26_cauchy_injective",
    "Ethsnarks.C26_cauchy_det",
    "Ethsnarks.C26_matrix_fill",
    "Ethsnarks.C26_matrix_equal_constants",
    "Ethsnarks.C26_poseidon_bijective"
   ],
   "note": "Cauchy matrix invertible for distinct constants, the code's matrix is that matrix, equal constants fail, and the permutation over the scalar field is a bijection; for the default seeds the constants are distinct (C113)."
  },
  {
   "property": "C27",
   "status": "partial",
   "theorems": [
    "Ethsnarks.C27_sha256_many_witness",
    "Ethsnarks.C27_sha256_many_sound_partial",
    "Ethsnarks.C27_sha256_many_sound_false"
   ],
   "note": "Completeness and the value of the witness are proved in full for every message; the converse (constraints force the hash) is false because the zero padding bits are unconstrained: proved as C27_sha256_many_sound_false, with what does hold as C27_sha256_many_sound_partial. The libsnark compression gadget is a parameter with an explicit contract (CompressOK)."
  },
  {
   "property": "C28",
   "status": "partial",
   "theorems": [
    "Ethsnarks.C28_sha256_full_witness",
    "Ethsnarks.C28_sha256_full_sound_partial",
    "Ethsnarks.C28_sha256_full_sound_false",
    "Ethsnarks.C28_witness_block_skips_final"
   ],
   "note": "The property is false of the code: the padding block variables are assigned but never constrained (C28_sha256_full_sound_false). Completeness holds in full and soundness holds for the constructed padding values (C28_sha256_full_sound_partial)."
  },
  {
   "property": "C29",
   "status": "proved",
   "theorems": [
    "Ethsnarks.C29_adder_sound",
    "Ethsnarks.C29_adder_closed",
    "Ethsnarks.C29_adder_complete",
    "Ethsnarks.C29_no_exceptions"
   ],
   "note": "soundness without any hypothesis on the inputs (the parameters make every satisfying assignment equal to the addition law); completeness on curve points; Baby Jubjub's parameters are proved complete"
  },
  {
   "property": "C30",
   "status": "proved",
   "theorems": [
    "Ethsnarks.C30_doubler_sound",
    "Ethsnarks.C30_doubler_complete"
   ],
   "note": "as C29"
  },
  {
   "property": "C31",
   "status": "proved",
   "theorems": [
    "Ethsnarks.C31_conditional_iff",
    "Ethsnarks.C31_conditional_complete"
   ],
   "note": "the point need not be on the curve"
  },
  {
   "property": "C32",
   "status": "proved",
   "theorems": [
    "Ethsnarks.C32_isoncurve_sound",
    "Ethsnarks.C32_isoncurve_complete"
   ],
   "note": ""
  },
  {
   "property": "C33",
   "status": "proved",
   "theorems": [
    "Ethsnarks.C33_loworder_points",
    "Ethsnarks.C33_notloworder_sound",
    "Ethsnarks.C33_notloworder_complete",
    "Ethsnarks.C33_validator_sound",
    "Ethsnarks.C33_validator_complete"
   ],
   "note": "exactly the eight points listed in notloworder.hpp are rejected; no point of order 16 exists"
  },
  {
   "property": "C34",
   "status": "proved",
   "theorems": [
    "Ethsnarks.C34_accepts",
    "Ethsnarks.C34_scalarmult_sound",
    "Ethsnarks.C34_scalarmult_complete"
   ],
   "note": "for every bit length the constructor accepts"
  },
  {
   "property": "C35",
   "status": "partial",
   "theorems": [
    "Ethsnarks.C35_accepts",
    "Ethsnarks.C35_odd",
    "Ethsnarks.C35_fixed_base_sound_partial",
    "Ethsnarks.C35_fixed_base_complete_partial",
    "Ethsnarks.C35_short_scalar_false"
   ],
   "note": "Soundness, completeness, frame for every even length of at least four bits. The full statement is false at 0 and 2 bits: the constructor accepts them but the result is undefined behaviour (C35_short_scalar_false)."
  },
  {
   "property": "C36",
   "status": "proved",
   "theorems": [
    "Ethsnarks.C36_accepts",
    "Ethsnarks.C36_one_window_false",
    "Ethsnarks.C36_sound",
    "Ethsnarks.C36_complete"
   ],
   "note": "All window counts from two up; base points of order l, for which no Montgomery addition is exceptional. A single window is undefined behaviour in the constructor (C36_one_window_false)."
  },
  {
   "property": "C37",
   "status": "proved",
   "theorems": [
    "Ethsnarks.C37_adder_sound",
    "Ethsnarks.C37_adder_chord",
    "Ethsnarks.C37_adder_complete",
    "Ethsnarks.C37_adder_equal_false",
    "Ethsnarks.C37_adder_equal_witness",
    "Ethsnarks.C37_to_edwards_sound",
    "Ethsnarks.C37_to_edwards_complete",
    "Ethsnarks.C37_to_edwards_zero_false"
   ],
   "note": "Sound and complete for operands with different x-coordinates; the exceptional operands (equal x, the point (0,0)) are shown to leave the outputs unconstrained."
  },
  {
   "property": "C38",
   "status": "partial",
   "theorems": [
    "Ethsnarks.C38_accepts",
    "Ethsnarks.C38_hash_sound",
    "Ethsnarks.C38_hash_complete",
    "Ethsnarks.C38_tobits_complete",
    "Ethsnarks.C38_tobits_sound_partial",
    "Ethsnarks.C38_tobits_alias_false"
   ],
   "note": "PedersenHash: sound and complete for every accepted message length. PedersenHashToBits: complete with canonical bits; sound up to one alias (C38_tobits_sound_partial); the claim that the bits are canonical is false (C38_tobits_alias_false) because field2bits_strict does not constrain its comparison result."
  },
  {
   "property": "C39",
   "status": "proved",
   "theorems": [
    "Ethsnarks.C39_homomorphic",
    "Ethsnarks.C39_accepts",
    "Ethsnarks.C39_commitment_sound",
    "Ethsnarks.C39_commitment_complete"
   ],
   "note": "Every list of at least two bases: exact acceptance condition, soundness, completeness, frame, additive homomorphism."
  },
  {
   "property": "C40",
   "status": "partial",
   "theorems": [
    "Ethsnarks.C40_pure_message_length",
    "Ethsnarks.C40_pure_exact",
    "Ethsnarks.C40_pure_sound_partial",
    "Ethsnarks.C40_pure_complete",
    "Ethsnarks.C40_honest",
    "Ethsnarks.C40_malleable_false",
    "Ethsnarks.C40_neutral_key_false",
    "Ethsnarks.C40_alias_false",
    "Ethsnarks.C40_eddsa_exact",
    "Ethsnarks.C40_open_pure",
    "Ethsnarks.C40_open_eddsa",
    "Ethsnarks.C40_pure_accepts",
    "Ethsnarks.C40_open_honest",
    "Ethsnarks.C40_open_pure_valid",
    "Ethsnarks.C40_open_eddsa_valid"
   ],
   "note": "Satisfiability of PureEdDSA and EdDSA is characterised exactly; honest signatures verify; eddsa_open's verdict is the verification equation. The full claim fails: representatives may be aliased (C40_alias_false), s is malleable (C40_malleable_false), the neutral key is accepted (C40_neutral_key_false). A on the curve and boolean bits of s and the message are assumptions, since the gadgets do not constrain them."
  },
  {
   "property": "C41",
   "status": "proved",
   "theorems": [
    "Ethsnarks.C41_add",
    "Ethsnarks.C41_group"
   ],
   "note": ""
  },
  {
   "property": "C42",
   "status": "proved",
   "theorems": [
    "Ethsnarks.C42_as_montgomery",
    "Ethsnarks.C42_as_edwards",
    "Ethsnarks.C42_v_zero"
   ],
   "note": "Domain of both conversions characterised exactly; mutually inverse."
  },
  {
   "property": "C43",
   "status": "proved",
   "theorems": [
    "Ethsnarks.C43_from_y",
    "Ethsnarks.C43_from_y_total",
    "Ethsnarks.C43_from_y_none",
    "Ethsnarks.C43_from_y_root_independent",
    "Ethsnarks.C43_from_hash",
    "Ethsnarks.C43_make_basepoints",
    "Ethsnarks.C43_message_format",
    "Ethsnarks.C43_message_injective",
    "Ethsnarks.C43_trailing_space_false"
   ],
   "note": "Proved: from_y_always returns a point of the curve with the first y at or after the given one that lies on the curve; from_hash and the base points are in the prime order subgroup; the message-to-hash encoding is injective up to trailing spaces. C43_trailing_space_false shows names differing in trailing spaces collide. libff's sqrt(0) and giving up after finitely many tries are separate outcomes in the model."
  },
  {
   "property": "C44",
   "status": "partial",
   "theorems": [
    "Ethsnarks.C44_sound_partial",
    "Ethsnarks.C44_wires",
    "Ethsnarks.C44_zerop_false",
    "Ethsnarks.C44_lines",
    "Ethsnarks.C44_const_mul"
   ],
   "note": "C44_sound_partial: every instruction of an accepted circuit except zerop and 3-input tables means what it says in every satisfying assignment; C44_lines ties instructions to circuit lines, C44_const_mul the constants. False for zerop (C44_zerop_false) and 3-input tables (C48_table3_output_free_false). The text level is C79, the release build C82."
  },
  {
   "property": "C45",
   "status": "partial",
   "theorems": [
    "Ethsnarks.C45_eval_satisfies_partial"
   ],
   "note": "C45_eval_satisfies_partial: evaluation satisfies all constraints for ordered circuits without zerop/3-input tables. False otherwise: C47_eval_never_satisfies_false, C48_eval_never_satisfies_false."
  },
  {
   "property": "C46",
   "status": "partial",
   "theorems": [
    "Ethsnarks.C46_primary_partial",
    "Ethsnarks.C46_secret_published_false",
    "Ethsnarks.C46_duplicate_false"
   ],
   "note": "C46_primary_partial holds when input lines come first and name distinct wires. False otherwise: C46_secret_published_false (nizkinput declared first is published), C46_duplicate_false."
  },
  {
   "property": "C47",
   "status": "partial",
   "theorems": [
    "Ethsnarks.C47_first_output_partial",
    "Ethsnarks.C47_eval_never_satisfies_false",
    "Ethsnarks.C47_eval_example_false"
   ],
   "note": "zerop constrains its first output but evaluates its second: C47_first_output_partial, C44_zerop_false, C47_eval_never_satisfies_false."
  },
  {
   "property": "C48",
   "status": "partial",
   "theorems": [
    "Ethsnarks.C48_table12_partial",
    "Ethsnarks.C48_table3_output_free_false",
    "Ethsnarks.C48_eval_never_satisfies_false"
   ],
   "note": "1- and 2-input tables proved (C48_table12_partial); 3-input tables leave the output free (C48_table3_output_free_false) and evaluation does not satisfy them (C48_eval_never_satisfies_false)."
  },
  {
   "property": "C49",
   "status": "partial",
   "theorems": [
    "Ethsnarks.C49_generator_returns",
    "Ethsnarks.C49_completeness_partial",
    "Ethsnarks.C49_release",
    "Ethsnarks.C49_debug_returns",
    "Ethsnarks.C49_debug_abort_false"
   ],
   "note": "True for release builds (NDEBUG), proved in full for every constraint system, witness and randomness (C49_release); for debug builds every proof the prover returns is accepted (C49_completeness_partial), but the prover stops at its assertion on the top coefficient of H for some satisfying witnesses: C49_debug_returns says exactly when, C49_debug_abort_false gives the counterexamples. The pairing library and evaluation domain enter through the contracts in Spec/Pairing.lean."
  },
  {
   "property": "C50",
   "status": "proved",
   "theorems": [
    "Ethsnarks.C50_wrong_length",
    "Ethsnarks.C50_right_length",
    "Ethsnarks.C50_weak_long",
    "Ethsnarks.C50_weak_short"
   ],
   "note": ""
  },
  {
   "property": "C51",
   "status": "proved",
   "theorems": [
    "Ethsnarks.C51_equation",
    "Ethsnarks.C51_processed",
    "Ethsnarks.C51_affine",
    "Ethsnarks.C51_ill_formed"
   ],
   "note": "Contract of the pairing library in Spec/Pairing.lean; points outside the groups are only assumed to be reported by is_well_formed (subgroup membership in G2 is not checked by the code and not assumed)."
  },
  {
   "property": "C52",
   "status": "partial",
   "theorems": [
    "Ethsnarks.C52_roundtrip_partial",
    "Ethsnarks.C52_inputs",
    "Ethsnarks.C52_infinity_false",
    "Ethsnarks.C52_g2_unnormalised",
    "Ethsnarks.C52_g2_false"
   ],
   "note": "Round trip proved at the level of characters (own JSON parser model, hex printing, mpz parsing, Montgomery reduction) for every proof whose points are exportable: not the point at infinity, and G2 representations with Z = 1 or both coordinates of Z non-zero. The negation is proved for the point at infinity (exported as (0,1), which is not on the curve) and for a G2 generator with Z = 2, which is exported unnormalised. Public inputs round trip unconditionally."
  },
  {
   "property": "C53",
   "status": "partial",
   "theorems": [
    "Ethsnarks.C53_roundtrip_partial",
    "Ethsnarks.C53_length",
    "Ethsnarks.C53_infinity_false",
    "Ethsnarks.C53_empty_false"
   ],
   "note": "Same as C52 for verification keys of any number of inputs; negations proved for the point at infinity and for an empty gammaABC array (undefined behaviour in vk_from_json)."
  },
  {
   "property": "C54",
   "status": "partial",
   "theorems": [
    "Ethsnarks.C54_numerals_partial",
    "Ethsnarks.C54_texts_false",
    "Ethsnarks.C54_export_injective",
    "Ethsnarks.C54_alias_false",
    "Ethsnarks.C54_two_lists_false",
    "Ethsnarks.C54_value_partial",
    "Ethsnarks.C54_negative_false",
    "Ethsnarks.C54_overflow_false"
   ],
   "note": "Export is injective, and a text that parses to a number below r denotes that number. The statement itself is false: for every x and k < 5 the text of x + k r denotes x (in both builds), so two different lists denote the same inputs; release builds also take a leading minus sign and truncate numbers over 256 bits. All negations proved with witnesses."
  },
  {
   "property": "C55",
   "status": "proved",
   "theorems": [
    "Ethsnarks.C55_sha256",
    "Ethsnarks.C55_length",
    "Ethsnarks.C55_constants",
    "Ethsnarks.C55_iv"
   ],
   "note": "for every byte string and every content of the uninitialised context, no out-of-bounds access; the constants of the specification are proved to be the roots of primes the standard names"
  },
  {
   "property": "C56",
   "status": "proved",
   "theorems": [
    "Ethsnarks.C56_chunks",
    "Ethsnarks.C56_same"
   ],
   "note": "any sequence of updates"
  },
  {
   "property": "C57",
   "status": "proved",
   "theorems": [
    "Ethsnarks.C57_chunks"
   ],
   "note": "any sequence of updates, with or without a key"
  },
  {
   "property": "C58",
   "status": "proved",
   "theorems": [
    "Ethsnarks.C58_blake2b",
    "Ethsnarks.C58_illegal",
    "Ethsnarks.C58_accepts",
    "Ethsnarks.C58_length",
    "Ethsnarks.C58_iv"
   ],
   "note": "every key, message and digest length; -1 exactly on illegal parameters; no out-of-bounds access"
  },
  {
   "property": "C59",
   "status": "proved",
   "theorems": [
    "Ethsnarks.C59_lookup1",
    "Ethsnarks.C59_lookup2",
    "Ethsnarks.C59_lookup3",
    "Ethsnarks.C59_lookup_signed3",
    "Ethsnarks.C59_isnonzero",
    "Ethsnarks.C59_field2bits",
    "Ethsnarks.C59_point_adder",
    "Ethsnarks.C59_point_doubler",
    "Ethsnarks.C59_conditional_point",
    "Ethsnarks.C59_isoncurve",
    "Ethsnarks.C59_not_low_order",
    "Ethsnarks.C59_validator",
    "Ethsnarks.C59_scalarmult",
    "Ethsnarks.C59_montgomery_adder",
    "Ethsnarks.C59_montgomery_to_edwards",
    "Ethsnarks.C59_fixed_base_mul",
    "Ethsnarks.C59_commitment",
    "Ethsnarks.C59_fixed_base_mul_zcash",
    "Ethsnarks.C59_pedersen_hash",
    "Ethsnarks.C59_pedersen_hash_to_bits",
    "Ethsnarks.C59_hash_ram",
    "Ethsnarks.C59_pure_eddsa",
    "Ethsnarks.C59_eddsa",
    "Ethsnarks.C59_mimc_e5",
    "Ethsnarks.C59_mimc_e7",
    "Ethsnarks.C59_mimc_hash_e7",
    "Ethsnarks.C59_mimc_hash_e5",
    "Ethsnarks.C59_merkle_damgard",
    "Ethsnarks.C59_selector",
    "Ethsnarks.C59_merkle_path",
    "Ethsnarks.C59_merkle_authenticator",
    "Ethsnarks.C59_one_of_n",
    "Ethsnarks.C59_shamir_poly",
    "Ethsnarks.C59_shamir_poly_input",
    "Ethsnarks.C59_subadd",
    "Ethsnarks.C59_poseidon",
    "Ethsnarks.C59_sha256_many",
    "Ethsnarks.C59_sha256_full",
    "Ethsnarks.C59_compose"
   ],
   "note": "Every gadget's witness generator writes only the variables the gadget allocated, whatever the assignment it is run on. Stated exceptions: shamir_poly takes its input variable and also writes it; sha256_full also writes the caller's output digest; libsnark's SHA-256 compression gadget is a parameter assumed to have the same property."
  },
  {
   "property": "C60",
   "status": "proved",
   "theorems": [
    "Ethsnarks.C60_zero",
    "Ethsnarks.C60_one",
    "Ethsnarks.C60_two",
    "Ethsnarks.C60_codes",
    "Ethsnarks.C60_not_json",
    "Ethsnarks.C60_program"
   ],
   "note": "Exact characterisation of exit codes 0, 1, 2 for every argument vector and file contents, no other code; text that is not JSON leaves the program by an exception; verify.cpp's main agrees with it on what verifies."
  },
  {
   "property": "C61",
   "status": "proved",
   "theorems": [
    "Ethsnarks.C61_round_constants",
    "Ethsnarks.C61_round_counts"
   ],
   "note": "sha3 is a parameter"
  },
  {
   "property": "C62",
   "status": "proved",
   "theorems": [
    "Ethsnarks.C62_merkle_damgard"
   ],
   "note": "result() of this class does not type-check in C++; the last cipher's result is used"
  },
  {
   "property": "C63",
   "status": "proved",
   "theorems": [
    "Ethsnarks.C63_curve_order",
    "Ethsnarks.C63_generator_order",
    "Ethsnarks.C63_subgroup_iff",
    "Ethsnarks.C63_cofactor_cleared",
    "Ethsnarks.C63_subgroup_proper"
   ],
   "note": "The point count is proved from generators of coprime orders and the bound 2r; no trusted point-counting."
  },
  {
   "property": "C64",
   "status": "partial",
   "theorems": [
    "Ethsnarks.C64_exact",
    "Ethsnarks.C64_false",
    "Ethsnarks.C64_overflow_false",
    "Ethsnarks.C64_enough"
   ],
   "note": "Exact up to 2^24 bits (C64_exact); false in general: C64_false and C64_overflow_false give a length where the float division loses a base point and the constructor reads out of bounds."
  },
  {
   "property": "C65",
   "status": "proved",
   "theorems": [
    "Ethsnarks.C65_point_injective",
    "Ethsnarks.C65_x_injective",
    "Ethsnarks.C65_gadget_binding"
   ],
   "note": "Specification-level injectivity and its transfer to satisfying assignments of the gadget."
  },
  {
   "property": "C66",
   "status": "proved",
   "theorems": [
    "Ethsnarks.C66_flatten"
   ],
   "note": "For every list of vectors."
  },
  {
   "property": "C67",
   "status": "partial",
   "theorems": [
    "Ethsnarks.C67_same_system_partial",
    "Ethsnarks.C67_zerop_false",
    "Ethsnarks.C67_assert_false"
   ],
   "note": "C67_same_system_partial for closed circuits without zerop/3-input tables. False in general: C67_zerop_false, C67_assert_false."
  },
  {
   "property": "C68",
   "status": "proved",
   "theorems": [
    "Ethsnarks.C68_sha224",
    "Ethsnarks.C68_chunks",
    "Ethsnarks.C68_iv"
   ],
   "note": "one call and any sequence of updates"
  },
  {
   "property": "C69",
   "status": "proved",
   "theorems": [
    "Ethsnarks.C69_scale",
    "Ethsnarks.C69_shift"
   ],
   "note": ""
  },
  {
   "property": "C70",
   "status": "proved",
   "theorems": [
    "Ethsnarks.C70_zero_knowledge"
   ],
   "note": "Statement about discrete logarithms and the release build; a debug build additionally aborts on some witnesses (C49), which is observable."
  },
  {
   "property": "C71",
   "status": "proved",
   "theorems": [
    "Ethsnarks.C71_unsatisfied_rejected"
   ],
   "note": ""
  },
  {
   "property": "C72",
   "status": "proved",
   "theorems": [
    "Ethsnarks.C72_level_constants",
    "Ethsnarks.C72_messages_distinct",
    "Ethsnarks.C72_distinct"
   ],
   "note": "the whole table, against SHA-256 as specified in FIPS 180-4 (C55 proves the code's SHA-256 equal to the same specification)"
  },
  {
   "property": "C73",
   "status": "proved",
   "theorems": [
    "Ethsnarks.C73_verdict",
    "Ethsnarks.C73_end_to_end"
   ],
   "note": "Assumes the pairing contract (Spec/Pairing) and that group membership and discrete logarithm depend on the affine point only; non-vacuity by a pairing on the actual Jacobian representations into the complex roots of unity."
  },
  {
   "property": "C74",
   "status": "partial",
   "theorems": [
    "Ethsnarks.C74_debug_proof",
    "Ethsnarks.C74_release_proof_partial",
    "Ethsnarks.C74_release_false",
    "Ethsnarks.C74_debug_vk_partial",
    "Ethsnarks.C74_release_vk_partial",
    "Ethsnarks.C74_empty_false"
   ],
   "note": "False as stated: C74_release_false, C74_empty_false. Proved: no text is undefined behaviour for the proof importer in debug builds; elsewhere a value or an exception unless an array is too short or gammaABC is empty."
  },
  {
   "property": "C75",
   "status": "partial",
   "theorems": [
    "Ethsnarks.C75_proof_false",
    "Ethsnarks.C75_vk_false",
    "Ethsnarks.C75_accepted_partial",
    "Ethsnarks.C75_off_curve_rejected"
   ],
   "note": "False for the importers (C75_proof_false, C75_vk_false). Proved: a proof accepted by stub_verify has its points on the curves, given that the library's well-formedness check implies the curve equation."
  },
  {
   "property": "C76",
   "status": "partial",
   "theorems": [
    "Ethsnarks.C76_proof_partial",
    "Ethsnarks.C76_vk_partial",
    "Ethsnarks.C76_well_formed",
    "Ethsnarks.C76_only_json"
   ],
   "note": "Proved for points the format can carry (not infinity; G2 representations the exporter handles, see C52); the texts are well-formed JSON for all points."
  },
  {
   "property": "C77",
   "status": "partial",
   "theorems": [
    "Ethsnarks.C77_pk",
    "Ethsnarks.C77_vk",
    "Ethsnarks.C77_pvk",
    "Ethsnarks.C77_proof",
    "Ethsnarks.C77_eq",
    "Ethsnarks.C77_file",
    "Ethsnarks.C77_missing_debug",
    "Ethsnarks.C77_missing_release_false"
   ],
   "note": "Round trips and equality proved for all keys under the contract Codecs.OK for the library's operators; that a missing file is reported is false in release builds (C77_missing_release_false)."
  },
  {
   "property": "C78",
   "status": "partial",
   "theorems": [
    "Ethsnarks.C78_pipeline_partial",
    "Ethsnarks.C78_unwritable_false",
    "Ethsnarks.C78_same_file_false",
    "Ethsnarks.C78_codes"
   ],
   "note": "The chain is proved (C78_pipeline_partial) for points the text format can carry; that exit code 0 means both files exist is false (C78_unwritable_false, C78_same_file_false)."
  },
  {
   "property": "C79",
   "status": "partial",
   "theorems": [
    "Ethsnarks.C79_file_sound",
    "Ethsnarks.C79_file_complete",
    "Ethsnarks.C79_meaning_partial",
    "Ethsnarks.C79_missing",
    "Ethsnarks.C79_release_drops_gate_false",
    "Ethsnarks.C79_line_sound",
    "Ethsnarks.C79_line_complete",
    "Ethsnarks.C79_line_defined",
    "Ethsnarks.C79_long_word_false",
    "Ethsnarks.C79_input_sound",
    "Ethsnarks.C79_input_complete",
    "Ethsnarks.C79_two_separators_false",
    "Ethsnarks.C79_hex_text"
   ],
   "note": "The reader is proved sound and complete against the grammar, for lines and files; that no text overruns a buffer and that every unreadable line is reported are false (C79_long_word_false, C79_two_separators_false, C79_release_drops_gate_false)."
  },
  {
   "property": "C80",
   "status": "partial",
   "theorems": [
    "Ethsnarks.C80_eval_partial",
    "Ethsnarks.C80_usage",
    "Ethsnarks.C80_verify",
    "Ethsnarks.C80_end_to_end_partial",
    "Ethsnarks.C80_test_partial",
    "Ethsnarks.C80_test_unsatisfied",
    "Ethsnarks.C80_prove_unsatisfied_false"
   ],
   "note": "end to end (genkeys, prove, verify) for honest inputs, eval output, test verdicts, usage codes; partial because of zerop, three-input tables, exportability of points at infinity and the release-build prove that does not refuse unsatisfied inputs (negation proved)"
  },
  {
   "property": "C81",
   "status": "partial",
   "theorems": [
    "Ethsnarks.C81_trace",
    "Ethsnarks.C81_print_roundtrip_partial",
    "Ethsnarks.C81_print_const_false"
   ],
   "note": "trace = blocks + eval output for every circuit; printed lines read back except the two multiplications by a constant (negation proved)"
  },
  {
   "property": "C82",
   "status": "partial",
   "theorems": [
    "Ethsnarks.C82_refines",
    "Ethsnarks.C82_file_sound",
    "Ethsnarks.C82_sound_partial",
    "Ethsnarks.C82_sized_sound_partial",
    "Ethsnarks.C82_sized_same",
    "Ethsnarks.C82_eval_partial",
    "Ethsnarks.C82_extra_operand_false",
    "Ethsnarks.C82_missing_operand_false",
    "Ethsnarks.C82_selector_false",
    "Ethsnarks.C82_zerop_one_output_false"
   ],
   "note": "the builds agree up to failed assertions; circuits with the documented numbers of wires are sound and satisfied by evaluation in both builds; negations for malformed circuits in release builds"
  },
  {
   "property": "C83",
   "status": "partial",
   "theorems": [
    "Ethsnarks.C83_no_outputs_partial",
    "Ethsnarks.C83_outputs_not_public_false",
    "Ethsnarks.C83_output_unbound_false"
   ],
   "note": "holds without output lines; false for every accepted circuit with an output line"
  },
  {
   "property": "C84",
   "status": "proved",
   "theorems": [
    "Ethsnarks.C84_knowledge_sound",
    "Ethsnarks.C84_sound",
    "Ethsnarks.C84_honest_algebraic",
    "Ethsnarks.C84_complete"
   ],
   "note": "Coefficients are fixed before the keys are drawn (generic-group form of knowledge soundness); statement about discrete logarithms."
  },
  {
   "property": "C85",
   "status": "proved",
   "theorems": [
    "Ethsnarks.C85_constants_e7",
    "Ethsnarks.C85_constants_e5",
    "Ethsnarks.C85_constants_python",
    "Ethsnarks.C85_constants_distinct"
   ],
   "note": "Keccak-256 specified after FIPS 202 with the original padding; sha3.c itself is not in the repository."
  },
  {
   "property": "C86",
   "status": "partial",
   "theorems": [
    "Ethsnarks.C86_permutation_e7",
    "Ethsnarks.C86_permutation_e5",
    "Ethsnarks.C86_generated_e7_partial",
    "Ethsnarks.C86_generated_e5_partial",
    "Ethsnarks.C86_gadget_contract_e7",
    "Ethsnarks.C86_gadget_contract_e5",
    "Ethsnarks.C86_generated_false",
    "Ethsnarks.C86_mp_contract",
    "Ethsnarks.C86_md_contract",
    "Ethsnarks.C86_python",
    "Ethsnarks.C86_python_hash"
   ],
   "note": "Holds for all words for MiMC_permutation.sol and Python, for reduced arguments for the generated contracts; false for the generated contracts on 2^256-1 (C86_generated_false)."
  },
  {
   "property": "C87",
   "status": "partial",
   "theorems": [
    "Ethsnarks.C87_parameters",
    "Ethsnarks.C87_pointAdd",
    "Ethsnarks.C87_pointDouble",
    "Ethsnarks.C87_scalarMult",
    "Ethsnarks.C87_gadget_contract",
    "Ethsnarks.C87_naf_partial",
    "Ethsnarks.C87_naf_reverts",
    "Ethsnarks.C87_naf_zero_false",
    "Ethsnarks.C87_generator",
    "Ethsnarks.C87_naf_unreduced_false",
    "Ethsnarks.C87_naf5_null_false",
    "Ethsnarks.C87_naf5_large_false",
    "Ethsnarks.C87_naf5_window",
    "Ethsnarks.C87_naf5_table",
    "Ethsnarks.C87_naf5_iff"
   ],
   "note": "false for scalarMultNAF (0, unreduced points) and scalarMultNAF5; everything else for all inputs"
  },
  {
   "property": "C88",
   "status": "partial",
   "theorems": [
    "Ethsnarks.C88_wnaf",
    "Ethsnarks.C88_unique",
    "Ethsnarks.C88_overflow_false"
   ],
   "note": "false for values above 2^256 - 2^(w-1) (C88_overflow_false)"
  },
  {
   "property": "C89",
   "status": "partial",
   "theorems": [
    "Ethsnarks.C89_verify_partial",
    "Ethsnarks.C89_equation_false",
    "Ethsnarks.C89_honest_false",
    "Ethsnarks.C89_forgery_false"
   ],
   "note": "the contract checks another equation; that one is characterised for all inputs"
  },
  {
   "property": "C90",
   "status": "partial",
   "theorems": [
    "Ethsnarks.C90_root",
    "Ethsnarks.C90_proof",
    "Ethsnarks.C90_placeholder_accepted",
    "Ethsnarks.C90_reverts",
    "Ethsnarks.C90_path",
    "Ethsnarks.C90_gadget",
    "Ethsnarks.C90_membership",
    "Ethsnarks.C90_binding",
    "Ethsnarks.C90_alias_false"
   ],
   "note": "false for unreduced words (C90_alias_false); proved for reduced leaves, assuming that no full subtree hashes to 0"
  },
  {
   "property": "C91",
   "status": "partial",
   "theorems": [
    "Ethsnarks.C91_root",
    "Ethsnarks.C91_proof_partial",
    "Ethsnarks.C91_proof_binary",
    "Ethsnarks.C91_duplicate_false",
    "Ethsnarks.C91_overfull_false",
    "Ethsnarks.C91_full",
    "Ethsnarks.C91_level_constants",
    "Ethsnarks.C91_hash",
    "Ethsnarks.C91_contract",
    "Ethsnarks.C91_zero_false",
    "Ethsnarks.C91_gadget"
   ],
   "note": "false for repeated elements in wide trees, beyond the capacity and for the leaf 0; proved otherwise"
  },
  {
   "property": "C92",
   "status": "partial",
   "theorems": [
    "Ethsnarks.C92_exact",
    "Ethsnarks.C92_inputs",
    "Ethsnarks.C92_length",
    "Ethsnarks.C92_malleable_false",
    "Ethsnarks.C92_agrees_partial",
    "Ethsnarks.C92_vkx_false",
    "Ethsnarks.C92_vkx_witness"
   ],
   "note": "exact characterisation proved; agreement with the C++ verifier except when the input commitment is the point at infinity, where the contract reverts (C92_vkx_witness)"
  },
  {
   "property": "C93",
   "status": "partial",
   "theorems": [
    "Ethsnarks.C93_exact",
    "Ethsnarks.C93_alias_false",
    "Ethsnarks.C93_weak",
    "Ethsnarks.C93_agrees_partial",
    "Ethsnarks.C93_export",
    "Ethsnarks.C93_short_false",
    "Ethsnarks.C93_decimal_false",
    "Ethsnarks.C93_string_point_false"
   ],
   "note": "exact characterisation and agreement on exported files proved; false for too few inputs (C93_short_false)"
  },
  {
   "property": "C94",
   "status": "partial",
   "theorems": [
    "Ethsnarks.C94_order",
    "Ethsnarks.C94_g1",
    "Ethsnarks.C94_wf1",
    "Ethsnarks.C94_g2_partial",
    "Ethsnarks.C94_subgroup_false"
   ],
   "note": "order of the curve and completeness of the check proved for the first group; false for the second group (C94_subgroup_false)"
  },
  {
   "property": "C95",
   "status": "proved",
   "theorems": [
    "Ethsnarks.C95_reverse",
    "Ethsnarks.C95_pack",
    "Ethsnarks.C95_injective",
    "Ethsnarks.C95_inputs",
    "Ethsnarks.C95_same_length_false"
   ],
   "note": "the reading of the comment (N words to N words without loss) is refuted by C95_same_length_false"
  },
  {
   "property": "C96",
   "status": "proved",
   "theorems": [
    "Ethsnarks.C96_jacobi",
    "Ethsnarks.C96_jacobi_assert",
    "Ethsnarks.C96_sqrt"
   ],
   "note": "all primes, all residues"
  },
  {
   "property": "C97",
   "status": "proved",
   "theorems": [
    "Ethsnarks.C97_inverse",
    "Ethsnarks.C97_gcd2",
    "Ethsnarks.C97_gcd",
    "Ethsnarks.C97_lcm"
   ],
   "note": ""
  },
  {
   "property": "C98",
   "status": "partial",
   "theorems": [
    "Ethsnarks.C98_accepted_partial",
    "Ethsnarks.C98_small_partial",
    "Ethsnarks.C98_prime_false"
   ],
   "note": "exactness is false (C98_prime_false): every prime is accepted, numbers up to 1229 are decided exactly, a composite number of 1401 bits is accepted"
  },
  {
   "property": "C99",
   "status": "partial",
   "theorems": [
    "Ethsnarks.C99_ring",
    "Ethsnarks.C99_mismatch",
    "Ethsnarks.C99_new",
    "Ethsnarks.C99_exp",
    "Ethsnarks.C99_field",
    "Ethsnarks.C99_sqrt",
    "Ethsnarks.C99_eq",
    "Ethsnarks.C99_eq_false",
    "Ethsnarks.C99_fr_inverse_false",
    "Ethsnarks.C99_bits",
    "Ethsnarks.C99_to_bytes",
    "Ethsnarks.C99_random"
   ],
   "note": "ring operations, powers, roots, bytes and bits for all moduli; inverses and quotients for prime moduli. Refuted for FR, whose modulus is not prime, and for equality across moduli"
  },
  {
   "property": "C100",
   "status": "partial",
   "theorems": [
    "Ethsnarks.C100_parameters",
    "Ethsnarks.C100_affine",
    "Ethsnarks.C100_projective",
    "Ethsnarks.C100_extended",
    "Ethsnarks.C100_as_etec_partial",
    "Ethsnarks.C100_as_etec_false",
    "Ethsnarks.C100_eq_false",
    "Ethsnarks.C100_montgomery_partial",
    "Ethsnarks.C100_montgomery_zero_false",
    "Ethsnarks.C100_loworder"
   ],
   "note": "all operations and conversions for all points in the affine, projective and extended classes; refuted for ProjPoint.as_etec and for the neutral element of MontPoint"
  },
  {
   "property": "C101",
   "status": "partial",
   "theorems": [
    "Ethsnarks.C101_mult",
    "Ethsnarks.C101_mult_montgomery_partial",
    "Ethsnarks.C101_mult_montgomery_false",
    "Ethsnarks.C101_scalar",
    "Ethsnarks.C101_scalar_false",
    "Ethsnarks.C101_mult_negative_false",
    "Ethsnarks.C101_wnaf",
    "Ethsnarks.C101_mult_naf",
    "Ethsnarks.C101_naf_negative_false",
    "Ethsnarks.C101_width_false",
    "Ethsnarks.C101_naf_montgomery_false"
   ],
   "note": "all points and all scalars that are not negative, all widths from 2; refuted for negative scalars, widths 0 and 1, scalars of FQ above Q, and MontPoint"
  },
  {
   "property": "C102",
   "status": "partial",
   "theorems": [
    "Ethsnarks.C102_from_y",
    "Ethsnarks.C102_from_y_sign",
    "Ethsnarks.C102_from_x",
    "Ethsnarks.C102_compress",
    "Ethsnarks.C102_compress_injective",
    "Ethsnarks.C102_decompress_partial",
    "Ethsnarks.C102_decompress_false",
    "Ethsnarks.C102_from_hash",
    "Ethsnarks.C102_cpp",
    "Ethsnarks.C102_identity_false"
   ],
   "note": "decompress accepts encodings that compress does not write and from_hash does not exclude the neutral element (negations proved); the rest in full"
  },
  {
   "property": "C103",
   "status": "partial",
   "theorems": [
    "Ethsnarks.C103_basepoint",
    "Ethsnarks.C103_basepoint_cpp",
    "Ethsnarks.C103_windows",
    "Ethsnarks.C103_bases",
    "Ethsnarks.C103_bits",
    "Ethsnarks.C103_cpp",
    "Ethsnarks.C103_bytes",
    "Ethsnarks.C103_name",
    "Ethsnarks.C103_injective_partial",
    "Ethsnarks.C103_padding_false",
    "Ethsnarks.C103_scalars_false"
   ],
   "note": "injectivity fails for lengths that are no multiple of three and for lists of scalars (negations proved); equality with the circuit's hash in full"
  },
  {
   "property": "C104",
   "status": "partial",
   "theorems": [
    "Ethsnarks.C104_verify",
    "Ethsnarks.C104_key",
    "Ethsnarks.C104_sign",
    "Ethsnarks.C104_honest_partial",
    "Ethsnarks.C104_honest_false",
    "Ethsnarks.C104_pure",
    "Ethsnarks.C104_message",
    "Ethsnarks.C104_eddsa",
    "Ethsnarks.C104_cpp_pure",
    "Ethsnarks.C104_cpp_eddsa",
    "Ethsnarks.C104_malleable_false",
    "Ethsnarks.C104_neutral_false",
    "Ethsnarks.C104_off_curve_false",
    "Ethsnarks.C104_padding_false",
    "Ethsnarks.C104_mimc"
   ],
   "note": "honest signatures fail where the number reaches Q, and ranges, orders and membership of the curve are not checked (negations proved); the verdict and the agreement with C++ in full"
  },
  {
   "property": "C105",
   "status": "partial",
   "theorems": [
    "Ethsnarks.C105_poseidon",
    "Ethsnarks.C105_refuses",
    "Ethsnarks.C105_constants",
    "Ethsnarks.C105_constants_cpp",
    "Ethsnarks.C105_matrix",
    "Ethsnarks.C105_matrix_cpp",
    "Ethsnarks.C105_matrix_false",
    "Ethsnarks.C105_cpp",
    "Ethsnarks.C105_params",
    "Ethsnarks.C105_cubic_false",
    "Ethsnarks.C105_default",
    "Ethsnarks.C105_default_hash",
    "Ethsnarks.C105_injective_false",
    "Ethsnarks.C105_chained_too_long"
   ],
   "note": "False as stated: exponent 3 is never accepted, inputs are not bound in number or beyond the prime, and equal constants give a zero entry of the matrix (C105_cubic_false, C105_injective_false, C105_matrix_false). The hash, the constants, the matrix, the parameters and the agreement with C++ are proved."
  },
  {
   "property": "C106",
   "status": "partial",
   "theorems": [
    "Ethsnarks.C106_assemble",
    "Ethsnarks.C106_jump",
    "Ethsnarks.C106_push",
    "Ethsnarks.C106_push_range",
    "Ethsnarks.C106_deploy",
    "Ethsnarks.C106_pending",
    "Ethsnarks.C106_redefinition",
    "Ethsnarks.C106_backward_false",
    "Ethsnarks.C106_swap_false"
   ],
   "note": "Backward labels get no JUMPDEST, SWAP(0) is DUP16 and the largest word is refused: proved as falsities; the rest holds for all programs."
  },
  {
   "property": "C107",
   "status": "proved",
   "theorems": [
    "Ethsnarks.C107_contract",
    "Ethsnarks.C107_selectors",
    "Ethsnarks.C107_call",
    "Ethsnarks.C107_short",
    "Ethsnarks.C107_exponents"
   ],
   "note": "Both exponents, all call data, against the library, the Solidity contract and the circuit."
  },
  {
   "property": "C108",
   "status": "partial",
   "theorems": [
    "Ethsnarks.C108_contract",
    "Ethsnarks.C108_selector",
    "Ethsnarks.C108_call_partial",
    "Ethsnarks.C108_length_false",
    "Ethsnarks.C108_narrow_false",
    "Ethsnarks.C108_wide_false",
    "Ethsnarks.C108_too_wide_false",
    "Ethsnarks.C108_modulus_false",
    "Ethsnarks.C108_default"
   ],
   "note": "Proved for width 6, the field of the circuits, exponent 5 and one to five inputs (all words, all encodings), and for all call data against the permutation of the loaded words at widths up to 7. False for other widths, moduli, exponents and numbers of inputs."
  },
  {
   "property": "C109",
   "status": "partial",
   "theorems": [
    "Ethsnarks.C109_poly",
    "Ethsnarks.C109_short",
    "Ethsnarks.C109_lagrange",
    "Ethsnarks.C109_recover",
    "Ethsnarks.C109_one_short",
    "Ethsnarks.C109_one_short_iff",
    "Ethsnarks.C109_roundtrip",
    "Ethsnarks.C109_secrecy",
    "Ethsnarks.C109_inverse",
    "Ethsnarks.C109_duplicate_false",
    "Ethsnarks.C109_gadget",
    "Ethsnarks.C109_r1cs",
    "Ethsnarks.C109_r1cs_mismatch_false"
   ],
   "note": "Evaluation, interpolation, recovery, the exact error with one share too few, secrecy (exactly one polynomial per secret), the inverse, the agreement with the gadget and the constraint check are proved for all sizes; refused malformed arguments are false: repeated shares and a zero of another modulus pass (C109_duplicate_false, C109_r1cs_mismatch_false)."
  },
  {
   "property": "C110",
   "status": "partial",
   "theorems": [
    "Ethsnarks.C110_elements",
    "Ethsnarks.C110_field",
    "Ethsnarks.C110_contract",
    "Ethsnarks.C110_chunk",
    "Ethsnarks.C110_chunk_false",
    "Ethsnarks.C110_length_false",
    "Ethsnarks.C110_unpack_partial",
    "Ethsnarks.C110_words_partial",
    "Ethsnarks.C110_unpack_false",
    "Ethsnarks.C110_long_false",
    "Ethsnarks.C110_negative",
    "Ethsnarks.C110_native",
    "Ethsnarks.C110_native_false"
   ],
   "note": "Packing is proved for all strings and chunk sizes, with ranges, injectivity and the agreement with the contract; unpacking for up to five words with elements of at least 2^100 (C110_unpack_partial, C110_words_partial). The rest of the claim is false: C110_unpack_false, C110_long_false, C110_length_false, C110_chunk_false, C110_native_false."
  },
  {
   "property": "C111",
   "status": "partial",
   "theorems": [
    "Ethsnarks.C111_proof",
    "Ethsnarks.C111_key",
    "Ethsnarks.C111_reload_key",
    "Ethsnarks.C111_reload_proof",
    "Ethsnarks.C111_text",
    "Ethsnarks.C111_format",
    "Ethsnarks.C111_injective",
    "Ethsnarks.C111_cpp_key",
    "Ethsnarks.C111_cpp_proof",
    "Ethsnarks.C111_empty_false",
    "Ethsnarks.C111_native",
    "Ethsnarks.C111_agree_partial",
    "Ethsnarks.C111_short_false",
    "Ethsnarks.C111_wide_false",
    "Ethsnarks.C111_negative_false"
   ],
   "note": "false of the code for negative inputs, inputs above 2^256, missing inputs and empty keys; everything else is proved"
  },
  {
   "property": "C112",
   "status": "partial",
   "theorems": [
    "Ethsnarks.C112_total",
    "Ethsnarks.C112_mimc_partial",
    "Ethsnarks.C112_returns",
    "Ethsnarks.C112_files",
    "Ethsnarks.C112_contracts",
    "Ethsnarks.C112_mimc_false",
    "Ethsnarks.C112_exponent_false",
    "Ethsnarks.C112_main_partial",
    "Ethsnarks.C112_main_false",
    "Ethsnarks.C112_main_usage"
   ],
   "note": "false of the code for sums that wrap, other exponents and the file argument of main; everything else is proved"
  },
  {
   "property": "C113",
   "status": "proved",
   "theorems": [
    "Ethsnarks.C113_constants",
    "Ethsnarks.C113_distinct",
    "Ethsnarks.C113_matrix",
    "Ethsnarks.C113_default",
    "Ethsnarks.C113_bijective",
    "Ethsnarks.C113_cpp",
    "Ethsnarks.C113_full",
    "Ethsnarks.C113_python",
    "Ethsnarks.C113_blake",
    "Ethsnarks.C113_contract",
    "Ethsnarks.C113_reference"
   ],
   "note": "All inputs; the two hypotheses about the logarithm remain only in C113_default (the checks of poseidon_params use floating point numbers)."
  },
  {
   "property": "C114",
   "status": "partial",
   "theorems": [
    "Ethsnarks.C114_proof",
    "Ethsnarks.C114_key",
    "Ethsnarks.C114_proof_injective",
    "Ethsnarks.C114_key_injective",
    "Ethsnarks.C114_export",
    "Ethsnarks.C114_words",
    "Ethsnarks.C114_compiles_false",
    "Ethsnarks.C114_compiles_partial",
    "Ethsnarks.C114_main",
    "Ethsnarks.C114_negative_false"
   ],
   "note": "what the text means, that nothing is lost, and for which inputs it is Solidity are proved for all files and names; that it compiles is false: the structures are declared nowhere"
  },
  {
   "property": "C115",
   "status": "partial",
   "theorems": [
    "Ethsnarks.C115_state",
    "Ethsnarks.C115_upgrade_false",
    "Ethsnarks.C115_upgrade_partial",
    "Ethsnarks.C115_restricted"
   ],
   "note": "the state after every history is proved; that upgrade hands the number over is false"
  },
  {
   "property": "C116",
   "status": "partial",
   "theorems": [
    "Ethsnarks.C116_public",
    "Ethsnarks.C116_laws",
    "Ethsnarks.C116_validation_false"
   ],
   "note": "sums, multiples and laws are proved for all points and factors; that points outside the curve are refused is false"
  },
  {
   "property": "C117",
   "status": "partial",
   "theorems": [
    "Ethsnarks.C117_data",
    "Ethsnarks.C117_nonce",
    "Ethsnarks.C117_key",
    "Ethsnarks.C117_mimc",
    "Ethsnarks.C117_mimc_types",
    "Ethsnarks.C117_eddsa",
    "Ethsnarks.C117_pure_partial",
    "Ethsnarks.C117_pure_false",
    "Ethsnarks.C117_key_revealed_false"
   ],
   "note": "The encodings and the nonce are characterised for all messages; no reuse for MiMCEdDSA and EdDSA. False for PureEdDSA: messages of different length or type share nonces, and two accepted signatures then reveal the key (C117_pure_false, C117_key_revealed_false)."
  },
  {
   "property": "C118",
   "status": "partial",
   "theorems": [
    "Ethsnarks.C118_run_partial",
    "Ethsnarks.C118_release",
    "Ethsnarks.C118_debug",
    "Ethsnarks.C118_debug_abort_false",
    "Ethsnarks.C118_run_exact",
    "Ethsnarks.C118_test_exact",
    "Ethsnarks.C118_dummy"
   ],
   "note": "False in debug builds: satisfied examples whose A or B column polynomial lacks full degree abort (C118_debug_abort_false). Release builds: proved in full (C118_release); debug builds: exact characterisation (C118_debug)."
  },
  {
   "property": "C119",
   "status": "proved",
   "theorems": [
    "Ethsnarks.C119_points_exact",
    "Ethsnarks.C119_field2bits",
    "Ethsnarks.C119_isnonzero",
    "Ethsnarks.C119_subadd",
    "Ethsnarks.C119_mimc",
    "Ethsnarks.C119_authenticator",
    "Ethsnarks.C119_add",
    "Ethsnarks.C119_dbl",
    "Ethsnarks.C119_isoncurve",
    "Ethsnarks.C119_notloworder",
    "Ethsnarks.C119_mul",
    "Ethsnarks.C119_mul_fixed",
    "Ethsnarks.C119_hash",
    "Ethsnarks.C119_mul_fixed_zcash",
    "Ethsnarks.C119_commitment",
    "Ethsnarks.C119_release",
    "Ethsnarks.C119_lookup1",
    "Ethsnarks.C119_lookup3",
    "Ethsnarks.C119_lookup2_turn",
    "Ethsnarks.C119_lookup2",
    "Ethsnarks.C119_one_of_n",
    "Ethsnarks.C119_shamir",
    "Ethsnarks.C119_selector",
    "Ethsnarks.C119_mimc_hash"
   ],
   "note": "Verdicts of the test functions for all inputs in place of the literals; the tests of SHA-256, Poseidon, EdDSA and field packing are not part of it. The proof-running tests are for release builds (debug builds: C49)."
  },
  {
   "property": "C120",
   "status": "partial",
   "theorems": [
    "Ethsnarks.C120_status",
    "Ethsnarks.C120_loop",
    "Ethsnarks.C120_field2bits",
    "Ethsnarks.C120_isnonzero",
    "Ethsnarks.C120_subadd",
    "Ethsnarks.C120_lookup2",
    "Ethsnarks.C120_mimc",
    "Ethsnarks.C120_mimc_hash",
    "Ethsnarks.C120_authenticator",
    "Ethsnarks.C120_add",
    "Ethsnarks.C120_dbl",
    "Ethsnarks.C120_mul",
    "Ethsnarks.C120_mul_fixed",
    "Ethsnarks.C120_isoncurve",
    "Ethsnarks.C120_notloworder",
    "Ethsnarks.C120_commitment",
    "Ethsnarks.C120_point",
    "Ethsnarks.C120_hash",
    "Ethsnarks.C120_zcash",
    "Ethsnarks.C120_eddsa",
    "Ethsnarks.C120_mimc_hash_main",
    "Ethsnarks.C120_merkle_main",
    "Ethsnarks.C120_poseidon_prove",
    "Ethsnarks.C120_poseidon_status",
    "Ethsnarks.C120_poseidon",
    "Ethsnarks.C120_poseidon_status_exact",
    "Ethsnarks.C120_poseidon_status_false"
   ],
   "note": "every recorded value is the one the model computes and every main ends with status 0; test_poseidon ends with status 0 whatever its last comparison says"
  },
  {
   "property": "C121",
   "status": "proved",
   "theorems": [
    "Ethsnarks.C121_many_fips",
    "Ethsnarks.C121_full_fips",
    "Ethsnarks.C121_many",
    "Ethsnarks.C121_many_passes",
    "Ethsnarks.C121_many_main",
    "Ethsnarks.C121_full_compare_vacuous",
    "Ethsnarks.C121_full",
    "Ethsnarks.C121_full_recorded",
    "Ethsnarks.C121_full_main",
    "Ethsnarks.C121_packing",
    "Ethsnarks.C121_packing_contract",
    "Ethsnarks.C121_packing_main"
   ],
   "note": "for every compression gadget that meets its contract; an instance for the compression function of FIPS 180-4 is given"
  },
  {
   "property": "C122",
   "status": "partial",
   "theorems": [
    "Ethsnarks.C122_conversions_partial",
    "Ethsnarks.C122_serialise_exact",
    "Ethsnarks.C122_point_r",
    "Ethsnarks.C122_random_points",
    "Ethsnarks.C122_multiplicative",
    "Ethsnarks.C122_via_all",
    "Ethsnarks.C122_validity_partial",
    "Ethsnarks.C122_validity_false",
    "Ethsnarks.C122_mult_all_random_partial",
    "Ethsnarks.C122_naf",
    "Ethsnarks.C122_doubles",
    "Ethsnarks.C122_mult_all_known",
    "Ethsnarks.C122_equality",
    "Ethsnarks.C122_negate",
    "Ethsnarks.C122_zero",
    "Ethsnarks.C122_known",
    "Ethsnarks.C122_hash_to_point",
    "Ethsnarks.C122_nonsquares",
    "Ethsnarks.C122_loworder",
    "Ethsnarks.C122_lmask"
   ],
   "note": "All methods pass for all random choices except test_3_validity (fails when a random point is the neutral element: C122_validity_false) and test_mult_all_random (fails for the scalar 0)."
  },
  {
   "property": "C123",
   "status": "partial",
   "theorems": [
    "Ethsnarks.C123_shamir_random",
    "Ethsnarks.C123_shamir_random_false",
    "Ethsnarks.C123_shamir_static",
    "Ethsnarks.C123_poly_constraints",
    "Ethsnarks.C123_one_of_n",
    "Ethsnarks.C123_pedersen_zcash",
    "Ethsnarks.C123_pedersen_scalars",
    "Ethsnarks.C123_pedersen_bytes",
    "Ethsnarks.C123_pedersen_exact",
    "Ethsnarks.C123_pedersen_bits",
    "Ethsnarks.C123_zcash_passes"
   ],
   "note": "The recorded values and test_one_of_n pass as stated; test_random of the sharing polynomial fails on some legitimate draws (C123_shamir_random_false; C123_shamir_random is the exact condition)."
  },
  {
   "property": "C124",
   "status": "partial",
   "theorems": [
    "Ethsnarks.C124_mimc",
    "Ethsnarks.C124_mimc_evm",
    "Ethsnarks.C124_poseidon",
    "Ethsnarks.C124_poseidon_evm",
    "Ethsnarks.C124_packing",
    "Ethsnarks.C124_tree",
    "Ethsnarks.C124_tree_passes",
    "Ethsnarks.C124_update",
    "Ethsnarks.C124_update_false",
    "Ethsnarks.C124_known1",
    "Ethsnarks.C124_known_2pow28",
    "Ethsnarks.C124_uniques"
   ],
   "note": "All recorded values, test_tree and the contract tests proved; test_update fails when a replacement equals the leaf it replaces (C124_update_false; C124_update is the exact condition)."
  },
  {
   "property": "C125",
   "status": "partial",
   "theorems": [
    "Ethsnarks.C125_hash",
    "Ethsnarks.C125_pure",
    "Ethsnarks.C125_mimc",
    "Ethsnarks.C125_sign"
   ],
   "note": "The recorded signatures are proved; test_signverify has the exact condition of C125_sign, which some keys do not meet (C104_honest_false shows it for a scheme)."
  },
  {
   "property": "C126",
   "status": "proved",
   "theorems": [
    "Ethsnarks.C126_jubjub_exact",
    "Ethsnarks.C126_jubjub",
    "Ethsnarks.C126_mimc_exact",
    "Ethsnarks.C126_mimc",
    "Ethsnarks.C126_unique_exact",
    "Ethsnarks.C126_tree_exact",
    "Ethsnarks.C126_tree",
    "Ethsnarks.C126_reverse_exact",
    "Ethsnarks.C126_pack_exact",
    "Ethsnarks.C126_snarkutils",
    "Ethsnarks.C126_verifier"
   ],
   "note": "for every implementation; the contracts pass; the verifier test up to the pairing of the recorded proof"
  },
  {
   "property": "C127",
   "status": "partial",
   "theorems": [
    "Ethsnarks.C127_point_add_exact",
    "Ethsnarks.C127_point_add",
    "Ethsnarks.C127_fast_main",
    "Ethsnarks.C127_fast_passes",
    "Ethsnarks.C127_mixed_add",
    "Ethsnarks.C127_mixed_main",
    "Ethsnarks.C127_mixed_passes",
    "Ethsnarks.C127_two_bit",
    "Ethsnarks.C127_three_bit",
    "Ethsnarks.C127_loworder",
    "Ethsnarks.C127_range",
    "Ethsnarks.C127_range_count",
    "Ethsnarks.C127_range_peaks",
    "Ethsnarks.C127_range_stale_false",
    "Ethsnarks.C127_mimc_js_partial",
    "Ethsnarks.C127_mimc_js_false"
   ],
   "note": "the prototypes hold as stated; false for mimc.js (constants shifted by one, seed ignored) and for the deletion of zero roots in immr.py"
  },
  {
   "property": "C128",
   "status": "partial",
   "theorems": [
    "Ethsnarks.C128_primes",
    "Ethsnarks.C128_primes_false",
    "Ethsnarks.C128_coding",
    "Ethsnarks.C128_coding_check"
   ],
   "note": "the sieve for every bound from 4 on; false below 4"
  },
  {
   "property": "C129",
   "status": "partial",
   "theorems": [
    "Ethsnarks.C129_two_operands",
    "Ethsnarks.C129_one_operand",
    "Ethsnarks.C129_recorded",
    "Ethsnarks.C129_systems",
    "Ethsnarks.C129_jsnark",
    "Ethsnarks.C129_rule",
    "Ethsnarks.C129_rule_result",
    "Ethsnarks.C129_make_false",
    "Ethsnarks.C129_crash_false",
    "Ethsnarks.C129_make",
    "Ethsnarks.C129_program"
   ],
   "note": "the recorded circuits and results are proved; the build target does not fail on a wrong result and forgets a crash (C129_make_false, C129_crash_false)"
  },
  {
   "property": "C130",
   "status": "proved",
   "theorems": [
    "Ethsnarks.C130_roundtrip_exact",
    "Ethsnarks.C130_roundtrip_fails",
    "Ethsnarks.C130_verify_exact",
    "Ethsnarks.C130_roundtrip",
    "Ethsnarks.C130_records",
    "Ethsnarks.C130_roundtrip_passes",
    "Ethsnarks.C130_verify_same",
    "Ethsnarks.C130_verify"
   ],
   "note": "The verdicts of the three tests for every implementation and, for the repository's verifier, every record."
  },
  {
   "property": "C131",
   "status": "partial",
   "theorems": [
    "Ethsnarks.C131_accumulator",
    "Ethsnarks.C131_pairing_exact",
    "Ethsnarks.C131_pairing",
    "Ethsnarks.C131_constant",
    "Ethsnarks.C131_two",
    "Ethsnarks.C131_load_usage",
    "Ethsnarks.C131_load_partial",
    "Ethsnarks.C131_load_false",
    "Ethsnarks.C131_profile",
    "Ethsnarks.C131_profile_false",
    "Ethsnarks.C131_profile_usage"
   ],
   "note": "The pairing benchmark is proved for all pairings and numbers of turns. The key benchmark says OK for files that hold no key (C131_load_false) and the profiling program ends with 0 for rejected proofs (C131_profile_false)."
  },
  {
   "property": "C132",
   "status": "partial",
   "theorems": [
    "Ethsnarks.C132_eval",
    "Ethsnarks.C132_solutions",
    "Ethsnarks.C132_satisfiable",
    "Ethsnarks.C132_script_partial",
    "Ethsnarks.C132_import_false"
   ],
   "note": "The constraints are proved solvable exactly for points in range. The script itself ends with ImportError (C132_import_false)."
  },
  {
   "property": "C133",
   "status": "partial",
   "theorems": [
    "Ethsnarks.C133_keypair",
    "Ethsnarks.C133_script_partial",
    "Ethsnarks.C133_zero_false"
   ],
   "note": "for random bytes whose value is a multiple of the order the script raises, and the printed signature verifies only if the response is less than the modulus of the field (C104)"
  },
  {
   "property": "C134",
   "status": "proved",
   "theorems": [
    "Ethsnarks.C134_group",
    "Ethsnarks.C134_orders",
    "Ethsnarks.C134_basepoint",
    "Ethsnarks.C134_script"
   ],
   "note": ""
  },
  {
   "property": "C135",
   "status": "partial",
   "theorems": [
    "Ethsnarks.C135_calls",
    "Ethsnarks.C135_values_partial",
    "Ethsnarks.C135_script_partial",
    "Ethsnarks.C135_montgomery_false"
   ],
   "note": "the script ends normally and the Edwards classes give the multiple; false for mult_naf and mult_naf_lut in Montgomery coordinates (C135_montgomery_false)"
  }
 ]
}