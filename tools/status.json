{
 "C09": [
  "proved",
  "Lookup1: exact soundness, completeness, frame, the out-of-bounds case, and a theorem that the selector must be range-checked by the caller."
 ],
 "C10": [
  "proved",
  "Lookup2: exact soundness, completeness, frame, assertion on non-boolean selectors."
 ],
 "C11": [
  "proved",
  "Lookup3: soundness, completeness, frame."
 ],
 "C12": [
  "proved",
  "Signed 3-bit lookup: soundness, completeness, frame."
 ],
 "C13": [
  "proved",
  "IsNonZero over any field: soundness, completeness, frame."
 ],
 "C01": [
  "proved",
  "All byte sequences; includes absence of out-of-bounds writes and an untouched tail of the output buffer."
 ],
 "C02": [
  "proved",
  "All bit vectors, word sizes 1..64."
 ],
 "C03": [
  "partial",
  "The property is false: with two or more integers every call is undefined behaviour (C03_int_list_to_bits_false, includes the documented example). The single-integer case is proved."
 ],
 "C04": [
  "proved",
  "Value, byte order, injectivity up to 31 bytes, assertion above 32 bytes, and a collision at 32 bytes showing the bound is sharp."
 ],
 "C05": [
  "proved",
  "Every message of whole bytes, every block size of at least 64 bits."
 ],
 "C06": [
  "partial",
  "The property is false: the zero padding bits are unconstrained (C06_padding_not_enforced_false, for every message). The first bit and the 64-bit length are proved to be enforced."
 ],
 "C07": [
  "proved",
  "Success, converse, length mismatch, bad digit."
 ],
 "C08": [
  "proved",
  "All field elements."
 ],
 "C14": [
  "partial",
  "the decomposition is not unique: values below 2^254-r also satisfy with bits of x+r (C14_..._false); soundness up to that alias, uniqueness outside it, and completeness are proved"
 ],
 "C15": [
  "proved",
  "C15_selector_nonboolean_false shows that is_right must be constrained by the caller"
 ],
 "C16": [
  "proved",
  "level IVs are not constrained by the gadget (C16_ivs_unconstrained)"
 ],
 "C17": [
  "proved",
  ""
 ],
 "C18": [
  "proved",
  ""
 ],
 "C19": [
  "proved",
  ""
 ],
 "C20": [
  "proved",
  ""
 ],
 "C21": [
  "proved",
  ""
 ],
 "C61": [
  "proved",
  "sha3 is a parameter"
 ],
 "C62": [
  "proved",
  "result() of this class does not type-check in C++; the last cipher's result is used"
 ],
 "C22": [
  "partial",
  "The property is false in several ways, each proved: coefficients are fixed when the constraints are generated, our_item is not tied to the items, and a re-used gadget keeps stale toggles. What does hold (constraints generated after the witness) is proved."
 ],
 "C23": [
  "partial",
  "The property is false: the variable for x^1 is unconstrained so any result can be proved when a_1 is non-zero (C23_shamir_false), and two coefficients read out of bounds (C23_shamir_two_ub). The exact relation that is enforced, and completeness, are proved for three or more coefficients."
 ],
 "C24": [
  "proved",
  "All widths accepted by the constructor (up to 252 bits, where uniqueness of the 254-bit packing needs the actual modulus); witness satisfies the constraints exactly when no underflow or overflow; the range check on inputs is shown to be necessary."
 ],
 "C25": [
  "proved",
  "All widths, S-box counts, round counts (at least four full and one partial round; below that the constructor is undefined behaviour, proved as C25_poseidon_few_rounds_ub), inputs, outputs, constants and matrices, with and without constrained outputs; also the native permute()."
 ],
 "C26": [
  "proved",
  "Cauchy matrix invertible for distinct constants, the code's matrix is that matrix, equal constants fail, and the permutation over the scalar field is a bijection; for the default seeds the constants are distinct (C113)."
 ],
 "C27": [
  "partial",
  "Completeness and the value of the witness are proved in full for every message; the converse (constraints force the hash) is false because the zero padding bits are unconstrained: proved as C27_sha256_many_sound_false, with what does hold as C27_sha256_many_sound_partial. The libsnark compression gadget is a parameter with an explicit contract (CompressOK)."
 ],
 "C28": [
  "partial",
  "The property is false of the code: the padding block variables are assigned but never constrained (C28_sha256_full_sound_false). Completeness holds in full and soundness holds for the constructed padding values (C28_sha256_full_sound_partial)."
 ],
 "C29": [
  "proved",
  "soundness without any hypothesis on the inputs (the parameters make every satisfying assignment equal to the addition law); completeness on curve points; Baby Jubjub's parameters are proved complete"
 ],
 "C30": [
  "proved",
  "as C29"
 ],
 "C31": [
  "proved",
  "the point need not be on the curve"
 ],
 "C32": [
  "proved",
  ""
 ],
 "C33": [
  "proved",
  "exactly the eight points listed in notloworder.hpp are rejected; no point of order 16 exists"
 ],
 "C34": [
  "proved",
  "for every bit length the constructor accepts"
 ],
 "C41": [
  "proved",
  ""
 ],
 "C35": [
  "partial",
  "Soundness, completeness, frame for every even length of at least four bits. The full statement is false at 0 and 2 bits: the constructor accepts them but the result is undefined behaviour (C35_short_scalar_false)."
 ],
 "C39": [
  "proved",
  "Every list of at least two bases: exact acceptance condition, soundness, completeness, frame, additive homomorphism."
 ],
 "C63": [
  "proved",
  "The point count is proved from generators of coprime orders and the bound 2r; no trusted point-counting."
 ],
 "C42": [
  "proved",
  "Domain of both conversions characterised exactly; mutually inverse."
 ],
 "C37": [
  "proved",
  "Sound and complete for operands with different x-coordinates; the exceptional operands (equal x, the point (0,0)) are shown to leave the outputs unconstrained."
 ],
 "C36": [
  "proved",
  "All window counts from two up; base points of order l, for which no Montgomery addition is exceptional. A single window is undefined behaviour in the constructor (C36_one_window_false)."
 ],
 "C64": [
  "partial",
  "Exact up to 2^24 bits (C64_exact); false in general: C64_false and C64_overflow_false give a length where the float division loses a base point and the constructor reads out of bounds."
 ],
 "C43": [
  "proved",
  "Proved: from_y_always returns a point of the curve with the first y at or after the given one that lies on the curve; from_hash and the base points are in the prime order subgroup; the message-to-hash encoding is injective up to trailing spaces. C43_trailing_space_false shows names differing in trailing spaces collide. libff's sqrt(0) and giving up after finitely many tries are separate outcomes in the model."
 ],
 "C59": [
  "proved",
  "Every gadget's witness generator writes only the variables the gadget allocated, whatever the assignment it is run on. Stated exceptions: shamir_poly takes its input variable and also writes it; sha256_full also writes the caller's output digest; libsnark's SHA-256 compression gadget is a parameter assumed to have the same property."
 ],
 "C38": [
  "partial",
  "PedersenHash: sound and complete for every accepted message length. PedersenHashToBits: complete with canonical bits; sound up to one alias (C38_tobits_sound_partial); the claim that the bits are canonical is false (C38_tobits_alias_false) because field2bits_strict does not constrain its comparison result."
 ],
 "C40": [
  "partial",
  "Satisfiability of PureEdDSA and EdDSA is characterised exactly; honest signatures verify; eddsa_open's verdict is the verification equation. The full claim fails: representatives may be aliased (C40_alias_false), s is malleable (C40_malleable_false), the neutral key is accepted (C40_neutral_key_false). A on the curve and boolean bits of s and the message are assumptions, since the gadgets do not constrain them."
 ],
 "C65": [
  "proved",
  "Specification-level injectivity and its transfer to satisfying assignments of the gadget."
 ],
 "C66": [
  "proved",
  "For every list of vectors."
 ],
 "C44": [
  "partial",
  "C44_sound_partial: every instruction of an accepted circuit except zerop and 3-input tables means what it says in every satisfying assignment; C44_lines ties instructions to circuit lines, C44_const_mul the constants. False for zerop (C44_zerop_false) and 3-input tables (C48_table3_output_free_false). The text level is C79, the release build C82."
 ],
 "C45": [
  "partial",
  "C45_eval_satisfies_partial: evaluation satisfies all constraints for ordered circuits without zerop/3-input tables. False otherwise: C47_eval_never_satisfies_false, C48_eval_never_satisfies_false."
 ],
 "C46": [
  "partial",
  "C46_primary_partial holds when input lines come first and name distinct wires. False otherwise: C46_secret_published_false (nizkinput declared first is published), C46_duplicate_false."
 ],
 "C47": [
  "partial",
  "zerop constrains its first output but evaluates its second: C47_first_output_partial, C44_zerop_false, C47_eval_never_satisfies_false."
 ],
 "C48": [
  "partial",
  "1- and 2-input tables proved (C48_table12_partial); 3-input tables leave the output free (C48_table3_output_free_false) and evaluation does not satisfy them (C48_eval_never_satisfies_false)."
 ],
 "C67": [
  "partial",
  "C67_same_system_partial for closed circuits without zerop/3-input tables. False in general: C67_zerop_false, C67_assert_false."
 ],
 "C55": [
  "proved",
  "for every byte string and every content of the uninitialised context, no out-of-bounds access; the constants of the specification are proved to be the roots of primes the standard names"
 ],
 "C56": [
  "proved",
  "any sequence of updates"
 ],
 "C68": [
  "proved",
  "one call and any sequence of updates"
 ],
 "C57": [
  "proved",
  "any sequence of updates, with or without a key"
 ],
 "C58": [
  "proved",
  "every key, message and digest length; -1 exactly on illegal parameters; no out-of-bounds access"
 ],
 "C49": [
  "partial",
  "True for release builds (NDEBUG), proved in full for every constraint system, witness and randomness (C49_release); for debug builds every proof the prover returns is accepted (C49_completeness_partial), but the prover stops at its assertion on the top coefficient of H for some satisfying witnesses: C49_debug_returns says exactly when, C49_debug_abort_false gives the counterexamples. The pairing library and evaluation domain enter through the contracts in Spec/Pairing.lean."
 ],
 "C50": [
  "proved",
  ""
 ],
 "C51": [
  "proved",
  "Contract of the pairing library in Spec/Pairing.lean; points outside the groups are only assumed to be reported by is_well_formed (subgroup membership in G2 is not checked by the code and not assumed)."
 ],
 "C69": [
  "proved",
  ""
 ],
 "C70": [
  "proved",
  "Statement about discrete logarithms and the release build; a debug build additionally aborts on some witnesses (C49), which is observable."
 ],
 "C71": [
  "proved",
  ""
 ],
 "C72": [
  "proved",
  "the whole table, against SHA-256 as specified in FIPS 180-4 (C55 proves the code's SHA-256 equal to the same specification)"
 ],
 "C52": [
  "partial",
  "Round trip proved at the level of characters (own JSON parser model, hex printing, mpz parsing, Montgomery reduction) for every proof whose points are exportable: not the point at infinity, and G2 representations with Z = 1 or both coordinates of Z non-zero. The negation is proved for the point at infinity (exported as (0,1), which is not on the curve) and for a G2 generator with Z = 2, which is exported unnormalised. Public inputs round trip unconditionally."
 ],
 "C53": [
  "partial",
  "Same as C52 for verification keys of any number of inputs; negations proved for the point at infinity and for an empty gammaABC array (undefined behaviour in vk_from_json)."
 ],
 "C54": [
  "partial",
  "Export is injective, and a text that parses to a number below r denotes that number. The statement itself is false: for every x and k < 5 the text of x + k r denotes x (in both builds), so two different lists denote the same inputs; release builds also take a leading minus sign and truncate numbers over 256 bits. All negations proved with witnesses."
 ],
 "C60": [
  "proved",
  "Exact characterisation of exit codes 0, 1, 2 for every argument vector and file contents, no other code; text that is not JSON leaves the program by an exception; verify.cpp's main agrees with it on what verifies."
 ],
 "C73": [
  "proved",
  "Assumes the pairing contract (Spec/Pairing) and that group membership and discrete logarithm depend on the affine point only; non-vacuity by a pairing on the actual Jacobian representations into the complex roots of unity."
 ],
 "C74": [
  "partial",
  "False as stated: C74_release_false, C74_empty_false. Proved: no text is undefined behaviour for the proof importer in debug builds; elsewhere a value or an exception unless an array is too short or gammaABC is empty."
 ],
 "C75": [
  "partial",
  "False for the importers (C75_proof_false, C75_vk_false). Proved: a proof accepted by stub_verify has its points on the curves, given that the library's well-formedness check implies the curve equation."
 ],
 "C76": [
  "partial",
  "Proved for points the format can carry (not infinity; G2 representations the exporter handles, see C52); the texts are well-formed JSON for all points."
 ],
 "C77": [
  "partial",
  "Round trips and equality proved for all keys under the contract Codecs.OK for the library's operators; that a missing file is reported is false in release builds (C77_missing_release_false)."
 ],
 "C78": [
  "partial",
  "The chain is proved (C78_pipeline_partial) for points the text format can carry; that exit code 0 means both files exist is false (C78_unwritable_false, C78_same_file_false)."
 ],
 "C79": [
  "partial",
  "The reader is proved sound and complete against the grammar, for lines and files; that no text overruns a buffer and that every unreadable line is reported are false (C79_long_word_false, C79_two_separators_false, C79_release_drops_gate_false)."
 ],
 "C80": [
  "partial",
  "end to end (genkeys, prove, verify) for honest inputs, eval output, test verdicts, usage codes; partial because of zerop, three-input tables, exportability of points at infinity and the release-build prove that does not refuse unsatisfied inputs (negation proved)"
 ],
 "C81": [
  "partial",
  "trace = blocks + eval output for every circuit; printed lines read back except the two multiplications by a constant (negation proved)"
 ],
 "C82": [
  "partial",
  "the builds agree up to failed assertions; circuits with the documented numbers of wires are sound and satisfied by evaluation in both builds; negations for malformed circuits in release builds"
 ],
 "C83": [
  "partial",
  "holds without output lines; false for every accepted circuit with an output line"
 ],
 "C84": [
  "proved",
  "Coefficients are fixed before the keys are drawn (generic-group form of knowledge soundness); statement about discrete logarithms."
 ],
 "C85": [
  "proved",
  "Keccak-256 specified after FIPS 202 with the original padding; sha3.c itself is not in the repository."
 ],
 "C86": [
  "partial",
  "Holds for all words for MiMC_permutation.sol and Python, for reduced arguments for the generated contracts; false for the generated contracts on 2^256-1 (C86_generated_false)."
 ],
 "C87": [
  "partial",
  "false for scalarMultNAF (0, unreduced points) and scalarMultNAF5; everything else for all inputs"
 ],
 "C88": [
  "partial",
  "false for values above 2^256 - 2^(w-1) (C88_overflow_false)"
 ],
 "C89": [
  "partial",
  "the contract checks another equation; that one is characterised for all inputs"
 ],
 "C90": [
  "partial",
  "false for unreduced words (C90_alias_false); proved for reduced leaves, assuming that no full subtree hashes to 0"
 ],
 "C91": [
  "partial",
  "false for repeated elements in wide trees, beyond the capacity and for the leaf 0; proved otherwise"
 ],
 "C92": [
  "partial",
  "exact characterisation proved; agreement with the C++ verifier except when the input commitment is the point at infinity, where the contract reverts (C92_vkx_witness)"
 ],
 "C93": [
  "partial",
  "exact characterisation and agreement on exported files proved; false for too few inputs (C93_short_false)"
 ],
 "C94": [
  "partial",
  "order of the curve and completeness of the check proved for the first group; false for the second group (C94_subgroup_false)"
 ],
 "C95": [
  "proved",
  "the reading of the comment (N words to N words without loss) is refuted by C95_same_length_false"
 ],
 "C96": [
  "proved",
  "all primes, all residues"
 ],
 "C97": [
  "proved",
  ""
 ],
 "C98": [
  "partial",
  "exactness is false (C98_prime_false): every prime is accepted, numbers up to 1229 are decided exactly, a composite number of 1401 bits is accepted"
 ],
 "C99": [
  "partial",
  "ring operations, powers, roots, bytes and bits for all moduli; inverses and quotients for prime moduli. Refuted for FR, whose modulus is not prime, and for equality across moduli"
 ],
 "C100": [
  "partial",
  "all operations and conversions for all points in the affine, projective and extended classes; refuted for ProjPoint.as_etec and for the neutral element of MontPoint"
 ],
 "C101": [
  "partial",
  "all points and all scalars that are not negative, all widths from 2; refuted for negative scalars, widths 0 and 1, scalars of FQ above Q, and MontPoint"
 ],
 "C102": [
  "partial",
  "decompress accepts encodings that compress does not write and from_hash does not exclude the neutral element (negations proved); the rest in full"
 ],
 "C103": [
  "partial",
  "injectivity fails for lengths that are no multiple of three and for lists of scalars (negations proved); equality with the circuit's hash in full"
 ],
 "C104": [
  "partial",
  "honest signatures fail where the number reaches Q, and ranges, orders and membership of the curve are not checked (negations proved); the verdict and the agreement with C++ in full"
 ],
 "C105": [
  "partial",
  "False as stated: exponent 3 is never accepted, inputs are not bound in number or beyond the prime, and equal constants give a zero entry of the matrix (C105_cubic_false, C105_injective_false, C105_matrix_false). The hash, the constants, the matrix, the parameters and the agreement with C++ are proved."
 ],
 "C106": [
  "partial",
  "Backward labels get no JUMPDEST, SWAP(0) is DUP16 and the largest word is refused: proved as falsities; the rest holds for all programs."
 ],
 "C107": [
  "proved",
  "Both exponents, all call data, against the library, the Solidity contract and the circuit."
 ],
 "C108": [
  "partial",
  "Proved for width 6, the field of the circuits, exponent 5 and one to five inputs (all words, all encodings), and for all call data against the permutation of the loaded words at widths up to 7. False for other widths, moduli, exponents and numbers of inputs."
 ],
 "C109": [
  "partial",
  "Evaluation, interpolation, recovery, the exact error with one share too few, secrecy (exactly one polynomial per secret), the inverse, the agreement with the gadget and the constraint check are proved for all sizes; refused malformed arguments are false: repeated shares and a zero of another modulus pass (C109_duplicate_false, C109_r1cs_mismatch_false)."
 ],
 "C110": [
  "partial",
  "Packing is proved for all strings and chunk sizes, with ranges, injectivity and the agreement with the contract; unpacking for up to five words with elements of at least 2^100 (C110_unpack_partial, C110_words_partial). The rest of the claim is false: C110_unpack_false, C110_long_false, C110_length_false, C110_chunk_false, C110_native_false."
 ],
 "C111": [
  "partial",
  "false of the code for negative inputs, inputs above 2^256, missing inputs and empty keys; everything else is proved"
 ],
 "C112": [
  "partial",
  "false of the code for sums that wrap, other exponents and the file argument of main; everything else is proved"
 ],
 "C113": [
  "proved",
  "All inputs; the two hypotheses about the logarithm remain only in C113_default (the checks of poseidon_params use floating point numbers)."
 ],
 "C114": [
  "partial",
  "what the text means, that nothing is lost, and for which inputs it is Solidity are proved for all files and names; that it compiles is false: the structures are declared nowhere"
 ],
 "C115": [
  "partial",
  "the state after every history is proved; that upgrade hands the number over is false"
 ],
 "C116": [
  "partial",
  "sums, multiples and laws are proved for all points and factors; that points outside the curve are refused is false"
 ],
 "C117": [
  "partial",
  "The encodings and the nonce are characterised for all messages; no reuse for MiMCEdDSA and EdDSA. False for PureEdDSA: messages of different length or type share nonces, and two accepted signatures then reveal the key (C117_pure_false, C117_key_revealed_false)."
 ],
 "C118": [
  "partial",
  "False in debug builds: satisfied examples whose A or B column polynomial lacks full degree abort (C118_debug_abort_false). Release builds: proved in full (C118_release); debug builds: exact characterisation (C118_debug)."
 ],
 "C119": [
  "proved",
  "Verdicts of the test functions for all inputs in place of the literals; the tests of SHA-256, Poseidon, EdDSA and field packing are not part of it. The proof-running tests are for release builds (debug builds: C49)."
 ],
 "C120": [
  "partial",
  "every recorded value is the one the model computes and every main ends with status 0; test_poseidon ends with status 0 whatever its last comparison says"
 ],
 "C121": [
  "proved",
  "for every compression gadget that meets its contract; an instance for the compression function of FIPS 180-4 is given"
 ],
 "C122": [
  "partial",
  "All methods pass for all random choices except test_3_validity (fails when a random point is the neutral element: C122_validity_false) and test_mult_all_random (fails for the scalar 0)."
 ],
 "C123": [
  "partial",
  "The recorded values and test_one_of_n pass as stated; test_random of the sharing polynomial fails on some legitimate draws (C123_shamir_random_false; C123_shamir_random is the exact condition)."
 ],
 "C124": [
  "partial",
  "All recorded values, test_tree and the contract tests proved; test_update fails when a replacement equals the leaf it replaces (C124_update_false; C124_update is the exact condition)."
 ],
 "C125": [
  "partial",
  "The recorded signatures are proved; test_signverify has the exact condition of C125_sign, which some keys do not meet (C104_honest_false shows it for a scheme)."
 ],
 "C126": [
  "proved",
  "for every implementation; the contracts pass; the verifier test up to the pairing of the recorded proof"
 ],
 "C127": [
  "partial",
  "the prototypes hold as stated; false for mimc.js (constants shifted by one, seed ignored) and for the deletion of zero roots in immr.py"
 ],
 "C128": [
  "partial",
  "the sieve for every bound from 4 on; false below 4"
 ],
 "C129": [
  "partial",
  "the recorded circuits and results are proved; the build target does not fail on a wrong result and forgets a crash (C129_make_false, C129_crash_false)"
 ],
 "C130": [
  "proved",
  "The verdicts of the three tests for every implementation and, for the repository's verifier, every record."
 ],
 "C131": [
  "partial",
  "The pairing benchmark is proved for all pairings and numbers of turns. The key benchmark says OK for files that hold no key (C131_load_false) and the profiling program ends with 0 for rejected proofs (C131_profile_false)."
 ],
 "C132": [
  "partial",
  "The constraints are proved solvable exactly for points in range. The script itself ends with ImportError (C132_import_false)."
 ],
 "C133": [
  "partial",
  "for random bytes whose value is a multiple of the order the script raises, and the printed signature verifies only if the response is less than the modulus of the field (C104)"
 ],
 "C134": [
  "proved",
  ""
 ],
 "C135": [
  "partial",
  "the script ends normally and the Edwards classes give the multiple; false for mult_naf and mult_naf_lut in Montgomery coordinates (C135_montgomery_false)"
 ]
}