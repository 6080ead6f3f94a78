# Formal model of HarryR/ethsnarks in Lean 4

Source: `/repo` (pinned commit, C++ under `/repo/src`).  Nothing in `/repo` is built or run; every
definition of the model cites the file and lines it was read from.

## 1. Shape of the model

* **Field.** `FieldT` is `Fr(alt_bn128)`: `Fp := ZMod r`, with `r` proved prime in Lean (Pratt
  certificates).  Purely algebraic gadgets are modelled over an arbitrary field `F`, so their theorems
  hold a fortiori for `Fp`; gadgets that look at bits or integers of field elements are modelled over `Fp`.
* **R1CS / protoboard** (libsnark `gadgetlib1`, not in the repo; modelled from its documented behaviour).
  A variable is a natural number (allocation index), a linear combination is a constant plus a list of
  `(variable, coefficient)`, a constraint is `⟨A⟩·⟨B⟩ = ⟨C⟩`, an assignment is a function from
  variables to field elements.
* **Gadgets.** A gadget is three things, exactly as in the C++ classes: a constructor (which variables it
  allocates, starting at the protoboard's next free index), the list of constraints
  `generate_r1cs_constraints` emits, and the assignment transformer `generate_r1cs_witness`.
  Out-of-bounds accesses, failed `assert`s and thrown exceptions are explicit outcomes (`Fault`).
* For every gadget we prove
  - **soundness**: *every* assignment satisfying the emitted constraints is in the relation the gadget
    claims to enforce (quantifies over all assignments, i.e. over malicious provers);
  - **completeness**: the witness generator ends without fault and its output satisfies the constraints;
  - **frame**: witness generation changes only variables allocated by the gadget itself.
  Composite gadgets (Merkle paths, MiMC chains, scalar multiplications, ...) are proved for every length
  by induction.
* **Specifications** live in `Verif/Spec/*`, are written without reference to the model (textbook
  definitions: polynomial evaluation, twisted Edwards group law, FIPS 180-4, RFC 7693, ...).
* **Property theorems** live in `Verif/Props/*`; helper lemmas in `Verif/Model/*` and `Verif/Lemmas/*`.
* Where the code does not have the property, the negation is proved with a concrete witness
  (`..._false`/`..._unsound`), and what does hold is proved as `..._partial`.

## 2. Trusted base

* Lean 4.33.0 kernel; Mathlib definitions used in statements (`ZMod`, `Field`, `List`, `BitVec`, ...).
* Axioms: only `propext`, `Classical.choice`, `Quot.sound` (checked with `#print axioms` in `Verif/Audit.lean`).
  No `sorry`, no `native_decide`, no `bv_decide`, no axioms of our own.
* Fidelity of the hand-written model to the C++ text (reviewed line by line; citations in comments).
* Behaviour of code that is not in `/repo` (its submodules are empty): libsnark protoboard, linear
  combinations, `packing_gadget`, `generate_boolean_r1cs_constraint`, `comparison_gadget`,
  `disjunction_gadget`, `sha256_compression_function_gadget`, `digest_variable`,
  `accumulation_vector`, the QAP reduction; libff field/bigint/curve arithmetic and the pairing; GMP `mpz`;
  nlohmann/boost JSON parsing; sha3.  Each of these is either modelled from its documented behaviour (and
  said so in the comment of the definition) or is a parameter of the theorem with its assumed contract as
  an explicit hypothesis.

## 3. Plan per property

| Property | What is modelled | How it is proved |
|---|---|---|
| C01–C03 | bit/byte conversions as list functions with bounds-checked writes | induction on lists; C03 negation (out-of-bounds write, i.e. UB) |
| C04 | byte import as positional value, cast to `Fp` | positional-notation lemmas |
| C05–C06 | block-by-block loop of `bits2blocks_padded` with allocation, values, constraints | induction over blocks; C06: negation with explicit satisfying assignment |
| C07 | C string as `List Char`, outcome `ok/false/throw` | induction |
| C08 | canonical representative compare | `ZMod.val_neg` arithmetic |
| C09–C13 | lookup / IsNonZero gadgets | case split on bits + `ring` |
| C14 | packer + comparisons + AND chain over 254 bits | uniqueness is false: witness with bits of `x+r`; partial: booleanity and value mod `r` |
| C15–C18 | selector, path gadget parametric in the hash gadget contract | induction on depth; binding by descending induction |
| C19–C21 | MiMC rounds, chains, Miyaguchi–Preneel | induction on rounds/messages; bijectivity from `gcd(e, r-1) = 1` |
| C22 | one_of_n with aliasing and value-dependent coefficients | negation + partial |
| C23 | shamir_poly | negation (free power-of-x variable) + partial (completeness) |
| C24 | subadd + libsnark comparison gadget | integer range argument in `ZMod r` |
| C25–C26 | Poseidon rounds over LCs | induction on rounds; Cauchy determinant; the number of constraints and variables in closed form (`C25_size`) |
| C27–C28 | sha256 gadgets parametric in the compression gadget contract | induction; C28 negation + partial |
| C29–C41 | JubJub gadgets, group law | completeness of Edwards addition (`a` square, `d` non-square), associativity by polynomial identities, induction on bits/windows; `eddsa_open` accepts every valid signature whose `R` has no small order (`C40_open_pure_valid`, `C40_open_eddsa_valid`) |
| C42–C43 | point conversions, point search loop | field algebra, induction on fuel |
| C44–C48, C67 | circuit reader: declarations, instructions, evaluation, constraint generation | induction on instruction list with an evaluation-order invariant |
| C49–C51 | Groth16 generator/prover/verifier over abstract bilinear groups and QAP | algebra in modules; QAP divisibility as hypothesis discharged by a Lagrange-basis model |
| C52–C54 | JSON tree emission/parsing with hex numerals | round-trip lemmas for numerals; `C54_numerals_partial` (`Props/Numerals.lean`): a grammar of the accepted texts, stated without the parser |
| C55–C58 | `sha256.c`, `md32_common.h`, `blake2b.c` over `BitVec` words | refinement of the streaming state machine to "hash of the bytes so far" |
| C59 | frame theorems of each gadget | collected |
| C60 | exit-code logic | case analysis |
| C61–C62 | MiMC round constants from sha3 (a parameter); Merkle–Damgård one-way function | unfolding against the published recursion; induction |
| C63 | group order of Baby Jubjub | points of coprime orders + the bound `#E ≤ 2r`; kernel evaluation of scalar multiples with verified projective formulas |
| C64 | `basepoints_required` with IEEE single precision division | exact rounding model; negation with a concrete length |
| C65–C66 | Pedersen hash injectivity; `flatten` | independent multiples of the base points with signed digits; list algebra |
| C67 | genkeys-mode and prove-mode constraint systems of the circuit reader | simulation between the two runs |
| C68 | SHA-224 | the streaming theorem at the other parameters |
| C69–C71 | Groth16 malleability, zero knowledge, rejection of unsatisfied systems | algebra over the pairing contract |
| C72 | Merkle level constants | verified SHA-256 evaluator run by the kernel on all 29 messages |
| C73 | export → file → import → verify | composition of C52, C53, C51, C49 |
| C74 | importers on arbitrary texts | false in general (`C74_release_false`, `C74_empty_false`); partial: every step of the importers is shown to return or throw unless an array is too short |
| C75 | points off the curve | false for the importers (explicit texts); proved: an accepted proof has points on the curves (the library's well-formedness check as hypothesis) |
| C76 | the text format | separate specification: grammar of RFC 8259 (`Spec/Rfc8259`) and the objects of the format (`Spec/JsonFormat`); parser soundness by induction on the fuel |
| C77 | stream operators, `writeToFile`, `loadFromFile` | `Model/Streams`: streams with a failed state; the library's operators are parameters with the contract `Codecs.OK` (`Spec/Streams`) |
| C78 | key generation → proof → verdict through files | composition of C77, C49, C73; the prover is shown to depend on the key only as group elements |
| C79 | text level of circuit and input files (`scanf` on the real format strings, `getline`, extractors) | grammar in `Spec/CircuitText.lean`; soundness and completeness per line and per file; `C79_hex_text` (`Props/Numerals.lean`): what becomes of every text in the place of a number; overruns and silently dropped lines proved as negations |
| C80 | `pinocchio` command: all six subcommands with files, standard output and exit codes | `Model/PinocchioMain.lean`; composition of C79 (files), C67 (same system for keys and proof), C45 (evaluation satisfies), C78 (pipeline), C49/C71 (verdicts); the negation of "prove refuses" with a concrete circuit |
| C81 | tracing and the printed form of instructions | invariance of the wire values under the allocations made while tracing; printed lines shown to lie in the grammar of C79; negation for the two multiplications by a constant |
| C82 | circuit reader in debug and release builds | `Model/CircuitRelease.lean` repeats evaluation and constraint generation with every assertion depending on the build; simulation up to a failed assertion; soundness and evaluation for instructions with the documented numbers of wires; negations with explicit circuits. The `pinocchio` command (C80, C81) uses this reader |
| C83 | public inputs of a circuit | false for every circuit with an output line (`C83_outputs_not_public_false`, `C83_output_unbound_false`); partial: circuits without output lines |
| C84 | knowledge soundness of the zkSNARK | `Spec/AlgebraicProver.lean` says what a prover limited to linear combinations of the keys is; the verification equation becomes one polynomial in the five trapdoors (`Lemmas/KnowledgeAlgebra.lean`); comparison of its coefficients gives the extractor, Schwartz–Zippel the count. The coefficients may not depend on the keys: this is the usual argument in the generic model, not a reduction to a hardness assumption |
| C85 | default MiMC round constants | `Spec/Keccak.lean` is FIPS 202 with the original padding (the build sets `SHA3_USE_KECCAK`); a proved evaluator (`Lemmas/KeccakEval.lean`) lets the kernel run the 110 hashes once; the tables are those of the contracts |
| C86 | MiMC in C++, Solidity and Python | `Model/Evm.lean` are 256-bit words; `Model/SolMiMC.lean` the contracts and the Python functions; the generated contracts add without reduction, hence the bound and the counterexample |
| C87 | `JubJub.sol`, `ETEC.sol`, `ModArith.sol` | words represent a point of the group in extended coordinates (`RepE`), kept by every operation; the inverse is the precompiled modular exponentiation; results compared with the group of `Spec/Edwards.lean` and with C34; for width 5 the result is determined for every scalar up to `2^254` |
| C88 | `wNAF.sol` | `IsWnaf` is the textbook definition; existence by the loop, uniqueness proved separately |
| C89 | `EdDSA.sol` | composition of C87 with `Fips.sha256`; the equation that is checked is proved, the one that should be checked is refuted in both directions |
| C90 | `MerkleTree.sol` | `Spec/IncrementalTree.lean` is the tree as a function of the leaves; the storage invariant `MerkleInv` is kept by each insertion; hash and level constants are those of C86 and C72 (29 constants and the placeholders compared by the kernel) |
| C91 | `merkletree.py` | same specification for every width and hash; invariant `PyInv` (stored nodes exist exactly up to the last leaf); `int(math.log(n, width))` is floating point and not modelled, so the depth is an argument |
| C92 | `Verifier.sol` | EVM words; the three precompiles are a parameter with the contract of EIP-196/197 (`Evm.Precompiles.Contract`); agreement with C50 through words that denote the same points (`SameGroups`) |
| C93 | `verifier.py`, `cli/verify.py` | JSON trees and Python exceptions; `py_ecc` is a parameter with a contract (`Py.PyEcc.Contract`); agreement with C50/C73/C76 through the text format |
| C94 | the point checks of `verifier.py` and of libff's `is_well_formed` (documented equation) | Mathlib's group of a Weierstrass curve; `(r-1)G = -G` computed by the kernel in Jacobian coordinates; `#E(Fq) = r` from `r | #E`, `#E ≤ 2q+1` and the absence of 2-torsion (`-3` is no cube); a twist point with `rP ≠ 0` computed by the kernel |
| C95 | `SnarkUtils.sol` | EVM words, with `2**256 = 0` and the reverting division by it; `Spec/PackedWords.lean` describes the result bit by bit; invariant of the copying loop |
| C96 | `numbertheory.py` Jacobi symbol and square roots | integers; compared with Mathlib's `jacobiSym`; the polynomials are evaluated at a root in the field of `p^2` elements, where the Frobenius map gives Cipolla's formula |
| C97 | `numbertheory.py` `inverse_mod`, `gcd`, `lcm` | invariants of the Euclidean loops |
| C98 | `numbertheory.py` `is_prime` | Fermat for the primes; the table of small primes is checked entry by entry; the composite number is a product of two primes `p`, `4p - 3` found outside, the two turns of Miller-Rabin are computed by the kernel. The number of turns depends on a floating point logarithm, which is a parameter |
| C99 | `field.py` | an element is a pair of numbers; `IsElem` relates it to a residue class of `ZMod m`, which determines it; `log2` of a modulus is a parameter |
| C100 | `jubjub.py`, the four point classes | coordinates in `Fp`; a representation relation to the group `BJ` per class (`RepPt`, `RepProj`, `RepEtec`, `RepMont`, each characterised by the conversion to affine coordinates); the formulas are checked by `linear_combination`, the exceptional cases of the Montgomery law by case analysis |
| C101 | `jubjub.py` multiplications | one proof over an interface of operations that respect a representation relation (`OpsSound`), instantiated for the classes; the loops carry fuel, the theorem gives a sufficient amount |
| C102 | `jubjub.py` `from_x`, `from_y`, `from_hash`, `compress`, `decompress` | square roots through C98; SHA-256 is any function on bytes; the loop of `from_hash` carries fuel, the theorem shows that it ends for every digest |
| C103 | `pedersen.py` | the fold over the windows with its running multiple of the base point is related to `pedersenSum` of `Spec/Pedersen.lean`, the specification of the circuit (C38) |
| C104 | `eddsa.py` | one proof for a record of the two methods in which the schemes differ; messages are an inductive type of what `to_bits`, `to_bytes` and `as_scalar` accept; the hash of the nonce is any function on bytes |
| C105 | `poseidon/permutation.py` | integers without bound; the digest and `log2` are any functions; the state is compared with the specification of C25 and with the values of the C++ witness |
| C106 | `evmasm.py` | the assembler with its dictionaries of labels and pending jumps; specification: a two-pass assembler (`Spec/EvmAsm.lean`) and the semantics of EVM instructions (`Spec/EvmMachine.lean`, without gas, storage and calls); invariant of the patching |
| C107 | `mimc/contract.py` | the list of instructions; symbolic execution of blocks without jumps, for any number of rounds; keccak constants of C85 |
| C108 | `poseidon/contract.py` | the list of instructions; symbolic execution of the blocks for any width up to 7 and any number of rounds, the subroutine `mix` and its return through memory; induction over rounds; the Poseidon specification |
| C109 | `shamirspoly.py`, `r1cs.py` | loops over elements and integers, faults for mixed moduli; Mathlib's Lagrange interpolation is the specification |
| C110 | `utils.py` | strings of binary digits as lists of `Bool`, texts as lists of characters; separate specification of the bits of a byte string and of the text of a word |
| C111 | `verifier.py to_json`, `NativeVerifier` | `json.dumps` as a recursive function on trees without escapes; a general lemma (`Py.parse_dumps`) shows that the parser of the C++ library reads the text of every such tree back; the native verifier is the composition with `ethsnarks_verify` |
| C112 | `mimc/contract_sol.py`, the text of the two generated contracts | `Spec/SolText.lean` reads and runs the part of Solidity that is used (tokens, expressions, statements, variables); the generator is a function to lines; the committed files are copied into `Model/SolGenerated.lean` and compared line by line by the kernel |
| C113 | the default constants: `poseidon_constants_fill`, `poseidon_matrix_fill`, `DefaultParams` with the BLAKE2b of `Spec/Blake2b.lean` | an evaluator of BLAKE2b on natural numbers (`Lemmas/Blake2bEval.lean`), proved equal to the specification, lets the kernel compute the 77 digests; the inverses are checked by multiplication; the rest follows from C25, C26, C58, C105, C108 |
| C114 | `cli/proof2sol.py`, `cli/vk2sol.py`, `cli/utils.py`: lines, `print`, arguments and exit codes | a reader of structure assignments (`Spec/SolStruct.lean`) runs the text; the tokens of every line are computed, statements read one by one, the array filled by induction over its elements. False: none of the five structures named is declared by the contracts, so that no text compiles (`C114_compiles_false`); negative inputs are printed (`C114_negative_false`) |
| C115 | `Migrations.sol`: constructor, modifier, `setCompleted`, `upgrade` with the call of the other contract; accounts with other code may call at any time | invariant over all histories: the state is a function of the history (`deployer`, `reported`) that does not mention upgrades. False: `upgrade` hands nothing over, since the sender of the inner call is the old contract, which owns nothing (`C115_upgrade_false`); `C115_upgrade_partial` says when it would |
| C116 | `JubJubPublic.sol` on the model of `JubJub.sol` | from C87; the laws by the group. False: `(0, 0)` is accepted (`C116_validation_false`) |
| C117 | `to_bytes`, `hash_secret` and the challenges of the three schemes of `eddsa.py` (model of C104) | the encodings are specified as 32-octet numbers and bit strings (`C117_data`), the nonce by `C117_nonce`. True for `MiMCEdDSA` (`C117_mimc`) and `EdDSA` (`C117_eddsa`), within one type for `PureEdDSA` (`C117_pure_partial`). False for `PureEdDSA` across lengths and types (`C117_pure_false`), and then two accepted signatures give the key (`C117_key_revealed_false`) |
| C118 | `run_r1cs_gg_ppzksnark_zok`, its test and `dummy_verification_key` (`Model/RunExample.lean`), over the generator, prover, verifiers and stream operators of C49-C77 | whenever the keys and the proof exist the run ends with true (`C118_run_partial`); in a release build they always exist for a satisfied example (`C118_release`). A debug build is characterised exactly (`C118_debug`): it also needs both column polynomials of full degree, so it aborts for satisfied examples whose B column vanishes (`C118_debug_abort_false`). The verdict under a dummy key: `C118_dummy` |
| C119 | the test functions of `src/test` and `src/test/jubjub` (`Model/TestPrograms.lean`) as functions of their literals and random elements, over the gadgets' models; `stub_test_proof_verify` is a parameter, then instantiated with C49's | for each function the verdict in closed form (`C119_field2bits`, `C119_isnonzero`, `C119_subadd`, `C119_mimc`, `C119_authenticator`, `C119_add`, `C119_dbl`, `C119_isoncurve`, `C119_notloworder`, `C119_mul`, `C119_mul_fixed`, `C119_mul_fixed_zcash`, `C119_hash`, `C119_commitment`, `C119_lookup2`); for those that prove and verify, that the board is ready and which size of evaluation domain it needs (`Proves`; `C119_lookup1`, `C119_lookup3`, `C119_one_of_n`, `C119_shamir`, `C119_selector`, `C119_mimc_hash`), hence true in a release build (`C119_release`). Debug builds: see C49 |
| C120 | the `main` functions of the tests with their literals (`Model/TestMains.lean`), status and order of the calls as in the source; printing is left out | the literals are fed to the theorems of C119, so that each case becomes an equation between a recorded value and the reference definition; these are computed by the kernel with natural numbers and certificates (`Lemmas/CurveEval.lean`, `Lemmas/TestBases.lean`: projective arithmetic, roots or proofs that there is none, base points from SHA-256, Pedersen hashes). `C120_field2bits` … `C120_eddsa`: status 0; `C120_mimc_hash_main`, `C120_merkle_main`, `C120_poseidon`: status 0 on every proof system that accepts the boards (`Accepts`), which `Accepts.release` shows of Groth16 in a release build. Partial: the status of `test_poseidon` does not depend on the comparison of the permutation (`C120_poseidon_status`, `C120_poseidon_status_false`) |
| C121 | `test_sha256_many`, `test_sha256_rand`, `test_sha256_full_gadget`, `fill_words`, `test_packing_bytes_to_field` and their `main` functions (`Model/TestSha256.lean`), with the C code of C55, `bytes_to_bv`, `bv_to_bytes` and the gadgets of C27 and C28; uninitialised memory is an argument; libsnark's compression gadget, `get_bits` and libff's packing by their documented behaviour | `Spec/Sha2Bits.lean` restates the compression function of FIPS 180-4 on strings of bits; `isMDHash_sha256` shows that the iterated hash of the bits of a message is the digest of `Spec/Sha2.lean`. `C121_many_fips`, `C121_full_fips` (the gadgets), `C121_many`, `C121_full` (the verdict of the tests for every compression gadget, right or wrong), `C121_many_main`, `C121_full_main` (status 0), `C121_full_recorded` (the recorded digest, evaluated by the kernel), `C121_packing`, `C121_packing_contract`, `C121_packing_main`. `Mux.gadget_ok` (`Lemmas/MuxCompress.lean`) builds, for every function on bits, a gadget that meets `CompressOK`, so the assumption can be met for the compression function of SHA-256 |
| C122 | every method of `test/test_jubjub.py` and `test/test_jubjub_lmask.py` (`Model/TestPyJubjub.lean`), on the classes of C100-C102; random bytes and scalars are arguments, a failing assertion is `.assertFail` | `C122_point_r`, `C122_random_points`, `C122_multiplicative`, `C122_naf`, `C122_lmask` (for all choices); `C122_via_all`, `C122_validity_partial`, `C122_validity_false`, `C122_mult_all_random_partial` (exactly when); `C122_doubles`, `C122_mult_all_known`, `C122_equality`, `C122_negate`, `C122_zero`, `C122_known`, `C122_hash_to_point`, `C122_nonsquares`, `C122_loworder` (recorded values, through the group law and the kernel). `multNafLut_two`: for the width 2 the two methods do the same operations |
| C123 | `test/test_shamir_poly.py`, `test/test_one_of_n.py`, `test/test_pedersen.py` (`Model/TestPyMisc.lean`) on the models of C103, C109; random numbers are arguments | `C123_shamir_random`, `C123_one_of_n`, `C123_pedersen_zcash` (exact conditions), `C123_shamir_random_false`, `C123_zcash_passes`; `C123_shamir_static`, `C123_poly_constraints`, `C123_pedersen_scalars`, `C123_pedersen_bytes`, `C123_pedersen_bits` (recorded values, kernel) |
| C124 | `test/test_mimc.py`, `test_mimc_evm.py`, `test_poseidon.py`, `test_poseidon_evm.py`, `test_bitstofields.py`, `test_merkle.py` (`Model/TestPyLib.lean`) on the models of C85, C86, C91, C107, C108, C110, C113; the EVM tests are stated on the deployed code directly, since `eth_tester` is not modelled | `C124_mimc`, `C124_mimc_evm`, `C124_poseidon`, `C124_poseidon_evm`, `C124_packing`, `C124_tree` (exact condition, all items), `C124_tree_passes` (the 32 items of the test), `C124_update` (exact condition, all widths), `C124_update_false`, `C124_known1`, `C124_known_2pow28`, `C124_uniques` |
| C125 | `test/test_eddsa.py` (`Model/TestPyLib.lean`) on the model of C104, with SHA-256 and Keccak-256 from their specifications | `C125_hash`, `C125_pure`, `C125_mimc` (kernel evaluation of challenge and both sides, for the refusals too), `C125_sign` (exact condition, from C104) |
| C126 | `test/TestJubJub.sol`, `TestMerkleTree.sol`, `TestMiMC.sol`, `TestSnarkUtils.sol`, `TestVerifier.sol`, `TestMiMC.js` (`Model/TestSol.lean`): each test is a function of the library it tests; gas estimates, and with them `TestJubJub.js`, are not modelled | `C126_jubjub_exact`, `C126_mimc_exact`, `C126_unique_exact`, `C126_tree_exact`, `C126_reverse_exact`, `C126_pack_exact` (every implementation); `C126_jubjub`, `C126_mimc`, `C126_tree`, `C126_snarkutils` (the contracts, from C86, C87, C90, C107 and kernel evaluation); `C126_verifier` (exact condition under the contract of the precompiles; that the recorded proof satisfies it would need an evaluation of the pairing) |
| C127 | `.appendix/fast-add.py`, `mixed-addition.py`, `2-bit-window.py`, `three-bit-window.py`, `find_loworder_points.py`, `immr.py`, `mimc.js` (`Model/PyAppendix.lean`); random choices and the values of the library that the assertions compare with are arguments | `C127_point_add_exact`, `C127_point_add`, `C127_fast_main`, `C127_fast_passes`, `C127_mixed_add`, `C127_mixed_main`, `C127_mixed_passes` (group law of C100/C101); `C127_two_bit`, `C127_three_bit`; `C127_loworder` (exact condition on the random points); `C127_range` (invariant on levels, every hash function), `C127_range_count`, `C127_range_peaks`, `C127_range_stale_false`; `C127_mimc_js_partial`, `C127_mimc_js_false` |
| C128 | `.appendix/primes.py rwh_primes2`, `.appendix/arith-coding-window-6.py` (`Model/PySieve.lean`); the square root in floating point is a parameter, the solver is the existence of a solution | `C128_primes` (invariant of the sieve over the wheel modulo 6), `C128_primes_false` (bounds below 4), `C128_coding`, `C128_coding_check` |
| C129 | `test/pinocchio/*` (the files character by character), `src/pinocchio/jsnark_test.cpp`, the rules of `Makefile:106-113` (`Model/PinocchioTests.lean`): `resultRule` is a function of the program it runs; time stamps are the parameter `fresh` | `C129_two_operands`, `C129_one_operand` (text to output through the reader of C79), `C129_systems` (exactly the satisfying assignments), `C129_recorded`, `C129_jsnark`, `C129_rule`, `C129_rule_result`, `C129_program` (the rule succeeds exactly if `main` returns 0), `C129_make`; the last part of the property is false: `C129_make_false`, `C129_crash_false` |
| C130 | `test/test_verify.py` (`Model/TestVerify.lean`), on the models of C93 and C111; the two tests of `verify` are one function of the class of the key | `C130_roundtrip_exact`, `C130_roundtrip_fails`, `C130_verify_exact` (every implementation), `C130_roundtrip` (every record), `C130_records` (kernel evaluation of both records and of the curve equations), `C130_roundtrip_passes`, `C130_verify_same`, `C130_verify` (exact condition under the contracts of the pairings; that the recorded proof satisfies it would need an evaluation of the pairing) |
| C131 | `src/test/benchmark/benchmark_pairing.cpp`, `benchmark_load_proofkey.cpp`, `profile_r1cs_gg_ppzksnark_zok.cpp` (`Model/Benchmarks.lean`); the number of turns, `atoi` and the run of the example are parameters | `C131_accumulator`, `C131_pairing_exact` (every implementation), `C131_pairing`, `C131_constant`, `C131_two`, `C131_load_usage`, `C131_load_partial`, `C131_profile`, `C131_profile_usage`; that `OK` means a key and that 0 means an accepted proof is false: `C131_load_false`, `C131_profile_false` |
| C132 | `.appendix/z3_test_poly.py` (`Model/PyPolySolver.lean`); the solver is not modelled | `C132_eval`, `C132_solutions`, `C132_satisfiable` (by choosing the two free coefficients of a multiple of `(X - I)(X - J)` outside at most six residues), `C132_script_partial`; the last part of the property is false: `C132_import_false` |
| C133 | `.appendix/mimceddsa.py` with `random_keypair` (`Model/PyEdDSAScript.lean`), on the models of C99, C103 and C104; the bytes of `urandom` are an argument, `sha512` a parameter | `C133_keypair`, `C133_script_partial` (what is printed, and the exact condition under which it verifies); the property is false without that condition and for the key 0: `C133_zero_false` |
| C134 | `.appendix/ejubjub.sage` (`Model/SageCurve.lean`); Sage's curves, points and orders are Mathlib's `WeierstrassCurve.Affine.Point`, `Nat.card`, `addOrderOf`; the choice of roots and of the twisting nonsquare are parameters, `range(1, 1e3)` is read as 1 to 999 | `C134_group` (the addition of C100 in Montgomery coordinates is Mathlib's group law), `C134_orders` (quadratic characters for the twist, Lucas certificates for the primes), `C134_basepoint`, `C134_script`; this also ties the specification `BJ` of all statements about points to a group law that is not ours |
| C135 | `.appendix/benchmark-jubjub.py` (`Model/JubjubBench.lean`); the values of the expressions are the result, times are not modelled; the bytes of `urandom` are a parameter per call | `C135_calls`, `C135_values_partial`, `C135_script_partial` (no exception for any bytes; the multiple in the three Edwards classes, and for `d * x`); false for `mult_naf` and `mult_naf_lut` of the Montgomery object: `C135_montgomery_false` |

## 4. Where the code does not do what its interface says

Each line is a theorem about the model (negation with an explicit witness), not an opinion.

| Where | What happens | Theorem |
|---|---|---|
| `utils.cpp int_list_to_bits` | two or more integers: writes outside the vector (the example in the header comment is undefined behaviour) | `C03_int_list_to_bits_false` |
| `utils.cpp bits2blocks_padded` | zero padding bits are assigned but not constrained, so a prover may choose them | `C06_padding_not_enforced_false`, `C27_sha256_many_sound_false`, `C28_sha256_full_sound_false` |
| `gadgets/field2bits_strict` | result of the `< r` comparison is not constrained: values below `2^254 - r` have two decompositions | `C14_field2bits_not_unique_false`, `C38_tobits_alias_false`, `C40_alias_false` |
| `gadgets/merkle_tree` | `is_right` is not constrained to a bit; level constants are unconstrained variables | `C15_selector_nonboolean_false`, `C16_ivs_unconstrained` |
| `gadgets/one_of_n` | coefficients are taken from the values present when the constraints are generated; `our_item` is not tied to the items; re-use keeps stale toggles | `C22_*_false` |
| `gadgets/shamir_poly` | the variable holding `x¹` is unconstrained; two coefficients: out-of-bounds read | `C23_shamir_false`, `C23_shamir_two_ub` |
| `gadgets/subadd` | operands must be range checked by the caller | `C24_subadd_needs_range_checks` |
| `gadgets/poseidon` | fewer than four full rounds or no partial round: undefined behaviour | `C25_poseidon_few_rounds_ub` |
| `gadgets/sha256_full` | `generate_r1cs_witness(block, expected)` never runs the second compression gadget | `C28_witness_block_skips_final` |
| `jubjub/fixed_base_mul` | 0 or 2 scalar bits are accepted, the result is undefined behaviour | `C35_short_scalar_false` |
| `jubjub/fixed_base_mul_zcash` | one window: undefined behaviour; `basepoints_required` computes in single precision and is too small from `2^24` bits on | `C36_one_window_false`, `C64_false`, `C64_overflow_false` |
| `jubjub/montgomery` | equal operands leave the slope free; `(0,0)` leaves `x` free | `C37_adder_equal_false`, `C37_to_edwards_zero_false` |
| `jubjub/eddsa` | `s` is not reduced, the key is not checked, the encodings alias | `C40_malleable_false`, `C40_neutral_key_false`, `C40_alias_false` |
| `jubjub/point` | base point names that differ in trailing spaces collide | `C43_trailing_space_false` |
| `pinocchio/circuit_reader` | `zerop` evaluates and constrains different outputs; 3-input tables leave the output free and unassigned; a secret input declared first becomes public; inputs declared twice; constraint system differs between genkeys and prove | `C44_zerop_false`, `C47_*_false`, `C48_*_false`, `C46_*_false`, `C67_*_false` |
| `pinocchio/circuit_reader` text level | a gate name of 200 or more characters overruns `type[200]`; `5 = ff` in an input file overruns `separator[2]`; release builds skip a line with an unknown instruction, so a misspelt gate leaves its constraint out | `C79_long_word_false`, `C79_two_separators_false`, `C79_release_drops_gate_false` |
| `pinocchio/circuit_reader` release build | numbers of wires are checked by assertions only: a third factor is dropped, a missing one is read out of bounds, `zerop` with one output is accepted; a table selector that is not a bit reads outside the table | `C82_extra_operand_false`, `C82_missing_operand_false`, `C82_zerop_one_output_false`, `C82_selector_false` |
| `pinocchio/circuit_reader` and its README | the README says that inputs and outputs are public; outputs are not part of the statement | `C83_outputs_not_public_false`, `C83_output_unbound_false` |
| `r1cs_gg_ppzksnark_zok` prover | debug build stops on honest witnesses whose quotient has a zero top coefficient | `C49_debug_abort_false` |
| `utils.hpp loadFromFile` | release builds: a missing or empty key file goes unnoticed, proving continues with a default constructed key | `C77_missing_release_false` |
| `stubs.cpp stub_genkeys_from_pb` | returns 0 although no file could be written; equal file names overwrite the verification key | `C78_unwritable_false`, `C78_same_file_false` |
| `pinocchio/main.cpp` `main_genkeys`, `main_prove` | print "Error" when the constraints are not satisfied and go on; a release build writes a proof that no verifier accepts and exits with 0 | `C80_prove_unsatisfied_false` |
| `pinocchio/circuit_reader.cpp CircuitInstruction::print` | `const-mul` and `const-mul-neg` are printed without their constant in the name; read back, the first stops the reader and the second becomes a multiplication by zero | `C81_print_const_false` |
| `export.cpp` | the point at infinity becomes `(0, 1)`; `G2` points with exactly one zero coordinate in `Z` are not normalised | `C52_infinity_false`, `C52_g2_false`, `C53_infinity_false` |
| `import.cpp` | empty `gammaABC`: undefined behaviour in every build; points that are arrays of fewer than two elements: undefined behaviour in release builds; numbers `≥ r` alias; release builds accept a minus sign and truncate above 256 bits; points are not checked to be on the curve | `C53_empty_false`, `C74_release_false`, `C74_empty_false`, `C54_alias_false`, `C54_negative_false`, `C54_overflow_false`, `C75_proof_false`, `C75_vk_false` |
| `contracts/MiMCpe7_generated.sol`, `MiMCpe5_generated.sol` | the sums are not reduced: on unreduced words the result differs from the circuit and from `MiMC_permutation.sol` | `C86_generated_false` |
| `contracts/JubJub.sol scalarMultNAF` | reverts for the scalar 0; wrong result for a point whose first coordinate is not reduced | `C87_naf_zero_false`, `C87_naf_unreduced_false` |
| `contracts/JubJub.sol scalarMultNAF5` | zero digits are encoded as 16 but the loop skips 0 and 8, and the window holds 4, 5, … instead of 5, 7, …: the result is `(0,0)` for almost all scalars and right only for 0, 1, 3 | `C87_naf5_null_false`, `C87_naf5_large_false`, `C87_naf5_window`, `C87_naf5_iff` |
| `contracts/JubJub.sol Generator` | not the generator of `params.hpp`: eight times it is | `C87_generator` |
| `contracts/wNAF.sol` | overflow for values above `2^256 - 2^(w-1)` | `C88_overflow_false` |
| `contracts/EdDSA.sol Verify` | does not add `R` | `C89_equation_false`, `C89_honest_false`, `C89_forgery_false` |
| `contracts/MerkleTree.sol` | leaves are not required to be reduced; the placeholder of the next position verifies; a node whose hash is 0 counts as absent | `C90_alias_false`, `C90_placeholder_accepted` |
| `ethsnarks/merkletree.py` | `proof` uses `list.remove`, which removes the first equal child; the capacity is not checked against `width^depth` (`MerkleTree(6)`); 0 is a leaf | `C91_duplicate_false`, `C91_overfull_false`, `C91_zero_false` |
| `contracts/Verifier.sol` | `NegateY(0)` is `q`, which the precompile rejects: a valid proof whose `vk_x` is the point at infinity reverts; the second word of `C` may be any word with the same residue | `C92_vkx_false`, `C92_vkx_witness`, `C92_malleable_false` |
| `contracts/SnarkUtils.sol PackWords` | the comment promises N words of 253 bits for N words of 256 bits: `3N` bits are dropped, so that inputs collide | `C95_same_length_false` |
| `ethsnarks/numbertheory.py is_prime` | accepts a composite number of 1401 bits (bases 2 and 3 only) | `C98_prime_false` |
| `ethsnarks/field.py FR` | `inv` and division use Fermat's theorem, but the modulus is 8 times a prime | `C99_fr_inverse_false` |
| `ethsnarks/field.py __eq__` | zeros of different moduli are equal, other elements of different moduli raise | `C99_eq_false` |
| `ethsnarks/jubjub.py ProjPoint.as_etec` | `t = x y` instead of `x y / z` | `C100_as_etec_false` |
| `ethsnarks/jubjub.py MontPoint` | `infinity()` doubles to another point, is not its own negative, is not valid and converts to the point of order 2; hence `mult_naf` and `mult_wnaf` are wrong for all, `mult` for points of low order | `C100_montgomery_zero_false`, `C101_mult_montgomery_false`, `C101_naf_montgomery_false` |
| `ethsnarks/jubjub.py mult` | negative scalars never end in `mult` and give the neutral element in `mult_naf`; widths 0 and 1 give the neutral element and an exception; scalars in `FQ` are reduced modulo the wrong number | `C101_mult_negative_false`, `C101_naf_negative_false`, `C101_width_false`, `C101_scalar_false` |
| `ethsnarks/jubjub.py Point.decompress` | accepts ordinates from `Q` on and the sign 1 at abscissa 0, so that points have several encodings | `C102_decompress_false` |
| `ethsnarks/jubjub.py Point.from_hash` | the comment promises that the result is not the identity; there is no such check | `C102_identity_false` |
| `ethsnarks/pedersen.py pedersen_hash_bits` | the last window is filled with zeros, messages that differ only in trailing zeros collide | `C103_padding_false` |
| `ethsnarks/pedersen.py pedersen_hash_scalars` | the windows of the scalars are concatenated without lengths: `[1, 1]` and `[9]`, `[0, 9]` and `[9]` collide | `C103_scalars_false` |
| `ethsnarks/eddsa.py Signature` | `s`, a number modulo the order `E` of the curve, is reduced modulo `Q < E`; a signature made by `sign` verifies exactly if the number is less than `Q` | `C104_honest_false`, `C104_honest_partial` |
| `ethsnarks/eddsa.py verify` | no bound on `s`, no check of the order of `A` and `R`, none that they are on the curve; `R = (0, 0)` acts as the neutral element | `C104_malleable_false`, `C104_neutral_false`, `C104_off_curve_false` |
| `ethsnarks/eddsa.py PureEdDSA` | trailing zeros of a bit string are not signed | `C104_padding_false` |
| `ethsnarks/poseidon/permutation.py poseidon_params` | the condition for exponent 3 is `p % 2 == 3`, which no number meets; exponent 3 is refused always | `C105_cubic_false`, `C105_params` |
| `ethsnarks/poseidon/permutation.py poseidon` | inputs are filled up with zeros and reduced: `[x]`, `[x, 0]` and `[x + p]` have the same hash | `C105_injective_false` |
| `ethsnarks/poseidon/permutation.py poseidon_matrix` | equal constants give a zero entry where C++ stops | `C105_matrix_false`, `C105_matrix_cpp` |
| `ethsnarks/evmasm.py Codegen.append` | a label that is defined before its first reference emits no `JUMPDEST`: the loop is accepted and the jump fails | `C106_backward_false`, `C106_assemble` |
| `ethsnarks/evmasm.py SWAP` | `SWAP(0)` is accepted and is `DUP16`; `SWAP16` cannot be made | `C106_swap_false` |
| `ethsnarks/evmasm.py PUSH` | `2^256 - 1` is refused | `C106_push_range`, `C106_push` |
| `ethsnarks/mimc/contract.py` | the length of call data is not checked | `C107_short` |
| `ethsnarks/poseidon/contract.py` | widths other than 6 load the wrong words of the call data: below 6 the first inputs are ignored, at 7 the length is hashed; from 8 on `DUP` raises | `C108_narrow_false`, `C108_wide_false`, `C108_too_wide_false`, `C108_call_partial` |
| `ethsnarks/poseidon/contract.py` | modulus and exponent of the parameters are ignored | `C108_modulus_false` |
| `ethsnarks/poseidon/contract.py` | arrays without elements or with six or more are answered, although the library refuses them; elements behind the sixth are ignored | `C108_length_false` |
| `ethsnarks/shamirspoly.py lagrange` | repeated abscissae are not noticed: the difference 0 is inverted to 0 and the result is a wrong secret (the same share twice gives 0) | `C109_duplicate_false` |
| `ethsnarks/r1cs.py r1cs_constraint` | a zero of another modulus is accepted as the product | `C109_r1cs_mismatch_false` |
| `ethsnarks/utils.py libsnark2python` | elements with up to 100 binary digits are not filled up to 253, so that all following bits move (example: `bytes32("abc")` and a second word) | `C110_unpack_false`, `C110_unpack_partial`, `C110_words_partial` |
| `ethsnarks/utils.py libsnark2python` | with more than five words the zero bits at the end of the last word are lost and the word is shifted | `C110_long_false` |
| `ethsnarks/utils.py bytes_to_field_elements` | the length of the string is lost; a chunk size above 253 gives elements outside of the field, a negative one none, without an error | `C110_length_false`, `C110_chunk_false`, `C110_chunk` |
| `ethsnarks/utils.py native_lib_path` | on Windows the suffix is `.so` (`if` instead of `elif`) | `C110_native_false` |
| `ethsnarks/verifier.py to_json` | a negative input, which `from_dict` accepts, is written as `-0x…`, which `from_dict` refuses and the release build of the C++ library reads as another number | `C111_negative_false`, `C111_reload_proof` |
| `ethsnarks/verifier.py NativeVerifier` | disagrees with `VerifyingKey.verify` on inputs of more than 256 bits, in both directions, and on too few inputs; undefined behaviour for a key without coefficients | `C111_wide_false`, `C111_short_false`, `C111_empty_false` |
| `ethsnarks/mimc/contract_sol.py mimc_contract_solidity` | any exponent but 5 and 7 gives a library without rounds, which adds its arguments; the sums in a round wrap for unreduced arguments | `C112_exponent_false`, `C112_mimc_false` |
| `ethsnarks/mimc/contract_sol.py main` | with the documented argument `outfile` the program raises (`args[3]`), with a further one it opens that file for bytes, empties it and raises | `C112_main_false` |
| `ethsnarks/cli/proof2sol.py`, `vk2sol.py` | the text uses `Verifier.ProofWithInput`, `Verifier.Proof`, `Verifier.VerifyingKey`, `Pairing.G1Point`, `Pairing.G2Point`, which no contract declares, so that it never compiles; negative inputs are printed as `-0x…` | `C114_compiles_false`, `C114_negative_false` |
| `contracts/Migrations.sol upgrade` | the sender of the inner call is the old contract, which is not the owner of the new one: the call succeeds and changes nothing | `C115_upgrade_false` |
| `contracts/JubJubPublic.sol` | points are not checked to be on the curve | `C116_validation_false` |
| `ethsnarks/eddsa.py PureEdDSA.sign` | the nonce does not depend on the length of a bit string within its last octet nor on the type of the message, the challenge does: two such signatures reveal the secret key | `C117_pure_false`, `C117_key_revealed_false` |
| `run_r1cs_gg_ppzksnark_zok.tcc`, `r1cs_gg_ppzksnark_zok.tcc` prover | a debug build aborts on satisfied examples whose A or B column polynomial is not of full degree | `C118_debug`, `C118_debug_abort_false` |
| `src/test/test_poseidon.cpp main` | the last comparison, of `permute({1,2})` with the recorded value, prints a message and leaves the status 0: with a wrong matrix the test still passes | `C120_poseidon_status_false` |
| `src/test/test_sha256_full_gadget.cpp` | the expected digest is written into the output variables after the witness was generated and before it is read back, so the comparison that follows succeeds for every gadget; only `is_satisfied` tests the circuit | `C121_full_compare_vacuous` |
| `test/test_jubjub.py test_3_validity, test_mult_all_random` | both fail on a legitimate random choice: the neutral element is not valid in Montgomery coordinates, and zero times a point is read back as `(0, -1)`; line 28 converts `p` instead of `q`, so `as_mont` of the other classes is never tested | `C122_validity_false`, `C122_via_all`, `C122_mult_all_random_partial` |
| `test/test_shamir_poly.py test_random` | fails on legitimate draws: a top coefficient of zero, or a first abscissa among the last three elements of the field | `C123_shamir_random`, `C123_shamir_random_false` |
| `test/test_pedersen.py test_zcash` | `assertTrue(p.valid)` asserts a bound method and never calls it; the validity of the hash is not tested | model of `pedersenZcash`, `C123_pedersen_zcash` |
| `test/test_merkle.py test_update` | fails if a random replacement is equal to the leaf it replaces | `C124_update_false` |
| `test/test_eddsa.py test_signverify` | fails for keys and messages whose `s` is not below the modulus of the default field (`Signature` reduces it in the wrong field) | `C125_sign`, `C104_honest_false` |
| `test/TestJubJub.js` | no assertion: the three tests print estimates of gas; the first adds `(0, 0)`, which is not on the curve | `test/TestJubJub.js:14-50` |
| `.appendix/mimc.js getConstants` | the hash of the seed is the first constant, so the constants are those of the library shifted by one place; the argument `seed` is ignored (`C127_mimc_js_false`) | `.appendix/mimc.js` |
| `.appendix/immr.py` | deleting a root whose value is 0 stores the key with the value 0 instead (`C127_range_stale_false`); the script imports `ethsnarks.longsight`, which does not exist | `.appendix/immr.py` |
| `.appendix/find_loworder_points.py` | the number of random points does not guarantee that the eight low-order points are found: the first assertion fails for some choices (`C127_loworder`) | `.appendix/find_loworder_points.py` |
| `.appendix/primes.py` | raises for the bounds 0 and 1 and returns `[2, 3]` for 2 and 3; `primes.py 0` and `primes.py 1` are such calls (`C128_primes_false`) | `.appendix/primes.py:5-15` |
| `Makefile pinocchio-test` | a wrong result does not fail the target: `diff … || rm $@` ends with the status of `rm` (`C129_make_false`); after a crash the half-written result file stays, and the next `make` takes it for up to date (`C129_crash_false`) | `Makefile:111-113` |
| `benchmark_load_proofkey` | prints `OK` for every file whatever it contains with `BINARY_OUTPUT` or in a release build, and in a release build for a missing file (`C131_load_false`) | `benchmark_load_proofkey.cpp:18-21`, `utils.hpp:180-198` |
| `profile_r1cs_gg_ppzksnark_zok` | throws away the verdict of the run: a rejected proof ends with 0 (`C131_profile_false`) | `profile_r1cs_gg_ppzksnark_zok.cpp:69` |
| `.appendix/z3_test_poly.py` | imports `shamirs_poly_n` and `randn`, which `shamirspoly.py` does not have: `ImportError` (`C132_import_false`) | `z3_test_poly.py:4` |
| `.appendix/benchmark-jubjub.py` | `mult_naf` and `mult_naf_lut` of the object in Montgomery coordinates do not return the multiple (`C135_montgomery_false`, `C101_naf_montgomery_false`), so nine of the forty timings measure something else; the comment calls `b` projective and `c` extended, the code makes `b` extended and `c` projective | `benchmark-jubjub.py:5-7, 53, 63-69` |
| `random_keypair` | can return the key 0, which `sign` refuses with an exception (`C133_zero_false`) | `eddsa.py:153-158, 165-166` |
| `ethsnarks/verifier.py verify` | the number of inputs is not checked: missing ones are 0; inputs are not required to be below `r`; hexadecimal without `0x` where C++ reads decimal; strings are loaded as points | `C93_short_false`, `C93_alias_false`, `C93_decimal_false`, `C93_string_point_false` |
| `ethsnarks/verifier.py _load_g2_point`, `is_well_formed` | no subgroup check in the second group (the TODO in the code) | `C94_subgroup_false` |

Read but not expressed as theorems: in circuit files a missing closing bracket is accepted and an empty wire list `<>` never parses;
`MerkleDamgard_OWF::result()` does not type-check when instantiated; several calls rely on the
unspecified evaluation order of function arguments (`addTableConstraint`, `eddsa_open`), modelled left to right.

In the Python library `AbstractCurveOps.compress` calls a method of a method object and `to_bits` of `eddsa.py` calls itself with the same list;
both raise always.

## 5. What is modelled and what is not

Modelled function by function: `utils.cpp` (all conversions, padding, hex), all of `gadgets/`, all of `jubjub/`,
`r1cs_gg_ppzksnark_zok.tcc` (generator, prover, four verifiers, stream operators, equality, dummy key), its example run and test, and the memory layout
relevant to it, `crypto/sha256.c` with `md32_common.h`, `crypto/blake2b.c`, `pinocchio/circuit_reader.cpp` (text, meaning, printing),
`pinocchio/main.cpp`, `pinocchio/jsnark_test.cpp`, `export.cpp`, `import.cpp`, `stubs.cpp`, `stubs.hpp`, `writeToFile`/`loadFromFile`, `verify.cpp`, `verify_dll.cpp` (one call of
`stub_verify`).

Python (from C85 on): `field.py`, `jubjub.py`, `pedersen.py`, `eddsa.py`, `mimc/permutation.py`, `mimc/contract.py`, `mimc/contract_sol.py`,
`poseidon/permutation.py`, `poseidon/contract.py`, `evmasm.py`, `shamirspoly.py`, `r1cs.py`, `utils.py`, `merkletree.py`, `numbertheory.py`,
`verifier.py`, `cli/verify.py`, `cli/proof2sol.py`, `cli/vk2sol.py`. Solidity: every contract of `contracts/`, at the level of 256-bit words, without gas;
the contracts that `mimc/contract.py` and `poseidon/contract.py` generate are executed at the level of bytes of code (`Spec/EvmMachine.lean`, without gas).

Tests: the C++ tests of `src/test`, the Python tests of `test/`, the Solidity and JavaScript tests, each as a function of the code under test
(C119 to C126), `test/test_verify.py` (C130), the benchmarks (C131) and thirteen of the prototypes of `.appendix/` (C127, C128, C132 to C135).

Not modelled: printing and debugging helpers (`print_bv`, `print_bytes`, `dump_pb_r1cs_constraints`), the bodies of
libff's and libsnark's stream operators for points, vectors and constraint systems (contract `Codecs.OK`), `utils/mimc.cpp` (it
does not compile against the current `mimc.hpp`), profiling output and messages on the standard error stream, CMake, the `main`
functions of `mimc/contract.py` and `poseidon/contract.py`, which print the result, and the deployment scripts of `migrations/`.

Simplifications, each also stated at the definition:

* `lc_val` ignores the constant term because libsnark stores it as a term of variable 0; the model keeps constants apart
  and evaluates them the same way.
* Exceptions, failed assertions, `exit` and undefined behaviour are outcomes of the model; after undefined behaviour
  nothing is claimed.
* JSON: texts are lists of Unicode characters; numbers are kept as tokens; duplicate keys keep the last value (nlohmann
  semantics); argument evaluation left to right.
* Groth16: group elements are elements of abstract types with operations (`PP`); multi-exponentiation, batch
  conversion and the FFT are replaced by their mathematical result; randomness is an argument.
* Circuit text: `sscanf` is modelled for the directives that occur in the code; a decimal that does not fit the target of
  `%u`/`%zu` is undefined behaviour (C11 7.21.6.2); stream extraction follows libstdc++. All assertions of
  the reader depend on the build (`ndebug`) in `CR.fromFilesN`, which the `pinocchio` command uses; `CR.build`, about which C44-C48 and C67
  speak, is the debug build.
* `sha3` (MiMC constants; `Keccak.hash` from C85 on), the libsnark SHA-256 compression gadget and the pairing are parameters with stated contracts;
  beside each contract there is an instance that meets it.
* The contracts of libff, of the precompiles and of `py_ecc` are met by the groups of `alt_bn128` (`Lemmas/AltBn128Groups.lean`): the curve arithmetic is
  Mathlib's, the pairing is `exp (log P · log Q)`.
