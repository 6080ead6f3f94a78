{"id": "C01", "title": "Byte/bit conversion round-trip", "statement": "bytes_to_bv returns exactly 8 bits per byte, most significant bit first, and bv_to_bytes applied to that bit vector writes back the original bytes.", "quantifier": "every byte sequence of every length", "why_tests_cant": "the byte sequence has unbounded length; a test samples a few sequences", "anchors": ["src/utils.cpp: bytes_to_bv", "src/utils.cpp: bv_to_bytes", "src/utils.cpp: bit_list_to_ints"]}
{"id": "C02", "title": "bit_list_to_ints reads big-endian words", "statement": "bit_list_to_ints(bits, w) returns floor(len/w) integers, the i-th being the big-endian value of bits [i*w, i*w+w); trailing bits that do not fill a word are dropped.", "quantifier": "every bit vector and every word size from 1 to 64", "why_tests_cant": "unbounded vector length and all word sizes", "anchors": ["src/utils.cpp: bit_list_to_ints"]}
{"id": "C03", "title": "int_list_to_bits encodes each integer in its own word size", "statement": "int_list_to_bits({x0,x1,..},{w0,w1,..}) returns the concatenation of the big-endian w_i-bit encodings of the x_i, as its documented example int_list_to_bits({10, 238923}, {8, 16}) suggests.", "quantifier": "every list of integers and of word sizes of the same length", "why_tests_cant": "all list lengths and word sizes; out-of-bounds writes are undefined behaviour that a run may not show", "anchors": ["src/utils.cpp: int_list_to_bits", "src/utils.hpp: int_list_to_bits"]}
{"id": "C04", "title": "Bytes to field element", "statement": "bytes_to_FieldT_bigendian / _littleendian return the field element of the big-/little-endian integer value of the bytes reduced mod r; the two agree up to reversing the bytes; inputs of at most 31 bytes of equal length never collide.", "quantifier": "every byte sequence of at most 32 bytes", "why_tests_cant": "2^256 inputs", "anchors": ["src/utils.cpp: bytes_to_FieldT", "src/utils.cpp: bytes_to_FieldT_bigendian", "src/utils.cpp: bytes_to_FieldT_littleendian"]}
{"id": "C05", "title": "SHA-256 padding: values", "statement": "bits2blocks_padded returns blocks of the requested size whose concatenated values are message || 1 || 0^K || 64-bit big-endian bit length, with K minimal such that the total is a multiple of the block size, when padding variables start at zero; and the constraints it adds hold for these values.", "quantifier": "every non-empty message whose bit length is a multiple of 8, every assignment of the message bits", "why_tests_cant": "message length is unbounded and padding has boundary cases modulo 512", "anchors": ["src/utils.cpp: bits2blocks_padded"]}
{"id": "C06", "title": "SHA-256 padding: enforced by the constraints", "statement": "Every assignment that satisfies the constraints added by bits2blocks_padded gives the padding positions the values 1 0^K length, so a prover cannot choose other padding.", "quantifier": "every assignment of the constraint system", "why_tests_cant": "soundness quantifies over all assignments of a 254-bit field", "anchors": ["src/utils.cpp: bits2blocks_padded"]}
{"id": "C07", "title": "hex_to_bytes decodes exactly well-formed hex", "statement": "hex_to_bytes succeeds exactly when the string (after an optional 0x) has 2*out_sz hex digits and then writes the decoded bytes; a length mismatch, odd length or a string shorter than 2 returns false and writes nothing; a bad digit throws.", "quantifier": "every C string and every output size", "why_tests_cant": "all strings", "anchors": ["src/utils.cpp: hex_to_bytes", "src/utils.cpp: char2int"]}
{"id": "C08", "title": "is_negative splits each non-zero pair {x,-x}", "statement": "For every non-zero field element exactly one of is_negative(x), is_negative(-x) is true, it is true exactly when the canonical integer of x is at most (r-1)/2, and is_negative(0) is false.", "quantifier": "every field element", "why_tests_cant": "2^254 field elements", "anchors": ["src/utils.cpp: is_negative"]}
{"id": "C09", "title": "1-bit lookup gadget", "statement": "With a boolean selector, the constraints of lookup_1bit_gadget hold iff result = c[bit]; the witness generator produces a satisfying assignment and only writes its own variable; a non-boolean selector makes witness generation undefined.", "quantifier": "every table, assignment and selector variable", "why_tests_cant": "soundness ranges over all assignments", "anchors": ["src/gadgets/lookup_1bit.cpp: lookup_1bit_constraints", "src/gadgets/lookup_1bit.cpp: lookup_1bit_gadget"]}
{"id": "C10", "title": "2-bit lookup gadget", "statement": "With boolean selectors, the constraints of lookup_2bit_gadget hold iff result = c[b0+2*b1]; witness generation satisfies them and only writes its own variable.", "quantifier": "every table, assignment and selector variables", "why_tests_cant": "soundness ranges over all assignments", "anchors": ["src/gadgets/lookup_2bit.cpp: lookup_2bit_constraints", "src/gadgets/lookup_2bit.cpp: lookup_2bit_gadget"]}
{"id": "C11", "title": "3-bit lookup gadget", "statement": "With boolean selectors, the constraints of lookup_3bit_gadget imply result = c[b0+2*b1+4*b2]; witness generation satisfies them and only writes its own variables.", "quantifier": "every table, assignment and selector variables", "why_tests_cant": "soundness ranges over all assignments", "anchors": ["src/gadgets/lookup_3bit.cpp: lookup_3bit_gadget"]}
{"id": "C12", "title": "Signed 3-bit lookup gadget", "statement": "With boolean selectors, the constraints of lookup_signed_3bit_gadget imply result = (-1)^b2 * c[b0+2*b1]; witness generation satisfies them and only writes its own variables.", "quantifier": "every table, assignment and selector variables", "why_tests_cant": "soundness ranges over all assignments", "anchors": ["src/gadgets/lookup_signed_3bit.cpp: lookup_signed_3bit_constraints", "src/gadgets/lookup_signed_3bit.cpp: lookup_signed_3bit_gadget"]}
{"id": "C13", "title": "IsNonZero gadget", "statement": "The constraints of IsNonZero hold only if the result is 1 when the input is non-zero and 0 when it is zero, and witness generation always satisfies them.", "quantifier": "every input value and every assignment", "why_tests_cant": "soundness ranges over all assignments", "anchors": ["src/gadgets/isnonzero.cpp: IsNonZero"]}
{"id": "C14", "title": "Strict field-to-bits decomposition is unique", "statement": "Every assignment satisfying field2bits_strict gives the 254 result bits the values of the canonical binary expansion of the input (the one below r); witness generation produces it.", "quantifier": "every field element and every assignment", "why_tests_cant": "the non-canonical alias x+r exists only for some x; soundness ranges over all assignments", "anchors": ["src/gadgets/field2bits_strict.cpp: field2bits_strict"]}
{"id": "C15", "title": "Merkle path selector orders the pair", "statement": "With a boolean is_right, every assignment satisfying merkle_path_selector gives (left,right) = (input,pathvar) when is_right=0 and (pathvar,input) when is_right=1; witness generation satisfies the constraints.", "quantifier": "every input, path variable and assignment", "why_tests_cant": "soundness ranges over all assignments", "anchors": ["src/gadgets/merkle_tree.cpp: merkle_path_selector"]}
{"id": "C16", "title": "Merkle path computation equals the reference root", "statement": "For boolean address bits, the value of markle_path_compute's result in every satisfying assignment equals folding the hash gadget's function over the path in the order given by the address bits, for every depth; witness generation satisfies all constraints.", "quantifier": "every depth, path, address and assignment", "why_tests_cant": "depth is unbounded; soundness ranges over all assignments", "anchors": ["src/gadgets/merkle_tree.hpp: markle_path_compute", "src/gadgets/merkle_tree.cpp: merkle_tree_IVs"]}
{"id": "C17", "title": "Merkle authenticator binds the root", "statement": "merkle_path_authenticator is satisfiable with a given leaf, address, path and expected root exactly when the computed root equals the expected root, and is_valid() reports this equality.", "quantifier": "every depth, leaf, path, address and root", "why_tests_cant": "soundness ranges over all assignments", "anchors": ["src/gadgets/merkle_tree.hpp: merkle_path_authenticator"]}
{"id": "C18", "title": "Merkle openings are binding up to a hash collision", "statement": "Two satisfying openings of the same root at the same address with different leaves yield two distinct inputs of the compression function with the same output at some level.", "quantifier": "every depth, pair of leaves and pair of paths", "why_tests_cant": "unbounded depth and all assignments", "anchors": ["src/gadgets/merkle_tree.hpp: markle_path_compute", "src/gadgets/merkle_tree.hpp: merkle_path_authenticator"]}
{"id": "C19", "title": "MiMC gadget equals the MiMC permutation", "statement": "For both exponents, every satisfying assignment of the MiMC gadget has result = mimc(x,k) for the same round constants, the witness generator satisfies the constraints, and every round count at least 1 is covered.", "quantifier": "every plaintext, key, constants list and assignment", "why_tests_cant": "field-sized inputs; soundness ranges over all assignments", "anchors": ["src/gadgets/mimc.hpp: MiMCe5_round", "src/gadgets/mimc.hpp: MiMCe7_round", "src/gadgets/mimc.hpp: MiMC_gadget", "src/gadgets/mimc.hpp: mimc"]}
{"id": "C20", "title": "MiMC is a permutation for every key", "statement": "For every key and every list of round constants, x -> mimc(x,k) is a bijection of the field (x^5 and x^7 are bijections modulo r).", "quantifier": "every key, constants list and pair of inputs", "why_tests_cant": "2^254 inputs", "anchors": ["src/gadgets/mimc.hpp: mimc"]}
{"id": "C21", "title": "Miyaguchi-Preneel one-way function", "statement": "Every satisfying assignment of the MiMC hash gadget has result = mimc_hash(messages, iv) as computed by the native function, for every number of messages; witness generation satisfies the constraints.", "quantifier": "every non-empty message list, IV and assignment", "why_tests_cant": "unbounded message count and all assignments", "anchors": ["src/gadgets/onewayfunction.hpp: MiyaguchiPreneel_OWF", "src/gadgets/mimc.hpp: mimc_hash"]}
{"id": "C22", "title": "one_of_n proves membership", "statement": "Every assignment satisfying one_of_n (constraints generated before or after the witness) has our_item equal to one of the items; the same gadget object can be re-used for another item.", "quantifier": "every item list, item and order of the generate calls", "why_tests_cant": "all assignments and all call orders", "anchors": ["src/gadgets/one_of_n.hpp: one_of_n"]}
{"id": "C23", "title": "shamir_poly evaluates the polynomial", "statement": "Every assignment satisfying shamir_poly has result = sum alpha_i * x^i; witness generation satisfies the constraints for every number of coefficients allowed by the constructor.", "quantifier": "every coefficient list of length at least 2, every x and every assignment", "why_tests_cant": "all assignments and all degrees", "anchors": ["src/gadgets/shamir_poly.hpp: shamir_poly"]}
{"id": "C24", "title": "subadd moves an amount without overflow or underflow", "statement": "If A, B and N are n-bit values, every assignment satisfying subadd_gadget has X = A-N, Y = B+N as integers with N <= A and Y < 2^n, hence X+Y = A+B; witness generation satisfies the constraints exactly in that case.", "quantifier": "every n with n+1 <= capacity, every A, B, N and every assignment", "why_tests_cant": "all assignments of a 254-bit field", "anchors": ["src/gadgets/subadd.cpp: subadd_gadget"]}
{"id": "C25", "title": "Poseidon gadget equals the Poseidon permutation", "statement": "Every satisfying assignment of Poseidon_gadget_T has outputs equal to the Poseidon permutation of the inputs computed natively (constants, MDS matrix, partial and full rounds), for every parameter choice; witness generation satisfies the constraints.", "quantifier": "every parameter set, inputs and assignment", "why_tests_cant": "all assignments and parameter choices", "anchors": ["src/gadgets/poseidon.hpp: Poseidon_Round", "src/gadgets/poseidon.hpp: Poseidon_gadget_T", "src/gadgets/poseidon.hpp: FifthPower_gadget"]}
{"id": "C26", "title": "Poseidon MDS matrix is invertible and the permutation bijective", "statement": "For pairwise distinct matrix constants the Cauchy matrix built by poseidon_matrix is invertible, so the round function with x^5 S-boxes is a bijection on t-tuples.", "quantifier": "every t and every list of pairwise distinct constants", "why_tests_cant": "unbounded t and field-sized states", "anchors": ["src/gadgets/poseidon.hpp: poseidon_matrix_fill"]}
{"id": "C27", "title": "sha256_many chains the compression function over all padded blocks", "statement": "The digest of sha256_many in the assignment its witness generator produces is the Merkle-Damgard chaining of the compression function, from the SHA-256 IV, over the padded blocks of the message.", "quantifier": "every message length and assignment", "why_tests_cant": "unbounded message length", "anchors": ["src/gadgets/sha256_many.cpp: sha256_many"]}
{"id": "C28", "title": "sha256_full enforces the final padding block", "statement": "Every assignment satisfying sha256_full_gadget_512 has digest = compress(compress(IV, block), padding block for 512 bits).", "quantifier": "every 512-bit block and every assignment", "why_tests_cant": "all assignments", "anchors": ["src/gadgets/sha256_full.hpp: sha256_full_gadget_512"]}
{"id": "C29", "title": "Edwards point addition gadget", "statement": "For points on the curve, every assignment satisfying PointAdder has the result equal to the twisted Edwards sum; witness generation satisfies the constraints; no exceptional inputs exist (the denominators never vanish on the curve).", "quantifier": "every pair of curve points and every assignment", "why_tests_cant": "about 2^508 pairs of points", "anchors": ["src/jubjub/adder.cpp: PointAdder"]}
{"id": "C30", "title": "Edwards doubling gadget", "statement": "For points on the curve, every assignment satisfying PointDoubler has result = P+P; witness generation satisfies the constraints.", "quantifier": "every curve point and assignment", "why_tests_cant": "2^254 points, all assignments", "anchors": ["src/jubjub/doubler.cpp: PointDoubler"]}
{"id": "C31", "title": "Conditional point gadget", "statement": "With a boolean selector, every assignment satisfying ConditionalPoint has result P if the bit is 1 and the neutral element (0,1) if it is 0; witness generation satisfies the constraints.", "quantifier": "every point, bit and assignment", "why_tests_cant": "all assignments", "anchors": ["src/jubjub/conditional_point.cpp: ConditionalPoint"]}
{"id": "C32", "title": "On-curve check", "statement": "The constraints of IsOnCurve are satisfiable for a point exactly when the point satisfies a*x^2+y^2 = 1+d*x^2*y^2, and every satisfying assignment implies it.", "quantifier": "every pair of coordinates and every assignment", "why_tests_cant": "2^508 coordinate pairs", "anchors": ["src/jubjub/isoncurve.cpp: IsOnCurve"]}
{"id": "C33", "title": "Low-order points are rejected", "statement": "NotLowOrder is satisfiable for a curve point exactly when 8*P is not in the kernel (x(8P) != 0), and PointValidator accepts exactly the curve points that are not of low order.", "quantifier": "every point and every assignment", "why_tests_cant": "2^254 points", "anchors": ["src/jubjub/notloworder.cpp: NotLowOrder", "src/jubjub/validator.cpp: PointValidator"]}
{"id": "C34", "title": "Variable-base scalar multiplication", "statement": "For boolean scalar bits b_0..b_{n-1} and a curve point P, every assignment satisfying ScalarMult has result = (sum b_i 2^i) * P; witness generation satisfies the constraints; for every n allowed.", "quantifier": "every n, scalar, point and assignment", "why_tests_cant": "unbounded bit length and all assignments", "anchors": ["src/jubjub/scalarmult.cpp: ScalarMult"]}
{"id": "C35", "title": "Fixed-base scalar multiplication", "statement": "For boolean scalar bits, every assignment satisfying fixed_base_mul has result = (sum b_i 2^i) * Base; witness generation satisfies the constraints; for every even number of bits the constructor accepts.", "quantifier": "every even bit length, scalar, base point and assignment", "why_tests_cant": "unbounded bit length and all assignments", "anchors": ["src/jubjub/fixed_base_mul.cpp: fixed_base_mul"]}
{"id": "C36", "title": "Windowed (zcash) fixed-base multiplication", "statement": "For boolean scalar bits and base points of the prime-order subgroup, every assignment satisfying fixed_base_mul_zcash has result = sum over windows i of (-1)^b2 (1+b0+2 b1) 16^(i mod 62) * Base_(i div 62); the witness satisfies the constraints; no intermediate Montgomery addition meets an exceptional case.", "quantifier": "every number of windows, scalar, base points and assignment", "why_tests_cant": "unbounded window count and all assignments", "anchors": ["src/jubjub/fixed_base_mul_zcash.cpp: fixed_base_mul_zcash"]}
{"id": "C37", "title": "Montgomery addition and conversion gadgets", "statement": "For Montgomery points with different x-coordinates every assignment satisfying MontgomeryAdder has the result equal to the Montgomery sum, and MontgomeryToEdwards maps it to the corresponding Edwards point; witness generation satisfies the constraints.", "quantifier": "every pair of points and every assignment", "why_tests_cant": "all assignments; exceptional inputs are rare", "anchors": ["src/jubjub/montgomery.cpp: MontgomeryAdder", "src/jubjub/montgomery.cpp: MontgomeryToEdwards"]}
{"id": "C38", "title": "Pedersen hash gadget", "statement": "Every assignment satisfying PedersenHash has result equal to the windowed multiplication of the message bits by the hash base points; PedersenHashToBits returns the canonical bits of its x-coordinate.", "quantifier": "every message length and assignment", "why_tests_cant": "unbounded message length, all assignments", "anchors": ["src/jubjub/pedersen_hash.cpp: PedersenHash", "src/jubjub/pedersen_hash.cpp: PedersenHashToBits"]}
{"id": "C39", "title": "Pedersen commitment gadget", "statement": "For at least two (base, scalar) pairs every assignment satisfying the Commitment gadget has result = sum scalar_i * Base_i; it is additively homomorphic.", "quantifier": "every list of base points and scalars", "why_tests_cant": "unbounded list length, all assignments", "anchors": ["src/jubjub/commitment.cpp: Commitment"]}
{"id": "C40", "title": "EdDSA verification gadget", "statement": "Every assignment satisfying PureEdDSA / EdDSA has s*B = R + H(R,A,M)*A with R on the curve and not of low order; an honestly produced signature (s = r + H*k mod l) satisfies the constraints.", "quantifier": "every key, message, signature and assignment", "why_tests_cant": "all assignments", "anchors": ["src/jubjub/eddsa.cpp: PureEdDSA", "src/jubjub/eddsa.cpp: EdDSA", "src/jubjub/eddsa.cpp: EdDSA_HashRAM_gadget"]}
{"id": "C41", "title": "EdwardsPoint arithmetic is an abelian group", "statement": "On points of the curve, EdwardsPoint::add is total, closed, associative and commutative with neutral element infinity() and inverse neg(), and dbl() equals add to itself.", "quantifier": "every two or three curve points", "why_tests_cant": "2^762 triples", "anchors": ["src/jubjub/point.cpp: EdwardsPoint"]}
{"id": "C42", "title": "Edwards/Montgomery conversion", "statement": "as_montgomery maps affine Edwards points other than the exceptional ones to points of the Montgomery curve and as_edwards inverts it.", "quantifier": "every curve point", "why_tests_cant": "2^254 points", "anchors": ["src/jubjub/point.cpp: EdwardsPoint::as_montgomery", "src/jubjub/point.cpp: MontgomeryPoint::as_edwards"]}
{"id": "C43", "title": "Point recovery from y and hash-to-curve", "statement": "from_y_always returns a curve point whose y is the first y+i (i<100... ) with a solution and whose x is the sign-normalised root; from_hash returns a point in the subgroup 8*E; results are deterministic.", "quantifier": "every y value and every byte string", "why_tests_cant": "2^254 values", "anchors": ["src/jubjub/point.cpp: EdwardsPoint::from_y_always", "src/jubjub/point.cpp: EdwardsPoint::from_hash"]}
{"id": "C44", "title": "Circuit reader: opcode soundness", "statement": "For every circuit accepted by CircuitReader, every assignment satisfying the generated constraints satisfies the documented meaning of every instruction (add, mul, xor, or, assert, pack, split, const-mul, const-mul-neg, zerop, table).", "quantifier": "every circuit file and every assignment", "why_tests_cant": "unbounded circuits and all assignments", "anchors": ["src/pinocchio/circuit_reader.cpp: CircuitReader::makeConstraints"]}
{"id": "C45", "title": "Circuit reader: evaluation satisfies the constraints", "statement": "For every circuit whose instructions are in evaluation order (each wire assigned once, before use) and whose assertions hold, evaluating an input file gives an assignment satisfying the constraints generated for it.", "quantifier": "every well-formed circuit and every input file", "why_tests_cant": "unbounded circuits and inputs", "anchors": ["src/pinocchio/circuit_reader.cpp: CircuitReader::evalInstruction", "src/pinocchio/circuit_reader.cpp: CircuitReader::makeConstraints"]}
{"id": "C46", "title": "Circuit reader: public inputs are the declared inputs", "statement": "The primary input of the constraint system built from a circuit file is exactly the list of wires declared with 'input', in order.", "quantifier": "every circuit file", "why_tests_cant": "all orders of declaration lines", "anchors": ["src/pinocchio/circuit_reader.cpp: CircuitReader::parseCircuit"]}
{"id": "C47", "title": "Circuit reader: zerop", "statement": "For a zerop instruction, evaluation assigns the output wire 1 if the input is non-zero and 0 otherwise, and the constraints accept exactly this value.", "quantifier": "every input value and assignment", "why_tests_cant": "all assignments", "anchors": ["src/pinocchio/circuit_reader.cpp: CircuitReader::addNonzeroCheckConstraint", "src/pinocchio/circuit_reader.cpp: CircuitReader::evalInstruction"]}
{"id": "C48", "title": "Circuit reader: table lookups of 1, 2 and 3 inputs", "statement": "For a table instruction with boolean inputs, the constraints force the output wire to equal the selected table entry, for each table size.", "quantifier": "every table and assignment", "why_tests_cant": "all assignments", "anchors": ["src/pinocchio/circuit_reader.cpp: CircuitReader::addTableConstraint"]}
{"id": "C49", "title": "zkSNARK completeness", "statement": "For every constraint system, satisfying assignment, setup randomness (gamma, delta non-zero) and prover randomness, verifier_strong_IC accepts the proof produced by prover with the generated keys.", "quantifier": "every constraint system, witness and randomness", "why_tests_cant": "all randomness and all circuits", "anchors": ["src/r1cs_gg_ppzksnark_zok/r1cs_gg_ppzksnark_zok.tcc: r1cs_gg_ppzksnark_zok_generator", "src/r1cs_gg_ppzksnark_zok/r1cs_gg_ppzksnark_zok.tcc: r1cs_gg_ppzksnark_zok_prover", "src/r1cs_gg_ppzksnark_zok/r1cs_gg_ppzksnark_zok.tcc: r1cs_gg_ppzksnark_zok_online_verifier_weak_IC"]}
{"id": "C50", "title": "Strong verifier input length check", "statement": "verifier_strong_IC rejects every input vector whose length differs from the verification key's; on the right length it agrees with verifier_weak_IC, and weak_IC treats missing inputs as zeros.", "quantifier": "every key, proof and input vector", "why_tests_cant": "all lengths", "anchors": ["src/r1cs_gg_ppzksnark_zok/r1cs_gg_ppzksnark_zok.tcc: r1cs_gg_ppzksnark_zok_online_verifier_strong_IC", "src/r1cs_gg_ppzksnark_zok/r1cs_gg_ppzksnark_zok.tcc: r1cs_gg_ppzksnark_zok_online_verifier_weak_IC"]}
{"id": "C51", "title": "Verifier variants agree", "statement": "The processed-key verifiers, the unprocessed ones and the affine verifier return the same verdict for the same key, input and proof; a proof with a point off the curve is always rejected.", "quantifier": "every key, proof and input vector", "why_tests_cant": "all keys and proofs", "anchors": ["src/r1cs_gg_ppzksnark_zok/r1cs_gg_ppzksnark_zok.tcc: r1cs_gg_ppzksnark_zok_affine_verifier_weak_IC", "src/r1cs_gg_ppzksnark_zok/r1cs_gg_ppzksnark_zok.tcc: r1cs_gg_ppzksnark_zok_verifier_weak_IC"]}
{"id": "C52", "title": "Proof JSON round-trip", "statement": "proof_from_json(proof_to_json(proof, input)) returns the same public inputs and a proof with the same affine points.", "quantifier": "every proof and input vector", "why_tests_cant": "all group elements and representations", "anchors": ["src/export.cpp: proof_to_json", "src/import.cpp: proof_from_json"]}
{"id": "C53", "title": "Verification key JSON round-trip", "statement": "vk_from_json(vk2json(vk)) returns a verification key with the same affine points, for every number of inputs.", "quantifier": "every verification key", "why_tests_cant": "all keys", "anchors": ["src/export.cpp: vk2json", "src/import.cpp: vk_from_json"]}
{"id": "C54", "title": "Public inputs in JSON are canonical", "statement": "Two different input lists in proof JSON denote different public inputs (no second encoding of a field element is accepted).", "quantifier": "every pair of JSON proofs", "why_tests_cant": "aliases x+r need particular values", "anchors": ["src/import.cpp: create_F", "src/import.cpp: proof_from_json"]}
{"id": "C55", "title": "SHA-256 implementation equals FIPS 180-4", "statement": "SHA256(d,n) returns the FIPS 180-4 SHA-256 digest of the n bytes at d, for every n below 2^61.", "quantifier": "every byte string", "why_tests_cant": "unbounded length; padding boundary cases", "anchors": ["src/crypto/sha256.c: SHA256", "src/crypto/sha256.c: sha256_block", "src/crypto/md32_common.h: HASH_FINAL"]}
{"id": "C56", "title": "SHA-256 streaming is chunk-independent", "statement": "Any sequence of SHA256_Update calls followed by SHA256_Final gives the digest of the concatenation of the data, however it is cut into chunks.", "quantifier": "every sequence of chunks", "why_tests_cant": "unbounded number and sizes of chunks", "anchors": ["src/crypto/md32_common.h: HASH_UPDATE", "src/crypto/md32_common.h: HASH_FINAL"]}
{"id": "C57", "title": "BLAKE2b streaming is chunk-independent", "statement": "Any sequence of blake2b_update calls between init and final gives the digest of the concatenated data, and blake2b() equals that composition.", "quantifier": "every key, sequence of chunks and output length", "why_tests_cant": "unbounded number and sizes of chunks", "anchors": ["src/crypto/blake2b.c: blake2b_update", "src/crypto/blake2b.c: blake2b_final", "src/crypto/blake2b.c: blake2b"]}
{"id": "C58", "title": "BLAKE2b equals RFC 7693", "statement": "blake2b(out,outlen,key,keylen,in,inlen) returns the RFC 7693 BLAKE2b digest for 1<=outlen<=64 and keylen<=64, and -1 otherwise.", "quantifier": "every key, input and output length", "why_tests_cant": "unbounded input length", "anchors": ["src/crypto/blake2b.c: blake2b_init", "src/crypto/blake2b.c: blake2b_compress"]}
{"id": "C59", "title": "Witness generation does not change other variables", "statement": "generate_r1cs_witness of each gadget writes only variables allocated by the gadget's constructor; inputs and variables of other gadgets keep their values, so gadgets compose.", "quantifier": "every gadget instance and assignment", "why_tests_cant": "all assignments and compositions", "anchors": ["src/gadgets", "src/jubjub"]}
{"id": "C60", "title": "Command-line verifier verdict", "statement": "stub_main_verify returns 0 exactly when both files can be read, parse and the proof verifies; 1 on wrong usage or failed verification, 2 when a file cannot be opened.", "quantifier": "every argument vector and file content", "why_tests_cant": "all file contents", "anchors": ["src/stubs.cpp: stub_main_verify", "src/stubs.cpp: stub_verify", "src/verify.cpp: main"]}
{"id": "C61", "title": "MiMC round constants follow the documented derivation", "statement": "constants_fill appends exactly N_ROUNDS constants (91 for exponent 7, 110 for exponent 5); the i-th is the big-endian integer, reduced into the field, of SHA3-256 iterated i+2 times on the seed.", "quantifier": "every seed and every hash function", "why_tests_cant": "seeds are unbounded", "anchors": ["src/gadgets/mimc.hpp: MiMC_gadget::constants_fill", "src/gadgets/mimc.hpp: MiMC_gadget::constants"]}
{"id": "C62", "title": "Merkle-Damgard one-way function", "statement": "Every satisfying assignment of MerkleDamgard_OWF gives the last cipher's result the value obtained by using each cipher's output as the key for the next message, for every number of messages; witness generation satisfies the constraints and touches only its own variables.", "quantifier": "every non-empty message list, IV and assignment", "why_tests_cant": "unbounded message count and all assignments", "anchors": ["src/gadgets/onewayfunction.hpp: MerkleDamgard_OWF"]}
{"id": "C63", "title": "Order of the Baby Jubjub group and cofactor clearing", "statement": "The curve has exactly JUBJUB_E = 8 * JUBJUB_L points, JUBJUB_L is prime, the generator of params.hpp has order JUBJUB_L, and three doublings (as in from_hash) map every curve point into the subgroup generated by it, giving the neutral element exactly for the low-order points.", "quantifier": "every curve point", "why_tests_cant": "2^254 points; a point count is not a test", "anchors": ["src/jubjub/params.hpp: Params", "src/jubjub/point.cpp: EdwardsPoint::from_hash", "ethsnarks/jubjub.py: JUBJUB_E, JUBJUB_L"]}
{"id": "C64", "title": "Number of base points", "statement": "basepoints_required(n) is ceil(n/186), so a message of n bits given that many base points never reads outside the base point vector.", "quantifier": "every bit length", "why_tests_cant": "the count is computed in single precision; the first wrong length is above 2^24", "anchors": ["src/jubjub/fixed_base_mul_zcash.cpp: fixed_base_mul_zcash::basepoints_required"]}
{"id": "C65", "title": "Pedersen hash is injective within one base point", "statement": "Two messages of at most 186 bits (lengths multiples of three, possibly different) with the same Pedersen hash point, or only the same x-coordinate, under the same base point are equal; two satisfying assignments of PedersenHash with equal result have equal messages.", "quantifier": "every base point of order l and every pair of messages of at most 186 bits", "why_tests_cant": "Injectivity quantifies over all pairs of messages; it depends on the signed window encoding, the bound on the scalars and the order of the base point.", "anchors": ["src/jubjub/pedersen_hash.cpp: PedersenHash", "src/jubjub/fixed_base_mul_zcash.cpp: fixed_base_mul_zcash"]}
{"id": "C66", "title": "flatten concatenates", "statement": "flatten returns the concatenation of its argument vectors, in order, and never writes outside the vector it allocates.", "quantifier": "every list of vectors", "why_tests_cant": "Ranges over all numbers and sizes of vectors, including empty ones.", "anchors": ["src/utils.cpp: flatten"]}
{"id": "C67", "title": "Key generation and proving build the same circuit", "statement": "Reading a circuit file alone (key generation) and reading it together with an input file (proving) yield the same constraint system: same constraints, same number of variables and of public inputs.", "quantifier": "every circuit file and every input file accepted with it", "why_tests_cant": "Ranges over all circuits; the two runs allocate variables in different orders and only agree when every wire is allocated alike.", "anchors": ["src/pinocchio/circuit_reader.cpp: CircuitReader::CircuitReader", "src/pinocchio/circuit_reader.cpp: CircuitReader::evalInstruction", "src/pinocchio/main.cpp"]}
{"id": "C68", "title": "SHA-224 implementation equals FIPS 180-4", "statement": "SHA224(d,n) returns the FIPS 180-4 SHA-224 digest of the n bytes at d, in one call or through any sequence of update calls.", "quantifier": "every byte string and every way of cutting it", "why_tests_cant": "unbounded length; padding boundary cases", "anchors": ["src/crypto/sha256.c: SHA224", "src/crypto/sha256.c: SHA224_Init", "src/crypto/md32_common.h: HASH_FINAL"]}
{"id": "C69", "title": "Accepted proofs are malleable", "statement": "From any accepted proof anyone can make other accepted proofs for the same public inputs: (k*A, k^-1*B, C) for every non-zero k and (A, B + k*delta, C + k*A) for every k. (A proof therefore must not be used as a unique identifier, e.g. for replay protection.)", "quantifier": "every key, proof, input vector and scalar", "why_tests_cant": "all proofs and scalars; no test re-randomises a proof", "anchors": ["src/r1cs_gg_ppzksnark_zok/r1cs_gg_ppzksnark_zok.tcc: r1cs_gg_ppzksnark_zok_online_verifier_strong_IC"]}
{"id": "C70", "title": "Zero knowledge", "statement": "For a fixed setup and fixed public inputs the proof elements A and B are a bijective image of the prover's random r and s whatever the witness, and C is determined by A, B and the public inputs; so for uniform r, s the proof distribution is the same for every satisfying witness.", "quantifier": "every constraint system, setup, input vector and pair of witnesses", "why_tests_cant": "a statement about distributions over all randomness", "anchors": ["src/r1cs_gg_ppzksnark_zok/r1cs_gg_ppzksnark_zok.tcc: r1cs_gg_ppzksnark_zok_prover"]}
{"id": "C71", "title": "A false assignment is rejected for almost every setup", "statement": "If the prover runs on an assignment that does not satisfy the constraint system (possible when assertions are compiled out), the strong verifier rejects the resulting proof for all but at most 2(m-1) values of the setup's secret evaluation point, whatever the rest of the randomness.", "quantifier": "every constraint system, assignment and randomness", "why_tests_cant": "all assignments, all randomness", "anchors": ["src/r1cs_gg_ppzksnark_zok/r1cs_gg_ppzksnark_zok.tcc: r1cs_gg_ppzksnark_zok_prover", "src/stubs.cpp: stub_test_proof_verify"]}
{"id": "C72", "title": "Merkle level constants are derived, not chosen", "statement": "The constant handed out for level i of the Merkle tree is the SHA-256 digest, read big endian and reduced modulo r, of the concatenation for j = 0..i of the text 'MerkleTree-' and j as two little-endian bytes; the 29 constants are distinct and not zero. (The Python library derives its table by this rule; prover and library agree on the root only if the tables agree.)", "quantifier": "all 29 levels (the whole table), every protoboard state", "why_tests_cant": "the tests compare only a few levels of one tree with literals copied from the same table; they never check the derivation", "anchors": ["src/gadgets/merkle_tree.cpp: merkle_tree_IVs", "ethsnarks/merkletree.py: _make_IVs"]}
{"id": "C73", "title": "A proof verifies through JSON exactly if it verifies", "statement": "For a key and a proof whose points the text format can carry, stub_verify(vk2json(vk), proof_to_json(proof, inputs)) is the verdict of the strong verifier on the key, the inputs and the proof, in debug and release builds; hence a key and a proof produced for a satisfied constraint system, written to two files, make stub_main_verify return 0.", "quantifier": "every verification key and proof in the groups (any Jacobian representation the exporter handles), every input list, every build, every file name", "why_tests_cant": "the tests export and re-import one proof of one circuit", "anchors": ["src/export.cpp: vk2json", "src/export.cpp: proof_to_json", "src/import.cpp: vk_from_json", "src/import.cpp: proof_from_json", "src/stubs.cpp: stub_verify", "src/stubs.cpp: stub_main_verify"]}
{"id": "C74", "title": "Malformed texts are rejected cleanly", "statement": "For every text, proof_from_json and vk_from_json either return a value or throw an exception; they never run into undefined behaviour. (False: arrays that are too short are undefined behaviour in release builds, and a key without coefficients in every build. Proved: which texts exactly are safe.)", "quantifier": "all texts, debug and release builds", "why_tests_cant": "the tests import two well-formed texts", "anchors": ["src/import.cpp: create_G1", "src/import.cpp: create_G2", "src/import.cpp: proof_from_json", "src/import.cpp: vk_from_json"]}
{"id": "C75", "title": "Imported points are on their curves", "statement": "Every point of a proof or key that the importers return is on the curve of its group; at least, no proof with a point off the curve is accepted by stub_verify. (The first half is false; the second is proved.)", "quantifier": "all texts, debug and release builds", "why_tests_cant": "the tests import only exported texts", "anchors": ["src/import.cpp: create_G1", "src/import.cpp: create_G2", "src/stubs.cpp: stub_verify", "src/r1cs_gg_ppzksnark_zok/r1cs_gg_ppzksnark_zok.tcc: r1cs_gg_ppzksnark_zok_online_verifier_weak_IC"]}
{"id": "C76", "title": "The exported texts follow the documented format", "statement": "proof_to_json and vk2json write a JSON text (RFC 8259) for the object that the Python library and the contracts expect: members A, B, C, input (alpha, beta, gamma, delta, gammaABC), numbers as 0x strings without leading zeros, affine coordinates, coefficient of the imaginary unit first; the importers accept nothing but JSON texts.", "quantifier": "all proofs, keys and input lists (any number of inputs), all texts", "why_tests_cant": "the tests only read back what they wrote; a consistent deviation in writer and reader stays invisible", "anchors": ["src/export.cpp: proof_to_json", "src/export.cpp: vk2json", "src/export.cpp: outputPointG1AffineAsHex", "src/export.cpp: outputPointG2AffineAsHex", "ethsnarks/verifier.py"]}
{"id": "C77", "title": "Keys and proofs survive streams and files", "statement": "For every valid proving key, verification key, processed verification key and proof, operator>> after operator<< returns an object equal to it in every component and consumes exactly what was written, in text and binary format, in debug and release builds, given that the library's operators for points, vectors and constraint systems do so; operator== is true exactly if all components are equal; loadFromFile returns what writeToFile stored, and a missing file is reported. (The last part is false in release builds.)", "quantifier": "all keys and proofs (any number of variables and constraints), all following stream contents, both formats, both builds", "why_tests_cant": "the tests write and read one key of one circuit", "anchors": ["src/r1cs_gg_ppzksnark_zok/r1cs_gg_ppzksnark_zok.tcc: operator<<", "src/r1cs_gg_ppzksnark_zok/r1cs_gg_ppzksnark_zok.tcc: operator>>", "src/r1cs_gg_ppzksnark_zok/r1cs_gg_ppzksnark_zok.tcc: operator==", "src/utils.hpp: writeToFile", "src/utils.hpp: loadFromFile"]}
{"id": "C78", "title": "Generate, prove and verify through files", "statement": "If stub_genkeys_from_pb returns and both files can be written, stub_prove_from_pb run with the proving key file and a satisfying assignment returns a text that stub_main_verify accepts (exit code 0) together with the verification key file. stub_main_genkeys returns 1 on wrong usage and 0 otherwise, and 0 means that both files were written. (The last clause is false: failures to open a file are not noticed, and equal file names lose the verification key.)", "quantifier": "all constraint systems and satisfying assignments, all random choices, all file names and file systems, both formats, both builds", "why_tests_cant": "needs the whole chain for every circuit; the tests run it for a few", "anchors": ["src/stubs.cpp: stub_genkeys_from_pb", "src/stubs.cpp: stub_prove_from_pb", "src/stubs.hpp: stub_main_genkeys", "src/stubs.cpp: stub_main_verify"]}
{"id": "C79", "title": "Circuit and input files are read according to a grammar", "statement": "Reading a line of an arithmetic circuit file gives an instruction exactly if the text of the line denotes that instruction in a grammar stated on its own (keywords, blanks, decimal numerals, wire lists in angle brackets); a whole file gives the instructions of its lines, in order, after the header; a line of an input file gives a wire number and a hexadecimal numeral exactly if it has that shape. No text makes the reader write outside its buffers, and a line that denotes nothing is reported. (The last two are false: long words and long separators overrun fixed arrays, and release builds drop unknown lines silently.)", "quantifier": "all texts of any length, all files, both builds", "why_tests_cant": "the input is arbitrary text; the scan format strings accept many spellings no test contains, and buffer overruns depend on unbounded token lengths", "anchors": ["src/pinocchio/circuit_reader.cpp: CircuitReader::parseLine", "src/pinocchio/circuit_reader.cpp: CircuitReader::parseCircuit", "src/pinocchio/circuit_reader.cpp: CircuitReader::parseInputs", "src/pinocchio/circuit_reader.cpp: readIds"]}
{"id": "C80", "title": "The pinocchio command does what its subcommands promise", "statement": "genkeys, prove and verify on a circuit file and an honest input file compose: if the first two return, verify exits with 0. eval prints one line wire=value for each output wire, where the values are those of the input file on the given wires, zero on other unwritten wires, and satisfy every instruction of an ordered circuit whose assertions hold. test exits with 0 for honest inputs (release build) and with 2, for all but at most 2(m-1) trapdoors, if the evaluated wires violate a constraint. Wrong usage exits with 1, 2 or 5 and touches no file. prove refuses inputs that do not satisfy the circuit. (The last clause is false in release builds.)", "quantifier": "all files, circuits, inputs, command lines, random choices, both builds, both key formats", "why_tests_cant": "ranges over all circuits and inputs; the tests run the command on a few files", "anchors": ["src/pinocchio/main.cpp: main", "src/pinocchio/main.cpp: main_genkeys", "src/pinocchio/main.cpp: main_prove", "src/pinocchio/main.cpp: main_test", "src/pinocchio/main.cpp: main_eval"]}
{"id": "C81", "title": "Tracing only adds text, and printed instructions can be read back", "statement": "trace succeeds exactly when eval does and prints, for the same wire values, one block per instruction (the instruction, its inputs with values, its outputs with values) followed by exactly the output of eval. The printed form of an instruction is a circuit line that reads back as the same instruction. (The last clause is false for multiplications by a constant: const-mul stops the reader, const-mul-neg is read as a multiplication by zero.)", "quantifier": "all files, circuits and inputs; all instructions with non-empty wire lists that fit 32 bits", "why_tests_cant": "tracing allocates variables between constraints, so equality of the results has to hold for every circuit; the text form ranges over all wire lists and tables", "anchors": ["src/pinocchio/circuit_reader.cpp: CircuitInstruction::print", "src/pinocchio/circuit_reader.cpp: CircuitReader::makeConstraints", "src/pinocchio/circuit_reader.cpp: printWires", "src/pinocchio/circuit_reader.cpp: printTable", "src/pinocchio/main.cpp: main_eval"]}
{"id": "C82", "title": "A release build of the circuit reader does what a debug build does, except where that stops", "statement": "For all circuit and input files, the reader built with NDEBUG gives the same result as the one built without, unless the latter stops at an assertion. In every circuit accepted by either build whose instructions have the documented numbers of wires, every satisfying assignment gives each instruction its meaning and the evaluated wires satisfy all constraints; such circuits give the same reader in both builds. (Every accepted circuit means what it says: false in release builds, where a third factor is dropped silently, a missing factor or a selector that is not a bit reads out of bounds, and zerop with one output is accepted without input file and undefined with one.)", "quantifier": "all files, circuits, inputs, assignments, both builds", "why_tests_cant": "the builds differ only on malformed circuits, of which there are infinitely many; undefined behaviour need not show in a test", "anchors": ["src/pinocchio/circuit_reader.cpp: makeConstraints", "src/pinocchio/circuit_reader.cpp: evalInstruction", "src/pinocchio/circuit_reader.cpp: CircuitReader::CircuitReader", "Makefile: NDEBUG"]}
{"id": "C83", "title": "Inputs and outputs of a circuit are public", "statement": "As documented, the public inputs of the constraint system of a circuit are its input and output wires. (False for every accepted circuit with an output line: only input wires are public, and a proof can say nothing about an output.)", "quantifier": "all circuits, input files, both builds", "why_tests_cant": "ranges over all circuits; the tests never compare the statement with the output lines", "anchors": ["src/pinocchio/README.md", "src/pinocchio/circuit_reader.cpp: parseCircuit", "src/pinocchio/circuit_reader.cpp: outputWires"]}
{"id": "C84", "title": "Knowledge soundness against algebraic provers", "statement": "A prover that forms the three proof elements as linear combinations of the elements of the two keys, with coefficients fixed before the keys are drawn, either has coefficients from which a satisfying assignment with the claimed public inputs can be read off, or is accepted by the verifier for at most (3(m-1)+1)*|F|^4 of the |F|^5 choices of trapdoors (m the size of the evaluation domain). In particular no such prover gets a false statement accepted, up to that fraction. The library's own prover is of this kind and the extractor returns its private inputs.", "quantifier": "all constraint systems, public inputs, coefficient vectors, trapdoors, bases, pairing libraries meeting the contract", "why_tests_cant": "ranges over all provers and all trapdoors; tests only run the honest prover", "anchors": ["src/r1cs_gg_ppzksnark_zok/r1cs_gg_ppzksnark_zok.tcc: r1cs_gg_ppzksnark_zok_generator", "src/r1cs_gg_ppzksnark_zok/r1cs_gg_ppzksnark_zok.tcc: r1cs_gg_ppzksnark_zok_prover", "src/r1cs_gg_ppzksnark_zok/r1cs_gg_ppzksnark_zok.tcc: r1cs_gg_ppzksnark_zok_verifier_strong_IC"]}
{"id": "C85", "title": "The default MiMC round constants", "statement": "With the default seed the round constants of the MiMC gadget with exponent 7 (5) are, in order, the 91 (110) literals written into the generated contract, they are pairwise distinct and non-zero; for every seed and number of rounds they are those of the Python library.", "quantifier": "all seeds (Python); the full tables of both exponents", "why_tests_cant": "the C++ tests compare single outputs of the cipher; nothing compares the tables of the three languages or covers other seeds", "anchors": ["src/gadgets/mimc.hpp: constants_fill", "src/gadgets/mimc.hpp: static_constants", "depends/CMakeLists.txt", "contracts/MiMCpe7_generated.sol", "contracts/MiMCpe5_generated.sol", "ethsnarks/mimc/permutation.py: mimc_constants"]}
{"id": "C86", "title": "MiMC in the circuit, on chain and in Python", "statement": "For all arguments the MiMC contracts, the MiMC hash contracts and the Python functions return the canonical representative of the value the C++ gadget forces on the residues of the arguments. (For the generated contracts this needs arguments whose unreduced sums fit into a word; false on 2^256-1.)", "quantifier": "all 256-bit words (contracts), all non-negative integers and seeds (Python), all message lists, all satisfying assignments", "why_tests_cant": "ranges over all plaintexts, keys and message lists; tests compare a handful of values", "anchors": ["src/gadgets/mimc.hpp: MiMC_gadget", "src/gadgets/mimc.hpp: mimc", "src/gadgets/mimc.hpp: mimc_hash", "contracts/MiMC_permutation.sol", "contracts/MiMC_hash.sol", "contracts/MiMCpe7_generated.sol", "ethsnarks/mimc/permutation.py"]}
{"id": "C87", "title": "Baby Jubjub arithmetic on chain", "statement": "pointAdd, pointDouble and scalarMult of the JubJub contract return the canonical coordinates of the group operation of the curve used by the circuit, for all words whose residues are on the curve and all scalars, and scalarMult equals the result the C++ scalar multiplication gadget forces. scalarMultNAF does so for scalars in (0, 2^255) and canonical points. (False: scalarMultNAF reverts on 0 and mis-computes on unreduced points; scalarMultNAF5 is right only for the scalars 0, 1 and 3 and returns (0,0) for almost all others.)", "quantifier": "all points of the curve, all 256-bit words representing them, all scalars", "why_tests_cant": "ranges over all points and scalars; the tests use fixed multiples of the generator", "anchors": ["contracts/JubJub.sol: pointAdd, pointDouble, scalarMult, scalarMultNAF, scalarMultNAF5, wnafWindow5", "contracts/ETEC.sol", "contracts/ModArith.sol", "src/jubjub/scalarmult.cpp: ScalarMult"]}
{"id": "C88", "title": "Non-adjacent form on chain", "statement": "wnafSequence writes, for widths 2 to 8 and every value up to 2^256 - 2^(width-1), the digits of the unique width-w non-adjacent form of the value, offset by 2^(width-1), ending at byte 255, and returns the offset before the first. (False for 2^256-1, where a subtraction overflows.)", "quantifier": "all values, all widths from 2 to 8", "why_tests_cant": "ranges over all 256-bit values", "anchors": ["contracts/wNAF.sol: wnafSequence"]}
{"id": "C89", "title": "EdDSA on chain", "statement": "EdDSA.Verify accepts exactly the signatures with s B = R + H(R,A,M) A. (False: R is not added. Honest signatures are rejected for every key, message and nonce, the neutral element as key verifies every message with s = 0, and from one accepted signature anyone computes accepted signatures of all other messages. Proved instead: the equation that is checked.)", "quantifier": "all keys, messages, nonces and signatures", "why_tests_cant": "ranges over all signatures; the contract has one test vector at most", "anchors": ["contracts/EdDSA.sol: Verify, HashToInt"]}
{"id": "C90", "title": "Merkle tree on chain", "statement": "For every sequence of insertions of reduced non-zero leaves into a fresh tree of the MerkleTree contract, insert returns the offsets 0, 1, ... and the root of the reference tree of depth 29 (MiMC, level constants of the C++ code, position placeholders), GetRoot reports it, and the proof of every leaf is accepted by VerifyPath; VerifyPath accepts exactly the leaf, address, path and root for which the constraints of the C++ authenticator can be satisfied; two leaves with the same root at the same address give a hash collision. (False on words: x and x + r have the same root along every path; the placeholder of the next position of an odd tree is accepted although nobody inserted it. The insertion claims need that no full subtree has the value 0.)", "quantifier": "all sequences of up to 2^29 leaves, all offsets, all leaves, addresses, paths and roots", "why_tests_cant": "ranges over all histories of the tree; the tests insert one or two leaves", "anchors": ["contracts/MerkleTree.sol: Insert, UpdateTree, GetProof, VerifyPath, GetRoot, GetUniqueLeaf", "src/gadgets/merkle_tree.cpp: merkle_path_authenticator, merkle_tree_IVs"]}
{"id": "C91", "title": "Merkle tree of the Python library", "statement": "For every width, depth and hash, after any possible sequence of append and update the root is that of the reference tree of the current leaves; in binary trees the proof of every element verifies; with MiMC the level constants and node hash equal those of the C++ code, the root equals the root of the contract, and verify accepts exactly what the C++ authenticator accepts. (False: for width above 2 the proof of an element equal to a sibling on its left does not verify; append accepts leaves beyond width^depth, which do not enter the root; the leaf 0 is accepted while the contract reverts.)", "quantifier": "all widths, depths, hashes, sequences of modifications and positions", "why_tests_cant": "ranges over all histories and tree shapes", "anchors": ["ethsnarks/merkletree.py: MerkleTree.append, update, proof, root, MerkleProof.verify, MerkleHasher", "contracts/MerkleTree.sol", "src/gadgets/merkle_tree.cpp"]}
{"id": "C92", "title": "Verifier contract", "statement": "Verifier.Verify returns (does not revert) exactly when the number of inputs matches the key, every input is below the scalar field, every word pair is a point and alpha, C and the input commitment are not the point at infinity, and then it returns whether the pairing equation holds; on the words of a valid key and proof it returns the verdict of the C++ strong verifier. (False: it reverts on a valid proof whose input commitment is the point at infinity, because NegateY(0) = q; the y coordinate of C is reduced modulo q before use, so the call data of a proof is not unique.)", "quantifier": "all keys, proofs, inputs and word lists, and all precompiles that meet EIP-196/197", "why_tests_cant": "ranges over all words and all keys; the failing inputs have negligible density", "anchors": ["contracts/Verifier.sol: ScalarField, NegateY, Verify", "src/r1cs_gg_ppzksnark_zok/r1cs_gg_ppzksnark_zok.tcc"]}
{"id": "C93", "title": "Verifier of the Python library", "statement": "VerifyingKey.verify returns exactly when the key has more points than there are inputs and no input is negative, and decides the verification equation with missing inputs taken as 0 and inputs taken modulo r; on the JSON files that the C++ library writes the Python command gives the verdict of the C++ command when the number of inputs is right. (False: with fewer inputs than the key has, Python accepts what C++ rejects; adding r to the inputs changes nothing; the string \"10\" is 16 in Python and 10 in C++; the JSON string \"12\" is loaded as a point.)", "quantifier": "all keys, proofs, inputs and JSON trees; all pairings that meet the contract of py_ecc", "why_tests_cant": "ranges over all keys and proofs and over two implementations", "anchors": ["ethsnarks/verifier.py: _filter_int, _load_g1_point, _load_g2_point, pairingProd, VerifyingKey.verify", "ethsnarks/cli/verify.py", "src/export.cpp", "src/import.cpp"]}
{"id": "C94", "title": "Points that are accepted", "statement": "The curve of the first group has exactly r points, so that a point that the Python library loads, or that is well formed for the C++ library, is a multiple of the generator. (False for the second group: a point of the twist outside the group of order r is loaded by Python and well formed for C++, while the precompile rejects it.)", "quantifier": "all JSON trees and all Jacobian triples; all points of the curves", "why_tests_cant": "counting the points of a curve over a 254-bit field", "anchors": ["ethsnarks/verifier.py: _load_g1_point, _load_g2_point", "src/r1cs_gg_ppzksnark_zok/r1cs_gg_ppzksnark_zok.hpp: is_well_formed", "contracts/Verifier.sol"]}
{"id": "C95", "title": "Packing of words on chain", "statement": "ReverseBits reverses the 256 bits of a word. PackWords regroups the bits of the input words, most significant first, into words of 253 bits, least significant bit first, fills the last with zeros, and reverts when an output word would begin after the end of the input. The output words are below the order of the group, and with enough output words different inputs of one length have different outputs. (As the comment puts it, N words to N words, inputs collide.)", "quantifier": "all non-empty lists of words and all lengths of the output", "why_tests_cant": "all words, all lengths", "anchors": ["contracts/SnarkUtils.sol: _bits, PackWords, ReverseBits"]}
{"id": "C96", "title": "Jacobi symbols and square roots in the Python library", "statement": "jacobi(a, n) is the Jacobi symbol for every odd n of at least 3 and fails an assertion for other moduli. square_root_mod_prime(a, p) returns a root of a when a is a square modulo the prime p, and raises otherwise.", "quantifier": "all integers a and moduli n; all primes p and all a below p", "why_tests_cant": "all moduli; the branch for p = 1 mod 8 searches for a polynomial and its termination and result depend on the field of p^2 elements", "anchors": ["ethsnarks/numbertheory.py: jacobi, polynomial_reduce_mod, polynomial_multiply_mod, polynomial_exp_mod, square_root_mod_prime"]}
{"id": "C97", "title": "Inverses, divisors and multiples in the Python library", "statement": "inverse_mod(a, m) returns the inverse of a modulo m when a and m have no common divisor and fails an assertion otherwise. gcd and lcm of a list are the greatest common divisor and the least common multiple.", "quantifier": "all integers a and positive moduli m; all non-empty lists of numbers (positive ones for lcm)", "why_tests_cant": "all integers of unbounded size", "anchors": ["ethsnarks/numbertheory.py: inverse_mod, gcd2, gcd, lcm2, lcm"]}
{"id": "C98", "title": "The primality test of the Python library", "statement": "is_prime(n) is True exactly if n is prime. (False: it is True for every prime, and exact up to 1229, but also True for a composite number of 1401 bits, because the bases are fixed and few.)", "quantifier": "all natural numbers n", "why_tests_cant": "all numbers; counterexamples have hundreds of digits and have to be constructed", "anchors": ["ethsnarks/numbertheory.py: is_prime, smallprimes"]}
{"id": "C99", "title": "Field elements of the Python library", "statement": "For elements with the same positive modulus, and integers, the operators +, -, *, unary - and ** return the element of the result's residue class; with a prime modulus inv and / return the inverse and the quotient (0 for a zero divisor) and sqrt a root or an exception; elements of different moduli raise. bits and to_bytes give the number's digits; random covers every residue. (False: inv and / of the class FR, whose modulus is not prime; equality with a zero of another modulus.)", "quantifier": "all moduli, all elements, all integers including negative ones", "why_tests_cant": "unbounded integers, all moduli; inverses are powers, right only for primes", "anchors": ["ethsnarks/field.py: FQ, FR, FR_ORDER"]}
{"id": "C100", "title": "The curve of the Python library in four coordinate systems", "statement": "The parameters are those of the C++ code. add, double, neg, infinity and the conversions of Point, ProjPoint, EtecPoint and MontPoint are the operations of the group of the curve, for all points and all representations of them; the table of points of low order holds exactly the points of order dividing 8. (False: ProjPoint.as_etec for z other than 1; the neutral element of MontPoint, whose double, negative, validity and conversion are wrong.)", "quantifier": "all points of the curve, all triples and quadruples that stand for them", "why_tests_cant": "all points of a group of 254-bit order; exceptional cases are single points", "anchors": ["ethsnarks/jubjub.py: Point, ProjPoint, EtecPoint, MontPoint, AbstractCurveOps.all_loworder_points"]}
{"id": "C101", "title": "Scalar multiplication in the Python library", "statement": "mult, mult_naf and mult_wnaf return the multiple of the point for every scalar that is not negative, in affine, projective and extended coordinates, and for every window width from 2; an element of FR as scalar multiplies by every integer of its class. wNAF returns the non-adjacent form, the same digits as the contract. (False: negative scalars, widths below 2, elements of FQ standing for numbers above Q, MontPoint.)", "quantifier": "all points, all scalars, all widths", "why_tests_cant": "all scalars of unbounded size and all points", "anchors": ["ethsnarks/jubjub.py: AbstractCurveOps.mult, mult_wnaf, wNAF, naf_window, mult_naf, mult_naf_lut"]}
{"id": "C102", "title": "Point recovery, compression and hashing to the curve in the Python library", "statement": "from_x and from_y return a point of the curve with that coordinate, the one of the sign asked for, and raise if there is none. compress is injective and decompress inverts it; what decompress returns is on the curve. from_hash returns 8 times the first point above the digest, always ends within Q steps, its order check never fails, and it agrees with the C++ function whenever that returns. (False: decompress accepts only what compress writes; from_hash never returns the neutral element, as its comment says.)", "quantifier": "all coordinates, all signs, all byte strings, every hash function in place of SHA-256", "why_tests_cant": "all 254-bit coordinates and byte strings; the non-canonical encodings and zero abscissas are single values", "anchors": ["ethsnarks/jubjub.py: Point.from_x, from_y, from_hash, compress, decompress, is_negative"]}
{"id": "C103", "title": "The Pedersen hash of the Python library", "statement": "pedersen_hash_windows is the sum of the signed window digits times powers of 16 times the base points, 62 windows each; pedersen_hash_bits and pedersen_hash_bytes are the hash that the circuit constrains, with the same base points, for every length that is a multiple of three, and of the message padded with zeros otherwise. Base points lie in the subgroup of prime order; overlong names and sequence numbers raise. Messages of whole windows up to one segment do not collide. (False: messages of other lengths; lists of scalars.)", "quantifier": "all bit strings, byte strings, lists of windows and names, every hash function in place of SHA-256", "why_tests_cant": "unbounded messages; agreement of two implementations on all of them", "anchors": ["ethsnarks/pedersen.py: pedersen_hash_basepoint, pedersen_hash_windows, pedersen_hash_bits, pedersen_hash_bytes, pedersen_hash_scalars", "src/jubjub/pedersen_hash.cpp"]}
{"id": "C104", "title": "Signatures of the Python library", "statement": "verify of PureEdDSA, EdDSA and MiMCEdDSA returns whether s B = R + t A, with the challenge t that the specification of the circuit defines (PureEdDSA, EdDSA: Pedersen hash; MiMCEdDSA: MiMC hash), for all points of the curve; where eddsa_open of the C++ code returns, its verdict is that of Python and that R has not low order. sign accepts exactly keys in 1 .. L-1 and returns k B, rho B and rho + k t mod E. (False: every signature that sign makes is accepted; s, R and A are checked to be in range, on the curve and not of low order; messages that differ in trailing zero bits have different signatures.)", "quantifier": "all keys, messages, points, numbers, every hash function in place of SHA-256 and SHA-512", "why_tests_cant": "all keys, messages and signatures; the numbers for which honest signatures fail are never met at random", "anchors": ["ethsnarks/eddsa.py: _SignatureScheme.sign, verify, hash_secret, to_bits, to_bytes, PureEdDSA, EdDSA, MiMCEdDSA, Signature", "src/jubjub/eddsa.hpp: eddsa_open"]}
{"id": "C105", "title": "Poseidon in the Python library", "statement": "poseidon(inputs) is the first element of the Poseidon permutation of the inputs filled up with zeros, for every well formed set of parameters and every 1 <= len(inputs) < t, in the range 0 .. p-1; without inputs or with t or more it raises. The constants are the chain of digests read little-endian modulo p; the matrix is the Cauchy matrix of them; constants, matrix, state and hash agree with the C++ gadget, for the default parameters too, if the constants of the matrix are distinct. poseidon_params accepts only exponent 5, p not 1 modulo 5, even positive numbers of full rounds and round numbers beyond the three bounds. (False: an exponent of 3 is accepted for the primes for which cubing is a permutation; lists of inputs of different lengths, or with inputs that are different numbers, are different inputs of the hash; equal constants are refused as in C++.)", "quantifier": "all parameters, primes, inputs of any number and size, every 32-byte digest in place of BLAKE2b, every function in place of log2", "why_tests_cant": "all inputs, parameters and digests; unit tests compare one vector", "anchors": ["ethsnarks/poseidon/permutation.py: poseidon, poseidon_params, poseidon_constants, poseidon_matrix, poseidon_sbox, poseidon_mix, H, DefaultParams", "src/gadgets/poseidon.hpp"]}
{"id": "C106", "title": "The EVM assembler", "statement": "The code that Codegen makes of a program is the concatenation of the instructions, with each reference to a label replaced by the position of the JUMPDEST of the label; a jump to a label continues there. PUSH makes the shortest instruction that pushes the number. createTxData returns a transaction whose execution returns exactly the code. Labels that are defined twice or not at all raise. (False: a label before its first reference gets no JUMPDEST, so the jump back fails; SWAP(0), which is inside of the documented range, is DUP16 and SWAP16 cannot be made; the largest word cannot be pushed.)", "quantifier": "all programs whose labels are defined behind their first reference, of at most 2^24 bytes, all numbers, all initial stacks, memories and call data", "why_tests_cant": "programs of any length with any arrangement of labels; the tests run two contracts on one input", "anchors": ["ethsnarks/evmasm.py: Codegen.append, Codegen.createTxData, PUSH, DUP, SWAP, PUSHLABEL, JMP, JMPI, LABEL"]}
{"id": "C107", "title": "The MiMC contract in bytecode", "statement": "mimc_contract(5) and mimc_contract(7) make a transaction whose execution returns a code that answers every message call: if the first four bytes are the selector of MiMCpe5(uint256,uint256) or MiMCpe7(uint256,uint256) it returns the 32 bytes of mimc(x, k) of the library, which is the value of the Solidity contract and of the circuit; else it fails. Other exponents are refused. (The length of the data is not checked: missing bytes are zero.)", "quantifier": "both exponents, call data of any length and content, all words x and k, reduced or not", "why_tests_cant": "all pairs of 256-bit words and all call data; the test needs a node and compares one pair", "anchors": ["ethsnarks/mimc/contract.py: mimc_contract, mimc_contract_opcodes, _mimc_opcodes_round", "contracts/MiMC.sol", "ethsnarks/mimc/permutation.py"]}
{"id": "C108", "title": "The Poseidon contract in bytecode", "statement": "poseidon_contract(params) makes a transaction whose execution returns a code that answers every message call: if the first four bytes are the selector of poseidon(uint256[]) it returns the 32 bytes of the hash that the library and the C++ gadget compute of the array; else it fails. (True for width 6, the field of the circuits, exponent 5 and one to five inputs, which covers the default parameters. False else: other widths load the wrong words, so that a narrower permutation ignores the first inputs and width 7 hashes the length; widths from 8 on cannot be generated; modulus and exponent of the parameters are ignored; arrays of no or of more than five elements, which the library refuses, are answered.)", "quantifier": "all parameters whose constants are words, any number of rounds up to 3000, call data of any length and content, all arrays of words", "why_tests_cant": "all arrays of 256-bit words and all call data; the test needs a node and compares one array", "anchors": ["ethsnarks/poseidon/contract.py: poseidon_contract, poseidon_contract_opcodes, _add_round_key, _sigma, _mix", "ethsnarks/poseidon/permutation.py: poseidon, poseidon_params"]}
{"id": "C109", "title": "Secret sharing in Python", "statement": "shamirs_poly(x, a) is the value of the polynomial with coefficients a; lagrange(points, x) interpolates, so that shares with different abscissae, as many as coefficients, give back the secret (and any other value) exactly; with one share fewer the result is the secret only if the top coefficient is zero or a share is the secret itself, and the shares are consistent with every secret, each in exactly one way; inverse_lagrange interpolates the exchanged coordinates; the gadget of the circuit computes the same polynomial; r1cs_constraint returns exactly if a*b = c; malformed arguments are refused. (False in the last point: repeated shares give a wrong secret without an error, since division by zero gives zero; and a zero of another modulus passes r1cs_constraint.)", "quantifier": "all prime moduli above 2 (all moduli for evaluation and the constraint check), coefficient lists and share lists of any length, all abscissae, integer or element arguments", "why_tests_cant": "all polynomials and sets of shares over a 254-bit field; the randomised test even asserts an inequality that is false for some draws", "anchors": ["ethsnarks/shamirspoly.py: shamirs_poly, lagrange, inverse_lagrange", "ethsnarks/r1cs.py: r1cs_constraint", "src/gadgets/shamir_poly.cpp"]}
{"id": "C110", "title": "Bytes and public inputs in Python", "statement": "bytes_to_field_elements cuts the bits of a byte string (most significant bit first) into chunks of the given size, the first bit of a chunk being the least significant of the element; with the default size every element is below the field order, the string can be told from the elements, and SnarkUtils.PackWords in Solidity computes the same elements; libsnark2python turns the elements back into the 32-byte words; unusable chunk sizes are refused; native_lib_path gives the suffix of the platform. (False: the length of the string is lost; a chunk size of 254 gives elements outside of the field and a negative one gives none, without an error; libsnark2python does not align elements below 2^100, so that for example a word holding a short text followed by another word is unpacked wrongly, and it does not fill up the last of more than five words; on Windows the suffix is .so.)", "quantifier": "byte strings of any length, all chunk sizes, lists of words of any length (up to five for unpacking), all inputs", "why_tests_cant": "all byte strings; the tests compare four strings of full-entropy bytes, which never produce a small element", "anchors": ["ethsnarks/utils.py: bytes_to_field_elements, libsnark2python, native_lib_path", "contracts/SnarkUtils.sol: PackWords"]}
{"id": "C111", "title": "Keys and proofs written by the Python library, and its native verifier", "statement": "to_json of a key or a proof is a JSON text of the interchange format: from_json of it gives the same key or proof, for every key and proof that was loaded, different keys and proofs have different texts, and the C++ library loads the same points and inputs from it; NativeVerifier.verify, which passes the texts to the C++ library, gives the verdict of VerifyingKey.verify. (False: a proof with a negative input is loaded but its text is not, and the release build of the C++ library verifies it with an unrelated input; an input of more than 256 bits is cut by the C++ library and not by Python, in both directions; with too few inputs Python accepts and the C++ library rejects; a key without coefficients is undefined behaviour.)", "quantifier": "all keys and proofs (lists of any length, integers of any size), all JSON values they are loaded from, debug and release builds", "why_tests_cant": "all keys, proofs and inputs; the round trip is only exercised on one stored file", "anchors": ["ethsnarks/verifier.py: CustomEncoder, BaseProof.to_json, BaseVerifier.to_json, NativeVerifier", "src/import.cpp", "src/verify_dll.cpp"]}
{"id": "C112", "title": "The Solidity library for MiMC that the Python library writes", "statement": "For the exponents 5 and 7 and all constants, the text written by mimc_contract_solidity is a Solidity library whose function returns MiMC of its two arguments; with the default constants it is, character for character, the contract that is committed in contracts/, and the committed text run as a program is the function compared with the circuit elsewhere; main writes it to the standard output or to the file that is named. (False: the sums are not reduced, so that arguments near 2^256 give another value; another exponent gives a library that adds its arguments; with a file name main raises, and with a second one it empties that file first.)", "quantifier": "all lists of constants, all pairs of words, all exponents, all argument lists", "why_tests_cant": "all words and all constants; the committed files are not compared with the generator", "anchors": ["ethsnarks/mimc/contract_sol.py: mimc_contract_solidity, main", "contracts/MiMCpe7_generated.sol", "contracts/MiMCpe5_generated.sol"]}
{"id": "C113", "title": "The default instance of Poseidon, without assumptions", "statement": "With BLAKE2b of RFC 7693, which the C function computes, the 65 round constants and the twelve constants of the matrix derived from the two default seeds are the same numbers in C++ and in Python and pairwise distinct; the matrix is built without a failing inversion and is invertible; the permutation is a bijection of six field elements; permute gives the outputs of that permutation for up to six inputs and outputs, the Python hash and the generated contract give its first element for one to five inputs; the values that the tests of both languages expect are met.", "quantifier": "all inputs (lists of up to six field elements, lists of one to five integers or words)", "why_tests_cant": "the tests compare four constants and one hash; they do not show that the matrix is invertible or that the three implementations agree on all inputs", "anchors": ["src/gadgets/poseidon.hpp: poseidon_constants_fill, poseidon_matrix_fill, poseidon_params, Poseidon128", "src/crypto/blake2b.cpp", "ethsnarks/poseidon/permutation.py: DefaultParams, poseidon", "ethsnarks/poseidon/contract.py", "src/test/test_poseidon.cpp", "test/test_poseidon.py"]}
{"id": "C114", "title": "Solidity text of a proof and of a key", "statement": "For every proof and key that the Python library reads, and every identifier, proof2sol and vk2sol print the text of one internal function of that name that assigns every point and every public input to its field of the structure, imaginary coordinates first, and nothing else, provided the inputs are words of the machine; nothing is lost in the text; a text with an input that is no word is no Solidity. The text compiles against the contracts of the repository.", "quantifier": "all proof and key files (any number of inputs and points), all names", "why_tests_cant": "there is no test of the two programs; the claim ranges over all proofs and asks what another language makes of the text", "anchors": ["ethsnarks/cli/proof2sol.py: main", "ethsnarks/cli/vk2sol.py: main", "ethsnarks/cli/utils.py: fq_to_sol, fq2_to_sol, g1_to_sol, g2_to_sol", "contracts/Verifier.sol"]}
{"id": "C115", "title": "The contract Migrations over all histories", "statement": "After any sequence of calls by any accounts, a Migrations contract belongs to the account that deployed it and holds the number that this account reported last (0 before); calls by others change nothing and do not fail. A call of upgrade by the owner hands the number over to the new contract.", "quantifier": "all histories of deployments, reports and upgrades, of any length, any number of contracts and accounts", "why_tests_cant": "there is no test of the contract; the claim is an invariant over unbounded histories with calls between contracts", "anchors": ["contracts/Migrations.sol: Migrations, restricted, setCompleted, upgrade"]}
{"id": "C116", "title": "The public interface of the curve contract", "statement": "JubJubPublic.pointAdd and scalarMult return the reduced coordinates of the sum and of the multiple in the group of the curve, for all points given by any words and all factors; the two functions satisfy the laws of multiples as a caller sees them; points that are not on the curve are refused.", "quantifier": "all pairs of words that denote points, all factors", "why_tests_cant": "the tests call the functions with a few points", "anchors": ["contracts/JubJubPublic.sol: pointAdd, scalarMult", "contracts/JubJub.sol"]}
{"id": "C117", "title": "Nonces of the Python signatures", "statement": "The nonce of a signature is the SHA-512 digest, modulo L, of the secret key and an encoding of the message, and messages with different challenges have different encodings, so that no nonce is used twice with different challenges (which, as the comment of hash_secret says, would reveal the key) unless SHA-512 collides.", "quantifier": "all messages of all types, keys, base points and hash functions, for each of the three schemes", "why_tests_cant": "the tests sign a few messages of one type each; a collision of encodings across types or lengths shows in none of them, and that two signatures reveal the key is an algebraic statement about all keys", "anchors": ["ethsnarks/eddsa.py: to_bytes, to_bits, hash_secret, hash_public, sign, as_scalar", "ethsnarks/field.py: FQ.to_bytes"]}
{"id": "C118", "title": "The example run of the proof system accepts satisfied examples", "statement": "For every constraint system with an assignment that satisfies it, generating keys, writing and reading back both keys, the processed key and the proof, proving, and verifying by the plain, the online and the affine verifier ends with the answer true, the copies being equal to the originals and the verifiers agreeing, in release and in debug builds.", "quantifier": "all constraint systems, assignments, setup and prover randomness, encodings and build modes, with and without the reserialisation", "why_tests_cant": "the test runs one random example of 1000 constraints in one build mode", "anchors": ["src/r1cs_gg_ppzksnark_zok/examples/run_r1cs_gg_ppzksnark_zok.tcc run_r1cs_gg_ppzksnark_zok", "src/r1cs_gg_ppzksnark_zok/tests/test_r1cs_gg_zok_ppzksnark.cpp test_r1cs_gg_ppzksnark_zok", "src/r1cs_gg_ppzksnark_zok/r1cs_gg_ppzksnark_zok.tcc dummy_verification_key"]}
{"id": "C119", "title": "The test programs of the gadgets decide agreement with the reference definitions", "statement": "Each test function of a gadget returns true exactly if the value it is given as expected is the value of the reference definition, whatever the inputs put in place of the recorded literals; the tests that end by proving and verifying reach the proof system with a satisfied constraint system in which every variable exists, and pass in a release build for all random elements and all randomness of the setup and the prover.", "quantifier": "all inputs, expected values, tables, points, scalars, bit strings, round constants and random elements of the tests", "why_tests_cant": "the programs are themselves the tests: each run covers its literals and one draw of random elements, and nothing shows that a pass means agreement with a definition", "anchors": ["src/test/test_field2bits.cpp test_field2bits", "src/test/test_isnonzero.cpp test_zerop", "src/test/test_lookup_1bit.cpp test_lookup_1bit", "src/test/test_lookup_2bit.cpp test_lookup_2bit", "src/test/test_lookup_3bit.cpp test_lookup_3bit", "src/test/test_one_of_n.cpp test_one_of_n", "src/test/test_shamir_poly.cpp test_shamirs_poly", "src/test/test_subadd.cpp test_subadd", "src/test/test_merkle_tree.cpp", "src/test/test_mimc.cpp test_MiMC", "src/test/test_mimc_hash.cpp test_mimc_hash", "src/test/jubjub"]}
{"id": "C120", "title": "The values recorded in the C++ tests are the ones the code computes, and a test program that ends with status 0 has compared them", "statement": "With SHA-256 as digest, any square root function that keeps its contract and the default constants, every test program of src/test and src/test/jubjub that contains recorded values (points, scalars, base points, hashes, signatures, MiMC and Poseidon values, the 252 cases of test_subadd) ends with status 0; those that end in a proof do so on every proof system that keeps its contract, in a release build, for all randomness. A wrong recorded value gives another status.", "quantifier": "for all square root functions that keep the contract of libff, all proof systems, domains and random values, all random elements of the lookup tests; for the status of test_poseidon all tables of constants", "why_tests_cant": "A test run shows that compiled code agrees with a recorded value; it does not show that the value agrees with the mathematical definition, nor that the program can fail at all.", "anchors": ["src/test/test_field2bits.cpp main", "src/test/test_isnonzero.cpp main", "src/test/test_subadd.cpp main", "src/test/test_lookup_2bit.cpp main", "src/test/test_mimc.cpp main", "src/test/test_mimc_hash.cpp main", "src/test/test_merkle_tree.cpp main", "src/test/test_poseidon.cpp main", "src/test/jubjub/*.cpp main"]}
{"id": "C121", "title": "The SHA-256 gadgets compute SHA-256 of FIPS 180-4, and their test programs decide exactly that", "statement": "With a compression gadget for the compression function of FIPS 180-4 and its initial value, the digest of sha256_many on every message of at least one byte and of sha256_full_gadget_512 on every 64-byte message is the bit string of the SHA-256 digest of the message. test_sha256_many returns true on a message exactly when the iterated compression of the padded message is the digest of the C code; test_sha256_full_gadget runs the proof system exactly when the recorded digest is right and the two compressions lead to it, and returns false otherwise. Their main functions end with status 0 when the gadget computes the FIPS function. test_field_packing prints the 253-bit groups of the repeated digest, the values SnarkUtils.PackWords returns.", "quantifier": "for all messages, all compression gadgets that meet their contract, for right and wrong compression functions and initial values, all contents of uninitialised memory, all proof systems, all reference strings and numbers of words", "why_tests_cant": "The tests try four messages of a fixed pattern and one text; they cannot show agreement on every message and length, nor that a wrong compression function would be noticed; the second comparison of test_sha256_full_gadget compares a value with itself.", "anchors": ["src/gadgets/sha256_many.cpp sha256_many", "src/gadgets/sha256_full.hpp sha256_full_gadget_512", "src/test/test_sha256_many.cpp test_sha256_many, test_sha256_rand, main", "src/test/test_sha256_full_gadget.cpp test_sha256_full_gadget, main", "src/test/test_field_packing.cpp fill_words, test_packing_bytes_to_field, main"]}
{"id": "C122", "title": "The Python tests of the curve pass for every random choice, or exactly when stated", "statement": "test_serialise, test_5_recover_x, test_6_recover_y, test_negate_order, test_cyclic, test_10_twist and test_multiplicative pass for every point of the curve, and test_naf for every scalar; the recorded points, doubles, multiples and the hash of 'test' are the ones the four classes compute; test_3_validity passes exactly when no random point is the neutral element, and test_mult_all_random exactly when the random scalar is not zero.", "quantifier": "for all points of the curve (the results of hashing random bytes, for every digest function), all random scalars of the three fields, all samples", "why_tests_cant": "A run tries ten random points or five random scalars; whether some choice makes the test fail although the code is right, or a wrong conversion pass, is only visible over all choices.", "anchors": ["test/test_jubjub.py TestJubjub", "test/test_jubjub_lmask.py TestJubjubLMask", "ethsnarks/jubjub.py Point, ProjPoint, EtecPoint, MontPoint"]}
{"id": "C123", "title": "The Python tests of secret sharing, one-of-N and Pedersen hashing pass exactly when stated", "statement": "A turn of test_random of the sharing polynomial passes exactly if the top coefficient, the last three abscissae and the quadratic remainder at the last two points are not zero; test_one_of_n passes for every list and every index in it; test_zcash passes for every scalar whose two copies fit one base point, exactly if the base point is not the neutral element; all recorded polynomials, constraints and Pedersen hashes are the ones the library computes.", "quantifier": "for all coefficients and first abscissae, all item lists and indices, all scalars from 1 up to 93 bits and all digest functions; for the recorded values all square root functions that keep their contract", "why_tests_cant": "The tests draw ten polynomials, one index and one scalar; that a draw can fail although the code is right, and that an assertion on a bound method can never fail, is visible only over all draws.", "anchors": ["test/test_shamir_poly.py ShamirPolyTests", "test/test_one_of_n.py", "test/test_pedersen.py TestPedersenHash", "ethsnarks/shamirspoly.py", "ethsnarks/pedersen.py"]}
{"id": "C124", "title": "The Python tests of MiMC, Poseidon, field packing, Merkle trees and the generated contracts pass for all inputs of their kind", "statement": "The recorded MiMC and Poseidon values, packed field elements, roots, nodes and placeholder leaves are the ones the library computes; the deployed MiMC contracts return the library's value for all pairs of words and the deployed Poseidon contract for all lists of one to five words; test_tree passes for every list of items that fits the tree exactly if each item changes the root, lengths and all proofs being always right; test_update passes for every width of at least two exactly if the three roots differ, so it fails when a replacement is equal to the leaf it replaces.", "quantifier": "for all hashes, depths, capacities, widths and items; all pairs of 256-bit words; all lists of one to five words", "why_tests_cant": "One run builds one tree of 32 items and calls a contract with one or two argument lists.", "anchors": ["test/test_mimc.py", "test/test_mimc_evm.py", "test/test_poseidon.py", "test/test_poseidon_evm.py", "test/test_bitstofields.py", "test/test_merkle.py TestMerkleTree"]}
{"id": "C125", "title": "The Python tests of EdDSA: the recorded signatures are valid, the wrong scheme refuses them, and the random test has an exact condition", "statement": "With SHA-256 of FIPS 180-4 the recorded signatures of test_hash_eddsa, test_pure_eddsa and test_mimc_eddsa satisfy the verification equation and are refused by the other scheme; test_signverify passes exactly if both numbers s, computed modulo the curve's order, are below the modulus of the default field.", "quantifier": "for test_signverify: all keys, all messages of 1 to 46 bytes, all functions in the place of SHA-512", "why_tests_cant": "The random test draws one key and one message; the failing keys have probability about 2^-128 and cannot be found by sampling.", "anchors": ["test/test_eddsa.py TestEdDSA", "ethsnarks/eddsa.py EdDSA, PureEdDSA, MiMCEdDSA, sign, verify"]}
{"id": "C126", "title": "The Solidity and JavaScript tests accept exactly the stated behaviour, and the contracts of the repository pass", "statement": "Each test of the contracts, as a function of the library under test, passes exactly if the library has the recorded values at the recorded arguments; the contracts for Baby Jubjub, MiMC (computed, generated and compiled by the Python code), the Merkle tree and the packing of words have these values; the test of the proof verifier passes exactly if the recorded words encode group elements that satisfy the verification equation for the two words in which the packing test packs its word.", "quantifier": "for all implementations of the library under test; for the contracts of the repository: the recorded arguments; for the verifier: all precompiles that keep their contract", "why_tests_cant": "A run shows that one implementation passes; which implementations pass, and so what the test does not notice, is a statement about all of them.", "anchors": ["test/TestJubJub.sol", "test/TestMerkleTree.sol", "test/TestMiMC.sol", "test/TestMiMC.js", "test/TestSnarkUtils.sol", "test/TestVerifier.sol"]}
{"id": "C127", "title": "The prototypes in .appendix compute what the library computes, where they do", "statement": "The unrolled addition and the flagged mixed addition compute the group operation for all curve points, so the double-and-add loops over them end with the library's product for every scalar; the two-bit and three-bit window formulas select the indexed table entry; the search for low-order points ends without a failing assertion exactly if the random points cover the kernel of the cofactor; the incremental mountain range keeps exactly the peaks and reports every subtree root, for every hash function and every list of items; the JavaScript MiMC constants are the constants of the library shifted by one place.", "quantifier": "for all curve points, scalars, tables of coefficients, lists of random points, hash functions, lists of items and numbers of rounds", "why_tests_cant": "Each script runs on one random point, one random table or a few items; whether it can fail for other choices is a statement about all of them.", "anchors": [".appendix/fast-add.py", ".appendix/mixed-addition.py", ".appendix/2-bit-window.py", ".appendix/three-bit-window.py", ".appendix/find_loworder_points.py", ".appendix/immr.py", ".appendix/mimc.js"]}
{"id": "C128", "title": "The sieve of the appendix returns the primes, and the solver script of the appendix is solvable exactly under eight inequalities", "statement": "The sieve returns exactly the primes below its bound in ascending order, and no slice assignment in it raises, for every bound from 4 on; the system of equations of the solver script has a solution exactly if eight inequalities between the random coordinates hold, and every solution passes the assertions at the end.", "quantifier": "for all bounds (and every floating-point square root that is not below the integer square root); for all points", "why_tests_cant": "A run covers one bound or one choice of random points.", "anchors": [".appendix/primes.py rwh_primes2", ".appendix/arith-coding-window-6.py"]}
{"id": "C129", "title": "The recorded Pinocchio circuits compute what their names say for all inputs, and the build target that runs them notices a wrong result", "statement": "For all values of the input wires the eight circuit files of the repository evaluate to the sum, product, exclusive or, disjunction, constant multiples and table entries, their constraint systems are satisfied by exactly those relations between the wires, and on the recorded inputs the program prints the recorded results; the test program ends with zero exactly if the evaluated wires satisfy the constraints; the build target succeeds exactly if the printed results are the recorded ones.", "quantifier": "for all input values, builds, file systems and, for the build target, all programs", "why_tests_cant": "The recorded tests run each circuit on one input, do not look at its constraints, and cannot test the rule that judges them.", "anchors": ["test/pinocchio/*.circuit", "test/pinocchio/*.input", "test/pinocchio/*.test", "src/pinocchio/jsnark_test.cpp main", "Makefile pinocchio-test"]}
{"id": "C130", "title": "The tests of the Python verifier judge what they claim to", "statement": "The round trip test passes exactly if the key record loads and the written text loads as the same key, which for the library holds of every record that loads; the native and the Python test pass exactly if the records load and the verifier accepts, have the same verdict on all records with as many inputs as the key has, and on the recorded key and proof exactly if the verification equation holds of the recorded points; the records are the key, proof and inputs of the Solidity test.", "quantifier": "for all implementations of the methods under test, all records, all pairings that meet the contract", "why_tests_cant": "A test runs on one record and one implementation and cannot show which wrong verifiers it would let pass.", "anchors": ["test/test_verify.py VerifyTests", "ethsnarks/verifier.py VerifyingKey, NativeVerifier, Proof", "test/TestVerifier.sol"]}
{"id": "C131", "title": "The benchmark programs end normally exactly on correct results", "statement": "The pairing benchmark ends normally for every bilinear pairing, all points and every number of turns, its accumulators being the pairing of the sum of a geometric series; the proving key benchmark prints OK exactly if the file holds a proving key; the profiling program runs the example of the size it was asked for, with bytes packed by 253 bits, and ends with 0 exactly if the proof is accepted.", "quantifier": "for all pairings that meet the contract, all numbers of turns, files and builds", "why_tests_cant": "The programs are run by hand with fixed numbers; what they accept depends on the build.", "anchors": ["src/test/benchmark/benchmark_pairing.cpp main", "src/test/benchmark/benchmark_load_proofkey.cpp main", "src/r1cs_gg_ppzksnark_zok/profiling/profile_r1cs_gg_ppzksnark_zok.cpp main"]}
{"id": "C132", "title": "The solver script asks for a polynomial that always exists", "statement": "evalpoly is the value of the polynomial modulo the order for all integers; for every polynomial and all points the constraints handed to the solver have a solution exactly if both points are in the range of the unknowns, so two evaluations never determine a polynomial of degree three; and the script gets as far as the solver.", "quantifier": "for all polynomials with integer coefficients and all points", "why_tests_cant": "The solver answers for one random polynomial at a time.", "anchors": [".appendix/z3_test_poly.py", "ethsnarks/shamirspoly.py"]}
{"id": "C133", "title": "The example script that signs with MiMCEdDSA prints a signature that verifies", "statement": "random_keypair returns the value of the random bytes modulo the order of the subgroup and its multiple of the base point; for all random bytes the script prints the key, R and s of a signature over the numbers 1, 2, 3, and the printed signature verifies.", "quantifier": "for all random bytes and all functions in the place of SHA-512", "why_tests_cant": "The script draws one random key at a time, and the failing keys are too rare or too dependent on the hash to be met in a run.", "anchors": [".appendix/mimceddsa.py", "ethsnarks/eddsa.py random_keypair, MiMCEdDSA.sign, verify", "ethsnarks/field.py FQ.random"]}
{"id": "C134", "title": "The Sage script about the curve ends normally", "statement": "The group of the Edwards curve is the group of the elliptic curve in Montgomery form; the curve has 8 L points and its quadratic twist 4 T with L and T prime; the search finds the point at u = 49, no point with a smaller positive u having prime order above 8, and eight times this point is the generator of the library or its negative; the script ends normally exactly if the square root function returns the lower root there.", "quantifier": "for all points of the curve, all nonsquares by which the twist is made, and all choices of square roots", "why_tests_cant": "The order of the curve and of its twist, the primality of the cofactors' complements and the group isomorphism are statements about some 2^254 points.", "anchors": [".appendix/ejubjub.sage", "ethsnarks/jubjub.py Point.generator, MontPoint", "src/jubjub/params.hpp"]}
{"id": "C135", "title": "The benchmark of the curve times multiplications by the scalar", "statement": "For all random bytes the script ends normally; each of its forty expressions returns, in the class of its object, the multiple of the drawn point by the drawn scalar.", "quantifier": "for all digests, random bytes, points and scalars, and all forty expressions", "why_tests_cant": "The script drops the results it times, and no test compares the ways of multiplying in all classes and widths.", "anchors": [".appendix/benchmark-jubjub.py", "ethsnarks/jubjub.py mult_naf, mult_naf_lut, naf_window, Point.random"]}
