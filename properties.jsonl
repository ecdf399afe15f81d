{"id": "C01", "title": "Linear-combination arithmetic is exact", "statement": "For every operator offered on a LinearCombination (adding or subtracting a variable, a (coefficient, variable) pair, another combination by value or by reference, a scaled combination, negation, doubling, scaling), the value of the result under any assignment equals the same operation applied to the values of the operands.", "quantifier": "all fields, all operand combinations (any length, sorted or not, with or without repeated variables), all assignments", "why_tests_cant": "The insert path switches from a linear scan to binary search at length 6 and the merge walks two lists with several exit conditions; unit tests only sample a few lengths and orders, a lost or doubled term makes a circuit prove a different statement.", "anchors": ["r1cs/src/impl_lc.rs: Add/Sub/Neg/AddAssign/SubAssign impls, get_var_loc, op_impl", "r1cs/src/lib.rs: LinearCombination"]}
{"id": "C02", "title": "Linear combinations stay sorted", "statement": "Every LinearCombination obtained from zero by any sequence of the public operators lists its terms in non-decreasing variable order (public inputs before auxiliary variables, then by index), as the type's documentation promises.", "quantifier": "all finite sequences of operators applied starting from the empty combination", "why_tests_cant": "The documented order is what makes binary search correct; it is an invariant over unbounded histories of operators that mix insertion and merge.", "anchors": ["r1cs/src/lib.rs: LinearCombination, Index Ord", "r1cs/src/impl_lc.rs: get_var_loc, AddAssign, op_impl"]}
{"id": "C03", "title": "Repeated variables are merged", "statement": "Adding a (coefficient, variable) pair to a LinearCombination that already contains that variable leaves exactly one term for it, so a combination built through the API never lists the same variable twice.", "quantifier": "all operator sequences from the empty combination", "why_tests_cant": "Downstream provers write coefficients into dense rows by assignment, so a combination with a repeated variable silently loses a coefficient; whether duplicates can arise depends on the length at the time of the insert.", "anchors": ["r1cs/src/impl_lc.rs: get_var_loc, AddAssign<(F, Variable)>", "bulletproofs/src/arithmetic_circuit.rs"]}
{"id": "C04", "title": "Variable index encoding round-trips", "statement": "Serializing a variable index and deserializing the bytes returns the same index and consumes exactly the reported number of bytes, and two different indices never have the same encoding.", "quantifier": "all indices (both kinds, all 64-bit positions) and all trailing bytes", "why_tests_cant": "A round-trip law over 2^65 values cannot be enumerated.", "anchors": ["r1cs/src/lib.rs: CanonicalSerialize/CanonicalDeserialize for Index"]}
{"id": "C05", "title": "Mixed variable/combination operands are exact", "statement": "The ConstraintVar wrapper (either one variable or a combination) obeys the same evaluation laws: adding or subtracting a combination, a variable or a scaled variable, negating, doubling and scaling change its value under every assignment exactly as the field operation would.", "quantifier": "all wrapper values, all operands, all assignments", "why_tests_cant": "Subtraction is implemented by negating twice around a swapped operand; a sign slip is invisible unless the tested values are asymmetric.", "anchors": ["r1cs/src/impl_constraint_var.rs"]}
{"id": "C06", "title": "Boolean gates are sound", "statement": "Whatever values a prover assigns to the circuit variables, if all constraints emitted by allocating bits and applying and / xor / not / and-not / nor gates are satisfied, then every gate output (as a linear expression) equals the corresponding Boolean function of the gate inputs, for every mix of allocated bits, negated bits and constants.", "quantifier": "all assignments satisfying the emitted constraints, all operand shapes", "why_tests_cant": "Tests check honest assignments and a few corrupted ones; soundness quantifies over every assignment in the field.", "anchors": ["gadgets/src/algebra/boolean.rs: AllocatedBit::{alloc,alloc_conditionally,xor,and,and_not,nor}, Boolean::{lc,not,xor,and}"]}
{"id": "C07", "title": "Boolean gates are complete", "statement": "When all inputs carry values, building any of these gates succeeds, the value carried by the output equals the Boolean function of the input values, and the assignment computed during synthesis satisfies all emitted constraints; with a missing value the gate reports a missing assignment instead of inventing one.", "quantifier": "all operand shapes and values, all prior contents of the constraint system", "why_tests_cant": "The statement is about every reachable constraint-system state before the gate is applied.", "anchors": ["gadgets/src/algebra/boolean.rs"]}
{"id": "C08", "title": "Boolean equality enforcement", "statement": "Enforcing equality of two Boolean values emits constraints satisfied exactly by the assignments under which the two values are equal; two different constants are rejected when the circuit is built.", "quantifier": "all operand shapes (allocated, negated, constant) and all assignments", "why_tests_cant": "Nine shape combinations times all field assignments.", "anchors": ["gadgets/src/algebra/boolean.rs: Boolean::enforce_equal"]}
{"id": "C09", "title": "SHA-256 choice and majority gates", "statement": "The choice and majority gates on three Boolean values return (for every satisfying assignment) exactly (a and b) xor ((not a) and c) respectively the majority bit, whatever mix of constants, allocated and negated bits is supplied.", "quantifier": "all 27 operand shapes, all satisfying assignments", "why_tests_cant": "There are special-case branches for each constant operand; tests enumerate honest witnesses only.", "anchors": ["gadgets/src/algebra/boolean.rs: Boolean::sha256_ch, Boolean::sha256_maj"]}
{"id": "C10", "title": "Field-element bit decomposition is binding", "statement": "Allocating a field element as bits yields Boolean variables whose weighted sum equals that element in every satisfying assignment.", "quantifier": "all field elements, all satisfying assignments", "why_tests_cant": "The missing constraint only shows for dishonest witnesses.", "anchors": ["gadgets/src/algebra/boolean.rs: field_into_boolean_vec_le, field_into_allocated_bits_le"]}
{"id": "C11", "title": "32-bit word operations have machine semantics", "statement": "Word gadgets for constants, rotation, shift, xor, choice and majority compute exactly the 32-bit machine operation on the represented words, for every satisfying assignment, for every rotation or shift amount (taken modulo 32), and the cached value agrees with the bits.", "quantifier": "all words, all amounts, all satisfying assignments", "why_tests_cant": "2^32 words times unbounded rotation amounts; bit order mistakes cancel in symmetric tests.", "anchors": ["gadgets/src/algebra/uint32.rs: constant, alloc, rotr, shr, xor, sha256_ch, sha256_maj, triop, into_bits_be, from_bits_be"]}
{"id": "C12", "title": "Multi-operand addition is addition modulo 2^32", "statement": "The gadget that adds between two and ten 32-bit words yields, in every satisfying assignment, the word equal to the sum modulo 2^32; it succeeds for honest values and refuses operand counts outside 2..10.", "quantifier": "all operand lists, all satisfying assignments, all fields of at least 64 bits", "why_tests_cant": "Carry bits are free witness variables and the equality is batched with other equalities; only a proof excludes wrap-around in the field.", "anchors": ["gadgets/src/algebra/uint32.rs: addmany", "gadgets/src/operator/multieq.rs"]}
{"id": "C13", "title": "Batched equality enforcement is exact", "statement": "Packing any sequence of equalities (each declared to fit in k bits, and both sides provably below 2^k) into the batcher emits constraints that are satisfied exactly when every single equality holds, for every order and every flush point, including the flush when the batcher goes out of scope.", "quantifier": "all sequences of equalities and widths, all assignments whose sides respect the declared widths, all fields", "why_tests_cant": "Flush points depend on the accumulated width history; cross-talk between packed equalities appears only for particular widths.", "anchors": ["gadgets/src/operator/multieq.rs: enforce_equal, accumulate, Drop"]}
{"id": "C14", "title": "SHA-256 compression circuit computes FIPS 180-4", "statement": "In every satisfying assignment the output words of the SHA-256 compression circuit equal the FIPS 180-4 compression function applied to the represented block and chaining value; honest synthesis satisfies all constraints.", "quantifier": "all 512-bit blocks, all chaining values, all satisfying assignments", "why_tests_cant": "2^768 inputs and arbitrary dishonest witnesses; tests use a handful of vectors.", "anchors": ["gadgets/src/hashes/sha256.rs: sha256_compression_function, ROUND_CONSTANTS"]}
{"id": "C15", "title": "SHA-256 circuit computes SHA-256 of the whole message", "statement": "For a byte-aligned message of any length supplied as big-endian bits, the SHA-256 circuit's output bits equal the FIPS 180-4 digest of the message (padding included) in every satisfying assignment; messages that are not a whole number of bytes are refused.", "quantifier": "all message lengths and contents, all satisfying assignments", "why_tests_cant": "Padding depends on length modulo 512; tests sample lengths.", "anchors": ["gadgets/src/hashes/sha256.rs: sha256, sha256_block_no_padding, get_sha256_iv"]}
{"id": "C16", "title": "BLAKE2s circuit computes RFC 7693", "statement": "In every satisfying assignment the output bits of the BLAKE2s circuit equal the RFC 7693 BLAKE2s-256 digest (no key, given personalization) of the represented message, for every whole-byte message length, including the empty message.", "quantifier": "all message lengths and contents, personalizations, satisfying assignments", "why_tests_cant": "Message-schedule and last-block handling vary with length; dishonest witnesses cannot be sampled.", "anchors": ["gadgets/src/hashes/blake2s.rs: blake2s, blake2s_compression, mixing_g, SIGMA"]}
{"id": "C17", "title": "MiMC circuit is bound to the MiMC function", "statement": "In every satisfying assignment, the value at the end of the MiMC circuit is the MiMC function of the values assigned to the preimage variables; the native hash and the circuit agree.", "quantifier": "all preimages, all round constants, all satisfying assignments", "why_tests_cant": "322 rounds of free intermediate witnesses.", "anchors": ["gadgets/src/hashes/mimc.rs: mimc, mimc_block, mimc_hash"]}
{"id": "C18", "title": "Native MiMC hash separates inputs", "statement": "Hashing two different non-empty byte strings of the same length feeds different field-element sequences to the MiMC rounds (no two different inputs are conflated before hashing), and hashing never panics.", "quantifier": "all byte strings", "why_tests_cant": "The conflating inputs are chunks that do not parse as a field element, a set random tests essentially never hit.", "anchors": ["gadgets/src/hashes/mimc.rs: mimc_hash"]}
{"id": "C19", "title": "Hash abstraction binds output to input", "statement": "For each hash offered through the common hash interface used by the Merkle circuit, in every satisfying assignment the returned output variables carry the hash of the supplied input variables.", "quantifier": "all implementations (MiMC, SHA-256, Rescue, Poseidon; BLAKE2s has none), all satisfying assignments", "why_tests_cant": "Honest synthesis always fills in consistent values; only quantifying over assignments shows whether the link is enforced.", "anchors": ["gadgets/src/hashes/abstract_hash.rs", "gadgets/src/hashes/mimc.rs: hash_enforce", "gadgets/src/hashes/sha256.rs: hash_enforce", "gadgets/src/hashes/rescue.rs: hash_enforce", "gadgets/src/hashes/poseidon.rs: hash_enforce"]}
{"id": "C20", "title": "Rescue and Poseidon power circuits compute powers", "statement": "The exponentiation circuit used by the Rescue and Poseidon permutations assigns and enforces base^exponent for every base and exponent.", "quantifier": "all bases and exponents", "why_tests_cant": "A wrong initial accumulator still yields satisfiable constraints, so a satisfiability test passes.", "anchors": ["gadgets/src/hashes/rescue.rs: pow_with_constraint", "gadgets/src/hashes/poseidon.rs: pow_with_constraint"]}
{"id": "C21", "title": "2- and 3-bit lookup circuits select the right entry", "statement": "In every satisfying assignment, the 2-bit and 3-bit table lookup circuits output exactly the table entry (or its coordinate pair) addressed by the selector bits; honest synthesis satisfies the constraints and carries that entry as value.", "quantifier": "all tables over the field, all selectors, all satisfying assignments", "why_tests_cant": "The interpolation coefficients must be right for every table, not for the sampled ones.", "anchors": ["gadgets/src/lookup/table.rs: lookup2_x, lookup2_xy, lookup3_x, lookup3_xy, synth"]}
{"id": "C22", "title": "1-bit lookup circuit selects the right entry", "statement": "In every satisfying assignment, the 1-bit lookup circuit outputs the table entry addressed by the selector bit.", "quantifier": "all tables, both selector values, all satisfying assignments", "why_tests_cant": "The table entries are prover-assigned variables; only dishonest witnesses show it.", "anchors": ["gadgets/src/lookup/table.rs: lookup1_x"]}
{"id": "C23", "title": "Comparison circuit proves A < B on n-bit integers", "statement": "For n-bit integers A and B the comparison circuit with public 2^n is satisfiable exactly when A < B; synthesis never panics for supported widths.", "quantifier": "all widths n, all pairs of field elements, all satisfying assignments", "why_tests_cant": "Wrap-around in the field (operands that are not n-bit) cannot be found by sampling.", "anchors": ["gadgets/src/operator/rangeproof.rs: RangeProof::generate_constraints"]}
{"id": "C24", "title": "Non-zero and public-input helpers", "statement": "The non-zero assertion is satisfiable exactly for non-zero values and reports division by zero when synthesised on zero; exposing an allocated value as public input forces the public input to equal that value in every satisfying assignment.", "quantifier": "all values, all assignments", "why_tests_cant": "Exactness in both directions over the whole field.", "anchors": ["gadgets/src/algebra/fr.rs: AllocatedFr::{isnonzero, inputize}"]}
{"id": "C25", "title": "Merkle root and Merkle tree agree", "statement": "The root computed directly from the leaves equals the root of the full tree built from the same leaves, for any number of leaves and any merge function; the empty list gives the default value.", "quantifier": "all leaf lists, all merge functions (not assumed commutative, associative or injective)", "why_tests_cant": "The direct computation uses a rotating queue with reversed order; agreement must hold for every non-power-of-two size.", "anchors": ["gadgets/src/merkletree/cbmt.rs: build_merkle_root, build_merkle_tree, MerkleTree::root"]}
{"id": "C26", "title": "Merkle membership proofs verify", "statement": "For every leaf position of a tree the produced membership proof verifies against the tree root with that leaf, and no proof is produced for a position outside the tree.", "quantifier": "all leaf lists, all positions (32-bit), all merge functions", "why_tests_cant": "Non-power-of-two sizes and 32-bit overflow at large positions are outside any test.", "anchors": ["gadgets/src/merkletree/cbmt.rs: build_proof, MerkleProof::root, verify, TreeIndex"]}
{"id": "C27", "title": "Merkle membership proofs are binding", "statement": "If the merge function is injective, then for a fixed tree any accepted proof with the position of leaf i (and the matching number of siblings) carries exactly leaf i; a proof cannot be accepted for two different leaves at the same position.", "quantifier": "all trees, positions, accepted proofs", "why_tests_cant": "Binding quantifies over all adversarial proofs.", "anchors": ["gadgets/src/merkletree/cbmt.rs: MerkleProof::root, verify"]}
{"id": "C28", "title": "Merkle membership circuit proves membership", "statement": "If the Merkle membership circuit is satisfied with public root R then the private leaf is a member of the tree with root R, i.e. its hash path leads to R.", "quantifier": "all satisfying assignments", "why_tests_cant": "Only dishonest witnesses violate it.", "anchors": ["gadgets/src/merkletree/cbmt_constraints.rs: set_membership"]}
{"id": "C29", "title": "Groth16 circuit reduction is exact", "statement": "The per-variable polynomials produced by key generation and the quotient polynomial produced by the prover satisfy A*B - C = H*Z as polynomials exactly when the assignment satisfies every constraint of the circuit (the added input-consistency rows included), and the quotient has the degree the key supports.", "quantifier": "all circuits, all assignments, all evaluation domains large enough", "why_tests_cant": "A polynomial identity over every circuit shape; tests exercise one circuit.", "anchors": ["groth16/src/r1cs_to_qap.rs: instance_map_with_evaluation, witness_map"]}
{"id": "C30", "title": "Groth16 honest proofs verify", "statement": "For every circuit, every satisfying assignment, every choice of key-generation trapdoor and prover randomness, the produced proof is accepted with the circuit's public inputs.", "quantifier": "all circuits, assignments, trapdoors (alpha, beta, gamma, delta, tau), randomizers r, s", "why_tests_cant": "Tests run one or two circuits with random trapdoors.", "anchors": ["groth16/src/generator.rs: generate_parameters", "groth16/src/prover.rs: create_proof", "groth16/src/verifier.rs: verify_proof"]}
{"id": "C31", "title": "Groth16 verification rejects wrong input counts and checks exactly the pairing equation", "statement": "Verification returns an error when the number of public inputs differs from the key, and otherwise returns true exactly when the pairing equation on the prepared inputs holds.", "quantifier": "all keys, proofs and input vectors", "why_tests_cant": "Covers all lengths and all group elements.", "anchors": ["groth16/src/verifier.rs: prepare_verifying_key, verify_proof"]}
{"id": "C32", "title": "Bulletproofs keeps every coefficient of the circuit", "statement": "The matrices used by the Bulletproofs prover and verifier give, for every constraint and every assignment, the same values as the circuit's linear combinations.", "quantifier": "all circuits expressible through the constraint-system interface, all assignments", "why_tests_cant": "Loss occurs only for combinations that mention a variable twice.", "anchors": ["bulletproofs/src/arithmetic_circuit.rs: create_proof, verify_proof (sparse to dense conversion)"]}
{"id": "C33", "title": "Bulletproofs inner-product argument is complete", "statement": "For vectors of any power-of-two length, any generators and any challenges that are invertible, the inner-product proof produced by the prover is accepted for the committed statement.", "quantifier": "all power-of-two lengths, vectors, generators, challenge functions", "why_tests_cant": "The recursion folds the vectors differently on the prover and verifier side; must agree for every depth.", "anchors": ["bulletproofs/src/inner_product_proof.rs: prove, verify"]}
{"id": "C34", "title": "Bulletproofs verification implies the statement", "statement": "A Bulletproofs proof accepted for a circuit and public inputs shows that a satisfying assignment exists.", "quantifier": "all circuits, public inputs, proofs", "why_tests_cant": "Soundness against every adversarial proof.", "anchors": ["bulletproofs/src/arithmetic_circuit.rs: verify_proof"]}
{"id": "C35", "title": "Marlin verification implies the statement", "statement": "A Marlin proof accepted for an index and public input shows that the indexed circuit is satisfiable with this input; in particular every challenge depends on all prover messages that precede it.", "quantifier": "all indices, public inputs, proofs (of any shape)", "why_tests_cant": "The proof's message layout is attacker-controlled data.", "anchors": ["marlin/src/lib.rs: verify_proof", "marlin/src/ahp/verifier.rs", "marlin/src/pc/mod.rs"]}
{"id": "C36", "title": "Marlin places every variable on its own domain point", "statement": "When a circuit is indexed, each public input and each private variable is mapped to its own evaluation-domain point, the same one the prover uses to place its value, for any number of public inputs.", "quantifier": "all numbers of inputs and variables", "why_tests_cant": "Breaks only for input counts that are not a power of two.", "anchors": ["marlin/src/ahp/arithmetic.rs: compose_matrix_polynomials", "marlin/src/ahp/prover.rs: prover_init, prover_first_round", "marlin/src/ahp/constraint_systems.rs"]}
{"id": "C37", "title": "Marlin matrix preprocessing preserves satisfiability", "statement": "Padding the constraint matrices to square shape and balancing the densities of A and B leave the set of satisfying assignments unchanged and never abort.", "quantifier": "all constraint matrices and assignments", "why_tests_cant": "Quantifies over all matrices; the arithmetic underflow depends on row-size patterns.", "anchors": ["marlin/src/ahp/constraint_systems.rs: balance_matrices, make_constraint_matrices_square"]}
{"id": "C38", "title": "KZG commitments: honest openings verify", "statement": "For every polynomial, point and blinding, the opening produced for a commitment passes the check for the polynomial's true value, and a batch of honest openings passes the batch check for every batching randomness.", "quantifier": "all polynomials within the supported degree, points, blindings, trapdoors, randomizers", "why_tests_cant": "Tests sample polynomials.", "anchors": ["marlin/src/pc/kzg10.rs: commit, open, check, batch_check"]}
{"id": "C39", "title": "KZG commitments: a point has one value", "statement": "Against the equations checked, two accepted openings of one commitment at one point with different values and equal blinding values yield the point g/(\u03b2\u2212z), a solution of the strong Diffie-Hellman problem for the key (so opening to two values is as hard as computing it), and the check accepts exactly one opening witness for each claimed value.", "quantifier": "all commitments, points, claimed values, opening witnesses", "why_tests_cant": "Adversarial inputs.", "anchors": ["marlin/src/pc/kzg10.rs: check"]}
{"id": "C40", "title": "Plonk gates enforce their arithmetic", "statement": "For every gate added through the composer (polynomial, addition, multiplication, constant, equality), an assignment satisfies the emitted gate row exactly when the stated arithmetic relation holds between the chosen variables and public input.", "quantifier": "all coefficient choices, variables, assignments, numbers of gates", "why_tests_cant": "Row indexing of selectors, wires and public inputs must stay aligned for any call sequence.", "anchors": ["plonk/src/composer/arithmetic.rs", "plonk/src/composer/mod.rs", "plonk/src/composer/synthesize.rs"]}
{"id": "C41", "title": "Plonk wiring permutation links exactly equal variables", "statement": "The wiring permutation is a bijection on all wire positions and two positions lie on the same cycle exactly when they hold the same variable; positions beyond the added gates are fixed.", "quantifier": "all circuits, all wire positions", "why_tests_cant": "Cycle structure for unbounded circuits.", "anchors": ["plonk/src/composer/permutation.rs: compute_wire_permutation, insert_gate"]}
{"id": "C42", "title": "Plonk quotient split recombines", "statement": "The four chunks into which the quotient polynomial is split recombine, at any point, to the original quotient whenever it has at most 4n coefficients.", "quantifier": "all polynomials, all points, all domain sizes", "why_tests_cant": "Boundary lengths.", "anchors": ["plonk/src/ahp/prover.rs: quad_split", "plonk/src/ahp/mod.rs: construct_linear_combinations"]}
{"id": "C43", "title": "Plonk verification implies the statement", "statement": "A Plonk proof accepted for a verifying key and public inputs shows that the circuit is satisfiable with these inputs; in particular every challenge depends on all commitments that precede it.", "quantifier": "all keys, public inputs, proofs of any shape", "why_tests_cant": "Adversarial proof layout.", "anchors": ["plonk/src/lib.rs: verify", "plonk/src/ahp/verifier.rs"]}
{"id": "C44", "title": "Spartan NIZK verification implies the statement", "statement": "A Spartan NIZK proof accepted for an R1CS instance and public inputs shows that the instance is satisfiable with these inputs.", "quantifier": "all instances, public inputs, proofs", "why_tests_cant": "Adversarial proofs.", "anchors": ["spartan/src/verify.rs: verify_nizk_proof, r1cs_satisfied_verify"]}
{"id": "C45", "title": "Spartan input polynomial is the multilinear extension of the inputs", "statement": "The verifier's evaluation of the public-input polynomial equals the multilinear extension of the vector (1, inputs, 0, ...) at the challenge point, for every input vector.", "quantifier": "all input vectors and points", "why_tests_cant": "Zeros inside the inputs are the failing pattern.", "anchors": ["spartan/src/polynomial.rs: sparse_evaluate_value"]}
{"id": "C46", "title": "Multilinear evaluation helpers are correct", "statement": "The equality-polynomial table and the multilinear evaluation helpers return the values of the mathematical multilinear extension at every point, and fixing one variable commutes with evaluation.", "quantifier": "all numbers of variables, all points, all value tables of matching size", "why_tests_cant": "In-place table doubling with reversed variable order; sizes unbounded.", "anchors": ["spartan/src/polynomial.rs: eval_eq, eval_eq_x_y, evaluate_mle, combine_with_r, bound_poly_var_bot", "libra/src/evaluate.rs: eval_eq, eval_value, combine_with_r", "hyrax/src/evaluate.rs: eval_eq, eval_value"]}
{"id": "C47", "title": "Spartan instance hash separates instances", "statement": "Two different R1CS instances (as lists of rows) absorb different byte streams when hashed.", "quantifier": "all pairs of instances", "why_tests_cant": "A collision requires a specific row shift, not found at random.", "anchors": ["spartan/src/r1cs.rs: r1cs_to_hash"]}
{"id": "C48", "title": "Spartan sparse matrix encoding preserves the matrix", "statement": "Converting constraint rows to the sparse list preserves the matrix: for every row and column the list holds the sum of the coefficients given for that variable (with public inputs and auxiliary variables mapped to disjoint columns), each position at most once and no zero entries.", "quantifier": "all circuits", "why_tests_cant": "Unbounded matrices with repeated variables.", "anchors": ["spartan/src/r1cs.rs: switch_matrix_to_list, generate_r1cs"]}
{"id": "C49", "title": "Spartan offline memory checking is complete and sound", "statement": "For every sequence of reads of a memory, the recorded timestamps make the multiset of initial plus written cells equal to the multiset of read plus final cells; conversely, if for an arbitrary claimed sequence of read values and timestamps (each write stamped read timestamp + 1) that multiset equation holds, every claimed read value is the memory's value.", "quantifier": "all memories, all address sequences, all claimed read sequences", "why_tests_cant": "Soundness ranges over all adversarial timestamp and value sequences.", "anchors": ["spartan/src/spark.rs: memory_in_the_head, memory_checking"]}
{"id": "C50", "title": "Spartan timestamp checks cover all claimed reads", "statement": "The verifier checks the timestamp and address hash of every claimed read list, whatever the shape of the proof.", "quantifier": "all proof shapes", "why_tests_cant": "Loop bounds come from the proof.", "anchors": ["spartan/src/verify.rs: behind_verify_for_timestamp, hash_layer_verify"]}
{"id": "C51", "title": "Product circuit computes the product", "statement": "The layered product circuit evaluates to the product of all its inputs for every input length, and building it never aborts.", "quantifier": "all input lists", "why_tests_cant": "Odd sizes are padded at every layer; length one is a boundary.", "anchors": ["spartan/src/spark.rs: construct_product_circuit, evaluate_product_circuit, evaluate_dot_product_circuit"]}
{"id": "C52", "title": "Spartan sum-check rounds are complete", "statement": "For any value tables the prover's round polynomials satisfy the verifier's round equation, and the final claim equals the product expression of the tables' multilinear extensions at the challenge point, for every challenge sequence.", "quantifier": "all table sizes, tables, challenge sequences", "why_tests_cant": "Unbounded number of rounds.", "anchors": ["spartan/src/prover.rs", "libra/src/sumcheck.rs: SumCheckProof::phase_one_prover, phase_two_prover"]}
{"id": "C53", "title": "Hyrax verification implies the statement", "statement": "A Hyrax proof accepted for a circuit, inputs and outputs shows that the circuit maps the inputs (with some witness) to the outputs.", "quantifier": "all circuits, inputs, outputs, proofs", "why_tests_cant": "Adversarial proofs.", "anchors": ["hyrax/src/hyrax_proof.rs: verify", "hyrax/src/zk_sumcheck_proof.rs: verify, sumcheck_verify"]}
{"id": "C54", "title": "Layered-circuit evaluation places inputs and witness in fixed halves", "statement": "Evaluating a layered circuit puts the witness values in the lower half and the public inputs in the upper half of the input layer, each padded with zeros, for every number of inputs and witnesses that fits; this is the layout the verifier assumes.", "quantifier": "all input and witness counts and values", "why_tests_cant": "Only unequal counts expose a wrong padding.", "anchors": ["hyrax/src/circuit.rs: Circuit::evaluate", "libra/src/circuit.rs: Circuit::evaluate"]}
{"id": "C55", "title": "Layered-circuit construction and evaluation never fail on accepted circuits", "statement": "A layered circuit that is accepted at construction (gate operators and node indices checked) evaluates without error and each gate value is the sum or product of the two referenced values of the previous layer.", "quantifier": "all layered circuits, inputs, witnesses", "why_tests_cant": "Unbounded depth and width.", "anchors": ["hyrax/src/circuit.rs: Layer::mid_layer_new, Circuit::new, Circuit::evaluate", "libra/src/circuit.rs"]}
{"id": "C56", "title": "Hyrax proves any number of instances", "statement": "The Hyrax sum-check matrix construction succeeds for every power-of-two number of instances, including one.", "quantifier": "all instance counts", "why_tests_cant": "Boundary case of the loop bound.", "anchors": ["hyrax/src/evaluate.rs: construct_matrix", "hyrax/src/zk_sumcheck_proof.rs"]}
{"id": "C57", "title": "Commitment proofs: honest proofs verify", "statement": "Knowledge, equality, product and dot-product proofs produced by the prover for true statements are accepted, for every randomness and every transcript challenge function.", "quantifier": "all values, blindings, generators, challenge functions, transcript prefixes", "why_tests_cant": "All challenge functions and randomness.", "anchors": ["hyrax/src/commitment.rs: EqProof, KnowledgeProof, ProductProof, DotProductProof, LogDotProductProof", "libra/src/commitment.rs", "spartan/src/verify.rs: knowledge_verify, product_verify, eq_verify"]}
{"id": "C58", "title": "Commitment proofs: two accepting transcripts reveal the witness", "statement": "From two accepting answers to different challenges for the same first message one can compute an opening of the commitment (knowledge proof), a blinding difference that shows equality (equality proof), and openings whose product relation holds (product proof).", "quantifier": "all first messages, pairs of challenges and answers", "why_tests_cant": "Special soundness is an algebraic statement over all adversarial transcripts.", "anchors": ["hyrax/src/commitment.rs: EqProof::verify, KnowledgeProof::verify, ProductProof::verify", "libra/src/commitment.rs"]}
{"id": "C59", "title": "Libra linear GKR verification implies the statement", "statement": "A (non-hiding) Libra proof accepted for a circuit, inputs and outputs shows that the circuit maps the inputs to the outputs; in particular the verdict depends on the circuit's gates.", "quantifier": "all circuits, inputs, outputs, proofs", "why_tests_cant": "Adversarial proofs.", "anchors": ["libra/src/libra_linear_gkr.rs: LinearGKRProof::verify"]}
{"id": "C60", "title": "Libra gate-table initialisation is correct", "statement": "The two prover tables built by one pass over the gates are exactly the partial sums of wiring predicate times value over the Boolean hypercube, so the sum-check claim equals the output layer's multilinear extension.", "quantifier": "all layers, gates, value tables, challenge points", "why_tests_cant": "Unbounded gate lists with shared nodes.", "anchors": ["libra/src/evaluate.rs: eval_hg, eval_fgu", "libra/src/libra_linear_gkr.rs: initialize_phase_one, initialize_phase_two", "libra/src/circuit.rs: eval_operators"]}
{"id": "C61", "title": "Vector commitment: opened positions verify", "statement": "For every committed vector and every non-empty set of distinct positions, the proof produced for these positions is accepted with the true values, provided the trapdoor is not one of the domain points.", "quantifier": "all vectors, position sets, trapdoors", "why_tests_cant": "All subsets of unbounded domains.", "anchors": ["asvc/src/lib.rs: commit, prove_pos, verify_pos"]}
{"id": "C62", "title": "Vector commitment: updates are exact", "statement": "After changing one position by any amount, the updated commitment equals the commitment to the changed vector, and the updated proof of any position is accepted for the changed vector.", "quantifier": "all vectors, positions, deltas", "why_tests_cant": "All histories of updates.", "anchors": ["asvc/src/lib.rs: update_commit, update_proof, verify_upk"]}
{"id": "C63", "title": "Vector commitment: aggregation is exact", "statement": "Aggregating individually produced single-position proofs of distinct positions yields the proof that opening those positions together would have produced, hence it is accepted.", "quantifier": "all vectors, sets of distinct positions", "why_tests_cant": "All subsets.", "anchors": ["asvc/src/lib.rs: aggregate_proofs"]}
{"id": "C64", "title": "Vector commitment: the number of values must match the number of positions", "statement": "Verification does not accept a position list together with a shorter or longer value list.", "quantifier": "all position and value lists", "why_tests_cant": "Silent truncation by zip.", "anchors": ["asvc/src/lib.rs: verify_pos"]}
{"id": "C65", "title": "Curve25519 scalar-field constants are consistent", "statement": "The published constants of the scalar field (modulus, bit size, capacity, Montgomery constants, modulus-minus-one-over-two, two-adic decomposition, root of unity) satisfy their defining equations with respect to the modulus.", "quantifier": "all constants", "why_tests_cant": "Nothing exercises several of them, but generic code relies on them.", "anchors": ["curve25519/src/fr.rs: FrParameters"]}
{"id": "C66", "title": "On-chain verifier succeeds exactly on valid proofs", "statement": "The Groth16, Marlin, Plonk and Spartan contract entry points return success exactly when all three cells are present, decode, and the verifier accepts; every other situation yields a non-zero error code.", "quantifier": "all cell contents, all verifier outcomes", "why_tests_cant": "All combinations of missing cells, malformed data and verifier outcomes.", "anchors": ["ckb-contracts/contracts/*/src/entry.rs", "ckb-contracts/contracts/*/src/error.rs"]}
{"id": "C67", "title": "On-chain Bulletproofs verifier fixes the circuit", "statement": "The Bulletproofs contract verifies proofs of the circuit and generators fixed by the verifying-key cell; the prover cannot choose them.", "quantifier": "all cell contents", "why_tests_cant": "Only an adversarial proof cell shows it.", "anchors": ["ckb-contracts/contracts/mini_bulletproofs_verifier/src/entry.rs", "cli/src/zkp_verify.rs"]}
{"id": "C68", "title": "Command-line hex encoding round-trips", "statement": "Decoding the hexadecimal text produced by the prover command returns the original bytes; text of odd length or with a non-hex digit is refused.", "quantifier": "all byte strings and all texts", "why_tests_cant": "All strings.", "anchors": ["cli/src/zkp_prove.rs: to_hex", "cli/src/zkp_verify.rs: from_hex"]}
{"id": "C69", "title": "Command-line hash circuit binds the image", "statement": "The hash demonstration circuit is satisfiable with public image y only by a preimage whose MiMC hash is y.", "quantifier": "all images, all satisfying assignments", "why_tests_cant": "Only dishonest witnesses show it.", "anchors": ["cli/src/circuits/hash.rs"]}
{"id": "C70", "title": "Rescue and Poseidon circuits publish the hash", "statement": "The public output allocated by the Rescue and Poseidon circuits carries the native hash of the block that was hashed.", "quantifier": "all fields, all round-constant tables and matrices, all inputs", "why_tests_cant": "The constraints are satisfied by the wrong value, so a satisfiability test passes for every input.", "anchors": ["gadgets/src/hashes/rescue.rs: rescue", "gadgets/src/hashes/poseidon.rs: poseidon"]}
{"id": "C71", "title": "Poseidon follows its round schedule", "statement": "The native Poseidon block function is the Poseidon permutation with 8 full rounds (4 before, 4 after) and 83 partial rounds in between.", "quantifier": "all fields, tables, matrices and inputs", "why_tests_cant": "There are no reference vectors for these parameters; the function is deterministic and looks random either way.", "anchors": ["gadgets/src/hashes/poseidon.rs: poseidon_block"]}
{"id": "C72", "title": "Bulletproofs arithmetic-circuit proofs are complete", "statement": "For every circuit whose linear combinations mention no variable twice and every satisfying assignment, the Bulletproofs prover outputs a proof and the verifier accepts it for the circuit's public inputs.", "quantifier": "all circuits, assignments, generators, blinding values and challenge functions", "why_tests_cant": "Depends on padding to powers of two, on both parties computing the same vectors in different representations, and on the degree-10 polynomial identity; tests run two small circuits.", "anchors": ["bulletproofs/src/arithmetic_circuit.rs: create_random_proof, prove, verify_proof"]}
{"id": "C73", "title": "Demonstration product circuit is exact", "statement": "Every satisfying assignment of the command-line (and contract) demonstration circuit has x*(y+2)=z for the public z, and every x, y has a satisfying assignment with the documented shape.", "quantifier": "all fields, all x, y, all numbers of copies, all satisfying assignments", "why_tests_cant": "Soundness concerns dishonest witnesses.", "anchors": ["cli/src/circuits/mini.rs: Mini::generate_constraints"]}
{"id": "C74", "title": "Vector commitment: conflicting openings break the hardness assumption", "statement": "From two accepted openings of one commitment that share a position and assign it different values one can compute, from the public key and the two openings, the 1/(tau - omega^k)-th power of e(g1,g2).", "quantifier": "all commitments, position sets, claimed values, witnesses", "why_tests_cant": "Concerns arbitrary dishonest openings.", "anchors": ["asvc/src/lib.rs: verify_pos"]}
{"id": "C75", "title": "Plonk completeness", "statement": "For every circuit whose assigned values satisfy all gates, every proof returned by the prover is accepted with the circuit's public inputs, and the prover returns a proof unless a denominator of the running product vanishes or the evaluation point is one.", "quantifier": "all circuits, keys, iteration orders, random generators", "why_tests_cant": "Alignment of padding, coset evaluation, quotient computation, split and linearisation for all circuit sizes.", "anchors": ["plonk/src/lib.rs: prove, verify", "plonk/src/ahp/prover.rs", "plonk/src/ahp/indexer/permutation.rs: compute_z, compute_quotient"]}
{"id": "C76", "title": "Plonk verifier does not abort on malformed input", "statement": "For every proof object and every public input vector the verifier returns a result or an error value, never a panic.", "quantifier": "all proofs, all public inputs", "why_tests_cant": "Malformed inputs of every shape.", "anchors": ["plonk/src/lib.rs: verify", "plonk/src/utils.rs: pad_to_size, evaluate_first_lagrange_poly"]}
{"id": "C77", "title": "Libra linear GKR completeness", "statement": "For every layered circuit accepted at construction, all inputs and witness values, the linear GKR prover returns a proof and the verifier accepts it for the outputs the circuit computes.", "quantifier": "all layered circuits, inputs, witnesses, hash functions", "why_tests_cant": "Depends on the shape of every layer and on both parties deriving the same challenges; the tests use one circuit whose layers all have a power of two of gates.", "anchors": ["libra/src/libra_linear_gkr.rs: prover, verify", "libra/src/circuit.rs: evaluate"]}
{"id": "C78", "title": "Hyrax's matrix expresses the round checks", "statement": "For a layer with at least two instances, the matrix built by construct_matrix maps the vector of all round polynomial coefficients followed by X, Y, Z to (claim, 0, ..., 0) exactly if the first polynomial sums to the claim, every later one sums to the previous one's value at its challenge, and the last value equals the gates' contribution of X + Y and Z.", "quantifier": "all layers, gates, challenges, coefficients and claims with at least two instances", "why_tests_cant": "Exact row and column offsets for all sizes; tests use one circuit shape.", "anchors": ["hyrax/src/evaluate.rs: construct_matrix"]}
{"id": "C79", "title": "Spartan NIZK completeness", "statement": "For every constraint system satisfied by its assignment, the Spartan NIZK prover outputs a proof whenever no challenge is zero, and every proof it outputs is accepted by the verifier for the system's public inputs.", "quantifier": "all satisfied constraint systems, public inputs, generators, blinding values and challenge functions", "why_tests_cant": "Tests prove two small circuits; the alignment of padding, variable layout, sum-check tables, blinding and the inner-product argument depends on the sizes, and on the values of the public inputs.", "anchors": ["spartan/src/prover.rs: create_nizk_proof, r1cs_satisfied_prover", "spartan/src/verify.rs: verify_nizk_proof"]}
{"id": "C80", "title": "Spartan SNARK soundness", "statement": "For the committed encoding of an instance, the SNARK verifier accepts a proof for given public inputs only if the instance is satisfiable with them, except with small probability over the challenges.", "quantifier": "all instances, commitments made by encode, public inputs, proofs and challenge functions", "why_tests_cant": "Concerns all dishonest proofs, also with lists of unexpected lengths.", "anchors": ["spartan/src/verify.rs: verify_snark_proof, sparse_poly_eval_verify, product_layer_verify, hash_layer_verify", "spartan/src/spark.rs: encode"]}
{"id": "C81", "title": "Spartan SNARK completeness", "statement": "For every constraint system satisfied by its assignment, encode finishes, the Spartan SNARK prover outputs a proof whenever no challenge is zero, and every proof it outputs is accepted by the verifier for the system's public inputs and the commitment that encode returned.", "quantifier": "all satisfied constraint systems, public inputs, generators, blinding values and challenge functions", "why_tests_cant": "Tests prove two small circuits; the memory-checking argument, its product circuits, the folded openings and the padding depend on the numbers of entries, constraints and variables.", "anchors": ["spartan/src/spark.rs: encode, memory_checking", "spartan/src/prover.rs: create_snark_proof, sparse_poly_eval_proof, product_layer_prover, product_circuit_eval_prover, hash_layer_prover", "spartan/src/verify.rs: verify_snark_proof"]}
{"id": "C82", "title": "Rescue's exponents are inverse", "statement": "In the scalar field the hash is used with, raising to ALPH and then to INVALPH is the identity, so that the odd half-rounds of Rescue are the inverse S-box of the even ones and the permutation is a bijection of the state.", "quantifier": "all field elements, states, constants and invertible matrices", "why_tests_cant": "A wrong limb or a wrong field still gives a deterministic hash, so native and circuit tests agree with each other.", "anchors": ["gadgets/src/hashes/rescue.rs: ALPH, INVALPH, rescue_block"]}
{"id": "C83", "title": "Marlin completeness", "statement": "For every indexed circuit and every satisfying assignment of it, whatever the prover's coins are, Marlin's prover outputs a proof and the verifier accepts it for the assignment's public inputs.", "quantifier": "all circuits, satisfying assignments, reference strings, coins and challenge functions", "why_tests_cant": "Tests prove one circuit; the alignment of the three rounds' polynomials, degree bounds, padding and openings depends on the numbers of inputs, variables and entries.", "anchors": ["marlin/src/lib.rs: create_random_proof, verify_proof", "marlin/src/ahp/prover.rs", "marlin/src/ahp/verifier.rs"]}
{"id": "C84", "title": "Shape of accepted Marlin proofs", "statement": "A Marlin proof that is accepted consists of three vectors of four, three and two commitments, of 21 evaluations and of one opening for every point.", "quantifier": "all keys, public inputs and proofs", "why_tests_cant": "Tests only verify proofs that the prover made.", "anchors": ["marlin/src/lib.rs: verify_proof", "marlin/src/pc/mod.rs: batch_check"]}
{"id": "C85", "title": "Marlin indexing", "statement": "For a circuit that uses allocated variables only, the indexer produces the matrices' polynomials whenever the domains exist (for the inputs, for the larger of the numbers of variables and constraints, and for the fullest of the three matrices); the keys are produced exactly if the reference string has degree at least max(3|H|+1, 3|K|-3) and none of the twelve polynomials is constant, and a shorter string is reported as too small.", "quantifier": "all circuits, domains and reference strings", "why_tests_cant": "The size bounds are at their limits only for particular numbers of variables and entries.", "anchors": ["marlin/src/lib.rs: index", "marlin/src/ahp/indexer.rs: index", "marlin/src/ahp/mod.rs: max_degree", "marlin/src/ahp/constraint_systems.rs: num_non_zeros", "marlin/src/ahp/arithmetic.rs: compose_matrix_polynomials"]}
{"id": "C86", "title": "Hyrax completeness", "statement": "For every circuit that Circuit::new accepts and every power of two of instances with the declared numbers of public inputs and witness values, Hyrax's prover returns a proof together with the circuit's outputs, and the verifier accepts both, whatever the blinding values are.", "quantifier": "all legal circuits, instances, parameters, blinding values and challenge functions", "why_tests_cant": "Tests prove two instances of one or two circuits with round sizes; table sizes, padding, the indices of blinding values and the matrix of the rounds depend on the numbers of gates per layer, of instances and of inputs.", "anchors": ["hyrax/src/hyrax_proof.rs: prover, verify", "hyrax/src/zk_sumcheck_proof.rs: prover, sumcheck_prover, verify", "hyrax/src/evaluate.rs", "hyrax/src/params.rs: Parameters::new"]}
{"id": "C87", "title": "Libra with hiding: completeness", "statement": "For every circuit that Circuit::new accepts and all public inputs and witness values of the declared numbers, the prover of Libra's zero-knowledge linear GKR protocol returns a proof together with the circuit's outputs, and the verifier accepts both, whatever the blinding values are.", "quantifier": "all legal circuits, inputs, witness values, parameters, blinding values and challenge functions", "why_tests_cant": "Tests prove one circuit whose layers and inputs fit; table sizes, the blinding factor of the last round and the position of the inputs depend on the numbers of gates, inputs and witness values.", "anchors": ["libra/src/libra_zk_linear_gkr.rs: ZKLinearGKRProof::prover, verify", "libra/src/sumcheck.rs: ZKSumCheckProof::phase_one_prover, phase_two_prover", "libra/src/commitment.rs", "libra/src/params.rs: Parameters::new"]}
{"id": "C88", "title": "Libra with hiding: soundness", "statement": "For every circuit that Circuit::new accepts, the verifier of Libra's zero-knowledge linear GKR protocol accepts a proof for given public inputs and outputs only if the circuit, evaluated on the table read from the witness commitment followed by the public inputs, gives these outputs, except when one of the challenges falls in a set of at most six values fixed before it is drawn; so for outputs that no witness gives, at most 6 m |F|^(m-1) of the |F|^m lists of m challenges lead to acceptance.", "quantifier": "all legal circuits with at least one layer, parameters without linear relations between generators, inputs, outputs, proofs and challenge functions", "why_tests_cant": "Concerns all dishonest proofs, which also may adapt to the challenges.", "anchors": ["libra/src/libra_zk_linear_gkr.rs: ZKLinearGKRProof::verify", "libra/src/sumcheck.rs: SumCheckEvalProof::verify", "libra/src/commitment.rs: ProductProof::verify, EqProof::verify, LogDotProductProof::reduce_verifier"]}
{"id": "C89", "title": "Digests identify their argument", "statement": "The digests of circuits (Libra, Hyrax), of parameters (Libra, Hyrax, Spartan NIZK and SNARK) and of encoded instances that are mixed into proofs depend on every part of their argument: two arguments have the same digest under every hash function only if they are equal, and Libra and Hyrax never hash the same stream.", "quantifier": "all circuits, parameters, encodings", "why_tests_cant": "Lists of different lengths are hashed one after the other; whether a boundary can be moved without changing the stream depends on labels and lengths that tests do not vary.", "anchors": ["libra/src/circuit.rs: circuit_to_hash", "hyrax/src/circuit.rs: circuit_to_hash", "libra/src/params.rs: param_to_hash", "hyrax/src/params.rs: param_to_hash", "spartan/src/data_structure.rs: param_to_hash, encode_to_hash"]}
{"id": "C90", "title": "Spartan's generated parameters suffice", "statement": "For every circuit, the parameters that Spartan's NIZK and SNARK setup generate share the blinding points the protocols require, have a generator for every coefficient of a row of each polynomial that the provers commit to, and use no random point twice; with them every satisfied circuit covered by C79 and C81 can be proved and the proof is accepted.", "quantifier": "all circuits, random points, public inputs, blinding values and nonzero challenges", "why_tests_cant": "The sizes are rounded logarithms of products of numbers of variables and constraints and are halved with rounding; too few generators silently drop coefficients from commitments, so a test passes unless the size is hit exactly.", "anchors": ["spartan/src/setup.rs", "spartan/src/lib.rs: generate_random_parameters", "spartan/src/spark.rs: encode"]}
{"id": "C91", "title": "The test constraint system keeps names, values and its verdict straight", "statement": "After any sequence of allocations, constraints, namespace entries and exits and assignments that does not panic: a full path determines the namespace and the name given to it; every variable and constraint is listed under its own path and no two objects share one; get and get_input return the value of the variable of that path, and set changes that value and nothing else; a path that is taken, or a name with a slash, panics; which_is_unsatisfied returns the path of the first constraint violated by the current values, and is_satisfied is true exactly if none is; verify compares the inputs after the constant one. Names aside, allocations and constraints act as in the synthesis model all gadget properties are stated for.", "quantifier": "for all sequences of operations, names, values and constraints", "why_tests_cant": "The repository has one test with five operations; the property is an invariant of arbitrarily long sequences of operations with arbitrary names, including clashes of paths built in different namespaces.", "anchors": ["gadgets/src/test_constraint_system.rs"]}
{"id": "C92", "title": "The test constraint system's hash identifies the constraint system", "statement": "The bytes that TestConstraintSystem::hash feeds to Blake2s are the same for two systems exactly if they have the same numbers of inputs and auxiliary variables and, constraint by constraint, the same coefficient for each variable in each of the three combinations; names, values, the order of terms, repeated and zero terms do not matter. Systems hashed as the same bytes therefore have the same satisfying assignments.", "quantifier": "for all pairs of systems with fewer than 2^64 variables, constraints and terms over any field whose elements are written as byte strings of one length of at most 32", "why_tests_cant": "A test compares a handful of hashes; injectivity of a concatenation of variable-length parts is a statement about all pairs of systems.", "anchors": ["gadgets/src/test_constraint_system.rs"]}
{"id": "C93", "title": "The Ristretto wrapper computes in the group and its encodings can be read back", "statement": "Every operation of the curve traits that Curve25519Point implements is that of the group: multiplication by a field element, by a big integer, by 64-bit words, multi-scalar multiplication, addition, sums, doubling, normalization, the generator, the cofactor and its inverse; and a point that is written or serialized is read or deserialized as the same point.", "quantifier": "for all points, scalars, word lists and byte strings that follow", "why_tests_cant": "There are no tests (tests.rs is empty); the operations are over a group of about 2^252 elements, and several fail for every argument but are called by none of the examples.", "anchors": ["curve25519/src/group.rs"]}
{"id": "C94", "title": "The on-chain Libra and Hyrax verifiers check x (y + 2) = z", "statement": "The two contracts with a fixed layered circuit, commented x * (y + 2) = z, end with code 0 only for a proof that the prover's committed witness x, y satisfies that equation for the published z.", "quantifier": "for all keys, proofs, public inputs and outputs, hash functions and cell contents", "why_tests_cant": "The bench tests run one honest proof of one instance; the claim is about all statements and all proofs, also dishonest ones.", "anchors": ["ckb-contracts/contracts/mini_libra_zk_linear_gkr_verifier/src/entry.rs", "ckb-contracts/contracts/mini_hyrax_zk_linear_gkr_verifier/src/entry.rs"]}
{"id": "C95", "title": "Groth16 proofs of false statements need luck with the key", "statement": "Whatever coefficients a prover uses to combine the elements of the proving key and the generators linearly into the three proof elements: if the coefficients at l_query in the third element are not a witness for the public inputs, then of the |F|^5 choices of the trapdoor (alpha, beta, gamma, delta, t) at most (3 n + 1) |F|^4 give a key for which verify_proof accepts, n being the domain size.", "quantifier": "for all circuits, public inputs, coefficients and pairings that do not kill the generators", "why_tests_cant": "Soundness is a statement about all provers and all keys; the tests run one honest prover.", "anchors": ["groth16/src/generator.rs: generate_parameters", "groth16/src/verifier.rs: verify_proof", "groth16/src/r1cs_to_qap.rs: instance_map_with_evaluation"]}
{"id": "C96", "title": "Groth16 proofs reveal nothing about the witness", "statement": "For every key and satisfied circuit, the proof that create_proof computes from the witness with random r, s is what a simulator computes from the trapdoor and the public inputs alone with random x, y, for a one-to-one correspondence of (r, s) and (x, y); so proofs for any two witnesses with the same public inputs have the same distribution.", "quantifier": "for all circuits, satisfying assignments, keys with nonzero gamma and delta, and all r, s", "why_tests_cant": "A distribution over pairs of elements of a 255-bit field cannot be sampled; tests look at single proofs.", "anchors": ["groth16/src/prover.rs: create_proof", "groth16/src/generator.rs: generate_parameters"]}
{"id": "C97", "title": "Proofs about commitments reveal nothing beyond the statement", "statement": "For challenges fixed beforehand: the proof of knowledge, of equality, of a product, and the logarithmic dot-product proof contain answers and points that can take every value; given them there is exactly one remaining first message the verifier accepts, and exactly one choice of the prover's random values makes the prover send them. The transcript therefore has the same distribution for all openings of the commitments, and can be produced without one.", "quantifier": "for all openings, blinding values, answers, points, vectors of a power-of-two length and challenges, with a blinding generator of which every point is exactly one multiple", "why_tests_cant": "The claim is about the distribution of messages over all random values; a forgotten or reused blinding value still gives accepted proofs.", "anchors": ["hyrax/src/commitment.rs", "libra/src/commitment.rs", "spartan/src/prover.rs: knowledge_proof, eq_proof, product_proof, inner_product_proof", "spartan/src/inner_product.rs"]}
{"id": "C98", "title": "Bulletproofs reveal nothing about the witness", "statement": "For every satisfied circuit and nonzero challenges fixed beforehand there is a one-to-one correspondence between the random values of the prover and choices of a simulator that knows only the circuit and the public inputs, under which prover and simulator output the same proof; so proofs for two witnesses of the same public inputs have the same distribution.", "quantifier": "for all circuits whose combinations mention no variable twice, satisfying assignments, generators with a blinding generator of which every point is exactly one multiple, and random values", "why_tests_cant": "The claim is about the joint distribution of all messages over all random values; a reused or forgotten blinding value still gives accepted proofs.", "anchors": ["bulletproofs/src/arithmetic_circuit.rs: prove", "bulletproofs/src/arithmetic_circuit.rs: create_random_proof", "bulletproofs/src/inner_product_proof.rs"]}
{"id": "C99", "title": "Spartan NIZK proofs reveal nothing about the witness", "statement": "For every satisfied circuit and challenges fixed beforehand, the proofs of `create_nizk_proof` for two witnesses of the same public inputs have the same distribution: there is a one-to-one correspondence between the random scalars with one witness and those with the other under which the proofs are equal.", "quantifier": "for all circuits, pairs of satisfying assignments with the same public inputs, parameters whose blinding generators have every point as exactly one multiple, nonzero challenges and random scalars", "why_tests_cant": "A field of the proof that depends on the witness does not disturb acceptance, and tests only check acceptance; the claim is about the joint distribution of all messages.", "anchors": ["spartan/src/prover.rs: create_nizk_proof", "spartan/src/prover.rs: r1cs_satisfied_prover", "spartan/src/data_structure.rs: R1CSSatProof"]}
{"id": "C100", "title": "Libra's hiding GKR proofs reveal nothing about the witness", "statement": "For every layered circuit of a shape for which proofs are accepted and challenges fixed beforehand, the proofs of `ZKLinearGKRProof::prover` for two witnesses with the same public inputs and the same outputs have the same distribution: there is a one-to-one correspondence between the random scalars drawn with one witness and those drawn with the other under which the proofs are equal.", "quantifier": "for all circuits whose layers (the last excepted) have 2^k gates with k at least 1, pairs of witnesses filling half the input layer with the same public inputs and outputs, parameters whose blinding generators have every point as exactly one multiple, nonzero challenges and random scalars", "why_tests_cant": "Reusing a blinding factor or a mask anywhere in the layers does not disturb acceptance, and tests only check acceptance; the claim is about the joint distribution of all messages.", "anchors": ["libra/src/libra_zk_linear_gkr.rs: ZKLinearGKRProof::prover", "libra/src/sumcheck.rs: ZKSumCheckProof::phase_one_prover", "libra/src/sumcheck.rs: ZKSumCheckProof::phase_two_prover", "libra/src/commitment.rs: reduce_prover"]}
{"id": "C101", "title": "Hyrax proofs reveal nothing about the witness", "statement": "For every layered circuit on which Hyrax's prover succeeds and challenges fixed beforehand, the proofs for two lists of witnesses with the same public inputs and outputs have the same distribution: there is a one-to-one correspondence between the random scalars with the one and those with the other under which the proofs are equal.", "quantifier": "for all circuits whose layers have a power of two of gates and do not widen, numbers of instances, pairs of witness lists with the same inputs and outputs, parameters whose blinding generators have every point as exactly one multiple, nonzero challenges and random scalars", "why_tests_cant": "A blinding factor used twice does not disturb acceptance, and tests only check acceptance; the claim is about the joint distribution of all messages.", "anchors": ["hyrax/src/hyrax_proof.rs: HyraxProof::prover", "hyrax/src/zk_sumcheck_proof.rs: ZkSumcheckProof::prover", "hyrax/src/zk_sumcheck_proof.rs: ZkSumcheckProof::sumcheck_prover"]}
{"id": "C102", "title": "Plonk proofs reveal nothing about the assignment", "statement": "Two assignments that satisfy one Plonk circuit with the same public inputs lead to proofs with the same distribution.", "quantifier": "for all circuits, pairs of satisfying assignments with the same public inputs, keys, commitment schemes and Fiat-Shamir generators", "why_tests_cant": "Missing blinding does not disturb acceptance, and tests only check acceptance; that a random generator is passed to the prover does not show that it is used.", "anchors": ["plonk/src/lib.rs: Plonk::prove", "plonk/src/ahp/prover.rs: AHPForPLONK::prover_first_round", "plonk/src/utils.rs: to_labeled"]}
{"id": "C103", "title": "Spartan SNARK proofs reveal nothing about the witness", "statement": "For challenges fixed beforehand, the proofs of `create_snark_proof` for two witnesses of one statement have the same distribution: there is a one-to-one correspondence between the random scalars with the one and those with the other under which the proofs are equal.", "quantifier": "for all circuits, encodings and their commitments, pairs of valid witnesses with the same public inputs, parameters whose blinding generators have every point as exactly one multiple, challenges and random scalars", "why_tests_cant": "Tests only check acceptance, which a value sent in the clear does not disturb; that the long second part of the proof does not depend on the witness is a claim about all messages of all runs.", "anchors": ["spartan/src/prover.rs: create_snark_proof", "spartan/src/prover.rs: r1cs_satisfied_prover", "spartan/src/prover.rs: sparse_poly_eval_proof"]}
{"id": "C104", "title": "Rescue and Poseidon tables give full diffusion", "statement": "With the constant tables of the code, over the scalar fields of BN254 and of BLS12-381: the tables have the sizes the loops assume, all entries are reduced, nonzero and different, and for every round two different states differ, before and after the round together, in at least four of the six positions (the matrices are MDS and the powers injective). Hence no number of rounds maps two states to one.", "quantifier": "for all pairs of different states, all rounds of both hash functions, both fields", "why_tests_cant": "The tables are hundreds of 77-digit numbers; one wrong digit still gives a working hash function that proves and verifies, and circuit and native code share the table. That a 3x3 minor vanishes, or that a power is not injective, shows only for a few among 2^760 states.", "anchors": ["gadgets/src/hashes/rescue.rs: _CONSTANTS_MATRIX", "gadgets/src/hashes/rescue.rs: _CONSTANTS_CONSTANT", "gadgets/src/hashes/rescue.rs: rescue_block", "gadgets/src/hashes/poseidon.rs: _CONSTANTS_MATRIX", "gadgets/src/hashes/poseidon.rs: poseidon_block"]}
{"id": "C105", "title": "Marlin proofs hide the witness", "statement": "For two satisfying assignments of one circuit with the same public inputs, and any proof string, there is a one-to-one map of the prover's coins, keeping the set of coins it can draw, such that a run on the first assignment gives the proof string exactly when the run with the mapped coins on the second does: the proof, including the openings at the challenge points of the transcript and the masked sumcheck, is as likely for one witness as for the other. Provisos: the evaluation point is not the trapdoor, both runs give a proof, and the blinding factors of z_a and z_b are not zero.", "quantifier": "for all circuits, all pairs of satisfying assignments with equal public inputs, all keys from a setup with nonzero trapdoor and any rng, all proof strings, all coins", "why_tests_cant": "A test sees one proof for one witness. That blinding suffices for each of the three commitments, the evaluation at beta and the opening witness together - one value too many revealed and the coins no longer suffice - is a statement about the distribution of proofs over coins from a field of 2^254 elements.", "anchors": ["marlin/src/ahp/prover.rs: prover_first_round", "marlin/src/ahp/prover.rs: prover_second_round", "marlin/src/lib.rs: create_random_proof", "marlin/src/pc/mod.rs: commit", "marlin/src/pc/kzg10.rs: open"]}
{"id": "C106", "title": "Inner-product argument: accepted proofs reveal the vectors", "statement": "There is an extractor that sees only the scalars of a prover of the inner-product argument and is the same for all groups: if the verifier accepts the proofs of the prover for a commitment P along a tree of challenges (four after each history, nonzero, with different squares), the extractor finds vectors a, b with P = sum a_i g_i + sum b_i h_i + <a,b> u, or coefficients, not all zero, of a relation between the generators.", "quantifier": "for all numbers of rounds, all groups, generators, commitments, prover strategies and challenge trees", "why_tests_cant": "It is about provers that do not follow the protocol, asked again and again with other challenges; a test runs the honest prover once. A verifier that combines L and R with the wrong powers or drops the term of u still accepts honest proofs of its own prover.", "anchors": ["bulletproofs/src/inner_product_proof.rs: verify", "bulletproofs/src/inner_product_proof.rs: prove"]}
{"id": "C107", "title": "Hyrax takes the public inputs of each instance for that instance", "statement": "The value that the Hyrax verifier uses for the public inputs at the point of the last claim is the value of the table that has the public inputs of the i-th instance in the input layer of the i-th instance; no public input of one instance is taken for a value of another.", "quantifier": "for all numbers of public inputs and witness values, powers of two of instances, public inputs of at most the declared number, and points", "why_tests_cant": "Tests use as many public inputs as witness values, so the padding of the inputs agrees with that of the layer; a proof for misplaced inputs is a valid proof of another statement, and no run of the honest prover shows it.", "anchors": ["hyrax/src/hyrax_proof.rs: verify", "hyrax/src/circuit.rs: input_new"]}
{"id": "C108", "title": "Every hash gives a challenge, and different hashes different challenges", "statement": "`random_bytes_to_fr` never panics on the 31 or 32 bytes that the transcripts deliver: it returns the field element whose number has the first 31 bytes, lowest first. Two hashes give the same challenge only if their first 31 bytes agree, every number below 2^248 is reached, and of the 2^248 strings at most n fall into a set of n field elements.", "quantifier": "for all prime fields of at least 2^248 elements in four limbs with at most eight spare bits, byte strings of at least 31 bytes, and finite sets of field elements", "why_tests_cant": "A panic or a collision needs particular bytes out of 2^248; sampled transcripts do not meet them.", "anchors": ["bulletproofs/src/lib.rs: random_bytes_to_fr", "spartan/src/data_structure.rs: random_bytes_to_fr", "hyrax/src/evaluate.rs: random_bytes_to_fr", "libra/src/evaluate.rs: random_bytes_to_fr"]}
{"id": "C109", "title": "The state of the challenge generators of Marlin and Plonk determines what was absorbed", "statement": "If two sequences of one `from_seed` and any number of `absorb`s leave `FiatShamirRng` in the same state, then the two sequences of byte strings are equal, unless two different strings that were hashed on the way have the same hash.", "quantifier": "for all hash functions with outputs of one length of at least 32 bytes, and all pairs of sequences of byte strings", "why_tests_cant": "Equal states of different histories need a particular structure or a collision; tests run single histories.", "anchors": ["marlin/src/fs_rng.rs: from_seed", "marlin/src/fs_rng.rs: absorb", "plonk/src/rng.rs: from_seed", "plonk/src/rng.rs: absorb"]}
{"id": "C110", "title": "The command-line tools work together: what setup and zkp-prove write makes zkp-verify print true", "statement": "Whoever runs `setup`, then `zkp-prove` with the same scheme, curve and circuit (for Bulletproofs only the latter) on arguments that make a true statement, and then `zkp-verify` on the file that was written, sees the verdict true: keys, public values and proofs pass through the files unchanged, and the circuit that is proved has the constraints of the circuit that was set up.", "quantifier": "for all schemes whose library functions are complete, both circuits, all arguments, directory contents and random tapes", "why_tests_cant": "The text of the arguments is unbounded, and the chain needs three programs and files; tests run it on one example.", "anchors": ["cli/src/setup.rs: main", "cli/src/zkp_prove.rs: main", "cli/src/zkp_verify.rs: main", "cli/src/circuits/mini.rs: power_on", "cli/src/circuits/hash.rs: power_on"]}
{"id": "C111", "title": "The verdict of zkp-verify is about the circuit that the proof file names", "statement": "`zkp-verify` prints true exactly if the file names a known scheme, curve and circuit, its text parses, and the verifier of the scheme accepts the proof with the public values of the file for the named circuit.", "quantifier": "for all proof files and directory contents", "why_tests_cant": "A proof for another circuit has to be constructed; tests verify files that the prover wrote.", "anchors": ["cli/src/zkp_verify.rs: main"]}
{"id": "C112", "title": "The command-line tools report wrong usage and rejected proofs as errors", "statement": "With too few arguments, or with names that are not known, the tools end with an error message and not with a panic, and `zkp-verify` does not end with status 0 if it rejected the proof.", "quantifier": "for all argument lists and directory contents", "why_tests_cant": "Scripts that rely on the exit status are not part of the tests, and the argument lists are unbounded.", "anchors": ["cli/src/setup.rs: main", "cli/src/zkp_prove.rs: main", "cli/src/zkp_verify.rs: main"]}
{"id": "C113", "title": "All constraint systems record the same circuit", "statement": "A circuit that runs on the constraint system of a prover (Groth16, Bulletproofs, Spartan, Marlin) also runs on that of a key generator (Groth16, Spartan, Marlin), and all of them number the variables alike, record the same three matrices and hold the same values, with one in front; the provers fail together, with the same error, and the key generators never ask for a value.", "quantifier": "for all circuits, i.e. all finite sequences of alloc, alloc_input and enforce calls in which later calls may depend on the variables returned before, with values present or missing", "why_tests_cant": "The seven implementations are written separately, and a difference between them would only show as a rejected proof for some circuit.", "anchors": ["groth16/src/generator.rs: KeypairAssembly", "groth16/src/prover.rs: ProvingAssignment", "bulletproofs/src/arithmetic_circuit.rs: ProvingAssignment", "spartan/src/r1cs.rs: R1CSInstance", "spartan/src/prover.rs: ProvingAssignment", "marlin/src/ahp/constraint_systems.rs: IndexerConstraintSystem, ProverConstraintSystem"]}
{"id": "C114", "title": "The verifiers accept only as many public inputs as the circuit has", "statement": "No verifier that works with a key made from an R1CS circuit (Groth16, Bulletproofs, Marlin, Spartan NIZK and SNARK) accepts a proof together with a list of public inputs that is shorter or longer than the circuit's.", "quantifier": "for all keys, proofs, hash functions and lists of public inputs", "why_tests_cant": "Lists of a wrong length that do not fail by accident have to be constructed; the tests pass the list of the circuit.", "anchors": ["groth16/src/verifier.rs: verify_proof", "bulletproofs/src/arithmetic_circuit.rs: verify_proof", "marlin/src/lib.rs: verify_proof", "spartan/src/verify.rs: r1cs_satisfied_verify"]}
{"id": "C115", "title": "The Merkle circuits of the examples prove membership", "statement": "The circuits of the examples merkle_tree_sha256 and merkle_tree_mimc (public root, private leaf and siblings) can be satisfied with given values of root, leaf and siblings if and only if the native check MerkleProof::verify accepts them.", "quantifier": "for all leaves, roots, positions, numbers of siblings, prime fields and round constants", "why_tests_cant": "The examples run honest proofs only; an assignment that differs from the honest one in the last output is never tried.", "anchors": ["gadgets/examples/merkle_tree_sha256.rs: generate_constraints", "gadgets/examples/merkle_tree_mimc.rs: generate_constraints", "gadgets/src/merkletree/cbmt_constraints.rs: set_membership", "gadgets/src/hashes/sha256.rs: AbstractHashSha256Output"]}
{"id": "C116", "title": "A Plonk proof is bound to the circuit it was made for", "statement": "A circuit cannot be chosen to fit a finished Plonk proof: if the commitments and evaluations of an honest proof for one circuit are accepted, with some opening, under the verifying key of another circuit, then the other circuit can be satisfied with the public inputs, too.", "quantifier": "for all circuits, public inputs, domains, commitment schemes and random generators", "why_tests_cant": "Tests verify a proof under the key it was made with; the other key has to be constructed from the challenges of the proof.", "anchors": ["plonk/src/lib.rs: prove", "plonk/src/lib.rs: verify", "plonk/src/lib.rs: keygen", "plonk/src/ahp/indexer/arithmetic.rs: construct_linear_combination"]}
{"id": "C117", "title": "Marlin's challenges are bound to the key, the public inputs and all messages", "statement": "The bytes from which Marlin's challenge generator is made determine the verifying key and the public inputs, the bytes absorbed in each round determine the commitments, whether they have a shifted part, and the evaluations; so two runs that reach the same state before the opening challenge is drawn are for the same key, inputs, commitments and evaluations, unless two strings with the same hash are found.", "quantifier": "for all keys, public inputs, commitments, evaluations, hash functions with fixed output length and injective encodings of fixed length of field elements and points", "why_tests_cant": "Tests compare the challenges of one prover with those of its verifier; that no other key or message has the same encoding concerns all pairs of keys and messages.", "anchors": ["marlin/src/data_structures.rs: IndexVerifierKey::write", "marlin/src/ahp/indexer.rs: IndexInfo::write", "marlin/src/pc/data_structures.rs: VerifierKey::write, Commitment::write", "marlin/src/lib.rs: verify_proof"]}
{"id": "C118", "title": "An accepted proof cannot be changed without the witness", "statement": "Nobody who sees only a verifying key and an accepted proof can make another accepted proof for the same public inputs from it: the verifiers of Groth16, Marlin and Plonk depend on every part of the proof, and the parts determine each other.", "quantifier": "for all keys, accepted proofs, public inputs, fields, pairings, commitment schemes and random generators", "why_tests_cant": "Tests verify the proofs that the prover makes and some with broken parts; whether there is any change that all accepted proofs survive is a statement about all proofs.", "anchors": ["groth16/src/verifier.rs: verify_proof", "marlin/src/lib.rs: verify_proof", "marlin/src/pc/mod.rs: batch_check", "plonk/src/lib.rs: verify"]}
{"id": "C119", "title": "Plonk keys bind the copy constraints whatever multipliers are given", "statement": "Whenever Plonk's keygen returns keys, the multipliers ks it was given assign distinct labels to distinct positions of the circuit, so that wires of the same variable have to carry the same value and no prover is accepted for a circuit that cannot be satisfied.", "quantifier": "for all circuits, multipliers ks, public inputs, provers and large sets of challenges", "why_tests_cant": "Tests always call keygen with the same four good multipliers; overlapping cosets still pass every honest proof, and only a prover that departs from the protocol would show the difference.", "anchors": ["plonk/src/lib.rs: keygen", "plonk/src/ahp/indexer/mod.rs: index", "plonk/src/composer/permutation.rs: compute_sigmas"]}
{"id": "C120", "title": "The circuit that the Bulletproofs verifier checks is the one its challenges are bound to", "statement": "The challenges of the Bulletproofs verifier determine the sizes, the generators, the public inputs, all messages of the proof and the circuit that is checked: an R1csCircuit whose sparse maps differ from the matrices in the transcript is not accepted.", "quantifier": "for all circuits, matrices, sparse maps, generators, public inputs, proofs and hash functions", "why_tests_cant": "Tests build the maps from the matrices with the library; an R1csCircuit that is read from bytes can hold any combination, and that the hashed bytes can be parsed back is a statement about all pairs of runs.", "anchors": ["bulletproofs/src/arithmetic_circuit.rs: verify_proof", "bulletproofs/src/arithmetic_circuit.rs: R1csCircuit", "bulletproofs/src/arithmetic_circuit.rs: matrix_to_map"]}
{"id": "C121", "title": "The verifiers give a verdict on every proof", "statement": "The verifiers of Groth16, Marlin, Bulletproofs, Spartan, Hyrax and Libra answer every proof of the right type with acceptance, rejection or an error; no proof makes them abort.", "quantifier": "for all proofs, public inputs, circuits, parameters and hash functions", "why_tests_cant": "Tests run the verifiers on the proofs of the honest prover, for which all lists have the expected lengths and all assertions hold; a proof from outside can have lists of any length and any values.", "anchors": ["groth16/src/verifier.rs: verify_proof", "marlin/src/lib.rs: verify_proof", "bulletproofs/src/inner_product_proof.rs: verify", "spartan/src/verify.rs: sum_check_verify", "hyrax/src/hyrax_proof.rs: verify", "libra/src/libra_zk_linear_gkr.rs: verify", "libra/src/libra_linear_gkr.rs: verify"]}
{"id": "C122", "title": "Blinding polynomials are drawn afresh, and hiding without a randomness source is refused", "statement": "PC::commit draws a new blinding polynomial of hiding_bound + 1 coefficients for every hiding polynomial and another for its shifted commitment, nothing for the others, and uses no drawn value twice; if a polynomial asks for hiding and there is no randomness source it returns MissingRng.", "quantifier": "for all committer keys, lists of polynomials with any degree and hiding bounds, and randomness sources", "why_tests_cant": "Tests pass a source and check that openings verify, which they would also with repeated blinding; whether the error for a missing source can be reached depends on how the wrapper OptionalRng is handed on.", "anchors": ["marlin/src/pc/mod.rs: commit", "marlin/src/pc/kzg10.rs: commit", "marlin/src/pc/optional_rng.rs: OptionalRng", "marlin/src/pc/data_structures.rs: Rand::rand"]}
{"id": "C123", "title": "The layered circuits of the tests are proved and verified for all values", "statement": "For the two circuits in the tests of hyrax and libra, which compute the functions given in the comments there, the honest proof is accepted for all inputs, witness values, generators and random values, and for every admissible number of instances.", "quantifier": "for all inputs, witness values, parameters, random values and hash functions (with non-zero challenges of the inner product argument); for Hyrax for all powers of two of instances that fit the parameters", "why_tests_cant": "The tests run the circuits once with fixed or sampled values; those in libra/tests/test_2.rs print the verdict without checking it.", "anchors": ["hyrax/tests/test.rs: prepare_construct_circuit", "hyrax/tests/test_2.rs: prepare_construct_circuit", "libra/tests/test.rs: prepare_construct_circuit", "libra/tests/test_2.rs: prepare_construct_circuit"]}
{"id": "C124", "title": "The R1CS circuits of the tests are proved and verified for all values", "statement": "The circuit of the mini tests, x (y + 2) = z any number of times, is proved and verified by Groth16, Bulletproofs and both Spartan systems for all x, y and z with x (y + 2) = z, also for z = 0. The circuit of spartan/tests/test.rs is satisfied exactly by lhs = 1, rhs = 2 and phs ohs = 1, and both Spartan systems prove and verify it for all such values. Marlin outputs no proof when the mini circuit has one copy of the constraint instead of ten.", "quantifier": "for all values, keys, random values and hash functions without zero challenges; for every number of copies of the constraint (at least one where the system needs it)", "why_tests_cant": "The tests run each circuit with one choice of values and with ten copies of the constraint.", "anchors": ["groth16/tests/mini.rs: generate_constraints", "bulletproofs/tests/mini.rs: generate_constraints", "marlin/tests/mini.rs: generate_constraints", "spartan/tests/mini.rs: generate_constraints", "spartan/tests/test.rs: generate_constraints"]}
