{
 "claims": [
  {
   "property": "C01",
   "status": "proved",
   "theorems": [
    "Zkp.C01_lc_operators_exact"
   ],
   "note": "every operator evaluates to the exact field result, for all combinations and assignments"
  },
  {
   "property": "C02",
   "status": "proved",
   "theorems": [
    "Zkp.C02_built_is_ordered"
   ],
   "note": "induction over everything buildable from the public operators"
  },
  {
   "property": "C03",
   "status": "partial",
   "theorems": [
    "Zkp.C03_violated_duplicate_terms",
    "Zkp.C03_merge_partial",
    "Zkp.C03_add_partial"
   ],
   "note": "the property is false of the code below six terms (witness proved); merge/add of duplicate-free combinations and additions from six terms on are proved"
  },
  {
   "property": "C04",
   "status": "proved",
   "theorems": [
    "Zkp.C04_round_trip",
    "Zkp.C04_encoding_injective",
    "Zkp.C04_decoder_accepts_noncanonical_tags"
   ],
   "note": ""
  },
  {
   "property": "C05",
   "status": "proved",
   "theorems": [
    "Zkp.C05_constraintVar_operators_exact"
   ],
   "note": ""
  },
  {
   "property": "C06",
   "status": "proved",
   "theorems": [
    "Zkp.C06_alloc_is_bit",
    "Zkp.C06_alloc_conditionally",
    "Zkp.C06_gates_sound",
    "Zkp.C06_allocated_gates_sound",
    "Zkp.C06_linear_expression"
   ],
   "note": "every satisfying assignment, every operand form"
  },
  {
   "property": "C07",
   "status": "proved",
   "theorems": [
    "Zkp.C07_gates_complete",
    "Zkp.C07_allocated_gates_complete",
    "Zkp.C07_alloc_complete",
    "Zkp.C07_missing_value"
   ],
   "note": ""
  },
  {
   "property": "C08",
   "status": "proved",
   "theorems": [
    "Zkp.C08_enforce_equal_exact",
    "Zkp.C08_constants_rejected"
   ],
   "note": ""
  },
  {
   "property": "C09",
   "status": "proved",
   "theorems": [
    "Zkp.C09_ch_maj_sound",
    "Zkp.C09_ch_maj_complete"
   ],
   "note": ""
  },
  {
   "property": "C10",
   "status": "partial",
   "theorems": [
    "Zkp.C10_violated_not_binding",
    "Zkp.C10_bits_partial"
   ],
   "note": "the full statement is C10_statement; the code does not bind the bits to the field element (witness proved); only booleanity and honest-run values are provable"
  },
  {
   "property": "C100",
   "status": "proved",
   "theorems": [
    "Zkp.Lz.C100"
   ],
   "note": "The shapes are those of C87_partial: for other layer sizes and witness counts the prover panics (C87_shape). The random scalars are finite lists (Spec/LibraDraw.lean), one entry for every scalar drawn."
  },
  {
   "property": "C101",
   "status": "partial",
   "theorems": [
    "Zkp.Hx.C101_leak",
    "Zkp.Hx.C101_tells",
    "Zkp.Hx.C101_violated",
    "Zkp.Hx.C101_partial"
   ],
   "note": "Violated by the code: the third sum-check of a layer indexes r_alpha_eval_vec with log_g (size of the layer above) instead of log_ng, so for a layer smaller than the one below blinding factors of the second sum-check are used again. C101_leak proves that the difference of two commitments then is a fixed multiple of the generator whatever the random choices, C101_tells that this distinguishes two witnesses, C101_violated that the full claim (C101_statement) fails, C101_partial that nothing is revealed if all layers have the same size."
  },
  {
   "property": "C102",
   "status": "partial",
   "theorems": [
    "Zkp.Plonk.C102_reveals",
    "Zkp.Plonk.C102_tells",
    "Zkp.Plonk.C102_violated",
    "Zkp.Plonk.C102_partial"
   ],
   "note": "Violated by the code: the wire polynomials are the plain interpolations of the assignment, without blinding terms, and no polynomial has a hiding bound. C102_reveals proves that every proof holds the values of these polynomials at the last challenge, C102_tells that commitments of an injective scheme determine every wire value, C102_violated that for every complete commitment scheme the proofs for the two square roots of a public input differ, C102_partial that nothing but the wire values and public inputs is used."
  },
  {
   "property": "C103",
   "status": "partial",
   "theorems": [
    "Zkp.Spartan.C103_leak",
    "Zkp.Spartan.C103_violated",
    "Zkp.Spartan.C103_partial"
   ],
   "note": "Violated by the code: the first part of the proof contains w_ry, the value of the witness polynomial at the challenge point, in the clear. C103_leak proves this for every proof, C103_violated that two witnesses of one statement can be told apart from every proof, C103_partial that nothing else is revealed: witnesses with the same w_ry give identically distributed proofs."
  },
  {
   "property": "C104",
   "status": "proved",
   "theorems": [
    "Zkp.C104_sizes",
    "Zkp.C104_entries",
    "Zkp.C104_rescue",
    "Zkp.C104_poseidon",
    "Zkp.C104_injective"
   ],
   "note": "The tables are copied from the source as numbers; from_str of ark-ff is trusted to read them modulo the order."
  },
  {
   "property": "C105",
   "status": "proved",
   "theorems": [
    "Zkp.Marlin.C105"
   ],
   "note": "Coins are the blinding factors, the masking polynomial and the blinding polynomials of the commitments; agreement of proofs treats a missing blinding value as zero, as the verifier does. Coins for which the prover fails are excluded by the hypothesis that both runs give a proof."
  },
  {
   "property": "C106",
   "status": "proved",
   "theorems": [
    "Zkp.C106"
   ],
   "note": "The extractor is chosen before the group and gets no group element, so that the relation between generators, which always exists in a cyclic group, is really computed from the scalars. The number of replies is not related to a success probability."
  },
  {
   "property": "C107",
   "status": "partial",
   "theorems": [
    "Zkp.Hx.C107_violated",
    "Zkp.Hx.C107_partial",
    "Zkp.Hx.C107_swap",
    "Zkp.Hx.C107_accepts",
    "Zkp.Hx.square_output"
   ],
   "note": "Violated by the code: the verifier pads the public inputs of each instance only to their own power of two, not to the width of the layer, and writes them one after the other. C107_violated proves the negation over every field, C107_partial the claim for inputs that fill the layer. C107_swap: public inputs that are written to the same vector share their proofs, for every hash function. C107_accepts: for one public input and two witness values a proof that the squares of x and y are x*x and 0 is accepted, even with the check missing in C53."
  },
  {
   "property": "C108",
   "status": "proved",
   "theorems": [
    "Zkp.Chal.C108_value",
    "Zkp.Chal.C108_injective",
    "Zkp.Chal.C108_surjective",
    "Zkp.Chal.C108_count"
   ],
   "note": "ark-ff's from_random_bytes is modelled from its documented behaviour (trusted base)."
  },
  {
   "property": "C109",
   "status": "partial",
   "theorems": [
    "Zkp.Chal.C109_violated",
    "Zkp.Chal.C109_extension",
    "Zkp.Chal.C109_partial",
    "Zkp.Chal.C109_exact",
    "Zkp.Chal.C109_stream"
   ],
   "note": "Violated by the code for histories of different lengths: from_seed and absorb hash in the same way, so for every hash function from_seed(b ++ hash a) leaves the state of from_seed(a) followed by absorb(b) (C109_extension; C109_violated gives a hash function without a collision on the way). C109_partial proves the claim for histories of equal length, the ones that the protocols use; C109_exact says which histories of different lengths are confused."
  },
  {
   "property": "C11",
   "status": "proved",
   "theorems": [
    "Zkp.C11_free_word_ops",
    "Zkp.C11_word_gates_sound",
    "Zkp.C11_word_gates_complete",
    "Zkp.C11_from_bits_value"
   ],
   "note": ""
  },
  {
   "property": "C110",
   "status": "proved",
   "theorems": [
    "Zkp.Cli.C110_roundtrip",
    "Zkp.Cli.C110_bulletproofs"
   ],
   "note": "Completeness of the library functions is a hypothesis per scheme; for Bulletproofs it is discharged with the completeness theorem of the model (C110_bulletproofs). JSON, the file system and decimal text are external."
  },
  {
   "property": "C111",
   "status": "partial",
   "theorems": [
    "Zkp.Cli.C111_violated",
    "Zkp.Cli.C111_violated_for_all",
    "Zkp.Cli.C111_partial"
   ],
   "note": "Violated by the code for Bulletproofs: the circuit is read from the proof, so a proof of 1 * 1 = 1 is accepted for both circuits and all public values. C111_partial characterizes the verdict: for Groth16 and Spartan it is the verifier's with the key file of the named circuit."
  },
  {
   "property": "C112",
   "status": "partial",
   "theorems": [
    "Zkp.Cli.C112_violated",
    "Zkp.Cli.C112_violated_usage",
    "Zkp.Cli.C112_violated_verdict",
    "Zkp.Cli.C112_partial"
   ],
   "note": "Violated by the code: only the first argument is checked for, so short argument lists panic, and zkp-verify returns Ok after a rejection. C112_partial proves what holds."
  },
  {
   "property": "C113",
   "status": "proved",
   "theorems": [
    "Zkp.Back.C113_provers",
    "Zkp.Back.C113_generators",
    "Zkp.Back.C113_agree"
   ],
   "note": "Namespaces (ignored by all of these systems) are left out. Marlin's padding to square matrices happens after these runs and is modelled elsewhere."
  },
  {
   "property": "C114",
   "status": "partial",
   "theorems": [
    "Zkp.groth16_wrong_length",
    "Zkp.Bp.C114_bulletproofs",
    "Zkp.Spartan.C114_nizk_zeros",
    "Zkp.Spartan.C114_snark_zeros",
    "Zkp.Spartan.C114_violated",
    "Zkp.Spartan.C114_nizk_partial",
    "Zkp.Marlin.C114_marlin_violated"
   ],
   "note": "Violated by the code for Spartan: public inputs are filled up with zeros without a check, so every proof has the same verdict with zeros appended (C114_nizk_zeros, C114_snark_zeros), and for Marlin: the key does not hold the number of inputs. Proved for Groth16 (an error) and Bulletproofs (a panic)."
  },
  {
   "property": "C115",
   "status": "partial",
   "theorems": [
    "Zkp.Merkle.C115_sha_any_root",
    "Zkp.Merkle.C115_sha_violated",
    "Zkp.Merkle.C115_sha_complete_partial",
    "Zkp.Merkle.C115_mimc_any_root",
    "Zkp.Merkle.C115_mimc_violated",
    "Zkp.Merkle.C115_mimc_complete_partial"
   ],
   "note": "Violated by the code: with at least one sibling, every root is accepted for every leaf, at every depth, because the outputs of the hash circuits are free (C115_sha_any_root, C115_mimc_any_root). The other direction, completeness for every depth, is proved."
  },
  {
   "property": "C116",
   "status": "partial",
   "theorems": [
    "Zkp.Plonk.C116_same_messages",
    "Zkp.Plonk.C116_forgery",
    "Zkp.Plonk.C116_violated",
    "Zkp.Plonk.C116_accept_iff",
    "Zkp.Plonk.C116_partial"
   ],
   "note": "Violated by the code: the generator is seeded with the public inputs only, so the key may be chosen after the challenges. For every satisfied circuit with two idle gates, every honest proof with challenge outside the domain is accepted, after a new opening, for an unsatisfiable circuit (C116_forgery). Proved: the exact condition on the constants (C116_accept_iff) and the bound on the number of bad challenges for circuits fixed in advance (C116_partial)."
  },
  {
   "property": "C117",
   "status": "proved",
   "theorems": [
    "Zkp.MarlinBytes.C117_seed",
    "Zkp.MarlinBytes.C117_messages",
    "Zkp.MarlinBytes.C117"
   ],
   "note": "The writers are modelled byte by byte; the encodings of field elements and points are parameters, assumed injective and of fixed length."
  },
  {
   "property": "C118",
   "status": "partial",
   "theorems": [
    "Zkp.C118_groth16_rescale",
    "Zkp.C118_groth16_shift",
    "Zkp.C118_violated_groth16",
    "Zkp.C118_groth16_partial",
    "Zkp.Marlin.C118_marlin_ignored",
    "Zkp.Marlin.C118_violated_marlin",
    "Zkp.Marlin.C118_marlin_partial",
    "Zkp.Plonk.C118_plonk_ignored",
    "Zkp.Plonk.C118_violated_plonk"
   ],
   "note": "Violated by the code: Groth16 proofs can be re-randomised (known of the scheme; the code has no protection), and the verifiers of Marlin and Plonk ignore all vectors of commitments after the third, which are not hashed either. Proved: each of the three points of a Groth16 proof is determined by the others; the openings of a Marlin proof are determined by the rest of the proof."
  },
  {
   "property": "C119",
   "status": "partial",
   "theorems": [
    "Zkp.Plonk.C119_violated",
    "Zkp.Plonk.C119_partial"
   ],
   "note": "Violated by the code: keygen does not check the multipliers; with four equal ones the wires of a gate are not tied together and a circuit that cannot be satisfied is accepted for all challenges. Proved: with multipliers that give distinct labels every prover fails for some challenges unless the circuit can be satisfied."
  },
  {
   "property": "C12",
   "status": "proved",
   "theorems": [
    "Zkp.C12_addmany_sound",
    "Zkp.C12_addmany_complete",
    "Zkp.C12_addmany_refuses"
   ],
   "note": "prime fields; the adder may share its batcher with other equalities"
  },
  {
   "property": "C120",
   "status": "partial",
   "theorems": [
    "Zkp.C120_swap",
    "Zkp.C120_foreign",
    "Zkp.C120_violated",
    "Zkp.C120_partial"
   ],
   "note": "Violated by the code: an R1csCircuit holds the matrices and the sparse maps; only the matrices are hashed and only the maps are checked, and nothing compares them, so that for any matrices and any satisfiable circuit as maps there is an accepted proof. Proved: equal bytes at the last challenge mean the same sizes, generators, matrices, public inputs and messages."
  },
  {
   "property": "C121",
   "status": "partial",
   "theorems": [
    "Zkp.Aborts.C121_partial",
    "Zkp.Aborts.C121_marlin",
    "Zkp.Aborts.C121_bulletproofs",
    "Zkp.Aborts.C121_nizk",
    "Zkp.Aborts.C121_snark",
    "Zkp.Aborts.C121_hyrax",
    "Zkp.Aborts.C121_hyrax_short",
    "Zkp.Aborts.C121_libra_zk",
    "Zkp.Aborts.C121_libra_zk_length",
    "Zkp.Aborts.C121_libra_length",
    "Zkp.Aborts.C121_violated",
    "Zkp.Aborts.C121_statement_false"
   ],
   "note": "Holds for Groth16. Violated by the others: proofs with missing list entries make Marlin, Bulletproofs, Spartan, Hyrax and Libra abort for all keys and inputs; the verifiers of Hyrax and of Libra with zero knowledge have no negative verdict at all: they accept or abort. For Plonk see C76."
  },
  {
   "property": "C122",
   "status": "partial",
   "theorems": [
    "Zkp.Kzg.C122_partial",
    "Zkp.Kzg.C122_plain",
    "Zkp.Kzg.C122_kzg",
    "Zkp.Kzg.C122_aborts",
    "Zkp.Kzg.C122_never",
    "Zkp.Kzg.C122_violated"
   ],
   "note": "Violated by the code: PC::commit wraps its optional source into Some(OptionalRng), so that MissingRng of KZG10::commit cannot be reached; a hiding polynomial without a source aborts. Proved: with a source the blinding polynomials are consecutive pieces of it; without hiding bounds nothing is drawn; KZG10::commit on its own returns MissingRng."
  },
  {
   "property": "C123",
   "status": "proved",
   "theorems": [
    "Zkp.TestCircuits.C123_large",
    "Zkp.TestCircuits.C123_small",
    "Zkp.TestCircuits.C123_hyrax_large",
    "Zkp.TestCircuits.C123_hyrax_small",
    "Zkp.TestCircuits.C123_libra_large",
    "Zkp.TestCircuits.C123_libra_small",
    "Zkp.TestCircuits.C123_plain_large",
    "Zkp.TestCircuits.C123_plain_small"
   ],
   "note": "The circuits have the shapes for which completeness holds (C77, C86, C87)."
  },
  {
   "property": "C124",
   "status": "proved",
   "theorems": [
    "Zkp.TestR1cs.C124_groth16",
    "Zkp.TestR1cs.C124_bulletproofs",
    "Zkp.TestR1cs.C124_nizk",
    "Zkp.TestR1cs.C124_snark",
    "Zkp.TestR1cs.C124_demo",
    "Zkp.TestR1cs.C124_demo_nizk",
    "Zkp.TestR1cs.C124_demo_snark",
    "Zkp.TestR1cs.C124_marlin_single"
   ],
   "note": "The circuits are run with and without values and meet the hypotheses of C30, C72 and C90. For Marlin only the negative statement; proofs that its prover outputs are covered by C83."
  },
  {
   "property": "C13",
   "status": "proved",
   "theorems": [
    "Zkp.C13_batch_exact",
    "Zkp.C13_batch_succeeds"
   ],
   "note": "arbitrary sequences of equalities and constraints, induction over the sequence"
  },
  {
   "property": "C14",
   "status": "proved",
   "theorems": [
    "Zkp.C14_compression_sound",
    "Zkp.C14_compression_complete",
    "Zkp.C14_block_no_padding"
   ],
   "note": "prime fields of at least 64 bits; specification is FIPS 180-4 with constants derived from primes"
  },
  {
   "property": "C15",
   "status": "proved",
   "theorems": [
    "Zkp.C15_sha256_sound",
    "Zkp.C15_sha256_complete",
    "Zkp.C15_sha256_refuses",
    "Zkp.C15_spec_empty_vector"
   ],
   "note": "every message length"
  },
  {
   "property": "C16",
   "status": "proved",
   "theorems": [
    "Zkp.C16_blake2s_sound",
    "Zkp.C16_blake2s_complete",
    "Zkp.C16_blake2s_refuses",
    "Zkp.C16_spec_abc_vector"
   ],
   "note": "every message length, every personalization; specification is RFC 7693"
  },
  {
   "property": "C17",
   "status": "proved",
   "theorems": [
    "Zkp.C17_circuit_sound",
    "Zkp.C17_native",
    "Zkp.C17_circuit_complete",
    "Zkp.C17_missing_value"
   ],
   "note": "all fields, all 322 round constants; the circuit covers the last block, with the chaining value as its left input"
  },
  {
   "property": "C18",
   "status": "partial",
   "theorems": [
    "Zkp.C18_violated",
    "Zkp.C18_violated_short",
    "Zkp.C18_violated_overflow",
    "Zkp.C18_violated_empty",
    "Zkp.C18_separates_partial",
    "Zkp.C18_nonempty_partial",
    "Zkp.C18_exact"
   ],
   "note": "full statement is C18_statement, violated (witnesses proved); holds for whole, canonical pieces; C18_exact: exactly which messages are confused"
  },
  {
   "property": "C19",
   "status": "partial",
   "theorems": [
    "Zkp.C19_violated_field_hashes",
    "Zkp.C19_mimc_output_free",
    "Zkp.C19_rescue_output_free",
    "Zkp.C19_poseidon_output_free",
    "Zkp.C19_violated_sha",
    "Zkp.C19_sha_output_free",
    "Zkp.C19_mimc_honest_partial",
    "Zkp.C19_sha_value_partial",
    "Zkp.C19_alloc",
    "Zkp.C19_alloc_missing"
   ],
   "note": "violated by all four implementations: the output variables are unconstrained"
  },
  {
   "property": "C20",
   "status": "partial",
   "theorems": [
    "Zkp.C20_violated",
    "Zkp.C20_violated_assigns_zero",
    "Zkp.C20_power_partial",
    "Zkp.C20_step_value",
    "Zkp.C20_step_violated"
   ],
   "note": "full statement is C20_statement, violated in every field; what the constraints do enforce is C20_power_partial"
  },
  {
   "property": "C21",
   "status": "proved",
   "theorems": [
    "Zkp.C21_synth",
    "Zkp.C21_lookup_sound",
    "Zkp.C21_lookup_complete",
    "Zkp.C21_wrong_sizes"
   ],
   "note": ""
  },
  {
   "property": "C22",
   "status": "partial",
   "theorems": [
    "Zkp.C22_violated",
    "Zkp.C22_violated_allocated",
    "Zkp.C22_select_partial"
   ],
   "note": "full statement is C22_statement, violated: the table entries are unconstrained witnesses; what does hold is C22_select_partial"
  },
  {
   "property": "C23",
   "status": "proved",
   "theorems": [
    "Zkp.C23_never_panics",
    "Zkp.C23_too_wide_panics",
    "Zkp.C23_field",
    "Zkp.C23_compare",
    "Zkp.C23_sound",
    "Zkp.C23_operands_not_bounded"
   ],
   "note": "for widths with 2^(n+1) at most the field size; C23_operands_not_bounded records that operands are not range checked"
  },
  {
   "property": "C24",
   "status": "proved",
   "theorems": [
    "Zkp.C24_isnonzero",
    "Zkp.C24_inputize"
   ],
   "note": ""
  },
  {
   "property": "C25",
   "status": "proved",
   "theorems": [
    "Zkp.C25_root_agrees",
    "Zkp.C25_tree_equations"
   ],
   "note": ""
  },
  {
   "property": "C26",
   "status": "partial",
   "theorems": [
    "Zkp.C26_proof_verifies",
    "Zkp.C26_outside_checked",
    "Zkp.C26_partial",
    "Zkp.C26_violated_unchecked",
    "Zkp.C26_unchecked"
   ],
   "note": "proved for builds with overflow checks; in Rust's default release profile positions near 2^32 wrap around and yield proofs of inner nodes (C26_violated_unchecked); C26_unchecked says for which, and of which node"
  },
  {
   "property": "C27",
   "status": "proved",
   "theorems": [
    "Zkp.C27_binding",
    "Zkp.C27_one_leaf",
    "Zkp.C27_length_needed"
   ],
   "note": "the number of siblings is a hypothesis, as in the statement; C27_length_needed shows it is needed"
  },
  {
   "property": "C28",
   "status": "partial",
   "theorems": [
    "Zkp.C28_violated",
    "Zkp.C28_violated_hashes",
    "Zkp.C28_any_root_accepted",
    "Zkp.C28_binding_hash_partial"
   ],
   "note": "violated: with the repository's hash circuits any root is accepted; the statement holds for hash circuits that bind their output"
  },
  {
   "property": "C29",
   "status": "proved",
   "theorems": [
    "Zkp.groth16_reduction"
   ],
   "note": "Exact iff for every circuit, assignment and large enough domain; quotient degree bound. Evaluation-domain transforms are modelled by their mathematical definition (trusted base)."
  },
  {
   "property": "C30",
   "status": "proved",
   "theorems": [
    "Zkp.groth16_complete",
    "Zkp.groth16_unsatisfied",
    "Zkp.groth16_keygen_ok_iff"
   ],
   "note": "Setup and proving runs of the circuit are assumed to emit the same constraints and variable counts. Groups are modules over the field, pairing is bilinear."
  },
  {
   "property": "C31",
   "status": "proved",
   "theorems": [
    "Zkp.groth16_wrong_length",
    "Zkp.groth16_verify_iff"
   ],
   "note": ""
  },
  {
   "property": "C32",
   "status": "partial",
   "theorems": [
    "Zkp.C32_violated",
    "Zkp.C32_partial",
    "Zkp.C32_maps",
    "Zkp.C32_actual",
    "Zkp.C32_exact"
   ],
   "note": "violated over every field: a variable mentioned twice keeps only its last coefficient; holds for combinations without repeats; C32_actual, C32_exact: what is stored, and exactly when it is right"
  },
  {
   "property": "C33",
   "status": "proved",
   "theorems": [
    "Zkp.C33_complete",
    "Zkp.C33_accepted"
   ],
   "note": ""
  },
  {
   "property": "C34",
   "status": "partial",
   "theorems": [
    "Zkp.C34_violated",
    "Zkp.C34_forgery",
    "Zkp.C34_partial",
    "Zkp.C34_knowledge_partial"
   ],
   "note": "violated: every circuit with a constraint, also an unsatisfiable one, has an accepted proof for every challenge function with nonzero y; C34_partial states exactly what is checked; C34_knowledge_partial: with the missing check t_x = <l_x, r_x> an extractor reads a satisfying assignment off a tree of accepted proofs, or the scalars give a relation between the generators"
  },
  {
   "property": "C35",
   "status": "partial",
   "theorems": [
    "Zkp.Marlin.C35_violated",
    "Zkp.Marlin.C35_statement_false",
    "Zkp.Marlin.C35_forgery",
    "Zkp.Marlin.C35_partial"
   ],
   "note": "Violated: the proof chooses how commitments are spread over the rounds, so all challenges of the first two rounds can be known before any polynomial is chosen; a forged proof is accepted for every circuit and public input. Proved when the polynomials are fixed in the order of the protocol."
  },
  {
   "property": "C36",
   "status": "partial",
   "theorems": [
    "Zkp.Marlin.C36_violated",
    "Zkp.Marlin.C36_misplaced",
    "Zkp.Marlin.C36_aborts",
    "Zkp.Marlin.C36_partial",
    "Zkp.Marlin.C36_exact"
   ],
   "note": "Violated: when the number of inputs (with the one) is not a power of two, prover and indexer put variables at different places, or the prover aborts. Proved when the number of inputs fills its domain; C36_exact: for all values of at least one private variable only then."
  },
  {
   "property": "C37",
   "status": "partial",
   "theorems": [
    "Zkp.Marlin.C37_violated",
    "Zkp.Marlin.C37_aborts",
    "Zkp.Marlin.C37_partial",
    "Zkp.Marlin.C37_release",
    "Zkp.Marlin.C37_no_swap",
    "Zkp.Marlin.C37_prover_shape",
    "Zkp.Marlin.C37_balance",
    "Zkp.Marlin.C37_exact"
   ],
   "note": "Violated in builds with overflow checks: balancing underflows and aborts. Satisfaction is preserved whenever the preprocessing returns, and always without overflow checks. C37_exact: with overflow checks it returns exactly if the left factors have at most as many terms as the right ones."
  },
  {
   "property": "C38",
   "status": "partial",
   "theorems": [
    "Zkp.Kzg.C38_violated",
    "Zkp.Kzg.C38_constant_refused",
    "Zkp.Kzg.C38_blinding_violated",
    "Zkp.Kzg.C38_partial",
    "Zkp.Kzg.C38_success",
    "Zkp.Kzg.C38_list_partial",
    "Zkp.Kzg.C38_list_success",
    "Zkp.Kzg.C38_open_success",
    "Zkp.Kzg.C38_batch_partial"
   ],
   "note": "The code refuses constant polynomials and mishandles the largest accepted hiding bound, so the full statement is false (proved). Proved for everything commit and open return, for single polynomials, lists and batches, with the success conditions."
  },
  {
   "property": "C39",
   "status": "proved",
   "theorems": [
    "Zkp.Kzg.C39_relation",
    "Zkp.Kzg.C39_two_values",
    "Zkp.Kzg.C39_unique_witness"
   ],
   "note": "Two accepted openings give g/(beta - z); exactly one witness per claimed value."
  },
  {
   "property": "C40",
   "status": "proved",
   "theorems": [
    "Zkp.Plonk.C40"
   ],
   "note": "For every sequence of composer calls, all rows of the composed circuit hold for the synthesized wires and public inputs exactly when the relation of every call holds; composition and synthesis succeed whenever the domain exists."
  },
  {
   "property": "C41",
   "status": "proved",
   "theorems": [
    "Zkp.Plonk.C41"
   ],
   "note": "For every circuit, domain size and iteration order of the variable map the tables are a bijection whose cycles are exactly the sets of positions holding one variable; padding positions are fixed."
  },
  {
   "property": "C42",
   "status": "proved",
   "theorems": [
    "Zkp.Plonk.C42",
    "Zkp.Plonk.C42_bound"
   ],
   "note": "The linear combination t of the four chunks evaluates to the quotient at every point; each chunk has degree below n; coefficients beyond 4n are dropped."
  },
  {
   "property": "C43",
   "status": "partial",
   "theorems": [
    "Zkp.Plonk.C43_violated",
    "Zkp.Plonk.C43_forgery",
    "Zkp.Plonk.C43_partial"
   ],
   "note": "Violated: the verifier does not check how the commitments are spread over the rounds, so all can be put into the last vector and beta, gamma, alpha are known beforehand; a proof is forged for every circuit and all public inputs. Proved: with the rounds respected and an ideal commitment scheme, acceptance on a set of more than 5n challenges implies that the circuit is satisfiable."
  },
  {
   "property": "C44",
   "status": "partial",
   "theorems": [
    "Zkp.Spartan.C44_forgery",
    "Zkp.Spartan.C44_violated",
    "Zkp.Spartan.C44_partial",
    "Zkp.Spartan.C44_count_partial"
   ],
   "note": "Violated: the point at which the matrices are evaluated comes from the proof and is never compared with the transcript challenges; one all-zero proof is accepted for every instance, also unsatisfiable ones, for every hash function. Partial: if the points are the challenges drawn, no public input that is zero comes before one that is not (C45) and the generators are linearly independent, acceptance means that the witness read from the commitment satisfies the instance, or one of the 5 nx + 4 ny + k + 8 challenges hit a set of at most 6 elements fixed before it; hence at most 6 m |F|^(m-1) of |F|^m challenge sequences accept a false statement."
  },
  {
   "property": "C45",
   "status": "partial",
   "theorems": [
    "Zkp.Ml.C45_violated",
    "Zkp.Ml.C45_collision",
    "Zkp.Ml.C45_actual",
    "Zkp.Ml.C45_partial",
    "Zkp.Ml.C45_inputs",
    "Zkp.Ml.C45_exact"
   ],
   "note": "Violated: sparse_evaluate_value skips zero values without advancing the position, so values after a zero get the wrong weight; different inputs can be confused. Partial: correct when the zeros come last; C45_exact: and only then; C45_actual states what is computed for all inputs."
  },
  {
   "property": "C46",
   "status": "proved",
   "theorems": [
    "Zkp.Ml.C46_spec_interpolates",
    "Zkp.Ml.C46_spec_affine",
    "Zkp.Ml.C46_evalEq",
    "Zkp.Ml.C46_evalEqXY",
    "Zkp.Ml.C46_evalValue",
    "Zkp.Ml.C46_combine",
    "Zkp.Ml.C46_bound",
    "Zkp.Ml.C46_evaluateMle"
   ],
   "note": "All number of variables, points and tables."
  },
  {
   "property": "C47",
   "status": "partial",
   "theorems": [
    "Zkp.Spartan.C47_violated",
    "Zkp.Spartan.C47_partial",
    "Zkp.Spartan.C47_exact"
   ],
   "note": "Violated: row boundaries are not hashed, two different instances (one satisfiable, one not) have the same digest. Partial: injective for instances with the same row lengths; C47_exact: two instances are confused exactly if they differ only in where rows end."
  },
  {
   "property": "C48",
   "status": "proved",
   "theorems": [
    "Zkp.Spartan.C48",
    "Zkp.Spartan.C48_columns",
    "Zkp.Spartan.C48_generate"
   ],
   "note": "All matrices, also with repeated and cancelling entries."
  },
  {
   "property": "C49",
   "status": "proved",
   "theorems": [
    "Zkp.Spartan.C49_complete",
    "Zkp.Spartan.C49_assertion",
    "Zkp.Spartan.C49_honest",
    "Zkp.Spartan.C49_fingerprint",
    "Zkp.Spartan.C49_sound",
    "Zkp.Spartan.C49_checked"
   ],
   "note": "Completeness for all address lists; soundness of the multiset equation for arbitrary claimed reads (fewer than the characteristic), and from the asserted products for sufficiently many challenges."
  },
  {
   "property": "C50",
   "status": "partial",
   "theorems": [
    "Zkp.Spartan.C50_actual",
    "Zkp.Spartan.C50_violated",
    "Zkp.Spartan.C50_same_opening",
    "Zkp.Spartan.C50_partial"
   ],
   "note": "Violated: the number of checked reads and writes is the number of address evaluations in the proof, so a proof can have none of them checked. Proved when that number is right."
  },
  {
   "property": "C51",
   "status": "partial",
   "theorems": [
    "Zkp.Spartan.C51_partial",
    "Zkp.Spartan.C51_violated"
   ],
   "note": "Violated for lists of length zero or one: evaluation panics. Proved for all longer lists."
  },
  {
   "property": "C52",
   "status": "proved",
   "theorems": [
    "Zkp.Sc.C52_libra_one",
    "Zkp.Sc.C52_libra_two",
    "Zkp.Sc.C52_any_claim",
    "Zkp.Sc.C52_spartan_one",
    "Zkp.Sc.C52_spartan_two",
    "Zkp.Sc.C52_spartan_cubic"
   ],
   "note": "Libra's two phases, Spartan's two hiding phases and Spartan's batched cubic rounds, for all tables, hash functions and blinding values (characteristic other than two and three)."
  },
  {
   "property": "C53",
   "status": "partial",
   "theorems": [
    "Zkp.Hx.C53_zero",
    "Zkp.Hx.C53_violated",
    "Zkp.Hx.C53_partial",
    "Zkp.Hx.sumcheck_inv",
    "Zkp.Hx.C53_sound_partial",
    "Zkp.Hx.C53_count_partial",
    "Zkp.Hx.verifyChecked_imp",
    "Zkp.Hx.C86_checked"
   ],
   "note": "Violated: each layer's proof brings its own claim (comm_a0), which is compared with nothing, so a proof of zeros is accepted for inputs zero and any outputs. C53_partial: two answers reveal openings that satisfy the combined matrix rows for that claim. C53_sound_partial: for the verifier with the missing comparison, acceptance implies that every instance's outputs are those of the circuit for the witness read from the commitment, or some challenge lies in a set of at most six elements fixed by the transcript before it; C53_count_partial counts the bad challenge sequences; C86_checked: the repaired verifier still accepts honest proofs. Missing: the comparison (the code has none), public inputs that do not fill their half of the input layer when filled up to a power of two."
  },
  {
   "property": "C54",
   "status": "partial",
   "theorems": [
    "Zkp.Gkr.C54_actual",
    "Zkp.Gkr.C54_partial",
    "Zkp.Gkr.C54_violated",
    "Zkp.Gkr.C54_exact"
   ],
   "note": "Violated: each half is padded by the length of the other one, so the inputs are misplaced unless there are as many inputs as witness values. Proved for equal counts; C54_exact: for all values only then, or without public inputs."
  },
  {
   "property": "C55",
   "status": "proved",
   "theorems": [
    "Zkp.Gkr.C55_accepted",
    "Zkp.Gkr.C55_evaluates",
    "Zkp.Gkr.C55_gate"
   ],
   "note": ""
  },
  {
   "property": "C56",
   "status": "partial",
   "theorems": [
    "Zkp.Hx.C56_partial",
    "Zkp.Hx.C56_violated",
    "Zkp.Hx.C56_violated_verifier"
   ],
   "note": "Violated for a single instance: the matrix construction panics and no proof is accepted. Proved for two or more instances."
  },
  {
   "property": "C57",
   "status": "partial",
   "theorems": [
    "Zkp.Cp.C57_equality",
    "Zkp.Cp.C57_knowledge",
    "Zkp.Cp.C57_product",
    "Zkp.Cp.C57_log_dot",
    "Zkp.Cp.C57_log_dot_finishes",
    "Zkp.Cp.C57_violated",
    "Zkp.Cp.C57_violated_transcript",
    "Zkp.Cp.C57_dot_partial",
    "Zkp.Cp.C57_dot_exact",
    "Zkp.Cp.C57_evaluation",
    "Zkp.Cp.C57_evaluation_spartan"
   ],
   "note": "Violated for the linear-size dot product proof: the prover masks with a product where a sum is needed and hashes its commitments under labels other than the verifier's. All other commitment proofs are complete; the dot product proof is once both are repaired."
  },
  {
   "property": "C58",
   "status": "proved",
   "theorems": [
    "Zkp.Cp.C58_knowledge",
    "Zkp.Cp.C58_equality",
    "Zkp.Cp.C58_equality_value",
    "Zkp.Cp.C58_product"
   ],
   "note": ""
  },
  {
   "property": "C59",
   "status": "partial",
   "theorems": [
    "Zkp.Gkr.C59_forgery",
    "Zkp.Gkr.C59_violated",
    "Zkp.Gkr.C59_gates",
    "Zkp.Gkr.C59_partial",
    "Zkp.Gkr.C59_count_partial"
   ],
   "note": "Violated: the verifier never compares the claimed wiring values with the circuit's gates, so its verdict does not depend on them and false outputs are accepted. The partial theorems assume those values true: then wrong outputs are accepted only if a challenge hits a set of at most d elements fixed before it is drawn, so for at most m*d*|F|^(m-1) of the |F|^m challenge tapes."
  },
  {
   "property": "C60",
   "status": "proved",
   "theorems": [
    "Zkp.Gkr.C60_phase_one",
    "Zkp.Gkr.C60_phase_two",
    "Zkp.Gkr.C60_claim",
    "Zkp.Gkr.C60_reduction",
    "Zkp.Gkr.C60_operators"
   ],
   "note": "Both tables as hypercube sums against the wiring predicate, the claims of both phases, and agreement with the evaluation of the wiring predicates from the gates."
  },
  {
   "property": "C61",
   "status": "proved",
   "theorems": [
    "Zkp.C61_complete",
    "Zkp.C61_keys"
   ],
   "note": ""
  },
  {
   "property": "C62",
   "status": "proved",
   "theorems": [
    "Zkp.C62_commit",
    "Zkp.C62_proof",
    "Zkp.C62_accepted",
    "Zkp.C62_upk"
   ],
   "note": ""
  },
  {
   "property": "C63",
   "status": "proved",
   "theorems": [
    "Zkp.C63_aggregate",
    "Zkp.C63_accepted",
    "Zkp.C63_repeated"
   ],
   "note": "for at least one position (an empty aggregate is not the empty opening)"
  },
  {
   "property": "C64",
   "status": "partial",
   "theorems": [
    "Zkp.C64_violated",
    "Zkp.C64_partial",
    "Zkp.C64_repeated",
    "Zkp.C64_distinct",
    "Zkp.C64_answers"
   ],
   "note": "violated: a shorter list is filled up with zeros, a longer one is cut"
  },
  {
   "property": "C65",
   "status": "partial",
   "theorems": [
    "Zkp.C65_violated",
    "Zkp.C65_generator_violated",
    "Zkp.C65_partial"
   ],
   "note": "violated: five constants are wrong (upper limbs missing, root of unity zero) and the generator is a square; modulus, sizes and Montgomery constants are right"
  },
  {
   "property": "C66",
   "status": "proved",
   "theorems": [
    "Zkp.C66_exact",
    "Zkp.C66_codes",
    "Zkp.C66_load",
    "Zkp.C66_clink"
   ],
   "note": "decoders and verifiers are parameters; a panic is a non-zero exit of the external panic handler"
  },
  {
   "property": "C67",
   "status": "partial",
   "theorems": [
    "Zkp.C67_violated",
    "Zkp.C67_partial"
   ],
   "note": "violated: for every key cell and every public input there is an accepted proof cell carrying a trivial circuit; C67_partial says exactly when the contract succeeds"
  },
  {
   "property": "C68",
   "status": "partial",
   "theorems": [
    "Zkp.C68_violated",
    "Zkp.C68_roundtrip",
    "Zkp.C68_odd",
    "Zkp.C68_partial"
   ],
   "note": "violated: a plus sign is accepted as the first character of a pair, and some non-ASCII texts panic; round trip and odd length hold, C68_partial characterizes the accepted texts"
  },
  {
   "property": "C69",
   "status": "partial",
   "theorems": [
    "Zkp.C69_violated",
    "Zkp.C69_partial"
   ],
   "note": "violated: every image is accepted; honest runs publish the hash"
  },
  {
   "property": "C70",
   "status": "partial",
   "theorems": [
    "Zkp.C70_violated",
    "Zkp.C70_rescue_constant_output",
    "Zkp.C70_poseidon_zero_output",
    "Zkp.C70_only_constant_hashes",
    "Zkp.C70_violated_tables",
    "Zkp.C70_partial"
   ],
   "note": "violated: the public outputs are constants, also with the tables of the code over BN254 and BLS12-381"
  },
  {
   "property": "C71",
   "status": "partial",
   "theorems": [
    "Zkp.C71_violated",
    "Zkp.C71_violated_tables",
    "Zkp.C71_schedule_partial"
   ],
   "note": "full statement is C71_statement, violated, also with the tables of the code over BN254 and BLS12-381; the schedule actually used is C71_schedule_partial"
  },
  {
   "property": "C72",
   "status": "proved",
   "theorems": [
    "Zkp.bulletproofs_complete",
    "Zkp.bulletproofs_prover_succeeds"
   ],
   "note": "NoRepeat hypothesis is needed because of C32"
  },
  {
   "property": "C73",
   "status": "proved",
   "theorems": [
    "Zkp.C73_sound",
    "Zkp.C73_complete"
   ],
   "note": ""
  },
  {
   "property": "C74",
   "status": "proved",
   "theorems": [
    "Zkp.C74_binding"
   ],
   "note": ""
  },
  {
   "property": "C75",
   "status": "proved",
   "theorems": [
    "Zkp.Plonk.C75"
   ],
   "note": "For any complete commitment scheme."
  },
  {
   "property": "C76",
   "status": "partial",
   "theorems": [
    "Zkp.Plonk.C76_violated",
    "Zkp.Plonk.C76_partial",
    "Zkp.Plonk.C76_exact"
   ],
   "note": "Violated: fewer than three commitment vectors or too many public inputs panic. Otherwise no panic unless zeta = 1. C76_exact: it panics exactly in these two cases and when zeta = 1 and all eleven evaluations are given."
  },
  {
   "property": "C77",
   "status": "partial",
   "theorems": [
    "Zkp.Gkr.C77_partial",
    "Zkp.Gkr.C77_violated",
    "Zkp.Gkr.C77_exact"
   ],
   "note": "Violated: the prover panics if the layer below the outputs does not have a power of two of gates. Proved for circuits in which every layer but the last has a power of two of gates; C77_exact: the prover fails for all others."
  },
  {
   "property": "C78",
   "status": "proved",
   "theorems": [
    "Zkp.Hx.C78_matrix"
   ],
   "note": ""
  },
  {
   "property": "C79",
   "status": "partial",
   "theorems": [
    "Zkp.Spartan.C79_partial",
    "Zkp.Spartan.C79_violated"
   ],
   "note": "Violated when a public input that is zero comes before one that is not, because of C45: the verifier evaluates the input polynomial at the wrong positions and rejects an honest proof. Proved in full when zeros come last among the public inputs."
  },
  {
   "property": "C80",
   "status": "partial",
   "theorems": [
    "Zkp.Spartan.C80_partial",
    "Zkp.Spartan.C80_count_partial",
    "Zkp.Spartan.C80_forgery",
    "Zkp.Spartan.C80_violated"
   ],
   "note": "Violated: the verifier checks as many reads and writes as the proof has address evaluations (C50), so with none of them the values read are unconstrained, and an accepted proof exists for every instance with at least two entries, also unsatisfiable ones, for every hash function without zero values and the commitment of the honest encoder. C80_partial: for proofs whose four lists of claimed addresses and timestamps have three elements each, acceptance implies that the witness read from the commitment satisfies the instance, or some challenge lies in a set of bounded size fixed by the transcript before it; C80_count_partial counts the bad challenge sequences. Missing: the length check (the code has none), zero public inputs (C45), round polynomials of unbounded degree (not checked either)."
  },
  {
   "property": "C81",
   "status": "partial",
   "theorems": [
    "Zkp.Spartan.C81_partial",
    "Zkp.Spartan.C81_violated",
    "Zkp.Spartan.C81_single"
   ],
   "note": "Violated when a public input that is zero comes before one that is not (C45: an honest proof is rejected) and when no matrix has two entries (the prover panics in the empty product circuit, C51). Proved in full otherwise."
  },
  {
   "property": "C82",
   "status": "partial",
   "theorems": [
    "Zkp.C82_partial",
    "Zkp.C82_rounds",
    "Zkp.C82_injective",
    "Zkp.C82_violated"
   ],
   "note": "full statement is C82_statement; it holds over BN254, the field named in the source comment, and fails over BLS12-381, the field of all the examples"
  },
  {
   "property": "C83",
   "status": "partial",
   "theorems": [
    "Zkp.Marlin.C83_partial",
    "Zkp.Marlin.C83_few_entries",
    "Zkp.Marlin.C83_small",
    "Zkp.Marlin.C83_no_room",
    "Zkp.Marlin.C83_violated",
    "Zkp.Marlin.C83_statement_false"
   ],
   "note": "Violated: the prover fails for every assignment and all coins when no matrix has more than two entries or when there are at most two variables (a constant polynomial is refused by the commitment, C38), and when the private variables do not fit beside the input domain (C36). C83_partial: every proof that is output is accepted, for a number of inputs that is a power of two and non-zero blinding constants; the example gives a circuit, over the field with 97 elements, for which there is an output for every trapdoor."
  },
  {
   "property": "C84",
   "status": "partial",
   "theorems": [
    "Zkp.Marlin.C84_partial",
    "Zkp.Marlin.C84_malleable",
    "Zkp.Marlin.C84_violated"
   ],
   "note": "Violated: vectors of commitments after the third are neither absorbed nor read, so accepted proofs can be changed; how commitments are spread over the vectors is not checked either (C35). C84_partial: the lower bounds on everything, square matrices, the domain of the public input, and the exact number of openings."
  },
  {
   "property": "C85",
   "status": "proved",
   "theorems": [
    "Zkp.Marlin.C85",
    "Zkp.Marlin.C85_keys"
   ],
   "note": ""
  },
  {
   "property": "C86",
   "status": "partial",
   "theorems": [
    "Zkp.Hx.C86_partial",
    "Zkp.Hx.C86_shape",
    "Zkp.Hx.C86_single",
    "Zkp.Hx.C86_lengths",
    "Zkp.Hx.C86_statement_false"
   ],
   "note": "Violated: the prover panics for a single instance, for a layer whose number of gates is not a power of two, and for a layer with more gates than a layer of several values below it (C86_shape: a run that succeeds has none of these); the verifier rejects an honest proof for four inputs and three witness values (C86_lengths, a consequence of C54). C86_partial: all remaining circuits, with as many inputs as witness values."
  },
  {
   "property": "C87",
   "status": "partial",
   "theorems": [
    "Zkp.Lz.C87_partial",
    "Zkp.Lz.C87_shape",
    "Zkp.Lz.C87_inputs",
    "Zkp.Lz.C87_statement_false"
   ],
   "note": "Violated: the prover panics if a layer other than the last has a single gate or not a power of two of gates, and if the number of witness values is not half the size of the input layer (C87_shape: a run that succeeds has none of these); with fewer public inputs than witness values an honest proof is rejected (C87_inputs, a consequence of C54). C87_partial: the remaining circuits, with as many inputs as witness values."
  },
  {
   "property": "C88",
   "status": "proved",
   "theorems": [
    "Zkp.Lz.C88",
    "Zkp.Lz.C88_count"
   ],
   "note": "generators are assumed to have no linear relation, as in C44 and C80"
  },
  {
   "property": "C89",
   "status": "proved",
   "theorems": [
    "Zkp.Digest.C89_circuit",
    "Zkp.Digest.C89_params",
    "Zkp.Digest.C89_separate",
    "Zkp.Digest.C89_nizk",
    "Zkp.Digest.C89_snark",
    "Zkp.Digest.C89_encode"
   ],
   "note": "The digests are arguments of provers and verifiers; that a caller computes them from the right objects is not enforced by the code."
  },
  {
   "property": "C90",
   "status": "proved",
   "theorems": [
    "Zkp.Spartan.C90",
    "Zkp.Spartan.C90_nizk",
    "Zkp.Spartan.C90_snark"
   ],
   "note": ""
  },
  {
   "property": "C91",
   "status": "proved",
   "theorems": [
    "Zkp.TestCs.C91_path",
    "Zkp.TestCs.C91_names",
    "Zkp.TestCs.C91_values",
    "Zkp.TestCs.C91_verdict",
    "Zkp.TestCs.C91_verify",
    "Zkp.TestCs.C91_erase",
    "Zkp.TestCs.C91_panics"
   ],
   "note": "HashMap modelled as an association list searched by path; pretty printing is not modelled."
  },
  {
   "property": "C92",
   "status": "proved",
   "theorems": [
    "Zkp.TestCs.C92",
    "Zkp.TestCs.C92_sat"
   ],
   "note": "About the bytes hashed; that Blake2s does not collide on them is outside the model. Fields whose elements take more than 32 bytes make the code panic (hashBytes is none)."
  },
  {
   "property": "C93",
   "status": "partial",
   "theorems": [
    "Zkp.Ristretto.C93_partial",
    "Zkp.Ristretto.C93_violated",
    "Zkp.Ristretto.C93_serialize",
    "Zkp.Ristretto.C93_prime"
   ],
   "note": "Violated: doubling, normalization, the projective generator and the inverse of the cofactor panic for every point, and multiplication by the cofactor multiplies by 8 although COFACTOR is 0 and the group has prime order. C93_partial: everything else. C93_serialize: serialization can be read back if ark-serialize writes byte arrays without their length, else for at most one point."
  },
  {
   "property": "C94",
   "status": "partial",
   "theorems": [
    "Zkp.Contracts.C94_libra_violated",
    "Zkp.Contracts.C94_hyrax_violated",
    "Zkp.Contracts.C94_circuit",
    "Zkp.Contracts.C94_free",
    "Zkp.Contracts.C94_libra_exact",
    "Zkp.Contracts.C94_libra_partial"
   ],
   "note": "Violated: the circuit computes (w1+w2) w0 x0 + w3 x0^3 from witness w and public inputs x, so z among the public inputs is ignored and an honest proof is accepted for every x, y, z; the Hyrax contract accepts every output for public inputs zero. C94_libra_partial: an accepted Libra proof shows, up to the challenges of C88, that the committed witness gives the published output by that formula."
  },
  {
   "property": "C95",
   "status": "proved",
   "theorems": [
    "Zkp.C95_groth16_algebraic"
   ],
   "note": "Soundness in the algebraic model: provers that fix their coefficients independently of the trapdoor. The bound is by Schwartz-Zippel over the five trapdoor values."
  },
  {
   "property": "C96",
   "status": "proved",
   "theorems": [
    "Zkp.C96_simulation",
    "Zkp.C96_indistinguishable"
   ],
   "note": "Perfect zero knowledge given the trapdoor; a zero gamma or delta makes key generation panic."
  },
  {
   "property": "C97",
   "status": "proved",
   "theorems": [
    "Zkp.Cp.C97_knowledge",
    "Zkp.Cp.C97_equality",
    "Zkp.Cp.C97_product",
    "Zkp.Cp.C97_log_dot"
   ],
   "note": "Honest-verifier zero knowledge: challenges depend only on the position in the transcript. The group is cyclic of prime order (Spans)."
  },
  {
   "property": "C98",
   "status": "proved",
   "theorems": [
    "Zkp.C98_simulation",
    "Zkp.C98_indistinguishable"
   ],
   "note": "Honest-verifier zero knowledge: challenges depend only on the position in the transcript and are nonzero. The group is cyclic of prime order (Spans)."
  },
  {
   "property": "C99",
   "status": "partial",
   "theorems": [
    "Zkp.Spartan.C99_leak",
    "Zkp.Spartan.C99_extract",
    "Zkp.Spartan.C99_violated",
    "Zkp.Spartan.C99_partial"
   ],
   "note": "Violated by the code: R1CSSatProof contains w_ry, the value of the witness polynomial at the challenge point, in the clear (the verifier does not use it). C99_leak and C99_extract prove the leak, C99_violated the failure of the claim, C99_partial that nothing else is revealed: witnesses with the same w_ry give identically distributed proofs."
  }
 ]
}