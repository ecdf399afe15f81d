# Formal model of sec-bit/ckb-zkp in Lean 4 — design

This file was written before the proofs. It fixes, per property of `properties.jsonl`, what is
modelled and how it is proved. Section 5 ("Results and disagreements") is kept current while the
model grows.

## 1. Layout

* `lean/Verif/Model/*`  – the model: one Lean function per Rust function, each definition citing
  the file and lines in `/repo` it models.
* `lean/Verif/Spec/*`   – small independent specifications (FIPS 180-4, RFC 7693, multilinear
  extension, Boolean functions, …). They never mention the model.
* `lean/Verif/Proof/*`  – helper lemmas.
* `lean/Verif/Props/*`  – the property theorems `Cnn_…`, each with an `example` showing that its
  hypotheses are met by a concrete non-trivial case.

## 2. Modelling conventions

* Fields: an arbitrary `Field F` (with decidable equality where the code compares), or `ZMod p`
  with `p` prime where the code uses the integer representation of elements (`into_repr`,
  `CAPACITY`). `CAPACITY` is a parameter `cap` with `2^cap ≤ p`.
* Groups of the proof systems: modules over the scalar field; a pairing is a bilinear map into a
  third module (written additively). Group addition/scalar multiplication/multi-scalar
  multiplication of arkworks are assumed to be these operations; the multi-scalar multiplication is
  modelled with its real truncation to the shorter argument.
* Fiat–Shamir transcripts (merlin): the transcript is the list of absorbed messages, a challenge is
  an arbitrary function of that list ("for every challenge function"). Byte encodings of group
  elements and scalars are not modelled: the message carries the value itself.  The number of bytes
  asked for (31 or 32, also absorbed by merlin) is not modelled either; the prover and the verifier ask
  for the same number at corresponding places (compared by reading), and only 31 bytes are used (C108).
* FFT / inverse FFT / vanishing-polynomial helpers of arkworks: assumed to be evaluation /
  interpolation on the domain.
* Randomness is an explicit argument, universally quantified.
* `&mut` arguments become returned values; `Result` is `Except`/`Option`; a panic (index out of
  range, failed assertion, arithmetic underflow in a debug build, `unwrap` of nothing) is an
  explicit error value.
* Constraint systems: the state holds the allocated values and the ordered list of emitted
  constraints. *Soundness* statements quantify over **every** assignment `w` of field elements to
  variables (with `w one = 1`) which satisfies the emitted constraints, not only the honest one.
  *Completeness* statements say that the assignment recorded during synthesis satisfies them.
* Annotation strings and namespaces do not influence the constraints and are not modelled (except
  where a property is about them).

## 3. Trusted base

* the Lean 4.33.0 kernel and Mathlib; axioms used: only `propext`, `Classical.choice`, `Quot.sound`
  (checked with `#print axioms`, no own axioms, no `sorry`, no `native_decide`/`bv_decide`);
* the reading of the Rust source: the code is not executed here; every definition cites its source;
* the external behaviour listed in section 2 (arkworks fields, groups, pairings, FFT; merlin
  transcript as a function of the absorbed messages; serde of primitive integers).

Not modelled: performance, parallel iterators (treated as sequential maps), `no_std` variants,
randomness quality, serialization of group elements, hardness assumptions (no probabilistic or
computational security notion is formalised; soundness properties are either exact algebraic
statements or refuted by an explicit forged proof).

## 4. Plan per property

| id | model | proof |
|----|-------|-------|
| C01 | `LinearCombination` operators on lists of (variable, coefficient), with the real `get_var_loc` (linear scan below 6, binary search above) | evaluation homomorphism by case analysis/induction |
| C02 | same | `Sorted` invariant over operator sequences |
| C03 | same | expected false (short lists return "not found" always): negation with witness + partial theorem for lists of at least 6 terms |
| C04 | byte encoder/decoder of `Index` | round trip, injectivity; decoder also accepts non-canonical tags (noted) |
| C05 | `ConstraintVar` operators | evaluation laws |
| C06, C07, C09 | allocation and all gates of `boolean.rs` in a state monad over the constraint system | soundness for every satisfying assignment; completeness as invariant of the synthesised assignment |
| C08 | `enforce_equal` | iff over all assignments |
| C10 | bit decomposition helper | expected false: satisfying assignment with different bits; partial: bits are Boolean |
| C11 | `UInt32` | refinement to `BitVec 32` |
| C12, C13 | `MultiEq` state machine and `addmany` | invariant: pending sides are bounded by `2^bits_used`; backward propagation of satisfaction |
| C14, C15 | SHA-256 compression and padding | loop invariants over rounds, refinement to a FIPS 180-4 spec |
| C16 | BLAKE2s | same, refinement to RFC 7693 |
| C17, C18, C19, C20 | MiMC native and circuit, hash interface, exponentiation circuit | induction over rounds; counterexamples where unlinked |
| C21, C22 | lookup tables | algebra; counterexample for the 1-bit table |
| C23 | `RangeProof` | exact characterisation of satisfiability; counterexample for the integer reading |
| C24 | `AllocatedFr` | iff |
| C25–C27 | CBMT | induction on the heap indices / queue invariant |
| C28 | Merkle circuit | explicit satisfying assignment for a non-member |
| C29–C31 | QAP reduction with Lagrange basis, generator, prover, verifier | polynomial identities, bilinearity |
| C32–C34 | sparse/dense conversion, inner-product argument, verifier | witness of coefficient loss, induction over folding, explicit forged proof; for C34 also `C34_knowledge_partial`: N·(3n+1)·11 accepted proofs with the same messages before each challenge, which satisfy the check that is missing in the code, give a satisfying assignment (read off by an extractor that sees only the vectors `l_x` of eleven runs) or a relation between the generators (Lagrange interpolation in x, then vanishing in z and y) |
| C35–C39 | Marlin matrix code, KZG10, verifier transcript layout | counting lemmas, bilinearity, explicit forged proof |
| C40–C43 | Plonk composer, permutation, quotient split, verifier layout | invariants over gate sequences, explicit forged proof |
| C44–C52 | Spartan polynomial helpers, matrices, memory checking, product circuit, sum-check, verifier | induction, multiset arguments, explicit forged proof; for C44 also soundness of the verifier with the missing check (`C44_partial`): commitments are read by linear functionals that exist because the generators are independent, and every step either keeps a false claim false or hits a set of at most six challenges |
| C53–C58 | Hyrax / commitment proofs | algebra; explicit forged proof; for C53 also `C53_sound_partial` and `C53_count_partial`: `Spec/HyraxChecked.lean` is the verifier with the missing comparison of `comm_a0` with the claim, and for it each layer is a sum-check over all instances whose round polynomials are read from the commitments by linear forms; sets of at most six bad challenges for each state of the transcript |
| C59, C60 | Libra | algebra; explicit forged proof; soundness of the sum-check rounds and of the layer reduction under the hypothesis `TrueWiring` (the values the proof gives for the wiring predicates are those of the circuit): every accepted run with wrong outputs contains a challenge in a set of at most `d` elements that depends only on what was said and drawn before (`C59_partial`); as a count of challenge tapes for the interactive protocol (`C59_count_partial`) |
| C61–C64 | vector commitment (Lagrange form over roots of unity) | polynomial identities, counterexample |
| C65 | constants | kernel computation on the complete constant table |
| C66–C69 | contract decision logic, CLI helpers | case analysis, round trip, counterexample |
| C70, C71 | Rescue/Poseidon circuits: outputs, round schedule | symbolic run of the constraint generators; with the tables of the code (`Model/HashTables.lean`) by evaluation on representatives |
| C72 | Bulletproofs prover and verifier | polynomial identity in the challenge, bilinearity |
| C73 | CLI mini circuit | exact characterisation of satisfying assignments |
| C74 | vector commitment | two openings give a solution of the strong Diffie–Hellman relation |
| C75, C76 | Plonk prover and verifier | quotient identity on the coset, linearisation; case analysis of error values |
| C77 | Libra prover and verifier | sum-check completeness, gate tables |
| C78 | Hyrax matrix | linear algebra of the combined rows |
| C79 | Spartan NIZK prover (`Model/SpartanProver.lean`) and verifier | the prover run is followed step by step; each sub-proof is accepted by its completeness lemma on the same transcript, and the tables of both sides are shown equal |
| C80 | Spartan SNARK verifier (`Model/SpartanSnark.lean`) with `encode` | explicit forged proof, built with the completeness lemmas of the product circuits and openings; for proofs with lists of the right lengths (`C80_partial`): transcript phases (`Proof/Phases.lean`), layered product circuits (`Proof/SnarkLayers.lean`), multiset fingerprints (`Proof/SnarkHash.lean`), openings (`Proof/SnarkEval.lean`), memory checking with C49 (`Proof/SnarkSparse.lean`), joined with the satisfiability argument of C44 |
| C81 | `encode` and the Spartan SNARK prover (`Model/SpartanSnarkProver.lean`) with the verifier | both runs are followed step by step; the product circuits give the extensions of the hash lists, the folded openings those of the committed lists, and the sum over the entries is the evaluation of the matrix |
| C82 | the two exponents and `halfRound` (`Model/Rescue.lean`) | Fermat with `bnR` proved prime by Lucas certificates (`Proof/BnPrime.lean`); injectivity by induction over the half-rounds |
| C83 | `Model/MarlinProver.lean`: the three prover rounds and `createProof`, with all coins as parameters | identities of the rounds as polynomials (`Proof/MarlinHonest.lean`), the verifier run forwards (`Proof/MarlinForward.lean`) with KZG completeness; a whole circuit over the field with 97 elements for the example (`Proof/MarlinEx97.lean`); violations by running the prover to its first refused commitment |
| C84 | `verifyProof` | inversion of the verifier; forwards again with one more vector appended |
| C85 | `ahpIndex`, `index`, `maxDegree` | totality of the look-ups for allocated variables; degree bounds of the indexed polynomials |
| C86 | Hyrax's prover (`Model/HyraxProver.lean`) with the verifier and `Parameters::new` | the three sum-checks of a layer give round polynomials that satisfy the verifier's matrix (`Proof/HyraxProve.lean`–`HyraxZk.lean`), layers by induction (`HyraxLayers.lean`), the input layer by the opening's completeness; inversion of the prover for what it requires (`C86_shape`) |
| C87 | Libra's hiding protocol (`Model/LibraZk.lean`): `ZKSumCheckProof`, `ZKLinearGKRProof` | hiding rounds (C52), the tables of a layer (C60), product and equality proofs (C57), layers by induction (`Proof/LibraZk.lean`), the input layer as in C86; inversion of the prover for what it requires (`C87_shape`) |
| C88 | Libra's hiding verifier (`zkVerifyRun` in `Model/LibraZk.lean`) | reading commitments by linear functionals, transcript phases (`Proof/Phases.lean`): outputs, the two sum-checks, the product and the equality proof of a layer, layers by induction, the two openings of the input layer (`Proof/LibraZkSound.lean`); the number of challenges is determined on the way, so `C88_count` needs no assumption on it |
| C89 | `Model/Digests.lean`: what `circuit_to_hash`, `param_to_hash`, `encode_to_hash` absorb | a stream is parsed back: every list of items is followed by an item with another label; equal digests under every hash function mean equal streams |
| C90 | `Model/SpartanSetup.lean`: parameter generation from a stream of random points | a row of a matrix has at most one entry per variable (`switch_matrix_to_list` merges), so the entries number at most the cells; the draws are consecutive; then C79 and C81 |
| C91 | `Model/TestCs.lean`: `TestConstraintSystem` with names, namespaces, `set`/`get`, verdict | an invariant of every sequence of operations (`Ok`) relating the path map to the three lists; a path determines its namespace because names without slashes are joined by slashes. `num_constraints` of the trait is `todo!()` and `pretty_print` only prints; neither is modelled |
| C92 | `Model/TestCs.lean`: `proc_lc`, `hash_lc`, `hash` as the bytes given to Blake2s | `proc_lc` is the unique ascending list without zeros with the same coefficients; every part of the byte string has a length known from the part before it |
| C93 | `Model/Ristretto.lean`: the `Curve` of curve25519 over a module over the integers modulo ℓ, with the byte conversions of scalars | the bytes of a scalar determine it; ℓ is prime by Lucas certificates (`Proof/EllPrime.lean`) |
| C94 | `Model/GkrContracts.lean`: `main` of the Libra and Hyrax contracts with their circuit | evaluation of the fixed circuit; C66 for the exit code, C87 for the accepted honest proof, C88 for what acceptance shows, C53 for Hyrax |
| C95 | `Model/Groth16.lean`; algebraic provers in `Spec/Groth16Alg.lean` | the verifier's equation times γδ is a polynomial in the five trapdoor values of degree at most 3n+1 (`identity`); comparing coefficients, it vanishes only if the `l_query` coefficients of C are a witness (`extract`); Schwartz–Zippel counts the zeros |
| C96 | `Model/Groth16.lean` | A and B are affine in r, s with slope δ ≠ 0, and C is the only point that satisfies the equation (`createProof_eq`) |
| C97 | `Model/CommitProofs.lean`; `Spec/Hiding.lean` for fixed challenges and a generating `h` | each proof is inverted for its random values; for the folding loop `bulletLoop_blinds` shows that the blinding values only shift L and R |
| C98 | `Model/Bulletproofs.lean` | the messages of the prover as functions of its random values (`prove_run`), inverted: the blinding vectors `sL`, `sR` make the opened vectors arbitrary, and S and T_2 are what the two equations of the verifier leave (by completeness, C72) |
| C99 | `Model/SpartanProver.lean` | a run with challenges fixed beforehand depends on the transcript only through its length (`Proof/HidingRun.lean`); for each sub-proof, random values with one opening are turned into random values with another opening of the same commitments, and different random values give different messages; the steps are put together in `Proof/SpartanHidingSame.lean` |
| C100 | `Model/LibraZk.lean`, `Model/HyraxProver.lean` (`inputProve`) | as C99: the two sum-checks, the product proof and the equality proof of a layer for two openings of the same commitments (`Proof/LibraHiding.lean`), induction over the layers (`Proof/LibraHidingLayers.lean`), the claims about the input layer (`Proof/HidingInput.lean`); the random scalars of the statement are the finite lists of `Spec/LibraDraw.lean`, since the functions of the model also have values at positions that are never read |
| C101 | `Model/HyraxProver.lean` | with challenges fixed beforehand the committed polynomials and evaluations of a layer do not depend on the random scalars (`Proof/HyraxHidingZk.lean`); for layers of equal size the random scalars with one list of witnesses are turned into those with the other layer by layer (`HyraxHidingSame`, `HyraxHidingLayers`, `HyraxHidingRun`); for a narrowing layer two evaluation commitments have the same blinding factor (`HyraxHidingLeak`) |
| C102 | `Model/Plonk.lean` | inversion of a successful run of the prover gives the first commitments and the evaluations of the wires; a circuit with two assignments over 17 elements gives the negation for every complete commitment scheme, also one whose commitments are all equal. That committing is deterministic without a hiding bound is taken from `ark_poly_commit` (trusted base) |
| C103 | `Model/SpartanSnarkProver.lean`, `Model/SpartanProver.lean` | the first part as for C99, from a transcript of another length; the rest of the prover gives equal results on transcripts of equal length (`Proof/LenOnly.lean`) and does not use the witness |
| C104 | `Model/HashTables.lean` (the tables, copied mechanically from the source), `Model/Rescue.lean` | sizes, entries and minors by kernel evaluation of the whole tables; that nonzero minors give the branch number, and injectivity of the powers from inverse exponents, for all states |
| C105 | `Model/MarlinProver.lean`, `Model/Kzg.lean`, `Spec/MarlinHiding.lean` (what coins can be drawn, when two proofs are the same to the verifier) | an explicit involution-like map of the coins (`Proof/MarlinTwin.lean`) moves blinding factors, mask and blinding polynomials so that commitments, values at beta, and opening witnesses stay; the two runs are then compared step by step (`Proof/MarlinTwinRun.lean`, `Proof/MarlinTwinEq.lean`). Not covered: coins for which one of the runs fails, and a zero blinding factor of `z_a` or `z_b`, where the degree of the masked product drops |
| C106 | `Model/Bulletproofs.lean` (`ippVerify`), `Spec/Rewind.lean` (a prover that can be asked again) | the verifier's equation is rewritten round by round; per round the coefficients of `L`, `P`, `R` are interpolated from three challenges, compared at the fourth, and a cubic with four zeros gives the shape of the replies; induction on the rounds |
| C107 | `Model/Hyrax.lean` `inputVec`, `inputVerify`, `verify` | multilinear extension of a concatenation; a run of the verifier is carried over to another start of the transcript (`Moves`), so the honest proof of `C86_checked` for a hash function shifted to that start is accepted for the other inputs |
| C108 | `Model/Challenge.lean` `randomBytesToFr` over `fromRandomBytes` of `ark-ff` (mask of the spare bits, nothing if not reduced) | bounds and uniqueness of the little-endian number; injection for the count |
| C109 | `Model/Challenge.lean` `fromSeed`, `absorb` over an arbitrary hash function | induction from the last hash back; the old seed has a fixed length, so both parts of the hashed string are determined |
| C110 | `Model/CliTool.lean` `setupMain`, `proveMain`, `verifyMain` over abstract library functions on bytes, a map from names to files, and proof files as records | the runs of both circuits with and without values side by side (`Proof/CliCircuits.lean`: same constraints and sizes, no repeated variables); round trips of hexadecimal and decimal text; file names differ by their endings |
| C111 | the same | case analysis on the names; the trivial circuit of C67 for the violation |
| C112 | the same; outcome `ok`/`err`/`panic` and exit status | case analysis on the argument list |
| C113 | `Model/Backends.lean`: a circuit as a tree of calls `Prog`, the seven implementations of `ConstraintSystem` as backends with their own states; `Prog.toSynth` is the run on the `CS` that the gadgets use in this model | induction on the circuit with relations between the states (`SameOn`, `SameOff`, `shape_sim`); also justifies the use of the one system `CS` for all schemes |
| C114 | the verifiers of C31, C34, C35, C44, C80 | the two padded lists are equal, and the evaluation of the input polynomial skips zeros; for Marlin the forged proof of C35 with lists of other lengths |
| C115 | `MerkleExample` (the circuits of the two examples, the SHA-256 outputs) | the gadget for any hash that computes correctly and leaves its output free, both instances; honest run up to the last level, there any value |
| C116 | `Plonk` (`keygen`, `prove`, `verify`) | the constants of two idle gates are changed by a polynomial of degree n-1 that vanishes at the challenge and on all other rows; C75 gives the polynomials of the honest proof |
| C117 | `MarlinBytes` (`IndexInfo.write`, `VerifierKey.write`, `Commitment.write`, `IndexVerifierKey.write`, `finalSeed`) | parts of fixed length are split off; the number of commitments is written before them; C109 for the chain of hashes |
| C118 | `Groth16.verifyProof`, `Marlin.verify`, `Plonk.verify` | explicit changes that leave the verdict the same; uniqueness from the bilinear equation and the non-degenerate pairing |
| C119 | `Plonk.keygen`, `Plonk.index`, `Accepted` | a prover with two different values on the wires of one variable, accepted for all challenges; C43_partial for distinct labels |
| C120 | `Bp.verifyProof`, `startTr`, `tTr`, `xTr` | a run with other matrices is a run of the honest proof for a hash function that replaces them; the flattened matrices are cut into rows by the hashed sizes |
| C121 | the verifiers of all systems but Plonk (C76) and the ASVC crate | the first failing step is computed for a proof with too few entries; for Hyrax and Libra every step of the verifier can stop only by a panic |
| C122 | `Kzg.pcCommitRng`, `commitRng`, `drawPoly` (`Verif/Model/KzgRng.lean`) | the source is an infinite sequence of field elements with a position; induction on the list of polynomials, reducing to `pcCommit`, where the drawn polynomials are arguments |
| C123 | `TestCircuits.large`, `small`; the provers and verifiers of Hyrax and Libra | the circuits meet the hypotheses of C77, C86 and C87; also a check of the model against tests that are known to pass |
| C124 | `Cli.mini` (the circuit of the `mini.rs` tests), `TestR1cs.demo`; the systems of C30, C72, C90, C83 | the runs with and without values are computed; then the completeness theorems, C83 for the negative statement |

Every property can be expressed in the model. Where the code violates the property the file proves
the negation with a concrete witness (`Cnn_violated…`) and a theorem `Cnn_…_partial` for the part
that does hold.

## 5. Results and disagreements

The status of each property and the exact theorem names are in `MANIFEST.json`. This section lists where the
code does not do what the property says, the trusted interfaces of single parts, and limits of the theorems.

### 5.1 Properties the code violates

For each of them a theorem proves the negation with a concrete witness, and `_partial` theorems prove what
does hold.

| id | where | what happens |
|----|-------|--------------|
| C03 | `r1cs/src/impl_lc.rs` `get_var_loc` | below six terms "found" is never reported, so repeated variables stay repeated |
| C10 | `gadgets/src/algebra/boolean.rs` bit decomposition | bits are Boolean but not tied to the field element |
| C18 | `gadgets/src/hashes/mimc.rs` | trailing zero bytes, short last pieces, non-canonical pieces and the empty input collide |
| C19 | `gadgets/src/hashes/*` `hash_enforce` | the output variables are not constrained at all |
| C20, C70 | Rescue/Poseidon power circuits | the circuit assigns zero to every power, so the published outputs are constants |
| C22 | `gadgets/src/lookup/table.rs` `lookup1_x` | the table entries are unconstrained witnesses |
| C26 | `gadgets/src/merkletree/cbmt.rs` | without overflow checks positions near 2^32 wrap around and give proofs of inner nodes; `C26_unchecked` says which |
| C28 | Merkle circuit | as the hash output is unconstrained (C19), any root is accepted |
| C32 | `bulletproofs` constraint matrices | a variable mentioned twice in a combination keeps only its last coefficient; a row is right exactly when the earlier terms of every variable cancel (`C32_exact`) |
| C34 | `bulletproofs` `verify_proof` | the inner product of `l_x` and `r_x` is not compared with `t_x`, nor the commitment of the inner-product proof with `P`: forgery for every circuit; `C34_knowledge_partial` shows that comparing `t_x` with the inner product would be enough |
| C35 | `marlin/src/lib.rs` `verify_proof` | the proof decides how commitments are spread over the rounds: forgery |
| C36 | Marlin indexer and prover | variables are placed differently when the number of inputs is not a power of two, and only then (`C36_exact`) |
| C37 | Marlin `balance_matrices` | underflow aborts in builds with overflow checks, for every circuit whose left factors have more terms than the right ones and no other (`C37_exact`) |
| C38 | Marlin KZG10 | constant polynomials are refused; the largest accepted hiding bound is mishandled |
| C43 | `plonk/src/lib.rs` `verify` | as C35: all commitments may be put into the last round: forgery |
| C44 | `spartan/src/verify.rs` `verify_nizk_proof` | the matrices are evaluated at a point from the proof that is not compared with the challenges: forgery |
| C45 | `spartan` `sparse_evaluate_value` | zero inputs are skipped without advancing the position; the value is right at every point exactly when no zero comes before a nonzero value (`C45_exact`) |
| C47 | `spartan/src/r1cs.rs` `r1cs_to_hash` | row boundaries are not hashed; everything else is (`C47_exact`) |
| C50 | `spartan/src/verify.rs` `behind_verify_for_timestamp` | the number of checked reads is taken from the proof |
| C51 | `spartan/src/spark.rs` product circuit | lists of length zero and one panic |
| C53 | `hyrax` verifier | each layer's claim comes from the proof and is compared with nothing; `C53_sound_partial` shows that comparing it with the verifier's claim would be enough, for public inputs that fill their half of the input layer |
| C54 | `libra`/`hyrax` `circuit.rs` `evaluate` | each half of the input layer is padded by the length of the other half; right for all values exactly when the lengths agree or there are no inputs (`C54_exact`) |
| C56 | `hyrax` `construct_matrix` | a single instance panics |
| C57 | `hyrax`/`libra` `DotProductProof` | product in place of a sum, and prover and verifier hash different messages |
| C59 | `libra` `LinearGKRProof::verify` | the wiring values of the proof are not compared with the gates: forgery |
| C64 | vector commitment | shorter lists are filled with zeros, longer ones cut |
| C65 | `curve25519/src/fr.rs` constants | five constants are wrong, the generator is a square |
| C67 | `ckb-contracts/contracts/mini_bulletproofs_verifier` | a trivial circuit is accepted for every key and input |
| C68 | CLI hex decoder | a plus sign is accepted in a pair; non-ASCII text may panic |
| C69 | CLI hash circuit | every image is accepted |
| C71 | Poseidon | all rounds but one are full rounds |
| C76 | `plonk/src/lib.rs` `verify` | short proofs and too many public inputs panic; `C76_exact`: these and ζ = 1 with all evaluations present are the only panics |
| C79 | `spartan/src/verify.rs` `verify_nizk_proof` | because of C45 an honest proof is rejected when a public input that is zero comes before one that is not |
| C80 | `spartan/src/verify.rs` `behind_verify_for_timestamp`, `hash_layer_verify` | a proof with empty lists of address and timestamp evaluations has no read or write checked; an accepted proof exists for every committed instance with at least two entries |
| C81 | `spartan/src/verify.rs` `verify_snark_proof`, `spartan/src/prover.rs` `sparse_poly_eval_proof` | honest proofs are rejected when a public input that is zero comes before one that is not (C45); the prover panics when every matrix has at most one entry (C51) |
| C82 | `gadgets/src/hashes/rescue.rs` `INVALPH` | the exponent is the inverse of 5 only modulo the order of BN254's scalar field; over BLS12-381, which `gadgets/examples/rescue_groth16.rs` and `rescue_spartan.rs` use, it is not, so the odd half-rounds are not fifth roots |
| C83 | `marlin/src/lib.rs` `create_random_proof` | circuits with at most two entries in every matrix, or at most two variables, cannot be proved at all: a polynomial of the third (or second) round is constant and `pc` refuses it; nor circuits whose private variables do not fit beside the input domain |
| C84 | `marlin/src/lib.rs` `verify_proof` | vectors of commitments after the third are neither absorbed nor read, so anybody can change an accepted proof |
| C86 | `hyrax/src/zk_sumcheck_proof.rs` `prover`, `hyrax_proof.rs` | panics for one instance (C56), for layers without a power of two of gates (`assert_eq!(temp_vec.len(), gates.len())`) and for layers that are wider than a layer of at least two values below (`r_alpha_eval_vec[log_n + log_g + j]` with the `log_g` of the wrong layer); with different numbers of inputs and witness values honest proofs are rejected (C54) |
| C87 | `libra/src/libra_zk_linear_gkr.rs`, `sumcheck.rs` | panics for a layer of one gate below another (`blind_evals[bit_size - 1]`), for layers without a power of two of gates, and unless the number of witness values is half the input layer; with fewer inputs honest proofs are rejected (C54) |
| C93 | `curve25519/src/group.rs` | `double`, `batch_normalization`, `is_normalized`, the projective `prime_subgroup_generator`, `mul_by_cofactor_inv` panic; `mul_by_cofactor` multiplies by 8. `serialize` goes through `ark-serialize`'s encoding of byte arrays: should it write the length first, as for slices, then `deserialize`, which reads 32 bytes, does not give the point back |
| C94 | `ckb-contracts/contracts/mini_libra_zk_linear_gkr_verifier`, `mini_hyrax_zk_linear_gkr_verifier` | the circuit is not `x * (y + 2) = z`: three of the four public inputs are not used; the Hyrax contract accepts any output for inputs zero (C53). Both call `verify` with four arguments where the crates want six; the model passes the digests |
| C99 | `spartan/src/prover.rs:378, 410` `r1cs_satisfied_prover` | the proof contains `w_ry`, the value of the witness polynomial at the challenge point, in the clear; the verifier does not use it. For a circuit with one auxiliary variable the witness can be computed from every proof |
| C101 | `hyrax/src/zk_sumcheck_proof.rs:431` `ZkSumcheckProof::prover` | the third sum-check takes the blinding factors of its evaluations from position `log_n + log_g + j` with `log_g` the size of the layer above; the second one uses positions `log_n + j`, `j < log_ng`. If the layer is smaller than the one below, factors are used twice and the difference of two commitments in the proof is a multiple of the generator that depends on the witness only. With one squaring gate the proofs tell witness 3 from witness 14 in the field with 17 elements |
| C102 | `plonk/src/ahp/prover.rs:97-133`, `plonk/src/utils.rs:61-63` | the wire polynomials are not blinded and no polynomial has a hiding bound, so the `zk_rng` given to `prove` hides nothing: the proof is a function of the assignment and holds the values of the wire polynomials at a challenge |
| C103 | `spartan/src/prover.rs:378, 410` `r1cs_satisfied_prover` | as C99, for the SNARK: `w_ry` is sent in the clear |
| C107 | `hyrax/src/hyrax_proof.rs:285-291` `verify` | the public inputs of an instance are padded to their own power of two, not to the width of the layer, so the next instance's inputs follow too early; `C107_accepts` gives a false statement that is accepted |
| C109 | `marlin/src/fs_rng.rs`, `plonk/src/rng.rs` | `from_seed` and `absorb` hash in the same way, so a longer first string can stand for a string and an `absorb`; nothing else is confused without a collision (`C109_exact`) |
| C111 | `cli/src/zkp_verify.rs` | with Bulletproofs the circuit comes from the proof file's proof bytes, so every statement is accepted with a proof of `1 · 1 = 1` |
| C112 | `cli/src/setup.rs`, `zkp_prove.rs`, `zkp_verify.rs` | `args[2]`, `args[3]` are read after a check for one argument only (panic); a rejected proof ends with exit status 0 |
| C114 | `spartan/src/verify.rs:113-117`, `marlin/src/ahp/verifier.rs:145-147` | the number of public inputs is not compared with the circuit's: Spartan fills up with zeros, Marlin takes the domain from the list |
| C115 | `gadgets/examples/merkle_tree_sha256.rs`, `merkle_tree_mimc.rs` | consequence of C19: any root is accepted for any leaf and any path |
| C116 | `plonk/src/lib.rs:100-101,212-213` | the verifying key is not absorbed: a circuit that cannot be satisfied is found for a finished proof (Marlin absorbs its key, `marlin/src/lib.rs:106,189`) |
| C118 | `groth16/src/verifier.rs:18-44`, `marlin/src/lib.rs:191-200`, `plonk/src/lib.rs:206-290` | accepted proofs can be changed by anybody: Groth16 by re-randomisation, Marlin and Plonk by vectors of commitments after the third |
| C119 | `plonk/src/lib.rs:61-92` | keygen accepts multipliers whose cosets overlap, and the copy constraints no longer bind |
| C120 | `bulletproofs/src/arithmetic_circuit.rs:117-125, 614-761` | the matrices that are hashed are not compared with the sparse maps that are checked |
| C121 | `marlin/src/lib.rs:191`, `bulletproofs/src/inner_product_proof.rs:123`, `spartan/src/verify.rs:304`, `hyrax/src/hyrax_proof.rs:302-351`, `libra/src/libra_zk_linear_gkr.rs:311-465`, `libra/src/libra_linear_gkr.rs:135` | malformed proofs abort the verifier; Hyrax and zero-knowledge Libra abort on every proof that they do not accept |
| C122 | `marlin/src/pc/mod.rs:39-55`, `marlin/src/pc/optional_rng.rs:13-35` | without a randomness source a hiding polynomial aborts; `MissingRng` is never returned |
| C77 | `libra` prover | a layer without a power of two of gates (other than the last) panics; all other circuits are proved (`C77_exact`) |

Notes on proved properties: C23 needs operands below `2^n` to be read as integers
(`C23_operands_not_bounded`); C27 needs the number of siblings to be known (`C27_length_needed`); C63 speaks
about at least one position; C72 needs combinations without repeated variables because of C32.

### 5.2 Interfaces that are assumed, not modelled

* `Domain` (`Model/Domain.lean`): a primitive root of unity, its order, a coset shift; FFTs are evaluation and
  interpolation by their formulas. `MkOk` states what is assumed of `GeneralEvaluationDomain::new`: the size is
  a power of two and at least the requested one.
* `reindex_by_subdomain` of `ark_poly` is modelled by its formula (cited in `Model/Marlin.lean`).
* Marlin's prover (`Model/MarlinProver.lean`): `DensePolynomial` is `F[X]`, the length of its coefficient vector is
  the degree plus one, products by FFT are products of polynomials, and all random draws are parameters.
* Hyrax's prover (`Model/HyraxProver.lean`): loops over gates and cells are sums; blinding values are functions of the
  position in their vector; `rng` draws are parameters. The same holds for Libra's (`Model/LibraZk.lean`).
* Plonk's polynomial commitment is a parameter; completeness needs `PC.Complete`, soundness an ideal scheme.
  Marlin's own KZG10 (`marlin/src/pc`) is modelled.
* Random generators and transcripts (`Oracle`, `FsRng`) are arbitrary functions of the absorbed messages, so
  completeness theorems hold for every hash function and forgeries work for every hash function.
* Soundness theorems are algebraic: special soundness (two answers to one commitment reveal the opening), or
  "acceptance for more challenges than a degree bound implies the statement". No probabilities are modelled.
* The decoders in the contracts are parameters (C66, C67). `from_str_radix` of `core` is modelled from its
  documentation (C68).
* `curve25519-dalek`: the Ristretto group is a module over the integers modulo ℓ, its compressed encoding has 32 bytes and can
  be decompressed; scalars are read from bytes in little-endian order (C93).
* `Field::from_random_bytes` of `ark-ff` for four limbs: zero fill, mask of the spare bits, nothing if not reduced (C108).
* `serde_json`, the file system (a write is visible to later reads, writes do not fail) and the decimal text of `u64` in `core` (C110–C112).
* `sha2::Sha256` of `gadgets/examples/merkle_tree_sha256.rs` (C115, completeness only): it is the SHA-256
  of the standard (`Spec/Sha256`).
* `ToBytes` of field elements and points (C117): injective, all values of a type with the same number of bytes; vectors without length, integers little endian.
* `HashMap` iteration order is an arbitrary permutation, `BTreeMap` order is ascending.

### 5.3 Mutation testing

`seeded/LOG.jsonl` holds one line per deliberate change of the model: the definition, the change, the claim
it is meant to break, the declarations that stopped checking, and theorems added or tightened afterwards. When
a helper lemma stops checking, the modules that import it are not built either, so the listed declarations are
the first ones to fail. Changes after which everything still checked are listed with an empty list and a note
saying either what was tightened or why no claim is affected.

Two limits of this evidence. A listed declaration shows that its proof depends on the edited text; where only
helper lemmas under `Proof/` are listed, it was not shown separately that the property theorem became false.
And a change after which the model itself does not elaborate tests no theorem: eight early entries (`b1/u-enf`,
`b2/bl-empty`, `b2/rp-out`, `b3/g-c`, `b5/sv-inp`, `b5/ss-dotp`, `b5/la-vl2`, `b5/hx-pow`) were of this kind and
had been listed as caught. They are now marked `invalid` with an empty list, and are repeated as batch `b10`.

## 6. Index of the properties

One row for each property: the file under `lean/Verif/` with its theorems, and what they say. The exact names are in
`MANIFEST.json`. A status `partial` always means that the code violates the property: its negation is proved, and the
theorems named `_partial` or `_exact` say how far it does hold.

| id | property | status | file | what is proved |
|----|----------|--------|------|----------------|
| C01 | Linear-combination arithmetic is exact | proved | `Props/R1cs` | every operator evaluates to the exact field result, for all combinations and assignments |
| C02 | Linear combinations stay sorted | proved | `Props/R1cs` | induction over everything buildable from the public operators |
| C03 | Repeated variables are merged | partial | `Props/R1cs` | the property is false of the code below six terms (witness proved); merge/add of duplicate-free combinations and additions from six terms on are proved |
| C04 | Variable index encoding round-trips | proved | `Props/R1cs` |  |
| C05 | Mixed variable/combination operands are exact | proved | `Props/R1cs` |  |
| C06 | Boolean gates are sound | proved | `Props/Boolean` | every satisfying assignment, every operand form |
| C07 | Boolean gates are complete | proved | `Props/Boolean` |  |
| C08 | Boolean equality enforcement | proved | `Props/Boolean` |  |
| C09 | SHA-256 choice and majority gates | proved | `Props/Boolean` |  |
| C10 | Field-element bit decomposition is binding | partial | `Props/Boolean` | the full statement is C10_statement; the code does not bind the bits to the field element (witness proved); only booleanity and honest-run values are provable |
| C11 | 32-bit word operations have machine semantics | proved | `Props/UInt32` |  |
| C12 | Multi-operand addition is addition modulo 2^32 | proved | `Props/UInt32` | prime fields; the adder may share its batcher with other equalities |
| C13 | Batched equality enforcement is exact | proved | `Props/UInt32` | arbitrary sequences of equalities and constraints, induction over the sequence |
| C14 | SHA-256 compression circuit computes FIPS 180-4 | proved | `Props/Sha256` | prime fields of at least 64 bits; specification is FIPS 180-4 with constants derived from primes |
| C15 | SHA-256 circuit computes SHA-256 of the whole message | proved | `Props/Sha256` | every message length |
| C16 | BLAKE2s circuit computes RFC 7693 | proved | `Props/Blake2s` | every message length, every personalization; specification is RFC 7693 |
| C17 | MiMC circuit is bound to the MiMC function | proved | `Props/Mimc` | all fields, all 322 round constants; the circuit covers the last block, with the chaining value as its left input |
| C18 | Native MiMC hash separates inputs | partial | `Props/Mimc` | full statement is C18_statement, violated (witnesses proved); holds for whole, canonical pieces; C18_exact: exactly which messages are confused |
| C19 | Hash abstraction binds output to input | partial | `Props/Hashes`, `Props/RescueExp` | violated by all four implementations: the output variables are unconstrained |
| C20 | Rescue and Poseidon power circuits compute powers | partial | `Props/Hashes`, `Props/RescueExp` | full statement is C20_statement, violated in every field; what the constraints do enforce is C20_power_partial |
| C21 | 2- and 3-bit lookup circuits select the right entry | proved | `Props/Lookup` |  |
| C22 | 1-bit lookup circuit selects the right entry | partial | `Props/Lookup` | full statement is C22_statement, violated: the table entries are unconstrained witnesses; what does hold is C22_select_partial |
| C23 | Comparison circuit proves A < B on n-bit integers | proved | `Props/RangeProof` | for widths with 2^(n+1) at most the field size; C23_operands_not_bounded records that operands are not range checked |
| C24 | Non-zero and public-input helpers | proved | `Props/Lookup` |  |
| C25 | Merkle root and Merkle tree agree | proved | `Props/Cbmt` |  |
| C26 | Merkle membership proofs verify | partial | `Props/Cbmt` | proved for builds with overflow checks; in Rust's default release profile positions near 2^32 wrap around and yield proofs of inner nodes (C26_violated_unchecked); C26_unchecked says for which, and of which node |
| C27 | Merkle membership proofs are binding | proved | `Props/Cbmt` | the number of siblings is a hypothesis, as in the statement; C27_length_needed shows it is needed |
| C28 | Merkle membership circuit proves membership | partial | `Props/Cbmt` | violated: with the repository's hash circuits any root is accepted; the statement holds for hash circuits that bind their output |
| C29 | Groth16 circuit reduction is exact | proved | `Props/Groth16` | Exact iff for every circuit, assignment and large enough domain; quotient degree bound. Evaluation-domain transforms are modelled by their mathematical definition (trusted base). |
| C30 | Groth16 honest proofs verify | proved | `Props/Groth16` | Setup and proving runs of the circuit are assumed to emit the same constraints and variable counts. Groups are modules over the field, pairing is bilinear. |
| C31 | Groth16 verification rejects wrong input counts and checks exactly the pairing equation | proved | `Props/Groth16` |  |
| C32 | Bulletproofs keeps every coefficient of the circuit | partial | `Props/Bulletproofs` | violated over every field: a variable mentioned twice keeps only its last coefficient; holds for combinations without repeats; C32_actual, C32_exact: what is stored, and exactly when it is right |
| C33 | Bulletproofs inner-product argument is complete | proved | `Props/Bulletproofs` |  |
| C34 | Bulletproofs verification implies the statement | partial | `Props/BpExtract`, `Props/Bulletproofs` | violated: every circuit with a constraint, also an unsatisfiable one, has an accepted proof for every challenge function with nonzero y; C34_partial states exactly what is checked; C34_knowledge_partial: with the missing check t_x = <l_x, r_x> an extractor reads a satisfying assignment off a tree of accepted proofs, or the scalars give a relation between the generators |
| C35 | Marlin verification implies the statement | partial | `Props/Marlin` | Violated: the proof chooses how commitments are spread over the rounds, so all challenges of the first two rounds can be known before any polynomial is chosen; a forged proof is accepted for every circuit and public input. Proved when the polynomials are fixed in the order of the protocol. |
| C36 | Marlin places every variable on its own domain point | partial | `Props/MarlinPlace` | Violated: when the number of inputs (with the one) is not a power of two, prover and indexer put variables at different places, or the prover aborts. Proved when the number of inputs fills its domain; C36_exact: for all values of at least one private variable only then. |
| C37 | Marlin matrix preprocessing preserves satisfiability | partial | `Props/MarlinCs` | Violated in builds with overflow checks: balancing underflows and aborts. Satisfaction is preserved whenever the preprocessing returns, and always without overflow checks. C37_exact: with overflow checks it returns exactly if the left factors have at most as many terms as the right ones. |
| C38 | KZG commitments: honest openings verify | partial | `Props/Kzg` | The code refuses constant polynomials and mishandles the largest accepted hiding bound, so the full statement is false (proved). Proved for everything commit and open return, for single polynomials, lists and batches, with the success conditions. |
| C39 | KZG commitments: a point has one value | proved | `Props/Kzg` | Two accepted openings give g/(beta - z); exactly one witness per claimed value. |
| C40 | Plonk gates enforce their arithmetic | proved | `Props/PlonkComposer` | For every sequence of composer calls, all rows of the composed circuit hold for the synthesized wires and public inputs exactly when the relation of every call holds; composition and synthesis succeed whenever the domain exists. |
| C41 | Plonk wiring permutation links exactly equal variables | proved | `Props/PlonkComposer` | For every circuit, domain size and iteration order of the variable map the tables are a bijection whose cycles are exactly the sets of positions holding one variable; padding positions are fixed. |
| C42 | Plonk quotient split recombines | proved | `Props/Plonk` | The linear combination t of the four chunks evaluates to the quotient at every point; each chunk has degree below n; coefficients beyond 4n are dropped. |
| C43 | Plonk verification implies the statement | partial | `Props/Plonk`, `Props/PlonkSound` | Violated: the verifier does not check how the commitments are spread over the rounds, so all can be put into the last vector and beta, gamma, alpha are known beforehand; a proof is forged for every circuit and all public inputs. Proved: with the rounds respected and an ideal commitment scheme, acceptance on a set of more than 5n challenges implies that the circuit is satisfiable. |
| C44 | Spartan NIZK verification implies the statement | partial | `Props/SpartanNizk`, `Props/SpartanSound` | Violated: the point at which the matrices are evaluated comes from the proof and is never compared with the transcript challenges; one all-zero proof is accepted for every instance, also unsatisfiable ones, for every hash function. Partial: if the points are the challenges drawn, no public input that is zero comes before one that is not (C45) and the generators are linearly independent, acceptance means that the witness read from the commitment satisfies the instance, or one of the 5 nx + 4 ny + k + 8 challenges hit a set of at most 6 elements fixed before it; hence at most 6 m /F/^(m-1) of /F/^m challenge sequences accept a false statement. |
| C45 | Spartan input polynomial is the multilinear extension of the inputs | partial | `Props/Multilinear` | Violated: sparse_evaluate_value skips zero values without advancing the position, so values after a zero get the wrong weight; different inputs can be confused. Partial: correct when the zeros come last; C45_exact: and only then; C45_actual states what is computed for all inputs. |
| C46 | Multilinear evaluation helpers are correct | proved | `Props/Multilinear` | All number of variables, points and tables. |
| C47 | Spartan instance hash separates instances | partial | `Props/SpartanR1cs` | Violated: row boundaries are not hashed, two different instances (one satisfiable, one not) have the same digest. Partial: injective for instances with the same row lengths; C47_exact: two instances are confused exactly if they differ only in where rows end. |
| C48 | Spartan sparse matrix encoding preserves the matrix | proved | `Props/SpartanR1cs` | All matrices, also with repeated and cancelling entries. |
| C49 | Spartan offline memory checking is complete and sound | proved | `Props/SpartanMemory` | Completeness for all address lists; soundness of the multiset equation for arbitrary claimed reads (fewer than the characteristic), and from the asserted products for sufficiently many challenges. |
| C50 | Spartan timestamp checks cover all claimed reads | partial | `Props/SpartanTimestamps` | Violated: the number of checked reads and writes is the number of address evaluations in the proof, so a proof can have none of them checked. Proved when that number is right. |
| C51 | Product circuit computes the product | partial | `Props/SpartanMemory` | Violated for lists of length zero or one: evaluation panics. Proved for all longer lists. |
| C52 | Spartan sum-check rounds are complete | proved | `Props/SumCheck` | Libra's two phases, Spartan's two hiding phases and Spartan's batched cubic rounds, for all tables, hash functions and blinding values (characteristic other than two and three). |
| C53 | Hyrax verification implies the statement | partial | `Proof/HyraxLayers`, `Props/HyraxChecked`, `Props/HyraxComplete`, `Props/HyraxSound` | Violated: each layer's proof brings its own claim (comm_a0), which is compared with nothing, so a proof of zeros is accepted for inputs zero and any outputs. C53_partial: two answers reveal openings that satisfy the combined matrix rows for that claim. C53_sound_partial: for the verifier with the missing comparison, acceptance implies that every instance's outputs are those of the circuit for the witness read from the commitment, or some challenge lies in a set of at most six elements fixed by the transcript before it; C53_count_partial counts the bad challenge sequences; C86_checked: the repaired verifier still accepts honest proofs. Missing: the comparison (the code has none), public inputs that do not fill their half of the input layer when filled up to a power of two. |
| C54 | Layered-circuit evaluation places inputs and witness in fixed halves | partial | `Props/Layered` | Violated: each half is padded by the length of the other one, so the inputs are misplaced unless there are as many inputs as witness values. Proved for equal counts; C54_exact: for all values only then, or without public inputs. |
| C55 | Layered-circuit construction and evaluation never fail on accepted circuits | proved | `Props/Layered` |  |
| C56 | Hyrax proves any number of instances | partial | `Props/Hyrax` | Violated for a single instance: the matrix construction panics and no proof is accepted. Proved for two or more instances. |
| C57 | Commitment proofs: honest proofs verify | partial | `Props/CommitProofs`, `Props/DotProduct` | Violated for the linear-size dot product proof: the prover masks with a product where a sum is needed and hashes its commitments under labels other than the verifier's. All other commitment proofs are complete; the dot product proof is once both are repaired. |
| C58 | Commitment proofs: two accepting transcripts reveal the witness | proved | `Props/CommitProofs` |  |
| C59 | Libra linear GKR verification implies the statement | partial | `Props/Libra`, `Props/LibraSound` | Violated: the verifier never compares the claimed wiring values with the circuit's gates, so its verdict does not depend on them and false outputs are accepted. The partial theorems assume those values true: then wrong outputs are accepted only if a challenge hits a set of at most d elements fixed before it is drawn, so for at most m*d*/F/^(m-1) of the /F/^m challenge tapes. |
| C60 | Libra gate-table initialisation is correct | proved | `Props/LibraTables` | Both tables as hypercube sums against the wiring predicate, the claims of both phases, and agreement with the evaluation of the wiring predicates from the gates. |
| C61 | Vector commitment: opened positions verify | proved | `Props/Asvc` |  |
| C62 | Vector commitment: updates are exact | proved | `Props/Asvc` |  |
| C63 | Vector commitment: aggregation is exact | proved | `Props/Asvc` | for at least one position (an empty aggregate is not the empty opening) |
| C64 | Vector commitment: the number of values must match the number of positions | partial | `Props/Asvc` | violated: a shorter list is filled up with zeros, a longer one is cut |
| C65 | Curve25519 scalar-field constants are consistent | partial | `Props/Tools` | violated: five constants are wrong (upper limbs missing, root of unity zero) and the generator is a square; modulus, sizes and Montgomery constants are right |
| C66 | On-chain verifier succeeds exactly on valid proofs | proved | `Props/Tools` | decoders and verifiers are parameters; a panic is a non-zero exit of the external panic handler |
| C67 | On-chain Bulletproofs verifier fixes the circuit | partial | `Props/Tools` | violated: for every key cell and every public input there is an accepted proof cell carrying a trivial circuit; C67_partial says exactly when the contract succeeds |
| C68 | Command-line hex encoding round-trips | partial | `Props/Tools` | violated: a plus sign is accepted as the first character of a pair, and some non-ASCII texts panic; round trip and odd length hold, C68_partial characterizes the accepted texts |
| C69 | Command-line hash circuit binds the image | partial | `Props/Tools` | violated: every image is accepted; honest runs publish the hash |
| C70 | Rescue and Poseidon circuits publish the hash | partial | `Props/HashTablesUse`, `Props/Hashes` | violated: the public outputs are constants, also with the tables of the code over BN254 and BLS12-381 |
| C71 | Poseidon follows its round schedule | partial | `Props/HashTablesUse`, `Props/Hashes` | full statement is C71_statement, violated, also with the tables of the code over BN254 and BLS12-381; the schedule actually used is C71_schedule_partial |
| C72 | Bulletproofs arithmetic-circuit proofs are complete | proved | `Props/Bulletproofs` | NoRepeat hypothesis is needed because of C32 |
| C73 | Demonstration product circuit is exact | proved | `Props/Tools` |  |
| C74 | Vector commitment: conflicting openings break the hardness assumption | proved | `Props/Asvc` |  |
| C75 | Plonk completeness | proved | `Props/PlonkComplete` | For any complete commitment scheme. |
| C76 | Plonk verifier does not abort on malformed input | partial | `Props/PlonkComplete` | Violated: fewer than three commitment vectors or too many public inputs panic. Otherwise no panic unless zeta = 1. C76_exact: it panics exactly in these two cases and when zeta = 1 and all eleven evaluations are given. |
| C77 | Libra linear GKR completeness | partial | `Props/Libra`, `Props/LibraShape` | Violated: the prover panics if the layer below the outputs does not have a power of two of gates. Proved for circuits in which every layer but the last has a power of two of gates; C77_exact: the prover fails for all others. |
| C78 | Hyrax's matrix expresses the round checks | proved | `Props/Hyrax` |  |
| C79 | Spartan NIZK completeness | partial | `Props/SpartanComplete` | Violated when a public input that is zero comes before one that is not, because of C45: the verifier evaluates the input polynomial at the wrong positions and rejects an honest proof. Proved in full when zeros come last among the public inputs. |
| C80 | Spartan SNARK soundness | partial | `Props/SpartanSnarkPartial`, `Props/SpartanSnarkSound` | Violated: the verifier checks as many reads and writes as the proof has address evaluations (C50), so with none of them the values read are unconstrained, and an accepted proof exists for every instance with at least two entries, also unsatisfiable ones, for every hash function without zero values and the commitment of the honest encoder. C80_partial: for proofs whose four lists of claimed addresses and timestamps have three elements each, acceptance implies that the witness read from the commitment satisfies the instance, or some challenge lies in a set of bounded size fixed by the transcript before it; C80_count_partial counts the bad challenge sequences. Missing: the length check (the code has none), zero public inputs (C45), round polynomials of unbounded degree (not checked either). |
| C81 | Spartan SNARK completeness | partial | `Props/SpartanSnarkComplete` | Violated when a public input that is zero comes before one that is not (C45: an honest proof is rejected) and when no matrix has two entries (the prover panics in the empty product circuit, C51). Proved in full otherwise. |
| C82 | Rescue's exponents are inverse | partial | `Props/RescueExp` | full statement is C82_statement; it holds over BN254, the field named in the source comment, and fails over BLS12-381, the field of all the examples |
| C83 | Marlin completeness | partial | `Props/MarlinComplete` | Violated: the prover fails for every assignment and all coins when no matrix has more than two entries or when there are at most two variables (a constant polynomial is refused by the commitment, C38), and when the private variables do not fit beside the input domain (C36). C83_partial: every proof that is output is accepted, for a number of inputs that is a power of two and non-zero blinding constants; the example gives a circuit, over the field with 97 elements, for which there is an output for every trapdoor. |
| C84 | Shape of accepted Marlin proofs | partial | `Props/MarlinShape` | Violated: vectors of commitments after the third are neither absorbed nor read, so accepted proofs can be changed; how commitments are spread over the vectors is not checked either (C35). C84_partial: the lower bounds on everything, square matrices, the domain of the public input, and the exact number of openings. |
| C85 | Marlin indexing | proved | `Props/MarlinShape` |  |
| C86 | Hyrax completeness | partial | `Props/HyraxComplete` | Violated: the prover panics for a single instance, for a layer whose number of gates is not a power of two, and for a layer with more gates than a layer of several values below it (C86_shape: a run that succeeds has none of these); the verifier rejects an honest proof for four inputs and three witness values (C86_lengths, a consequence of C54). C86_partial: all remaining circuits, with as many inputs as witness values. |
| C87 | Libra with hiding: completeness | partial | `Props/LibraZk` | Violated: the prover panics if a layer other than the last has a single gate or not a power of two of gates, and if the number of witness values is not half the size of the input layer (C87_shape: a run that succeeds has none of these); with fewer public inputs than witness values an honest proof is rejected (C87_inputs, a consequence of C54). C87_partial: the remaining circuits, with as many inputs as witness values. |
| C88 | Libra with hiding: soundness | proved | `Props/LibraZkSound` | generators are assumed to have no linear relation, as in C44 and C80 |
| C89 | Digests identify their argument | proved | `Props/Digests` | The digests are arguments of provers and verifiers; that a caller computes them from the right objects is not enforced by the code. |
| C90 | Spartan's generated parameters suffice | proved | `Props/SpartanSetup` |  |
| C91 | The test constraint system keeps names, values and its verdict straight | proved | `Props/TestCs` | HashMap modelled as an association list searched by path; pretty printing is not modelled. |
| C92 | The test constraint system's hash identifies the constraint system | proved | `Props/TestCs` | About the bytes hashed; that Blake2s does not collide on them is outside the model. Fields whose elements take more than 32 bytes make the code panic (hashBytes is none). |
| C93 | The Ristretto wrapper computes in the group and its encodings can be read back | partial | `Props/Ristretto` | Violated: doubling, normalization, the projective generator and the inverse of the cofactor panic for every point, and multiplication by the cofactor multiplies by 8 although COFACTOR is 0 and the group has prime order. C93_partial: everything else. C93_serialize: serialization can be read back if ark-serialize writes byte arrays without their length, else for at most one point. |
| C94 | The on-chain Libra and Hyrax verifiers check x (y + 2) = z | partial | `Props/GkrContracts` | Violated: the circuit computes (w1+w2) w0 x0 + w3 x0^3 from witness w and public inputs x, so z among the public inputs is ignored and an honest proof is accepted for every x, y, z; the Hyrax contract accepts every output for public inputs zero. C94_libra_partial: an accepted Libra proof shows, up to the challenges of C88, that the committed witness gives the published output by that formula. |
| C95 | Groth16 proofs of false statements need luck with the key | proved | `Props/Groth16Sound` | Soundness in the algebraic model: provers that fix their coefficients independently of the trapdoor. The bound is by Schwartz-Zippel over the five trapdoor values. |
| C96 | Groth16 proofs reveal nothing about the witness | proved | `Props/Groth16Zk` | Perfect zero knowledge given the trapdoor; a zero gamma or delta makes key generation panic. |
| C97 | Proofs about commitments reveal nothing beyond the statement | proved | `Props/CommitHiding` | Honest-verifier zero knowledge: challenges depend only on the position in the transcript. The group is cyclic of prime order (Spans). |
| C98 | Bulletproofs reveal nothing about the witness | proved | `Props/BulletproofsZk` | Honest-verifier zero knowledge: challenges depend only on the position in the transcript and are nonzero. The group is cyclic of prime order (Spans). |
| C99 | Spartan NIZK proofs reveal nothing about the witness | partial | `Props/SpartanZk` | Violated by the code: R1CSSatProof contains w_ry, the value of the witness polynomial at the challenge point, in the clear (the verifier does not use it). C99_leak and C99_extract prove the leak, C99_violated the failure of the claim, C99_partial that nothing else is revealed: witnesses with the same w_ry give identically distributed proofs. |
| C100 | Libra's hiding GKR proofs reveal nothing about the witness | proved | `Props/LibraHiding` | The shapes are those of C87_partial: for other layer sizes and witness counts the prover panics (C87_shape). The random scalars are finite lists (Spec/LibraDraw.lean), one entry for every scalar drawn. |
| C101 | Hyrax proofs reveal nothing about the witness | partial | `Props/HyraxHiding` | Violated by the code: the third sum-check of a layer indexes r_alpha_eval_vec with log_g (size of the layer above) instead of log_ng, so for a layer smaller than the one below blinding factors of the second sum-check are used again. C101_leak proves that the difference of two commitments then is a fixed multiple of the generator whatever the random choices, C101_tells that this distinguishes two witnesses, C101_violated that the full claim (C101_statement) fails, C101_partial that nothing is revealed if all layers have the same size. |
| C102 | Plonk proofs reveal nothing about the assignment | partial | `Props/PlonkHiding` | Violated by the code: the wire polynomials are the plain interpolations of the assignment, without blinding terms, and no polynomial has a hiding bound. C102_reveals proves that every proof holds the values of these polynomials at the last challenge, C102_tells that commitments of an injective scheme determine every wire value, C102_violated that for every complete commitment scheme the proofs for the two square roots of a public input differ, C102_partial that nothing but the wire values and public inputs is used. |
| C103 | Spartan SNARK proofs reveal nothing about the witness | partial | `Props/SpartanSnarkZk` | Violated by the code: the first part of the proof contains w_ry, the value of the witness polynomial at the challenge point, in the clear. C103_leak proves this for every proof, C103_violated that two witnesses of one statement can be told apart from every proof, C103_partial that nothing else is revealed: witnesses with the same w_ry give identically distributed proofs. |
| C104 | Rescue and Poseidon tables give full diffusion | proved | `Props/HashTables` | The tables are copied from the source as numbers; from_str of ark-ff is trusted to read them modulo the order. |
| C105 | Marlin proofs hide the witness | proved | `Props/MarlinZk` | Coins are the blinding factors, the masking polynomial and the blinding polynomials of the commitments; agreement of proofs treats a missing blinding value as zero, as the verifier does. Coins for which the prover fails are excluded by the hypothesis that both runs give a proof. |
| C106 | Inner-product argument: accepted proofs reveal the vectors | proved | `Props/IppExtract` | The extractor is chosen before the group and gets no group element, so that the relation between generators, which always exists in a cyclic group, is really computed from the scalars. The number of replies is not related to a success probability. |
| C107 | Hyrax takes the public inputs of each instance for that instance | partial | `Props/HyraxInputs` | Violated by the code: the verifier pads the public inputs of each instance only to their own power of two, not to the width of the layer, and writes them one after the other. C107_violated proves the negation over every field, C107_partial the claim for inputs that fill the layer. C107_swap: public inputs that are written to the same vector share their proofs, for every hash function. C107_accepts: for one public input and two witness values a proof that the squares of x and y are x*x and 0 is accepted, even with the check missing in C53. |
| C108 | Every hash gives a challenge, and different hashes different challenges | proved | `Props/Challenge` | ark-ff's from_random_bytes is modelled from its documented behaviour (trusted base). |
| C109 | The state of the challenge generators of Marlin and Plonk determines what was absorbed | partial | `Props/Challenge` | Violated by the code for histories of different lengths: from_seed and absorb hash in the same way, so for every hash function from_seed(b ++ hash a) leaves the state of from_seed(a) followed by absorb(b) (C109_extension; C109_violated gives a hash function without a collision on the way). C109_partial proves the claim for histories of equal length, the ones that the protocols use; C109_exact says which histories of different lengths are confused. |
| C110 | The command-line tools work together: what setup and zkp-prove write makes zkp-verify print true | proved | `Props/CliTool` | Completeness of the library functions is a hypothesis per scheme; for Bulletproofs it is discharged with the completeness theorem of the model (C110_bulletproofs). JSON, the file system and decimal text are external. |
| C111 | The verdict of zkp-verify is about the circuit that the proof file names | partial | `Props/CliTool` | Violated by the code for Bulletproofs: the circuit is read from the proof, so a proof of 1 * 1 = 1 is accepted for both circuits and all public values. C111_partial characterizes the verdict: for Groth16 and Spartan it is the verifier's with the key file of the named circuit. |
| C112 | The command-line tools report wrong usage and rejected proofs as errors | partial | `Props/CliTool` | Violated by the code: only the first argument is checked for, so short argument lists panic, and zkp-verify returns Ok after a rejection. C112_partial proves what holds. |
| C113 | All constraint systems record the same circuit | proved | `Props/Backends` | Namespaces (ignored by all of these systems) are left out. Marlin's padding to square matrices happens after these runs and is modelled elsewhere. |
| C114 | The verifiers accept only as many public inputs as the circuit has | partial | `Props/Groth16`, `Props/InputCount` | Violated by the code for Spartan: public inputs are filled up with zeros without a check, so every proof has the same verdict with zeros appended (C114_nizk_zeros, C114_snark_zeros), and for Marlin: the key does not hold the number of inputs. Proved for Groth16 (an error) and Bulletproofs (a panic). |
| C115 | The Merkle circuits of the examples prove membership | partial | `Props/MerkleExample` | Violated by the code: with at least one sibling, every root is accepted for every leaf, at every depth, because the outputs of the hash circuits are free (C115_sha_any_root, C115_mimc_any_root). The other direction, completeness for every depth, is proved. |
| C116 | A Plonk proof is bound to the circuit it was made for | partial | `Props/PlonkKey` | Violated by the code: the generator is seeded with the public inputs only, so the key may be chosen after the challenges. For every satisfied circuit with two idle gates, every honest proof with challenge outside the domain is accepted, after a new opening, for an unsatisfiable circuit (C116_forgery). Proved: the exact condition on the constants (C116_accept_iff) and the bound on the number of bad challenges for circuits fixed in advance (C116_partial). |
| C117 | Marlin's challenges are bound to the key, the public inputs and all messages | proved | `Props/MarlinBytes` | The writers are modelled byte by byte; the encodings of field elements and points are parameters, assumed injective and of fixed length. |
| C118 | An accepted proof cannot be changed without the witness | partial | `Props/Malleable` | Violated by the code: Groth16 proofs can be re-randomised (known of the scheme; the code has no protection), and the verifiers of Marlin and Plonk ignore all vectors of commitments after the third, which are not hashed either. Proved: each of the three points of a Groth16 proof is determined by the others; the openings of a Marlin proof are determined by the rest of the proof. |
| C119 | Plonk keys bind the copy constraints whatever multipliers are given | partial | `Props/PlonkCosets` | Violated by the code: keygen does not check the multipliers; with four equal ones the wires of a gate are not tied together and a circuit that cannot be satisfied is accepted for all challenges. Proved: with multipliers that give distinct labels every prover fails for some challenges unless the circuit can be satisfied. |
| C120 | The circuit that the Bulletproofs verifier checks is the one its challenges are bound to | partial | `Props/BulletproofsBound` | Violated by the code: an R1csCircuit holds the matrices and the sparse maps; only the matrices are hashed and only the maps are checked, and nothing compares them, so that for any matrices and any satisfiable circuit as maps there is an accepted proof. Proved: equal bytes at the last challenge mean the same sizes, generators, matrices, public inputs and messages. |
| C121 | The verifiers give a verdict on every proof | partial | `Props/Aborts` | Holds for Groth16. Violated by the others: proofs with missing list entries make Marlin, Bulletproofs, Spartan, Hyrax and Libra abort for all keys and inputs; the verifiers of Hyrax and of Libra with zero knowledge have no negative verdict at all: they accept or abort. For Plonk see C76. |
| C122 | Blinding polynomials are drawn afresh, and hiding without a randomness source is refused | partial | `Props/KzgRng` | Violated by the code: PC::commit wraps its optional source into Some(OptionalRng), so that MissingRng of KZG10::commit cannot be reached; a hiding polynomial without a source aborts. Proved: with a source the blinding polynomials are consecutive pieces of it; without hiding bounds nothing is drawn; KZG10::commit on its own returns MissingRng. |
| C123 | The layered circuits of the tests are proved and verified for all values | proved | `Props/TestCircuits` | The circuits have the shapes for which completeness holds (C77, C86, C87). |
| C124 | The R1CS circuits of the tests are proved and verified for all values | proved | `Props/TestR1cs` | The circuits are run with and without values and meet the hypotheses of C30, C72 and C90. For Marlin only the negative statement; proofs that its prover outputs are covered by C83. |
