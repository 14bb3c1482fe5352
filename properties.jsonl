{"id": "C01", "title": "Ajtai commitments are linear and reject exactly the wrong lengths", "statement": "Committing with a fixed scheme succeeds exactly on vectors of the scheme's width and otherwise returns the wrong-length error carrying both lengths; on success it has kappa entries, each the inner product of a matrix row with the vector, and commit(a*f + b*g) = a*commit(f) + b*commit(g) using the Commitment operators.", "quantifier": "every kappa, width, matrix over every commutative ring, all scalars a, b and all vectors f, g of any length", "why_tests_cant": "Linearity is an algebraic identity over all ring elements and all matrix shapes; tests commit a handful of vectors over one ring.", "anchors": ["crates/latticefold/src/commitment/commitment_scheme.rs: AjtaiCommitmentScheme::{new,commit,kappa,width}", "crates/latticefold/src/commitment/homomorphic_commitment.rs: Commitment ops"]}
{"id": "C02", "title": "All ways to commit agree", "statement": "Committing to coefficient-form data equals committing to its NTT image; decompose-and-commit of an NTT witness equals committing to the decomposed vector that Witness construction produces for the same witness, with the same success/failure outcome.", "quantifier": "every scheme, every witness vector, every ring with a CRT isomorphism, every gadget base and length for which the decomposition contract holds", "why_tests_cant": "The agreement involves two different code paths (decompose_to_vec+flatten vs gadget_decompose) for every input vector.", "anchors": ["crates/latticefold/src/commitment/commitment_scheme.rs: commit_ntt, commit_coeff, decompose_and_commit_coeff, decompose_and_commit_ntt", "crates/latticefold/src/arith.rs: Witness::from_w_ccs, Witness::commit"]}
{"id": "C03", "title": "Randomly generated commitment schemes are binding-shaped", "statement": "The randomly sampled Ajtai matrix has independently sampled entries, so that two short vectors with equal entry sums do not automatically collide.", "quantifier": "every kappa, every width >= 2, every random tape", "why_tests_cant": "A collision for every random tape cannot be seen by sampling tapes; round-trip tests pass with a degenerate matrix.", "anchors": ["crates/latticefold/src/commitment/commitment_scheme.rs: AjtaiCommitmentScheme::rand"]}
{"id": "C04", "title": "Commitment values form a module", "statement": "On commitments of equal length, addition, subtraction and scalar multiplication obey the module laws, and the zero commitment is neutral; for unequal lengths the result keeps the left operand's length and the tail of the left operand is left unchanged.", "quantifier": "all commitments of all lengths over every commutative ring, all scalars", "why_tests_cant": "Laws quantify over all values and lengths, including mismatched ones.", "anchors": ["crates/latticefold/src/commitment/homomorphic_commitment.rs: AddAssign, SubAssign, MulAssign, zeroed", "crates/latticefold/src/commitment/operations.rs"]}
{"id": "C05", "title": "R1CS satisfaction check decides the R1CS relation", "statement": "For a well-formed instance (three matrices of equal shape) the check succeeds on z iff z has the right length and every row satisfies (A z)_i (B z)_i = (C z)_i, and on failure it reports the least violated row. Without well-formedness the claim fails: rows of C beyond the rows of A and B are never examined.", "quantifier": "every ring, every instance, every vector z", "why_tests_cant": "Equivalence with the relation (both directions) for all matrices and vectors; tests use one small circuit.", "anchors": ["crates/latticefold/src/arith/r1cs.rs: R1CS::check_relation", "crates/latticefold/src/arith/utils.rs: mat_vec_mul, hadamard"]}
{"id": "C06", "title": "Relaxing an R1CS preserves satisfiability", "statement": "For a well-formed instance, relax yields a relaxed instance whose check gives the same verdict (including the reported row) on every z; and the relaxed check decides (A z)o(B z) = u (C z) + E.", "quantifier": "every ring, every well-formed instance, every z, u and E", "why_tests_cant": "Quantifies over all instances and assignments.", "anchors": ["crates/latticefold/src/arith/r1cs.rs: R1CS::relax, RelaxedR1CS::check_relation", "crates/latticefold/src/arith/utils.rs: vec_add, vec_scalar_mul"]}
{"id": "C07", "title": "R1CS to CCS conversion preserves the relation", "statement": "Converting a well-formed R1CS to CCS with m at least the number of rows (in particular the padded conversion) yields a CCS accepting exactly the same z with the same first failing row; with m smaller than the number of rows the CCS check ignores the rows past m, so the conversion is unsound there.", "quantifier": "every well-formed R1CS, every target row count W, every padding factor L, every z", "why_tests_cant": "The equivalence spans all circuits and all assignments, including ones the tests never build.", "anchors": ["crates/latticefold/src/arith.rs: CCS::from_r1cs, from_r1cs_padded, pad_rows_to, CCS::check_relation"]}
{"id": "C08", "title": "CCS check decides the CCS relation", "statement": "For a well-formed CCS the check on z of length n succeeds iff for every row i < m the sum over k < q of c_k * prod_{j in S_k} (M_j z)_i is zero; on failure it reports the least violated row; on wrong length it returns the length error.", "quantifier": "every ring, every well-formed CCS (any number/degree of multisets), every z", "why_tests_cant": "Semantic equivalence for all CCS structures; tests only cover CCS derived from one R1CS.", "anchors": ["crates/latticefold/src/arith.rs: CCS::check_relation", "crates/latticefold/src/arith/utils.rs: mat_vec_mul, hadamard, vec_add, vec_scalar_mul"]}
{"id": "C09", "title": "CCS to R1CS round trip", "statement": "Converting an R1CS to CCS and back yields an R1CS with the same public-input length that accepts exactly the same assignments (identical matrices if no padding was needed).", "quantifier": "every well-formed R1CS, every W and L", "why_tests_cant": "Quantifies over all circuits and paddings.", "anchors": ["crates/latticefold/src/arith.rs: CCS::from_r1cs_padded, CCS::to_r1cs"]}
{"id": "C10", "title": "Constraint system and its R1CS agree", "statement": "For a valid constraint system, is_satisfied(primary, aux) succeeds iff the exported R1CS accepts primary ++ aux (given the length preconditions), with the same first failing constraint; evaluation of a valid constraint system on a correctly sized assignment never panics, and validity is necessary for that.", "quantifier": "every ring, every constraint list, every split into public and auxiliary inputs, every assignment", "why_tests_cant": "Universally quantified over systems and assignments; a panic needs a specific malformed index.", "anchors": ["crates/latticefold/src/arith/r1cs.rs: LinearCombination, Constraint, ConstraintSystem::{is_valid,is_satisfied,to_r1cs}"]}
{"id": "C11", "title": "Swapping A and B for performance changes nothing observable about satisfaction", "statement": "After the optional A/B swap, is_satisfied returns the same result on every input, validity is unchanged, and the number of variables touched by B never exceeds the number touched by A.", "quantifier": "every valid constraint system, every assignment", "why_tests_cant": "Requires commutativity of all rows for all assignments.", "anchors": ["crates/latticefold/src/arith/r1cs.rs: ConstraintSystem::swap_AB_if_beneficial"]}
{"id": "C12", "title": "z-vector layout", "statement": "The z-vector of a committed statement is statement ++ [1] ++ witness and that of a linearized statement is statement ++ [h] ++ witness; the two coincide when h = 1, so linearizing preserves z; the constant sits at index l.", "quantifier": "every statement, witness, ring", "why_tests_cant": "Layout equality for all lengths.", "anchors": ["crates/latticefold/src/arith.rs: Instance::get_z_vector for CCCS and LCCCS", "crates/latticefold/src/nifs/linearization.rs: LCCCS construction"]}
{"id": "C13", "title": "Parameter encoding is injective on the sizes it covers", "statement": "Two CCS with the same parameter bytes have the same l, m, n, t, q, d; the converse information (s, s', matrices, multisets, coefficients) is not covered, so distinct CCS can share an encoding.", "quantifier": "all CCS whose sizes fit in 64 bits", "why_tests_cant": "Injectivity is a statement about all pairs.", "anchors": ["crates/latticefold/src/arith.rs: CCS::params_to_le_bytes"]}
{"id": "C14", "title": "Size guard accepts exactly padded systems", "statement": "The size guard run by prover and verifier accepts iff m is a power of two, at least (n-l-1)*L; it aborts (arithmetic underflow) iff n < l+1; the padded conversion always passes the guard whenever it does not abort.", "quantifier": "all m, n, l, L and all circuits", "why_tests_cant": "Arithmetic over all sizes, including boundary n = l.", "anchors": ["crates/latticefold/src/nifs.rs: sanity_check", "crates/latticefold/src/nifs/decomposition.rs: sanity_check", "crates/latticefold/src/nifs/folding.rs: sanity_check", "crates/latticefold/src/arith.rs: from_r1cs_padded"]}
{"id": "C15", "title": "The two implementations of the equality polynomial agree", "statement": "Evaluating the multilinear extension built from r at any point y equals the direct product formula eq(r, y) = prod (r_i y_i + (1-r_i)(1-y_i)); mismatched lengths give the documented error, and an empty r is rejected by the table builder.", "quantifier": "all dimensions, all points over any commutative ring", "why_tests_cant": "Polynomial identity over all ring elements and dimensions.", "anchors": ["crates/latticefold/src/utils/sumcheck/utils.rs: eq_eval, build_eq_x_r, build_eq_x_r_vec, build_eq_x_r_helper"]}
{"id": "C16", "title": "Equality table entries", "statement": "The table built from r has exactly 2^n entries; entry i is the product over k of r_k or 1-r_k according to bit k of i (little endian); the entries sum to 1; for boolean r it is the indicator of r.", "quantifier": "all n >= 1, all r over any commutative ring, all indices", "why_tests_cant": "All dimensions and points.", "anchors": ["crates/latticefold/src/utils/sumcheck/utils.rs: build_eq_x_r_vec, build_eq_x_r_helper"]}
{"id": "C17", "title": "Multilinear evaluation is the multilinear extension", "statement": "Evaluating an MLE at a point equals the sum over the hypercube of the table entry times eq(bits, point), is affine in each coordinate, interpolates the table on boolean points, is linear in the table, and returns an error iff the point has the wrong dimension.", "quantifier": "all tables (including truncated ones), all dimensions, all points", "why_tests_cant": "Polynomial identity in all coordinates.", "anchors": ["crates/latticefold/src/utils/mle_helpers.rs: Evaluate, evaluate_mles"]}
{"id": "C18", "title": "MLE construction from vectors", "statement": "Converting vectors to MLEs with nvars variables succeeds exactly when every vector fits in 2^nvars, preserves every entry (zero-padded), keeps the order, and propagates the first error.", "quantifier": "all lists of vectors or errors, all nvars", "why_tests_cant": "All lengths and error positions.", "anchors": ["crates/latticefold/src/utils/mle_helpers.rs: to_mles, to_mles_err, calculate_Mz_mles"]}
{"id": "C19", "title": "Bit decomposition", "statement": "bit_decompose returns exactly num_var booleans whose little-endian value is the input modulo 2^num_var.", "quantifier": "every input and every bit count", "why_tests_cant": "All inputs.", "anchors": ["crates/latticefold/src/utils/sumcheck/utils.rs: bit_decompose"]}
{"id": "C20", "title": "Sum-check completeness", "statement": "For every list of multilinear extensions, every combining function of total degree at most the declared degree and every transcript, the proof produced by the prover for the true hypercube sum is accepted, the verifier's sub-claim point equals the prover's challenges, and the sub-claim value equals the combining function applied to the MLE evaluations at that point.", "quantifier": "all numbers of variables >= 1, all degrees >= 1, all MLEs, all admissible combining functions, all Fiat-Shamir functions, every field whose characteristic exceeds the degree", "why_tests_cant": "Quantifies over all polynomials and all transcript behaviours; tests sample random polynomials.", "anchors": ["crates/latticefold/src/utils/sumcheck.rs: prove_as_subprotocol, verify_as_subprotocol", "crates/latticefold/src/utils/sumcheck/prover.rs", "crates/latticefold/src/utils/sumcheck/verifier.rs"]}
{"id": "C21", "title": "Sum-check soundness", "statement": "For any false claim about the hypercube sum of a polynomial of degree at most d in each of n variables, and any adaptive prover strategy, the fraction of verifier challenge vectors for which the verifier accepts and the sub-claim is true is at most n*d/|F|.", "quantifier": "every polynomial, every false claim, every adaptive strategy (message i may depend on all previous challenges), every finite field F", "why_tests_cant": "A probability bound against every malicious prover cannot be established by running honest or random provers.", "anchors": ["crates/latticefold/src/utils/sumcheck/verifier.rs: verify_round, check_and_generate_subclaim, interpolate_uni_poly"]}
{"id": "C22", "title": "Univariate interpolation in the verifier is exact", "statement": "Given evaluations at 0..d of a polynomial of degree at most d, the verifier's interpolation at any field point returns the value of that polynomial, in each of its three arithmetic branches, without integer overflow in the branch guards; it aborts exactly on an empty list.", "quantifier": "all degrees, all evaluation vectors, all points, all fields of characteristic 0 or greater than d", "why_tests_cant": "The branches cover lengths up to 20, 33 and beyond; overflow-freedom and correctness for every point are not testable.", "anchors": ["crates/latticefold/src/utils/sumcheck/verifier.rs: interpolate_uni_poly, u64_factorial, u128_factorial, field_factorial"]}
{"id": "C23", "title": "Prover and verifier transcripts stay synchronised", "statement": "After an honest sum-check prover and the verifier run on the same initial transcript and proof, both transcripts are in the same state and drew the same challenges, whatever the combining function, MLEs or claimed sum.", "quantifier": "all transcripts (arbitrary state machines), all proofs output by the prover", "why_tests_cant": "Equality of states over all transcripts and all inputs.", "anchors": ["crates/latticefold/src/utils/sumcheck.rs", "crates/latticefold/src/utils/sumcheck/prover.rs: prove_round", "crates/latticefold/src/utils/sumcheck/verifier.rs: verify_round"]}
{"id": "C24", "title": "Parallel prover rounds are schedule independent", "statement": "The message computed in a prover round does not depend on how the parallel runtime splits the hypercube into chunks or combines partial results.", "quantifier": "every binary splitting of the work into contiguous chunks, every poly list, every combining function", "why_tests_cant": "Schedules cannot be enumerated by tests.", "anchors": ["crates/latticefold/src/utils/sumcheck/prover.rs: prove_round (parallel fold/reduce)"]}
{"id": "C25", "title": "Sum-check verification is total", "statement": "Verifying an arbitrary (malformed) sum-check proof returns a Result and never aborts the process.", "quantifier": "every proof object, nvars, degree, claimed sum, transcript", "why_tests_cant": "Requires reasoning about every malformed proof shape.", "anchors": ["crates/latticefold/src/utils/sumcheck.rs: verify_as_subprotocol, extract_sum", "crates/latticefold/src/utils/sumcheck/verifier.rs: verify_round, check_and_generate_subclaim"]}
{"id": "C26", "title": "Sum-check proofs are not malleable", "statement": "If a proof is accepted, no other proof obtained by appending messages is accepted with the same sub-claim.", "quantifier": "every accepted proof and every list of extra messages", "why_tests_cant": "Quantifies over all extensions.", "anchors": ["crates/latticefold/src/utils/sumcheck.rs: verify_as_subprotocol"]}
{"id": "C27", "title": "Linearization completeness", "statement": "For a satisfied CCS whose multisets list the matrices in sequential order (as all R1CS-derived systems do) and matching witness sizes, the honest linearization proof verifies under every transcript, prover and verifier output the same linearized statement, and that statement is correct: v and u are the evaluations of f-hat and of M_j z at r.", "quantifier": "every such CCS, statement, witness, transcript", "why_tests_cant": "End-to-end statement over all inputs and challenges.", "anchors": ["crates/latticefold/src/nifs/linearization.rs: prove, verify", "crates/latticefold/src/nifs/linearization/utils.rs"]}
{"id": "C28", "title": "Linearization proves the CCS polynomial for every CCS", "statement": "The polynomial combined by the linearization prover is eq * sum_i c_i prod_{j in S_i} M_j z for every well-formed CCS.", "quantifier": "every CCS including repeated or out-of-order matrix indices", "why_tests_cant": "Only R1CS-shaped systems are tested; the claim is about every multiset structure.", "anchors": ["crates/latticefold/src/nifs/linearization/utils.rs: prepare_lin_sumcheck_polynomial, sumcheck_polynomial_comb_fn"]}
{"id": "C29", "title": "Linearization final check is exact", "statement": "The linearization verifier accepts iff the sum-check accepts for claim 0 and eq(r, beta) * sum_i c_i prod_{j in S_i} u_j equals the sub-claim value, and it then outputs exactly the point, the prover's v and u, and the input commitment and statement with constant 1.", "quantifier": "every proof, CCS, transcript", "why_tests_cant": "Iff over all proofs.", "anchors": ["crates/latticefold/src/nifs/linearization.rs: LFLinearizationVerifier"]}
{"id": "C30", "title": "Decomposition completeness", "statement": "For a valid accumulator the honest decomposition proof is accepted, prover and verifier output the same K statements and transcripts, and each output statement is correct for the corresponding small witness.", "quantifier": "every accumulator/witness satisfying the size contract, every transcript, every base and K", "why_tests_cant": "All witnesses and parameters.", "anchors": ["crates/latticefold/src/nifs/decomposition.rs: prove, verify, commit_witnesses, compute_v_s, compute_u_s, compute_x_s"]}
{"id": "C31", "title": "Decomposition acceptance means exact recomposition", "statement": "For a proof with exactly K pieces per component of the accumulator's lengths, acceptance holds iff the base-b combination of the pieces equals the accumulator in commitment, v, u, x and h.", "quantifier": "every proof with K pieces, every accumulator", "why_tests_cant": "Iff over all proofs.", "anchors": ["crates/latticefold/src/nifs/decomposition.rs: LFDecompositionVerifier::verify, recompose, recompose_commitment, calculate_b_s"]}
{"id": "C32", "title": "The first commitment is derived, not computed", "statement": "The commitment to the lowest digit obtained by subtracting the weighted sum of the others equals the direct commitment to that digit whenever the accumulator commitment opens to the recomposed witness.", "quantifier": "every scheme, every list of digit vectors, every base", "why_tests_cant": "Algebraic identity over all inputs.", "anchors": ["crates/latticefold/src/nifs/decomposition.rs: commit_witnesses"]}
{"id": "C33", "title": "Decomposition proofs with the wrong number of pieces are rejected", "statement": "A decomposition proof whose components do not all have exactly K entries is never accepted, and every piece output by the verifier is constrained by the accumulator.", "quantifier": "every proof of every shape", "why_tests_cant": "Needs adversarially shaped proofs.", "anchors": ["crates/latticefold/src/nifs/decomposition.rs: LFDecompositionVerifier::verify"]}
{"id": "C34", "title": "Folding sum-check combining function equals the specification", "statement": "The optimised combining function (early exit on zeros, squared range factors, reverse Horner accumulation) equals eq_1*(g13_1) + eq_2*(g13_2) + eq_beta * sum_i sum_j mu_i^(j+1) prod_{|c|<b} (f_ij - c), and it vanishes on the range part whenever every f_ij lies in (-b, b).", "quantifier": "every value vector, every K, b, extension degree, every commutative ring", "why_tests_cant": "Polynomial identity with data-dependent shortcuts.", "anchors": ["crates/latticefold/src/nifs/folding/utils.rs: sumcheck_polynomial_comb_fn"]}
{"id": "C35", "title": "Folding prover and verifier compute the same final value", "statement": "The value expected by the folding verifier from theta, eta and the eq evaluations equals the combining function applied to the evaluations of the prover's MLEs at the challenge point, when theta and eta are the true evaluations.", "quantifier": "all challenges, all witnesses, all K and b", "why_tests_cant": "Identity between two differently structured computations for all inputs.", "anchors": ["crates/latticefold/src/nifs/folding/utils.rs: compute_sumcheck_claim_expected_value, create_sumcheck_polynomial, sumcheck_polynomial_comb_fn", "crates/latticefold/src/nifs/folding.rs: verify_evaluation, calculate_claims"]}
{"id": "C36", "title": "Folding completeness", "statement": "From 2K valid small-norm linearized statements (two groups with common evaluation points) the honest folding proof verifies under every transcript and both parties output the same folded statement and reach the same transcript state.", "quantifier": "every valid input, transcript, K, b", "why_tests_cant": "End-to-end for all inputs.", "anchors": ["crates/latticefold/src/nifs/folding.rs: prove, verify"]}
{"id": "C37", "title": "The folded witness opens the folded statement", "statement": "After honest folding, the output commitment is the commitment of the output witness, v and u are the evaluations of its f-hat and of M_j z_0 at the new point, and the statement is the corresponding combination.", "quantifier": "every valid input, transcript, challenges", "why_tests_cant": "Invariant over all folding histories.", "anchors": ["crates/latticefold/src/nifs/folding.rs: compute_f_0, prepare_public_output", "crates/latticefold/src/nifs/folding/utils.rs: compute_v0_u0_x0_cm_0"]}
{"id": "C38", "title": "Folding verifier insists on exactly 2K statements", "statement": "The folding verifier rejects (or at least uses) any number of input statements other than 2K: no input statement is silently ignored.", "quantifier": "every list of statements and every proof", "why_tests_cant": "Adversarial shapes.", "anchors": ["crates/latticefold/src/nifs/folding.rs: LFFoldingVerifier::verify"]}
{"id": "C39", "title": "NIFS completeness", "statement": "For a valid accumulator and a valid fresh statement, the prover succeeds, the verifier accepts its proof under the same transcript, and both return the same new accumulator, which is again valid for the returned witness (up to norm growth).", "quantifier": "every CCS of the supported shape, every accumulator, statement, witness and transcript", "why_tests_cant": "End-to-end over all inputs; tests run a few fixed circuits.", "anchors": ["crates/latticefold/src/nifs.rs: NIFSProver::prove, NIFSVerifier::verify"]}
{"id": "C40", "title": "NIFS acceptance depends on the fresh statement", "statement": "The verifier never accepts a proof in which the fresh statement's commitment, public input and linearization claim are left out of the folded accumulator; in particular no single strategy makes it accept every (false) statement.", "quantifier": "every false statement, every transcript", "why_tests_cant": "Requires constructing an adversarial proof for every statement.", "anchors": ["crates/latticefold/src/nifs.rs: NIFSVerifier::verify", "crates/latticefold/src/nifs/decomposition.rs: verify", "crates/latticefold/src/nifs/folding.rs: verify"]}
{"id": "C41", "title": "The transcript binds the public inputs", "statement": "Two different (accumulator, statement) pairs never feed the same sequence to the transcript; the constraint system is bound as well.", "quantifier": "all pairs of public inputs", "why_tests_cant": "Injectivity over all pairs.", "anchors": ["crates/latticefold/src/nifs.rs: absorb_public_input"]}
{"id": "C42", "title": "Negacyclic/cyclotomic rotation sum is ring multiplication", "statement": "The rotation sum of a and b is the coefficient vector of the product a*b, linearly extended to coefficients in any extension; the wrong length of b aborts.", "quantifier": "all ring elements, all b of the right length, all polynomial rings with multiplication-by-X rotation", "why_tests_cant": "Identity for all elements.", "anchors": ["crates/cyclotomic-rings/src/rotation.rs: rot_sum"]}
{"id": "C43", "title": "Rotation linear combination folds evaluations correctly", "statement": "The rotation-based linear combination of evaluation vectors equals the evaluation of the combined witness: it is sum_i rho_i * theta_i in coefficient form, with all entries of all thetas used; mismatched lengths abort.", "quantifier": "all challenge lists and all theta lists", "why_tests_cant": "Identity for all inputs.", "anchors": ["crates/cyclotomic-rings/src/rotation.rs: rot_lin_combination"]}
{"id": "C44", "title": "Short challenges from bytes: packed encodings", "statement": "For the packed encodings (18 bytes to 24 coefficients) every coefficient lies in [-32, 32), the map from bytes to coefficient vectors is injective and onto that range, and any other number of bytes is rejected with the length error.", "quantifier": "all byte strings", "why_tests_cant": "2^144 inputs.", "anchors": ["crates/cyclotomic-rings/src/rings/goldilocks.rs: GoldilocksChallengeSet", "crates/cyclotomic-rings/src/rings/babybear.rs: BabyBearChallengeSet"]}
{"id": "C45", "title": "Short challenges from bytes: byte encodings", "statement": "For the byte encodings (16 bytes to 16 coefficients) coefficients lie in the documented range (centred for one ring, unsigned for the other), the map is a bijection onto that range, and other lengths are rejected.", "quantifier": "all byte strings", "why_tests_cant": "2^128 inputs.", "anchors": ["crates/cyclotomic-rings/src/rings/frog.rs: FrogChallengeSet", "crates/cyclotomic-rings/src/rings/stark.rs: StarkChallengeSet"]}
{"id": "C46", "title": "Witness construction is consistent", "statement": "A witness built from a CCS witness satisfies: recomposing its Ajtai witness gives back the CCS witness; its three representations (NTT, coefficient, f-hat) agree; rebuilding it from the Ajtai witness in NTT or coefficient form gives the same witness.", "quantifier": "every CCS witness, base, length satisfying the decomposition contract", "why_tests_cant": "All witnesses.", "anchors": ["crates/latticefold/src/arith.rs: Witness::from_w_ccs, from_f, from_f_coeff, get_fhat"]}
{"id": "C47", "title": "IVC accumulation stays in sync", "statement": "Over any sequence of fold steps by an honest prover and the verifier with shared transcript, verifier and prover accumulators are equal after every step as long as the prover's steps succeed with valid inputs.", "quantifier": "every finite sequence of statements", "why_tests_cant": "Unbounded histories.", "anchors": ["crates/latticefold/src/nifs.rs"]}
{"id": "C48", "title": "Documented challenge sets are attained", "statement": "The set of challenges each decoder can return is the one documented for its ring: every ring element whose coefficients lie in the documented range is produced by some byte string.", "quantifier": "all rings, all ring elements with coefficients in the documented range", "why_tests_cant": "A test cannot enumerate the 2^128 or 2^144 byte strings, nor show that an element is never produced.", "anchors": ["crates/cyclotomic-rings/src/rings/babybear.rs: BabyBearChallengeSet", "crates/cyclotomic-rings/src/rings/goldilocks.rs: GoldilocksChallengeSet"]}
{"id": "C50", "title": "The monomial test separates monomials from everything else", "statement": "A ring element that is zero or a power of X satisfies ev(a, x)^2 = ev(a, x^2) at every field point; every other element satisfies it at no more than 2(d-1) points, where d is the ring dimension.", "quantifier": "every ring element, every point of every finite field of odd characteristic", "why_tests_cant": "Tests try a few elements and points; the count is over all points for every element.", "anchors": ["crates/latticefold-plus/src/setchk.rs: ev"]}
{"id": "C51", "title": "Completeness of the monomial set check", "statement": "For sets consisting of monomials the prover succeeds, the verifier accepts the proof and both transcripts end in the same state; the output evaluations are those of the sets at the output point.", "quantifier": "all inputs with at least one matrix set, any number of vector sets, all matrices, all transcripts", "why_tests_cant": "Tests use one shape; the batching only goes wrong for one matrix set together with vector sets.", "anchors": ["crates/latticefold-plus/src/setchk.rs: In::set_check, Out::verify"]}
{"id": "C52", "title": "Soundness of the monomial set check", "statement": "If some entry of some set is not a monomial, an adaptive prover whose evaluations are the true ones is accepted by the interactive verifier with no more than a fraction (2(d-1) + max(m-1,1) + nvars + (#sets-1) + 3 nvars)/|F| of all challenge tapes.", "quantifier": "all inputs, all adaptive prover strategies, all challenge tapes", "why_tests_cant": "Counts over all challenges and quantifies over all cheating provers.", "anchors": ["crates/latticefold-plus/src/setchk.rs: Out::verify"]}
{"id": "C53", "title": "Soundness of linearization", "statement": "If z = (x, w) violates the constraint system, an adaptive prover whose claimed evaluations u are those of M_j z at the challenge point is accepted by the interactive linearization verifier with no more than a fraction (s + s(d+1))/|F| of all challenge tapes.", "quantifier": "every constraint system of 2^s rows, every vector z, every adaptive prover strategy", "why_tests_cant": "Counts over all challenges and quantifies over all cheating provers; a test can only try particular cheats.", "anchors": ["crates/latticefold/src/nifs/linearization.rs: LFLinearizationVerifier::verify"]}
{"id": "C54", "title": "Soundness of folding", "statement": "If one of the 2K statements claims wrong evaluations for its witness, or one of the 2K witnesses has a coefficient of absolute value b or more, the interactive folding verifier accepts only for a small fraction of challenge tapes, whatever the prover sends.", "quantifier": "all statements, all witnesses, all adaptive prover strategies, all challenge tapes", "why_tests_cant": "Counts over all challenges and quantifies over all cheating provers; the existing tests only fold honest, short witnesses.", "anchors": ["crates/latticefold/src/nifs/folding.rs: LFFoldingVerifier::verify", "crates/latticefold/src/nifs/folding/utils.rs: squeeze_alpha_beta_zeta_mu, compute_sumcheck_claim_expected_value"]}
{"id": "C49", "title": "Every message is absorbed before the challenges that depend on it", "statement": "After an accepted verification the transcript has absorbed and squeezed exactly this, in this order: the public input, the linearization (label, beta, per round message / challenge / challenge again, v, u), both decomposition proofs piece by piece, and the folding (label and challenges for alpha, zeta, mu, beta, per round message / challenge, all thetas, all etas, label, folding coefficients). Hence two accepted runs of the same shape with the same record have the same public input, the same proof and the same evaluation point, and the folding coefficients are drawn after everything else.", "quantifier": "all oracles (challenges as an arbitrary function of the record), all inputs, all proofs, all constraint systems, all rings", "why_tests_cant": "A missing or late absorption does not change any honest run: prover and verifier stay in step and all round trip tests pass.", "anchors": ["crates/latticefold/src/nifs.rs: absorb_public_input, NIFSVerifier::verify", "crates/latticefold/src/nifs/linearization.rs: verify", "crates/latticefold/src/nifs/decomposition.rs: verify", "crates/latticefold/src/nifs/folding.rs: verify", "crates/latticefold/src/utils/sumcheck.rs: verify_as_subprotocol", "crates/latticefold/src/transcript.rs"]}
{"id": "C55", "title": "from_f builds a valid range-check instance", "statement": "For a vector f with coefficients in the range of k balanced digits to base d/2 and longer than the digits of the commitments, RgInstance::from_f does not abort; the matrices of monomials encode exactly the coefficients of f, m_tau encodes tau, tau lists the digits of the commitments to the matrices of monomials followed by zeros, and the three commitments are A f, A tau and A m_tau. If f is not longer than the digits, split aborts.", "quantifier": "all vectors f in range, all commitment matrices, all decomposition parameters with base d/2, all rings satisfying the contracts of exp, psi and the decompositions", "why_tests_cant": "The index arithmetic through three nested flattenings must be right for every shape; the existing test uses one.", "anchors": ["crates/latticefold-plus/src/rgchk.rs: RgInstance::from_f", "crates/latticefold-plus/src/utils.rs: split"]}
{"id": "C56", "title": "Completeness of the range check", "statement": "For valid instances and matrices over the base field the prover succeeds, Dcom::verify accepts and both transcripts end in the same state; the proof contains the evaluations of the coefficients of f, of tau, m_tau, f and of their products with the matrices at the point of the set check.", "quantifier": "all sizes, all numbers of instances and digits, all matrices, all transcripts", "why_tests_cant": "Tests use one shape with one seed; a single matrix of monomials or a matrix entry outside the base field makes the honest proof fail.", "anchors": ["crates/latticefold-plus/src/rgchk.rs: Rg::range_check, Dcom::verify"]}
{"id": "C57", "title": "An accepted range check bounds the coefficients of f", "statement": "If Dcom::verify accepts a proof whose evaluations c are those of f, then f has coefficients in the range of k digits.", "quantifier": "all proofs accepted by Dcom::verify", "why_tests_cant": "Only a proof made by a prover that deviates from the protocol shows the missing comparison.", "anchors": ["crates/latticefold-plus/src/rgchk.rs: Dcom::verify"]}
{"id": "C58", "title": "Completeness of the commitment transformation", "statement": "If the instances of Cm are valid and carry their commitments, Cm::prove does not abort, CmProof::verify accepts the proof and returns the same statement, and the statement is true of the folded witnesses: the commitments are the products of A with the folded vectors, and the evaluations at both points are those of the folded vectors and of their products with the matrices.", "quantifier": "all numbers and sizes of instances and matrices, all parameters, all transcripts", "why_tests_cant": "The unit test runs one shape with one transcript; whether the tensor identity between tau and the commitment holds for every row count, digit count and challenge, and which lengths abort, is a statement over all of them.", "anchors": ["crates/latticefold-plus/src/cm.rs: Cm::prove, CmProof::verify, sumchecker, CmProof::x", "crates/latticefold-plus/src/utils.rs: tensor, tensor_product"]}
{"id": "C59", "title": "An accepted commitment transformation folds short witnesses", "statement": "If CmProof::verify accepts, the vectors f behind the commitments cm_f have coefficients in the range of k digits.", "quantifier": "all proofs accepted by CmProof::verify", "why_tests_cant": "Only a prover that deviates from the protocol shows it.", "anchors": ["crates/latticefold-plus/src/cm.rs: CmProof::verify", "crates/latticefold-plus/src/rgchk.rs: Dcom::verify"]}
{"id": "C60", "title": "Completeness of linearization in latticefold-plus", "statement": "ComR1CS::new lists the digits of z and commits to them. If f satisfies the R1CS and cm_f is its commitment, linearize succeeds, its proof is accepted by ComR1CSProof::verify with both transcripts in the same state, and the linearized instance it returns is true of f: r has the right length and v are the evaluations of f and of A f, B f, C f at r.", "quantifier": "all R1CS, all witnesses, all commitment matrices, all transcripts", "why_tests_cant": "The unit tests use identity matrices and one size.", "anchors": ["crates/latticefold-plus/src/r1cs.rs: ComR1CS::new, ComR1CS::linearize, ComR1CSProof::verify, r1cs_decomposed_square"]}
{"id": "C61", "title": "Soundness of linearization in latticefold-plus", "statement": "If f violates the R1CS in one of the 2^nv rows, then for every prover strategy whose final evaluations are those of A f, B f, C f the fraction of challenge tapes for which ComR1CSProof::verify accepts is at most 4 nv / |F|.", "quantifier": "all R1CS, all f, all prover strategies, all challenge tapes (counted)", "why_tests_cant": "A probability over all challenges and a quantifier over all provers.", "anchors": ["crates/latticefold-plus/src/r1cs.rs: ComR1CSProof::verify"]}
{"id": "C62", "title": "Decomposition into two halves", "statement": "For f in the range of two balanced digits to base B, Decomp::decompose returns two instances with short witnesses that are true at the point of f, and the verifier accepts. If the two halves of an accepted proof are commitments and evaluations of f0 and f1, then the statement is true of f0 + B f1.", "quantifier": "all vectors, points, matrices and bases; all accepted proofs", "why_tests_cant": "The tests decompose random short vectors; which lengths the zip-based comparison ignores is not visible there.", "anchors": ["crates/latticefold-plus/src/decomp.rs: Decomp::decompose, DecompProof::verify"]}
{"id": "C63", "title": "Folding by Mlin", "statement": "For witnesses in range and at least two matrices of monomials in total, Mlin::mlin does not abort, its proof is accepted by CmProof::verify, and the folded instance is true of the sum of the folded witnesses.", "quantifier": "all numbers of instances, all sizes, all matrices, all transcripts", "why_tests_cant": "The tests fold fixed small instances.", "anchors": ["crates/latticefold-plus/src/lin.rs: Linearize", "crates/latticefold-plus/src/mlin.rs: Mlin::mlin"]}
{"id": "C64", "title": "Completeness of the accumulation scheme of latticefold-plus over any history", "statement": "For any number of successive calls, as long as the folded witnesses stay in the range of the decomposition, PlusProver::prove does not abort, PlusVerifier::verify accepts every proof, both transcripts stay in the same state and the accumulator consists of two true instances with short witnesses.", "quantifier": "all numbers of calls, all lists of R1CS instances per call, all transcripts", "why_tests_cant": "Tests run one call with one shape; the statement is over histories.", "anchors": ["crates/latticefold-plus/src/plus.rs: PlusProver::prove, PlusVerifier::verify"]}
{"id": "C65", "title": "An accepted commitment transformation determines the folded commitments", "statement": "If CmProof::verify accepts, the folded commitments it returns are those of the vectors folded from witnesses of the commitments in the proof.", "quantifier": "all proofs accepted by CmProof::verify", "why_tests_cant": "Only a prover that deviates from the protocol shows the missing comparison of lengths.", "anchors": ["crates/latticefold-plus/src/cm.rs: CmProof::verify", "crates/latticefold-plus/src/rgchk.rs: Dcom::verify"]}
{"id": "C66", "title": "An accepted step of latticefold-plus proves the R1CS instances", "statement": "If PlusVerifier::verify accepts and the accumulated instances are true, then the R1CS instances of the step are satisfied.", "quantifier": "all proofs accepted by PlusVerifier::verify", "why_tests_cant": "Only a prover that deviates from the protocol shows that the checks are not connected.", "anchors": ["crates/latticefold-plus/src/plus.rs: PlusVerifier::verify"]}
{"id": "C67", "title": "What the verifiers of latticefold-plus absorb, and in which order", "statement": "After an accepted verification the transcript has been used exactly as follows. Set check: challenges of all claims, batching challenge, sum-check, evaluations. Range check: after it a and c of every instance. Commitment transformation: after it the byte strings from which the folding challenges are decoded, the commitments comh, two points, two sum-checks each with its evaluations. Linearization: a point, the sum-check, four evaluations. A step: the linearizations in order, then the commitment transformation.", "quantifier": "all proofs, all transcripts given by any function of the record so far", "why_tests_cant": "Tests run prover and verifier with the same code; an element left out or reordered on both sides goes unnoticed.", "anchors": ["crates/latticefold-plus/src/setchk.rs: Out::verify, absorb_evaluations", "crates/latticefold-plus/src/rgchk.rs: Dcom::verify, absorb_evaluations", "crates/latticefold-plus/src/cm.rs: CmProof::verify, absorb_comh, absorb_evaluations", "crates/latticefold-plus/src/r1cs.rs: ComR1CSProof::verify", "crates/latticefold-plus/src/plus.rs: PlusVerifier::verify"]}
{"id": "C68", "title": "The challenges of latticefold-plus depend on the whole proof and statement", "statement": "Two accepted proofs of the commitment transformation that leave the same record in the transcript are equal; in particular the commitments cannot be changed without changing the challenges.", "quantifier": "all pairs of accepted proofs of the same shape", "why_tests_cant": "Tests never change a commitment after the proof was made.", "anchors": ["crates/latticefold-plus/src/cm.rs: CmProof::verify", "crates/latticefold-plus/src/rgchk.rs: Dcom::verify"]}
{"id": "C69", "title": "The set check convinces of monomials when its challenges come from the transcript", "statement": "With challenges drawn from the transcript in the order of the code, no prover can have the set check accepted for a matrix with an entry that is not a monomial (unless a challenge is exceptional for that matrix).", "quantifier": "all transcripts and states, all matrices and vectors", "why_tests_cant": "Tests run honest provers; a prover that chooses the sets after seeing the challenges is not among them.", "anchors": ["crates/latticefold-plus/src/setchk.rs: In::set_check, Out::verify"]}
{"id": "C70", "title": "The commitment transformation enforces its claims for every instance", "statement": "If one of the claims about an instance (an evaluation of tau, m_tau, f or h at r, or the inner product of tau with t(z), which ties comh to the range check) is false, the verifier rejects except for a small fraction of the challenges, so the folded commitment of every instance is the one of its folded witness.", "quantifier": "all numbers of instances, all claims, all prover strategies, all challenge tapes", "why_tests_cant": "The error is in the exponents of a random combination; honest runs are accepted with any exponents.", "anchors": ["crates/latticefold-plus/src/cm.rs: Cm::sumchecker, CmProof::verify (verify_sumcheck)"]}
{"id": "C71", "title": "Errors in the commitments of different instances are not hidden by the fold", "statement": "If the commitments of the folded instances differ from the true ones, the commitment of the instance folded by Mlin differs from the true one (unless a challenge is exceptional).", "quantifier": "all accepted proofs, all errors in the commitments", "why_tests_cant": "Tests never fold instances with wrong commitments.", "anchors": ["crates/latticefold-plus/src/mlin.rs: Mlin::mlin", "crates/latticefold-plus/src/cm.rs: CmProof::verify, CmProof::x"]}
{"id": "C72", "title": "The estimated bound keeps the accumulation going for ever", "statement": "With B at least estimate_bound(sop, L, d, k), where sop bounds the expansion of products with challenges, accumulating in every call the two accumulated instances and up to L - 2 fresh satisfied ones with witnesses bounded by B / 2 never fails: the folded witness is bounded by B^2 / 2, its decomposition by B / 2, and all proofs are accepted.", "quantifier": "all rings, transcripts, parameters, histories of calls", "why_tests_cant": "A norm bound over all challenges and all histories; tests run one or a few calls with random challenges that do not come near the worst case.", "anchors": ["crates/latticefold-plus/src/utils.rs: estimate_bound", "crates/latticefold-plus/src/plus.rs: PlusProver::prove", "crates/latticefold-plus/src/mlin.rs: Mlin::mlin", "crates/latticefold-plus/src/decomp.rs: Decomp::decompose"]}
{"id": "C73", "title": "The folding challenges are uniform on a set of 2^128 short elements", "statement": "short_challenge(128, ..) maps uniform transcript bytes to the uniform distribution on the ring elements with coefficients in the interval of length 2^(128/d) around zero, and there are 2^128 of them.", "quantifier": "all dimensions d, all sequences of bytes, all rings", "why_tests_cant": "A statement about the whole distribution; tests draw a few challenges in one dimension.", "anchors": ["crates/latticefold-plus/src/utils.rs: short_challenge"]}
{"id": "C74", "title": "The Poseidon transcript is the transcript the protocol theorems assume", "statement": "get_challenge never aborts, returns the next extension_degree outputs of the sponge and absorbs exactly these; squeeze_bytes returns the number of bytes asked for; absorbing a slice of ring elements feeds the sponge a sequence of prime field elements that determines the slice. The expected values of the two unit tests are the values of the model.", "quantifier": "all sponge configurations, all states, all rings and encodings", "why_tests_cant": "Tests fix two values for one ring; the interface has to hold for every state and every ring.", "anchors": ["crates/latticefold/src/transcript/poseidon.rs: PoseidonTranscript", "crates/latticefold-plus/src/transcript.rs: PoseidonTranscript"]}
{"id": "C75", "title": "Transcript states never merge", "statement": "For each of the four rings the Poseidon parameters are accepted and the permutation is a bijection; two transcripts in different states that run the same operations (absorb the same elements, draw challenges and bytes) stay in different states, and different absorbed blocks give different states.", "quantifier": "the four ring configurations, all states, all sequences of operations in which a challenge is not drawn directly after bytes", "why_tests_cant": "Bijectivity on p^24 states; a non-invertible matrix or S-box exponent is invisible to tests.", "anchors": ["crates/cyclotomic-rings/src/rings/poseidon/goldilocks.rs: get_poseidon_config", "crates/cyclotomic-rings/src/rings/poseidon/babybear.rs: get_poseidon_config", "crates/cyclotomic-rings/src/rings/poseidon/frog.rs: get_poseidon_config", "crates/cyclotomic-rings/src/rings/poseidon/stark.rs: get_poseidon_config"]}
{"id": "C76", "title": "The linear layer of every Poseidon instance has maximal diffusion", "statement": "For each of the four rings the matrix mds is maximum distance separable: two states differing in k of w words have images differing in at least w + 1 - k words.", "quantifier": "all pairs of states, the four ring configurations", "why_tests_cant": "All square submatrices have to be regular; tests evaluate the permutation on single inputs.", "anchors": ["crates/cyclotomic-rings/src/rings/poseidon/goldilocks.rs: get_poseidon_config", "crates/cyclotomic-rings/src/rings/poseidon/babybear.rs: get_poseidon_config", "crates/cyclotomic-rings/src/rings/poseidon/frog.rs: get_poseidon_config", "crates/cyclotomic-rings/src/rings/poseidon/stark.rs: get_poseidon_config"]}
{"id": "C77", "title": "The transcript separates lists of absorbed elements", "statement": "Absorbing two different lists of ring elements leads to different states and challenges, up to collisions of the permutation.", "quantifier": "all rings, all lists of elements", "why_tests_cant": "A structural collision concerns particular lengths and zero elements; tests absorb single elements.", "anchors": ["crates/latticefold/src/transcript/poseidon.rs: PoseidonTranscript::absorb", "crates/latticefold/src/transcript.rs: Transcript::absorb_slice", "crates/latticefold-plus/src/transcript.rs: PoseidonTranscript::absorb"]}
{"id": "C78", "title": "Squeezed bytes are almost uniform", "statement": "If the squeezed field element is uniform, the bytes taken from it are uniform up to one field element: every byte sequence has floor(p/256^u) or floor(p/256^u) + 1 preimages, for u the number of bytes taken per element.", "quantifier": "all moduli, all byte sequences", "why_tests_cant": "A statement about the whole distribution over fields of up to 252 bits.", "anchors": ["crates/latticefold/src/transcript/poseidon.rs: get_short_challenge", "crates/latticefold-plus/src/transcript.rs: PoseidonTranscript::squeeze_bytes"]}
{"id": "C79", "title": "Different labels give different challenges", "statement": "The labels absorbed before drawing challenges (domain separation) are different field elements, so different labels put the transcript into different states.", "quantifier": "all pairs of labels, the four rings", "why_tests_cant": "Labels are reduced modulo the prime; collisions are rare and depend on the field.", "anchors": ["crates/latticefold-plus/src/transcript.rs: squeeze_challenges, squeeze_rchallenges", "crates/latticefold/src/nifs/folding/utils.rs: SqueezeAlpha, SqueezeZeta, SqueezeMu, SqueezeBeta, get_rhos", "crates/latticefold/src/nifs.rs: absorb_public_input"]}
{"id": "C80", "title": "The random sum-check instances are correct instances", "statement": "rand_poly returns tables, products and a sum such that the sum is the sum over the hypercube of the polynomial that rand_poly_comb_fn evaluates; the prover's proof for it is accepted with this sum, ends in a true claim, and is refused with any other sum. rand_poly_comb_fn aborts exactly if a product refers to a table that does not exist.", "quantifier": "all numbers of variables, all drawn coefficients and tables, all transcripts", "why_tests_cant": "The generator is the reference of the sum-check tests; a test cannot tell a wrong reference from a wrong prover.", "anchors": ["crates/latticefold/src/utils/sumcheck/utils.rs: rand_poly, product_sum, rand_poly_comb_fn"]}
{"id": "C81", "title": "Accepted ring parameters have the security they are checked for", "statement": "If check_ring_modulus_128_bits_security accepts, every witness with coefficients up to b has a norm below the length of vectors found by lattice reduction with root Hermite factor 1.0045, this length is below half the modulus, and l digits in base b represent every residue (unless the witness is already small).", "quantifier": "all moduli, ranks, degrees, bases and numbers of digits", "why_tests_cant": "Numerical statement over all parameter sets; tests evaluate a table of accepted ones.", "anchors": ["crates/latticefold/src/utils/security_check.rs: calculate_bound_l2, check_ring_modulus_128_bits_security"]}
{"id": "C82", "title": "Generated benchmark instances are satisfied and fit their witness", "statement": "The instances from get_test_dummy_r1cs, get_test_dummy_r1cs_non_scalar and get_test_dummy_degree_three_ccs_non_scalar accept exactly the assignments that agree with their generating vector up to zeros of z (idempotent entries in the scalar case), in particular that vector itself; the CCS has a power of two of rows, at least as many as requested and at least as many as the decomposed witness has entries.", "quantifier": "all numbers of public inputs, witness lengths, rows, digits, all vectors over all commutative rings", "why_tests_cant": "Tests use one shape; benches use other shapes without checking them.", "anchors": ["crates/latticefold/src/arith/r1cs.rs: get_test_dummy_r1cs, get_test_dummy_r1cs_non_scalar, get_test_dummy_z_split", "crates/latticefold/src/arith/ccs.rs: get_test_dummy_degree_three_ccs_non_scalar"]}
{"id": "C83", "title": "Differences of distinct folding challenges are invertible", "statement": "For each of the four rings, two different byte strings of the required length decode to challenges whose difference is a unit of the ring, so the challenges differ in every component of the NTT form. The same holds for different challenges drawn by short_challenge of latticefold-plus.", "quantifier": "all pairs of byte strings (2^144 or 2^128 each), all realisations of the ring with the documented modulus and cyclotomic polynomial", "why_tests_cant": "The extractors of the folding arguments divide by such differences; the number of pairs is 2^256 and more, and the exceptional pairs, if there were any, are too rare to be drawn.", "anchors": ["crates/cyclotomic-rings/src/rings/goldilocks.rs: GoldilocksChallengeSet", "crates/cyclotomic-rings/src/rings/babybear.rs: BabyBearChallengeSet", "crates/cyclotomic-rings/src/rings/frog.rs: FrogChallengeSet", "crates/cyclotomic-rings/src/rings/stark.rs: StarkChallengeSet", "crates/latticefold-plus/src/utils.rs: short_challenge"]}
{"id": "C84", "title": "The documented shape of the four rings is the only possible one", "statement": "A ring with coefficients over the documented prime, the documented cyclotomic polynomial and an NTT form with equal components has exactly the documented number of components and the documented extension degree, such a ring exists, and the polynomial has as many irreducible factors as there are components, all of the same degree.", "quantifier": "all realisations of the ring contract over the four primes", "why_tests_cant": "A statement about the factorisation of a polynomial modulo a prime of up to 252 bits and about all implementations of the trait.", "anchors": ["crates/cyclotomic-rings/src/rings.rs: SuitableRing", "crates/cyclotomic-rings/src/rings/goldilocks.rs: GoldilocksRingNTT, GoldilocksRingPoly", "crates/cyclotomic-rings/src/rings/babybear.rs: BabyBearRingNTT, BabyBearRingPoly", "crates/cyclotomic-rings/src/rings/frog.rs: FrogRingNTT, FrogRingPoly", "crates/cyclotomic-rings/src/rings/stark.rs: StarkRingNTT, StarkRingPoly"]}
{"id": "C85", "title": "The folded witness fits in the next decomposition for the shipped parameters", "statement": "For the decomposition parameters of the examples and benchmarks and the ring they are used with: the documented conditions p < B^L and K = log_b B hold, and whatever the challenges and the digits of the decomposed witnesses are, every coefficient of the folded witness can again be written with K digits of absolute value at most b/2. Hence accumulation can go on for ever: the prover never fails on valid inputs and the verifier accepts.", "quantifier": "all challenges (byte strings), all digits, all even b and all K with an exact criterion for each of the four rings, all shipped parameter sets, all sequences of valid statements", "why_tests_cant": "A test folds once or twice with random challenges; the folded witness leaves the range only for rare challenges or only when it is decomposed in the next step, which the tests, examples and benchmarks never do.", "anchors": ["crates/latticefold/src/decomposition_parameters.rs: DecompositionParams", "crates/latticefold/build.rs: generate_code_for_examples", "crates/latticefold/benches/config.toml", "crates/latticefold/src/nifs/folding.rs: prove", "crates/latticefold/src/nifs/decomposition/utils.rs: decompose_B_vec_into_k_vec"]}
{"id": "C86", "title": "Witnesses of the folded statements can be extracted from forked runs of the folding verifier", "statement": "Take a folding proof accepted by the verifier and, for each of the first 2K-1 folding challenges, a run on the same proof where only the bytes of this challenge differ. If the new statements of all these runs have witnesses, then so do all 2K input statements, at the point of the sum-check and with the evaluations claimed in the proof (for inputs of the right lengths). The witness of input i is (w - w_i) / (c - c'), so it is short up to the factor c - c'. For the four rings it is enough that the bytes differ. Acceptance of a proof and the new point do not depend on the bytes of the folding challenges.", "quantifier": "all rings, all challenge sets with invertible differences (and the four shipped ones), all transcripts, all proofs including dishonest ones, all CCS and all numbers K", "why_tests_cant": "A test runs the verifier on honest proofs; it cannot rerun a proof against every other challenge, nor recover witnesses from the verifier's outputs for a dishonest prover.", "anchors": ["crates/latticefold/src/nifs/folding.rs: verify", "crates/latticefold/src/nifs/folding/utils.rs: get_rhos", "crates/latticefold/src/nifs/folding/utils.rs: compute_v0_u0_x0_cm_0", "crates/cyclotomic-rings/src/rotation.rs: rot_lin_combination"]}
{"id": "C87", "title": "Two extracted openings of one commitment differ only if the Ajtai matrix has a short kernel vector", "statement": "If two different coefficient vectors have the same commitment and each is short after multiplication by a difference of two challenges (as extraction provides them), then there is a nonzero vector which commits to zero and whose coefficients are at most 4608 (Goldilocks), 6016 (BabyBear), 8192 (Frog), 16320 (Stark) times the bound on the multiplied vectors.", "quantifier": "all matrices, all vectors, all pairs of challenges (byte strings), all bounds; generic in the ring and the challenge set with the constant 4 * expansion * challenge bound", "why_tests_cant": "The conclusion is about all possible pairs of openings; a test can only try some, and finding a colliding pair is infeasible.", "anchors": ["crates/latticefold/src/commitment/commitment_scheme.rs: commit_ntt", "crates/cyclotomic-rings/src/challenge_set.rs", "crates/cyclotomic-rings/src/rings/goldilocks.rs: short_challenge_from_random_bytes"]}
{"id": "C88", "title": "Knowledge soundness of a folding step: a prover that convinces the verifier often enough knows witnesses of all 2K statements", "statement": "Consider any prover (its sum-check messages may depend on all earlier challenges, its evaluations on all challenges, its folded witness also on the folding challenges) that, over random challenges, with probability more than (s + max(tau, #matrices) + 2 b s)/|F| + (2K-1)/256^l (l bytes per folding challenge) makes the folding verifier accept with a new statement for which it has a witness with coefficients at most bound/2. If the Ajtai matrix has no nonzero kernel vector with coefficients at most 4608 (Goldilocks), 6016 (BabyBear), 8192 (Frog), 16320 (Stark) times bound, then all 2K input statements are true: there are witnesses with these commitments, evaluations and public inputs, the first 2K-1 with coefficients below b, and the last with coefficients at most bound/2 + (2K-1)*1152*(b-1) (Goldilocks; 1504, 2048 for BabyBear, Frog), below b for Stark. The honest prover succeeds always.", "quantifier": "all provers (arbitrary functions of the challenges), all CCS, all statements, all parameters, all Ajtai matrices; generic in ring and challenge set, and the four shipped rings", "why_tests_cant": "The claim is about the success probability of every possible prover over all random challenges; tests run the honest prover on a few.", "anchors": ["crates/latticefold/src/nifs/folding.rs: verify", "crates/latticefold/src/nifs/folding/utils.rs: SqueezeAlphaBetaZetaMu", "crates/latticefold/src/nifs/folding/utils.rs: get_rhos", "crates/latticefold/src/utils/sumcheck.rs: verify_as_subprotocol", "crates/latticefold/src/commitment/commitment_scheme.rs: commit_ntt"]}
{"id": "C89", "title": "Extraction through a decomposition: witnesses of the pieces recompose to a witness of the decomposed statement", "statement": "If the decomposition verifier accepts a proof whose four components have K entries each, and the K pieces it outputs have witnesses W_k, then sum_k b^k W_k is a witness of the decomposed statement: it opens the commitment and has the claimed evaluations v and u for the public input and constant. If the first K-1 of the W_k have coefficients below b and the last below A, its coefficients are below b^(K-1) A (so below b^K if A = b). The condition on the number of entries is needed and the verifier does not check it: with K-1 pieces and one more commitment a proof is accepted for every commitment in the decomposed statement, also for statements without any witness.", "quantifier": "all statements, proofs, witnesses, transcripts, all rings and parameters; for the last part all K >= 2, all pieces and all commitments", "why_tests_cant": "Tests decompose honest statements; the claim is about every accepted proof and every family of witnesses of its pieces.", "anchors": ["crates/latticefold/src/nifs/decomposition.rs: verify", "crates/latticefold/src/nifs/decomposition.rs: recompose", "crates/latticefold/src/nifs/decomposition.rs: recompose_commitment", "crates/latticefold/src/nifs/decomposition.rs: calculate_b_s"]}
{"id": "C90", "title": "Knowledge soundness of the folding scheme: one folding step with random challenges proves the old accumulator and the fresh statement", "statement": "Take any prover of the folding scheme (linearization, both decompositions, folding) whose messages are arbitrary functions of the challenges drawn before them, against the verifier with uniformly random challenges. It succeeds if the verifier accepts and the new accumulator has a witness with coefficients of absolute value at most bound/2. If the share of challenges with which it succeeds exceeds (s + s(d+1))/|F| + (s + max(tau, t) + 2bs)/|F| + (2K-1)/256^n, for n the number of bytes of a folding challenge, then the old accumulator has a witness with coefficients below b^K and the fresh commitment opens to a bounded witness with which the constraint system is satisfied, unless the commitment matrix has a nonzero vector of stated norm in its kernel. The numbers of entries of the decompositions and of the eta_k in the proof are conditions, because the verifier does not check them. The honest prover is such a prover, and succeeds always if the norms allow it.", "quantifier": "all provers, statements, constraint systems, parameters; the four shipped rings and their challenge sets with explicit constants, and every ring with a table and invertible challenge differences", "why_tests_cant": "The claim is about all cheating strategies and counts accepting challenges among |F|^(2s+6K-1+2s) * 256^(n(2K-1)).", "anchors": ["crates/latticefold/src/nifs.rs: verify", "crates/latticefold/src/nifs/linearization.rs: verify", "crates/latticefold/src/nifs/decomposition.rs: verify", "crates/latticefold/src/nifs/folding.rs: verify", "crates/latticefold/src/nifs/folding/utils.rs: get_rhos"]}
{"id": "C91", "title": "Extraction from the folding step by rewinding: witnesses or an explicit kernel vector of the commitment matrix", "statement": "Take any prover of the folding step, together with the witnesses it outputs for the folded statement. Rewind it on each folding challenge in turn; the extractor divides differences of its outputs by differences of challenges. From one successful family of runs the extractor's vectors are witnesses of all 2K folded statements (with the statements' evaluations, and digits below b for all but the last), or else for all but a small part of the other challenges any successful family of runs with the same folding challenges gives, by an explicit formula in the prover's own outputs, a nonzero vector of stated norm in the kernel of the commitment matrix. The number of pairs of challenges for which one of the two happens is bounded from below by n(n-E)/R in terms of the number of successful challenges. Nothing is assumed about the commitment matrix.", "quantifier": "all provers, statements, constraint systems, parameters, matrices; every ring with a table for reduction and a bounded challenge set", "why_tests_cant": "The claim is about all cheating strategies, and what is extracted from them; a test runs the honest prover.", "anchors": ["crates/latticefold/src/nifs/folding.rs: verify", "crates/latticefold/src/nifs/folding/utils.rs: get_rhos", "crates/latticefold/src/commitment/commitment_scheme.rs: commit_ntt"]}
{"id": "C92", "title": "Extraction from the folding scheme by rewinding: witnesses of the old accumulator and the fresh statement, or an explicit kernel vector", "statement": "Take any prover of the folding scheme (linearization, both decompositions, folding) together with the witnesses it outputs for the new accumulator. From one successful family of runs, the recombined vectors of the extractor are a witness of the old accumulator with coefficients below b^K and a bounded opening of the fresh commitment with which the constraint system is satisfied; or else a second family of runs with other challenges gives a nonzero vector of stated norm in the kernel of the commitment matrix, by an explicit formula in the prover's own outputs, except for a small part of the challenges. The number of families for which one of these happens is bounded from below in terms of the number of successful challenges. Nothing is assumed about the commitment matrix, in particular it may be compressing.", "quantifier": "all provers, statements, constraint systems, parameters, matrices; the four shipped rings with explicit constants, and every ring with a table and a bounded challenge set", "why_tests_cant": "The claim is about all cheating strategies, and what is extracted from them; a test runs the honest prover.", "anchors": ["crates/latticefold/src/nifs.rs: verify", "crates/latticefold/src/nifs/linearization.rs: verify", "crates/latticefold/src/nifs/decomposition.rs: verify", "crates/latticefold/src/nifs/folding.rs: verify", "crates/latticefold/src/commitment/commitment_scheme.rs: commit_ntt"]}
{"id": "C93", "title": "Forging a linearization proof takes many hash queries: Fiat-Shamir soundness in the random oracle model", "statement": "Replace the transcript by a random oracle on everything absorbed so far. An adversary may query the oracle at most Q times, in any adaptive way, and then outputs a transcript at the start of linearization (with a statement of its choice), a statement and a proof. The verifier accepts, with output evaluations those of a vector which is a function of the transcript at the start and violates the CCS relation, for at most a fraction (Q + 2s)(d + 1)/|F| of all oracles.", "quantifier": "all adversaries with at most Q queries, all Q, all constraint systems, all functions from starting transcripts of a given length to vectors, every finite domain containing the queries made", "why_tests_cant": "Soundness of the non-interactive protocol is a statement about every algorithm that queries the hash function before it chooses its proof.", "anchors": ["crates/latticefold/src/nifs/linearization.rs: verify", "crates/latticefold/src/utils/sumcheck.rs: verify_as_subprotocol", "crates/latticefold/src/transcript.rs: Transcript"]}
{"id": "C94", "title": "Forging a folding proof takes many hash queries: Fiat-Shamir soundness in the random oracle model", "statement": "Replace the transcript by a random oracle on everything absorbed so far. An adversary may query the oracle at most Q times, in any adaptive way, and then outputs a transcript at the start of folding and a proof. Let the statements and witnesses be a function of the transcript at the start such that a claimed evaluation is wrong, or a coefficient of one of the first 2K - 1 witnesses is not below b, or a slot sum of range polynomials of the last witness does not vanish. The verifier accepts, with theta and eta the evaluations of these witnesses, for at most a fraction (Q + 6K - 1 + 2s) max(tau, |M|, 2b)/|F| of all oracles.", "quantifier": "all adversaries with at most Q queries, all Q, all constraint systems and parameters, all functions from starting transcripts of a given length to statements and witnesses, every finite domain containing the queries made", "why_tests_cant": "Soundness of the non-interactive protocol is a statement about every algorithm that queries the hash function before it chooses its proof.", "anchors": ["crates/latticefold/src/nifs/folding.rs: verify", "crates/latticefold/src/nifs/folding/utils.rs: squeeze_alpha_beta_zeta_mu", "crates/latticefold/src/utils/sumcheck.rs: verify_as_subprotocol"]}
{"id": "C95", "title": "Forging a whole folding step takes many hash queries: Fiat-Shamir soundness of the verifier in the random oracle model", "statement": "Replace the transcript by a random oracle on everything absorbed so far and fix a map that assigns to every commitment an opening. An adversary with at most Q adaptive queries outputs a transcript, an accumulator, a fresh statement and a proof. The verifier of the folding scheme (linearization, two decompositions, folding) accepts, with the evaluations in the folding proof those of the openings, although the openings of the input commitments do not satisfy the relations (the opening of the fresh commitment violates the CCS, or the recombined left pieces are no witness of the accumulator, or one of the first 2K - 1 pieces is not below b), for at most a fraction (Q + 6K - 1 + 4s) max(d + 1, tau, |M|, 2b)/|F| of all oracles. The same holds for a chain of n steps in which each verifier continues with the transcript and the accumulator of the step before, with n (6K - 1 + 4s) in place of 6K - 1 + 4s.", "quantifier": "all adversaries with at most Q queries, all Q, all n, all constraint systems and parameters, all opening maps, every finite domain containing the queries made", "why_tests_cant": "Soundness of the non-interactive protocol is a statement about every algorithm that queries the hash function before it chooses statements and proof.", "anchors": ["crates/latticefold/src/nifs.rs: verify", "crates/latticefold/src/nifs/linearization.rs: verify", "crates/latticefold/src/nifs/decomposition.rs: verify", "crates/latticefold/src/nifs/folding.rs: verify"]}
{"id": "C96", "title": "The verifier of the folding scheme returns a result for every proof", "statement": "Verifying any proof (proofs can be deserialized from untrusted bytes) against any accumulator and fresh statement returns Ok or Err; the process is not aborted by an index out of bounds, a failed assertion or an unwrap.", "quantifier": "all proofs of all shapes, all accumulators, fresh statements, transcripts, constraint systems and parameters", "why_tests_cant": "The number of malformed shapes is infinite, and most of them are rejected or abort only after earlier checks have passed, which random malformed proofs do not.", "anchors": ["crates/latticefold/src/nifs.rs: verify, LFProof", "crates/latticefold/src/nifs/linearization.rs: verify_evaluation_claim", "crates/latticefold/src/nifs/decomposition.rs: recompose", "crates/latticefold/src/nifs/folding/utils.rs: compute_sumcheck_claim_expected_value", "crates/cyclotomic-rings/src/rotation.rs: rot_lin_combination"]}
{"id": "C97", "title": "The verifiers of latticefold-plus report invalid proofs instead of aborting", "statement": "PlusVerifier::verify and the verifier of a linearized R1CS return false, and CmProof::verify, Dcom::verify and Out::verify return Err, when a proof is not valid; the process is not aborted.", "quantifier": "all proofs, transcripts, matrices and parameters", "why_tests_cant": "A unit test of rejection can only show that one invalid proof aborts or is reported; that false is never returned is a statement about all proofs.", "anchors": ["crates/latticefold-plus/src/plus.rs: verify", "crates/latticefold-plus/src/r1cs.rs: verify", "crates/latticefold-plus/src/cm.rs: verify", "crates/latticefold-plus/src/rgchk.rs: verify", "crates/latticefold-plus/src/setchk.rs: verify"]}
{"id": "C98", "title": "Serialized proofs are read back exactly, have only one encoding, and are short", "statement": "Deserializing a serialized folding proof returns the proof, whatever bytes follow it; no other bytes deserialize to it; a truncated serialization is rejected; and the size of an honest proof is an explicit function of the parameters, logarithmic in the number of constraints and independent of witnesses and challenges.", "quantifier": "all proofs with vectors shorter than 2^64, all byte strings, all statements, witnesses and transcripts, the four rings", "why_tests_cant": "Tests serialize single honest proofs and read them back; that no second encoding of a proof exists and that truncated input is always rejected are statements about all byte strings.", "anchors": ["crates/latticefold/src/nifs.rs: LFProof", "crates/latticefold/src/nifs/linearization/structs.rs: LinearizationProof", "crates/latticefold/src/nifs/decomposition/structs.rs: DecompositionProof", "crates/latticefold/src/nifs/folding/structs.rs: FoldingProof", "crates/latticefold/src/commitment/homomorphic_commitment.rs: Commitment", "crates/latticefold/src/utils/sumcheck.rs: Proof"]}
{"id": "C99", "title": "The end-to-end example reports the sizes of the proof", "statement": "The two sizes printed by the end-to-end example are the sizes of the proof serialized with and without compression.", "quantifier": "all proofs", "why_tests_cant": "The printed numbers are not tested; that the second one is wrong for every proof needs the formula for the size.", "anchors": ["crates/latticefold/examples/e2e.rs: main"]}
{"id": "C100", "title": "With feature parallel the prover's results do not depend on the scheduling", "statement": "However the thread pool splits and orders the parallel loops of the prover, every run that succeeds returns the accumulator, the witness, the proof and the transcript of the sequential prover, and a run can fail only if the sequential prover fails; for honest inputs there is exactly one outcome, which the verifier accepts. Only which of several errors is reported may vary.", "quantifier": "all splittings of all parallel loops, all inputs, rings, challenge sets and transcripts", "why_tests_cant": "A test run sees one schedule of one machine; schedules cannot be enumerated, and the buffers reused within a chunk make the dependence on the splitting not obvious.", "anchors": ["crates/latticefold/src/utils/sumcheck/prover.rs: IPForMLSumcheck::prove_round", "crates/latticefold/src/utils/mle_helpers.rs: to_mles_err", "crates/latticefold/src/utils/mle_helpers.rs: evaluate_mles", "crates/latticefold/src/utils/sumcheck/utils.rs: build_eq_x_r_helper", "crates/latticefold/src/arith/utils.rs: mat_vec_mul", "crates/latticefold/src/nifs.rs: NIFSProver::prove", "crates/latticefold/Cargo.toml: features"]}
{"id": "C101", "title": "A commitment to something else is not noticed when folding, and its error stays", "statement": "If the witnesses given to the prover satisfy the evaluations and the constraint system but the commitments in the accumulator or in the fresh statement are arbitrary vectors of the right length, proving and verifying succeed; the new accumulator has right evaluations, and the error of its commitment is rho_0 times the old error plus rho_K times the error of the fresh commitment. So with a valid fresh statement and invertible challenges the new accumulator is valid exactly if the old one was: a wrong accumulator can be recognised only by opening it at the end.", "quantifier": "all rings, parameters, challenge sets, transcripts, constraint systems, witnesses and commitments (of the right length)", "why_tests_cant": "A test that folds and verifies passes just the same with wrong commitments; how the error propagates is an identity over all challenges and inputs.", "anchors": ["crates/latticefold/src/nifs.rs: NIFSProver::prove", "crates/latticefold/src/nifs.rs: NIFSVerifier::verify", "crates/latticefold/src/nifs/decomposition.rs: LFDecompositionProver::prove", "crates/latticefold/src/nifs/folding.rs: LFFoldingProver::prove", "crates/latticefold/src/nifs/tests.rs: setup_test_environment"]}
{"id": "C102", "title": "The end-to-end example folds valid statements and ends with a valid accumulator", "statement": "The example (and the tests of the NIFS, set up alike) starts from an accumulator that is valid for its witness and the accumulator it ends with is valid for the folded witness, so that its acceptance by the verifier shows a correct run.", "quantifier": "all rings, parameter sets with L at least 2, witness lengths of at least 2, transcripts and samples of the commitment matrix", "why_tests_cant": "The example and the tests check only that the verifier accepts, which it does for invalid accumulators too.", "anchors": ["crates/latticefold/examples/e2e.rs: setup_example_environment", "crates/latticefold/examples/e2e.rs: main", "crates/latticefold/src/nifs/tests.rs: setup_test_environment"]}
{"id": "C103", "title": "Every configured benchmark runs, on a valid instance of the kind its name says", "statement": "For each group of benchmarks and each configured line the set-up succeeds and returns a satisfied, committed instance whose sizes fit the scheme, and the kind of constraint system is the one in the group's name.", "quantifier": "all rings, parameter sets, sizes with n the length of the decomposed witness, and samples of the commitment matrix; all twelve groups", "why_tests_cant": "Benchmarks are not run by the tests, and a benchmark of the wrong system runs through without any sign of it.", "anchors": ["crates/latticefold/benches/utils.rs: setup_r1cs", "crates/latticefold/benches/utils.rs: wit_and_ccs_gen", "crates/latticefold/benches/utils.rs: wit_and_ccs_gen_non_scalar", "crates/latticefold/benches/utils.rs: get_test_dummy_ccs_non_scalar", "crates/latticefold/benches/utils.rs: wit_and_ccs_gen_degree_three_non_scalar", "crates/latticefold/build.rs: main"]}
{"id": "C104", "title": "Every configured benchmark of latticefold-plus runs to its end", "statement": "For each parameter set of the split, set check, range check, commitment transformation, single fold, multi fold, decomposition, double commitment and end-to-end benchmarks the set-up and the measured call succeed, and the proofs made in the set-up are accepted by a verifier with a fresh transcript; the validation of parameters rejects the lengths for which the measured code would abort.", "quantifier": "all parameter sets in the tables of benches/utils/mod.rs, over the Frog ring, all commitment matrices of the right shape, all random numbers and transcripts; beyond the tables, all lengths, digit counts and commitment sizes under the stated inequalities", "why_tests_cant": "Benchmarks are not run by the tests, and which parameters abort depends on inequalities between digit counts, commitment rows and lengths that no test explores.", "anchors": ["crates/latticefold-plus/benches/utils/helpers.rs: validate_witness_params", "crates/latticefold-plus/benches/utils/mod.rs: split", "crates/latticefold-plus/benches/utils/mod.rs: multilinear_fold", "crates/latticefold-plus/benches/split.rs: run_prover", "crates/latticefold-plus/benches/rgchk.rs: setup_proof", "crates/latticefold-plus/benches/setchk.rs: setup_proof", "crates/latticefold-plus/benches/cm.rs: setup_proof", "crates/latticefold-plus/benches/decomp.rs: setup_proof", "crates/latticefold-plus/benches/double_commitment.rs: setup_input", "crates/latticefold-plus/benches/lin.rs: setup_proof", "crates/latticefold-plus/benches/mlin.rs: setup_proof", "crates/latticefold-plus/benches/e2e.rs: setup_input"]}
{"id": "C105", "title": "The instances that the benchmarks of latticefold-plus fold are satisfied", "statement": "The committed R1CS instances built with the R1CS builder of the benchmarks are well-formed, committed to with the given matrix and satisfied by the committed witness; the builder's system holds for the digits of a vector of small numbers exactly if all the numbers are zero or one.", "quantifier": "all rings of large enough characteristic, all lengths, digit counts, even bases, commitment matrices, vectors of small numbers, instance numbers and random numbers", "why_tests_cant": "Linearization does not check satisfaction and the benchmark throws the linearization proofs away, so an unsatisfied instance goes through unnoticed.", "anchors": ["crates/latticefold-plus/benches/utils/helpers.rs: R1CSBuilder::build_decomposed_square", "crates/latticefold-plus/benches/utils/helpers.rs: R1CSBuilder::build_basic", "crates/latticefold-plus/benches/utils/helpers.rs: WitnessPattern::generate", "crates/latticefold-plus/benches/mlin.rs: setup_input", "crates/latticefold-plus/benches/e2e.rs: setup_input"]}
{"id": "C106", "title": "The parameters used for accumulation keep the accumulation going", "statement": "For the digit counts and bounds with which the tests and benchmarks run the accumulation, folding witnesses whose coefficients are at most half the bound gives a vector that the two digits of the decomposition can represent, so that the accumulators stay within the bound over any number of steps.", "quantifier": "all numbers of instances and digit counts for ring dimension 16; all witnesses within the bound, all challenges the transcript may return", "why_tests_cant": "A test draws a few challenges for one witness of zeros and ones; the bound is about the worst case over all challenges and witnesses and over repeated steps.", "anchors": ["crates/latticefold-plus/src/utils.rs: estimate_bound", "crates/latticefold-plus/src/plus.rs: PlusProver::prove", "crates/latticefold-plus/src/mlin.rs: Mlin::mlin", "crates/latticefold-plus/src/decomp.rs: Decomp::decompose", "crates/latticefold-plus/benches/e2e.rs: setup_input"]}
{"id": "C107", "title": "A linearization proof convinces of the R1CS when the challenges come from the transcript", "statement": "Whoever makes a linearization proof for a committed vector and an R1CS that the vector violates, following the prover of the library, cannot get it accepted, however the vector and the R1CS are chosen after looking at the transcript.", "quantifier": "all transcripts, states, commitment matrices, lengths; the vector may be chosen depending on the challenges that the transcript will return", "why_tests_cant": "Tests linearize satisfied systems with a random transcript; that the challenge point is fixed before anything about the statement has been absorbed shows up only against a prover that chooses the witness last.", "anchors": ["crates/latticefold-plus/src/r1cs.rs: ComR1CS::linearize", "crates/latticefold-plus/src/r1cs.rs: ComR1CSProof::verify", "crates/latticefold-plus/src/plus.rs: PlusVerifier::verify"]}
{"id": "C108", "title": "Environment variables select the benchmarks as documented", "statement": "The benchmarks that run are the ones the documentation of the suite says: in each group of flags the set ones, or all if none is set, and with a numeric variable set only benchmarks with the matching parameter.", "quantifier": "all environments (every combination of set and unset variables, arbitrary values), all parameter records, rings, subprotocols and roles", "why_tests_cant": "There are no tests of the selection; there are 2^11 combinations of flags with arbitrary strings as values of eight more variables, and a wrong selection only shows as benchmarks that run or do not run.", "anchors": ["crates/latticefold/benches/env.rs: ENV", "crates/latticefold/build.rs: write_function", "crates/latticefold/build.rs: write_ajtai_group", "crates/latticefold/benches/README.md"]}
{"id": "C109", "title": "The evaluations are checked at the point of the set check", "statement": "If CmProof::verify accepts, the point dcom.out.r at which it ties the evaluations to the commitments is the point that the verifier of the set check obtained from its sum-check.", "quantifier": "all proofs, transcripts, states and matrices", "why_tests_cant": "The tests only verify proofs of the honest prover, which sends the right point; a proof with another point needs evaluations that agree at two different points, which no test constructs.", "anchors": ["crates/latticefold-plus/src/setchk.rs: Out::verify", "crates/latticefold-plus/src/rgchk.rs: Dcom::verify", "crates/latticefold-plus/src/cm.rs: CmProof::verify"]}
{"id": "C110", "title": "The verifier of latticefold-plus enforces its own parameters", "statement": "If PlusVerifier::verify accepts with parameters (kappa, b, k, l, B), the witnesses behind the commitments are in the range b^k of these parameters and the accumulator is decomposed to base B.", "quantifier": "all parameters of prover and verifier, all histories, all witnesses", "why_tests_cant": "Every test gives prover and verifier the same parameters.", "anchors": ["crates/latticefold-plus/src/plus.rs: PlusVerifier::verify", "crates/latticefold-plus/src/rgchk.rs: Dcom::verify", "crates/latticefold-plus/src/cm.rs: CmProof::verify"]}
{"id": "C111", "title": "Every step of latticefold-plus continues the accumulator of the step before it", "statement": "If PlusVerifier::verify accepts several proofs one after another, the commitments folded in each of them include the two halves that the proof before it left as the accumulator, so that a true final accumulator vouches for all steps.", "quantifier": "all histories of calls of PlusProver::prove and PlusVerifier::verify, all proofs, transcripts and states", "why_tests_cant": "The tests run the honest prover, which keeps its accumulator; no test presents a sequence of proofs whose accumulators do not fit together.", "anchors": ["crates/latticefold-plus/src/plus.rs: PlusProver::prove, PlusVerifier::verify", "crates/latticefold-plus/src/decomp.rs: DecompProof::verify"]}
{"id": "C112", "title": "Every evaluation that the folding verifier checks enters the folded statement", "statement": "Whatever proof LFFoldingVerifier::verify accepts, each evaluation in it that contributes to the final check of the sum-check also contributes to the folded statement, so that a true folded statement vouches for the folded ones (their claimed evaluations and the norms of their witnesses).", "quantifier": "all rings, parameters, CCS, statements, proofs, transcripts and states", "why_tests_cant": "The tests verify proofs of the honest prover, whose lists of evaluations have the length of the list of matrices; no finite set of altered proofs shows that there is no accepted one of another shape.", "anchors": ["crates/latticefold/src/nifs/folding.rs: LFFoldingVerifier::verify", "crates/latticefold/src/nifs/folding/utils.rs: compute_sumcheck_claim_expected_value, compute_v0_u0_x0_cm_0"]}
{"id": "C113", "title": "Tensor products have the documented length and entries", "statement": "tensor_product(a, b) has length |a| |b| with a_i b_j at position i |b| + j; tensor(r) has 2^|r| entries, the weights of the vertices of the cube at the point r with the first coordinate as the most significant bit, so that its inner product with a table is the multilinear extension of the table at the reversed point.", "quantifier": "all vectors of all lengths (including empty ones) over all commutative rings", "why_tests_cant": "The tests compare single vectors of length two and three; the order of the coordinates and the case of empty vectors need all lengths.", "anchors": ["crates/latticefold-plus/src/utils.rs: tensor_product, tensor"]}
{"id": "C114", "title": "The examples use the ring and the parameters of the environment they are built in", "statement": "An example that is built and run uses the ring named by RING and the constants given by PARAM_B, PARAM_L, PARAM_B_SMALL, PARAM_K, PARAM_KAPPA and PARAM_WIT_LEN in the environment of this build, the documented default of the ring for each of them that is not set, and N = WIT_LEN * L; what earlier builds used has no influence. A ring with another name stops the build.", "quantifier": "all environments, all histories of builds with changing environments and files", "why_tests_cant": "There are no tests of the build script; whether a setting of an earlier build survives depends on the sequence of builds and on which paths and variables the script asks cargo to watch.", "anchors": ["crates/latticefold/build.rs: generate_code_for_examples", "crates/latticefold/build.rs: parse_benches", "crates/latticefold/examples/README.md", "crates/latticefold/examples/e2e.rs"]}
