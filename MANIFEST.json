{
 "claims": [
  {
   "property": "C01",
   "status": "proved",
   "theorems": [
    "Verif.Props.C01_commit_total",
    "Verif.Props.C01_commit_entries",
    "Verif.Props.C01_commit_linear"
   ],
   "note": "Commitment is total on matching lengths, errors otherwise, and is linear; entries match the matrix-vector product."
  },
  {
   "property": "C02",
   "status": "proved",
   "theorems": [
    "Verif.Props.C02_commit_coeff",
    "Verif.Props.C02_decompose_commit_eq_witness",
    "Verif.Props.C02_decompose_commit_spec"
   ],
   "note": "same outcome including errors; digits recompose under the decomposition contract"
  },
  {
   "property": "C03",
   "status": "partial",
   "theorems": [
    "Verif.Props.C03_rand_collides",
    "Verif.Props.C03_rand_not_binding",
    "Verif.Props.C03_rand_shape_partial"
   ],
   "note": "The property is FALSE for the code: `rand` clones one random sample, so every column is the same and short collisions exist. Negation proved with a concrete collision; the shape part is kept as _partial."
  },
  {
   "property": "C04",
   "status": "proved",
   "theorems": [
    "Verif.Props.C04_lengths",
    "Verif.Props.C04_entries",
    "Verif.Props.C04_module_laws"
   ],
   "note": ""
  },
  {
   "property": "C05",
   "status": "proved",
   "theorems": [
    "Verif.Props.C05_check_decides",
    "Verif.Props.C05_shape_refused",
    "Verif.Props.C05_ragged_counterexample"
   ],
   "note": "Proved for well-formed instances; a counterexample shows the shape condition is needed (extra rows of C are ignored)."
  },
  {
   "property": "C06",
   "status": "proved",
   "theorems": [
    "Verif.Props.C06_relaxed_check_decides",
    "Verif.Props.C06_shape_refused",
    "Verif.Props.C06_relax_same_verdict"
   ],
   "note": ""
  },
  {
   "property": "C07",
   "status": "proved",
   "theorems": [
    "Verif.Props.C07_fromR1CS_exact",
    "Verif.Props.C07_fromR1CS_same_verdict",
    "Verif.Props.C07_padded_same_verdict",
    "Verif.Props.C07_truncation_counterexample",
    "Verif.Props.C07_padded_truncation_counterexample"
   ],
   "note": "Proved when W is at least the number of rows; for smaller W exactly the first W rows are checked and counterexamples are given."
  },
  {
   "property": "C08",
   "status": "proved",
   "theorems": [
    "Verif.Props.C08_check_decides",
    "Verif.Props.C08_check_wrong_length"
   ],
   "note": ""
  },
  {
   "property": "C09",
   "status": "proved",
   "theorems": [
    "Verif.Props.C09_roundtrip",
    "Verif.Props.C09_roundtrip_padded"
   ],
   "note": ""
  },
  {
   "property": "C10",
   "status": "proved",
   "theorems": [
    "Verif.Props.C10_satisfied_eq_r1cs",
    "Verif.Props.C10_sizes",
    "Verif.Props.C10_satisfied_decides",
    "Verif.Props.C10_satisfied_implies_valid",
    "Verif.Props.C10_terms_add",
    "Verif.Props.C10_add_constraint",
    "Verif.Props.C10_invalid_can_abort"
   ],
   "note": ""
  },
  {
   "property": "C11",
   "status": "proved",
   "theorems": [
    "Verif.Props.C11_swap"
   ],
   "note": ""
  },
  {
   "property": "C12",
   "status": "proved",
   "theorems": [
    "Verif.Props.C12_layout",
    "Verif.Props.C12_linearized_same_z"
   ],
   "note": ""
  },
  {
   "property": "C13",
   "status": "proved",
   "theorems": [
    "Verif.Props.C13_params_injective",
    "Verif.Props.C13_params_little_endian",
    "Verif.Props.C13_params_not_binding",
    "Verif.Props.C13_varmap_total_len",
    "Verif.Props.C13_varmap_get",
    "Verif.Props.C13_one",
    "Verif.Props.C13_varmap_overcount"
   ],
   "note": ""
  },
  {
   "property": "C14",
   "status": "proved",
   "theorems": [
    "Verif.Props.C14_guard_exact",
    "Verif.Props.C14_padded_passes",
    "Verif.Props.C14_vars"
   ],
   "note": ""
  },
  {
   "property": "C15",
   "status": "proved",
   "theorems": [
    "Verif.Props.C15_eq_eval",
    "Verif.Props.C15_table_agrees"
   ],
   "note": ""
  },
  {
   "property": "C16",
   "status": "proved",
   "theorems": [
    "Verif.Props.C16_table_entries",
    "Verif.Props.C16_table_indicator"
   ],
   "note": ""
  },
  {
   "property": "C17",
   "status": "proved",
   "theorems": [
    "Verif.Props.C17_evaluate",
    "Verif.Props.C17_multilinear",
    "Verif.Props.C17_linear",
    "Verif.Props.C17_evaluate_mles"
   ],
   "note": ""
  },
  {
   "property": "C18",
   "status": "proved",
   "theorems": [
    "Verif.Props.C18_to_mles_ok",
    "Verif.Props.C18_to_mles_err",
    "Verif.Props.C18_Mz_mles"
   ],
   "note": ""
  },
  {
   "property": "C19",
   "status": "proved",
   "theorems": [
    "Verif.Props.C19_bit_decompose"
   ],
   "note": ""
  },
  {
   "property": "C20",
   "status": "proved",
   "theorems": [
    "Verif.Props.C20_completeness"
   ],
   "note": ""
  },
  {
   "property": "C21",
   "status": "proved",
   "theorems": [
    "Verif.Props.C21_soundness",
    "Verif.Props.C21_soundness_mles"
   ],
   "note": "Interactive protocol with independent challenges; the Fiat-Shamir heuristic itself is outside the model."
  },
  {
   "property": "C22",
   "status": "proved",
   "theorems": [
    "Verif.Props.C22_interpolation",
    "Verif.Props.C22_aborts_iff_empty"
   ],
   "note": ""
  },
  {
   "property": "C23",
   "status": "proved",
   "theorems": [
    "Verif.Props.C23_sync",
    "Verif.Props.C23_sync_api"
   ],
   "note": ""
  },
  {
   "property": "C24",
   "status": "proved",
   "theorems": [
    "Verif.Props.C24_schedule_independent"
   ],
   "note": ""
  },
  {
   "property": "C25",
   "status": "partial",
   "theorems": [
    "Verif.Props.C25_short_proof_panics",
    "Verif.Props.C25_wrong_evaluations_panic",
    "Verif.Props.C25_degenerate_parameters_panic",
    "Verif.Props.C25_extract_sum_panics",
    "Verif.Props.C25_total_on_shaped_proofs_partial"
   ],
   "note": "FALSE for the code: malformed proofs abort the verifier (witnesses proved for all transcripts). The totality on well-shaped proofs is kept as _partial."
  },
  {
   "property": "C26",
   "status": "partial",
   "theorems": [
    "Verif.Props.C26_trailing_messages_ignored",
    "Verif.Props.C26_prefix_determines_partial"
   ],
   "note": "FALSE for the code: trailing messages are ignored, so accepted proofs are malleable. What remains true is kept as _partial."
  },
  {
   "property": "C27",
   "status": "proved",
   "theorems": [
    "Verif.Props.C27_linearization_complete",
    "Verif.Props.C27_fhat_size_mismatch"
   ],
   "note": "For aligned CCS (see C28) whose f_hat tables have s variables; the boundary theorem shows the honest prover fails when they do not."
  },
  {
   "property": "C28",
   "status": "partial",
   "theorems": [
    "Verif.Props.C28_misaligned_rejected",
    "Verif.Props.C28_comb_is_ccs_polynomial_partial"
   ],
   "note": "FALSE for the code: a satisfied CCS with S=[[0,0],[1]] makes every honest proof be rejected. True for aligned multisets (_partial)."
  },
  {
   "property": "C29",
   "status": "proved",
   "theorems": [
    "Verif.Props.C29_verify_iff",
    "Verif.Props.C29_missing_u_panics"
   ],
   "note": ""
  },
  {
   "property": "C30",
   "status": "proved",
   "theorems": [
    "Verif.Props.C30_decomposition_complete"
   ],
   "note": "for parameters with even bases, B <= b^K and B^L covering the prime field"
  },
  {
   "property": "C31",
   "status": "proved",
   "theorems": [
    "Verif.Props.C31_verify_iff",
    "Verif.Props.C31_exact_pieces"
   ],
   "note": "exact characterisation for proofs of every shape, and the K-piece form"
  },
  {
   "property": "C32",
   "status": "proved",
   "theorems": [
    "Verif.Props.C32_first_commitment",
    "Verif.Props.C32_always_recomposes"
   ],
   "note": "also: the derived commitments recompose by construction for any witness"
  },
  {
   "property": "C33",
   "status": "partial",
   "theorems": [
    "Verif.Props.C33_single_piece_accepted",
    "Verif.Props.C33_extra_pieces_accepted",
    "Verif.Props.C33_pieces_constrained_partial"
   ],
   "note": "property is false for the code: one-piece proofs and proofs with extra pieces are accepted; holds with exactly K entries per component"
  },
  {
   "property": "C34",
   "status": "proved",
   "theorems": [
    "Verif.Props.C34_comb_fn",
    "Verif.Props.C34_range_part_vanishes",
    "Verif.Props.C34_too_few_values",
    "Verif.Props.C34_range_exact"
   ],
   "note": ""
  },
  {
   "property": "C35",
   "status": "proved",
   "theorems": [
    "Verif.Props.C35_expected_value"
   ],
   "note": "evaluation points of each half of the statements agree, as in the protocol"
  },
  {
   "property": "C36",
   "status": "proved",
   "theorems": [
    "Verif.Props.C36_folding_complete",
    "Verif.Props.C36_tables_agree"
   ],
   "note": "needs ccs.t = number of matrices (u_0 is truncated or zero padded otherwise)"
  },
  {
   "property": "C37",
   "status": "proved",
   "theorems": [
    "Verif.Props.C37_folded_valid"
   ],
   "note": ""
  },
  {
   "property": "C38",
   "status": "partial",
   "theorems": [
    "Verif.Props.C38_extra_statements_ignored",
    "Verif.Props.C38_five_accepted",
    "Verif.Props.C38_at_least_partial"
   ],
   "note": "FALSE: statements after the first 2K are accepted and never folded. Proved: fewer than 2K are never accepted and the first 2K determine the output."
  },
  {
   "property": "C39",
   "status": "proved",
   "theorems": [
    "Verif.Props.C39_nifs_complete"
   ],
   "note": "needs ccs.t = number of matrices and an aligned CCS (see C28, C36)"
  },
  {
   "property": "C40",
   "status": "partial",
   "theorems": [
    "Verif.Props.C40_forgery",
    "Verif.Props.C40_false_statement_accepted",
    "Verif.Props.C40_statement_folded_partial"
   ],
   "note": "FALSE: from any valid accumulator with a known witness, a proof is accepted for every fresh statement, including unsatisfiable ones, and the resulting accumulator is valid. Proved: with exactly K pieces per decomposition proof the fresh statement is part of the folded accumulator."
  },
  {
   "property": "C41",
   "status": "partial",
   "theorems": [
    "Verif.Props.C41_absorbed_sequence",
    "Verif.Props.C41_collisions",
    "Verif.Props.C41_fixed_lengths_partial"
   ],
   "note": "FALSE: lengths and the CCS are not absorbed. Proved: with equal lengths the absorbed sequence determines the inputs."
  },
  {
   "property": "C42",
   "status": "proved",
   "theorems": [
    "Verif.Props.C42_rot_sum_formula",
    "Verif.Props.C42_rot_sum_panic",
    "Verif.Props.C42_rot_sum_mul",
    "Verif.Props.C42_rot_sum_linear"
   ],
   "note": ""
  },
  {
   "property": "C43",
   "status": "proved",
   "theorems": [
    "Verif.Props.C43_defined_iff",
    "Verif.Props.C43_folds_evaluations"
   ],
   "note": "evaluation points have constant coordinates, as drawn by the protocol"
  },
  {
   "property": "C44",
   "status": "proved",
   "theorems": [
    "Verif.Props.C44_packed_value",
    "Verif.Props.C44_packed_length",
    "Verif.Props.C44_packed_image",
    "Verif.Props.C44_packed_injective",
    "Verif.Props.C44_short_challenges"
   ],
   "note": ""
  },
  {
   "property": "C45",
   "status": "proved",
   "theorems": [
    "Verif.Props.C45_frog_bijective",
    "Verif.Props.C45_stark_bijective",
    "Verif.Props.C45_values",
    "Verif.Props.C45_length"
   ],
   "note": ""
  },
  {
   "property": "C46",
   "status": "proved",
   "theorems": [
    "Verif.Props.C46_witness_consistent",
    "Verif.Props.C46_from_f_consistent"
   ],
   "note": ""
  },
  {
   "property": "C47",
   "status": "proved",
   "theorems": [
    "Verif.Props.C47_ivc_sync"
   ],
   "note": "under the norm condition NormOK on the parameters, needed for the folded witness to be decomposable again"
  },
  {
   "property": "C48",
   "status": "partial",
   "theorems": [
    "Verif.Props.C48_goldilocks_bijective",
    "Verif.Props.C48_babybear_not_all",
    "Verif.Props.C48_documented_sets_partial"
   ],
   "note": "FALSE for BabyBear: the decoder fills 24 of 72 coefficients, so X^24 is in the documented set but never produced. True for the other three rings."
  },
  {
   "property": "C50",
   "status": "proved",
   "theorems": [
    "Verif.Props.C50_monomial_test",
    "Verif.Props.C50_ev"
   ],
   "note": ""
  },
  {
   "property": "C51",
   "status": "partial",
   "theorems": [
    "Verif.Props.C51_complete_partial",
    "Verif.Props.C51_one_matrix_iff",
    "Verif.Props.C51_rejected",
    "Verif.Props.C51_no_matrix"
   ],
   "note": "FALSE for exactly one matrix set together with vector sets: the prover's combination leaves out the vector sets, so the honest proof is rejected unless their contributions cancel (concrete witness). Complete in all other cases with a matrix set."
  },
  {
   "property": "C52",
   "status": "proved",
   "theorems": [
    "Verif.Props.C52_soundness"
   ],
   "note": "interactive protocol with independent challenges; not stated for one matrix set with vector sets, where no batching challenge exists"
  },
  {
   "property": "C53",
   "status": "proved",
   "theorems": [
    "Verif.Props.C53_linearization_sound"
   ],
   "note": "interactive protocol with independent challenges; the prover's evaluations are taken to be those of the fixed z (they are checked against the commitment in later steps)"
  },
  {
   "property": "C54",
   "status": "partial",
   "theorems": [
    "Verif.Props.C54_soundness_partial",
    "Verif.Props.C54_soundness_degree_one",
    "Verif.Props.C54_last_witness_unchecked",
    "Verif.Props.C54_opposite_blocks_cancel",
    "Verif.Props.C54_range_violated",
    "Verif.Props.C54_step_long",
    "Verif.Props.C54_any_coefficient",
    "Verif.Props.C54_any_commitment",
    "Verif.Props.C54_almost_all_matrices",
    "Verif.Props.C54_units_shipped",
    "Verif.Props.C54_sizes_shipped",
    "Verif.Props.C54_false_statement",
    "Verif.Props.C54_step_unnoticed",
    "Verif.Props.C54_any_commitment_unnoticed",
    "Verif.Props.C54_last_bound_shipped",
    "Verif.Props.C54_frog_unnoticed",
    "Verif.Props.C54_chain_unnoticed",
    "Verif.Props.C54_frog_chain",
    "Verif.Props.C54_most_commitments_unnoticed",
    "Verif.Props.C54_most_shipped",
    "Verif.Props.C54_most_chain",
    "Verif.Props.C54_most_bench"
   ],
   "note": "FALSE for extension degree >= 2: the last mu is the constant 1, so the range check of the last witness only sees the sum over the tau coefficients of a slot, and opposite coefficients of any size cancel; with such a witness every transcript is accepted. C54_step_long: also by the verifier of the whole step, with K pieces each. C54_any_coefficient: if the witness is longer than about three times the commitment (all shipped parameter sets of these rings, C54_sizes_shipped), a commitment to a short witness is also opened, in accepted steps, by witnesses with any value at some coefficient. C54_any_commitment: if the vectors that escape the check reach all commitments, every commitment is accepted; C54_almost_all_matrices: they do for all but a fraction p^(kappa tau N - |w| (L-1) min(tau,N)) of the matrices (138 of the 140 configured sets of these rings make this fraction less than 1/p); C54_false_statement: a statement without any witness, accepted for every transcript. The accumulators of these theorems are valid but their witness may be out of range, which a later step or a final check could notice. C54_step_unnoticed: it is in range if the last piece is bounded by M, and M is in the tens of thousands instead of 2 for the shipped sets with K >= 16 (C54_last_bound_shipped). C54_frog_unnoticed: for the shipped Frog set with L = 2 every commitment is accepted with an accumulator in range, for almost all matrices, and so are chains of any length (C54_frog_chain). C54_most_shipped: for 45 of the 49 configured lines of these rings in which honest accumulations stay in range, all pairs of a matrix and a commitment but a share of 2^-128 are accepted with an accumulator in range, for each public input with a short satisfying witness (the pairs left out depend on it). Proved: everything else is sound (wrong evaluations, range of the first 2K-1 witnesses, slot sums of the last), and full soundness for extension degree 1."
  },
  {
   "property": "C49",
   "status": "proved",
   "theorems": [
    "Verif.Props.C49_sumcheck_record",
    "Verif.Props.C49_linearization_record",
    "Verif.Props.C49_decomposition_record",
    "Verif.Props.C49_folding_record",
    "Verif.Props.C49_step_record",
    "Verif.Props.C49_step_binding",
    "Verif.Props.C49_rho_after_everything"
   ],
   "note": "same shape = all list lengths agree and proofs have the protocol's number of pieces and rounds; without that C41 applies (lengths are not absorbed)"
  },
  {
   "property": "C55",
   "status": "proved",
   "theorems": [
    "Verif.Props.C55_from_f",
    "Verif.Props.C55_small_n"
   ],
   "note": "balanced decomposition and exp/psi by their contracts; base b = d/2 (the recombination in the verifier is hard-wired to d/2); every field element must fit l digits"
  },
  {
   "property": "C56",
   "status": "partial",
   "theorems": [
    "Verif.Props.C56_complete_partial",
    "Verif.Props.C56_rejected",
    "Verif.Props.C56_nonscalar_rejected"
   ],
   "note": "FALSE for one instance with one matrix of monomials (inherited from C51) and for matrices with entries outside the base field: concrete honest proofs are rejected. Proved in all other cases."
  },
  {
   "property": "C57",
   "status": "partial",
   "theorems": [
    "Verif.Props.C57_verify_iff",
    "Verif.Props.C57_c0_unchecked",
    "Verif.Props.C57_range_not_established"
   ],
   "note": "FALSE: c[0], the evaluation of f, is compared with nothing, neither are b[0] and the vector evaluations of the set check. A prover holding any f that agrees with a short f' under all matrices is accepted with the evaluations of f and the commitment to f. C57_verify_iff states exactly what acceptance means."
  },
  {
   "property": "C58",
   "status": "partial",
   "theorems": [
    "Verif.Props.C58_complete_partial",
    "Verif.Props.C58_own_matrices_partial",
    "Verif.Props.C58_not_power_of_two"
   ],
   "note": "FALSE for matrices together with a length n that is not a power of two (the prover always aborts: h is padded to 2^nvars before the multiplication), and in the cases of C56. Proved in all other cases, with an exact description of the resulting statement. Needs ring dimension >= 3 (2usize.pow in short_challenge) and a transcript that returns as many bytes as asked for."
  },
  {
   "property": "C59",
   "status": "partial",
   "theorems": [
    "Verif.Props.C59_range_lost"
   ],
   "note": "FALSE: carries C57 over. For every valid run and any vectors f that agree with the encoded vectors under the matrices, there is an accepted proof with the commitments to f, and its statement is true of the witness folded from f."
  },
  {
   "property": "C60",
   "status": "proved",
   "theorems": [
    "Verif.Props.C60_new",
    "Verif.Props.C60_complete",
    "Verif.Props.C60_decomposed_square_partial",
    "Verif.Props.C60_decomposed_square_shape"
   ],
   "note": "r1cs_decomposed_square calls gadget_decompose of a crate that is not in the sandbox: that part is conditional on its contract (decomposed matrix times digits = matrix times vector)"
  },
  {
   "property": "C61",
   "status": "proved",
   "theorems": [
    "Verif.Props.C61_sound"
   ],
   "note": "interactive protocol with independent challenges; the prover's evaluations are taken to be those of the fixed f. Whether that is ever enforced is C66"
  },
  {
   "property": "C62",
   "status": "proved",
   "theorems": [
    "Verif.Props.C62_complete",
    "Verif.Props.C62_sound",
    "Verif.Props.C62_surplus_ignored"
   ],
   "note": ""
  },
  {
   "property": "C63",
   "status": "partial",
   "theorems": [
    "Verif.Props.C63_mlin_partial",
    "Verif.Props.C63_one_iff",
    "Verif.Props.C63_one_rejected",
    "Verif.Props.C63_claims_unused"
   ],
   "note": "FALSE for one instance with one digit (the case of C51): C63_one_rejected is an honest fold on whose proof the verifier aborts, C63_one_iff says exactly when it does. Proved in all other cases. C63_claims_unused: the fold does not depend on the claims (commitment, point, evaluations) of the instances, only on their witnesses, so it proves nothing about them"
  },
  {
   "property": "C64",
   "status": "partial",
   "theorems": [
    "Verif.Props.C64_complete_partial"
   ],
   "note": "under the assumption that the folded witnesses of all calls are in range of the decomposition; the code does not derive or check it; C72 proves it from estimate_bound"
  },
  {
   "property": "C65",
   "status": "partial",
   "theorems": [
    "Verif.Props.C65_statement_partial",
    "Verif.Props.C65_no_instances"
   ],
   "note": "FALSE: the verifier does not compare the number of instances of the range check with the number of commitments; with none, arbitrary commitments and arbitrary folded commitments are accepted. C65_statement_partial states what acceptance does say"
  },
  {
   "property": "C66",
   "status": "partial",
   "theorems": [
    "Verif.Props.C66_verify_iff_partial",
    "Verif.Props.C66_any_instance_accepted",
    "Verif.Props.C66_r1cs_not_enforced"
   ],
   "note": "FALSE: the folded instance in the proof is not compared with the statement computed by CmProof::verify (any instance is accepted), and even with true folded and accumulated instances the R1CS is not enforced, because the evaluations sent for linearization are compared with nothing. C66_verify_iff_partial states exactly what acceptance means"
  },
  {
   "property": "C67",
   "status": "proved",
   "theorems": [
    "Verif.Props.C67_set_record",
    "Verif.Props.C67_range_record",
    "Verif.Props.C67_cm_record",
    "Verif.Props.C67_linearization_record",
    "Verif.Props.C67_step_record"
   ],
   "note": ""
  },
  {
   "property": "C68",
   "status": "partial",
   "theorems": [
    "Verif.Props.C68_binding_partial",
    "Verif.Props.C68_commitments_free"
   ],
   "note": "FALSE: the commitments (fcoms) are neither absorbed nor checked; an accepted proof stays accepted, with the same challenges, for any other commitments. Proved: with the same shape the record determines everything that is absorbed (all sum-checks, e, b, a, c, comh, evaluations)."
  },
  {
   "property": "C69",
   "status": "partial",
   "theorems": [
    "Verif.Props.C69_adaptive_sets",
    "Verif.Props.C52_soundness"
   ],
   "note": "FALSE: the challenges are drawn before anything that depends on the sets is absorbed (C67_set_record), so sets chosen afterwards pass: for every transcript and state there is a matrix with an entry that is not a monomial that is accepted. True when the sets are fixed before the challenges (C52_soundness)."
  },
  {
   "property": "C70",
   "status": "partial",
   "theorems": [
    "Verif.Props.C70_errors_cancel",
    "Verif.Props.C70_sound_partial"
   ],
   "note": "FALSE for two or more instances: the inner product claims of all instances are multiplied with the same two powers of the challenge, so errors that sum to zero are accepted and the folded commitments are off by them. Proved: every evaluation claim of every instance, and the sum over the instances of the inner product claims, are enforced."
  },
  {
   "property": "C71",
   "status": "partial",
   "theorems": [
    "Verif.Props.C71_errors_cancel",
    "Verif.Props.C71_single_partial"
   ],
   "note": "FALSE: all instances are folded with the same challenges and summed, so an error in one commitment cancels against the opposite error in another. Proved: an error in a single commitment changes the folded commitment by the challenge times the error."
  },
  {
   "property": "C72",
   "status": "proved",
   "theorems": [
    "Verif.Props.C72_estimate",
    "Verif.Props.C72_fold_norm",
    "Verif.Props.C72_complete"
   ],
   "note": "sop = gamma * d * 2^(128/d) / 2 with gamma the expansion of multiplication by monomials (1 if X^d = -1); needs besides B even and B <= b^k, which the code does not check; exact real numbers instead of f64"
  },
  {
   "property": "C73",
   "status": "partial",
   "theorems": [
    "Verif.Props.C73_bytes",
    "Verif.Props.C73_uniform_partial",
    "Verif.Props.C73_count",
    "Verif.Props.C73_count_128",
    "Verif.Props.C73_not_centred",
    "Verif.Props.C73_abort"
   ],
   "note": "true for the dimensions 16, 32, 64, 128; FALSE otherwise: fewer than 2^128 challenges for all other dimensions, all coefficients negative for 3 <= d <= 14, abort for d <= 2"
  },
  {
   "property": "C74",
   "status": "proved",
   "theorems": [
    "Verif.Props.C74_transcript",
    "Verif.Props.C74_vector_challenge",
    "Verif.Props.C74_vector_short"
   ],
   "note": "contract of the ark-crypto-primitives sponge, confirmed by both test vectors of the repository inside the model"
  },
  {
   "property": "C75",
   "status": "proved",
   "theorems": [
    "Verif.Props.C75_bijective",
    "Verif.Props.C75_step",
    "Verif.Props.C75_never_merge",
    "Verif.Props.C75_block_binding"
   ],
   "note": "drawing a challenge directly after bytes is excluded (the code never does it without absorbing in between)"
  },
  {
   "property": "C76",
   "status": "partial",
   "theorems": [
    "Verif.Props.C76_goldilocks",
    "Verif.Props.C76_stark",
    "Verif.Props.C76_babybear_not_max",
    "Verif.Props.C76_single_partial",
    "Verif.Props.C76_pair_partial"
   ],
   "note": "true for Goldilocks and Stark; FALSE for BabyBear, whose file contains the Goldilocks constants: 5 changed words change only 19 words; for Frog only differences in one or two words are settled"
  },
  {
   "property": "C77",
   "status": "partial",
   "theorems": [
    "Verif.Props.C77_zero_element",
    "Verif.Props.C77_frog",
    "Verif.Props.C77_one_block_partial"
   ],
   "note": "FALSE: no padding, a zero element that fits into the current block leaves all later challenges unchanged (Frog: four elements against the same four and a zero); changes within one block are always visible"
  },
  {
   "property": "C78",
   "status": "proved",
   "theorems": [
    "Verif.Props.C78_bytes_uniform",
    "Verif.Props.C78_rings"
   ],
   "note": "for one squeezed element; different elements of one block are treated as independent by the assumption of the sponge"
  },
  {
   "property": "C79",
   "status": "partial",
   "theorems": [
    "Verif.Props.C79_labels_distinct",
    "Verif.Props.C79_short_labels_partial",
    "Verif.Props.C79_babybear_collision",
    "Verif.Props.C79_squeeze_record"
   ],
   "note": "the labels in use are distinct in all four fields, short labels always are; FALSE for BabyBear in general: zeta_fold_step and fold_norm_norm give the same challenges"
  },
  {
   "property": "C80",
   "status": "proved",
   "theorems": [
    "Verif.Props.C80_comb",
    "Verif.Props.C80_rand_poly"
   ],
   "note": "for polynomials with at least one non-empty product over a field of sufficient characteristic; randomness is a parameter"
  },
  {
   "property": "C81",
   "status": "partial",
   "theorems": [
    "Verif.Props.C81_norm",
    "Verif.Props.C81_hermite",
    "Verif.Props.C81_bits_too_large",
    "Verif.Props.C81_saturated",
    "Verif.Props.C81_saturated_witness",
    "Verif.Props.C81_digits_witness",
    "Verif.Props.C81_digits_partial",
    "Verif.Props.C81_digits_two_partial",
    "Verif.Props.C81_digits_signed_partial"
   ],
   "note": "norm condition holds up to rounding; FALSE: the bit length replaces the logarithm, so the bound is always larger than what it stands for; the bound saturates at 2^64 - 1, which makes the comparison with moduli from 2^65 vacuous; b^l > q/2 does not suffice to represent all residues with balanced digits (it does for b = 2; b^l >= q always does). f64 is modelled by real numbers"
  },
  {
   "property": "C82",
   "status": "partial",
   "theorems": [
    "Verif.Props.C82_r1cs",
    "Verif.Props.C82_r1cs_non_scalar",
    "Verif.Props.C82_degree_three_partial",
    "Verif.Props.C82_public_inputs_ignored",
    "Verif.Props.C82_l_is_one"
   ],
   "note": "FALSE without public inputs: l is always 1, and the CCS then has too few rows for the decomposed witness; true with at least one public input"
  },
  {
   "property": "C83",
   "status": "proved",
   "theorems": [
    "Verif.Props.C83_goldilocks",
    "Verif.Props.C83_babybear",
    "Verif.Props.C83_frog",
    "Verif.Props.C83_stark",
    "Verif.Props.C83_plus_goldilocks",
    "Verif.Props.C83_plus_babybear",
    "Verif.Props.C83_plus_frog",
    "Verif.Props.C83_plus_stark",
    "Verif.Props.C83_babybear_documented_fails"
   ],
   "note": "for the sets the code draws from; the larger set documented for BabyBear (all 72 coefficients) does not have the property (C83_babybear_documented_fails)"
  },
  {
   "property": "C84",
   "status": "proved",
   "theorems": [
    "Verif.Props.C84_goldilocks",
    "Verif.Props.C84_babybear",
    "Verif.Props.C84_frog",
    "Verif.Props.C84_stark",
    "Verif.Props.C84_exists",
    "Verif.Props.C84_factors"
   ],
   "note": "the contract RingData of the model is satisfiable for the four rings and determines the number of components and the extension degree"
  },
  {
   "property": "C85",
   "status": "partial",
   "theorems": [
    "Verif.Props.C85_goldilocks",
    "Verif.Props.C85_babybear",
    "Verif.Props.C85_frog",
    "Verif.Props.C85_stark",
    "Verif.Props.C85_goldilocks_shipped",
    "Verif.Props.C85_babybear_shipped",
    "Verif.Props.C85_frog_shipped",
    "Verif.Props.C85_stark_shipped",
    "Verif.Props.C85_no_decomposition",
    "Verif.Props.C85_params_fit",
    "Verif.Props.C85_test_params",
    "Verif.Props.C85_stark_for_ever",
    "Verif.Props.C85_goldilocks_for_ever_partial",
    "Verif.Props.C85_babybear_for_ever_partial",
    "Verif.Props.C85_frog_for_ever_partial"
   ],
   "note": "exact criterion for all b and K; true for all Stark parameter sets; FALSE for Goldilocks and BabyBear with K < 16 and for Frog with K < 17, among them the defaults of the examples (K = 15) and most benchmark sets: there are challenges and digits for which no decomposition of the folded witness exists"
  },
  {
   "property": "C86",
   "status": "proved",
   "theorems": [
    "Verif.Props.C86_script",
    "Verif.Props.C86_accept_any",
    "Verif.Props.C86_extract",
    "Verif.Props.C86_relaxed_short",
    "Verif.Props.C86_honest_forks",
    "Verif.Props.C86_goldilocks",
    "Verif.Props.C86_babybear",
    "Verif.Props.C86_frog",
    "Verif.Props.C86_stark"
   ],
   "note": "the last challenge is fixed to 1 in the code, so the last witness is obtained from the others and has no shortness bound of this form; the lengths of commitments, public inputs and evaluations are hypotheses, the verifier does not check them"
  },
  {
   "property": "C87",
   "status": "proved",
   "theorems": [
    "Verif.Props.C87_kernel",
    "Verif.Props.C87_goldilocks",
    "Verif.Props.C87_babybear",
    "Verif.Props.C87_frog",
    "Verif.Props.C87_stark"
   ],
   "note": ""
  },
  {
   "property": "C88",
   "status": "proved",
   "theorems": [
    "Verif.Props.C88_knowledge",
    "Verif.Props.C88_knowledge_norm",
    "Verif.Props.C88_goldilocks",
    "Verif.Props.C88_babybear",
    "Verif.Props.C88_frog",
    "Verif.Props.C88_stark",
    "Verif.Props.C88_honest"
   ],
   "note": "interactive model: field challenges and bytes are independent and uniform, and the bytes are drawn after the evaluations are fixed, as in the order of the transcript; the lengths of commitments, points and evaluations are hypotheses, the verifier does not check them. The last witness is only bounded by the larger constant since the code's range check does not cover it (C54). The hypothesis NoShortKernel fails for compressing matrices by pigeonhole; C91 has no such hypothesis"
  },
  {
   "property": "C89",
   "status": "proved",
   "theorems": [
    "Verif.Props.C89_recompose",
    "Verif.Props.C89_norm",
    "Verif.Props.C89_free_commitment"
   ],
   "note": "the number of entries is a hypothesis of the first two theorems; the third shows what happens without it (a variant of C33 that a check of the total number of pieces does not catch)"
  },
  {
   "property": "C90",
   "status": "proved",
   "theorems": [
    "Verif.Props.C90_knowledge",
    "Verif.Props.C90_honest",
    "Verif.Props.C90_goldilocks",
    "Verif.Props.C90_babybear",
    "Verif.Props.C90_frog",
    "Verif.Props.C90_stark"
   ],
   "note": "interactive protocol: challenges are uniformly random and independent, the hash is not modelled as a random oracle here; the shape of the proof is a hypothesis (C33 and C89 show that the verifier must check it). The hypothesis NoShortKernel fails for compressing matrices by pigeonhole; C92 has no such hypothesis"
  },
  {
   "property": "C91",
   "status": "proved",
   "theorems": [
    "Verif.Props.C91_extractor",
    "Verif.Props.C91_count"
   ],
   "note": "interactive protocol: challenges are uniformly random and independent; the shape of the proof is a hypothesis (the verifier does not check it, C33)"
  },
  {
   "property": "C92",
   "status": "proved",
   "theorems": [
    "Verif.Props.C92_extractor",
    "Verif.Props.C92_count",
    "Verif.Props.C92_goldilocks",
    "Verif.Props.C92_babybear",
    "Verif.Props.C92_frog",
    "Verif.Props.C92_stark"
   ],
   "note": "interactive protocol: challenges are uniformly random and independent; the shape of the proof is a hypothesis (the verifier does not check it, C33 and C89); the extractor is a formula in the prover's outputs, its running time is not modelled"
  },
  {
   "property": "C93",
   "status": "proved",
   "theorems": [
    "Verif.Props.C93_linearization"
   ],
   "note": "random oracle model: the challenge is a random function of the whole history of absorbed elements and challenges; that the Poseidon sponge behaves like one is not provable"
  },
  {
   "property": "C94",
   "status": "proved",
   "theorems": [
    "Verif.Props.C94_folding"
   ],
   "note": "random oracle model as in C93; the bytes of the folding coefficients come from a second, arbitrary oracle. The condition on the last witness is the weaker one the code checks (C54)"
  },
  {
   "property": "C95",
   "status": "proved",
   "theorems": [
    "Verif.Props.C95_step",
    "Verif.Props.C95_chain",
    "Verif.Props.C95_honest",
    "Verif.Props.C95_four_rings",
    "Verif.Props.C95_degree_one",
    "Verif.Props.C95_stark"
   ],
   "note": "random oracle model as in C93; that openings are a function of the commitment is the binding assumption in its ideal form (C91 and C92 extract openings or short kernel vectors). The condition on the last piece is the weaker one the code checks (C54); for extension degree one (Stark) all norms are enforced (C95_degree_one, C95_stark)"
  },
  {
   "property": "C96",
   "status": "partial",
   "theorems": [
    "Verif.Props.C96_no_abort_partial",
    "Verif.Props.C96_accepted_fits",
    "Verif.Props.C96_aborts"
   ],
   "note": "FALSE: every accepted proof becomes one that aborts the verifier when a message, a theta, an eta, an entry of u or an entry of a vector of a decomposition is removed, or a theta is added. Proved: a condition on the lengths alone (ProofLens) excludes all aborts, and every accepted proof satisfies it"
  },
  {
   "property": "C97",
   "status": "partial",
   "theorems": [
    "Verif.Props.C97_plus_never_false",
    "Verif.Props.C97_r1cs_never_false",
    "Verif.Props.C97_cm_never_err",
    "Verif.Props.C97_range_aborts",
    "Verif.Props.C97_set_check_partial",
    "Verif.Props.C97_range_partial"
   ],
   "note": "FALSE: for every proof PlusVerifier::verify and ComR1CSProof::verify return true or abort, CmProof::verify returns Ok or aborts, and Dcom::verify aborts when the set check fails. Proved: the set check itself reports errors when the lengths fit, and the range check reports its own checks after an accepted set check"
  },
  {
   "property": "C98",
   "status": "proved",
   "theorems": [
    "Verif.Props.C98_round_trip",
    "Verif.Props.C98_unique",
    "Verif.Props.C98_truncated",
    "Verif.Props.C98_injective",
    "Verif.Props.C98_size",
    "Verif.Props.C98_honest_size",
    "Verif.Props.C98_widths"
   ],
   "note": "the format of ark-serialize 0.4.2 (lengths as u64, little-endian canonical representatives, fields in order) is an external contract (Ext/Serialize); allocation of memory is not modelled"
  },
  {
   "property": "C99",
   "status": "partial",
   "theorems": [
    "Verif.Props.C99_uncompressed_doubled",
    "Verif.Props.C99_compressed_partial"
   ],
   "note": "FALSE: the buffer is not cleared between the two serializations, so the second size is always twice the size of the proof; the first one is right"
  },
  {
   "property": "C100",
   "status": "proved",
   "theorems": [
    "Verif.Props.C100_schedule_independent",
    "Verif.Props.C100_subprotocols",
    "Verif.Props.C100_sumcheck",
    "Verif.Props.C100_buffers",
    "Verif.Props.C100_honest",
    "Verif.Props.C100_error_not_determined"
   ],
   "note": "the prover with feature parallel is a relation between inputs and possible outcomes (Model/Parallel); rayon's contract: contiguous splitting, order-preserving collect, and on failure the error of any failing element. Data races are excluded by the type system and not modelled"
  },
  {
   "property": "C101",
   "status": "proved",
   "theorems": [
    "Verif.Props.C101_errors_combine",
    "Verif.Props.C101_wrong_stays_wrong"
   ],
   "note": "the commitments may be any vectors of the length of the scheme; a commitment of another length is rejected or truncated (see C92 and the notes on lengths)"
  },
  {
   "property": "C102",
   "status": "partial",
   "theorems": [
    "Verif.Props.C102_counterexample",
    "Verif.Props.C102_example_partial",
    "Verif.Props.C102_single_digit_aborts",
    "Verif.Props.C102_single_digit_too_long"
   ],
   "note": "false: the accumulator of the example carries the commitment of the fresh statement, which is not one to wit_acc; proved for all runs: everything succeeds, and start and end are valid exactly if the two witnesses have the same commitment; counterexample over the field with 257 elements for every transcript; with one digit per element (L = 1) the example aborts in the set-up if the number of witness elements is a power of two, and in the linearization if it is one less"
  },
  {
   "property": "C103",
   "status": "partial",
   "theorems": [
    "Verif.Props.C103_non_scalar_aborts",
    "Verif.Props.C103_names_wrong",
    "Verif.Props.C103_setup_partial",
    "Verif.Props.C103_groups_partial",
    "Verif.Props.C103_single_digit_partial",
    "Verif.Props.C103_single_digit_aborts"
   ],
   "note": "false: the set-up NonScalar aborts for all L at least 2, and six of the twelve groups generate another kind than named; proved: the two other set-ups give valid instances of fitting sizes. With L = 1 and a power of two of witness elements only the set-up Scalar succeeds, the two others abort"
  },
  {
   "property": "C104",
   "status": "partial",
   "theorems": [
    "Verif.Props.C104_split_iff",
    "Verif.Props.C104_split_table",
    "Verif.Props.C104_validation_boundary",
    "Verif.Props.C104_setchk",
    "Verif.Props.C104_setchk_table",
    "Verif.Props.C104_rgchk",
    "Verif.Props.C104_rgchk_table",
    "Verif.Props.C104_mlin_partial",
    "Verif.Props.C104_mlin_not_power",
    "Verif.Props.C104_mlin_too_long",
    "Verif.Props.C104_mlin_table",
    "Verif.Props.C104_lin",
    "Verif.Props.C104_lin_table",
    "Verif.Props.C104_e2e",
    "Verif.Props.C104_e2e_table",
    "Verif.Props.C104_cm",
    "Verif.Props.C104_cm_table",
    "Verif.Props.C104_decomp",
    "Verif.Props.C104_decomp_table",
    "Verif.Props.C104_dc",
    "Verif.Props.C104_dc_table"
   ],
   "note": "false: three of the split sets abort, the multi fold sets (4, 98304, 3, 2, 50) and (4, 65536, 2, 5, 50) do not finish, and the validation accepts the exact length at which split aborts; all the other sets are shown to run, for every transcript"
  },
  {
   "property": "C105",
   "status": "partial",
   "theorems": [
    "Verif.Props.C105_builder_iff",
    "Verif.Props.C105_mlin_iff",
    "Verif.Props.C105_satisfied_partial",
    "Verif.Props.C105_basic",
    "Verif.Props.C105_first_entry",
    "Verif.Props.C105_decomp"
   ],
   "note": "false: instance i of the multi fold benchmark is satisfied exactly if i mod 10 is at most 1, so sets with three or more instances contain unsatisfied ones; satisfied for the single fold, decomposition and end-to-end benchmarks"
  },
  {
   "property": "C106",
   "status": "partial",
   "theorems": [
    "Verif.Props.C106_bound_iff",
    "Verif.Props.C106_no_bound",
    "Verif.Props.C106_five_digits_partial",
    "Verif.Props.C106_overflow",
    "Verif.Props.C106_e2e_overflow"
   ],
   "note": "false: with at most four digits no bound works for two or more instances, and for the bounds of the end-to-end benchmark with two and three instances witnesses and challenges are given for which the fold overflows; exact condition for a bound to exist, five digits work for up to fifteen instances (then C72 applies)"
  },
  {
   "property": "C107",
   "status": "partial",
   "theorems": [
    "Verif.Props.C107_accepted_iff",
    "Verif.Props.C107_not_sound",
    "Verif.Props.C107_step_not_sound",
    "Verif.Props.C61_sound"
   ],
   "note": "false: neither the commitment nor the R1CS is absorbed before the point r is drawn, so for every transcript and state a vector violating x_i = 0 is given whose honest linearization is accepted, and an unsatisfied R1CS for which the whole accumulation step is accepted; proved: the exact condition (the extension of the row errors vanishes at r), and soundness when the vector is fixed before the challenges (C61)"
  },
  {
   "property": "C108",
   "status": "partial",
   "theorems": [
    "Verif.Props.C108_protocol",
    "Verif.Props.C108_documented_partial",
    "Verif.Props.C108_ajtai",
    "Verif.Props.C108_readme_commands",
    "Verif.Props.C108_bad_number_ignored",
    "Verif.Props.C108_w_ignored"
   ],
   "note": "false: the commitment benchmarks ignore the flags for rings and subprotocols and all numbers, so two of the three documented commands run more than they say; numbers that do not parse and the documented variable W are ignored; proved: the exact selection, which is the documented one for the protocol benchmarks when all numbers are plain decimal numerals"
  },
  {
   "property": "C109",
   "status": "partial",
   "theorems": [
    "Verif.Props.C109_honest_partial",
    "Verif.Props.C109_point_free",
    "Verif.Props.C109_other_point",
    "Verif.Props.C109_point_not_checked",
    "Verif.Props.C109_range_lost"
   ],
   "note": "false: Out::verify never reads its field r and CmProof::verify uses it as sent; the set check can be run for one vector and the fold for another with the same evaluations at another point. With identity matrices any vector with one entry in the range is accepted (C109_range_lost). Proved: the honest prover sends the right point"
  },
  {
   "property": "C110",
   "status": "partial",
   "theorems": [
    "Verif.Props.C110_params_free",
    "Verif.Props.C110_base_partial",
    "Verif.Props.C110_prover_chooses_range",
    "Verif.Props.C110_witness"
   ],
   "note": "false for the range: the verifier takes k, l and the number of variables from the proof and never reads params.lin; a witness of two digits is accepted by a verifier for one digit. Proved: the base B is the one of the verifier"
  },
  {
   "property": "C111",
   "status": "partial",
   "theorems": [
    "Verif.Props.C111_honest_partial",
    "Verif.Props.C111_bad_step_forgotten",
    "Verif.Props.C111_witness"
   ],
   "note": "false: the verifier keeps nothing but the transcript between two calls; after a step for an arbitrary instance the prover may begin again with an empty accumulator, and the final accumulator is true. Proved: the proofs of PlusProver::prove are linked"
  },
  {
   "property": "C112",
   "status": "partial",
   "theorems": [
    "Verif.Props.C112_surplus_ignored",
    "Verif.Props.C112_forged",
    "Verif.Props.C112_forged_count",
    "Verif.Props.C112_witness",
    "Verif.Props.C112_step_count",
    "Verif.Props.C112_step_witness",
    "Verif.Props.C112_exact_partial"
   ],
   "note": "FALSE: the final check sums over all entries of eta_s[i], the folded u only takes the first t. One surplus entry makes any statements with openable commitments (false evaluations, witnesses out of range) fold to a true statement, for all but (s+1)/|F| of the challenges; so does a whole NIFS step, with K pieces in each decomposition. Proved: with t entries each, all of them enter the folded statement"
  },
  {
   "property": "C113",
   "status": "partial",
   "theorems": [
    "Verif.Props.C113_product_partial",
    "Verif.Props.C113_empty",
    "Verif.Props.C113_assoc",
    "Verif.Props.C113_tensor",
    "Verif.Props.C113_inner"
   ],
   "note": "FALSE for empty vectors: an empty factor is ignored instead of giving an empty product (documented length m*n). Proved for nonempty vectors; tensor(r) and the inner product for all r."
  },
  {
   "property": "C114",
   "status": "proved",
   "theorems": [
    "Verif.Props.C114_ring",
    "Verif.Props.C114_parameters",
    "Verif.Props.C114_fresh",
    "Verif.Props.C114_history",
    "Verif.Props.C114_ring_unwatched",
    "Verif.Props.C114_documented_fit",
    "Verif.Props.C114_runs",
    "Verif.Props.C114_default_runs"
   ],
   "note": "Proved for the repository as it is, where one of the watched paths does not exist, so that cargo reruns the script on every build. C114_ring_unwatched shows that the property rests on this: RING is not among the watched variables, and with the path corrected the examples would stay with the ring of an earlier build. Values that are not numerals are covered for the two defaults only; PARAM_X_LEN is undocumented and has to be unset. Cargo and the compiler enter by contracts. C114_runs and C114_default_runs: with fitting settings, in particular the defaults of each ring, the example built from them runs through and its proof is accepted."
  }
 ]
}