# Design of the LatticeFold verification

The subject is the Rust workspace in `/repo` (crates `latticefold`, `cyclotomic-rings`,
`latticefold-plus`). The Lean 4 development under `lean/Verif` contains

* `Verif/Basic.lean` - errors, list helpers;
* `Verif/Ext/*` - contracts of external crates (MLEs, sparse matrices, transcript, ring data,
  decomposition) that the code calls but whose source is not in the repository;
* `Verif/Model/*` - the code, function by function, every definition citing file and lines;
* `Verif/Spec/*` - short independent specifications;
* `Verif/Lemmas/*` - helper lemmas;
* `Verif/Props/*` - one file per group of properties: the property theorems and, beside each, an
  `example` with a concrete instance of the hypotheses. Where the file of a theorem has none, it is in `Props/GalleryBasic`,
  `Props/GalleryProtocol` or `Props/GalleryPlus`.

## Modelling conventions

* `usize` is `Nat`; a subtraction that would underflow is the explicit error `Err.panic`
  (debug-profile semantics). Overflow of additions/multiplications on `usize` is not modelled, nor
  is memory exhaustion. Where integer overflow of fixed-width types matters (interpolation,
  `calculate_b_s`) it is modelled explicitly.
* `Result<_, E>` is `Except Err`; the error enums of the crate are flattened into `Err`. Ring
  elements carried inside error values are dropped.
* Panics (`[]` out of bounds, `unwrap`, `expect`, `assert!`, division by zero) are `Err.panic site`.
* `&mut` arguments are returned. Loops are folds/recursion. `rayon` iterators are modelled by their
  sequential order except in C24 and C100, where arbitrary splittings are modelled; C100 shows that for the prover of `latticefold`
  this makes no difference to the results.
* The base field `R::BaseRing` is a field `F`, the ring `R` a commutative `F`-algebra;
  `From<BaseRing>` is `algebraMap`. Zero divisors in `R` are allowed everywhere.
* The Fiat-Shamir transcript is an arbitrary state machine (`Transcript` structure with arbitrary
  state type and functions): all theorems about protocols are for *every* transcript. The
  Poseidon transcript is one instance (`poseidonT`, C74-C79). Soundness is stated for the interactive
  challenges (counting), as exact characterisations of acceptance, or (C93-C95) by counting the oracles
  of the transcript `oracleT`; that a hash function behaves like a random oracle is nowhere assumed.

## External contracts (part of the trusted base)

`stark-rings`, `stark-rings-poly`, `stark-rings-linalg`, arkworks and rayon are not in the sandbox.
Assumed behaviour, as documented next to the Lean definitions in `Verif/Ext`:

* `DenseMultilinearExtension`: a table of `2^nv` values with implicit trailing zeros;
  `fix_variables` binds the lowest variable; `evaluate` returns `None` unless the point has `nv`
  entries; `from_evaluations_vec` panics if the table is too long; `+=` and `*=` are pointwise.
* `SparseMatrix {nrows, ncols, coeffs}`: rows of `(value, column)` pairs, `pad_rows` appends empty rows.
* `Matrix::checked_mul_vec`: the usual product, `None` on length mismatch.
* CRT/ICRT are mutually inverse ring isomorphisms; decompositions recompose to their input and
  have small digits (under the stated size condition). Decomposition with `k` digits in base `b` is
  assumed to work for all integers with `2|n| <= reach b k = b (1 + b + .. + b^(k-1))`, the largest
  range for which it can (remainders are rounded so that ties keep the sign).
* `latticefold-plus` `short_challenge`: the transcript returns as many bytes as it is asked for (`BytesOK`).
* sparse `gadget_decompose` (only in the last part of C60): decomposed matrix times digits equals matrix times vector.
* `ark_crypto_primitives` 0.4.0 Poseidon sponge (`Ext/Poseidon`), confirmed by the two test vectors of the repository (`Props/PoseidonVector`). The moduli of the four
  prime fields (`stark-rings`); ring elements are given by `N` coefficients of `τ` prime field elements each (`Encoding`).
* `ark-serialize` 0.4.2 (`Ext/Serialize`): `Vec` as `u64` length and entries, arrays as their entries, prime field elements as the
  little-endian bytes of the canonical representative (others are rejected), structures as their fields in order. Memory is not modelled.
* `rayon` (`Model/Parallel`): indexed iterators are split into contiguous parts, `collect` keeps the order, `fold`/`reduce` combine the
  parts in order with the given identity; collecting into `Result` returns the error of any failing element.
* `SparseMatrix::identity` and `SparseMatrix::gadget_decompose(b, k)`: every stored entry `(v, j)` becomes `(v b^i, j k + i)` for `i < k` (Model/PlusBench).
* The floating-point logarithms `(q as f64).log(b)` of the benchmarks are taken as exact; for the Frog modulus and base 8 the value is 21.26, far from an integer.
* `std::env::var` returns the value or nothing; `str::parse` for `usize` and `u128` accepts an optional plus sign and decimal digits that fit (C108).
* `ark_std::log2(n)` is the ceiling of the base-2 logarithm.

## Trusted base

Lean's kernel; the axioms `propext`, `Classical.choice`, `Quot.sound` (no theorem may use others);
the faithfulness of `Verif/Model` and `Verif/Ext` to the Rust text; the statements in `Verif/Props`.

## Per-property plan

| id | modelled | proof |
|----|----------|-------|
| C01 | `AjtaiCommitmentScheme::{commit,kappa,width}`, `Commitment` ops | direct, linearity of inner product |
| C02 | `commit_coeff`, `decompose_and_commit_*`, `Witness::from_w_ccs` | unfolding + decomposition contract |
| C03 | `AjtaiCommitmentScheme::rand` | **false**: `vec![vec![rand; n]; kappa]` clones one sample. Prove collision for every tape; partial: kappa/width and commit shape |
| C04 | operators | module laws, explicit mismatched-length law |
| C05 | `R1CS::check_relation` | iff with row-wise spec; **false** in general for ragged instances: witness; |
| C06 | `relax`, relaxed check | iff, same verdict |
| C07 | `from_r1cs`, `from_r1cs_padded`, `pad_rows_to` | same verdict if rows <= m; negative witness otherwise |
| C08 | `CCS::check_relation` | iff with row-wise spec |
| C09 | `to_r1cs` | same verdict |
| C10 | `ConstraintSystem` | iff, panic characterisation |
| C11 | `swap_AB_if_beneficial` | commutativity; count invariant |
| C12 | `get_z_vector` | list equality, index facts |
| C13 | `params_to_le_bytes` | injectivity of little-endian; negative witness for the rest |
| C14 | `sanity_check` (3 copies) | iff |
| C15, C16 | `eq_eval`, `build_eq_x_r*` | induction on dimension |
| C17, C18 | `Evaluate`, `evaluate_mles`, `to_mles_err` | induction on dimension |
| C19 | `bit_decompose` | binary expansion |
| C20 | `prove_as_subprotocol`, `prove_round`, `verify_*` | induction on rounds, Lagrange interpolation |
| C21 | verifier as above | counting over challenge vectors against adaptive strategies |
| C22 | `interpolate_uni_poly`, factorials | algebra; Mathlib Lagrange basis as spec |
| C23 | same as C20 | induction on rounds |
| C24 | `fold`/`reduce` as a binary splitting tree | additive homomorphism |
| C25 | verifier panics | **false**: characterise exactly the panicking proofs; negation with witness |
| C26 | `verify_as_subprotocol` | **false**: trailing messages ignored |
| C27 | linearization prover and verifier | from C20, C08, C15 |
| C28 | `prepare_lin_sumcheck_polynomial`, comb fn | **false** for repeated/out-of-order multisets; partial under sequential order |
| C29 | linearization verifier | iff |
| C30-C32 | decomposition | linearity of everything in sight |
| C33 | decomposition verifier | **false**: no length checks; witness |
| C34, C35 | folding comb fn, expected value | algebra |
| C36, C37 | folding | from C20, C34, C35, C43 |
| C38 | folding verifier | **false**: extra statements ignored |
| C39 | NIFS | composition of C27, C30, C36 |
| C40 | NIFS verifier | **false**: explicit forgery accepted for every statement and transcript |
| C41 | `absorb_public_input` | **false** across field boundaries; partial with fixed lengths |
| C42, C43 | `rot_sum`, `rot_lin_combination` | linear algebra over the power basis |
| C44, C45 | challenge decoders | bit arithmetic, bijection |
| C48 | challenge decoders | **false** for BabyBear (24 of 72 coefficients filled): `X^24` never produced; partial for the other rings |
| C49 | all verifiers on a recording transcript whose answers are an arbitrary function of the record (`Spec/Log`) | proved: the final record is computed exactly, then shown injective for fixed lengths |
| C46 | `Witness` constructors | contract + list algebra |
| C47 | iterated NIFS | induction on history |
| C50 | `latticefold-plus` `setchk.rs` `ev` | `p(X)^2 = p(X^2)` iff monomial (coefficient induction), root counting |
| C51 | `In::set_check`, `Out::verify` | from C20; **false** for one matrix set with vector sets: exact condition and witness |
| C52 | `Out::verify` | Schwartz-Zippel along the challenge tape, then C21 |
| C55 | `RgInstance::from_f`, `split` | index lemmas for nested flattenings; contracts of `exp`, `psi`, decompositions |
| C56 | `Rg::range_check`, `Dcom::verify` | from C51 and linearity of `ct(psi * .)`; **false** for one matrix of monomials and for non-scalar matrices |
| C57 | `Dcom::verify` | exact acceptance condition; **false**: `f` itself is never linked to the digits |
| C58 | `Cm::prove`, `CmProof::verify` | both sum-checks from C20; tensor index lemmas (`inner_tz`); linearity; `C58_own_matrices_partial` allows every instance a commitment matrix of its own; **false** if matrices are given and `n` is not a power of two |
| C59 | `CmProof::verify` | **false**: `C57` carried through the commitment transformation |
| C60 | `ComR1CS::{new, linearize}`, `ComR1CSProof::verify`, `r1cs_decomposed_square` | from C20; digits by contract |
| C61 | `ComR1CSProof::verify` on a tape of challenges | Schwartz-Zippel in the `eq` point, then C21 |
| C62 | `Decomp::decompose`, `DecompProof::verify` | linearity; two-digit recomposition |
| C63 | `Linearize` instances, `Mlin::mlin`, `LinB::lin` | C55, C58, then linearity of commitments and evaluations; the remaining case of one instance with one digit (Props/PlusOne) from `C51_one_matrix_iff`: accepted exactly if the term of `m_tau` vanishes; `C63_one_rejected` is a concrete fold on which it does not |
| C64 | `PlusProver::prove`, `PlusVerifier::verify`, successive calls | induction on the history from C60, C62, C63 |
| C65 | `CmProof::verify` | **false**: a proof with no range-check instance folds any commitments; exact form of the result |
| C66 | `PlusVerifier::verify` | **false**: exact acceptance condition, two attacks |
| C67 | verifiers of `latticefold-plus` | recording transcript over an arbitrary oracle, exact record of accepted runs |
| C68 | `CmProof::verify` | **false**: commitments are free; with the same shape the record determines all absorbed parts |
| C69 | `In::set_check`, `Out::verify` | **false**: a matrix built from the challenge `beta`; sound for fixed sets (C52) |
| C70 | `verify_sumcheck` in `cm.rs` | **false** for two or more instances; the rest by Schwartz-Zippel in the combining challenge, then C21 |
| C71 | `CmProof::x`, `Mlin::mlin` | **false**: opposite errors in two commitments cancel; a single error does not |
| C72 | `estimate_bound`, `PlusProver::prove` | real square root (`Real.sqrt`, no rounding); norms of products from the expansion `gamma` of monomials; induction on the calls; example with `d = 16`, `k = 5`, `B = 6232`, Goldilocks prime |
| C73 | `short_challenge` | counting of byte sequences; **false** unless `d` is 16, 32, 64 or 128 |
| C74 | `PoseidonTranscript`, ark sponge (`Ext/Poseidon`) | unfolding, counting; the test vectors by a table of the states after each round, each step checked by the kernel |
| C75 | `get_poseidon_config` of the four rings, all constants | primes by Lucas certificates; exponents by Fermat; inverse matrices given as certificates (`Lemmas/PoseidonData`) and multiplied out by the kernel; induction over the operations |
| C76 | `mds` of the four rings | Goldilocks: the matrix is a Cauchy matrix (certificate), weights by polynomial roots; Stark: all minors; **false** for BabyBear (witness); Frog: entries and 2 × 2 minors of the matrix and its inverse (`C76_single_partial`, `C76_pair_partial`) |
| C77 | `absorb` | index of the sponge after absorbing; **false**: explicit collision without padding |
| C78 | `squeeze_bytes` | counting residues |
| C79 | `squeeze_challenges`, labels in `nifs` | base-256 digits; **false** for BabyBear (witness) |
| C80 | `rand_poly`, `product_sum`, `rand_poly_comb_fn` (random draws are a parameter) | invariant of the loop, completeness of the sum-check |
| C81 | `security_check.rs`; `f64` by real numbers, saturating casts | inequality of means for the Hermite length; **false** (bit length, saturation, digits): witnesses with checked bounds on `log 1.0045` |
| C82 | `get_test_dummy_r1cs`, `get_test_dummy_r1cs_non_scalar`, `get_test_dummy_degree_three_ccs_non_scalar` | diagonal matrices, C05, C08; **false** without public inputs (witness) |
| C83 | the decoders of C44/C45 and `short_challenge` over any ring with the documented prime and cyclotomic polynomial | an element whose coefficients are short has a resultant with `Φ_k` that is not zero and smaller than `p` (mean inequality over the complex roots), hence vanishes in no slot; BabyBear: kernel computation over the 8 roots of unity for the three coefficients per slot |
| C84 | `RingData` (the contract of `SuitableRing`) for the four rings | degree of a root of `Φ_n` over the prime field = order of `p` modulo `n`; dimension count; explicit construction `Example.ringRq` |
| C85 | the parameter sets of `build.rs`, `config.toml` and `decomposition_parameters.rs` as data; `NormOK` of C47 | multiplication table of `X^m` modulo the cyclotomic polynomial, sums of absolute values by kernel computation (36, 47, 16, 16), challenges that attain them; together with C47 accumulation for ever |
| C86 | `foldVerify` run on a transcript whose byte requests are answered by a script (`Spec/Fork.lean`); nothing else of the transcript changes | the verifier's output is the combination of the claimed statements by the decoded challenges (also `RotSum` as scalar multiplication); linear algebra over a module; the four rings by C83 |
| C87 | Ajtai commitment, challenge decoding | `z = d d' (f - f')`, bounded by the multiplication tables of C85 |
| C88 | `foldVerify` on a tape of field challenges and a script of bytes; a prover is a function of the tape | counting: for one choice of bytes many tapes succeed together with forks in each coordinate; C86 gives openings, which are the same on all tapes by C87 (the last one because the bytes are the same), so C54 applies; the honest prover's messages depend on earlier challenges only (`Lemmas/Causal.lean`) |
| C89 | `decVerify` (as in C31) | the linearized relation at a point is closed under integer combinations (`lcccs_comb_nat`), C31 says that the statement is such a combination; digit bound by induction; `C89_free_commitment` constructs the accepted proof with a surplus commitment |
| C90 | `nifsVerify` (as in C39) with random challenges; a prover is `NifsProver` (functions of the earlier challenges) | the verifier on a tape splits in linearization, decompositions and folding (`nifs_tape`); counting rows with many accepting entries (`heavy_rows`); for such a row C88 gives witnesses of the pieces and C89 of the accumulator and the linearized statement; all rows give the same witness by binding; C53 then gives satisfaction. `C90_honest`: C27, C30, C88 with causality of the prover (`lin_causal`). Example: `F_257` |
| C91 | `foldVerify` as in C88; `extract` and `collide` (Spec/Extractor) are the extractor: explicit formulas in the prover's outputs for a challenge vector and its variations in one coordinate | C88's hypothesis `NoShortKernel` is false for every compressing matrix (pigeonhole), so there C88 says nothing. Here: if the extracted vectors are not witnesses, C54 bounds the challenges for which the verifier accepts with these vectors as claimed openings; a second family outside this set whose extracted vectors differ gives a kernel vector (`kernel_diff`, `forked_extract`). `C91_count` counts by Cauchy-Schwarz (`pair_count`). Example with the compressing matrix `(1 2)` over `F_257`, for which `NoShortKernel` fails (`kernelC`) |
| C92 | `nifsVerify` as in C90; `recombine`, `diffVec` | as C90 with C91 in place of C88 and without binding: two families of runs with different linearization challenges recombine to the same fresh opening or give a kernel vector; C53 bounds the challenges with a false claim. `C92_count` counts pairs of families (`quad_count`). Same example |
| C93 | `linVerify` with the transcript `oracleT` (Spec/Oracle): its state is the list of everything absorbed or handed out, a challenge is the value of an oracle at this list. Adversaries are decision trees of queries (`Alg`) | `hit_count`: an algorithm with q queries meets one of at most δ bad answers per query with at most a fraction qδ/|F| of the oracles on a finite set, by induction on the tree over partially fixed oracles. Bad answers are read off the query (`rbrBad`): in the first phase those after which the CCS defect vanishes whatever follows, in the sum-check those at which the last message agrees with the true partial sum. An accepted forgery has a bad answer among the verifier's queries (`lin_bad`). Example over `F_49` |
| C94 | `foldVerify` with `oracleT` | the same with the defect of C54 (`foldDefect`), of degree at most max(τ, |M|) in each challenge; a point where it does not vanish exists by the count of C54 unless the bound is trivial. Example over `F_49` with K = 1 |
| C95 | `nifsVerify` and `ivcVerify` with `oracleT`; the openings of commitments are a function of the commitment | the statements are read back from the history at the end of an absorption (`readPieces`, Lemmas/Parse), so that they are functions of the query; `linVerify_out`, C89's `dec_run` and the bad answers of C93 and C94 (`stepBad`). For the chain the verifiers' queries are made by one algorithm (`chainA`) which continues after a step with the verifier run on the answers recorded in the history (`tableO`). `C95_honest`: the honest prover meets the conditions on openings with every oracle (`foldProve_evals`, `decProve_recombined`). `C95_four_rings`: the bound in numbers for the fields of the four rings (2^100 queries, at most one of 2^74 oracles). `C95_degree_one`, `C95_stark`: for extension degree one also the last piece and the fresh opening are short (`StepSound`). Examples over `F_257` and the Goldilocks ring |
| C96 | `nifsVerify` and everything it calls; aborts are the error `panic` | **false** (`C96_aborts`: seven changes of lengths of any accepted proof); `ProofLens` (Spec/ProofShape, lengths only) excludes aborts (`C96_no_abort_partial`) and follows from acceptance (`C96_accepted_fits`). Example over `F_257` with every transcript |
| C97 | `plusVerify`, `ComR1CSProof.verify`, `cmVerify`, `dcomVerify`, `setVerify`; aborts are the error `panic` | **false** (`C97_plus_never_false`, `C97_r1cs_never_false`, `C97_cm_never_err`, `C97_range_aborts`, for all proofs); `C97_set_check_partial`, `C97_range_partial`. Examples over `F_17` |
| C98 | the derived `CanonicalSerialize`/`CanonicalDeserialize` of all parts of a proof (Model/Serialize) over the contract of ark-serialize (Ext/Serialize) | a codec is `Good` if reading inverts writing and only written bytes are read; closed under arrays, vectors and structures. `C98_honest_size` from the shapes of honest proofs. Examples over `F_257` with literal bytes |
| C99 | `exampleSizes`, the buffer of `examples/e2e.rs` | **false** (`C99_uncompressed_doubled`, for all proofs); `C99_compressed_partial` |
| C100 | the prover with feature `parallel` as a relation (`Par.ND`: the set of possible outcomes), with the scratch buffers that are reused within a chunk (Model/Parallel) | `SameResult` (Spec/Parallel) is preserved by sequencing and by parallel loops; the buffers by invariants on their sizes; the round message by C24's associativity. `C100_error_not_determined` shows the limit. Examples: an uneven schedule computed, the honest step on `fresh257` |
| C101 | `nifsProve`, `nifsVerify` as in C39 | the completeness proof of decomposition and folding is redone for `LcccsUpToCm` (the linearized relation without the opening; Lemmas/Mismatch, `fold_complete_open`), with the error of the commitment carried along: piece 0 of a decomposition takes the whole error because it is computed as `cm - Σ b^k y_k`. Example: an accumulator over `F_257` with a replaced commitment, every transcript |
| C102 | `setup_example_environment`, `main` of the example (Model/Bench) | negation by a run over `F_257` for every transcript; `C102_example_partial`: what the run does for all rings and parameters with `L ≥ 2` |
| C103 | `benches/utils.rs` (three generators, `setup_r1cs`), the table of groups in `build.rs` (Model/Bench) | negations `C103_non_scalar_aborts` (all rings, sizes, `L ≥ 2`) and `C103_names_wrong`; `C103_setup_partial` for the other two kinds; one digit per element: `C103_single_digit_partial`, `C103_single_digit_aborts` (Props/SingleDigit) |
| C104 | `benches/utils/helpers.rs`, `mod.rs` (tables), set-up and measured functions of `split`, `setchk`, `rgchk`, `cm`, `lin`, `mlin`, `decomp`, `double_commitment`, `e2e` (Model/PlusBench) | reduction to C51, C55, C58, C60, C62, C63, C71 with the numbers of the Frog field (`benchDecomp_frog`: base 8, 22 digits); the tables by `decide +kernel` on the inequalities; negations `C104_split_table`, `C104_mlin_not_power`, `C104_mlin_too_long`, `C104_validation_boundary` |
| C105 | `R1CSBuilder`, `WitnessPattern` (Model/PlusBench) | the gadget matrix times the digits is the identity times the vector (Lemmas/PlusBench); negation `C105_mlin_iff` |
| C106 | `estimate_bound`, `mlin`, parameters of `e2e` | `C106_bound_iff` from the exact value of the estimate (C72); `C106_overflow`: constant witnesses `B/2` and challenges with all coefficients -128, the last coefficient of the product in `F_p[X]/(X^16+1)` is the sum of all products; C58 and C63 were strengthened to say in which transcript state the folding challenges are drawn |
| C107 | `ComR1CS::linearize`, `ComR1CSProof::verify`, `PlusProver::prove`, `PlusVerifier::verify` | `C107_accepted_iff`: the sum over the cube is the extension of the row errors at `r` (C20, `claim_unique`); negations choose the errors of rows 0 and 1 as `-w_1`, `w_0` for the weights `w` of the point; the step via `plusStep_lin` (Props/PlusFold) |
| C108 | `env.rs`, the conditions in the code generated by `build.rs` (Model/BenchEnv); `str::parse` for unsigned integers is written out; the rendering of the generated code is not modelled | `Selected`, `filters` (Spec/BenchEnv) state the documentation; case analysis on the flags, `parseUInt_repr` for the numbers |
| C109 | `setVerify`, `dcomVerify`, `cmVerify` as in C51 - C59 | `C109_point_free` by definition; `C109_other_point`: the checks of C57 for the evaluations of one list of instances, the fold (`cmTail_run`) for another; for constant vectors the rows of the matrices of monomials are equal (`fromF_const`), so their extensions are constant |
| C110 | `plusVerify` as in C64 | definition of `plusVerify`, with C64 for the honest run |
| C111 | `plusProve`, `plusVerify` as in C64 | `plusProve_coms`: the commitments in a proof of the prover, from C63; the attack is C66 followed by an honest step from the empty accumulator |
| C112 | `foldVerify` as in C35 to C38; the attacker is the explicit program `forgeFold` | `computeFolded_surplus`: surplus entries of `eta` do not change the output; sum-check of the table `[claim, 0, ..]` by C20; the output for the true evaluations by `out_comb` (from C86) and `lcccs_comb`; the counting is Schwartz-Zippel for `eq`; `forgeNifs` does the same for a whole step, with the zero table for linearization and `K` pieces of which all but the first are zero |
| C113 | `tensor_product`, `tensor` (Model/PlusUtils) | **false** for empty vectors (an empty factor is ignored); the entries by `flatten_getD`, `tensor` by induction from the end of the list against `eqWeight` (Spec/Mle) |
| C114 | `generate_code_for_examples` and the watch directives of `build.rs` (Model/ExampleEnv); cargo's rule for rerunning the script is a contract (`rerun`), the value of a text as constant expression a parameter (`EvalOK`) | `ringNames`, `documented` (Spec/ExampleEnv) state the README; case analysis on the ring; the missing watched path forces a rerun; `C114_runs`, `C114_default_runs` (Props/ExampleRuns): the example built with fitting settings runs through, from C101 |
| C53 | `LFLinearizationVerifier::verify` on a tape of challenges | Schwartz-Zippel in `beta`, then C21 |
| C54 | `LFFoldingVerifier::verify` on a tape of challenges | **false** for the last witness; partial: defect is a polynomial in the challenges (`Lemmas/FoldingSound`), then C21. `C54_step_long` runs the linearization, both decompositions and the fold with a last piece out of range; `C54_any_coefficient` counts dimensions: vectors with opposite coefficients in pairs pass the check, and the commitment matrix together with the recomposition has a kernel among them; `C54_any_commitment` solves for any commitment if that map is onto, `C54_almost_all_matrices` (Props/LongRandom) counts the matrices for which it is not (a functional that vanishes on the image; for each functional the values at pairs of entries are independent), `C54_false_statement` is a statement without witness over `F_7[X]/(X^2+1)` (Props/LongStep); Props/LongUnnoticed: the folded witness is in range although the last piece is not, since the last factor is 1 (norm bound as in C85); any pair list is divided by `b^(K-1)` with rest, the rest goes to the lower pieces; Props/LongMost: lists with short entries that recompose to zero, counted with the second moment (`Lemmas/SecondMoment`), evaluated for the lines of the configuration (`Model/BenchLines`) |

Not modelled: the rendering of the generated code in `build.rs` (its table of groups is, C103, the conditions in the generated code, C108, and the settings of the examples, C114) and the measuring parts of benches and examples (set-up and flow are, C102, C103).

## Findings: places where the code violates a stated property

Each is a theorem in `Verif/Props` (negation with witness) and is marked `partial` in the manifest.

* **C03** `AjtaiCommitmentScheme::rand` clones one random element over the whole matrix.
* **C05, C07** ragged R1CS instances are truncated by `zip`s; padding never reduces rows.
* **C13** parts of the parameters are not covered by the byte encoding.
* **C25, C26** the sum-check verifier panics on malformed proofs and ignores trailing messages.
* **C28** the linearization combining function numbers the tables by order of first use, while the
  multisets hold matrix indices: a CCS whose matrices are used out of order is mishandled.
* **C33** the decomposition verifier checks no lengths: a proof with a single piece, or with extra
  pieces beyond `K`, is accepted.
* **C38** the folding verifier does not check the number of statements: those after `2K` are ignored.
* **C40** consequence of C33 and C38: the NIFS verifier accepts a proof for *every* fresh
  statement. The left decomposition proof lists the `K` pieces of the old accumulator twice (the second copy is not
  part of the recomposition sum), the right one is the single trivial piece, the linearization proof is zero, and
  folding only sees the first `2K` statements. `C40_false_statement_accepted` instantiates this with an unsatisfiable
  constraint. Checking that every component of a decomposition proof has exactly `K` entries restores
  `C40_statement_folded_partial`.
* **C41** the transcript absorbs neither lengths nor the constraint system.
* **C48** BabyBear's challenge decoder fills 24 of the 72 coefficients.
* **C56** an honest range check with a single matrix of monomials is rejected (consequence of C51), and so is one with a matrix that has an
  entry outside the base field, because `ct(psi * .)` only commutes with base field scalars (`C56_rejected`, `C56_nonscalar_rejected`).
* **C57** `Dcom::verify` computes `v` from the digits but never compares it with `c[0] = f~(r)` (there is a TODO in the code), never compares `b[0]`
  with the evaluations `out.b` of the set check, and does not fix the number of instances. So a prover can run the check on digits of another
  vector (`C57_range_not_established`) and commit to a vector that is not short.
* **C58** `Cm::prove` multiplies the matrices with `h`, which it has padded to `2^nvars` entries, so with matrices and a length that is not a power of
  two it always aborts (`C58_not_power_of_two`), although the range check before it works for such lengths.
* **C59** consequence of C57: an accepted proof of the commitment transformation with commitments to vectors that are not short.
* **C63** for one instance with one digit (`k = 1`) the honest fold is correct but the verifier aborts on its proof unless the term of
  `m_tau` in the set check vanishes (`C63_one_iff`, `C63_one_rejected`; the cause is C51). It vanishes for instance if `m_tau` is constant
  and the witness length is a power of two.
* **C63** `Mlin::mlin` reads only the witnesses of its instances; their commitments, points and evaluations do not enter the proof
  (`C63_claims_unused`), so neither prover nor verifier connects the fold with the linearized R1CS or with the accumulator.
* **C65** `CmProof::verify` does not compare the lengths of `dcom.evals`, `dcom.fcoms` and `evals`. A proof with `fcoms` but no `evals` is accepted with
  any commitments and any folded commitments (`C65_no_instances`).
* **C66** `PlusVerifier::verify` drops the statement returned by `CmProof::verify` and checks the decomposition against the instance `linb2x` in the
  proof, so any instance is accepted (`C66_any_instance_accepted`). Independently of that, the evaluations `va, vb, vc` of a linearization proof are
  compared with nothing, so for any witnesses in range, satisfying the R1CS or not, there is an accepted proof whose folded instance and
  accumulator are true (`C66_r1cs_not_enforced`).
* **C68** the commitments `fcoms` of a proof of the commitment transformation are neither absorbed nor compared with anything, so an accepted
  proof remains accepted with the same challenges for any other commitments (`C68_commitments_free`). The caller has to compare them with its
  own, and even then the challenges do not depend on them.
* **C69** the set check draws all its challenges before anything that depends on the sets has been absorbed, and nothing about the sets or their
  commitments is absorbed before in `CmProof::verify` and `PlusVerifier::verify` (C67, C68). A polynomial with `p(beta)^2 = p(beta^2)` that is not a monomial exists for every
  `beta`, so a prover can choose the sets after the challenges (`C69_adaptive_sets`).
* **C70** in `cm.rs:283-308` (prover) and `457-461`, `515-518` (verifier) the inner product claims of all instances get the same two powers of the
  combining challenge (`z_idx` does not depend on the instance). Only their sum is enforced; errors in `comh` that cancel between instances are accepted and end up
  in the folded commitments (`C70_errors_cancel`).
* **C71** `Mlin::mlin` folds all instances with the same three challenges and adds up the results; opposite errors in the commitments of two
  instances cancel (`C71_errors_cancel`).
* **C72** the parameters of the repository do not satisfy the conditions of `C72_complete`: `B ≤ (d/2)^k` fails in `plus.rs` `test_prove` (`B = 6186`, `8^2 = 64`), and
  `B ≥ estimate_bound` fails in `test_prove_multi` and in the benches, which use half of the estimate. Nothing in `PlusProver` compares `B`, `k`, `L` or the parity of `B`
  (the estimate may be odd).
* **C73** `short_challenge` squeezes one byte per coefficient and takes `2^(128/d)` values: for `d < 15` the interval is longer than 256, so
  only the 256 most negative values occur; for `d` not a power of two between 16 and 128 there are fewer than `2^128` challenges (`2^120` for `d = 24`, `2^72` for
  `d = 72`, one for `d > 128`).
* **C76** `poseidon/babybear.rs` and `poseidon/frog.rs` contain the constants of `poseidon/goldilocks.rs`, reduced modulo another prime. For BabyBear the matrix is not maximum
  distance separable any more: a difference in 5 words with a difference in only 19 words of the image is exhibited. (Also, outside the theorems: the capacity of four 31-bit words
  bounds the collision resistance of the BabyBear sponge by 62 bits, and the round numbers belong to a field of 64 bits.)
* **C77** the sponge is used without padding and lengths are not absorbed: a zero ring element that fits into the current block changes nothing that follows. For Frog
  (16 words per element, 20 words per block) `[a, b, c, d]` and `[a, b, c, d, 0]` are the same transcript.
* **C79** labels are reduced modulo the prime. With BabyBear (31 bits) labels of 14 letters such as `zeta_fold_step` and `fold_norm_norm` coincide. The labels in use do not.
* **C81** `check_ring_modulus_128_bits_security`: (a) `bits()` replaces `log2`, so the norm bound is always above the length it stands for; (b) the bound is cast to `u64` and saturates,
  so that for moduli from `2^65` the comparison with `q/2` is vacuous (the Stark prime with rank 621 is accepted although the true bound is above `q`; the later comparison
  with `b` becomes stricter by saturation); (c) `b^l > q/2` does not imply that `l` balanced digits in base `b` represent all residues (Goldilocks, `b = 3037000500`, `l = 2`
  is accepted and `(q-1)/2` has no representation); `b^l ≥ q` would.
* **C82** the generators of benchmark instances declare `l = 1` whatever `x_len` is. Without public inputs the padding of the degree three CCS is one witness element short: 8 rows for
  10 decomposed entries with `x_len = 0, wit_len = 5, L = 2`. `s_prime` is the number of columns and not its logarithm (the field is not read anywhere).
* **C83** (documentation) the set documented for BabyBear, all 72 coefficients in `[-32, 32)`, contains pairs with a difference that is not invertible, e.g.
  `-5 + 11 X^18 + 7 X^27 + 2 X^36 + 5 X^54` and `0`. The set the code draws from (C48: only the first 24 coefficients) does not. Extending the decoder to the documented
  set would therefore lose the property the extractor needs.
* **C85** with the default parameters of the examples for Goldilocks, BabyBear and Frog (`b = 2`, `K = 15`) and with most benchmark sets the folded witness need not fit in
  the next decomposition: with all challenges of zero bytes and all digits one, a coefficient is `-(29 * 1152 + 1)`, `-(29 * 1504 + 1)`, `-(29 * 2048 + 1)`, but 15 digits reach
  only `2^15 - 1`. For the defaults such challenges are extremely unlikely; for the small sets (e.g. BabyBear `B = 16`, `K = 4`: 15 against challenge coefficients up to 32)
  nearly all challenges exceed the range, so a second folding step with these parameters aborts in practice. The examples and benchmarks run one step only.
* **C85** (tests) `FrogDP` has `b^K = 1024` but `B = 256`, against the documented `K = log_b B`; `DP` and `DPL1` have `B^L` smaller than every modulus.
* **C86** the code fixes the last folding challenge to 1; so the witness of the last input statement is only obtained as `w - sum of rho_k W_k`, a combination of quotients: the bound
  on the extracted witness is available for the first `2K - 1` statements only.
* **C89** (variant of C33) the components of a decomposition proof are zipped, so a commitment without matching `v`, `u`, `x` entries enters the
  recomposition of the commitment, but neither the transcript nor folding. With `K - 1` pieces on the left and `K + 1` on the right, a check of
  the total number `2K` passes, and the commitment of the old accumulator is arbitrary (`C89_free_commitment`). All four lengths must be compared with `K`.
* **C96** `LFProof` can be deserialized from untrusted bytes, but no verifier checks lengths: `theta_s[i]`, `eta_s[i]`, `proof.u[j]`, `s_i[j]`,
  `expect("proof is incomplete")` and the assertions of `rot_lin_combination` abort the process. A check of the lengths (`ProofLens`) before
  verification would exclude all aborts and no acceptable proof.
* **C97** in latticefold-plus `verify` returns `bool` or `Result`, but the callers unwrap all results and compare with `assert_eq!`: `false` is never
  returned and `Err` only by the set check and the range check called directly. A caller has to catch panics to learn that a proof is invalid.
* **C104** (note) the benchmark group `Decomposition-Roundtrip` (`latticefold-plus/benches/decomp.rs:210-240`) is described as folding followed by
  decomposition, but only calls `decompose` on a set-up input; nothing is folded.
* **C99** `examples/e2e.rs` appends the uncompressed serialization to the buffer which still holds the compressed one, so the size printed second
  is always twice the size of the proof.
* **C102** `setup_example_environment` (and `setup_test_environment` of `nifs/tests.rs`) linearizes `cm_i` with `wit_acc`, a witness to which `cm_i` is
  not a commitment; so the accumulator of the example is invalid, and by C101 the one it ends with is invalid too, while the verifier accepts.
* **C103** `get_test_dummy_ccs_non_scalar` passes `n` (the length of the decomposed witness) for `wit_len`; the system has `x_len + n + 1` columns, the
  check of the relation fails for the length and the set-up aborts with "R1CS invalid!" for every `L ≥ 2` (the group "Goldilocks Non Scalar").
  In `build.rs` the groups "Scalar" and "Non Scalar" of Stark, Frog and BabyBear are generated with `R1CS::DegreeThreeNonScalar`.
  For `L = 1` and a power of two of witness elements the generators use `r1cs_rows - 2` rows, but the matrices of squares and cubes are only made for as many rows
  as `z` has elements: `NonScalar`, `DegreeThreeNonScalar` and the end-to-end example (`PARAM_L=1`, default `PARAM_WIT_LEN`) abort.
  With one element less than a power of two (`PARAM_WIT_LEN=3`) no rows are taken away, and the example aborts in the linearization: `w + 2` rows, `w + 1` entries
  (`C102_single_digit_too_long`).
* **C104** `split` panics unless `n` exceeds the number of digits `kappa k 16 * 22 * 16`; the split sets (32768, 4, 2), (65536, 6, 3), (131072, 8, 4) do not
  satisfy this. `validate_witness_params` (used by the range check and fold benchmarks, not by split) accepts the equality, where `split` still panics.
  The multi fold set with `n = 98304` fails since a length that is no power of two does not fit the evaluation of the matrices, the one with `kappa = 5` since the
  commitment rows are padded to 8 and the padded table of digits is longer than `n`.
* **C105** `mlin.rs` `setup_input` puts `i mod 10` into the first entry of instance `i`; the system is `x_j^2 = x_j`, so instances 2, 3, .. are not satisfied.
* **C106** `B = estimate_bound / 2` (`e2e.rs`, `double_commitment.rs`, second test of `plus.rs`) is below the estimate; and for `k ≤ 4` every `B ≥ estimate` is beyond
  the range `8^k` of the range check. Honest runs with witnesses of zeros and ones succeed for one step (`C104_e2e`).
* **C107** `linearize` (`r1cs.rs`) draws the point `r` without having absorbed the commitment or the matrices, and `PlusProver::prove` absorbs nothing before either.
  Errors of the rows that cancel at `r` are accepted: one linear equation in the entries of the witness.
* **C108** `write_ajtai_group` (`build.rs`) only tests `ENV.ajtai`: `LINEARIZATION=1 cargo bench`, documented as running only linearization, also runs all commitment
  benchmarks, and `GOLDILOCKS=1` those of all rings. The README names a variable `W`, the code reads `N`. A value such as `B="1 << 15"` is ignored without notice.
* **C114** holds by accident: `build.rs` (148, 235) asks cargo to watch `latticefold/benches/config.toml`, which does not exist relative to the package, so the
  script is rerun on every build. The variable `RING` is read but not among the watched ones: with the path corrected, `RING=Frog` after another build would be without effect
  (`C114_ring_unwatched`).
* **C109** `Out::verify` (`setchk.rs`) computes the point of its sum-check and drops it; the field `r` of the proof is not compared with it, not absorbed, and used by
  `CmProof::verify` as the point of all evaluations. A prover runs the set check for a short vector and folds another one that has the same evaluation at a point of its choice. This
  is worse than C57 and C59: with the identity among the matrices `f` is bound to a short vector there, here one entry of `f` in the range is enough.
* **C110** `PlusVerifier` does not read `params.lin`: the number of digits `k` (hence the range `(d/2)^k`), `l` and `nvars` are those in the proof.
* **C111** `PlusVerifier` has no accumulator: nothing compares the commitments in `cmproof.dcom.fcoms` with the halves in the `dproof` of the call before. A prover that drops a
  step with a false instance goes unnoticed, even when the final accumulator is checked.
* **C112** `LFFoldingVerifier::verify` never compares the lengths of `eta_s[i]` with `ccs.t`. `compute_sumcheck_claim_expected_value` (`folding/utils.rs:369-412`) sums over all
  entries, `compute_v0_u0_x0_cm_0` (460-521) zips them into `t` places, so an entry `eta_s[i][t]` is a free variable of the final check that nothing else sees. A prover that
  knows openings of the commitments proves any claimed sum, and solves the final check for that entry (`forgeFold`): false evaluations and witnesses that are not short are folded
  into a true accumulator. The theorems C54, C86, C88, C90 to C92, C94 and C95 have the right lengths among their hypotheses (`FoldShape` and the like, or the evaluations in the
  proof are those of a witness); this finding shows that the hypothesis cannot be dropped. One comparison per list in the verifier repairs it. A whole step is forged in the same way (`C112_step_count`), also if the numbers of pieces of C33 are compared with `K`.
* **C113** `tensor_product` returns the other vector if one is empty, although its comment promises length `m * n`; the callers in the crate pass nonempty vectors when `k` and `l` are positive.
* **C51** the set check draws a batching challenge only for more than one matrix set; with one matrix set the
  prover's combining function returns after the matrix claim, the verifier still adds the vector claims.

* **C54** `squeeze_alpha_beta_zeta_mu` pushes the constant `1` as the last `mu`, but `mu` also separates the `τ` tables
  *within* a witness by its powers. For the last of the `2K` witnesses all powers are `1` and the range polynomial is
  odd, so coefficients `(c, -c, 0, ..)` of the `τ` tables cancel for every `c`: the range of that witness is not
  checked (all rings of extension degree at least 2: Goldilocks, BabyBear and Frog, not Stark). `C54_range_violated`
  instantiates it. The verifier of the whole step accepts as well (`C54_step_long`), and since the vectors that escape the
  check contain a linear space of half the coefficients, a commitment that compresses more than this is not binding
  for the openings which accepted steps fold (`C54_any_coefficient`; the sizes are such in all shipped
  parameter sets of these rings, `C54_sizes_shipped`). If these vectors reach every commitment, every commitment
  is accepted with any public input that has some short satisfying witness (`C54_any_commitment`), and they do for all but a fraction `p^(κτN - |w|(L-1)min(τ,N))` of the
  matrices (`C54_almost_all_matrices`; the exponent is negative for 138 of the 140 configured sets of the three rings). `C54_false_statement`
  is a statement which has no witness and is accepted for every transcript.
  *Range of the result.* The accumulators returned in these theorems are valid, but `LcccsHolds` contains no bound, and their witness
  may be out of range; the next decomposition by an honest prover, or a final check of the norm, would notice then. The last folding factor is
  also the constant `1` (`get_rhos`), however, so the last piece enters the folded witness without a factor, and with coefficients up to `M / 2` the result is
  still in range (`C54_step_unnoticed`; `M` is 59646, 37822 and 126974 for the benchmark sets of Goldilocks, BabyBear and Frog in which honest
  steps stay in range, `C54_last_bound_shipped`, where `M = 2` is meant). Where multiples of `b^(K-1)` by such factors come near to every value,
  every commitment is accepted with a result in range (`C54_any_commitment_unnoticed`). This is so for the Frog set with `L = 2`, for
  almost all matrices (`C54_frog_unnoticed`), and since the result is in range as after an honest step, for whole accumulations, in which no commitment
  needs to be one to a witness of its public input (`C54_chain_unnoticed`, `C54_frog_chain`).
  For the other sets the multiples do not come near to every value. There the lists with *short* entries are counted instead: for a random matrix two different such
  lists have independent commitments, so by the second moment almost every commitment is hit as soon as there are more lists than commitments
  (`C54_most_commitments_unnoticed`). For 45 of the 49 lines of `benches/config.toml` (of these rings, each counted once for the three kinds of instances)
  in which honest accumulations stay in range, all pairs of a matrix and a commitment but a share of `2^-128` are accepted with a result in range
  (`C54_most_shipped`; chains: `C54_most_chain`; with the constraint system and public input of the benchmarks' own set-ups `Scalar` and `DegreeThreeNonScalar`: `C54_most_bench`, Props/LongBench). The other four lines are those with `L = 2` and 512 or 1024 witness elements, for Goldilocks and Frog.

Conditions found while proving (not violations of a listed property but limits of the code): `ccs.t` must equal the number
of matrices (`u_0` is truncated or zero padded otherwise); the witness tables must have `ccs.s` variables (the
size guard does not exclude other values, `C27_fhat_size_mismatch`); `K = 0` and empty witnesses panic.

## Example ring

All ring-specific theorems take a `RingData` structure (CRT, coefficients, rotation) whose laws are the contract of
the ring crates. `Verif/Props/ExampleRing.lean` instantiates it with `F_5[X]/(X^2+1)` and its CRT, so the
hypotheses are consistent; `Verif/Props/ExampleRing49.lean` with `F_7[X]/(X^2+1)` (one slot, extension degree 2); `Verif/Props/ExampleData.lean` has a CCS, scheme, witness, accumulator, challenge set and
transcript over it that the examples use.

For `latticefold-plus` the ring is a `PlusRing` structure (coefficients with respect to powers of `X`, `exp`, `psi`,
balanced decompositions); `Verif/Props/ExamplePlus.lean` instantiates it with `F_17[X]/(X^4+1)`.

## Seeded changes

`seeded/LOG.jsonl` has one line per change of the model, made in a copy and rebuilt. How to read it:

* `killed`: the build fails; `failed` names the theorems (or lemmas they rest on) that no longer check. Modules behind a failing one are not built, so the list
  can be shorter than what the change breaks, and may consist of lemmas only.
* `SURVIVED`: either a later line repeats the change after a theorem was added or tightened, or `note` says why the change has no observable effect.
* `invalid`: the edited definition itself does not compile, which says nothing about the theorems. Three lines are of this kind. They were at first counted as killed;
  two have been repeated in a form that compiles, the third (`rowMul`) was meant to be without effect.
* In seven lines the edit hit another definition than the one named, because its text occurs twice in the file. Their `note` says which; all seven have been
  repeated in the definition named.
