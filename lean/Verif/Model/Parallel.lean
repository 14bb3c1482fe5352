import Verif.Model.Nifs

/-!
# The prover with feature `parallel`

With this feature the macros `cfg_iter!`, `cfg_into_iter!` and `cfg_iter_mut!` of arkworks produce rayon iterators. How rayon splits the
work and in which order the parts run is not determined. A computation is therefore modelled by the set of its possible outcomes; an outcome
is a value or an error (returned or aborting).
-/

namespace Verif.Par

variable {Fp F C σ R : Type} {N τ : Nat}

/-- A computation with several possible outcomes. -/
def ND (α : Type) := Res α → Prop

/-- One after the other: an error ends the computation. -/
def ND.bind {α β : Type} (m : ND α) (f : α → ND β) : ND β := fun r =>
  ∃ x, m x ∧ match x with
    | .ok a => f a r
    | .error e => r = .error e

instance : Monad ND where
  pure a := fun r => r = .ok a
  bind := ND.bind

/-- A computation without parallelism has one outcome. -/
def seq {α : Type} (x : Res α) : ND α := fun r => r = x

/-- `iter.map(f).collect()` on a rayon iterator. If all applications of `f` succeed, the results are collected in order. Otherwise the outcome is
the error of any one of the failing elements: rayon keeps the error of the thread which is first to store it, propagates the panic of any of its
threads, and skips elements once one has failed. -/
def parMap {α β : Type} (f : α → ND β) (l : List α) : ND (List β) := fun r =>
  (∃ bs, r = .ok bs ∧ List.Forall₂ (fun a b => f a (.ok b)) l bs) ∨ ∃ e, r = .error e ∧ ∃ a ∈ l, f a (.error e)

/-- `v[i] = a`. -/
def setIdx {α : Type} (site : String) (l : List α) (i : Nat) (a : α) : Res (List α) :=
  if i < l.length then .ok (l.set i a) else .error (.panic site)

section Sumcheck
variable [CommRing R]

/-- `utils/sumcheck/prover.rs:89-96` `Scratch`: buffers which are kept from one vertex pair to the next. -/
structure Scratch (R : Type) where
  evals : List R
  steps : List R
  vals0 : List R
  vals1 : List R
  vals : List R
  levals : List R

/-- `prover.rs:97-104`. -/
def scratch (polys : List (Mle R)) (degree : Nat) : Scratch R :=
  ⟨List.replicate (degree + 1) 0, List.replicate polys.length 0, List.replicate polys.length 0, List.replicate polys.length 0,
    List.replicate polys.length 0, List.replicate (degree + 1) 0⟩

/-- `prover.rs:126-129`: the loop filling `steps` and `vals`. -/
def fillSteps (vals1 vals0 steps vals : List R) : Res (List R × List R) :=
  foldRes (fun (sv : List R × List R) (p : (R × R) × Nat) => do
    let steps ← setIdx "steps[i]" sv.1 p.2 (p.1.1 - p.1.2)
    let vals ← setIdx "vals[i]" sv.2 p.2 p.1.1
    .ok (steps, vals)) (steps, vals) (vals1.zip vals0).zipIdx

/-- `prover.rs:132-134`: `for poly_i in 0..polys.len() { vals[poly_i] += steps[poly_i] }`. -/
def addSteps (n : Nat) (steps vals : List R) : Res (List R) :=
  foldRes (fun vals i => do
    let v ← idx "vals[poly_i]" vals i
    let s ← idx "steps[poly_i]" steps i
    setIdx "vals[poly_i]" vals i (v + s)) vals (List.range n)

/-- `prover.rs:111-143`: the closure of `fold`, with the buffers. -/
def scratchStep (polys : List (Mle R)) (degree : Nat) (comb : List R → Res R) (s : Scratch R) (b : Nat) : Res (Scratch R) := do
  let index := 2 * b
  let vals0 := zipAssign (fun _ (p : Mle R) => p.get index) s.vals0 polys
  let l0 ← comb vals0
  let lev ← setIdx "levals[0]" s.levals 0 l0
  let vals1 := zipAssign (fun _ (p : Mle R) => p.get (index + 1)) s.vals1 polys
  let l1 ← comb vals1
  let lev ← setIdx "levals[1]" lev 1 l1
  let (steps, vals) ← fillSteps vals1 vals0 s.steps s.vals
  -- `levals.iter_mut().take(degree + 1).skip(2)`
  let (vals, lev) ← foldRes (fun (vl : List R × List R) j => do
    let vals ← addSteps polys.length steps vl.1
    let e ← comb vals
    .ok (vals, vl.2.set j e)) (vals, lev) ((List.range (min (degree + 1) lev.length)).drop 2)
  .ok ⟨zipAssign (· + ·) s.evals lev, steps, vals0, vals1, vals, lev⟩

/-- `prover.rs:111-156` for one way of splitting the work. A chunk starts with a new scratch; a failure in either half may be the one that is seen. -/
def roundSchedule (polys : List (Mle R)) (degree : Nat) (comb : List R → Res R) : Schedule → ND (List R)
  | .ident => seq (.ok (List.replicate (degree + 1) 0))
  | .chunk l => seq (do
      let s ← foldRes (scratchStep polys degree comb) (scratch polys degree) l
      .ok s.evals)
  | .node l r => fun out =>
      (∃ a b, roundSchedule polys degree comb l (.ok a) ∧ roundSchedule polys degree comb r (.ok b) ∧ out = .ok (zipAssign (· + ·) a b)) ∨
      ∃ e, out = .error e ∧ (roundSchedule polys degree comb l (.error e) ∨ roundSchedule polys degree comb r (.error e))

/-- `prover.rs:111-156`: any way of splitting the `2^k` vertex pairs into contiguous parts. -/
def roundMessage (polys : List (Mle R)) (degree : Nat) (comb : List R → Res R) (k : Nat) : ND (List R) := fun out =>
  ∃ t : Schedule, t.toList = List.range (2 ^ k) ∧ roundSchedule polys degree comb t out

variable [CommRing F] [Algebra F R]

/-- `prover.rs:61-75`; the tables are fixed in parallel. -/
def proverReceive (st : ProverState F R) : Option F → ND (ProverState F R)
  | some r =>
    if st.round = 0 then seq (.error (.panic "first round should be prover first."))
    else do
      let randomness := st.randomness ++ [r]
      let r' ← seq (idx "prover_state.randomness" randomness (st.round - 1))
      let mles ← parMap (fun m : Mle R => seq (m.fixVar (algebraMap F R r'))) st.mles
      seq (.ok { st with randomness := randomness, mles := mles })
  | none => if st.round > 0 then seq (.error (.panic "verifier message is empty")) else seq (.ok st)

/-- `prover.rs:56-162` `prove_round`. -/
def proveRound (st : ProverState F R) (vMsg : Option F) (comb : List R → Res R) : ND (List R × ProverState F R) := do
  let st ← proverReceive st vMsg
  let st := { st with round := st.round + 1 }
  if st.round > st.numVars then seq (.error (.panic "Prover is not active"))
  else do
    let evals ← roundMessage st.mles st.maxDegree comb (st.numVars - st.round)
    seq (.ok (evals, st))

/-- The loop of `prove_as_subprotocol`, `sumcheck.rs:65-74`. -/
def proveLoop (T : Transcript F R σ) (comb : List R → Res R) :
    Nat → σ → ProverState F R → Option F → ND (List (List R) × Option F × ProverState F R × σ)
  | 0, s, st, v => seq (.ok ([], v, st, s))
  | k + 1, s, st, v => do
    let (msg, st) ← proveRound st v comb
    let s := T.absorbSlice s msg
    let (r, s) := T.challenge s
    let s := T.absorb s (algebraMap F R r)
    let (msgs, v, st, s) ← proveLoop T comb k s st (some r)
    seq (.ok (msg :: msgs, v, st, s))

/-- `sumcheck.rs:53-80` `prove_as_subprotocol`. -/
def proveAsSubprotocol (T : Transcript F R σ) (s : σ) (mles : List (Mle R)) (nvars degree : Nat)
    (comb : List R → Res R) : ND ((List (List R) × ProverState F R) × σ) := do
  let s := T.absorb s (nvars : R)
  let s := T.absorb s (degree : R)
  let st ← seq (proverInit mles nvars degree)
  let (msgs, v, st, s) ← proveLoop T comb nvars s st none
  match v with
  | none => seq (.error (.panic "verifier_msg.unwrap()"))
  | some r => seq (.ok ((msgs, { st with randomness := st.randomness ++ [r] }), s))

end Sumcheck

section Helpers
variable [CommRing R]

/-- `utils/sumcheck/utils.rs:134-170` `build_eq_x_r_helper`; the slots are written in parallel. -/
def buildEqHelper : List R → ND (List R)
  | [] => seq (.error .invalidParameters)
  | [r0] => seq (.ok [1 - r0, r0])
  | r0 :: r1 :: rs => do
    let buf ← buildEqHelper (r1 :: rs)
    parMap (fun i => seq (do
      let bi ← idx "build_eq_x_r_helper" buf (i / 2)
      let tmp := r0 * bi
      if i % 2 = 0 then .ok (bi - tmp) else .ok tmp)) (List.range (buf.length * 2))

/-- `utils/sumcheck/utils.rs:100-129` `build_eq_x_r`, `build_eq_x_r_vec`. -/
def buildEq (r : List R) : ND (Mle R) := do
  let evals ← buildEqHelper r
  seq (Mle.fromEvals r.length evals)

/-- `utils/mle_helpers.rs:77-88` `evaluate_mles`. -/
def evaluateMles (mles : List (Mle R)) (point : List R) : ND (List R) :=
  parMap (fun m => seq (evaluateMle m point)) mles

/-- `arith/utils.rs:52-65` `mat_vec_mul`; the rows in parallel. -/
def matVecMul (M : SpMat R) (z : List R) : ND (List R) :=
  if M.ncols ≠ z.length then seq (.error (.lengthsNotEqual M.ncols z.length))
  else parMap (fun row => seq (rowMul row z)) M.coeffs

/-- `utils/mle_helpers.rs:112-134` `to_mles_err` applied to products of matrices with a vector (137-146 `calculate_Mz_mles` and
`decomposition.rs:248-251`). -/
def mzMles (nVars : Nat) (Ms : List (SpMat R)) (z : List R) : ND (List (Mle R)) :=
  parMap (fun M => do
    let m ← matVecMul M z
    seq (if 2 ^ nVars < m.length then .error (.mleIncorrectLength (2 ^ nVars) m.length) else Mle.fromEvals nVars m)) Ms

end Helpers

section Lin
variable [Field F] [DecidableEq F] [CommRing R] [DecidableEq R] [Algebra F R]

/-- `linearization/utils.rs:63-88` `prepare_lin_sumcheck_polynomial`. -/
def prepareLinPoly (c : List R) (d : Nat) (Mmles : List (Mle R)) (S : List (List Nat)) (beta : List R) : ND (List (Mle R) × Nat) := do
  let groups ← seq (mapRes (fun ci : R × Nat => do
      let Si ← idx "S[i]" S ci.2
      mapRes (fun j => idx "M_mles[j]" Mmles j) Si)
    (c.zipIdx.filter fun ci => decide (ci.1 ≠ 0)))
  let eq ← buildEq beta
  seq (.ok (groups.flatten ++ [eq], d + 1))

/-- `linearization.rs:145-189` `LFLinearizationProver::prove`. -/
def linProve (T : Transcript F R σ) (s : σ) (cm : CCCS R) (wit : Witness R C) (ccs : CCS R) : ND ((LCCCS R × LinProof R) × σ) := do
  let z := cm.getZ wit.wCcs
  let (beta, s) := squeezeBeta T s ccs.s
  let mz ← mzMles ccs.s ccs.M z
  let (gmles, deg) ← prepareLinPoly ccs.c ccs.d mz ccs.S beta
  let ((proof, pst), s) ← proveAsSubprotocol T s gmles ccs.s deg (linCombFn ccs)
  let r := pst.randomness.map (algebraMap F R)
  let v ← evaluateMles wit.fHat r
  let u ← evaluateMles mz r
  let s := T.absorbSlice s v
  let s := T.absorbSlice s u
  seq (.ok ((⟨r, v, cm.cm, u, cm.x_ccs, 1⟩, ⟨proof, v, u⟩), s))

end Lin

section Ring
variable [Field Fp] [Field F] [DecidableEq F] [Algebra Fp F] [CommRing C] [Algebra Fp C]

/-- `decomposition.rs:178-201` `commit_witnesses`. -/
def commitWitnesses [CommRing R] (P : Params) (wits : List (Witness R C)) (scheme : Ajtai R) (cmi : LCCCS R) : ND (List (Commitment R)) := do
  if wits = [] then seq (.error (.panic "wit_s[1..]")) else
  let ys ← parMap (fun w : Witness R C => seq (w.commit scheme)) wits.tail
  let bsum := ys.reverse.foldl (fun acc y => (acc.add y).smul (P.bSmall : R)) (Commitment.zeroed scheme.kappa)
  seq (.ok (cmi.cm.sub bsum :: ys))

/-- `decomposition.rs:229-256` `compute_mz_mles`. -/
def computeMzMles [CommRing R] (wits : List (Witness R C)) (M : List (SpMat R)) (xs : List (List R)) (nv : Nat) :
    ND (List (List (Mle R))) :=
  parMap (fun wi : Witness R C × Nat => do
    let x ← seq (idx "decomposed_statements[i]" xs wi.2)
    mzMles nv M (x ++ wi.1.wCcs)) wits.zipIdx

/-- `decomposition.rs:33-88` `LFDecompositionProver::prove`. The loop of lines 62-82 is sequential. -/
def decProve (rd : RingData Fp F C N τ) (P : Params) (T : Transcript F (Fin N → F) σ) (s : σ)
    (cmi : LCCCS (Fin N → F)) (wit : Witness (Fin N → F) C) (ccs : CCS (Fin N → F)) (scheme : Ajtai (Fin N → F)) :
    ND ((List (List (Mle (Fin N → F))) × List (LCCCS (Fin N → F)) × List (Witness (Fin N → F) C) × DecProof (Fin N → F)) × σ) := do
  let _ ← seq (sanityCheck ccs P.L)
  let fs ← seq (decomposeBVec rd P wit.fCoeff)
  let wits ← parMap (fun f => seq (Witness.fromFCoeff rd P f)) fs
  let xs ← seq (decomposeBigVec rd P (cmi.x_w ++ [cmi.h]))
  let ys ← commitWitnesses P wits scheme cmi
  let vs ← parMap (fun w : Witness (Fin N → F) C => evaluateMles w.fHat cmi.r) wits
  let mz ← computeMzMles wits ccs.M xs ccs.s
  let us ← parMap (fun ms => evaluateMles ms cmi.r) mz
  let proof : DecProof (Fin N → F) := ⟨us, vs, xs, ys⟩
  let (lcccs, s) ← seq (decPieces T s cmi.r proof)
  seq (.ok ((mz, lcccs, wits, proof), s))

/-- `folding/utils.rs:200-259` `create_sumcheck_polynomial`. -/
def createFoldPoly [CommRing R] [DecidableEq R] (P : Params) (logm : Nat) (fHats : List (List (Mle R))) (alpha : List R)
    (ch1 ch2 : Mle R) (rs : List (List R)) (beta mu : List R) : ND (List (Mle R) × Nat) := do
  if alpha.length ≠ 2 * P.K ∨ fHats.length ≠ 2 * P.K ∨ rs.length ≠ 2 * P.K ∨ beta.length ≠ logm
      ∨ mu.length ≠ 2 * P.K then seq (.error .incorrectLength) else
  let _ ← seq (idx "f_hat_mles[0]" fHats 0)
  let r0 ← seq (idx "r_s[0]" rs 0)
  let eq1 ← buildEq r0
  let f1 ← seq (slice "f_hat_mles[0..K]" fHats 0 P.K)
  let a1 ← seq (slice "alpha_s[0..K]" alpha 0 P.K)
  let g1 ← seq (prepareG13 eq1 f1 a1 ch1)
  let rK ← seq (idx "r_s[K]" rs P.K)
  let eq2 ← buildEq rK
  let f2 ← seq (slice "f_hat_mles[K..2K]" fHats P.K (2 * P.K))
  let a2 ← seq (slice "alpha_s[K..2K]" alpha P.K (2 * P.K))
  let g2 ← seq (prepareG13 eq2 f2 a2 ch2)
  let eqB ← buildEq beta
  seq (.ok (g1 ++ g2 ++ [eqB] ++ fHats.flatten, 2 * P.bSmall))

/-- `folding.rs:42-130` `LFFoldingProver::prove`. Taking `f_hat` in parallel (lines 198-202) cannot fail. -/
def foldProve (rd : RingData Fp F C N τ) (P : Params) (cs : ChallengeSet C) (T : Transcript F (Fin N → F) σ)
    (s : σ) (cms : List (LCCCS (Fin N → F))) (ws : List (Witness (Fin N → F) C)) (ccs : CCS (Fin N → F))
    (mz : List (List (Mle (Fin N → F)))) :
    ND ((LCCCS (Fin N → F) × Witness (Fin N → F) C × FoldProof (Fin N → F)) × σ) := do
  let _ ← seq (sanityCheck ccs P.L)
  if cms.length ≠ 2 * P.K then seq (.error .incorrectLength) else
  let (ch, s) ← seq (squeezeFold P T s ccs.s)
  let fHats ← parMap (fun w : Witness (Fin N → F) C => seq (.ok w.fHat)) ws
  let rs := cms.map LCCCS.r
  let mz1 ← seq (slice "mz_mles[0..K]" mz 0 P.K)
  let z1 ← seq (slice "zeta_s[0..K]" ch.zeta 0 P.K)
  let ch1 ← seq (challengedMz mz1 z1)
  let mz2 ← seq (slice "mz_mles[K..2K]" mz P.K (2 * P.K))
  let z2 ← seq (slice "zeta_s[K..2K]" ch.zeta P.K (2 * P.K))
  let ch2 ← seq (challengedMz mz2 z2)
  let (g, deg) ← createFoldPoly P ccs.s fHats ch.alpha ch1 ch2 rs ch.beta ch.mu
  let ((proof, pst), s) ← proveAsSubprotocol T s g ccs.s deg (foldCombFn P τ ch.mu)
  let r0 := pst.randomness.map (algebraMap F (Fin N → F))
  let theta ← parMap (fun ms => evaluateMles ms r0) fHats
  let eta ← parMap (fun ms => evaluateMles ms r0) mz
  let s := theta.foldl T.absorbSlice s
  let s := eta.foldl T.absorbSlice s
  let ((rhoC, rho), s) ← seq (getRhos rd P cs T s)
  let f0 ← seq (computeF0 rho ws)
  let out ← seq (computeFolded rd rhoC rho theta cms eta ccs)
  let lcccs ← seq (foldOutput r0 out)
  let w0 ← seq (Witness.fromF rd P f0)
  seq (.ok ((lcccs, w0, ⟨proof, theta, eta⟩), s))

/-- `nifs.rs:48-102` `NIFSProver::prove`. -/
def nifsProve (rd : RingData Fp F C N τ) (P : Params) (cs : ChallengeSet C) (T : Transcript F (Fin N → F) σ)
    (s : σ) (acc : LCCCS (Fin N → F)) (wAcc : Witness (Fin N → F) C) (cm : CCCS (Fin N → F))
    (w : Witness (Fin N → F) C) (ccs : CCS (Fin N → F)) (scheme : Ajtai (Fin N → F)) :
    ND ((LCCCS (Fin N → F) × Witness (Fin N → F) C × LFProof (Fin N → F)) × σ) := do
  let _ ← seq (sanityCheck ccs P.L)
  let s := absorbPublicInput T s acc cm
  let ((lin, linPr), s) ← linProve T s cm w ccs
  let ((mzL, lcccsL, witL, proofL), s) ← decProve rd P T s acc wAcc ccs scheme
  let ((mzR, lcccsR, witR, proofR), s) ← decProve rd P T s lin w ccs scheme
  let ((st, w0, proof), s) ← foldProve rd P cs T s (lcccsL ++ lcccsR) (witL ++ witR) ccs (mzL ++ mzR)
  seq (.ok ((st, w0, ⟨linPr, proofL, proofR, proof⟩), s))

end Ring

end Verif.Par
