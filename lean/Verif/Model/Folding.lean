import Verif.Model.Decomposition
import Verif.Model.Rotation
import Verif.Model.ChallengeSet

/-!
# Model of `nifs/folding.rs` and `nifs/folding/utils.rs`
-/

namespace Verif

variable {Fp F C R σ : Type} {N τ : Nat}

/-! ## Arithmetic of `DenseMultilinearExtension` (stark-rings-poly) -/

namespace Mle
variable [CommRing R] [DecidableEq R]

/-- `DenseMultilinearExtension::zero()`: no variables, value zero. -/
def zero : Mle R := ⟨0, [0]⟩

/-- `is_zero()`: no variables and value zero. -/
def isZero (m : Mle R) : Bool := decide (m.numVars = 0) && decide (m.get 0 = 0)

/-- `self += other`: a zero polynomial (of no variables) is neutral; otherwise the numbers of variables
have to agree (`assert_eq!`). -/
def addAssign (a b : Mle R) : Res (Mle R) :=
  if a.isZero then .ok b
  else if b.isZero then .ok a
  else if a.numVars ≠ b.numVars then .error (.panic "mle +=")
  else .ok ⟨a.numVars, (List.range (max a.evals.length b.evals.length)).map fun i => a.get i + b.get i⟩

/-- `self *= scalar`. -/
def smul (a : Mle R) (c : R) : Mle R := ⟨a.numVars, a.evals.map (· * c)⟩

end Mle

/-- `l[a..b]`: aborts unless `a ≤ b ≤ len`. -/
def slice {α : Type} (site : String) (l : List α) (a b : Nat) : Res (List α) :=
  if a ≤ b ∧ b ≤ l.length then .ok ((l.drop a).take (b - a)) else .error (.panic site)

/-- `nifs/folding/structs.rs:20-42` `FoldingProof`. -/
structure FoldProof (R : Type) where
  sumcheck : List (List R)
  thetaS : List (List R)
  etaS : List (List R)
  deriving DecidableEq

section Generic
variable [CommRing R]

/-- `successors(Some(a), |x| Some(x * a)).zip(l).map(|(p, x)| p * x).sum()`. -/
def powSum (a : R) (l : List R) : R :=
  (List.zipWith (· * ·) (List.iterate (· * a) a l.length) l).sum

/-- `folding.rs:311-343` `calculate_claims`; the sum of both claims. -/
def foldClaims (alpha zeta : List R) (cms : List (LCCCS R)) : R :=
  (List.zipWith (fun a (c : LCCCS R) => powSum a c.v) alpha cms).sum
    + (List.zipWith (fun z (c : LCCCS R) => powSum z c.u) zeta cms).sum

/-- `folding/utils.rs:388-399`: `theta * prod_{x=1}^{b-1} (theta - x)(theta + x)`. -/
def rangeTerm (b : Nat) (theta : R) : R :=
  theta * ((List.range' 1 (b - 1)).map fun x : Nat => (theta - (x : R)) * (theta + (x : R))).prod

/-- `folding/utils.rs:378-408`: summand `i` of the expected value. -/
def expectedSummand (P : Params) (alpha mu : List R) (theta : List (List R)) (eStar : R) (es zeta : List R)
    (eta : List (List R)) (i : Nat) : Res R := do
  let a ← idx "alpha_s[i]" alpha i
  let th ← idx "theta_s[i]" theta i
  let e ← idx "e_s[i]" es i
  let m ← idx "mu_s[i]" mu i
  let z ← idx "zeta_s[i]" zeta i
  let et ← idx "eta_s[i]" eta i
  .ok (((List.zipWith (fun p t => p * e * t) (List.iterate (a * ·) a th.length) th).sum
    + eStar * (List.zipWith (fun p t => p * rangeTerm P.bSmall t) (List.iterate (m * ·) m th.length) th).sum)
    + e * powSum z et)

/-- `folding/utils.rs:369-412` `compute_sumcheck_claim_expected_value`. -/
def expectedValue (P : Params) (alpha mu : List R) (theta : List (List R)) (eStar : R) (es zeta : List R)
    (eta : List (List R)) : Res R := do
  let terms ← mapRes (expectedSummand P alpha mu theta eStar es zeta eta) (List.range (2 * P.K))
  .ok terms.sum

variable [DecidableEq R]

/-- `folding.rs:216-222`, `folding/utils.rs:534-538`: Horner evaluation of `sum_j c^{j+1} m_j`. -/
def hornerMle (ms : List (Mle R)) (c : R) : Res (Mle R) :=
  foldRes (fun acc m => do
    let acc ← acc.addAssign m
    .ok (acc.smul c)) Mle.zero ms.reverse

/-- `folding.rs:212-224`, `folding/utils.rs:531-540`: sum of the Horner combinations. -/
def combineMles (ps : List (List (Mle R) × R)) : Res (Mle R) :=
  foldRes (fun comb p => do
    let m ← hornerMle p.1 p.2
    comb.addAssign m) Mle.zero ps

/-- `folding.rs:208-226` `calculate_challenged_mz_mle`. -/
def challengedMz (mz : List (List (Mle R))) (zeta : List R) : Res (Mle R) := combineMles (mz.zip zeta)

/-- `folding/utils.rs:524-546` `prepare_g1_and_3_k_mles_list`. -/
def prepareG13 (eq : Mle R) (fHats : List (List (Mle R))) (alpha : List R) (challenged : Mle R) :
    Res (List (Mle R)) := do
  let c ← combineMles (fHats.zip alpha)
  let c ← c.addAssign challenged
  .ok [eq, c]

/-- `folding/utils.rs:200-259` `create_sumcheck_polynomial` (with `prepare_g2_i_mle_list`, 548-558). The
`#[cfg(test)]` check that the points of each half agree is not part of the library. -/
def createFoldPoly (P : Params) (logm : Nat) (fHats : List (List (Mle R))) (alpha : List R)
    (ch1 ch2 : Mle R) (rs : List (List R)) (beta mu : List R) : Res (List (Mle R) × Nat) := do
  if alpha.length ≠ 2 * P.K ∨ fHats.length ≠ 2 * P.K ∨ rs.length ≠ 2 * P.K ∨ beta.length ≠ logm
      ∨ mu.length ≠ 2 * P.K then .error .incorrectLength else
  let _ ← idx "f_hat_mles[0]" fHats 0
  let r0 ← idx "r_s[0]" rs 0
  let eq1 ← buildEq r0
  let f1 ← slice "f_hat_mles[0..K]" fHats 0 P.K
  let a1 ← slice "alpha_s[0..K]" alpha 0 P.K
  let g1 ← prepareG13 eq1 f1 a1 ch1
  let rK ← idx "r_s[K]" rs P.K
  let eq2 ← buildEq rK
  let f2 ← slice "f_hat_mles[K..2K]" fHats P.K (2 * P.K)
  let a2 ← slice "alpha_s[K..2K]" alpha P.K (2 * P.K)
  let g2 ← prepareG13 eq2 f2 a2 ch2
  let eqB ← buildEq beta
  .ok (g1 ++ g2 ++ [eqB] ++ fHats.flatten, 2 * P.bSmall)

/-- `folding/utils.rs:306-313`: `for b in 1..B_SMALL`, with the early exit. -/
def rangeLoop (f2 : R) : List Nat → R → R
  | [], eval => eval
  | b :: bs, eval =>
    let m := f2 - ((b * b : Nat) : R)
    if m = 0 then 0 else rangeLoop f2 bs (eval * m)

/-- `folding/utils.rs:288-317`: body of the loop over `d`. -/
def combInner (P : Params) (τ : Nat) (vals : List R) (k : Nat) (mu : R) (inter : R) (d : Nat) : Res R := do
  let f ← idx "vals[5 + i]" vals (5 + (k * τ + d))
  if f = 0 then
    if inter ≠ 0 then .ok (inter * mu) else .ok inter
  else do
    let e ← idx "vals[4]" vals 4
    let eval := rangeLoop (f * f) (List.range' 1 (P.bSmall - 1)) e
    let eval := eval * f
    .ok ((inter + eval) * mu)

/-- `folding/utils.rs:273-325` `sumcheck_polynomial_comb_fn`; `τ` is the extension degree computed in the
first line. -/
def foldCombFn (P : Params) (τ : Nat) (mu vals : List R) : Res R := do
  let v0 ← idx "vals[0]" vals 0
  let v1 ← idx "vals[1]" vals 1
  let v2 ← idx "vals[2]" vals 2
  let v3 ← idx "vals[3]" vals 3
  foldRes (fun result (p : R × Nat) => do
    let inter ← foldRes (combInner P τ vals p.2 p.1) 0 (List.range τ).reverse
    .ok (result + inter)) (v0 * v1 + v2 * v3) mu.zipIdx

end Generic

section Squeeze
variable [Field F] [CommRing R] [Algebra F R]

/-- The challenges of the folding step. -/
structure FoldChal (R : Type) where
  alpha : List R
  beta : List R
  zeta : List R
  mu : List R

/-- `folding/utils.rs:51-96` `squeeze_alpha_beta_zeta_mu`. -/
def squeezeFold (P : Params) (T : Transcript F R σ) (s : σ) (logm : Nat) : Res (FoldChal R × σ) := do
  let s := absorbLabel T s "alpha_s"
  let (alpha, s) := T.challenges (2 * P.K) s
  let s := absorbLabel T s "zeta_s"
  let (zeta, s) := T.challenges (2 * P.K) s
  let s := absorbLabel T s "mu_s"
  let n ← usub "2 * P::K - 1" (2 * P.K) 1
  let (mu, s) := T.challenges n s
  let s := absorbLabel T s "beta_s"
  let (beta, s) := T.challenges logm s
  .ok (⟨alpha.map (algebraMap F R), beta.map (algebraMap F R), zeta.map (algebraMap F R),
    mu.map (algebraMap F R) ++ [1]⟩, s)

end Squeeze

section Ring
variable [Field Fp] [Field F] [DecidableEq F] [Algebra Fp F] [CommRing C] [Algebra Fp C]

/-- `folding/utils.rs:116-131` `get_rhos`. -/
def getRhos (rd : RingData Fp F C N τ) (P : Params) (cs : ChallengeSet C) (T : Transcript F (Fin N → F) σ)
    (s : σ) : Res ((List C × List (Fin N → F)) × σ) := do
  let s := absorbLabel T s "rho_s"
  let n ← usub "2 * P::K - 1" (2 * P.K) 1
  let (rhos, s) ← shortChallenges T cs n s
  let rhos := rhos ++ [1]
  .ok ((rhos, rhos.map rd.crt), s)

/-- Length of the first commitment, `0` without statements (`folding/utils.rs:460-521`). -/
def headCmLen {R : Type} (cms : List (LCCCS R)) : Nat :=
  match cms.head? with
  | some c => c.cm.len
  | none => 0

/-- `folding/utils.rs:460-521` `compute_v0_u0_x0_cm_0`. -/
def computeFolded (rd : RingData Fp F C N τ) (rhoC : List C) (rho : List (Fin N → F))
    (theta : List (List (Fin N → F))) (cms : List (LCCCS (Fin N → F))) (eta : List (List (Fin N → F)))
    (ccs : CCS (Fin N → F)) :
    Res (List (Fin N → F) × Commitment (Fin N → F) × List (Fin N → F) × List (Fin N → F)) := do
  let v0 ← rotLinComb rd rhoC theta
  let cm0 := (List.zipWith (fun r (c : LCCCS (Fin N → F)) => c.cm.smul r) rho cms).foldl Commitment.add
    (Commitment.zeroed (headCmLen cms))
  let u0 := (List.zipWith (fun r (e : List (Fin N → F)) => e.map fun x => r * x) rho eta).foldl
    (zipAssign (· + ·)) (List.replicate ccs.t 0)
  let x0 := (List.zipWith (fun r (c : LCCCS (Fin N → F)) => (c.x_w ++ [c.h]).map fun x => r * x) rho cms).foldl
    (zipAssign (· + ·)) (List.replicate (ccs.l + 1) 0)
  .ok (v0, cm0, u0, x0)

/-- `folding.rs:381-397` `prepare_public_output`, with the `x_0.last()` of the callers. -/
def foldOutput {R : Type} (r : List R) (out : List R × Commitment R × List R × List R) : Res (LCCCS R) :=
  match out.2.2.2.getLast? with
  | none => .error .incorrectLength
  | some h => .ok ⟨r, out.1, out.2.1, out.2.2.1, out.2.2.2.dropLast, h⟩

/-- `folding.rs:258-268` `compute_f_0`. -/
def computeF0 (rho : List (Fin N → F)) (ws : List (Witness (Fin N → F) C)) : Res (List (Fin N → F)) := do
  let w0 ← idx "w_s[0]" ws 0
  .ok ((rho.zip ws).foldl (fun acc p => List.zipWith (fun a w => a + p.1 * w) acc p.2.f)
    (List.replicate w0.f.length 0))

/-- `folding.rs:42-130` `LFFoldingProver::prove`. The `clear()`s of lines 51-57 and the taking of `f_hat` only
affect the local copies of the witnesses. -/
def foldProve (rd : RingData Fp F C N τ) (P : Params) (cs : ChallengeSet C) (T : Transcript F (Fin N → F) σ)
    (s : σ) (cms : List (LCCCS (Fin N → F))) (ws : List (Witness (Fin N → F) C)) (ccs : CCS (Fin N → F))
    (mz : List (List (Mle (Fin N → F)))) :
    Res ((LCCCS (Fin N → F) × Witness (Fin N → F) C × FoldProof (Fin N → F)) × σ) := do
  let _ ← sanityCheck ccs P.L
  if cms.length ≠ 2 * P.K then .error .incorrectLength else
  let (ch, s) ← squeezeFold P T s ccs.s
  let fHats := ws.map Witness.fHat
  let rs := cms.map LCCCS.r
  let mz1 ← slice "mz_mles[0..K]" mz 0 P.K
  let z1 ← slice "zeta_s[0..K]" ch.zeta 0 P.K
  let ch1 ← challengedMz mz1 z1
  let mz2 ← slice "mz_mles[K..2K]" mz P.K (2 * P.K)
  let z2 ← slice "zeta_s[K..2K]" ch.zeta P.K (2 * P.K)
  let ch2 ← challengedMz mz2 z2
  let (g, deg) ← createFoldPoly P ccs.s fHats ch.alpha ch1 ch2 rs ch.beta ch.mu
  let ((proof, pst), s) ← proveAsSubprotocol T s g ccs.s deg (foldCombFn P τ ch.mu)
  let r0 := pst.randomness.map (algebraMap F (Fin N → F))
  let theta ← mapRes (fun ms => evaluateMles ms r0) fHats
  let eta ← mapRes (fun ms => evaluateMles ms r0) mz
  let s := theta.foldl T.absorbSlice s
  let s := eta.foldl T.absorbSlice s
  let ((rhoC, rho), s) ← getRhos rd P cs T s
  let f0 ← computeF0 rho ws
  let out ← computeFolded rd rhoC rho theta cms eta ccs
  let lcccs ← foldOutput r0 out
  let w0 ← Witness.fromF rd P f0
  .ok ((lcccs, w0, ⟨proof, theta, eta⟩), s)

/-- `folding.rs:136-194` `LFFoldingVerifier::verify` (with `verify_evaluation`, 273-309,
`verify_sumcheck_proof`, 345-370). The number of statements is not checked. -/
def foldVerify (rd : RingData Fp F C N τ) (P : Params) (cs : ChallengeSet C) (T : Transcript F (Fin N → F) σ)
    (s : σ) (cms : List (LCCCS (Fin N → F))) (proof : FoldProof (Fin N → F)) (ccs : CCS (Fin N → F)) :
    Res (LCCCS (Fin N → F) × σ) := do
  let _ ← sanityCheck ccs P.L
  let (ch, s) ← squeezeFold P T s ccs.s
  let claim := foldClaims ch.alpha ch.zeta cms
  let (sc, s) ← verifyAsSubprotocol T s ccs.s (2 * P.bSmall) claim proof.sumcheck
  let r0 := sc.point.map (algebraMap F (Fin N → F))
  let eStar ← eqEval ch.beta r0
  let es ← mapRes (fun r => eqEval r r0) (cms.map LCCCS.r)
  let exp ← expectedValue P ch.alpha ch.mu proof.thetaS eStar es ch.zeta proof.etaS
  if exp ≠ sc.expectedEvaluation then .error .sumCheckFailed else
  let s := proof.thetaS.foldl T.absorbSlice s
  let s := proof.etaS.foldl T.absorbSlice s
  let ((rhoC, rho), s) ← getRhos rd P cs T s
  let out ← computeFolded rd rhoC rho proof.thetaS cms proof.etaS ccs
  let lcccs ← foldOutput r0 out
  .ok (lcccs, s)

end Ring

end Verif
