import Verif.Model.MleHelpers
import Verif.Model.Sumcheck

/-!
# Model of `nifs/linearization.rs` and `nifs/linearization/utils.rs`
-/

namespace Verif

variable {F R C σ : Type}

/-- `arith.rs:214-223` `Witness` (`C` is the coefficient representation). -/
structure Witness (R C : Type) where
  wCcs : List R
  f : List R
  fCoeff : List C
  fHat : List (Mle R)
  deriving DecidableEq

/-- `nifs/linearization/structs.rs:15-44` `LinearizationProof`. -/
structure LinProof (R : Type) where
  sumcheck : List (List R)
  v : List R
  u : List R
  deriving DecidableEq

/-- `from_be_bytes_mod_order(bytes)` of an ASCII label, embedded in the base ring. -/
def labelNat (s : String) : Nat := s.toList.foldl (fun acc c => acc * 256 + c.toNat) 0

section
variable [Field F] [CommRing R] [Algebra F R]

/-- `absorb_field_element(from_base_prime_field(from_be_bytes_mod_order(label)))`, used before every
group of challenges. -/
def absorbLabel (T : Transcript F R σ) (s : σ) (label : String) : σ :=
  T.absorbField s ((labelNat label : Nat) : F)

/-- `linearization/utils.rs:109-124` `squeeze_beta_challenges`. -/
def squeezeBeta (T : Transcript F R σ) (s : σ) (n : Nat) : List R × σ :=
  let s := absorbLabel T s "beta_s"
  let (cs, s) := T.challenges n s
  (cs.map (algebraMap F R), s)

end

section
variable [CommRing R] [DecidableEq R]

/-- `linearization/utils.rs:63-88` `prepare_lin_sumcheck_polynomial`. -/
def prepareLinPoly (c : List R) (d : Nat) (Mmles : List (Mle R)) (S : List (List Nat))
    (beta : List R) : Res (List (Mle R) × Nat) := do
  let groups ← mapRes (fun ci : R × Nat => do
      let Si ← idx "S[i]" S ci.2
      mapRes (fun j => idx "M_mles[j]" Mmles j) Si)
    (c.zipIdx.filter fun ci => decide (ci.1 ≠ 0))
  let eq ← buildEq beta
  .ok (groups.flatten ++ [eq], d + 1)

/-- Inner loop of `sumcheck_polynomial_comb_fn`, `utils.rs:97-102`; `none` is `continue 'outer`. -/
def combTerm (vals : List R) : List Nat → R → Res (Option R)
  | [], term => .ok (some term)
  | j :: js, term => do
    let v ← idx "vals[j]" vals j
    if v = 0 then .ok none else combTerm vals js (term * v)

/-- Body of the outer loop of `sumcheck_polynomial_comb_fn`, `utils.rs:92-104`. -/
def linCombStep (ccs : CCS R) (vals : List R) (result : R) (ci : R × Nat) : Res R :=
  if ci.1 = 0 then .ok result
  else do
    let Si ← idx "ccs.S[i]" ccs.S ci.2
    let t ← combTerm vals Si ci.1
    match t with
    | none => .ok result
    | some t => .ok (result + t)

/-- `linearization/utils.rs:90-107` `sumcheck_polynomial_comb_fn`. -/
def linCombFn (ccs : CCS R) (vals : List R) : Res R := do
  let result ← foldRes (linCombStep ccs vals) 0 ccs.c.zipIdx
  let k ← usub "vals.len() - 1" vals.length 1
  let last ← idx "vals[vals.len() - 1]" vals k
  .ok (result * last)

/-- `linearization.rs:225-231`: `sum_i c_i * prod_{j in S_i} u[j]`. -/
def linClaim (ccs : CCS R) (u : List R) : Res R := do
  let terms ← mapRes (fun ci : R × Nat => do
      let Si ← idx "ccs.S[i]" ccs.S ci.2
      let us ← mapRes (fun j => idx "proof.u[j]" u j) Si
      .ok (ci.1 * us.prod)) ccs.c.zipIdx
  .ok terms.sum

end

section
variable [Field F] [DecidableEq F] [CommRing R] [DecidableEq R] [Algebra F R]

/-- `linearization.rs:145-189` `LFLinearizationProver::prove` (with `construct_polynomial_g`,
lines 80-103, `generate_sumcheck_proof`, 106-122, `compute_evaluation_vectors`, 126-139). -/
def linProve (T : Transcript F R σ) (s : σ) (cm : CCCS R) (wit : Witness R C) (ccs : CCS R) :
    Res ((LCCCS R × LinProof R) × σ) := do
  let z := cm.getZ wit.wCcs
  let (beta, s) := squeezeBeta T s ccs.s
  let mz ← calculateMzMles ccs z
  let (gmles, deg) ← prepareLinPoly ccs.c ccs.d mz ccs.S beta
  let ((proof, pst), s) ← proveAsSubprotocol T s gmles ccs.s deg (linCombFn ccs)
  let r := pst.randomness.map (algebraMap F R)
  let v ← evaluateMles wit.fHat r
  let u ← evaluateMles mz r
  let s := T.absorbSlice s v
  let s := T.absorbSlice s u
  .ok ((⟨r, v, cm.cm, u, cm.x_ccs, 1⟩, ⟨proof, v, u⟩), s)

/-- `linearization.rs:264-284` `LFLinearizationVerifier::verify` (with `verify_sumcheck_proof`,
193-214, `verify_evaluation_claim`, 220-243, `prepare_verifier_output`, 245-258). -/
def linVerify (T : Transcript F R σ) (s : σ) (cm : CCCS R) (proof : LinProof R) (ccs : CCS R) :
    Res (LCCCS R × σ) := do
  let (beta, s) := squeezeBeta T s ccs.s
  let (sc, s) ← verifyAsSubprotocol T s ccs.s (ccs.d + 1) 0 proof.sumcheck
  let r := sc.point.map (algebraMap F R)
  let e ← eqEval r beta
  let claim ← linClaim ccs proof.u
  if e * claim ≠ sc.expectedEvaluation then .error .sumCheckFailed
  else
    let s := T.absorbSlice s proof.v
    let s := T.absorbSlice s proof.u
    .ok (⟨r, proof.v, cm.cm, proof.u, cm.x_ccs, 1⟩, s)

end

end Verif
