import Verif.Model.Witness

/-!
# Model of `nifs/decomposition.rs` and `nifs/decomposition/utils.rs`
-/

namespace Verif

variable {Fp F C R σ : Type} {N τ : Nat}

/-- `nifs/decomposition/structs.rs:19-51` `DecompositionProof`. -/
structure DecProof (R : Type) where
  uS : List (List R)
  vS : List (List R)
  xS : List (List R)
  yS : List (Commitment R)
  deriving DecidableEq

section Generic
variable [Field F] [CommRing R] [DecidableEq R] [Algebra F R]

/-- One iteration of the loop `decomposition.rs:62-82` (prover) / `105-125` (verifier): absorb one
piece and build its linearized statement. -/
def decPiece (T : Transcript F R σ) (r : List R) (acc : List (LCCCS R) × σ)
    (p : ((List R × Commitment R) × List R) × List R) : Res (List (LCCCS R) × σ) :=
  let s := T.absorbSlice acc.2 p.1.1.1
  let s := T.absorbSlice s p.1.1.2.val
  let s := T.absorbSlice s p.1.2
  let s := T.absorbSlice s p.2
  match p.1.1.1.getLast? with
  | none => .error .incorrectLength
  | some h => .ok (acc.1 ++ [⟨r, p.2, p.1.1.2, p.1.2, p.1.1.1.dropLast, h⟩], s)

/-- The whole loop over `x_s.zip(y_s).zip(u_s).zip(v_s)`. -/
def decPieces (T : Transcript F R σ) (s : σ) (r : List R) (proof : DecProof R) :
    Res (List (LCCCS R) × σ) :=
  foldRes (decPiece T r) ([], s) (((proof.xS.zip proof.yS).zip proof.uS).zip proof.vS)

/-- `decomposition.rs:262-274` `recompose`. -/
def recomposeVecs (vs : List (List R)) (b : List R) : Res (List R) :=
  match vs with
  | [] => .error .recomposedError
  | v0 :: _ =>
    mapRes (fun j => foldRes (fun acc (p : List R × R) => do
      let x ← idx "s_i[j]" p.1 j
      .ok (acc + x * p.2)) 0 (vs.zip b)) (List.range v0.length)

/-- `decomposition.rs:277-286` `recompose_commitment`. -/
def recomposeCommitment (ys : List (Commitment R)) (coeffs : List R) : Res (Commitment R) :=
  match List.zipWith (fun (y : Commitment R) b => y.smul b) ys coeffs with
  | [] => .error .recomposedError
  | c :: cs => .ok (cs.foldl Commitment.add c)

/-- `decomposition.rs:288-292` `calculate_b_s`: `u128` powers, aborting on overflow. -/
def calculateBs (R : Type) [CommRing R] (P : Params) : Res (List R) :=
  mapRes (fun i => if P.bSmall ^ i < 2 ^ 128 then .ok ((P.bSmall ^ i : Nat) : R)
    else .error (.panic "u128::pow")) (List.range P.K)

/-- `x_w.pop().ok_or(IncorrectLength)?`, `decomposition.rs:145`. -/
def popLast (x : List R) : Res (List R × R) :=
  match x.getLast? with
  | none => .error .incorrectLength
  | some h => .ok (x.dropLast, h)

/-- `decomposition.rs:94-155` `LFDecompositionVerifier::verify`. -/
def decVerify (P : Params) (T : Transcript F R σ) (s : σ) (cmi : LCCCS R) (proof : DecProof R) :
    Res (List (LCCCS R) × σ) := do
  let (lcccs, s) ← decPieces T s cmi.r proof
  let bs ← calculateBs R P
  let y ← recomposeCommitment proof.yS bs
  if y ≠ cmi.cm then .error .recomposedError else
  let v ← recomposeVecs proof.vS bs
  if v ≠ cmi.v then .error .recomposedError else
  let u ← recomposeVecs proof.uS bs
  if u ≠ cmi.u then .error .recomposedError else
  let x ← recomposeVecs proof.xS bs
  let (xw, h) ← popLast x
  if xw ≠ cmi.x_w then .error .recomposedError else
  if h ≠ cmi.h then .error .recomposedError else
  .ok (lcccs, s)

/-- `decomposition.rs:178-201` `commit_witnesses`: `y_0` is derived from the input commitment. -/
def commitWitnesses (P : Params) (wits : List (Witness R C)) (scheme : Ajtai R) (cmi : LCCCS R) :
    Res (List (Commitment R)) := do
  if wits = [] then .error (.panic "wit_s[1..]") else
  let ys ← mapRes (fun w : Witness R C => w.commit scheme) wits.tail
  let bsum := ys.reverse.foldl (fun acc y => (acc.add y).smul (P.bSmall : R))
    (Commitment.zeroed scheme.kappa)
  .ok (cmi.cm.sub bsum :: ys)

/-- `decomposition.rs:229-256` `compute_mz_mles`. -/
def computeMzMles (wits : List (Witness R C)) (M : List (SpMat R)) (xs : List (List R)) (nv : Nat) :
    Res (List (List (Mle R))) :=
  mapRes (fun wi : Witness R C × Nat => do
    let x ← idx "decomposed_statements[i]" xs wi.2
    toMlesErr nv (M.map fun M => matVecMul M (x ++ wi.1.wCcs))) wits.zipIdx

end Generic

section Ring
variable [Field Fp] [Field F] [DecidableEq F] [Algebra Fp F] [CommRing C] [Algebra Fp C]

/-- `decomposition/utils.rs:45-49` `decompose_B_vec_into_k_vec`. -/
def decomposeBVec (rd : RingData Fp F C N τ) (P : Params) (x : List C) : Res (List (List C)) :=
  letI : Inhabited C := ⟨0⟩
  do
    let ds ← mapRes (rd.dec P.bSmall P.K) x
    .ok (transposeL ds)

/-- `decomposition/utils.rs:12-42` `decompose_big_vec_into_k_vec_and_compose_back`. -/
def decomposeBigVec (rd : RingData Fp F C N τ) (P : Params) (x : List (Fin N → F)) :
    Res (List (List (Fin N → F))) := do
  let digits ← gadgetDecompose rd P.B P.L (x.map rd.crt.symm)
  let rows ← decomposeBVec rd P digits
  mapRes (fun row => do
    let cs ← chunks P.L row
    .ok (cs.map fun c => rd.crt (recomposeL (P.B : C) c))) rows

/-- `decomposition.rs:33-88` `LFDecompositionProver::prove` (with `decompose_witness`, 162-167,
`compute_x_s`, 172-175, `compute_v_s`, 204-211, `compute_u_s`, 214-228). -/
def decProve (rd : RingData Fp F C N τ) (P : Params) (T : Transcript F (Fin N → F) σ) (s : σ)
    (cmi : LCCCS (Fin N → F)) (wit : Witness (Fin N → F) C) (ccs : CCS (Fin N → F))
    (scheme : Ajtai (Fin N → F)) :
    Res ((List (List (Mle (Fin N → F))) × List (LCCCS (Fin N → F)) × List (Witness (Fin N → F) C) ×
      DecProof (Fin N → F)) × σ) := do
  let _ ← sanityCheck ccs P.L
  let fs ← decomposeBVec rd P wit.fCoeff
  let wits ← mapRes (Witness.fromFCoeff rd P) fs
  let xs ← decomposeBigVec rd P (cmi.x_w ++ [cmi.h])
  let ys ← commitWitnesses P wits scheme cmi
  let vs ← mapRes (fun w : Witness (Fin N → F) C => evaluateMles w.fHat cmi.r) wits
  let mz ← computeMzMles wits ccs.M xs ccs.s
  let us ← mapRes (fun ms => evaluateMles ms cmi.r) mz
  let proof : DecProof (Fin N → F) := ⟨us, vs, xs, ys⟩
  let (lcccs, s) ← decPieces T s cmi.r proof
  .ok ((mz, lcccs, wits, proof), s)

end Ring

end Verif
