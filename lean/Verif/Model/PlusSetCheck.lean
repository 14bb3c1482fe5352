import Verif.Model.PlusUtils
import Verif.Model.MleHelpers
import Verif.Model.Sumcheck

/-!
# Model of `crates/latticefold-plus/src/setchk.rs`
-/

namespace Verif.Plus

variable {F R σ : Type} {d : Nat}

/-- `setchk.rs:17-21` `MonomialSet`. -/
inductive MonomialSet (R : Type) where
  | matrix (M : SpMat R)
  | vector (v : List R)

/-- `setchk.rs:29-36` `Out`. -/
structure SetOut (F R : Type) where
  nvars : Nat
  r : List F
  sumcheck : List (List R)
  e : List (List (List R))
  b : List R
  deriving DecidableEq

/-- `row.iter().for_each(|(r, i)| v[*i] = g(r))` on `v = vec![0; n]` (`setchk.rs:106-107`, `207-208`,
`226-229`): the last entry stored for a position wins. -/
def scatter [Zero R] (g : R → R) (n : Nat) (row : List (R × Nat)) : Res (List R) :=
  foldRes (fun acc t =>
    if t.2 < acc.length then .ok (acc.set t.2 (g t.1)) else .error (.panic "m_j[*i]"))
    (List.replicate n 0) row

section
variable [Field F] [CommRing R] [Algebra F R]

/-- `setchk.rs:46-57` `ev`: `∑_i coeff_i x^i`. -/
def ev (pr : PlusRing F R d) (r : R) (x : F) : F :=
  ((pr.coeffs r).foldl (fun (p : F × F) c => (p.1 + c * p.2, p.2 * x)) (0, 1)).1

/-- The challenges `(c, beta, alpha)` of one claim: `setchk.rs:94-99`, `121`, `128-133`, `148`
(prover) and `271-277` (verifier). -/
def drawClaim (T : Transcript F R σ) (nvars : Nat) (s : σ) : (List F × F × F) × σ :=
  let (c, s) := T.challenges nvars s
  let (beta, s) := T.challenge s
  let (alpha, s) := T.challenge s
  ((c, beta, alpha), s)

/-- The challenges of `k` claims in a row. -/
def drawClaims (T : Transcript F R σ) (nvars : Nat) : Nat → σ → List (List F × F × F) × σ
  | 0, s => ([], s)
  | k + 1, s =>
    let (c, s) := drawClaim T nvars s
    let (cs, s) := drawClaims T nvars k s
    (c :: cs, s)

/-- The challenges of all claims and the batching challenge `rc`, present only for more than one matrix set: `setchk.rs:152-153` and `282`. -/
def drawAll (T : Transcript F R σ) (nvars nMs nms : Nat) (s : σ) :
    (List (List F × F × F) × Option F) × σ :=
  let (cba, s) := drawClaims T nvars (nMs + nms) s
  if nMs > 1 then
    let (rc, s) := T.challenge s
    ((cba, some rc), s)
  else ((cba, none), s)

/-- `setchk.rs:105-116` and `134-143`: the two tables of one column (or vector). -/
def pairMles (tnvars : Nat) (col : List R) : Res (List (Mle R)) := do
  let m ← Mle.fromEvals tnvars col
  let m' ← Mle.fromEvals tnvars (col.map fun z => z * z)
  .ok [m, m']

/-- `setchk.rs:92-123`: the tables of one matrix set, followed by the equality table. -/
def matMles (pr : PlusRing F R d) (tnvars : Nat) (M : SpMat R) (cba : List F × F × F) :
    Res (List (Mle R)) := do
  let ps ← mapRes (fun row => do
    let col ← scatter (fun r => algebraMap F R (ev pr r cba.2.1)) M.nrows row
    pairMles tnvars col) M.transpose.coeffs
  let eq ← unwrapRes "build_eq_x_r.unwrap()" (buildEq (cba.1.map (algebraMap F R)))
  .ok (ps.flatten ++ [eq])

/-- `setchk.rs:126-150`: the tables of one vector set. -/
def vecMles (pr : PlusRing F R d) (tnvars : Nat) (m : List R) (cba : List F × F × F) :
    Res (List (Mle R)) := do
  let ps ← pairMles tnvars (m.map fun r => algebraMap F R (ev pr r cba.2.1))
  let eq ← unwrapRes "build_eq_x_r.unwrap()" (buildEq (cba.1.map (algebraMap F R)))
  .ok (ps ++ [eq])

end

section
variable [Field F] [CommRing R] [Algebra F R]

/-- `setchk.rs:157-166`: the claim of matrix set `i`, read from the values starting at `s`. -/
def matClaim (ncols : Nat) (alpha : F) (vals : List R) (s : Nat) : Res R := do
  let res ← foldRes (fun res j => do
    let x ← idx "vals" vals (s + j * 2)
    let y ← idx "vals" vals (s + j * 2 + 1)
    .ok (res + (x * x - y) * algebraMap F R (alpha ^ j))) 0 (List.range ncols)
  let eq ← idx "vals" vals (s + 2 * ncols)
  .ok (res * eq)

/-- `setchk.rs:173-179`: the claim of a vector set. -/
def vecClaim (alpha : F) (vals : List R) (s : Nat) : Res R := do
  let x ← idx "vals" vals s
  let y ← idx "vals" vals (s + 1)
  let eq ← idx "vals" vals (s + 2)
  .ok ((x * x - y) * algebraMap F R alpha * eq)

/-- `setchk.rs:155-187` `comb_fn`. Without batching challenge the first claim is returned. -/
def setComb (nMs nms ncols : Nat) (alphas : List F) (rc : Option F) (vals : List R) : Res R :=
  match rc with
  | none =>
    if 0 < nMs then do
      let a ← idx "alphas" alphas 0
      matClaim ncols a vals 0
    else if 0 < nms then do
      let a ← idx "alphas" alphas 0
      vecClaim a vals 0
    else .ok 0
  | some rc => do
    let lc ← foldRes (fun lc i => do
      let a ← idx "alphas" alphas i
      let res ← matClaim ncols a vals (i * (2 * ncols + 1))
      .ok (lc + res * algebraMap F R (rc ^ i))) 0 (List.range nMs)
    foldRes (fun lc i => do
      let a ← idx "alphas" alphas (nMs + i)
      let res ← vecClaim a vals (nMs * (2 * ncols + 1) + i * 3)
      .ok (lc + res * algebraMap F R (rc ^ (nMs + i)))) lc (List.range nms)

/-- `setchk.rs:344-355` `absorb_evaluations`. -/
def absorbSet (T : Transcript F R σ) (s : σ) (e : List (List (List R))) (b : List R) : σ :=
  T.absorbSlice (e.foldl (fun s ek => ek.foldl (fun s ej => T.absorbSlice s ej) s) s) b

/-- `setchk.rs:202-217`: `e[0]`, the evaluations of the columns of the matrix sets. -/
def evalCols (tnvars : Nat) (r : List R) (M : SpMat R) : Res (List R) :=
  mapRes (fun row => do
    let col ← scatter id M.nrows row
    evalVec tnvars col r) M.transpose.coeffs

/-- `setchk.rs:220-241`: `e[1 + i]`, the evaluations of `M_i` times the columns. -/
def evalColsMul (tnvars : Nat) (r : List R) (Mi M : SpMat R) : Res (List R) :=
  mapRes (fun row => do
    let col ← scatter id M.nrows row
    let w ← Mi.tryMulVec col
    evalVec tnvars w r) M.transpose.coeffs

/-- The matrix sets and the vector sets, `setchk.rs:66-81`. -/
def matSets (sets : List (MonomialSet R)) : List (SpMat R) :=
  sets.filterMap fun
    | .matrix M => some M
    | .vector _ => none

/-- See `matSets`. -/
def vecSets (sets : List (MonomialSet R)) : List (List R) :=
  sets.filterMap fun
    | .matrix _ => none
    | .vector v => some v

/-- `setchk.rs:65-262` `In::set_check`. The tables are built between the draws of the challenges in the code;
nothing is absorbed there, so all challenges are drawn first here. -/
def setCheck (pr : PlusRing F R d) (T : Transcript F R σ) (s : σ) (nvars : Nat)
    (sets : List (MonomialSet R)) (M : List (SpMat R)) : Res (SetOut F R × σ) := do
  let Ms := matSets sets
  let ms := vecSets sets
  let M0 ← idx "Ms[0]" Ms 0
  let ncols := M0.ncols
  let tnvars := Nat.clog 2 M0.nrows
  let ((cba, rc), s) := drawAll T nvars Ms.length ms.length s
  let mm ← mapRes (fun p => matMles pr tnvars p.1 p.2) (Ms.zip cba)
  let mv ← mapRes (fun p => vecMles pr tnvars p.1 p.2) (ms.zip (cba.drop Ms.length))
  let ((sumcheck, pst), s) ← proveAsSubprotocol T s (mm.flatten ++ mv.flatten) nvars 3
    (setComb Ms.length ms.length ncols (cba.map fun x => x.2.2) rc)
  let rp : List R := pst.randomness.map (algebraMap F R)
  let e0 ← mapRes (evalCols tnvars rp) Ms
  let es ← mapRes (fun Mi => mapRes (evalColsMul tnvars rp Mi) Ms) M
  let b ← mapRes (fun m => evalVec tnvars m rp) ms
  let e := e0 :: es
  .ok (⟨nvars, pst.randomness, sumcheck, e, b⟩, absorbSet T s e b)

/-- `setchk.rs:313-319`: the contribution of one evaluated column. -/
def verTerm (pr : PlusRing F R d) (beta : F) (u : R) : R :=
  algebraMap F R (ev pr u beta) * algebraMap F R (ev pr u beta)
    - algebraMap F R (ev pr u (beta * beta))

/-- `setchk.rs:302-334`: the value `ver` recomputed by the verifier at the point `r`. -/
def setVer (pr : PlusRing F R d) (e0 : List (List R)) (b : List R)
    (cba : List (List F × F × F)) (rc : Option F) (r : List R) : Res R := do
  let rcv : F := rc.getD 1
  let ver ← foldRes (fun ver (p : List R × Nat) => do
    let t ← idx "cba[i]" cba p.2
    let eq ← eqEval (t.1.map (algebraMap F R)) r
    let esum := (p.1.zipIdx.map fun q =>
      verTerm pr t.2.1 q.1 * algebraMap F R (t.2.2 ^ q.2)).sum
    .ok (ver + eq * esum * algebraMap F R (rcv ^ p.2))) 0 e0.zipIdx
  foldRes (fun ver (p : R × Nat) => do
    let t ← idx "cba[i + offset]" cba (p.2 + e0.length)
    let eq ← eqEval (t.1.map (algebraMap F R)) r
    .ok (ver + eq * algebraMap F R t.2.2 * verTerm pr t.2.1 p.1
      * algebraMap F R (rcv ^ (p.2 + e0.length)))) ver b.zipIdx

/-- `setchk.rs:266-341` `Out::verify`. `SetCheckError::{Sumcheck, ExpectedEvaluation}` are both the
error `sumCheckFailed`. `eq_eval(..).unwrap()` cannot fail: both points have `nvars` entries. -/
def setVerify [DecidableEq F] [DecidableEq R] (pr : PlusRing F R d) (T : Transcript F R σ) (s : σ)
    (out : SetOut F R) : Res σ := do
  let e0 ← idx "self.e[0]" out.e 0
  let ((cba, rc), s) := drawAll T out.nvars e0.length out.b.length s
  let (sc, s) ← verifyAsSubprotocol T s out.nvars 3 (0 : R) out.sumcheck
  let s := absorbSet T s out.e out.b
  let ver ← setVer pr e0 out.b cba rc (sc.point.map (algebraMap F R))
  if ver = sc.expectedEvaluation then .ok s else .error .sumCheckFailed

end

end Verif.Plus
