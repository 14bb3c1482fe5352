import Verif.Ext.Mle
import Verif.Model.Arith

/-!
# Model of `utils/sumcheck/utils.rs` (eq polynomial, bits) and `utils/mle_helpers.rs`
-/

namespace Verif

variable {R : Type}

section
variable [CommRing R]

/-- `utils/sumcheck/utils.rs:64-75` `rand_poly_comb_fn`: sum of coefficient times product of the
indexed values; indexing may abort. -/
def randPolyCombFn (vals : List R) (products : List (R × List Nat)) : Res R :=
  foldRes (fun result p => do
    let term ← foldRes (fun term i => do
      let v ← idx "rand_poly_comb_fn" vals i
      .ok (term * v)) p.1 p.2
    .ok (result + term)) 0 products

/-- Contract of `random_mle_list` (`stark-rings-poly`): besides the list it returns the sum over the cube of
the product of its members. -/
def productSum (nv : Nat) (fs : List (Mle R)) : R :=
  ((List.range (2 ^ nv)).map fun b => (fs.map fun f => f.get b).prod).sum

/-- `utils/sumcheck/utils.rs:24-62` `rand_poly`; `draws` are the random samples: for each product its
coefficient and its list of multilinear extensions. -/
def randPoly (nv : Nat) (draws : List (R × List (Mle R))) :
    (List (Mle R) × Nat) × List (R × List Nat) × R :=
  let r := draws.foldl
    (fun (acc : List (Mle R) × Nat × List (R × List Nat) × Nat × R) p =>
      let (mles, degree, products, current, sum) := acc
      let m := p.2.length
      (mles ++ p.2, max m degree, products ++ [(p.1, (List.range m).map (current + ·))], current + m,
        sum + productSum nv p.2 * p.1))
    ([], 0, [], 0, 0)
  ((r.1, r.2.1), r.2.2.1, r.2.2.2.2)

/-- `utils/sumcheck/utils.rs:78-92` `eq_eval`. -/
def eqEval (x y : List R) : Res R :=
  if x.length ≠ y.length then .error .invalidParameters
  else .ok ((List.zip x y).foldl
    (fun res p => res * (p.1 * p.2 + p.1 * p.2 - p.1 - p.2 + 1)) 1)

/-- `utils/sumcheck/utils.rs:134-170` `build_eq_x_r_helper`, the contents of `buf` at the end. The
caller always passes an empty buffer. -/
def buildEqHelper : List R → Res (List R)
  | [] => .error .invalidParameters
  | [r0] => .ok [1 - r0, r0]
  | r0 :: r1 :: rs => do
    let buf ← buildEqHelper (r1 :: rs)
    -- `for (i, val) in res.iter_mut().enumerate()` over `buf.len() << 1` slots
    mapRes (fun i => do
      let bi ← idx "build_eq_x_r_helper" buf (i / 2)
      let tmp := r0 * bi
      if i % 2 = 0 then .ok (bi - tmp) else .ok tmp) (List.range (buf.length * 2))

/-- `utils/sumcheck/utils.rs:113-129` `build_eq_x_r_vec`. -/
def buildEqVec (r : List R) : Res (List R) := buildEqHelper r

/-- `utils/sumcheck/utils.rs:100-105` `build_eq_x_r`. -/
def buildEq (r : List R) : Res (Mle R) := do
  let evals ← buildEqVec r
  Mle.fromEvals r.length evals

end

/-- `utils/sumcheck/utils.rs:174-182` `bit_decompose` (`u64` input). -/
def bitDecompose (input : Nat) : Nat → List Bool
  | 0 => []
  | n + 1 => decide (input % 2 = 1) :: bitDecompose (input / 2) n

section
variable [CommRing R]

/-- `utils/mle_helpers.rs:25-33` `Evaluate for Vec<R>` (and lines 35-43 for `&[R]`, identical). -/
def evaluateVec (evals point : List R) : Res R := do
  let m ← Mle.fromEvals point.length evals
  match m.evaluate point with
  | some v => .ok v
  | none => .error (.mleIncorrectLength point.length evals.length)

/-- `utils/mle_helpers.rs:45-50` `Evaluate for &DenseMultilinearExtension<R>`. -/
def evaluateMle (m : Mle R) (point : List R) : Res R :=
  match m.evaluate point with
  | some v => .ok v
  | none => .error (.mleIncorrectLength point.length m.evals.length)

/-- `utils/mle_helpers.rs:52-62` `Evaluate for &Vec<R>`. -/
def evaluateRefVec (evals point : List R) : Res R :=
  if evals.length ≠ 2 ^ point.length then
    .error (.mleIncorrectLength point.length evals.length)
  else evaluateVec evals point

/-- `utils/mle_helpers.rs:65-88` `evaluate_mles` for `&DenseMultilinearExtension`. -/
def evaluateMles (mles : List (Mle R)) (point : List R) : Res (List R) :=
  mapRes (fun m => evaluateMle m point) mles

/-- `utils/mle_helpers.rs:91-134` `to_mles_err`. The error carries `1 << n_vars`. -/
def toMlesErr (nVars : Nat) (ms : List (Res (List R))) : Res (List (Mle R)) :=
  mapRes (fun m => match m with
    | .error e => .error e
    | .ok m =>
      if 2 ^ nVars < m.length then .error (.mleIncorrectLength (2 ^ nVars) m.length)
      else Mle.fromEvals nVars m) ms

/-- `utils/mle_helpers.rs:137-146` `calculate_Mz_mles`. -/
def calculateMzMles (ccs : CCS R) (z : List R) : Res (List (Mle R)) :=
  toMlesErr ccs.s (ccs.M.map fun M => matVecMul M z)

end

end Verif
