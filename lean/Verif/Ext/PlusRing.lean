import Verif.Ext.Linalg
import Verif.Ext.Ring
import Mathlib.Algebra.Module.Equiv.Basic

/-!
# Contracts used by `crates/latticefold-plus`: coefficient rings, `exp`, `psi`, matrix helpers

`CoeffRing`, `Zq`, `exp`, `psi` come from `stark-rings`, `Matrix`/`SparseMatrix` from
`stark-rings-linalg`; neither source is in the repository.
-/

namespace Verif

open Finset

/-- Data and contracts of a `CoeffRing` `R` of dimension `d` with `BaseRing = F`.

* `coeff` - `coeffs()`, the coefficients with respect to the powers of `X`;
* `exp` - `stark_rings::exp`, the monomial encoding of a small integer (`Err` if it does not fit);
* `psi` - `stark_rings::psi`: the table polynomial, with `ct(psi * exp(n)) = n`;
* `decF` - `Decompose` of one element of the base ring, `dec` - `Decompose` of one ring element,
  to `k` digits base `b` (aborts when the element does not fit). -/
structure PlusRing (F R : Type) (d : Nat) [Field F] [CommRing R] [Algebra F R] where
  dpos : 0 < d
  coeff : R ≃ₗ[F] (Fin d → F)
  X : R
  coeff_X : ∀ i : Fin d, coeff (X ^ (i : Nat)) = Pi.single i 1
  exp : F → Option R
  psi : R
  /-- `exp` sends every integer of absolute value less than `d / 2` to a power of `X` from which
  `psi` recovers the integer. -/
  exp_ok : ∀ n : ℤ, 2 * n.natAbs < d → ∃ i : Fin d, exp (n : F) = some (X ^ (i : Nat)) ∧
    coeff (psi * X ^ (i : Nat)) ⟨0, dpos⟩ = n
  decF : Nat → Nat → F → Res (List F)
  decF_ok : ∀ b k a, 2 ≤ b → Even b → 1 ≤ k → Short (b ^ k) a →
    ∃ ds, decF b k a = .ok ds ∧ ds.length = k ∧
      ∑ i ∈ range k, (b : F) ^ i * ds.getD i 0 = a ∧ ∀ x ∈ ds, Short b x
  dec : Nat → Nat → R → Res (List R)
  dec_ok : ∀ b k a, 2 ≤ b → Even b → 1 ≤ k → (∀ i, Short (b ^ k) (coeff a i)) →
    ∃ ds, dec b k a = .ok ds ∧ ds.length = k ∧
      ∑ i ∈ range k, (b : R) ^ i * ds.getD i 0 = a ∧ ∀ x ∈ ds, ∀ i, Short b (coeff x i)

namespace PlusRing

variable {F R : Type} {d : Nat} [Field F] [CommRing R] [Algebra F R]

/-- `PolyRing::ct`: the constant coefficient. -/
def ct (pr : PlusRing F R d) (r : R) : F := pr.coeff r ⟨0, pr.dpos⟩

/-- `PolyRing::coeffs` as a list. -/
def coeffs (pr : PlusRing F R d) (r : R) : List F := List.ofFn (pr.coeff r)

end PlusRing

variable {R : Type}

/-- `SparseMatrix::transpose`: row `j` of the result lists the pairs `(value, i)` of the entries in
column `j`, by increasing row `i`. -/
def SpMat.transpose (M : SpMat R) : SpMat R where
  nrows := M.ncols
  ncols := M.nrows
  coeffs := (List.range M.ncols).map fun j =>
    M.coeffs.zipIdx.flatMap fun p => p.1.filterMap fun t => if t.2 = j then some (t.1, p.2) else none

/-- `SparseMatrix::from_dense`: the entries of every row with their columns. (Whether zero entries
are stored makes no difference to any of the uses in the crate: every use scatters the stored entries into zero
vectors.) -/
def SpMat.fromDense (M : Mat R) : SpMat R where
  nrows := M.nrows
  ncols := M.ncols
  coeffs := M.vals.map fun row => row.zipIdx

/-- `SparseMatrix::try_mul_vec(..).unwrap()`: an error (abort after `unwrap`) if the vector does not have one entry per column. A stored column
index out of range aborts. -/
def SpMat.tryMulVec [CommRing R] (M : SpMat R) (v : List R) : Res (List R) :=
  if v.length = M.ncols then
    mapRes (fun row => do
      let ts ← mapRes (fun (t : R × Nat) => do
        let x ← idx "try_mul_vec" v t.2
        .ok (t.1 * x)) row
      .ok ts.sum) M.coeffs
  else .error (.panic "try_mul_vec")

/-- `Matrix::try_mul_vec(..).unwrap()`. -/
def Mat.tryMulVec [CommRing R] (A : Mat R) (v : List R) : Res (List R) :=
  match A.checkedMulVec v with
  | some w => .ok w
  | none => .error (.panic "try_mul_vec")

/-- `Matrix::try_mul_mat(..).unwrap()`: the matrix product, an abort if the inner dimensions differ. -/
def Mat.tryMulMat [CommRing R] (A B : Mat R) : Res (Mat R) :=
  if A.ncols = B.nrows then
    .ok ⟨A.nrows, B.ncols, A.vals.map fun row =>
      (List.range B.ncols).map fun j => dot row (B.vals.map fun br => br.getD j 0)⟩
  else .error (.panic "try_mul_mat")

/-- `Matrix::hconcat(..).unwrap()`: side by side, an abort for an empty list or different numbers of
rows. -/
def Mat.hconcat (ms : List (Mat R)) : Res (Mat R) :=
  match ms with
  | [] => .error (.panic "hconcat")
  | m :: _ =>
    if ms.all fun x => x.nrows == m.nrows then
      .ok ⟨m.nrows, (ms.map (·.ncols)).sum, (List.range m.nrows).map fun i =>
        (ms.map fun x => x.vals.getD i []).flatten⟩
    else .error (.panic "hconcat")

end Verif
