import Verif.Basic
import Mathlib.Algebra.Ring.Defs
import Mathlib.Algebra.BigOperators.Group.List.Basic

/-!
# Contracts of `stark-rings-linalg`

The source of `stark_rings_linalg::{Matrix, SparseMatrix}` is not part of the repository; these are
the (publicly documented) behaviours the code relies on.
-/

namespace Verif

variable {R : Type}

/-- `stark_rings_linalg::Matrix<R>`: dense matrix. -/
structure Mat (R : Type) where
  nrows : Nat
  ncols : Nat
  vals : List (List R)

/-- `impl From<Vec<Vec<R>>> for Matrix<R>`: sizes are read off the rows (0 columns if no row). -/
def Mat.ofRows (rows : List (List R)) : Mat R :=
  { nrows := rows.length
    ncols := match rows with
      | [] => 0
      | r :: _ => r.length
    vals := rows }

/-- A dense matrix whose recorded sizes are the real ones. -/
def Mat.WF (A : Mat R) : Prop :=
  A.vals.length = A.nrows ∧ ∀ r ∈ A.vals, r.length = A.ncols

/-- Inner product of two slices via `zip`. -/
def dot [Semiring R] (a b : List R) : R := (List.zipWith (· * ·) a b).sum

/-- `Matrix::checked_mul_vec`: `None` if the vector has the wrong length. -/
def Mat.checkedMulVec [Semiring R] (A : Mat R) (v : List R) : Option (List R) :=
  if v.length = A.ncols then some (A.vals.map fun row => dot row v) else none

/-- `stark_rings_linalg::SparseMatrix<R>` (public fields `nrows`, `ncols`, `coeffs`, used by
`arith/utils.rs:52-65` and `arith/r1cs.rs:515-531`): rows of (value, column) pairs. -/
structure SpMat (R : Type) where
  nrows : Nat
  ncols : Nat
  coeffs : List (List (R × Nat))
  deriving DecidableEq

/-- A sparse matrix whose row count is the recorded one and whose column indices are in range. -/
def SpMat.WF (M : SpMat R) : Prop :=
  M.coeffs.length = M.nrows ∧ ∀ row ∈ M.coeffs, ∀ t ∈ row, t.2 < M.ncols

/-- `SparseMatrix::pad_rows(size)`: append empty rows up to `size` rows. -/
def SpMat.padRows (M : SpMat R) (size : Nat) : SpMat R :=
  if size > M.nrows then
    { M with nrows := size, coeffs := M.coeffs ++ List.replicate (size - M.nrows) [] }
  else M

end Verif
