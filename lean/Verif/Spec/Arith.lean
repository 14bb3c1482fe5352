import Verif.Model.Arith
import Mathlib.Algebra.BigOperators.Group.Finset.Basic

/-!
# Independent specifications for constraint systems and commitments

Everything here is stated with dense matrix entries and finite sums, not with the model's loops.
-/

namespace Verif.Spec

open Finset

variable {R : Type} [CommRing R]

/-- Dense entry `(i, j)` of a sparse matrix: the sum of all values stored for that position. -/
def entry (M : SpMat R) (i j : Nat) : R :=
  (((M.coeffs.getD i []).filter fun t => decide (t.2 = j)).map (·.1)).sum

/-- `(M z)_i` as a finite sum over columns. -/
def mulVec (M : SpMat R) (z : List R) (i : Nat) : R :=
  ∑ j ∈ range M.ncols, entry M i j * z.getD j 0

/-- Row `i` of an R1CS holds. -/
def R1CSRow (A B C : SpMat R) (z : List R) (i : Nat) : Prop :=
  mulVec A z i * mulVec B z i = mulVec C z i

/-- The R1CS relation with `rows` rows. -/
def R1CSHolds (A B C : SpMat R) (rows : Nat) (z : List R) : Prop :=
  ∀ i < rows, R1CSRow A B C z i

/-- Row `i` of a CCS evaluates to `∑ k < q, c_k ∏_{j ∈ S_k} (M_j z)_i`. -/
def ccsRow (ccs : CCS R) (z : List R) (i : Nat) : R :=
  ∑ k ∈ range ccs.q,
    ccs.c.getD k 0 * ((ccs.S.getD k []).map fun j => mulVec (ccs.M.getD j ⟨0, 0, []⟩) z i).prod

/-- The CCS relation. -/
def CCSHolds (ccs : CCS R) (z : List R) : Prop := ∀ i < ccs.m, ccsRow ccs z i = 0

/-- `i` is the least index below `n` violating `p`. -/
def LeastViolated (p : Nat → Prop) (n i : Nat) : Prop := i < n ∧ ¬ p i ∧ ∀ j < i, p j

/-- Three well-formed matrices of the same shape. -/
structure R1CSWF (cs : R1CS R) : Prop where
  wfA : cs.A.WF
  wfB : cs.B.WF
  wfC : cs.C.WF
  rowsB : cs.B.nrows = cs.A.nrows
  rowsC : cs.C.nrows = cs.A.nrows
  colsB : cs.B.ncols = cs.A.ncols
  colsC : cs.C.ncols = cs.A.ncols

/-- A well-formed CCS: matrices are well formed and have `n` columns, there are `q` multisets and
coefficients and all matrix indices are in range. (The number of rows of a matrix may differ from
`m`; missing rows count as zero and rows past `m` are not part of the relation.) -/
structure CCSWF (ccs : CCS R) : Prop where
  wfM : ∀ M ∈ ccs.M, M.WF ∧ M.ncols = ccs.n
  lenS : ccs.S.length = ccs.q
  lenC : ccs.c.length = ccs.q
  idxS : ∀ Sk ∈ ccs.S, ∀ j ∈ Sk, j < ccs.M.length

/-- Row `i` of a relaxed R1CS. -/
def RelaxedRow (cs : RelaxedR1CS R) (z : List R) (i : Nat) : Prop :=
  mulVec cs.A z i * mulVec cs.B z i = cs.u * mulVec cs.C z i + cs.E.getD i 0

/-- Well-formed relaxed R1CS. -/
structure RelaxedWF (cs : RelaxedR1CS R) : Prop where
  wf : R1CSWF ⟨cs.l, cs.A, cs.B, cs.C⟩
  lenE : cs.E.length = cs.A.nrows

end Verif.Spec
