import Verif.Ext.PlusRing
import Verif.Spec.Mle
import Verif.Spec.Arith

/-!
# Specifications for `latticefold-plus`
-/

namespace Verif.Spec

open Finset

variable {F R : Type} {d : Nat}

section
variable [Zero R]

/-- Entry `(i, j)` of a sparse matrix when later stored values replace earlier ones; for matrices
with at most one stored value per position this is the entry of the matrix. -/
def lastEntry (M : SpMat R) (i j : Nat) : R :=
  ((((M.coeffs.getD i []).filter fun t => decide (t.2 = j)).getLast?).map (·.1)).getD 0

/-- Entry `(i, j)` of a dense matrix. -/
def matEntry (D : Mat R) (i j : Nat) : R := (D.vals.getD i []).getD j 0

end

section
variable [Field F] [CommRing R] [Algebra F R]

/-- Zero or a power of `X`. -/
def IsMonomial (pr : PlusRing F R d) (a : R) : Prop := a = 0 ∨ ∃ i : Fin d, a = pr.X ^ (i : Nat)

/-- The value at `x` of the coefficient polynomial of `a`. -/
def polyEval (pr : PlusRing F R d) (a : R) (x : F) : F := ∑ i : Fin d, pr.coeff a i * x ^ (i : Nat)

end

end Verif.Spec
