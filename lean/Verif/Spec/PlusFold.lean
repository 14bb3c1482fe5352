import Verif.Spec.PlusCm

/-!
# Specifications for linearization, folding and decomposition in `latticefold-plus`
-/

namespace Verif.Spec

open Finset

variable {R : Type} [CommRing R]

/-- The linear relation with witness `f` of length `n`: `cm` is its commitment, `r` lists the coordinates of two points in `nvars`
variables, `v` the evaluations of `f` and of its products with the matrices at both points. -/
structure LinValid (A : Mat R) (M : List (SpMat R)) (nvars n : Nat) (f cm : List R) (r v : List (R × R)) : Prop where
  len : f.length = n
  cm : cm = commit A f
  rlen : r.length = nvars
  v : v = evalPairs M r f

/-- The vector `u + c v`. -/
def addMul (c : R) (u v : List R) : List R := List.zipWith (fun a b => a + c * b) u v

/-- The same for vectors of pairs. -/
def addMulPair (c : R) (u v : List (R × R)) : List (R × R) :=
  List.zipWith (fun a b => (a.1 + c * b.1, a.2 + c * b.2)) u v

end Verif.Spec
