import Mathlib.Algebra.BigOperators.Ring.Finset
import Mathlib.Data.Nat.Bitwise

/-!
# Independent specification of the multilinear extension and the equality polynomial
-/

namespace Verif.Spec

open Finset

variable {R : Type} [CommRing R]

/-- Weight of hypercube vertex `i` (little-endian bits) at the point `p`:
`∏_k (p_k if bit k of i is set else 1 - p_k)`. -/
def eqWeight (p : List R) (i : Nat) : R :=
  ∏ k ∈ range p.length, if i.testBit k then p.getD k 0 else 1 - p.getD k 0

/-- Multilinear extension of the table `f` on the `p.length`-dimensional cube, at `p`. -/
def mle (f : Nat → R) (p : List R) : R :=
  ∑ i ∈ range (2 ^ p.length), f i * eqWeight p i

/-- `eq(x, y) = ∏_k (x_k y_k + (1 - x_k)(1 - y_k))`. -/
def eqPoly (x y : List R) : R :=
  ∏ k ∈ range x.length,
    (x.getD k 0 * y.getD k 0 + (1 - x.getD k 0) * (1 - y.getD k 0))

/-- The boolean point with little-endian bits of `i`. -/
def boolPoint (n i : Nat) : List R := (List.range n).map fun k => if i.testBit k then 1 else 0

/-- Little-endian value of a list of bits. -/
def bitsValue (bs : List Bool) : Nat :=
  ∑ k ∈ range bs.length, if bs.getD k false then 2 ^ k else 0

end Verif.Spec
