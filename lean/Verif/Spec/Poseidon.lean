import Verif.Ext.Poseidon

/-!
# Specifications for the Poseidon sponge
-/

namespace Verif.Spec

open Finset

/-- Number of nonzero entries. -/
def weight {K : Type} [Zero K] [DecidableEq K] {w : Nat} (x : Fin w → K) : Nat :=
  (univ.filter fun i => x i ≠ 0).card

/-- Maximal diffusion (maximum distance separable): a difference in `k` entries makes a difference in
at least `w + 1 - k` entries of the image. -/
def MaxDiffusion {K : Type} [CommRing K] [DecidableEq K] {w : Nat} (f : (Fin w → K) → (Fin w → K)) :
    Prop :=
  ∀ x y, x ≠ y → w + 1 ≤ weight (x - y) + weight (f x - f y)

end Verif.Spec
