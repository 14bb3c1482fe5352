import Mathlib.Analysis.SpecialFunctions.Pow.Real
import Mathlib.Analysis.SpecialFunctions.Log.Base
import Mathlib.Algebra.BigOperators.Fin
import Mathlib.Data.Int.ModEq

/-! # Specification of secure parameters -/

namespace Verif.Spec

/-- The length of the vectors that lattice reduction with root Hermite factor `δ` finds in the lattice of solutions of `n`
equations modulo `q`, using `m` of the columns. -/
noncomputable def hermiteLength (δ q n m : ℝ) : ℝ := δ ^ m * q ^ (n / m)

/-- `x` has, modulo `q`, a decomposition into `l` digits of absolute value at most `b / 2`. -/
def Representable (q b l : Nat) (x : ℤ) : Prop :=
  ∃ d : Fin l → ℤ, (∀ i, 2 * |d i| ≤ b) ∧ ∑ i, d i * (b : ℤ) ^ (i : Nat) ≡ x [ZMOD q]

end Verif.Spec
