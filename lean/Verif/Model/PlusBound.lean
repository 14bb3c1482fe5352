import Mathlib.Analysis.Real.Sqrt

/-!
# Model of `crates/latticefold-plus/src/utils.rs`: `estimate_bound`
-/

namespace Verif.Plus

/-- `utils.rs:102-112` `estimate_bound`. The 64-bit floating point numbers are modelled as real numbers (no rounding), the products of `usize` as natural numbers (no
overflow). -/
noncomputable def estimateBound (sop L d k : Nat) : Nat :=
  let a := sop * L
  let c := d / 2 + d * k + 1
  let discriminant : ℝ := ((a * a + 4 * a * c : Nat) : ℝ)
  let sqrtDiscriminant := √discriminant
  let b := ((a : ℝ) + sqrtDiscriminant) / 2
  ⌈b⌉₊

end Verif.Plus
