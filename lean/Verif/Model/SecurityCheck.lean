import Mathlib.Analysis.SpecialFunctions.Pow.Real
import Mathlib.Analysis.SpecialFunctions.Log.Base
import Mathlib.Data.Nat.Size

/-!
# Model of `crates/latticefold/src/utils/security_check.rs`

`f64` is modelled by the real numbers: no rounding and no overflow to infinity (the cast to `u64` sends both
infinity and large numbers to `u64::MAX`). The quotient by zero is treated separately.
-/

namespace Verif

/-- `security_check.rs:9-12`: the bound on the norm, before it is converted to an integer. -/
noncomputable def rawBoundL2 (degree kappa : Nat) (modulusLog2 : ℝ) : ℝ :=
  2 ^ (2 * √(Real.log 1.0045 / Real.log 2) * √(degree * kappa * modulusLog2))

/-- `security_check.rs:5-15` `calculate_bound_l2`; `as u64` saturates. -/
noncomputable def calculateBoundL2 (degree kappa : Nat) (modulusLog2 : ℝ) : Nat :=
  min ⌈rawBoundL2 degree kappa modulusLog2⌉₊ (2 ^ 64 - 1)

/-- `security_check.rs:17-44` `check_ring_modulus_128_bits_security`. The bound is at least one, so that its `f64`
quotient by `0` is infinity, which is above `b`; `l as u32` wraps around. -/
def checkRingModulus (ringModulus kappa degree numCols b l : Nat) (alreadyUnderBound : Bool) : Prop :=
  let bound := calculateBoundL2 degree kappa (Nat.size ringModulus : ℝ)
  let half := ringModulus / 2
  let boundCheck := bound < half
  let bCheck := degree * numCols = 0 ∨ (b : ℝ) < bound / √((degree : ℝ) * numCols)
  let powCheck := if alreadyUnderBound = true ∧ l = 1 then True else b ^ (l % 2 ^ 32) > half
  boundCheck ∧ bCheck ∧ powCheck

end Verif
