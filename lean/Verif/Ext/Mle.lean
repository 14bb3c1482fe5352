import Verif.Basic
import Mathlib.Algebra.Ring.Defs

/-!
# Contract of `stark_rings_poly::mle::DenseMultilinearExtension`

The source is not in the repository; this is the behaviour the code relies on. A table of
evaluations may be shorter than `2^num_vars`; missing entries read as zero (`elen` field of the
Rust type). Index bit `k` (little endian) is the value of variable `k`.
-/

namespace Verif

/-- `DenseMultilinearExtension<R>`. -/
structure Mle (R : Type) where
  numVars : Nat
  evals : List R
  deriving DecidableEq

namespace Mle

variable {R : Type}

/-- `impl Index<usize>`: entries past the stored ones are zero. -/
def get [Zero R] (m : Mle R) (i : Nat) : R := m.evals.getD i 0

/-- `from_evaluations_vec` / `from_evaluations_slice`: aborts when there are more than
`2^num_vars` evaluations. -/
def fromEvals (numVars : Nat) (evals : List R) : Res (Mle R) :=
  if evals.length ≤ 2 ^ numVars then .ok ⟨numVars, evals⟩
  else .error (.panic "from_evaluations_vec")

/-- Effect of fixing the lowest variable to `r` (no check). -/
def fix1 [CommRing R] (m : Mle R) (r : R) : Mle R :=
  ⟨m.numVars - 1, (List.range (2 ^ (m.numVars - 1))).map fun b =>
    m.get (2 * b) + r * (m.get (2 * b + 1) - m.get (2 * b))⟩

/-- `fix_variables(&[r])`: aborts when there is no variable left. -/
def fixVar [CommRing R] (m : Mle R) (r : R) : Res (Mle R) :=
  if m.numVars = 0 then .error (.panic "fix_variables") else .ok (m.fix1 r)

/-- `evaluate`: `None` unless the point has one coordinate per variable. -/
def evaluate [CommRing R] (m : Mle R) (point : List R) : Option R :=
  if point.length = m.numVars then some ((point.foldl fix1 m).get 0) else none

end Mle

end Verif
