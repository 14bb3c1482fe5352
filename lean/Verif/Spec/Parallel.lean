import Verif.Model.Parallel

/-! # Agreement of a computation with several possible outcomes with a sequential one -/

namespace Verif.Spec

/-- The values among the possible outcomes are the value of the sequential computation, if there is one; errors are possible exactly when the
sequential computation fails. In particular there is at least one outcome, and success or failure does not depend on the schedule. -/
def SameResult {α : Type} (m : Par.ND α) (x : Res α) : Prop :=
  (∀ a, m (.ok a) ↔ x = .ok a) ∧ ((∃ e, m (.error e)) ↔ ∃ e, x = .error e)

end Verif.Spec
