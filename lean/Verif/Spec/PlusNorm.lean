import Verif.Spec.PlusCm

/-!
# Norms for `latticefold-plus`
-/

namespace Verif.Spec

variable {F R : Type} {d : Nat}
variable [Field F] [CommRing R] [Algebra F R]

/-- `a` is an integer of absolute value at most `N`. -/
def AbsLe (N : Nat) (a : F) : Prop := ∃ n : ℤ, n.natAbs ≤ N ∧ a = n

/-- All coefficients of `x` are integers of absolute value at most `N`. -/
def NormLe (pr : PlusRing F R d) (N : Nat) (x : R) : Prop := ∀ i, AbsLe N (pr.coeff x i)

/-- Multiplication by a monomial increases the norm by a factor of at most `γ`. -/
def Expands (pr : PlusRing F R d) (γ : Nat) : Prop := ∀ N x, NormLe pr N x → ∀ i : Fin d, NormLe pr (γ * N) (pr.X ^ (i : Nat) * x)

end Verif.Spec
