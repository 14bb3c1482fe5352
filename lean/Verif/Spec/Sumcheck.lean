import Verif.Ext.Mle
import Verif.Ext.Transcript
import Mathlib.Algebra.Polynomial.Eval.Degree
import Mathlib.Algebra.BigOperators.Group.Finset.Basic

/-!
# Specification for the sum-check protocol
-/

namespace Verif.Spec

open Finset Polynomial

variable {R : Type} [CommRing R]

/-- `g : R^k → R` restricted to any line `a + t s` is a polynomial in `t` of degree at most `d`
(e.g. every polynomial map of total degree at most `d`). -/
def LineDeg (k d : Nat) (g : List R → R) : Prop :=
  ∀ a s : List R, a.length = k → s.length = k →
    ∃ q : R[X], q.natDegree ≤ d ∧ ∀ t : R, g (List.zipWith (fun x y => x + t * y) a s) = q.eval t

/-- Sum of `g(f_1(b), .., f_k(b))` over the vertices `b` of the `n`-dimensional cube. -/
def cubeSum (mles : List (Mle R)) (n : Nat) (g : List R → R) : R :=
  ∑ b ∈ range (2 ^ n), g (mles.map fun m => m.get b)

/-- `f : R^n → R` is, in each variable separately, a polynomial of degree at most `d`. -/
def PartialDeg (n d : Nat) (f : List R → R) : Prop :=
  ∀ u w : List R, u.length + 1 + w.length = n →
    ∃ q : R[X], q.natDegree ≤ d ∧ ∀ t : R, f (u ++ t :: w) = q.eval t

/-- The transcript handing out a fixed tape of independent challenges (the interactive protocol). -/
def coinT (F R : Type) [Zero F] : Transcript F R (List F) where
  absorb s _ := s
  challenge s := (s.headD 0, s.tail)
  bytes s _ := ([], s)

/-- The same with bytes handed out by an arbitrary further source with state `β`. -/
def coinBT {F R β : Type} [Zero F] (g : β → Nat → List UInt8 × β) : Transcript F R (List F × β) where
  absorb s _ := s
  challenge s := (s.1.headD 0, (s.1.tail, s.2))
  bytes s n := ((g s.2 n).1, (s.1, (g s.2 n).2))

/-- The proof produced by an adaptive prover: message `i` may depend on the first `i` challenges. -/
def strategyProof {F : Type} (P : List F → List R) (r : List F) : List (List R) :=
  (List.range r.length).map fun i => P (r.take i)

end Verif.Spec
