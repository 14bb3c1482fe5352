import Verif.Spec.PlusRange
import Verif.Ext.Transcript

/-!
# Specifications for the commitment transformation of `latticefold-plus`
-/

namespace Verif.Spec

open Finset Verif.Plus

variable {F R σ : Type} {d : Nat} [Field F] [CommRing R] [Algebra F R]

/-- Byte challenges have the requested length. -/
def BytesOK (T : Transcript F R σ) : Prop := ∀ s n, (T.bytes s n).1.length = n

/-- A short challenge: every coefficient is an integer of the interval of length `2 ^ (128 / d)` around zero. -/
def ShortChallenge (pr : PlusRing F R d) (x : R) : Prop :=
  ∀ i, ∃ n : ℤ, -((2 ^ (128 / d) / 2 : Nat) : ℤ) ≤ n ∧ n < (2 ^ (128 / d) : Nat) - ((2 ^ (128 / d) / 2 : Nat) : ℤ) ∧ pr.coeff x i = n

/-- All challenges of the fold are short. -/
def ShortChallenges (pr : PlusRing F R d) (s0 s1 s2 : R) (sp : List (List R)) : Prop :=
  ShortChallenge pr s0 ∧ ShortChallenge pr s1 ∧ ShortChallenge pr s2 ∧ ∀ row ∈ sp, ∀ x ∈ row, ShortChallenge pr x

/-- Entry `x` of the folded witness `s0 tau + s1 m_tau + s2 f + ∑_κ M_κ s'_κ`. -/
def foldedEntry (d : Nat) (s0 s1 s2 : R) (sp : List (List R)) (inst : RgInstance F R) (x : Nat) : R :=
  s0 * algebraMap F R (inst.tau.getD x 0) + s1 * inst.mTau.getD x 0 + s2 * inst.f.getD x 0
    + ∑ κ ∈ range inst.Mf.length, ∑ j ∈ range d, matEntry (digitMat inst κ) x j * (sp.getD κ []).getD j 0

/-- The evaluations of `g` and of its products with the matrices at both points. -/
def evalPairs (M : List (SpMat R)) (ro : List (R × R)) (g : List R) : List (R × R) :=
  (mle (fun i => g.getD i 0) (ro.map (·.1)), mle (fun i => g.getD i 0) (ro.map (·.2)))
    :: M.map fun m => (mle (mulVec m g) (ro.map (·.1)), mle (mulVec m g) (ro.map (·.2)))

end Verif.Spec
