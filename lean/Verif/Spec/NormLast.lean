import Verif.Spec.Nifs

/-!
# Range of the folded witness when the last piece is out of range
-/

namespace Verif.Spec

open Finset

variable {Fp F C : Type} {N τ : Nat} [Field Fp] [Field F] [Algebra Fp F] [CommRing C] [Algebra Fp C]

/-- Combinations of `2K` elements by challenges, the last being `1`, fit in `K` digits even if the coefficients of the last
element are only bounded by `M / 2`, those of the others by `b / 2`. -/
def NormLast (rd : RingData Fp F C N τ) (P : Params) (cs : ChallengeSet C) (M : Nat) : Prop :=
  ∀ rho x : Nat → C, rho (2 * P.K - 1) = 1 →
    (∀ k < 2 * P.K - 1, ∃ bs, bs.length = cs.bytesNeeded ∧ cs.decode bs = .ok (rho k)) →
    (∀ k < 2 * P.K - 1, ∀ i, Short P.bSmall (rd.coeff (x k) i)) → (∀ i, Short M (rd.coeff (x (2 * P.K - 1)) i)) →
    ∀ i, Short (reach P.bSmall P.K) (rd.coeff (∑ k ∈ range (2 * P.K), rho k * x k) i)

/-- Every value is a multiple of `b^(K-1)` by a factor bounded by `M / 2`, up to a rest bounded by `R / 2`. -/
def Splits (Fp : Type) [Field Fp] (q M R : Nat) : Prop :=
  ∀ u : Fp, ∃ d r : Fp, u = (q : Fp) * d + r ∧ Short M d ∧ Short R r

/-- A public input that has a satisfying witness with coefficients bounded by `R / 2`. -/
def ShortInput (rd : RingData Fp F C N τ) (P : Params) (ccs : CCS (Fin N → F)) (R : Nat) (x : List (Fin N → F)) : Prop :=
  x.length = ccs.l ∧ ∃ w : Witness (Fin N → F) C, WitOK rd P (ccs.n - ccs.l - 1) w ∧ CCSHolds ccs ((x ++ [1]) ++ w.wCcs) ∧ WitShort rd R w

end Verif.Spec
