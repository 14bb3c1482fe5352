import Verif.Spec.Folding
import Verif.Model.ChallengeSet

/-!
# Specification for the folding scheme
-/

namespace Verif.Spec

open Finset

variable {Fp F C : Type} {N τ : Nat} [Field Fp] [Field F] [Algebra Fp F] [CommRing C] [Algebra Fp C]

/-- A fresh statement with its witness: the commitment opens to the witness, the CCS is satisfied by
`x, 1, w`, and the coefficients fit in `K` digits of absolute value at most `b / 2`. -/
structure FreshHolds (rd : RingData Fp F C N τ) (P : Params) (ccs : CCS (Fin N → F))
    (scheme : Ajtai (Fin N → F)) (cm : CCCS (Fin N → F)) (wit : Witness (Fin N → F) C) : Prop where
  witOK : WitOK rd P (ccs.n - ccs.l - 1) wit
  opens : scheme.commit wit.f = .ok cm.cm
  xlen : cm.x_ccs.length = ccs.l
  sat : CCSHolds ccs ((cm.x_ccs ++ [1]) ++ wit.wCcs)
  short : WitShort rd (reach P.bSmall P.K) wit

/-- Combinations of `2K` elements with coefficients at most `b/2` by challenges, the last being `1`, have
coefficients which fit in `K` such digits. -/
def NormOK (rd : RingData Fp F C N τ) (P : Params) (cs : ChallengeSet C) : Prop :=
  ∀ rho x : Nat → C, rho (2 * P.K - 1) = 1 →
    (∀ k < 2 * P.K - 1, ∃ bs, bs.length = cs.bytesNeeded ∧ cs.decode bs = .ok (rho k)) →
    (∀ k < 2 * P.K, ∀ i, Short P.bSmall (rd.coeff (x k) i)) →
    ∀ i, Short (reach P.bSmall P.K) (rd.coeff (∑ k ∈ range (2 * P.K), rho k * x k) i)

end Verif.Spec
