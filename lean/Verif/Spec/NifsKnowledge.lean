import Verif.Spec.Knowledge
import Verif.Spec.Nifs
import Verif.Model.Nifs

/-!
# Provers of the folding scheme
-/

namespace Verif.Spec

open Finset Verif

variable {Fp F C : Type} {N τ : Nat} [Field Fp] [Field F] [DecidableEq F] [Algebra Fp F] [CommRing C] [Algebra Fp C]

/-- An interactive prover of the folding scheme. The messages of the sum-check of linearization depend on the challenges before
them, its evaluations and the decompositions on all challenges of linearization, the sum-check messages of folding also on the
earlier challenges of folding, and the evaluations of folding on all field challenges. -/
structure NifsProver (F R : Type) where
  linMsg : List F → List R
  linV : List F → List R
  linU : List F → List R
  decL : List F → DecProof R
  decR : List F → DecProof R
  msg : List F → List F → List R
  theta : List F → List F → List (List R)
  eta : List F → List F → List (List R)

/-- The proof the prover ends up with for the challenges `u` of linearization (`2s` of them) and `w` of folding (`m` of them
before its sum-check). -/
def NifsProver.proof {F R : Type} (A : NifsProver F R) (s m : Nat) (u w : List F) : LFProof R :=
  ⟨⟨strategyProof (fun v => A.linMsg (u.take s ++ v)) (u.drop s), A.linV u, A.linU u⟩, A.decL u, A.decR u,
    ⟨strategyProof (fun v => A.msg u (w.take m ++ v)) (w.drop m), A.theta u w, A.eta u w⟩⟩

/-- The decomposition proof has `K` entries in each component, of the right lengths. -/
structure DecShape {R : Type} (P : Params) (ccs : CCS R) (scheme : Ajtai R) (τ : Nat) (d : DecProof R) : Prop where
  us : d.uS.length = P.K
  vs : d.vS.length = P.K
  xs : d.xS.length = P.K
  ys : d.yS.length = P.K
  u : ∀ x ∈ d.uS, x.length = ccs.M.length
  v : ∀ x ∈ d.vS, x.length = τ
  x : ∀ x ∈ d.xS, x.length = ccs.l + 1
  y : ∀ y ∈ d.yS, y.val.length = scheme.matrix.vals.length

/-- The parts of a proof have the right shapes. The verifier does not check this. -/
structure ProverShape (P : Params) (ccs : CCS (Fin N → F)) (scheme : Ajtai (Fin N → F)) (τ : Nat) (A : NifsProver F (Fin N → F)) : Prop where
  l : ∀ u, DecShape P ccs scheme τ (A.decL u)
  r : ∀ u, DecShape P ccs scheme τ (A.decR u)
  etas : ∀ u w, (A.eta u w).length = 2 * P.K
  eta : ∀ u w, ∀ e ∈ A.eta u w, e.length = ccs.M.length

/-- With the challenges `u` of linearization, `w` of folding and the bytes `ρ` for the folding challenges, the verifier of the
folding scheme accepts the proof, with a new accumulator that has a witness with coefficients of absolute value at most
`bound / 2`. -/
def NifsSucceeds (rd : RingData Fp F C N τ) (P : Params) (cs : ChallengeSet C) (ccs : CCS (Fin N → F)) (scheme : Ajtai (Fin N → F))
    (acc : LCCCS (Fin N → F)) (cm : CCCS (Fin N → F)) (bound : Nat) (u w : List F) (ρ : Fin (2 * P.K - 1) → Bytes cs.bytesNeeded)
    (proof : LFProof (Fin N → F)) : Prop :=
  ∃ st t wit, nifsVerify rd P cs (scripted (coinT F (Fin N → F)) (byteScript cs ρ)) (u ++ w, 0) acc cm proof ccs = .ok (st, t) ∧
    LcccsHolds rd P ccs scheme st wit ∧ WitShort rd bound wit

/-- The fresh statement is true: the commitment opens to a witness with which the constraint system is satisfied, and which has
coefficients of absolute value below `A`. -/
structure FreshBelow (rd : RingData Fp F C N τ) (P : Params) (ccs : CCS (Fin N → F))
    (scheme : Ajtai (Fin N → F)) (cm : CCCS (Fin N → F)) (A : Nat) (wit : Witness (Fin N → F) C) : Prop where
  witOK : WitOK rd P (ccs.n - ccs.l - 1) wit
  opens : scheme.commit wit.f = .ok cm.cm
  xlen : cm.x_ccs.length = ccs.l
  sat : CCSHolds ccs ((cm.x_ccs ++ [1]) ++ wit.wCcs)
  below : WitBelow rd A wit

end Verif.Spec
