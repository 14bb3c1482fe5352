import Verif.Model.Nifs

/-!
# Lengths in a proof of the folding scheme

Everything here can be computed from the lengths of the vectors in the proof alone.
-/

namespace Verif.Spec

/-- The proof of a sum-check with `n` variables and degree `d` has at least `n` messages, the first `n` of them with `d + 1` evaluations. -/
def MsgsFit {R : Type} (n d : Nat) (msgs : List (List R)) : Prop :=
  n ≤ msgs.length ∧ ∀ m ∈ msgs.take n, m.length = d + 1

/-- Among the first `K` vectors none is shorter than the first. -/
def RowsFit {R : Type} (K : Nat) (vs : List (List R)) : Prop :=
  ∀ k < min K vs.length, (vs.getD 0 []).length ≤ (vs.getD k []).length

/-- The number of pieces in a decomposition proof. -/
def pieceCount {R : Type} (d : DecProof R) : Nat :=
  min (min d.xS.length d.yS.length) (min d.uS.length d.vS.length)

/-- The lengths in a decomposition proof. -/
structure DecLens {R : Type} (K : Nat) (d : DecProof R) : Prop where
  v : RowsFit K d.vS
  u : RowsFit K d.uS
  x : RowsFit K d.xS

/-- The lengths in a proof of the folding scheme. -/
structure ProofLens {R : Type} (P : Params) (ccs : CCS R) (τ : Nat) (proof : LFProof R) : Prop where
  linMsgs : MsgsFit ccs.s (ccs.d + 1) proof.lin.sumcheck
  linU : ∀ k < ccs.c.length, ∀ j ∈ ccs.S.getD k [], j < proof.lin.u.length
  decL : DecLens P.K proof.decL
  decR : DecLens P.K proof.decR
  pieces : 2 * P.K ≤ pieceCount proof.decL + pieceCount proof.decR
  foldMsgs : MsgsFit ccs.s (2 * P.bSmall) proof.fold.sumcheck
  thetas : proof.fold.thetaS.length = 2 * P.K
  theta : ∀ t ∈ proof.fold.thetaS, t.length = τ
  etas : 2 * P.K ≤ proof.fold.etaS.length

end Verif.Spec
