import Verif.Model.Nifs

/-! # The contents of a proof, counted -/

namespace Verif.Spec

/-- A vector whose length fits in 64 bits. -/
def Len64 {α : Type} (l : List α) : Prop := l.length < 2 ^ 64

def Lens64 {α : Type} (l : List (List α)) : Prop := Len64 l ∧ ∀ x ∈ l, Len64 x

/-- The lengths of all vectors in the proof fit in 64 bits, as all lengths on a 64-bit machine. -/
structure Proof64 {R : Type} (p : LFProof R) : Prop where
  linSumcheck : Lens64 p.lin.sumcheck
  linV : Len64 p.lin.v
  linU : Len64 p.lin.u
  dec : ∀ d ∈ [p.decL, p.decR], Lens64 d.uS ∧ Lens64 d.vS ∧ Lens64 d.xS ∧ Lens64 (d.yS.map (·.val))
  foldSumcheck : Lens64 p.fold.sumcheck
  theta : Lens64 p.fold.thetaS
  eta : Lens64 p.fold.etaS

/-- All two-dimensional arrays of a proof. -/
def tables {R : Type} (p : LFProof R) : List (List (List R)) :=
  [p.lin.sumcheck, p.decL.uS, p.decL.vS, p.decL.xS, p.decL.yS.map (·.val), p.decR.uS, p.decR.vS, p.decR.xS, p.decR.yS.map (·.val),
    p.fold.sumcheck, p.fold.thetaS, p.fold.etaS]

/-- Number of ring elements in a proof. -/
def elemCount {R : Type} (p : LFProof R) : Nat :=
  p.lin.v.length + p.lin.u.length + (((tables p).flatten).map List.length).sum

/-- Number of vectors in a proof, the two-dimensional arrays counted as one vector and their rows. -/
def vecCount {R : Type} (p : LFProof R) : Nat := 2 + ((tables p).map fun t => 1 + t.length).sum

end Verif.Spec
