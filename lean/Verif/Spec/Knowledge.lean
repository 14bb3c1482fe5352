import Verif.Spec.Fork
import Verif.Spec.Folding
import Verif.Model.Folding
import Verif.Spec.Sumcheck
import Mathlib.Data.Fintype.BigOperators

/-!
# Success of a prover in folding, and what it means for commitments to be binding
-/

namespace Verif.Spec

open Finset Verif

variable {Fp F C σ : Type} {N τ : Nat} [Field Fp] [Field F] [DecidableEq F] [Algebra Fp F] [CommRing C] [Algebra Fp C]

/-- `c` is a challenge that the challenge set produces from some bytes. -/
def IsChallenge (cs : ChallengeSet C) (c : C) : Prop := ∃ bs, bs.length = cs.bytesNeeded ∧ cs.decode bs = .ok c

/-- The vector `fc`, multiplied by some invertible difference of challenges, has coefficients of absolute value at most
`bound / 2`. -/
def Relaxed (rd : RingData Fp F C N τ) (cs : ChallengeSet C) (bound : Nat) (fc : List C) : Prop :=
  ∃ c c', IsChallenge cs c ∧ IsChallenge cs c' ∧ IsUnit (c - c') ∧
    ∀ j i, Short bound (rd.coeff ((c - c') * fc.getD j 0) i)

/-- All coefficients of the vector have absolute value at most `bound / 2`. -/
def ShortVec (rd : RingData Fp F C N τ) (bound : Nat) (fc : List C) : Prop := ∀ j i, Short bound (rd.coeff (fc.getD j 0) i)

/-- No two different vectors with the property `Q` have the same commitment. -/
def Binding (rd : RingData Fp F C N τ) (scheme : Ajtai (Fin N → F)) (Q : List C → Prop) : Prop :=
  ∀ fc fc' : List C, fc.length = scheme.matrix.ncols → fc'.length = scheme.matrix.ncols → Q fc → Q fc' →
    scheme.commit (fc.map rd.crt) = scheme.commit (fc'.map rd.crt) → fc = fc'

/-- The commitment matrix has no nonzero kernel vector with coefficients of absolute value at most `A`. -/
def NoShortKernel (rd : RingData Fp F C N τ) (scheme : Ajtai (Fin N → F)) (A : Nat) : Prop :=
  ¬ ∃ z : List C, z.length = scheme.matrix.ncols ∧ (∃ x ∈ z, x ≠ 0) ∧
    scheme.commit (z.map rd.crt) = .ok ⟨List.replicate scheme.matrix.vals.length 0⟩ ∧
    ∀ x ∈ z, ∀ i, ∃ n : ℤ, n.natAbs ≤ A ∧ rd.coeff x i = (n : Fp)

/-- A byte string. -/
abbrev Bytes (n : Nat) := Fin n → Fin 256

/-- As a list. -/
def Bytes.toList {n : Nat} (b : Bytes n) : List UInt8 := List.ofFn fun i => UInt8.ofNat (b i)

/-- The script that answers request `k < m` for a challenge by `ρ k`. -/
def byteScript (cs : ChallengeSet C) {m : Nat} (ρ : Fin m → Bytes cs.bytesNeeded) (k n : Nat) : List UInt8 :=
  if h : k < m ∧ n = cs.bytesNeeded then (ρ ⟨k, h.1⟩).toList else List.replicate n 0

/-- The challenges of these bytes differ by a unit. -/
def UnitPair (cs : ChallengeSet C) (b b' : Bytes cs.bytesNeeded) : Prop :=
  ∀ c c', cs.decode b.toList = .ok c → cs.decode b'.toList = .ok c' → IsUnit (c - c')

/-- With the field challenges `w` and the bytes `ρ` for the folding challenges, the folding verifier accepts the proof, with a
statement that has a witness with coefficients of absolute value at most `bound / 2`. -/
def Succeeds (rd : RingData Fp F C N τ) (P : Params) (cs : ChallengeSet C) (ccs : CCS (Fin N → F)) (scheme : Ajtai (Fin N → F))
    (cms : List (LCCCS (Fin N → F))) (bound : Nat) (w : List F) (ρ : Fin (2 * P.K - 1) → Bytes cs.bytesNeeded)
    (proof : FoldProof (Fin N → F)) : Prop :=
  ∃ st t wit, foldVerify rd P cs (scripted (coinT F (Fin N → F)) (byteScript cs ρ)) (w, 0) cms proof ccs = .ok (st, t) ∧
    LcccsHolds rd P ccs scheme st wit ∧ WitShort rd bound wit

end Verif.Spec
