import Verif.Spec.Extractor
import Verif.Spec.NifsKnowledge

/-!
# The extractor for the folding scheme
-/

namespace Verif.Spec

open Finset Verif

variable {Fp F C : Type} {N τ : Nat} [Field Fp] [Field F] [DecidableEq F] [Algebra Fp F] [CommRing C] [Algebra Fp C]

/-- The verifier of the folding scheme accepts the proof, and `wit` is a witness of the new accumulator with coefficients of
absolute value at most `bound / 2`. -/
def NifsSucceedsWith (rd : RingData Fp F C N τ) (P : Params) (cs : ChallengeSet C) (ccs : CCS (Fin N → F)) (scheme : Ajtai (Fin N → F))
    (acc : LCCCS (Fin N → F)) (cm : CCCS (Fin N → F)) (bound : Nat) (u w : List F) (proof : LFProof (Fin N → F))
    (ρ : Fin (2 * P.K - 1) → Bytes cs.bytesNeeded) (wit : Witness (Fin N → F) C) : Prop :=
  ∃ st t, nifsVerify rd P cs (scripted (coinT F (Fin N → F)) (byteScript cs ρ)) (u ++ w, 0) acc cm proof ccs = .ok (st, t) ∧
    LcccsHolds rd P ccs scheme st wit ∧ WitShort rd bound wit

/-- What the extractor recombines from the vectors number `o, …, o + K - 1` which it computes from the openings `g ρ` and `g ρ'`, where
`ρ'` is `ρ` with one challenge replaced: `∑ b^k v_(o + k)`. For `o = 0` this should be the witness of the old accumulator, for `o = K`
that of the fresh statement. -/
noncomputable def recombine (P : Params) (cs : ChallengeSet C) {m : Nat} (ρ b : Fin m → Bytes cs.bytesNeeded)
    (g : (Fin m → Bytes cs.bytesNeeded) → List C) (o : Nat) : List C :=
  (List.range (g ρ).length).map fun j =>
    ∑ k ∈ range P.K, (P.bSmall : C) ^ k * (extract cs ρ b (g ρ) (fun i => g (Function.update ρ i (b i))) (o + k)).getD j 0

/-- The difference of two vectors. -/
def diffVec (x y : List C) : List C := (List.range x.length).map fun j => x.getD j 0 - y.getD j 0

end Verif.Spec
