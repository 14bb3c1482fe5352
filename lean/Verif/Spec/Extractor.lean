import Verif.Spec.Knowledge
import Mathlib.Algebra.GroupWithZero.Units.Basic

/-!
# The extractor for folding, and the kernel vectors it may find instead of witnesses
-/

namespace Verif.Spec

open Finset Verif

variable {Fp F C : Type} {N τ : Nat} [Field Fp] [Field F] [DecidableEq F] [Algebra Fp F] [CommRing C] [Algebra Fp C]

/-- The folding verifier accepts the proof, and `wit` is a witness of its output with coefficients of absolute value at most
`bound / 2`. -/
def SucceedsWith (rd : RingData Fp F C N τ) (P : Params) (cs : ChallengeSet C) (ccs : CCS (Fin N → F)) (scheme : Ajtai (Fin N → F))
    (cms : List (LCCCS (Fin N → F))) (bound : Nat) (w : List F) (proof : FoldProof (Fin N → F))
    (ρ : Fin (2 * P.K - 1) → Bytes cs.bytesNeeded) (wit : Witness (Fin N → F) C) : Prop :=
  ∃ st t, foldVerify rd P cs (scripted (coinT F (Fin N → F)) (byteScript cs ρ)) (w, 0) cms proof ccs = .ok (st, t) ∧
    LcccsHolds rd P ccs scheme st wit ∧ WitShort rd bound wit

/-- `S` is true for `ρ`, and still after replacing any one coordinate `ρ i` by `b i`, where the challenges of `ρ i` and `b i` differ
by a unit. -/
def Forked (cs : ChallengeSet C) {m : Nat} (S : (Fin m → Bytes cs.bytesNeeded) → Prop) (ρ b : Fin m → Bytes cs.bytesNeeded) : Prop :=
  S ρ ∧ ∀ i, UnitPair cs (ρ i) (b i) ∧ S (Function.update ρ i (b i))

open Classical in
/-- `S` is true for `ρ`, and for every coordinate `i` there are more than `T` values by which `ρ i` can be replaced. -/
def Heavy (cs : ChallengeSet C) {m : Nat} (T : Nat) (S : (Fin m → Bytes cs.bytesNeeded) → Prop) (ρ : Fin m → Bytes cs.bytesNeeded) : Prop :=
  S ρ ∧ ∀ i, T < (univ.filter fun b => UnitPair cs (ρ i) b ∧ S (Function.update ρ i b)).card

/-- The challenge of some bytes. -/
def chal (cs : ChallengeSet C) (b : Bytes cs.bytesNeeded) : C :=
  match cs.decode b.toList with
  | .ok c => c
  | .error _ => 0

/-- The extractor: from the opening `g` for the challenges `ρ`, and the openings `g' i` with challenge `i` replaced by `b i`,
it computes `2K` vectors. The first `m = 2K - 1` are quotients of differences. The last is what remains of `g`. -/
noncomputable def extract (cs : ChallengeSet C) {m : Nat} (ρ b : Fin m → Bytes cs.bytesNeeded) (g : List C) (g' : Fin m → List C)
    (k : Nat) : List C :=
  (List.range g.length).map fun j =>
    if h : k < m then Ring.inverse (chal cs (ρ ⟨k, h⟩) - chal cs (b ⟨k, h⟩)) * (g.getD j 0 - (g' ⟨k, h⟩).getD j 0)
    else g.getD j 0 - ∑ i, chal cs (ρ i) * (Ring.inverse (chal cs (ρ i) - chal cs (b i)) * (g.getD j 0 - (g' i).getD j 0))

/-- What the extractor computes from two such families of openings, to find a kernel vector. -/
def collide (cs : ChallengeSet C) {m : Nat} (ρ b b' : Fin m → Bytes cs.bytesNeeded) (g : List C) (g' : Fin m → List C) (h : List C)
    (h' : Fin m → List C) (k : Nat) : List C :=
  (List.range g.length).map fun j =>
    if hk : k < m then (chal cs (ρ ⟨k, hk⟩) - chal cs (b' ⟨k, hk⟩)) * (g.getD j 0 - (g' ⟨k, hk⟩).getD j 0)
      - (chal cs (ρ ⟨k, hk⟩) - chal cs (b ⟨k, hk⟩)) * (h.getD j 0 - (h' ⟨k, hk⟩).getD j 0)
    else g.getD j 0 - h.getD j 0

/-- The vectors `v k` are the coefficients of witnesses of the statements `cms`. The first `2K - 1` are below `b`, all of them
have coefficients of absolute value at most `bound / 2`. -/
def Extracted (rd : RingData Fp F C N τ) (P : Params) (ccs : CCS (Fin N → F)) (scheme : Ajtai (Fin N → F))
    (cms : List (LCCCS (Fin N → F))) (bound : Nat) (v : Nat → List C) : Prop :=
  ∃ ws : List (Witness (Fin N → F) C), ws.length = 2 * P.K ∧
    ∀ (k : Nat) (st : LCCCS (Fin N → F)) (wit : Witness (Fin N → F) C), cms[k]? = some st → ws[k]? = some wit →
      wit.fCoeff = v k ∧ LcccsHolds rd P ccs scheme st wit ∧ SlotSumsVanish rd P.bSmall wit ∧
      (k < 2 * P.K - 1 → WitBelow rd P.bSmall wit) ∧ WitShort rd bound wit

/-- `z` is a nonzero vector in the kernel of the commitment matrix, with coefficients of absolute value at most `A`. -/
structure KernelVec (rd : RingData Fp F C N τ) (scheme : Ajtai (Fin N → F)) (A : Nat) (z : List C) : Prop where
  len : z.length = scheme.matrix.ncols
  ne : ∃ x ∈ z, x ≠ 0
  ker : scheme.commit (z.map rd.crt) = .ok ⟨List.replicate scheme.matrix.vals.length 0⟩
  short : ∀ x ∈ z, ∀ i, ∃ n : ℤ, n.natAbs ≤ A ∧ rd.coeff x i = (n : Fp)

end Verif.Spec
