import Verif.Model.Linearization
import Verif.Model.Decomposition
import Verif.Model.Folding

/-!
# The folding scheme: `crates/latticefold/src/nifs.rs`
-/

namespace Verif

variable {Fp F C σ : Type} {N τ : Nat}

/-- `nifs.rs:28-34` `LFProof`. -/
structure LFProof (R : Type) where
  lin : LinProof R
  decL : DecProof R
  decR : DecProof R
  fold : FoldProof R

section
variable {R : Type} [Field F] [CommRing R] [Algebra F R]

/-- `nifs.rs:175-197` `absorb_public_input`. The constraint system is not an argument. -/
def absorbPublicInput (T : Transcript F R σ) (s : σ) (acc : LCCCS R) (cm : CCCS R) : σ :=
  let s := absorbLabel T s "acc"
  let s := T.absorbSlice s acc.r
  let s := T.absorbSlice s acc.v
  let s := T.absorbSlice s acc.cm.val
  let s := T.absorbSlice s acc.u
  let s := T.absorbSlice s acc.x_w
  let s := T.absorb s acc.h
  let s := absorbLabel T s "cm_i"
  let s := T.absorbSlice s cm.cm.val
  T.absorbSlice s cm.x_ccs

end

variable [Field Fp] [Field F] [DecidableEq F] [Algebra Fp F] [CommRing C] [Algebra Fp C]

/-- `nifs.rs:48-102` `NIFSProver::prove` (`sanity_check`, 165-173, is the guard of the decomposition). -/
def nifsProve (rd : RingData Fp F C N τ) (P : Params) (cs : ChallengeSet C) (T : Transcript F (Fin N → F) σ)
    (s : σ) (acc : LCCCS (Fin N → F)) (wAcc : Witness (Fin N → F) C) (cm : CCCS (Fin N → F))
    (w : Witness (Fin N → F) C) (ccs : CCS (Fin N → F)) (scheme : Ajtai (Fin N → F)) :
    Res ((LCCCS (Fin N → F) × Witness (Fin N → F) C × LFProof (Fin N → F)) × σ) := do
  let _ ← sanityCheck ccs P.L
  let s := absorbPublicInput T s acc cm
  let ((lin, linProof), s) ← linProve T s cm w ccs
  let ((mzL, lcccsL, witL, proofL), s) ← decProve rd P T s acc wAcc ccs scheme
  let ((mzR, lcccsR, witR, proofR), s) ← decProve rd P T s lin w ccs scheme
  let ((st, w0, proof), s) ← foldProve rd P cs T s (lcccsL ++ lcccsR) (witL ++ witR) ccs (mzL ++ mzR)
  .ok ((st, w0, ⟨linProof, proofL, proofR, proof⟩), s)

/-- `nifs.rs:117-162` `NIFSVerifier::verify`. -/
def nifsVerify (rd : RingData Fp F C N τ) (P : Params) (cs : ChallengeSet C) (T : Transcript F (Fin N → F) σ)
    (s : σ) (acc : LCCCS (Fin N → F)) (cm : CCCS (Fin N → F)) (proof : LFProof (Fin N → F))
    (ccs : CCS (Fin N → F)) : Res (LCCCS (Fin N → F) × σ) := do
  let _ ← sanityCheck ccs P.L
  let s := absorbPublicInput T s acc cm
  let (lin, s) ← linVerify T s cm proof.lin ccs
  let (l, s) ← decVerify P T s acc proof.decL
  let (r, s) ← decVerify P T s lin proof.decR
  foldVerify rd P cs T s (l ++ r) proof.fold ccs

/-- Repeated folding with one transcript, as in the library's examples and tests: the accumulator, its
witness and the proofs after a list of statements with witnesses. -/
def ivcProve (rd : RingData Fp F C N τ) (P : Params) (cs : ChallengeSet C) (T : Transcript F (Fin N → F) σ)
    (ccs : CCS (Fin N → F)) (scheme : Ajtai (Fin N → F)) :
    List (CCCS (Fin N → F) × Witness (Fin N → F) C) → σ → LCCCS (Fin N → F) → Witness (Fin N → F) C →
      Res ((List (LCCCS (Fin N → F)) × List (LFProof (Fin N → F)) × LCCCS (Fin N → F) × Witness (Fin N → F) C) × σ)
  | [], s, acc, wAcc => .ok (([], [], acc, wAcc), s)
  | (cm, w) :: rest, s, acc, wAcc => do
    let ((st, w0, proof), s) ← nifsProve rd P cs T s acc wAcc cm w ccs scheme
    let ((accs, proofs, acc', w'), s) ← ivcProve rd P cs T ccs scheme rest s st w0
    .ok ((st :: accs, proof :: proofs, acc', w'), s)

/-- Repeated verification: all accumulators, the last one and the state. -/
def ivcVerify (rd : RingData Fp F C N τ) (P : Params) (cs : ChallengeSet C) (T : Transcript F (Fin N → F) σ)
    (ccs : CCS (Fin N → F)) :
    List (CCCS (Fin N → F) × LFProof (Fin N → F)) → σ → LCCCS (Fin N → F) →
      Res ((List (LCCCS (Fin N → F)) × LCCCS (Fin N → F)) × σ)
  | [], s, acc => .ok (([], acc), s)
  | (cm, proof) :: rest, s, acc => do
    let (st, s) ← nifsVerify rd P cs T s acc cm proof ccs
    let ((accs, acc'), s) ← ivcVerify rd P cs T ccs rest s st
    .ok ((st :: accs, acc'), s)

end Verif
