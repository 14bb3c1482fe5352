import Verif.Ext.Ring
import Verif.Model.Linearization

/-!
# Model of the `Witness` constructors (`arith.rs:214-390`) and the remaining commitment functions
(`commitment/commitment_scheme.rs:70-114`)
-/

namespace Verif

variable {Fp F C : Type} {N τ : Nat} [Field Fp] [Field F] [Algebra Fp F] [CommRing C] [Algebra Fp C]

/-- `mle.truncate_lnze()`: drop trailing zero evaluations (the Rust version may keep one of them,
which is not observable through evaluation). -/
def Mle.truncate {R : Type} [CommRing R] [DecidableEq R] (m : Mle R) : Mle R :=
  ⟨m.numVars, (m.evals.reverse.dropWhile fun x => decide (x = 0)).reverse⟩

/-- `arith.rs:281-289`: the NTT-form element whose slots are coefficients `j*N .. (j+1)*N` of `c`,
embedded by `from_base_prime_field`. -/
def fhatEntry (rd : RingData Fp F C N τ) (c : C) (j : Nat) : Fin N → F := fun a =>
  if h : j * N + a < τ * N then algebraMap Fp F (rd.coeff c ⟨j * N + a, h⟩) else 0

/-- `arith.rs:273-297` `get_fhat`: `τ` tables, row `j` holding chunk `j` of every element; the number
of variables comes from the length of `f`. `fhat[j][i]` grows the table on write access. -/
def getFhat [DecidableEq F] (rd : RingData Fp F C N τ) (f : List C) : List (Mle (Fin N → F)) :=
  (List.range τ).map fun j =>
    Mle.truncate ⟨Nat.clog 2 (nextPow2 f.length), f.map fun c => fhatEntry rd c j⟩

/-- `arith.rs:230-248` `Witness::from_w_ccs`. -/
def Witness.fromWCcs [DecidableEq F] (rd : RingData Fp F C N τ) (P : Params) (w : List (Fin N → F)) :
    Res (Witness (Fin N → F) C) := do
  let fCoeff ← gadgetDecompose rd P.B P.L (w.map rd.crt.symm)
  .ok ⟨w, fCoeff.map rd.crt, fCoeff, getFhat rd fCoeff⟩

/-- `arith.rs:299-313` `Witness::from_f`. -/
def Witness.fromF [DecidableEq F] (rd : RingData Fp F C N τ) (P : Params) (f : List (Fin N → F)) :
    Res (Witness (Fin N → F) C) := do
  let fCoeff := f.map rd.crt.symm
  let w ← gadgetRecompose P.B P.L f
  .ok ⟨w, f, fCoeff, getFhat rd fCoeff⟩

/-- `arith.rs:324-338` `Witness::from_f_coeff`. -/
def Witness.fromFCoeff [DecidableEq F] (rd : RingData Fp F C N τ) (P : Params) (fCoeff : List C) :
    Res (Witness (Fin N → F) C) := do
  let f := fCoeff.map rd.crt
  let w ← gadgetRecompose P.B P.L f
  .ok ⟨w, f, fCoeff, getFhat rd fCoeff⟩

/-- `arith.rs:357-362` `Witness::commit`. -/
def Witness.commit {R : Type} [CommRing R] (w : Witness R C) (ajtai : Ajtai R) : Res (Commitment R) :=
  ajtai.commit w.f

/-- `commitment_scheme.rs:81-86` `commit_coeff`. -/
def Ajtai.commitCoeff (rd : RingData Fp F C N τ) (s : Ajtai (Fin N → F)) (f : List C) :
    Res (Commitment (Fin N → F)) := s.commit (f.map rd.crt)

/-- `commitment_scheme.rs:90-101` `decompose_and_commit_coeff`. -/
def Ajtai.decomposeAndCommitCoeff (rd : RingData Fp F C N τ) (P : Params) (s : Ajtai (Fin N → F))
    (f : List C) : Res (Commitment (Fin N → F)) := do
  let ds ← mapRes (rd.dec P.B P.L) f
  s.commitCoeff rd ds.flatten

/-- `commitment_scheme.rs:106-113` `decompose_and_commit_ntt`. -/
def Ajtai.decomposeAndCommitNtt (rd : RingData Fp F C N τ) (P : Params) (s : Ajtai (Fin N → F))
    (w : List (Fin N → F)) : Res (Commitment (Fin N → F)) :=
  s.decomposeAndCommitCoeff rd P (w.map rd.crt.symm)

end Verif
