import Verif.Ext.Serialize
import Verif.Model.Nifs
import Verif.Model.Poseidon

/-!
# Serialization of proofs

The derived implementations of `CanonicalSerialize` and `CanonicalDeserialize` write and read the fields of a structure in the order of
their declaration.
-/

namespace Verif.Ser

open Verif.Poseidon

section
variable {R : Type} (c : Codec R)

/-- `commitment/homomorphic_commitment.rs:11-14` `Commitment { val }`. -/
def commitment : Codec (Commitment R) where
  write y := (vec c).write y.val
  read bs := do
    let (v, bs) ← (vec c).read bs
    .ok (⟨v⟩, bs)

/-- `utils/sumcheck.rs:41-42` `Proof(Vec<ProverMsg>)` with `utils/sumcheck/prover.rs:13-17` `ProverMsg { evaluations }`. -/
def sumcheck : Codec (List (List R)) := vec (vec c)

/-- `nifs/linearization/structs.rs:14-39` `LinearizationProof { linearization_sumcheck, v, u }`. -/
def linProof : Codec (LinProof R) where
  write p := (sumcheck c).write p.sumcheck ++ ((vec c).write p.v ++ (vec c).write p.u)
  read bs := do
    let (sc, bs) ← (sumcheck c).read bs
    let (v, bs) ← (vec c).read bs
    let (u, bs) ← (vec c).read bs
    .ok (⟨sc, v, u⟩, bs)

/-- `nifs/decomposition/structs.rs:18-47` `DecompositionProof { u_s, v_s, x_s, y_s }`. -/
def decProof : Codec (DecProof R) where
  write p := (vec (vec c)).write p.uS ++ ((vec (vec c)).write p.vS ++ ((vec (vec c)).write p.xS ++ (vec (commitment c)).write p.yS))
  read bs := do
    let (u, bs) ← (vec (vec c)).read bs
    let (v, bs) ← (vec (vec c)).read bs
    let (x, bs) ← (vec (vec c)).read bs
    let (y, bs) ← (vec (commitment c)).read bs
    .ok (⟨u, v, x, y⟩, bs)

/-- `nifs/folding/structs.rs:17-40` `FoldingProof { pointshift_sumcheck_proof, theta_s, eta_s }`. -/
def foldProof : Codec (FoldProof R) where
  write p := (sumcheck c).write p.sumcheck ++ ((vec (vec c)).write p.thetaS ++ (vec (vec c)).write p.etaS)
  read bs := do
    let (sc, bs) ← (sumcheck c).read bs
    let (t, bs) ← (vec (vec c)).read bs
    let (e, bs) ← (vec (vec c)).read bs
    .ok (⟨sc, t, e⟩, bs)

/-- `nifs.rs:28-34` `LFProof { linearization_proof, decomposition_proof_l, decomposition_proof_r, folding_proof }`. -/
def lfProof : Codec (LFProof R) where
  write p := (linProof c).write p.lin ++ ((decProof c).write p.decL ++ ((decProof c).write p.decR ++ (foldProof c).write p.fold))
  read bs := do
    let (a, bs) ← (linProof c).read bs
    let (b, bs) ← (decProof c).read bs
    let (d, bs) ← (decProof c).read bs
    let (f, bs) ← (foldProof c).read bs
    .ok (⟨a, b, d, f⟩, bs)

/-- `examples/e2e.rs:124-146`: the two sizes the example prints. The buffer of the first serialization is used again for the second. -/
def exampleSizes (proof : LFProof R) : Nat × Nat :=
  let buffer : List UInt8 := []
  let buffer := buffer ++ (lfProof c).write proof
  let compressed := buffer.length
  let buffer := buffer ++ (lfProof c).write proof
  let uncompressed := buffer.length
  (compressed, uncompressed)

end

/-- Ring elements: `N` elements of the base field, each given by `τ` elements of the prime field in `w` bytes. -/
def ring {p N τ : Nat} {F R : Type} [AddCommGroup F] [AddCommGroup R] (w : Nat) (e : Encoding (ZMod p) F R N τ) : Codec R :=
  via (array (via (array (prime p w) τ) e.base.toEquiv) N) e.coeffs.toEquiv

end Verif.Ser
