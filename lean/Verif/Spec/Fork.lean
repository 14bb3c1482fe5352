import Verif.Ext.Transcript
import Verif.Spec.Lcccs

/-!
# Several runs of a verifier with different randomness
-/

namespace Verif.Spec

open Verif

/-- The transcript `T`, except that the `k`-th request for bytes (counted in the state), for `n` of them, is answered by `B k n`. -/
def scripted {F R σ : Type} (T : Transcript F R σ) (B : Nat → Nat → List UInt8) : Transcript F R (σ × Nat) where
  absorb s x := (T.absorb s.1 x, s.2)
  challenge s := ((T.challenge s.1).1, (T.challenge s.1).2, s.2)
  bytes s n := (B s.2 n, s.1, s.2 + 1)

/-- The answer to the `k`-th of several successive requests for `n` bytes. -/
def drawnBytes {F R σ : Type} (T : Transcript F R σ) (n : Nat) (s : σ) : Nat → List UInt8
  | 0 => (T.bytes s n).1
  | k + 1 => drawnBytes T n (T.bytes s n).2 k

/-- The script with another answer to request `i`. -/
def changeAt (B : Nat → Nat → List UInt8) (i : Nat) (b : Nat → List UInt8) : Nat → Nat → List UInt8 :=
  fun k => if k = i then b else B k

/-- Statement `k` as claimed by a folding proof: with the point `r` of the sum-check, and the evaluations of the proof. -/
def claimed {R : Type} (cms : List (LCCCS R)) (theta eta : List (List R)) (z : R) (r : List R) (k : Nat) : LCCCS R :=
  { cms.getD k ⟨[], [], ⟨[]⟩, [], [], z⟩ with r := r, v := theta.getD k [], u := eta.getD k [] }

/-- Sizes of the inputs of the folding verifier, none of which it checks: `2K` statements whose commitments and public
inputs have the lengths of the scheme and of the CCS, and one evaluation per matrix for each of them in the proof. -/
structure FoldShape {R : Type} (P : Params) (ccs : CCS R) (scheme : Ajtai R) (cms : List (LCCCS R)) (eta : List (List R)) :
    Prop where
  cmsLen : cms.length = 2 * P.K
  cmLen : ∀ st ∈ cms, st.cm.val.length = scheme.matrix.vals.length
  xLen : ∀ st ∈ cms, st.x_w.length = ccs.l
  etasLen : eta.length = 2 * P.K
  etaLen : ∀ e ∈ eta, e.length = ccs.M.length

end Verif.Spec
