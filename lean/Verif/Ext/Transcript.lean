import Verif.Basic
import Mathlib.Algebra.Algebra.Defs

/-!
# The Fiat-Shamir transcript as an arbitrary state machine

`crates/latticefold/src/transcript.rs:13-51`. Protocol theorems quantify over every
transcript; the Poseidon implementation (`transcript/poseidon.rs`) is the instance `poseidonT` of
`Model/Poseidon.lean`.
-/

namespace Verif

/-- `transcript.rs:13-38` `Transcript<R>`: state `σ`, base field `F`, ring `R`. -/
structure Transcript (F R σ : Type) where
  /-- `absorb` -/
  absorb : σ → R → σ
  /-- `get_challenge` -/
  challenge : σ → F × σ
  /-- `squeeze_bytes` -/
  bytes : σ → Nat → List UInt8 × σ

namespace Transcript

variable {F R σ : Type}

/-- `transcript.rs:24-28` `absorb_slice`. -/
def absorbSlice (T : Transcript F R σ) (s : σ) (v : List R) : σ := v.foldl T.absorb s

/-- `transcript.rs:20-22` `absorb_field_element`. -/
def absorbField [CommSemiring F] [Semiring R] [Algebra F R] (T : Transcript F R σ) (s : σ) (x : F) :
    σ := T.absorb s (algebraMap F R x)

/-- `transcript.rs:32-36` `get_challenges`. -/
def challenges (T : Transcript F R σ) : Nat → σ → List F × σ
  | 0, s => ([], s)
  | n + 1, s =>
    let (c, s) := T.challenge s
    let (cs, s) := T.challenges n s
    (c :: cs, s)

end Transcript

end Verif
