import Verif.Ext.Transcript
import Mathlib.Data.Finset.Basic
import Mathlib.Data.Fintype.Pi

/-!
# The transcript as a random oracle, and algorithms that query it
-/

namespace Verif.Spec

/-- What a transcript records: absorbed elements, challenges handed out (`get_challenge` of `transcript/poseidon.rs:50-58` absorbs
them), and requests for bytes. -/
inductive Entry (F R : Type) where
  | elem (x : R)
  | drawn (c : F)
  | bytes (n : Nat)

/-- Everything recorded so far, latest first. -/
abbrev History (F R : Type) := List (Entry F R)

variable {F R : Type}

/-- The transcript whose challenges are the values of the oracle `O` at the history. The bytes come from a second oracle. -/
def oracleT (O : History F R → F) (B : History F R → Nat → List UInt8) : Transcript F R (History F R) where
  absorb h x := .elem x :: h
  challenge h := (O h, .drawn (O h) :: h)
  bytes h n := (B h n, .bytes n :: h)

/-- A deterministic algorithm with access to an oracle `H → F`: it stops, or asks for the value at `h` and continues with the answer. -/
inductive Alg (H F α : Type) where
  | done (a : α)
  | ask (h : H) (k : F → Alg H F α)

namespace Alg
variable {H α : Type}

/-- The output with the oracle `O`. -/
def run (O : H → F) : Alg H F α → α
  | done a => a
  | ask h k => (k (O h)).run O

/-- At most `q` queries are made, whatever the answers. -/
def AtMost : Alg H F α → Nat → Prop
  | done _, _ => True
  | ask _ _, 0 => False
  | ask _ k, q + 1 => ∀ c, (k c).AtMost q

end Alg

open Classical in
/-- The oracle with the values `o` on the finite set `X`, and `D` elsewhere. -/
noncomputable def onSet {H : Type} (X : Finset H) (D : H → F) (o : X → F) : H → F :=
  fun h => if hx : h ∈ X then o ⟨h, hx⟩ else D h

open Classical in
/-- The number of oracles on `X` (with `D` elsewhere) with the property `Ev`, out of `|F| ^ |X|`. -/
noncomputable def oracleCount {H : Type} [Fintype F] (X : Finset H) (D : H → F) (Ev : (H → F) → Prop) : Nat :=
  (Finset.univ.filter fun o : X → F => Ev (onSet X D o)).card

end Verif.Spec
