import Verif.Model.BenchEnv

/-!
# What `benches/README.md` says about the selection of benchmarks
-/

namespace Verif.Spec

open Verif.BenchEnv

/-- "If none of the flags for a group are set, all flags are enabled"; "if some of them is set, only set benchmarks would be run". -/
def Selected (vars : Vars) (group : List String) (flag : String) : Prop :=
  vars flag ≠ none ∨ ∀ g ∈ group, vars g = none

def ringFlags : List String := ["GOLDILOCKS", "STARK", "BABYBEAR", "FROG"]
def subFlags : List String := ["LINEARIZATION", "DECOMPOSITION", "FOLDING", "E2E"]
def roleFlags : List String := ["PROVER", "VERIFIER", "AJTAI"]

def ringFlag : RingName → String
  | .goldilocks => "GOLDILOCKS"
  | .stark => "STARK"
  | .babybear => "BABYBEAR"
  | .frog => "FROG"

def subFlag : Subprotocol → String
  | .linearization => "LINEARIZATION"
  | .decomposition => "DECOMPOSITION"
  | .folding => "FOLDING"
  | .e2e => "E2E"

def roleFlag : Role → String
  | .prover => "PROVER"
  | .verifier => "VERIFIER"

/-- The variables with the number of bits of their type and the parameter each of them is compared with. -/
def filters (r : BenchRecord) : List (String × Nat × Nat) :=
  [("X_LEN", 64, r.xLen), ("KAPPA", 64, r.kappa), ("N", 64, r.n * r.l), ("WIT_LEN", 64, r.n), ("B", 128, r.b), ("L", 64, r.l),
   ("B_SMALL", 64, r.bSmall), ("K", 64, r.k)]

/-- The decimal numerals of the numbers that fit in the given number of bits, without sign and leading zeros. -/
def Numeral (bits : Nat) (s : String) : Prop := ∃ v, v < 2 ^ bits ∧ s = Nat.repr v

end Verif.Spec
