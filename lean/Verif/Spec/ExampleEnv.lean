import Verif.Model.ExampleEnv

/-!
# What `examples/README.md` says about the configuration of the examples
-/

namespace Verif.Spec
open Verif.BenchEnv Verif.ExampleEnv

/-- "Ring configurations are: `Goldilocks`, `BabyBear`, `Frog`, and `StarkPrime`." -/
def ringNames : List (String × RingName) := [("Goldilocks", .goldilocks), ("BabyBear", .babybear), ("Frog", .frog), ("StarkPrime", .stark)]

/-- The table of variables with the defaults, and the constant each of them sets. -/
def documented (r : RingName) (c : Consts) : List (String × Nat × Nat) :=
  [("PARAM_B", if r = .stark then 1073741824 else 32768, c.P.B), ("PARAM_L", if r = .stark then 9 else 5, c.P.L),
   ("PARAM_B_SMALL", 2, c.P.bSmall), ("PARAM_K", if r = .stark then 30 else 15, c.P.K), ("PARAM_KAPPA", 4, c.kappa),
   ("PARAM_WIT_LEN", 4, c.witLen)]

/-- Constant expressions of Rust as far as they are used: numerals, and the two defaults that are not numerals. -/
structure EvalOK (eval : String → Option Nat) : Prop where
  num : ∀ n : Nat, n < 2 ^ 64 → eval (Nat.repr n) = some n
  shift : eval "1 << 15" = some 32768
  suffix : eval "1073741824u128" = some 1073741824

end Verif.Spec
