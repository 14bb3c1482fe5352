import Verif.Model.BenchEnv
import Verif.Model.ParamSets

/-!
# Configuration of the examples by environment variables

`crates/latticefold/build.rs:15-156` `generate_code_for_examples`, and when cargo runs the script again.
-/

namespace Verif.ExampleEnv
open Verif.BenchEnv

/-- The texts that are put into the generated file as values of the constants. -/
structure Texts where
  b : String
  l : String
  bSmall : String
  k : String
  kappa : String
  witLen : String
  xLen : String
  deriving DecidableEq, Repr

/-- The generated file: the ring to which `RqNTT`, `CS`, `DP` and `N` refer, and the texts. All four parameter types get the same texts, so
which of them `DP` is does not matter for the values. -/
structure Generated where
  ring : RingName
  texts : Texts
  deriving DecidableEq, Repr

/-- `std::env::var(key).unwrap_or(default)`. -/
def varOr (vars : Vars) (key default : String) : String := (vars key).getD default

/-- `build.rs:28-46`: the ring's name and the texts. -/
def texts (vars : Vars) : String × Texts :=
  let ring := varOr vars "RING" "Goldilocks"
  if ring ≠ "StarkPrime" then
    (ring, ⟨varOr vars "PARAM_B" "1 << 15", varOr vars "PARAM_L" "5", varOr vars "PARAM_B_SMALL" "2", varOr vars "PARAM_K" "15",
      varOr vars "PARAM_KAPPA" "4", varOr vars "PARAM_WIT_LEN" "4", varOr vars "PARAM_X_LEN" "1"⟩)
  else
    (ring, ⟨varOr vars "PARAM_B" "1073741824u128", varOr vars "PARAM_L" "9", varOr vars "PARAM_B_SMALL" "2", varOr vars "PARAM_K" "30",
      varOr vars "PARAM_KAPPA" "4", varOr vars "PARAM_WIT_LEN" "4", varOr vars "PARAM_X_LEN" "1"⟩)

/-- `build.rs:15-145` `generate_code_for_examples` up to the writing of the file. -/
def generate (vars : Vars) : Res Generated :=
  let (ring, t) := texts vars
  if ring = "Goldilocks" then .ok ⟨.goldilocks, t⟩
  else if ring = "BabyBear" then .ok ⟨.babybear, t⟩
  else if ring = "Frog" then .ok ⟨.frog, t⟩
  else if ring = "StarkPrime" then .ok ⟨.stark, t⟩
  else .error (.panic "Unknown ring configuration")

/-- What the compiler makes of the constants (`build.rs:57-106`): `eval` is the value of a text as a constant expression of the type in question,
`none` if it does not compile. `N = WIT_LEN * L` (`build.rs:103-106`). -/
structure Consts where
  P : Params
  kappa : Nat
  witLen : Nat
  xLen : Nat
  n : Nat
  deriving DecidableEq

def consts (eval : String → Option Nat) (t : Texts) : Option Consts := do
  let b ← eval t.b
  let l ← eval t.l
  let bSmall ← eval t.bSmall
  let k ← eval t.k
  let xLen ← eval t.xLen
  let kappa ← eval t.kappa
  let witLen ← eval t.witLen
  some ⟨⟨b, l, bSmall, k⟩, kappa, witLen, xLen, witLen * l⟩

/-- What a build sees: the environment and the files, by path relative to the package (`none` for a missing file, otherwise its version). -/
structure World where
  vars : Vars
  files : String → Option Nat

/-- What the script tells cargo to watch. -/
structure Watch where
  paths : List String
  vars : List String

/-- `build.rs:147-155, 235`. -/
def watch : Watch :=
  ⟨["build.rs", "latticefold/benches/config.toml", "latticefold/benches/config.toml"],
   ["PARAM_B", "PARAM_L", "PARAM_B_SMALL", "PARAM_K", "PARAM_KAPPA", "PARAM_WIT_LEN", "PARAM_X_LEN"]⟩

/-- Contract of cargo: the script is run again if a watched path is missing or has changed since the last run, or a watched variable has. -/
def rerun (w : Watch) (old new : World) : Bool :=
  w.paths.any (fun p => (new.files p).isNone || new.files p != old.files p) || w.vars.any (fun v => new.vars v != old.vars v)

/-- `build.rs:7-13, 234-239`: what the script leaves behind, the file for the examples and the benchmarks rendered from the configuration, of which only
the version is kept; a missing configuration aborts. -/
def script (w : World) : Res (Generated × Nat) := do
  let g ← generate w.vars
  match w.files "benches/config.toml" with
  | some v => .ok (g, v)
  | none => .error (.panic "Failed to read TOML file")

/-- A build: the state is the world of the last successful run of the script, with its output. -/
def build (wt : Watch) (last : Option (World × Generated × Nat)) (w : World) : Res (World × Generated × Nat) :=
  match last with
  | some (old, out) => if rerun wt old w then (script w).map fun o => (w, o) else .ok (old, out)
  | none => (script w).map fun o => (w, o)

/-- Builds one after another; a build that fails keeps the state. -/
def builds (wt : Watch) (last : Option (World × Generated × Nat)) (ws : List World) : Option (World × Generated × Nat) :=
  ws.foldl (fun st w => match build wt st w with
    | .ok r => some r
    | .error _ => st) last

end Verif.ExampleEnv
