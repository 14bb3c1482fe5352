import Verif.Basic

/-!
# Selection of benchmarks by environment variables

`crates/latticefold/benches/env.rs` and the conditions in the code generated by `build.rs`.
-/

namespace Verif.BenchEnv

/-- The environment: `std::env::var`, where a variable that is not set or not valid Unicode is `none`. -/
abbrev Vars := String → Option String

/-- Removes a plus sign that is followed by something. -/
def stripPlus : List Char → List Char
  | '+' :: c :: t => c :: t
  | l => l

/-- `str::parse` for an unsigned integer type of the given number of bits (standard library): an optional plus sign and at least one
decimal digit; the value has to fit. -/
def parseUInt (bits : Nat) (s : String) : Option Nat :=
  let cs := stripPlus s.toList
  if cs = [] ∨ ¬ cs.all Char.isDigit then none
  else
    let n := Nat.ofDigitChars 10 cs 0
    if n < 2 ^ bits then some n else none

/-- `env.rs:5-11` `get_env_var` for an unsigned integer: a value that does not parse counts as not set. -/
def getNum (bits : Nat) (vars : Vars) (key : String) : Option Nat :=
  match vars key with
  | some v => parseUInt bits v
  | none => none

/-- `env.rs:5-11` `get_env_var::<String>(key).is_some()`; parsing a string as a string never fails. -/
def isSet (vars : Vars) (key : String) : Bool := (vars key).isSome

/-- `env.rs:13-37` `Env` without the durations. -/
structure Env where
  goldilocks : Bool
  stark : Bool
  babybear : Bool
  frog : Bool
  prover : Bool
  verifier : Bool
  ajtai : Bool
  linearization : Bool
  decomposition : Bool
  folding : Bool
  e2e : Bool
  xLen : Option Nat
  kappa : Option Nat
  n : Option Nat
  witLen : Option Nat
  b : Option Nat
  l : Option Nat
  bSmall : Option Nat
  k : Option Nat

/-- `env.rs:39-98` `ENV`. The tuples are evaluated before the names are bound again. -/
def env (vars : Vars) : Env :=
  let goldilocks := isSet vars "GOLDILOCKS"
  let stark := isSet vars "STARK"
  let babybear := isSet vars "BABYBEAR"
  let frog := isSet vars "FROG"
  let prover := isSet vars "PROVER"
  let verifier := isSet vars "VERIFIER"
  let ajtai := isSet vars "AJTAI"
  let linearization := isSet vars "LINEARIZATION"
  let decomposition := isSet vars "DECOMPOSITION"
  let folding := isSet vars "FOLDING"
  let e2e := isSet vars "E2E"
  { goldilocks := goldilocks || !stark && !babybear && !frog
    stark := stark || !goldilocks && !babybear && !frog
    babybear := babybear || !goldilocks && !stark && !frog
    frog := frog || !goldilocks && !stark && !babybear
    prover := prover || !verifier && !ajtai
    verifier := verifier || !prover && !ajtai
    ajtai := ajtai || !prover && !verifier
    linearization := linearization || !decomposition && !folding && !e2e
    decomposition := decomposition || !linearization && !folding && !e2e
    folding := folding || !linearization && !decomposition && !e2e
    e2e := e2e || !linearization && !decomposition && !folding
    xLen := getNum 64 vars "X_LEN"
    kappa := getNum 64 vars "KAPPA"
    n := getNum 64 vars "N"
    witLen := getNum 64 vars "WIT_LEN"
    b := getNum 128 vars "B"
    l := getNum 64 vars "L"
    bSmall := getNum 64 vars "B_SMALL"
    k := getNum 64 vars "K" }

inductive RingName where
  | goldilocks | stark | babybear | frog
  deriving DecidableEq, Repr

inductive Subprotocol where
  | linearization | decomposition | folding | e2e
  deriving DecidableEq, Repr

inductive Role where
  | prover | verifier
  deriving DecidableEq, Repr

/-- `build.rs:166-177` `BenchmarkRecord`. -/
structure BenchRecord where
  xLen : Nat
  kappa : Nat
  n : Nat
  b : Nat
  l : Nat
  bSmall : Nat
  k : Nat
  deriving DecidableEq, Repr

def Env.ring (e : Env) : RingName → Bool
  | .goldilocks => e.goldilocks
  | .stark => e.stark
  | .babybear => e.babybear
  | .frog => e.frog

def Env.sub (e : Env) : Subprotocol → Bool
  | .linearization => e.linearization
  | .decomposition => e.decomposition
  | .folding => e.folding
  | .e2e => e.e2e

def Env.role (e : Env) : Role → Bool
  | .prover => e.prover
  | .verifier => e.verifier

/-- `build.rs:585-630`, the block generated for one record: whether the benchmark of the given role is called. `64` bit overflow of
`N = n * l` would be a compile time error and is left out. -/
def runsProtocol (e : Env) (sub : Subprotocol) (ring : RingName) (role : Role) (r : BenchRecord) : Bool :=
  if e.sub sub && e.ring ring then
    if r.xLen == e.xLen.getD r.xLen && r.kappa == e.kappa.getD r.kappa && r.n * r.l == e.n.getD (r.n * r.l) &&
        r.n == e.witLen.getD r.n && r.b == e.b.getD r.b && r.l == e.l.getD r.l && r.bSmall == e.bSmall.getD r.bSmall &&
        r.k == e.k.getD r.k then
      e.role role
    else false
  else false

/-- `build.rs:444-501`, the block generated for one record of the commitment benchmarks: the only condition is `ENV.ajtai`. -/
def runsAjtai (e : Env) (_ring : RingName) (_kappa _n : Nat) : Bool := e.ajtai

end Verif.BenchEnv
