/-!
# Common definitions

Errors, results and list helpers shared by all model files.
-/

namespace Verif

/-- All error values of the code, flattened in one type. Ring elements carried inside
`SumCheckFailed` and strings carried inside `InvalidParameters`/`LengthsNotEqual` are dropped.

Sources: `arith/error.rs:8-29` (`CSError`), `commitment.rs` (`CommitmentError`),
`nifs/error.rs:13-66`, `utils/sumcheck.rs:22-29` (`SumCheckError`),
`utils/mle_helpers.rs:16-19` (`MleEvaluationError`), `challenge_set/error.rs`.
`panic` stands for every abort: index out of bounds, `unwrap`/`expect`, `assert!`, `panic!`,
arithmetic overflow, division by zero. -/
inductive Err where
  | panic (site : String)
  | lengthsNotEqual (a b : Nat)
  | notSatisfied (i : Nat)
  | matricesRowsLengthNotPowerOf2 (m : Nat)
  | invalidSizeBounds (m n L : Nat)
  | wrongWitnessLength (got want : Nat)
  | invalidParameters
  | sumCheckFailed
  | mleIncorrectLength (a b : Nat)
  | incorrectLength
  | recomposedError
  | tooFewBytes (got want : Nat)
  deriving DecidableEq, Repr

/-- `Result<α, E>` where aborting is an explicit error value. -/
abbrev Res (α : Type) := Except Err α

/-- Does a result stand for an aborted computation? -/
def Res.isPanic {α : Type} : Res α → Bool
  | .error (.panic _) => true
  | _ => false

/-- Slice/vector indexing `l[i]`, aborting when out of bounds. -/
def idx {α : Type} (site : String) (l : List α) (i : Nat) : Res α :=
  match l[i]? with
  | some a => .ok a
  | none => .error (.panic site)

/-- `usize` subtraction in the debug profile: aborts on underflow. -/
def usub (site : String) (a b : Nat) : Res Nat :=
  if b ≤ a then .ok (a - b) else .error (.panic site)

/-- `iter().map(f).collect::<Result<Vec<_>, _>>()`: first error wins. -/
def mapRes {α β : Type} (f : α → Res β) : List α → Res (List β)
  | [] => .ok []
  | a :: as =>
    match f a with
    | .error e => .error e
    | .ok b =>
      match mapRes f as with
      | .error e => .error e
      | .ok bs => .ok (b :: bs)

/-- A `for` loop with early exit on error. -/
def foldRes {α β : Type} (f : β → α → Res β) : β → List α → Res β
  | b, [] => .ok b
  | b, a :: as =>
    match f b a with
    | .error e => .error e
    | .ok b' => foldRes f b' as

/-- `for (a, b) in xs.iter_mut().zip(ys) { *a = f(*a, b) }`: the result keeps the length of `xs`. -/
def zipAssign {α β : Type} (f : α → β → α) : List α → List β → List α
  | a :: as, b :: bs => f a b :: zipAssign f as bs
  | as, [] => as
  | [], _ => []

end Verif
