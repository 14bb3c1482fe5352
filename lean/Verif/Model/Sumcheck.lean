import Verif.Ext.Mle
import Verif.Ext.Transcript
import Mathlib.Algebra.Field.Defs

/-!
# Model of `utils/sumcheck.rs`, `utils/sumcheck/prover.rs`, `utils/sumcheck/verifier.rs`

A `Proof` (`sumcheck.rs:42`) is a list of prover messages; a `ProverMsg` (`prover.rs:13-17`) is its
list of evaluations. The combining function `comb_fn : &[R] -> R` may abort (it usually indexes the
slice), so it is modelled as `List R → Res R`.
-/

namespace Verif

variable {F R σ : Type}

/-! ## Prover -/

/-- `prover.rs:20-31` `ProverState`. -/
structure ProverState (F R : Type) where
  randomness : List F
  mles : List (Mle R)
  numVars : Nat
  maxDegree : Nat
  round : Nat

section Prover
variable [CommRing R]

/-- `prover.rs:35-51` `prover_init`. -/
def proverInit (mles : List (Mle R)) (nvars degree : Nat) : Res (ProverState F R) :=
  if nvars = 0 then .error (.panic "Attempt to prove a constant.")
  else .ok ⟨[], mles, nvars, degree, 0⟩

/-- `prover.rs:128-133`: evaluations at `2, 3, ..` obtained by repeatedly adding the steps. -/
def extrapolate (comb : List R → Res R) (steps : List R) : Nat → List R → Res (List R)
  | 0, _ => .ok []
  | k + 1, vals => do
    let vals := List.zipWith (· + ·) vals steps
    let e ← comb vals
    let es ← extrapolate comb steps k vals
    .ok (e :: es)

/-- `prover.rs:107-133`: the contribution of one hypercube vertex pair `b`; `levals[1]` aborts for
degree 0. -/
def levals (polys : List (Mle R)) (degree : Nat) (comb : List R → Res R) (b : Nat) :
    Res (List R) := do
  let index := 2 * b
  let vals0 := polys.map fun p => p.get index
  let l0 ← comb vals0
  let vals1 := polys.map fun p => p.get (index + 1)
  let l1 ← comb vals1
  if degree = 0 then .error (.panic "levals[1]")
  else do
    let steps := List.zipWith (· - ·) vals1 vals0
    let ls ← extrapolate comb steps (degree - 1) vals1
    .ok (l0 :: l1 :: ls)

/-- `prover.rs:107-140` body of the `fold`: add the contribution of `b` to the accumulator. -/
def foldStep (polys : List (Mle R)) (degree : Nat) (comb : List R → Res R) (evals : List R)
    (b : Nat) : Res (List R) := do
  let l ← levals polys degree comb b
  .ok (zipAssign (· + ·) evals l)

/-- `prover.rs:107-159` (sequential): the message of a round over `2^(nv - i)` vertex pairs. -/
def roundMessage (polys : List (Mle R)) (degree : Nat) (comb : List R → Res R) (k : Nat) :
    Res (List R) :=
  foldRes (foldStep polys degree comb) (List.replicate (degree + 1) 0) (List.range (2 ^ k))

/-- A way for the parallel runtime to execute `fold(..).map(..).reduce(..)`: leaves are chunks folded
sequentially from a fresh accumulator, `ident` is the identity the runtime may insert, and `node`
combines the results of two sub-schedules. -/
inductive Schedule where
  | ident
  | chunk (l : List Nat)
  | node (l r : Schedule)

/-- The vertex pairs processed by a schedule, in order. -/
def Schedule.toList : Schedule → List Nat
  | .ident => []
  | .chunk l => l
  | .node l r => l.toList ++ r.toList

/-- `prover.rs:111-156` with feature `parallel`, under a given schedule. -/
def roundMessageParallel (polys : List (Mle R)) (degree : Nat) (comb : List R → Res R) :
    Schedule → Res (List R)
  | .ident => .ok (List.replicate (degree + 1) 0)
  | .chunk l => foldRes (foldStep polys degree comb) (List.replicate (degree + 1) 0) l
  | .node l r => do
    let a ← roundMessageParallel polys degree comb l
    let b ← roundMessageParallel polys degree comb r
    .ok (zipAssign (· + ·) a b)

variable [CommRing F] [Algebra F R]

/-- `prover.rs:61-75`: first part of `prove_round`, record the challenge and fix a variable. -/
def proverReceive (st : ProverState F R) : Option F → Res (ProverState F R)
  | some r =>
    if st.round = 0 then .error (.panic "first round should be prover first.")
    else do
      let randomness := st.randomness ++ [r]
      let r' ← idx "prover_state.randomness" randomness (st.round - 1)
      let mles ← mapRes (fun m => m.fixVar (algebraMap F R r')) st.mles
      .ok { st with randomness := randomness, mles := mles }
  | none => if st.round > 0 then .error (.panic "verifier message is empty") else .ok st

/-- `prover.rs:56-162` `prove_round`. -/
def proveRound (st : ProverState F R) (vMsg : Option F) (comb : List R → Res R) :
    Res (List R × ProverState F R) := do
  let st ← proverReceive st vMsg
  let st := { st with round := st.round + 1 }
  if st.round > st.numVars then .error (.panic "Prover is not active")
  else do
    let evals ← roundMessage st.mles st.maxDegree comb (st.numVars - st.round)
    .ok (evals, st)

/-- The loop of `prove_as_subprotocol`, `sumcheck.rs:65-74`, with `k` rounds left; returns the
messages of these rounds, the last verifier message, and the final states. -/
def proveLoop (T : Transcript F R σ) (comb : List R → Res R) :
    Nat → σ → ProverState F R → Option F → Res (List (List R) × Option F × ProverState F R × σ)
  | 0, s, st, v => .ok ([], v, st, s)
  | k + 1, s, st, v => do
    let (msg, st) ← proveRound st v comb
    let s := T.absorbSlice s msg
    let (r, s) := T.challenge s
    let s := T.absorb s (algebraMap F R r)
    let (msgs, v, st, s) ← proveLoop T comb k s st (some r)
    .ok (msg :: msgs, v, st, s)

/-- `sumcheck.rs:53-80` `prove_as_subprotocol`. -/
def proveAsSubprotocol (T : Transcript F R σ) (s : σ) (mles : List (Mle R)) (nvars degree : Nat)
    (comb : List R → Res R) : Res ((List (List R) × ProverState F R) × σ) := do
  let s := T.absorb s (nvars : R)
  let s := T.absorb s (degree : R)
  let st ← proverInit mles nvars degree
  let (msgs, v, st, s) ← proveLoop T comb nvars s st none
  match v with
  | none => .error (.panic "verifier_msg.unwrap()")
  | some r => .ok ((msgs, { st with randomness := st.randomness ++ [r] }), s)

end Prover

/-! ## Interpolation -/

section Interpolation
variable [Field F] [DecidableEq F] [CommRing R] [Algebra F R]

/-- Field division of `arkworks`: aborts on a zero denominator. -/
def fdiv (a b : F) : Res F := if b = 0 then .error (.panic "division by zero") else .ok (a / b)

/-- `verifier.rs:150-160`: the loop over `i in 1..len`; `inl k` is the early return of `p_i[k]`. -/
def interpScan (r : F) : Nat → Nat → F → List F → F → Nat ⊕ (List F × F × F)
  | 0, _, check, evals, prod => .inr (evals, prod, check)
  | k + 1, i, check, evals, prod =>
    if r = check then .inl (i - 1)
    else
      let check := check + 1
      let tmp := r - check
      interpScan r k (i + 1) check (evals ++ [tmp]) (prod * tmp)

/-- `verifier.rs:269-287` `u64_factorial`, `u128_factorial`: aborts on overflow past `2^bits`. -/
def uFactorial (bits a : Nat) : Res Nat :=
  foldRes (fun res i =>
    if res * (i + 1) < 2 ^ bits then .ok (res * (i + 1)) else .error (.panic "factorial overflow"))
    1 (List.range a)

/-- `verifier.rs:261-267` `field_factorial`. -/
def fieldFactorial (F : Type) [Field F] (a : Nat) : F :=
  (List.range a).foldl (fun res i => res * ((i + 1 : Nat) : F)) 1

/-- `verifier.rs:192-216` and `219-242`, with `bits = 64` resp. `128`: the loop over `i` from
`len - 1` down to `0` with signed numerator and unsigned denominator; every integer operation is
overflow checked. -/
def interpIntLoop (bits : Nat) (p : List R) (evals : List F) (prod lastDenom : F) (len : Nat) :
    List Nat → Int → Nat → R → Res R
  | [], _, _, res => .ok res
  | i :: is, num, en, res => do
    if num < 0 ∧ 2 ^ (bits - 1) ≤ - num then .error (.panic "negate overflow") else
    let numF : F := if num < 0 then - (((- num).toNat : Nat) : F) else ((num.toNat : Nat) : F)
    let ev ← idx "evals[i]" evals i
    let x ← fdiv (prod * (en : F)) (lastDenom * numF * ev)
    let pv ← idx "p_i[i]" p i
    let res := res + pv * algebraMap F R x
    if i ≠ 0 then
      let num' := num * (-((len : Int) - (i : Int)))
      let en' := en * i
      if num' < - 2 ^ (bits - 1) ∨ 2 ^ (bits - 1) ≤ num' ∨ 2 ^ bits ≤ en' then
        .error (.panic "multiply overflow")
      else interpIntLoop bits p evals prod lastDenom len is num' en' res
    else interpIntLoop bits p evals prod lastDenom len is num en res

/-- `verifier.rs:246-256`: the field-arithmetic loop. -/
def interpFieldLoop (p : List R) (evals : List F) (prod : F) (len : Nat) :
    List Nat → F → F → R → Res R
  | [], _, _, res => .ok res
  | i :: is, up, down, res => do
    let ev ← idx "evals[i]" evals i
    let x ← fdiv (prod * down) (up * ev)
    let pv ← idx "p_i[i]" p i
    let res := res + pv * algebraMap F R x
    if i ≠ 0 then
      interpFieldLoop p evals prod len is (up * (-((len - i : Nat) : F))) (down * (i : F)) res
    else interpFieldLoop p evals prod len is up down res

/-- `verifier.rs:139-257` `interpolate_uni_poly`. `len - 1` aborts on an empty slice. -/
def interpolateUniPoly (p : List R) (evalAt : F) : Res R :=
  let len := p.length
  match interpScan evalAt (len - 1) 1 0 [evalAt] evalAt with
  | .inl k => idx "p_i[i - 1]" p k
  | .inr (evals, prod, check) =>
    if evalAt = check then do
      let k ← usub "len - 1" len 1
      idx "p_i[len - 1]" p k
    else do
      let n ← usub "len - 1" len 1
      if len ≤ 20 then do
        let ld ← uFactorial 64 n
        interpIntLoop 64 p evals prod (ld : F) len (List.range len).reverse 1 1 0
      else if len ≤ 33 then do
        let ld ← uFactorial 128 n
        interpIntLoop 128 p evals prod (ld : F) len (List.range len).reverse 1 1 0
      else
        interpFieldLoop p evals prod len (List.range len).reverse (fieldFactorial F n) 1 0

end Interpolation

/-! ## Verifier -/

/-- `verifier.rs:19-29` `VerifierState`. -/
structure VerifierState (F R : Type) where
  round : Nat
  nv : Nat
  maxMultiplicands : Nat
  finished : Bool
  polynomialsReceived : List (List R)
  randomness : List F

/-- `verifier.rs:31-36` `SubClaim`. -/
structure SubClaim (F R : Type) where
  point : List F
  expectedEvaluation : R
  deriving DecidableEq

/-- `verifier.rs:40-49` `verifier_init`. -/
def verifierInit (nvars degree : Nat) : VerifierState F R := ⟨1, nvars, degree, false, [], []⟩

/-- `verifier.rs:56-85` `verify_round` (with `sample_round`, lines 128-132). -/
def verifyRound (T : Transcript F R σ) (msg : List R) (st : VerifierState F R) (s : σ) :
    Res (F × VerifierState F R × σ) :=
  if st.finished then .error (.panic "Verifier is already finished.")
  else
    let (r, s) := T.challenge s
    let st := { st with
      randomness := st.randomness ++ [r]
      polynomialsReceived := st.polynomialsReceived ++ [msg] }
    if st.round = st.nv then .ok (r, { st with finished := true }, s)
    else .ok (r, { st with round := st.round + 1 }, s)

section Verifier
variable [Field F] [DecidableEq F] [CommRing R] [DecidableEq R] [Algebra F R]

/-- `verifier.rs:92-121` `check_and_generate_subclaim`. -/
def checkAndGenerateSubclaim (st : VerifierState F R) (assertedSum : R) : Res (SubClaim F R) :=
  if !st.finished then .error (.panic "Verifier has not finished.")
  else if st.polynomialsReceived.length ≠ st.nv then .error (.panic "insufficient rounds")
  else do
    let expected ← foldRes (fun expected i => do
        let evaluations ← idx "polynomials_received" st.polynomialsReceived i
        if evaluations.length ≠ st.maxMultiplicands + 1 then
          .error (.panic "incorrect number of evaluations")
        else do
          let p0 ← idx "evaluations[0]" evaluations 0
          let p1 ← idx "evaluations[1]" evaluations 1
          if p0 + p1 ≠ expected then .error .sumCheckFailed
          else do
            let r ← idx "randomness" st.randomness i
            interpolateUniPoly evaluations r) assertedSum (List.range st.nv)
    .ok ⟨st.randomness, expected⟩

/-- The loop of `verify_as_subprotocol`, `sumcheck.rs:95-101`. -/
def verifyLoop (T : Transcript F R σ) (proof : List (List R)) :
    List Nat → VerifierState F R → σ → Res (VerifierState F R × σ)
  | [], st, s => .ok (st, s)
  | i :: is, st, s => do
    let msg ← idx "proof is incomplete" proof i
    let s := T.absorbSlice s msg
    let (r, st, s) ← verifyRound T msg st s
    let s := T.absorb s (algebraMap F R r)
    verifyLoop T proof is st s

/-- `sumcheck.rs:84-104` `verify_as_subprotocol`. -/
def verifyAsSubprotocol (T : Transcript F R σ) (s : σ) (nvars degree : Nat) (claimedSum : R)
    (proof : List (List R)) : Res (SubClaim F R × σ) := do
  let s := T.absorb s (nvars : R)
  let s := T.absorb s (degree : R)
  let (st, s) ← verifyLoop T proof (List.range nvars) (verifierInit nvars degree) s
  let sc ← checkAndGenerateSubclaim st claimedSum
  .ok (sc, s)

/-- `sumcheck.rs:46-48` `extract_sum`: aborts on an empty proof or a first message with fewer than
two evaluations. -/
def extractSum (proof : List (List R)) : Res R := do
  let m ← idx "proof.0[0]" proof 0
  let a ← idx "evaluations[0]" m 0
  let b ← idx "evaluations[1]" m 1
  .ok (a + b)

end Verifier

end Verif
