import Verif.Ext.Ring

/-!
# Model of `crates/cyclotomic-rings/src/rotation.rs`
-/

namespace Verif

variable {Fp F C : Type} {N τ : Nat} [Field Fp] [Field F] [Algebra Fp F] [CommRing C] [Algebra Fp C]

/-- `into_coeffs()` of the coefficient form. -/
def coeffsList (rd : RingData Fp F C N τ) (x : C) : List Fp := List.ofFn (rd.coeff x)

/-- The first `n` items of `a.into_rot_iter()`: `a, X a, X^2 a, ..` (the Rust iterator is unbounded and
is only consumed through `zip`). -/
def rotIter (rd : RingData Fp F C N τ) (a : C) (n : Nat) : List C :=
  (List.range n).map fun i => rd.X ^ i * a

/-- `rotation.rs:53-57`: the body of the outer loop, `acc_j += from_base_prime_field(x) * b_i`. -/
def rotStep (rd : RingData Fp F C N τ) (acc : List F) (p : F × C) : List F :=
  zipAssign (fun accj x => accj + algebraMap Fp F x * p.1) acc (coeffsList rd p.2)

/-- `rotation.rs:45-60` `rot_sum`. -/
def rotSum (rd : RingData Fp F C N τ) (a : C) (b : List F) : Res (List F) :=
  if b.length ≠ τ * N then .error (.panic "assert_eq!(b.len(), dimension)") else
  .ok ((b.zip (rotIter rd a b.length)).foldl (rotStep rd) (List.replicate (τ * N) 0))

/-- `PolyRing::flatten_to_coeffs` of NTT-form elements: the slots one after the other. -/
def flattenCoeffs (v : List (Fin N → F)) : List F := (v.map List.ofFn).flatten

/-- `PolyRing::promote_from_coeffs` to NTT form: `None` unless the length is a multiple of `N`
(the Rust function also requires the capacity to be a multiple of `N`). -/
def promoteCoeffs (N : Nat) (l : List F) : Option (List (Fin N → F)) :=
  if N ∣ l.length then
    some ((List.range (l.length / N)).map fun i => fun a : Fin N => l.getD (i * N + a) 0)
  else none

/-- `for (i, x) in sum.iter().enumerate() { res[i] += x }`, `rotation.rs:98-100`: aborts when `res` is
shorter than `sum`. -/
def addIndexed (res sum : List F) : Res (List F) :=
  if sum.length ≤ res.length then .ok (zipAssign (· + ·) res sum) else .error (.panic "res[i]")

/-- `rotation.rs:93-101`: the body of the loop. -/
def rotLinStep (rd : RingData Fp F C N τ) (res : List F) (p : C × List (Fin N → F)) : Res (List F) := do
  let sum ← rotSum rd p.1 (flattenCoeffs p.2)
  addIndexed res sum

/-- `rotation.rs:84-104` `rot_lin_combination`. -/
def rotLinComb (rd : RingData Fp F C N τ) (rhos : List C) (thetas : List (List (Fin N → F))) :
    Res (List (Fin N → F)) :=
  if rhos.length ≠ thetas.length then .error (.panic "assert_eq!(rho_s.len(), theta_s.len())") else
  match thetas with
  | [] => .error (.panic "theta_s[0]")
  | t0 :: _ => do
    let res ← foldRes (rotLinStep rd) (flattenCoeffs (List.replicate t0.length (0 : Fin N → F)))
      (rhos.zip thetas)
    match promoteCoeffs N res with
    | some v => .ok v
    | none => .error (.panic "promote_from_coeffs")

end Verif
