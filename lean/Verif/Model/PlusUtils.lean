import Verif.Ext.PlusRing
import Verif.Ext.Transcript
import Verif.Ext.Mle

/-!
# Model of `crates/latticefold-plus/src/utils.rs`
-/

namespace Verif.Plus

variable {F R σ : Type} {d : Nat}

/-- `Result::unwrap()`: every error becomes an abort. -/
def unwrapRes {α : Type} (site : String) : Res α → Res α
  | .ok a => .ok a
  | .error _ => .error (.panic site)

/-- `utils.rs:49-68` `tensor_product`. -/
def tensorProduct [Mul R] (a b : List R) : List R :=
  if a.isEmpty then b
  else if b.isEmpty then a
  else a.flatMap fun x => b.map fun y => x * y

/-- `utils.rs:74-86` `tensor`. -/
def tensor [CommRing R] (r : List R) : List R :=
  r.foldl (fun acc x => tensorProduct acc [1 - x, x]) [1]

section
variable [Field F] [CommRing R] [Algebra F R]

/-- `com.gadget_decompose(b, k)` for a matrix: every entry of every row is replaced by its digits. -/
def gadgetRows (pr : PlusRing F R d) (b k : Nat) (com : Mat R) : Res (List (List R)) :=
  mapRes (fun row => do
    let ds ← mapRes (pr.dec b k) row
    .ok ds.flatten) com.vals

/-- `utils.rs:11-43` `split`. -/
def split (pr : PlusRing F R d) (com : Mat R) (n b k : Nat) : Res (List F) := do
  let mp ← gadgetRows pr b k com
  let tau := (mp.flatten.map pr.coeffs).flatten
  if tau.length < n then .ok (tau ++ List.replicate (n - tau.length) 0)
  else .error (.panic "small n unsupported")

/-- `utils.rs:87-100` `short_challenge`. `coeffs.into()` builds the ring element from its
coefficients; the conversion aborts unless there are exactly `d` of them. `2usize.pow` aborts on
overflow. -/
def shortChallenge (pr : PlusRing F R d) (lambda : Nat) (T : Transcript F R σ) (s : σ) :
    Res (R × σ) :=
  if 64 ≤ lambda / d then .error (.panic "2usize.pow")
  else
    let u := 2 ^ (lambda / d)
    let (bs, s) := T.bytes s d
    let cs : List F := bs.map fun b => ((b.toNat % u : Nat) : F) - ((u / 2 : Nat) : F)
    if cs.length = d then .ok (pr.coeff.symm fun i => cs.getD i 0, s)
    else .error (.panic "coeffs.into()")

end

/-- `DenseMultilinearExtension::from_evaluations_vec(nvars, evals).evaluate(point).unwrap()`, used
throughout the crate. -/
def evalVec [CommRing R] (nvars : Nat) (evals : List R) (point : List R) : Res R := do
  let m ← Mle.fromEvals nvars evals
  match m.evaluate point with
  | some v => .ok v
  | none => .error (.panic "evaluate.unwrap()")

end Verif.Plus
