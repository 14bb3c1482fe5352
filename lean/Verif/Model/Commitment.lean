import Verif.Ext.Linalg

/-!
# Model of `crates/latticefold/src/commitment/`
-/

namespace Verif

variable {R : Type}

/-- `commitment/homomorphic_commitment.rs:12-14` `Commitment { val: Vec<R> }`. -/
structure Commitment (R : Type) where
  val : List R
  deriving DecidableEq

namespace Commitment

variable [CommRing R]

/-- `homomorphic_commitment.rs:21-25` `zeroed`. -/
def zeroed (kappa : Nat) : Commitment R := ⟨List.replicate kappa 0⟩

/-- `homomorphic_commitment.rs:27-29` `len`. -/
def len (c : Commitment R) : Nat := c.val.length

/-- `homomorphic_commitment.rs:54-61` `AddAssign<&Commitment>` and `operations.rs:6-41`
(all `+` variants delegate to it). -/
def add (a b : Commitment R) : Commitment R := ⟨zipAssign (· + ·) a.val b.val⟩

/-- `homomorphic_commitment.rs:63-70` `SubAssign<&Commitment>` and `operations.rs:46-81`. -/
def sub (a b : Commitment R) : Commitment R := ⟨zipAssign (· - ·) a.val b.val⟩

/-- `homomorphic_commitment.rs:72-76` `MulAssign<&R>` and `operations.rs:86-121`. -/
def smul (a : Commitment R) (c : R) : Commitment R := ⟨a.val.map (· * c)⟩

end Commitment

/-- `commitment/commitment_scheme.rs:17-19` `AjtaiCommitmentScheme { matrix }`. -/
structure Ajtai (R : Type) where
  matrix : Mat R

namespace Ajtai

/-- `commitment_scheme.rs:30-32` `rand`: `vec![vec![R::rand(rng); n]; kappa]`. The `vec!` macro
evaluates its element expression once and clones it, so exactly one sample is drawn. The random
generator is an arbitrary state machine `rand : G → R × G`; the new generator state is returned. -/
def rand {G : Type} (rnd : G → R × G) (kappa n : Nat) (rng : G) : Ajtai R × G :=
  let (x, rng') := rnd rng
  (⟨Mat.ofRows (List.replicate kappa (List.replicate n x))⟩, rng')

/-- `commitment_scheme.rs:59-61` `kappa`. -/
def kappa (s : Ajtai R) : Nat := s.matrix.nrows

/-- `commitment_scheme.rs:66-68` `width`. -/
def width (s : Ajtai R) : Nat := s.matrix.ncols

/-- `commitment_scheme.rs:37-54` `commit` (and `commit_ntt`, lines 75-77, which just calls it). -/
def commit [CommRing R] (s : Ajtai R) (f : List R) : Res (Commitment R) :=
  if f.length ≠ s.matrix.ncols then
    .error (.wrongWitnessLength f.length s.matrix.ncols)
  else
    match s.matrix.checkedMulVec f with
    | none => .error (.wrongWitnessLength f.length s.matrix.ncols)
    | some c => .ok ⟨c⟩

end Ajtai

end Verif
