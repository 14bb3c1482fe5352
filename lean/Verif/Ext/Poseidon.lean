import Verif.Basic
import Mathlib.Data.Matrix.Mul
import Mathlib.Data.ZMod.Basic
import Mathlib.Data.Nat.Size

/-!
# Contract of `ark_crypto_primitives::sponge::poseidon` (version 0.4.0)

The crate is not in the sandbox. The definitions below are its duplex sponge as published. They are
checked against the two test vectors of `crates/latticefold/src/transcript/poseidon.rs:84-141`
(`Props/PoseidonVector.lean`).

* The state is a vector of `capacity + rate` field elements, capacity first. `PoseidonConfig::new`
  asserts the lengths of its tables, so no index is out of range.
* `absorb_internal` and `squeeze_internal` handle a block at a time; element by element is the same:
  before an element is added or read at index `rate`, the permutation is applied and the index starts
  again at 0.
* `rate = 0` makes the Rust loops run forever; every theorem assumes a positive rate.
-/

namespace Verif

variable {K : Type}

/-- `PoseidonConfig`. -/
structure PoseidonConfig (K : Type) where
  fullRounds : Nat
  partialRounds : Nat
  alpha : Nat
  mds : List (List K)
  ark : List (List K)
  rate : Nat
  capacity : Nat

/-- `PoseidonConfig::new`: asserts the lengths of the tables. -/
def PoseidonConfig.new (fullRounds partialRounds alpha : Nat) (mds ark : List (List K))
    (rate capacity : Nat) : Res (PoseidonConfig K) :=
  if ark.length ≠ fullRounds + partialRounds then .error (.panic "ark.len()")
  else if ark.any (fun r => decide (r.length ≠ rate + capacity)) then .error (.panic "ark item")
  else if mds.length ≠ rate + capacity then .error (.panic "mds.len()")
  else if mds.any (fun r => decide (r.length ≠ rate + capacity)) then .error (.panic "mds item")
  else .ok ⟨fullRounds, partialRounds, alpha, mds, ark, rate, capacity⟩

/-- `DuplexSpongeMode`. -/
inductive SpongeMode where
  | absorbing (next : Nat)
  | squeezing (next : Nat)
  deriving DecidableEq

/-- `PoseidonSponge` without its parameters, `w = capacity + rate`. -/
structure Sponge (K : Type) (w : Nat) where
  state : Fin w → K
  mode : SpongeMode

namespace PoseidonConfig

/-- Number of state elements. -/
abbrev width (c : PoseidonConfig K) : Nat := c.capacity + c.rate

section Ring
variable [CommRing K] (c : PoseidonConfig K)

/-- `parameters.mds` as a matrix. -/
def mdsMat : Matrix (Fin c.width) (Fin c.width) K := fun i j => (c.mds.getD i []).getD j 0

/-- `apply_ark`. -/
def applyArk (r : Nat) (s : Fin c.width → K) : Fin c.width → K :=
  fun i => s i + (c.ark.getD r []).getD i 0

/-- `apply_s_box`: every element in a full round, the first one in a partial round. -/
def applySBox (full : Bool) (s : Fin c.width → K) : Fin c.width → K :=
  fun i => if full ∨ i.val = 0 then s i ^ c.alpha else s i

/-- `apply_mds`. -/
def applyMds (s : Fin c.width → K) : Fin c.width → K := c.mdsMat.mulVec s

/-- One round of `permute`. -/
def round (full : Bool) (r : Nat) (s : Fin c.width → K) : Fin c.width → K :=
  c.applyMds (c.applySBox full (c.applyArk r s))

/-- Is round `r` a full round? -/
def isFull (r : Nat) : Bool :=
  decide (r < c.fullRounds / 2 ∨ c.fullRounds / 2 + c.partialRounds ≤ r)

/-- `permute`: half of the full rounds, the partial rounds, the other full rounds. -/
def permute (s : Fin c.width → K) : Fin c.width → K :=
  (List.range (c.partialRounds + c.fullRounds)).foldl (fun s r => c.round (c.isFull r) r s) s

/-- `PoseidonSponge::new`. -/
def spongeNew : Sponge K c.width := ⟨fun _ => 0, .absorbing 0⟩

/-- Add one element at the next index, permuting first if the rate is used up. -/
def absorbStep (p : (Fin c.width → K) × Nat) (x : K) : (Fin c.width → K) × Nat :=
  let q := if p.2 = c.rate then (c.permute p.1, 0) else p
  (fun j => if j.val = c.capacity + q.2 then q.1 j + x else q.1 j, q.2 + 1)

/-- `absorb`: nothing happens for an empty input; after squeezing, absorption starts at index 0
without a permutation. -/
def absorb (s : Sponge K c.width) (xs : List K) : Sponge K c.width :=
  if xs.isEmpty then s else
  let start := match s.mode with
    | .absorbing i => i
    | .squeezing _ => 0
  let q := xs.foldl c.absorbStep (s.state, start)
  ⟨q.1, .absorbing q.2⟩

/-- The state element at index `i` of the rate. -/
def rateAt (s : Fin c.width → K) (i : Nat) : K :=
  if h : c.capacity + i < c.width then s ⟨c.capacity + i, h⟩ else 0

/-- `squeeze_internal`, element by element. -/
def squeezeFrom : Nat → (Fin c.width → K) × Nat → List K × ((Fin c.width → K) × Nat)
  | 0, p => ([], p)
  | n + 1, p =>
    let q := if p.2 = c.rate then (c.permute p.1, 0) else p
    let r := squeezeFrom n (q.1, q.2 + 1)
    (c.rateAt q.1 q.2 :: r.1, r.2)

/-- `squeeze_native_field_elements`: permute if the sponge was absorbing or the rate is used up. -/
def squeeze (s : Sponge K c.width) (n : Nat) : List K × Sponge K c.width :=
  let start := match s.mode with
    | .absorbing _ => (c.permute s.state, 0)
    | .squeezing i => if i = c.rate then (c.permute s.state, 0) else (s.state, i)
  let r := c.squeezeFrom n start
  (r.1, ⟨r.2.1, .squeezing r.2.2⟩)

end Ring

section Bytes
variable {p : Nat} (c : PoseidonConfig (ZMod p))

/-- `usable_bytes = (MODULUS_BIT_SIZE - 1) / 8`. -/
def usableBytes (p : Nat) : Nat := (Nat.size p - 1) / 8

/-- `into_bigint().to_bytes_le()[..usable_bytes]`. -/
def leBytes (u : Nat) (x : Nat) : List UInt8 :=
  (List.range u).map fun k => UInt8.ofNat (x / 256 ^ k % 256)

/-- `squeeze_bytes`. -/
def squeezeBytes (s : Sponge (ZMod p) c.width) (n : Nat) : List UInt8 × Sponge (ZMod p) c.width :=
  let u := usableBytes p
  let r := c.squeeze s ((n + u - 1) / u)
  ((r.1.flatMap fun x => leBytes u x.val).take n, r.2)

end Bytes

end PoseidonConfig

end Verif
