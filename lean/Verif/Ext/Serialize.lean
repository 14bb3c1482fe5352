import Mathlib.Data.ZMod.Basic
import Mathlib.Algebra.Ring.Equiv
import Verif.Basic

/-!
# ark-serialize 0.4.2

Contract of `CanonicalSerialize` and `CanonicalDeserialize` for the types that occur in proofs: integers of fixed width are written in
little-endian order, a prime field element as the integer of its canonical representative, an array as its entries, a `Vec` as its length
(`u64`) followed by the entries. For these types `Compress` has no effect, and `Validate` checks nothing that reading does not check.
The allocation of memory is not modelled.
-/

namespace Verif.Ser

/-- `ark_serialize::SerializationError`: the input ended too early, or an integer is not the canonical representative of a field element. -/
inductive SerErr where
  | ioError
  | invalidData
  deriving DecidableEq, Repr

/-- `serialize_with_mode` appends bytes to the writer, `deserialize_with_mode` consumes bytes of the reader. -/
structure Codec (α : Type) where
  write : α → List UInt8
  read : List UInt8 → Except SerErr (α × List UInt8)

/-- The `w` lowest bytes of `x`, lowest first. -/
def leWrite : Nat → Nat → List UInt8
  | 0, _ => []
  | w + 1, x => UInt8.ofNat (x % 256) :: leWrite w (x / 256)

/-- The integer with the given bytes, lowest first. -/
def leRead : List UInt8 → Nat
  | [] => 0
  | b :: bs => b.toNat + 256 * leRead bs

/-- `Read::read_exact`. -/
def readExact (w : Nat) (bs : List UInt8) : Except SerErr (List UInt8 × List UInt8) :=
  if w ≤ bs.length then .ok (bs.take w, bs.drop w) else .error .ioError

/-- `u64`. -/
def u64 : Codec Nat where
  write := leWrite 8
  read bs := do
    let (a, bs) ← readExact 8 bs
    .ok (leRead a, bs)

/-- A prime field whose modulus `p` has `8 (w - 1) < bits ≤ 8 w` bits (`Fp::serialize_with_flags` with `EmptyFlags`). -/
def prime (p w : Nat) : Codec (ZMod p) where
  write x := leWrite w x.val
  read bs := do
    let (a, bs) ← readExact w bs
    if leRead a < p then .ok ((leRead a : ZMod p), bs) else .error .invalidData

/-- Read `n` values one after the other. -/
def readN {α : Type} (c : Codec α) : Nat → List UInt8 → Except SerErr (List α × List UInt8)
  | 0, bs => .ok ([], bs)
  | n + 1, bs => do
    let (x, bs) ← c.read bs
    let (xs, bs) ← readN c n bs
    .ok (x :: xs, bs)

/-- `[T; n]` (here: functions on `Fin n`). -/
def array {α : Type} (c : Codec α) (n : Nat) : Codec (Fin n → α) where
  write x := (List.ofFn x).flatMap c.write
  read bs := do
    let (xs, bs) ← readN c n bs
    if h : xs.length = n then .ok ((fun i => xs[i.val]), bs) else .error .invalidData

/-- A type that is serialized as another one. -/
def via {α β : Type} (c : Codec β) (f : α ≃ β) : Codec α where
  write x := c.write (f x)
  read bs := do
    let (y, bs) ← c.read bs
    .ok (f.symm y, bs)

/-- `Vec<T>`. -/
def vec {α : Type} (c : Codec α) : Codec (List α) where
  write l := u64.write l.length ++ l.flatMap c.write
  read bs := do
    let (n, bs) ← u64.read bs
    readN c n bs

end Verif.Ser
