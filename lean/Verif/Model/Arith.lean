import Verif.Model.Commitment
import Mathlib.Data.Nat.Log

/-!
# Model of `crates/latticefold/src/arith.rs`, `arith/utils.rs`, `arith/r1cs.rs`
-/

namespace Verif

variable {R : Type}

/-! ## `arith/utils.rs` -/

section Utils
variable [CommRing R]

/-- `arith/utils.rs:24-34` `vec_add`. -/
def vecAdd (a b : List R) : Res (List R) :=
  if a.length ≠ b.length then .error (.lengthsNotEqual a.length b.length)
  else .ok (List.zipWith (· + ·) a b)

/-- `arith/utils.rs:36-38` `vec_scalar_mul`. -/
def vecScalarMul (v : List R) (c : R) : List R := v.map (· * c)

/-- `arith/utils.rs:40-50` `hadamard`. -/
def hadamard (a b : List R) : Res (List R) :=
  if a.length ≠ b.length then .error (.lengthsNotEqual a.length b.length)
  else .ok (List.zipWith (· * ·) a b)

/-- One row of `mat_vec_mul`, `arith/utils.rs:63`:
`row.iter().map(|(value, col_i)| *value * z[*col_i]).sum()`; `z[..]` may abort. -/
def rowMul (row : List (R × Nat)) (z : List R) : Res R :=
  match mapRes (fun t => match idx "mat_vec_mul" z t.2 with
      | .error e => .error e
      | .ok v => .ok (t.1 * v)) row with
  | .error e => .error e
  | .ok l => .ok l.sum

/-- `arith/utils.rs:52-65` `mat_vec_mul`. -/
def matVecMul (M : SpMat R) (z : List R) : Res (List R) :=
  if M.ncols ≠ z.length then .error (.lengthsNotEqual M.ncols z.length)
  else mapRes (fun row => rowMul row z) M.coeffs

/-- `iter().position(p).map_or(Ok(()), |i| Err(NotSatisfied(i)))`
(`r1cs.rs:36-39`, `r1cs.rs:97-100`, `arith.rs:101-104`). -/
def failAtFirst {α : Type} (p : α → Bool) (l : List α) : Res Unit :=
  match l.findIdx? p with
  | none => .ok ()
  | some i => .error (.notSatisfied i)

end Utils

/-! ## `arith/r1cs.rs` -/

/-- `arith/r1cs.rs:16-25` `R1CS`. -/
structure R1CS (R : Type) where
  l : Nat
  A : SpMat R
  B : SpMat R
  C : SpMat R
  deriving DecidableEq

/-- `arith/r1cs.rs:71-84` `RelaxedR1CS`. -/
structure RelaxedR1CS (R : Type) where
  l : Nat
  A : SpMat R
  B : SpMat R
  C : SpMat R
  u : R
  E : List R

section R1CS
variable [CommRing R] [DecidableEq R]

/-- `arith/r1cs.rs:29-40` `R1CS::check_relation`. -/
def R1CS.checkRelation (cs : R1CS R) (z : List R) : Res Unit := do
  let Az ← matVecMul cs.A z
  let Bz ← matVecMul cs.B z
  let Cz ← matVecMul cs.C z
  let AzBz ← hadamard Az Bz
  failAtFirst (fun p : R × R => decide (p.1 ≠ p.2)) (AzBz.zip Cz)

/-- `arith/r1cs.rs:44-53` `relax`. -/
def R1CS.relax (cs : R1CS R) : RelaxedR1CS R :=
  { l := cs.l, E := List.replicate cs.A.nrows 0, A := cs.A, B := cs.B, C := cs.C, u := 1 }

/-- `arith/r1cs.rs:88-101` `RelaxedR1CS::check_relation`. -/
def RelaxedR1CS.checkRelation (cs : RelaxedR1CS R) (z : List R) : Res Unit := do
  let Az ← matVecMul cs.A z
  let Bz ← matVecMul cs.B z
  let Cz ← matVecMul cs.C z
  let uCz := vecScalarMul Cz cs.u
  let uCzE ← vecAdd uCz cs.E
  let AzBz ← hadamard Az Bz
  failAtFirst (fun p : R × R => decide (p.1 ≠ p.2)) (AzBz.zip uCzE)

/-- `arith/r1cs.rs:310-314` `LinearCombination`. -/
structure LinComb (R : Type) where
  terms : List (R × Nat)
  deriving DecidableEq

/-- `arith/r1cs.rs:324-326` `LinearCombination::new`. -/
def LinComb.new : LinComb R := ⟨[]⟩

/-- `arith/r1cs.rs:329-333` `single_term`. -/
def LinComb.singleTerm (c : R) (i : Nat) : LinComb R := ⟨[(c, i)]⟩

/-- `arith/r1cs.rs:336-339` `add_term`. -/
def LinComb.addTerm (lc : LinComb R) (c : R) (i : Nat) : LinComb R := ⟨lc.terms ++ [(c, i)]⟩

/-- `arith/r1cs.rs:342-345` `add_terms`: pushes the terms one by one. -/
def LinComb.addTerms (lc : LinComb R) (ts : List (R × Nat)) : LinComb R :=
  ⟨ts.foldl (fun acc t => acc ++ [t]) lc.terms⟩

/-- `arith/r1cs.rs:348-352` `evaluate`: left fold, aborting on an index out of range. -/
def LinComb.evaluate (lc : LinComb R) (assignment : List R) : Res R :=
  foldRes (fun acc t => match idx "evaluate" assignment t.2 with
    | .error e => .error e
    | .ok v => .ok (acc + t.1 * v)) 0 lc.terms

/-- `arith/r1cs.rs:355-357` `is_valid`. -/
def LinComb.isValid (lc : LinComb R) (nvars : Nat) : Bool :=
  lc.terms.all fun t => decide (t.2 < nvars)

/-- `arith/r1cs.rs:362-369` `Constraint`. -/
structure Constraint (R : Type) where
  a : LinComb R
  b : LinComb R
  c : LinComb R
  deriving DecidableEq

/-- `arith/r1cs.rs:380-389` `ConstraintSystem` (the variable map is modelled separately,
`VariableMap` below, and does not influence any of the functions here). -/
structure ConstraintSystem (R : Type) where
  ninputs : Nat
  nauxs : Nat
  constraints : List (Constraint R)
  deriving DecidableEq

namespace ConstraintSystem

/-- `arith/r1cs.rs:399-406` `new`. -/
def new : ConstraintSystem R := ⟨0, 0, []⟩

/-- `arith/r1cs.rs:409-411` `nvars`. -/
def nvars (cs : ConstraintSystem R) : Nat := cs.ninputs + cs.nauxs

/-- `arith/r1cs.rs:419-422` `add_constraint`. -/
def addConstraint (cs : ConstraintSystem R) (c : Constraint R) : ConstraintSystem R :=
  { cs with constraints := cs.constraints ++ [c] }

/-- `arith/r1cs.rs:425-440` `is_valid`. -/
def isValid (cs : ConstraintSystem R) : Bool :=
  if cs.ninputs > cs.nvars then false
  else cs.constraints.all fun c =>
    c.a.isValid cs.nvars && c.b.isValid cs.nvars && c.c.isValid cs.nvars

/-- The `try_for_each` loop of `is_satisfied`, `arith/r1cs.rs:467-480`, from constraint `i` on. -/
def satisfiedFrom (z : List R) : Nat → List (Constraint R) → Res Unit
  | _, [] => .ok ()
  | i, c :: cs => do
    let a ← c.a.evaluate z
    let b ← c.b.evaluate z
    let cc ← c.c.evaluate z
    if a * b ≠ cc then .error (.notSatisfied i)
    else satisfiedFrom z (i + 1) cs

/-- `arith/r1cs.rs:443-481` `is_satisfied`. -/
def isSatisfied (cs : ConstraintSystem R) (primary aux : List R) : Res Unit :=
  if primary.length ≠ cs.ninputs then
    .error (.lengthsNotEqual primary.length cs.ninputs)
  else if primary.length + aux.length ≠ cs.nvars then
    .error (.lengthsNotEqual (primary.length + aux.length) cs.nvars)
  else satisfiedFrom (primary ++ aux) 0 cs.constraints

/-- `touched[i] = true`, aborting out of bounds (`arith/r1cs.rs:491,494`). -/
def touch (t : List Bool) (i : Nat) : Res (List Bool) :=
  if i < t.length then .ok (t.set i true) else .error (.panic "swap_AB_if_beneficial")

/-- `arith/r1cs.rs:484-507` `swap_AB_if_beneficial`. -/
def swapABIfBeneficial (cs : ConstraintSystem R) : Res (ConstraintSystem R) := do
  let init : List Bool := List.replicate (cs.nvars + 1) false
  let (ta, tb) ← foldRes (fun (p : List Bool × List Bool) (c : Constraint R) => do
      let ta ← foldRes (fun t term => touch t term.2) p.1 c.a.terms
      let tb ← foldRes (fun t term => touch t term.2) p.2 c.b.terms
      .ok (ta, tb)) (init, init) cs.constraints
  let na := (ta.filter fun x => x).length
  let nb := (tb.filter fun x => x).length
  if nb > na then
    .ok { cs with constraints := cs.constraints.map fun c => { c with a := c.b, b := c.a } }
  else .ok cs

/-- `arith/r1cs.rs:510-552` `to_r1cs`: row `i` holds the terms of constraint `i` in order. -/
def toR1CS (cs : ConstraintSystem R) : R1CS R :=
  let n := cs.constraints.length
  { l := cs.ninputs
    A := ⟨n, cs.nvars, cs.constraints.map (·.a.terms)⟩
    B := ⟨n, cs.nvars, cs.constraints.map (·.b.terms)⟩
    C := ⟨n, cs.nvars, cs.constraints.map (·.c.terms)⟩ }

end ConstraintSystem

end R1CS

/-- `arith/r1cs.rs:556-560` `VariableMap`; the `BTreeMap` is an association list without
duplicate keys, kept in insertion order (iteration order is not modelled). -/
structure VariableMap where
  map : List (String × (Nat × Nat))
  one : Nat
  totalLen : Nat

namespace VariableMap

/-- `arith/r1cs.rs:569-575` `new`. -/
def new : VariableMap := ⟨[], 0, 1⟩

/-- `arith/r1cs.rs:577-580` `add`: `BTreeMap::insert` replaces an existing entry; the length is
added in both cases. -/
def add (m : VariableMap) (name : String) (index len : Nat) : VariableMap :=
  { m with
    map := (name, (index, len)) :: m.map.filter (fun e => decide (e.1 ≠ name))
    totalLen := m.totalLen + len }

/-- `arith/r1cs.rs:582-584` `get`. -/
def get (m : VariableMap) (name : String) : Option (Nat × Nat) := m.map.lookup name

/-- `arith/r1cs.rs:586-589` `set_one`. -/
def setOne (m : VariableMap) (i : Nat) : VariableMap × Nat := ({ m with one := i }, i)

/-- `arith/r1cs.rs:591-593` `get_one`. -/
def getOne (m : VariableMap) : Nat := m.one

end VariableMap

/-! ## `arith.rs` -/

/-- `arith.rs:51-74` `CCS`. -/
structure CCS (R : Type) where
  m : Nat
  n : Nat
  l : Nat
  t : Nat
  q : Nat
  d : Nat
  s : Nat
  s_prime : Nat
  M : List (SpMat R)
  S : List (List Nat)
  c : List R
  deriving DecidableEq

/-- `Vec::resize(len, x)`. -/
def resize {α : Type} (l : List α) (len : Nat) (x : α) : List α :=
  l.take len ++ List.replicate (len - l.length) x

/-- `usize::next_power_of_two` (overflow not modelled): least power of two that is at least `n`. -/
def nextPow2 (n : Nat) : Nat := 2 ^ Nat.clog 2 n

/-- `ark_std::log2`: ceiling of the base-2 logarithm (0 for 0 and 1). -/
def arkLog2 (n : Nat) : Nat := Nat.clog 2 n

namespace CCS

section
variable [CommRing R] [DecidableEq R]

/-- The hadamard chain of `check_relation`, `arith.rs:86-91`. -/
def hadamardChain (m : Nat) (z : List R) (Ms : List (SpMat R)) : Res (List R) :=
  foldRes (fun acc M => do
    let res ← matVecMul M z
    hadamard acc (resize res m 0)) (List.replicate m 1) Ms

/-- `arith.rs:78-105` `CCS::check_relation`. -/
def checkRelation (ccs : CCS R) (z : List R) : Res Unit := do
  let result ← foldRes (fun result i => do
      let Si ← idx "check_relation.S" ccs.S i
      let Ms ← mapRes (fun j => idx "check_relation.M" ccs.M j) Si
      let had ← hadamardChain ccs.m z Ms
      let ci ← idx "check_relation.c" ccs.c i
      vecAdd result (vecScalarMul had ci)) (List.replicate ccs.m 0) (List.range ccs.q)
  failAtFirst (fun x : R => decide (x ≠ 0)) result

/-- `arith.rs:122-140` `from_r1cs`. -/
def fromR1CS (cs : R1CS R) (W : Nat) : CCS R :=
  { m := W, n := cs.A.ncols, l := cs.l, s := arkLog2 W, s_prime := arkLog2 cs.A.ncols
    t := 3, q := 2, d := 2
    S := [[0, 1], [2]]
    c := [1, -1]
    M := [cs.A, cs.B, cs.C] }

/-- `arith.rs:162-171` `pad_rows_to`. -/
def padRowsTo (ccs : CCS R) (size0 : Nat) : CCS R :=
  let size := nextPow2 size0
  if size > ccs.m then
    { ccs with m := size, s := arkLog2 size, M := ccs.M.map (·.padRows size) }
  else ccs

/-- `arith.rs:144-149` `from_r1cs_padded`; `ccs.n - ccs.l - 1` aborts on underflow. -/
def fromR1CSPadded (cs : R1CS R) (W L : Nat) : Res (CCS R) := do
  let ccs := fromR1CS cs W
  let a ← usub "from_r1cs_padded" ccs.n ccs.l
  let a ← usub "from_r1cs_padded" a 1
  .ok (ccs.padRowsTo (nextPow2 (max (a * L) ccs.m)))

/-- `arith.rs:153-160` `to_r1cs`; indexing `M` may abort. -/
def toR1CS (ccs : CCS R) : Res (R1CS R) := do
  let A ← idx "to_r1cs" ccs.M 0
  let B ← idx "to_r1cs" ccs.M 1
  let C ← idx "to_r1cs" ccs.M 2
  .ok ⟨ccs.l, A, B, C⟩

end

/-- `usize::to_le_bytes` on a 64-bit platform (the value is taken modulo `2^64`). -/
def leBytes8 (x : Nat) : List UInt8 := (List.range 8).map fun i => UInt8.ofNat (x / 256 ^ i)

/-- `arith.rs:107-117` `params_to_le_bytes`. -/
def paramsToLeBytes (ccs : CCS R) : List UInt8 :=
  leBytes8 ccs.l ++ leBytes8 ccs.m ++ leBytes8 ccs.n ++ leBytes8 ccs.t ++ leBytes8 ccs.q
    ++ leBytes8 ccs.d

end CCS

/-- `arith.rs:180-185` `CCCS`. -/
structure CCCS (R : Type) where
  cm : Commitment R
  x_ccs : List R
  deriving DecidableEq

/-- `arith.rs:193-206` `LCCCS`. -/
structure LCCCS (R : Type) where
  r : List R
  v : List R
  cm : Commitment R
  u : List R
  x_w : List R
  h : R
  deriving DecidableEq

/-- `arith.rs:400-408` `CCCS::get_z_vector`. -/
def CCCS.getZ [One R] (cm : CCCS R) (w : List R) : List R := (cm.x_ccs ++ [1]) ++ w

/-- `arith.rs:412-420` `LCCCS::get_z_vector`. -/
def LCCCS.getZ (cm : LCCCS R) (w : List R) : List R := (cm.x_w ++ [cm.h]) ++ w

/-- `nifs.rs:165-173` `sanity_check` (identical copies: `nifs/decomposition.rs:295-303`,
`nifs/folding.rs:372-380`): aborts on `usize` underflow in `n - l - 1`. -/
def sanityCheck (ccs : CCS R) (L : Nat) : Res Unit := do
  let a ← usub "sanity_check" ccs.n ccs.l
  let a ← usub "sanity_check" a 1
  if ccs.m ≠ nextPow2 (max (a * L) ccs.m) then .error (.invalidSizeBounds ccs.m ccs.n L)
  else .ok ()

end Verif
