import Verif.Model.Arith

/-!
# Model of the generators of test instances

The public generators of `crates/latticefold/src/arith/{r1cs,ccs}.rs`.
-/

namespace Verif

variable {R : Type} [CommRing R]

/-- `arith/r1cs.rs:188-201` `create_dummy_identity_sparse_matrix`. -/
def dummyIdentity (rows columns : Nat) : SpMat R :=
  ⟨rows, columns, (List.range rows).map fun i => [(1, i)]⟩

/-- `arith/r1cs.rs:204-223` `create_dummy_squaring_sparse_matrix`; the assertion is an explicit error. -/
def dummySquaring (rows columns : Nat) (witness : List R) : Res (SpMat R) :=
  if rows ≠ witness.length then .error (.panic "Length of witness vector must be equal to ccs width")
  else do
    let coeffs ← mapRes (fun i => do
      let w ← idx "witness[i]" witness i
      .ok [(w, i)]) (List.range rows)
    .ok ⟨rows, columns, coeffs⟩

/-- `arith/ccs.rs:145-164` `create_dummy_cubing_sparse_matrix`. -/
def dummyCubing (rows columns : Nat) (witness : List R) : Res (SpMat R) :=
  if rows ≠ witness.length then .error (.panic "Length of witness vector must be equal to ccs width")
  else do
    let coeffs ← mapRes (fun i => do
      let w ← idx "witness[i]" witness i
      .ok [(w * w, i)]) (List.range rows)
    .ok ⟨rows, columns, coeffs⟩

/-- `arith/r1cs.rs:155-166` `get_test_dummy_r1cs`. -/
def dummyR1CS (xLen witLen rows : Nat) : R1CS R :=
  let A := dummyIdentity rows (xLen + witLen + 1)
  ⟨1, A, A, A⟩

/-- `arith/r1cs.rs:170-186` `get_test_dummy_r1cs_non_scalar`. -/
def dummyR1CSNonScalar (xLen witLen rows : Nat) (witness : List R) : Res (R1CS R) := do
  let A := dummyIdentity rows (xLen + witLen + 1)
  let C ← dummySquaring rows (xLen + witLen + 1) witness
  .ok ⟨1, A, A, C⟩

/-- `arith/ccs.rs:14-43` `get_test_dummy_degree_three_ccs_non_scalar`; `ccs.n - ccs.l - 1` aborts on
underflow. -/
def dummyDegreeThree (witness : List R) (xLen n witLen L nRows : Nat) : Res (CCS R) := do
  let A := dummyIdentity nRows (xLen + witLen + 1)
  let D ← dummyCubing nRows (xLen + witLen + 1) witness
  let ccs : CCS R :=
    { m := n, n := xLen + witLen + 1, l := 1, t := 4, q := 2, d := 3, s := arkLog2 n
      s_prime := xLen + witLen + 1, M := [A, A, A, D], S := [[0, 1, 2], [3]], c := [1, -1] }
  let a ← usub "ccs.n - ccs.l" ccs.n ccs.l
  let a ← usub "ccs.n - ccs.l - 1" a 1
  .ok (ccs.padRowsTo (nextPow2 (max (a * L) ccs.m)))

/-- `arith/r1cs.rs:279-285` `get_test_dummy_z_split`. -/
def dummyZSplit (xLen witLen : Nat) : R × List R × List R :=
  (1, List.replicate xLen 1, List.replicate witLen 1)

end Verif
