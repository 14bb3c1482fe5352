import Verif.Model.Dummy
import Verif.Model.Nifs
import Verif.Model.PlusUtils

/-!
# Model of the set-up of the benchmarks and of the end-to-end example

`crates/latticefold/benches/utils.rs` (generation of instances, `setup_r1cs`), the table of benchmark groups in
`crates/latticefold/build.rs` and `crates/latticefold/examples/e2e.rs`. Timing, printing and the formatting of
the generated sources are not modelled. The random generator is an arbitrary state machine `rnd : G → R × G`.
-/

namespace Verif

open Plus (unwrapRes)

/-- `benches/utils.rs:33-37`, `build.rs:214-220` `enum R1CS`. -/
inductive R1CSKind where
  | scalar
  | nonScalar
  | degreeThreeNonScalar
  deriving DecidableEq, Repr

/-- The number of rows in the three generators (`benches/utils.rs:62-66, 98-102, 148-152`, `examples/e2e.rs:36-40`); `r1cs_rows - 2`
aborts on underflow. -/
def genRows (P : Params) (witLen rows : Nat) : Res Nat :=
  if P.L = 1 ∧ (witLen > 0 ∧ witLen &&& (witLen - 1) = 0) then usub "r1cs_rows - 2" rows 2 else .ok rows

/-- `arith/r1cs.rs:289-308` `get_test_dummy_z_split_ntt`. The one ring element of which the witness consists
(`0, 1, 2, ..` in the components of the NTT form) is the parameter `e`. -/
def dummyZSplitNtt {R : Type} [CommRing R] (e : R) (xLen witLen : Nat) : R × List R × List R :=
  (1, List.replicate xLen 1, List.replicate witLen e)

section Gen
variable {R : Type} [CommRing R]

/-- `benches/utils.rs:39-50` `get_test_dummy_ccs`. -/
def benchCcs [DecidableEq R] (xLen n witLen rows L : Nat) : Res (CCS R) :=
  CCS.fromR1CSPadded (dummyR1CS xLen witLen rows) n L

/-- `benches/utils.rs:122-133` `get_test_dummy_ccs_non_scalar`: `n` is passed for the length of the witness. -/
def benchCcsNonScalar [DecidableEq R] (xLen n rows L : Nat) (witness : List R) : Res (CCS R) := do
  let r1cs ← dummyR1CSNonScalar xLen n rows witness
  CCS.fromR1CSPadded r1cs n L

end Gen

section Ring
variable {Fp F C σ G : Type} {N τ : Nat} [Field Fp] [Field F] [DecidableEq F] [Algebra Fp F] [CommRing C] [Algebra Fp C]

/-- What the generators return: `(CCCS, Witness, CCS, AjtaiCommitmentScheme)`. -/
structure Instance (R C : Type) where
  cm : CCCS R
  wit : Witness R C
  ccs : CCS R
  scheme : Ajtai R

/-- The common end of the three generators (`benches/utils.rs:72-82, 109-119, 160-170`, `examples/e2e.rs:48-58`): check of the relation,
commitment scheme, witness, commitment. -/
def genFinish (rd : RingData Fp F C N τ) (P : Params) (rnd : G → (Fin N → F) × G) (rng : G) (kappa n : Nat)
    (ccs : CCS (Fin N → F)) (one : Fin N → F) (x w : List (Fin N → F)) : Res (Instance (Fin N → F) C) := do
  unwrapRes "R1CS invalid!" (ccs.checkRelation ([one] ++ x ++ w))
  let scheme := (Ajtai.rand rnd kappa n rng).1
  let wit ← Witness.fromWCcs rd P w
  let cm ← unwrapRes "commit.unwrap()" (wit.commit scheme)
  .ok ⟨⟨cm, x⟩, wit, ccs, scheme⟩

/-- `benches/utils.rs:53-83` `wit_and_ccs_gen`. -/
def witAndCcsGen (rd : RingData Fp F C N τ) (P : Params) (rnd : G → (Fin N → F) × G) (rng : G) (xLen n witLen rows kappa : Nat) :
    Res (Instance (Fin N → F) C) := do
  let rows ← genRows P witLen rows
  let ccs ← benchCcs xLen n witLen rows P.L
  let z : (Fin N → F) × List (Fin N → F) × List (Fin N → F) := dummyZSplit xLen witLen
  genFinish rd P rnd rng kappa n ccs z.1 z.2.1 z.2.2

/-- `benches/utils.rs:86-120` `wit_and_ccs_gen_non_scalar`. -/
def witAndCcsGenNonScalar (rd : RingData Fp F C N τ) (P : Params) (e : Fin N → F) (rnd : G → (Fin N → F) × G) (rng : G)
    (xLen n witLen rows kappa : Nat) : Res (Instance (Fin N → F) C) := do
  let rows ← genRows P witLen rows
  let z := dummyZSplitNtt e xLen witLen
  let ccs ← benchCcsNonScalar xLen n rows P.L ([z.1] ++ z.2.1 ++ z.2.2)
  genFinish rd P rnd rng kappa n ccs z.1 z.2.1 z.2.2

/-- `benches/utils.rs:136-171`, `examples/e2e.rs:24-59` `wit_and_ccs_gen_degree_three_non_scalar`. -/
def witAndCcsGenDegreeThree (rd : RingData Fp F C N τ) (P : Params) (e : Fin N → F) (rnd : G → (Fin N → F) × G) (rng : G)
    (xLen n witLen rows kappa : Nat) : Res (Instance (Fin N → F) C) := do
  let rows ← genRows P witLen rows
  let z := dummyZSplitNtt e xLen witLen
  let ccs ← dummyDegreeThree ([z.1] ++ z.2.1 ++ z.2.2) xLen n witLen P.L rows
  genFinish rd P rnd rng kappa n ccs z.1 z.2.1 z.2.2

/-- `benches/utils.rs:185-203` `setup_r1cs`. -/
def setupR1CS (rd : RingData Fp F C N τ) (P : Params) (e : Fin N → F) (rnd : G → (Fin N → F) × G) (rng : G)
    (xLen n witLen kappa : Nat) (t : R1CSKind) : Res (Instance (Fin N → F) C) :=
  let rows := xLen + witLen + 1
  match t with
  | .scalar => witAndCcsGen rd P rnd rng xLen n witLen rows kappa
  | .nonScalar => witAndCcsGenNonScalar rd P e rnd rng xLen n witLen rows kappa
  | .degreeThreeNonScalar => witAndCcsGenDegreeThree rd P e rnd rng xLen n witLen rows kappa

/-- `examples/e2e.rs:62-93` `setup_example_environment`, also the pattern of `nifs/tests.rs:16-56`: the accumulator is the linearization
of `cm_i` with a witness `wit_acc` to which `cm_i` does not commit. `s0` is the state of a new transcript. -/
def setupExample (rd : RingData Fp F C N τ) (P : Params) (e : Fin N → F) (rnd : G → (Fin N → F) × G) (rng : G)
    (T : Transcript F (Fin N → F) σ) (s0 : σ) (xLen n witLen kappa : Nat) :
    Res (LCCCS (Fin N → F) × Witness (Fin N → F) C × Instance (Fin N → F) C) := do
  let rows := xLen + witLen + 1
  let i ← witAndCcsGenDegreeThree rd P e rnd rng xLen n witLen rows kappa
  let witAcc ← Witness.fromWCcs rd P ((List.range witLen).map fun k : Nat => (k : Fin N → F))
  let ((acc, _), _) ← unwrapRes "Failed to generate linearization proof" (linProve T s0 i.cm witAcc i.ccs)
  .ok (acc, witAcc, i)

/-- What `main` computes: the inputs and outputs of prover and verifier. -/
structure ExampleRun (R C : Type) where
  acc : LCCCS R
  witAcc : Witness R C
  inst : Instance R C
  newAcc : LCCCS R
  newWit : Witness R C
  proof : LFProof R
  verified : LCCCS R

/-- `examples/e2e.rs:97-154` `main` (the serialization, lines 125-146, is `Ser.exampleSizes`). -/
def exampleMain (rd : RingData Fp F C N τ) (P : Params) (cs : ChallengeSet C) (e : Fin N → F) (rnd : G → (Fin N → F) × G) (rng : G)
    (T : Transcript F (Fin N → F) σ) (s0 : σ) (xLen n witLen kappa : Nat) : Res (ExampleRun (Fin N → F) C) := do
  let (acc, witAcc, i) ← setupExample rd P e rnd rng T s0 xLen n witLen kappa
  let ((st, w, proof), _) ← unwrapRes "prove.unwrap()" (nifsProve rd P cs T s0 acc witAcc i.cm i.wit i.ccs i.scheme)
  let (st', _) ← unwrapRes "verify.unwrap()" (nifsVerify rd P cs T s0 acc i.cm proof i.ccs)
  .ok ⟨acc, witAcc, i, st, w, proof, st'⟩

end Ring

/-- A call of `write_group` in `build.rs:276-386`: the name shown and the kind of instance generated. -/
structure BenchGroup where
  name : String
  kind : R1CSKind
  deriving DecidableEq, Repr

/-- `build.rs:276-386`, in order. -/
def benchGroups : List BenchGroup :=
  [⟨"Goldilocks Scalar", .scalar⟩, ⟨"Goldilocks Non Scalar", .nonScalar⟩,
   ⟨"Goldilocks Degree Three Non Scalar", .degreeThreeNonScalar⟩,
   ⟨"Stark Scalar", .degreeThreeNonScalar⟩, ⟨"Stark Non Scalar", .degreeThreeNonScalar⟩,
   ⟨"Stark Degree Three Non Scalar", .degreeThreeNonScalar⟩,
   ⟨"Frog Scalar", .degreeThreeNonScalar⟩, ⟨"Frog Non Scalar", .degreeThreeNonScalar⟩,
   ⟨"Frog Degree Three Non Scalar", .degreeThreeNonScalar⟩,
   ⟨"BabyBear Scalar", .degreeThreeNonScalar⟩, ⟨"BabyBear Non Scalar", .degreeThreeNonScalar⟩,
   ⟨"BabyBear Degree Three Non Scalar", .degreeThreeNonScalar⟩]

end Verif
