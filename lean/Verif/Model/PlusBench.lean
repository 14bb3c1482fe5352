import Verif.Model.PlusFold
import Verif.Model.PlusBound

/-!
# Model of the benchmarks of `latticefold-plus`

`crates/latticefold-plus/benches/utils/{helpers,mod}.rs` and the set-up functions of `benches/{split,setchk,rgchk,cm,lin,mlin,decomp,double_commitment,e2e}.rs`.
The random number generator is a parameter `rnd` (the numbers drawn), random commitment matrices are parameters, a fresh transcript is a
parameter `s0`. The time measurement (`criterion`) is left out. The ring `R` of the benchmarks is the Frog ring; its modulus `q` and its
dimension `d` are parameters.
-/

namespace Verif.Plus

variable {F R σ : Type} {d : Nat}

/-! ## `utils/helpers.rs` -/

/-- `helpers.rs:40-48` `DecompParams::compute`: the base `d / 2` and the number of digits `⌈log_b q⌉`. The floating-point logarithms are
modelled as the exact integer logarithm. -/
def benchDecomp (q d : Nat) : Nat × Nat := (d / 2, Nat.clog (d / 2) q)

/-- `helpers.rs:429-439` `validate_witness_params`. -/
def validateWitnessParams (q d n k kappa : Nat) : Res Unit :=
  if kappa * k * d * (benchDecomp q d).2 * d ≤ n then .ok () else .error (.panic "Invalid parameters")

/-- `helpers.rs:453-466` `get_validated_decomp_params`. -/
def validatedParams (q d k kappa n : Nat) : Res DParams := do
  let _ ← validateWitnessParams q d n k kappa
  .ok ⟨(benchDecomp q d).1, k, (benchDecomp q d).2⟩

/-- `helpers.rs:61-72` `WitnessPattern`. -/
inductive WitnessPattern (R : Type) where
  | allOnes
  | smallRandom
  | binaryChoice
  | custom (f : Nat → R)

section
variable [Field F] [CommRing R] [Algebra F R]

/-- `helpers.rs:80-99` `WitnessPattern::generate`; `rnd i` is the number drawn for entry `i`. -/
def WitnessPattern.generate (pr : PlusRing F R d) (rnd : Nat → Nat) (size : Nat) : WitnessPattern R → List R
  | .allOnes => List.replicate size 1
  | .smallRandom => (List.range size).map fun i => pr.coeff.symm (Pi.single ⟨0, pr.dpos⟩ ((rnd i % 10 : Nat) : F))
  | .binaryChoice => (List.range size).map fun i => if rnd i % 2 = 0 then 0 else 1
  | .custom f => (List.range size).map f

/-- External `SparseMatrix::identity(n)`. -/
def spIdentity (n : Nat) : SpMat R := ⟨n, n, (List.range n).map fun i => [(1, i)]⟩

/-- External `SparseMatrix::gadget_decompose(b, k)` as assumed here: every stored entry `(v, j)` becomes the `k` entries
`(v, j k), (v b, j k + 1), .., (v b^(k-1), j k + k - 1)`, so that the product with the digits of a vector is the product with the vector. -/
def spGadget (b k : Nat) (M : SpMat R) : SpMat R :=
  ⟨M.nrows, M.ncols * k, M.coeffs.map fun row => row.flatMap fun t => (List.range k).map fun j => (t.1 * (b : R) ^ j, t.2 * k + j)⟩

/-- `M.coeffs[0][0].0 = 2u128.into()`, an abort if there is no such entry. -/
def setFirst (M : SpMat R) : Res (SpMat R) :=
  match M.coeffs with
  | ((_, j) :: row) :: rows => .ok { M with coeffs := ((2, j) :: row) :: rows }
  | _ => .error (.panic "coeffs[0][0]")

/-- `helpers.rs:106-111` `R1CSBuilder`. -/
structure R1CSBuilder where
  n : Nat
  k : Nat
  b : Nat
  modifyFirst : Bool

/-- `helpers.rs:120-127` `R1CSBuilder::new`. -/
def R1CSBuilder.new (n k b : Nat) : R1CSBuilder := ⟨n, k, b, true⟩

/-- `helpers.rs:133-136` `with_first_element_modification`. -/
def R1CSBuilder.withFirst (bl : R1CSBuilder) (modify : Bool) : R1CSBuilder := { bl with modifyFirst := modify }

/-- `helpers.rs:157-160`, `176-179`: the modification of the first entries of `A` and `C`. -/
def modifyR1CS (modify : Bool) (cs : R1CS R) : Res (R1CS R) :=
  if modify then do
    let A ← setFirst cs.A
    let C ← setFirst cs.C
    .ok { cs with A := A, C := C }
  else .ok cs

/-- `self.n / self.k`, an abort for `k = 0`. -/
def R1CSBuilder.m (bl : R1CSBuilder) : Res Nat :=
  if bl.k = 0 then .error (.panic "n / k") else .ok (bl.n / bl.k)

/-- `helpers.rs:142-163` `build_decomposed_square`. -/
def R1CSBuilder.buildDecomposed (bl : R1CSBuilder) : Res (R1CS R) := do
  let m ← bl.m
  modifyR1CS bl.modifyFirst
    (r1csDecomposedSquare spGadget ⟨1, spIdentity m, spIdentity m, spIdentity m⟩ bl.n bl.b bl.k)

/-- `helpers.rs:168-182` `build_basic`. -/
def R1CSBuilder.buildBasic (bl : R1CSBuilder) : Res (R1CS R) := do
  let m ← bl.m
  modifyR1CS bl.modifyFirst ⟨1, spIdentity m, spIdentity m, spIdentity m⟩

/-- `helpers.rs:381-385` `create_test_m_matrix`. -/
def testM (n : Nat) : Res (List (SpMat R)) := do
  let m ← setFirst (spIdentity n)
  .ok [m]

/-! ## `split.rs`, `setchk.rs`, `rgchk.rs` -/

/-- `split.rs:91-94` `run_prover`: `com` is the random matrix of `split.rs:47-57`. -/
def splitBench (pr : PlusRing F R d) (q n : Nat) (com : Mat R) : Res (List F) :=
  split pr com n (benchDecomp q d).1 (benchDecomp q d).2

/-- `setchk.rs:51-62` `setup_input`: the sets and the number of variables. -/
def setchkInput (setSize numBatches : Nat) : List (MonomialSet R) × Nat :=
  (List.replicate numBatches (.matrix (spIdentity setSize)), Nat.clog 2 setSize)

variable [DecidableEq F] [DecidableEq R]

/-- `setchk.rs:69-82` `setup_proof`: the proof is checked with a fresh transcript. -/
def setchkProof (pr : PlusRing F R d) (T : Transcript F R σ) (s0 : σ) (setSize numBatches : Nat) : Res (SetOut F R) := do
  let (sets, nvars) := setchkInput setSize numBatches
  let (out, _) ← setCheck pr T s0 nvars sets []
  let _ ← setVerify pr T s0 out
  .ok out

/-- `rgchk.rs:51-66` `setup_input`. -/
def rgchkInput (pr : PlusRing F R d) (q : Nat) (rnd : Nat → Nat) (A : Mat R) (n k kappa : Nat) : Res (Rg F R) := do
  let dp ← validatedParams q d k kappa n
  let inst ← fromF pr (WitnessPattern.smallRandom.generate pr rnd n) A dp
  .ok ⟨Nat.clog 2 n, [inst], dp⟩

/-- `rgchk.rs:73-83` `setup_proof`. -/
def rgchkProof (pr : PlusRing F R d) (q : Nat) (rnd : Nat → Nat) (T : Transcript F R σ) (s0 : σ) (A : Mat R) (n k kappa : Nat) :
    Res (Dcom F R) := do
  let rg ← rgchkInput pr q rnd A n k kappa
  let (dcom, _) ← rangeCheck pr T s0 rg []
  let _ ← dcomVerify pr T s0 dcom
  .ok dcom

/-! ## `cm.rs` -/

/-- `cm.rs:55-75` `setup_input`: instance `i` has its own matrix `As i` and its own random numbers `rnd i`. -/
def cmInput (pr : PlusRing F R d) (q : Nat) (rnd : Nat → Nat → Nat) (As : Nat → Mat R) (L n k kappa : Nat) : Res (Rg F R) := do
  let dp ← validatedParams q d k kappa n
  let insts ← mapRes (fun i => fromF pr (WitnessPattern.smallRandom.generate pr (rnd i) n) (As i) dp) (List.range L)
  .ok ⟨Nat.clog 2 n, insts, dp⟩

/-- `cm.rs:82-95` `setup_proof`. -/
def cmBenchProof (pr : PlusRing F R d) (q : Nat) (rnd : Nat → Nat → Nat) (T : Transcript F R σ) (s0 : σ) (As : Nat → Mat R) (L n k kappa : Nat) :
    Res (Com R × CmProof F R) := do
  let rg ← cmInput pr q rnd As L n k kappa
  let M ← testM n
  let ((com, proof), _) ← cmProve pr T s0 rg M
  let _ ← cmVerify pr T s0 M proof
  .ok (com, proof)

/-! ## `mlin.rs`, `lin.rs` -/

/-- `mlin.rs:80-91`: the vector of instance `i`. -/
def mlinWitness (pr : PlusRing F R d) (rnd : Nat → Nat) (m i : Nat) : List R :=
  if i = 0 then WitnessPattern.allOnes.generate pr rnd m
  else (WitnessPattern.custom fun j => if j = 0 then ((i % 10 : Nat) : R) else 1).generate pr rnd m

/-- `mlin.rs:64-76`, `92`: the committed R1CS number `i`. -/
def mlinComR1CS (pr : PlusRing F R d) (rnd : Nat → Nat) (A : Mat R) (n k B i : Nat) : Res (ComR1CS R) := do
  let r1cs ← (R1CSBuilder.new n k B).buildDecomposed
  ComR1CS.new pr r1cs (mlinWitness pr rnd (n / k) i) 1 B k A

/-- `mlin.rs:63-98` `setup_input`: all instances are linearized with one transcript, the proofs are dropped. -/
def mlinInput (pr : PlusRing F R d) (q : Nat) (rnd : Nat → Nat) (T : Transcript F R σ) (s0 : σ) (A : Mat R) (L n k kappa B : Nat) :
    Res (List (LinB R) × LinParams) := do
  let dp ← validatedParams q d k kappa n
  let comps ← mapRes (mlinComR1CS pr rnd A n k B) (List.range L)
  let ((lins, _), _) ← linearizeAll (fun s c => ComR1CS.linearize T s c) comps s0
  .ok (lins, ⟨kappa, dp⟩)

/-- `mlin.rs:105-126` `setup_proof`: a second matrix `A2` is drawn for the fold. -/
def mlinProof (pr : PlusRing F R d) (q : Nat) (rnd : Nat → Nat) (T : Transcript F R σ) (s0 : σ) (A A2 : Mat R) (L n k kappa B : Nat) :
    Res (LinB2 R × CmProof F R) := do
  let (lins, params) ← mlinInput pr q rnd T s0 A L n k kappa B
  let M ← testM n
  let ((lb, proof), _) ← mlin pr T s0 params lins A2 M
  let _ ← cmVerify pr T s0 M proof
  .ok (lb, proof)

/-- `lin.rs:59-73` `setup_input` and `lin.rs:80-106` `setup_proof`: one instance, all entries one. -/
def linProof (pr : PlusRing F R d) (q : Nat) (rnd : Nat → Nat) (T : Transcript F R σ) (s0 : σ) (A A2 : Mat R) (n k kappa B : Nat) :
    Res (LinB2 R × CmProof F R) := do
  let dp ← validatedParams q d k kappa n
  let r1cs ← (R1CSBuilder.new n k B).buildDecomposed
  let c ← ComR1CS.new pr r1cs (WitnessPattern.allOnes.generate pr rnd (n / k)) 1 B k A
  let ((linb, _), _) ← c.linearize T s0
  let M ← testM n
  let ((lb, proof), _) ← lin pr T s0 ⟨kappa, dp⟩ linb A2 M
  let _ ← cmVerify pr T s0 M proof
  .ok (lb, proof)

/-! ## `decomp.rs` -/

/-- `decomp.rs:57-84` `setup_input`, `decomp.rs:97-115`: the input `(f, r, M)` of the decomposition, the commitment and the evaluations. The value returned by
`verify` is dropped. -/
def decompInput (pr : PlusRing F R d) (rnd : Nat → Nat) (T : Transcript F R σ) (s0 : σ) (A : Mat R) (n k B : Nat) :
    Res ((List R × List (R × R) × List (SpMat R)) × List R × List (R × R)) := do
  let basic ← (R1CSBuilder.new n k B).buildBasic
  let c ← ComR1CS.new pr (r1csDecomposedSquare spGadget basic n B k) (WitnessPattern.allOnes.generate pr rnd (n / k)) 1 B k A
  let ((linb, lproof), _) ← c.linearize T s0
  let _ ← lproof.verify T s0
  .ok ((c.f, lproof.r.map fun x => (x, x), c.matrices), c.cmF, linb.x.v)

/-- `decomp.rs:145-150`, `160-162`: the measured prover, with a second matrix `A2`. -/
def decompBenchProver (pr : PlusRing F R d) (rnd : Nat → Nat) (T : Transcript F R σ) (s0 : σ) (A A2 : Mat R) (n k B : Nat) :
    Res ((LinB R × LinB R) × DecompProof R) := do
  let ((f, r, M), _, _) ← decompInput pr rnd T s0 A n k B
  decompose pr f r M A2 B

/-- `decomp.rs:91-123` `setup_proof`. -/
def decompBenchProof (pr : PlusRing F R d) (rnd : Nat → Nat) (T : Transcript F R σ) (s0 : σ) (A : Mat R) (n k B : Nat) :
    Res ((LinB R × LinB R) × DecompProof R) := do
  let ((f, r, M), cmF, v) ← decompInput pr rnd T s0 A n k B
  let (ls, proof) ← decompose pr f r M A B
  let _ ← decompVerify proof cmF v B
  .ok (ls, proof)

/-! ## `e2e.rs`, `double_commitment.rs` -/

/-- `e2e.rs:69-72`, `125-128`: the bound. -/
noncomputable def e2eBound (d L k : Nat) : Nat := estimateBound (d * 128) L d k / 2

/-- `e2e.rs:66-90`: the committed R1CS. -/
noncomputable def e2eComR1CS (pr : PlusRing F R d) (rnd : Nat → Nat) (A : Mat R) (n L k : Nat) : Res (ComR1CS R) := do
  let r1cs ← (R1CSBuilder.new n k (e2eBound d L k)).buildDecomposed
  ComR1CS.new pr r1cs (WitnessPattern.binaryChoice.generate pr rnd (n / k)) 1 (e2eBound d L k) k A

/-- `e2e.rs:70-84`, `94`: the parameters, not validated. -/
noncomputable def e2eParams (q d L k kappa : Nat) : PlusParams :=
  ⟨⟨kappa, ⟨d / 2, k, Nat.clog (d / 2) q⟩⟩, e2eBound d L k⟩

/-- `e2e.rs:60-100` `setup_input`, `e2e.rs:118-120` and the verification of `e2e.rs:219-222`: one call of the prover for `L` copies of the
committed R1CS, whose proof a new verifier checks. -/
noncomputable def e2eRun (pr : PlusRing F R d) (q : Nat) (rnd : Nat → Nat) (T : Transcript F R σ) (s0 : σ) (A : Mat R) (n L k kappa : Nat) :
    Res (Bool × List (LinB R)) := do
  let c ← e2eComR1CS pr rnd A n L k
  let (proof, acc, _) ← plusProve pr T (fun s c => ComR1CS.linearize T s c) A c.matrices (e2eParams q d L k kappa) [] s0 (List.replicate L c)
  let (ok, _) ← plusVerify pr T (fun s p => ComR1CSProof.verify T s p) c.matrices (e2eParams q d L k kappa) s0 proof
  .ok (ok, acc)

/-- `double_commitment.rs:53-82` `setup_input` and `double_commitment.rs:116-118` `run_prover`. -/
noncomputable def dcBench (pr : PlusRing F R d) (q : Nat) (rnd : Nat → Nat) (A : Mat R) (n L k : Nat) : Res (RgInstance F R) := do
  let c ← e2eComR1CS pr rnd A n L k
  fromF pr c.f A ⟨d / 2, k, Nat.clog (d / 2) q⟩

end

/-! ## `utils/mod.rs`: the parameter sets -/

/-- `mod.rs:26-32`, `40-41`, `49-50` `range_check`: `(n, k, kappa)`. -/
def tableRange : List (Nat × Nat × Nat) :=
  [(32768, 2, 2), (65536, 2, 2), (131072, 2, 2), (262144, 2, 2), (524288, 2, 2),
   (65536, 2, 2), (65536, 3, 2), (65536, 4, 2), (65536, 5, 2),
   (65536, 2, 2), (65536, 2, 3), (65536, 2, 4), (65536, 2, 5)]

/-- `mod.rs:64` `set_check` and `setchk.rs:204-206`: `(set_size, num_batches)`. -/
def tableSet : List (Nat × Nat) :=
  [(256, 1), (512, 1), (1024, 1), (512, 2), (512, 4), (512, 1), (512, 2), (512, 4), (512, 8), (512, 16)]

/-- `mod.rs:78-79`, `87-92`, `100-105` `split`: `(n, k, kappa)`. -/
def tableSplit : List (Nat × Nat × Nat) :=
  [(16384, 2, 1), (32768, 4, 2), (65536, 6, 3), (131072, 8, 4),
   (131072, 2, 2), (131072, 4, 2), (131072, 6, 2), (131072, 8, 2),
   (131072, 4, 1), (131072, 4, 2), (131072, 4, 3), (131072, 4, 4)]

/-- `mod.rs:141-149`, `158-162`, `170-174`, `182-187` `multilinear_fold`: `(L, n, k, kappa, B)`. -/
def tableMlin : List (Nat × Nat × Nat × Nat × Nat) :=
  [(2, 65536, 2, 2, 50), (3, 65536, 2, 2, 50), (4, 65536, 2, 2, 50), (5, 65536, 2, 2, 50), (6, 65536, 2, 2, 50), (7, 65536, 2, 2, 50),
   (8, 65536, 2, 2, 50),
   (4, 65536, 2, 2, 50), (4, 98304, 3, 2, 50), (4, 131072, 4, 2, 50),
   (4, 131072, 2, 2, 50), (4, 262144, 2, 2, 50), (4, 524288, 2, 2, 50),
   (4, 65536, 2, 2, 50), (4, 65536, 2, 3, 50), (4, 65536, 2, 4, 50), (4, 65536, 2, 5, 50)]

/-- `mod.rs:201-202` `single_instance_fold`: `(n, k, kappa, B)`. -/
def tableLin : List (Nat × Nat × Nat × Nat) := [(32768, 2, 2, 50), (65536, 2, 2, 50), (131072, 2, 2, 50)]

/-- `mod.rs:119-127` `commitment_transform`: `(L, n, k, kappa)`. -/
def tableCm : List (Nat × Nat × Nat × Nat) :=
  [(2, 65536, 2, 2), (3, 65536, 2, 2), (4, 65536, 2, 2), (5, 65536, 2, 2), (6, 65536, 2, 2), (7, 65536, 2, 2), (8, 65536, 2, 2)]

/-- `mod.rs:216-217` `decomposition`: `(n, k, kappa, B)`. -/
def tableDecomp : List (Nat × Nat × Nat × Nat) := [(32768, 2, 2, 50), (65536, 2, 2, 50), (131072, 2, 2, 50)]

/-- `mod.rs:240-244`, `255-258` `double_commitment`: `(n, L, k, kappa)`. -/
def tableDc : List (Nat × Nat × Nat × Nat) :=
  [(32768, 3, 2, 2), (65536, 3, 4, 2), (131072, 3, 4, 2), (65536, 3, 2, 2), (65536, 3, 4, 2)]

/-- `mod.rs:282-286`, `296-301` `e2e`: `(n, L, k, kappa)`. -/
def tableE2E : List (Nat × Nat × Nat × Nat) :=
  [(65536, 2, 4, 2), (65536, 3, 4, 2), (131072, 3, 4, 2), (65536, 2, 4, 2), (65536, 3, 4, 2), (65536, 4, 4, 2), (65536, 5, 4, 2)]

end Verif.Plus
