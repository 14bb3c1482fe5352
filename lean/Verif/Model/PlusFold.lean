import Verif.Model.PlusCm
import Verif.Model.Arith

/-!
# Model of `crates/latticefold-plus/src/{lin,mlin,decomp,r1cs,plus}.rs`
-/

namespace Verif.Plus

variable {F R σ L P : Type} {d : Nat}

/-! ## `lin.rs`, `mlin.rs` -/

/-- `lin.rs:29-34` `LinBX`. -/
structure LinBX (R : Type) where
  cmF : List R
  r : List (R × R)
  v : List (R × R)
  deriving DecidableEq

/-- `lin.rs:36-40` `LinB`. -/
structure LinB (R : Type) where
  f : List R
  x : LinBX R
  deriving DecidableEq

/-- `lin.rs:23-27` `LinParameters`. -/
structure LinParams where
  kappa : Nat
  decomp : DParams
  deriving DecidableEq

/-- `mlin.rs:21-26` `LinB2X`. -/
structure LinB2X (R : Type) where
  cmG : List R
  ro : List (R × R)
  vo : List (R × R)
  deriving DecidableEq

/-- `mlin.rs:28-32` `LinB2`. -/
structure LinB2 (R : Type) where
  g : List R
  x : LinB2X R
  deriving DecidableEq

section
variable [Field F] [CommRing R] [Algebra F R]

/-- `mlin.rs:66-75`, `98-103`: sum of vectors, accumulated in `n` slots by `zip`. -/
def sumVecs (n : Nat) (vs : List (List R)) : List R :=
  vs.foldl (fun acc v => zipAssign (· + ·) acc v) (List.replicate n 0)

/-- `mlin.rs:77-90`: sum of lists of pairs; `acc[i]` aborts when a list is longer than the first. -/
def sumPairs (n : Nat) (vs : List (List (R × R))) : Res (List (R × R)) :=
  foldRes (fun acc v =>
    if v.length ≤ acc.length then .ok (zipAssign (fun a x => (a.1 + x.1, a.2 + x.2)) acc v)
    else .error (.panic "acc[i]")) (List.replicate n (0, 0)) vs

/-- `mlin.rs:42-105` `Mlin::mlin`. -/
def mlin (pr : PlusRing F R d) (T : Transcript F R σ) (s : σ) (params : LinParams)
    (lins : List (LinB R)) (A : Mat R) (M : List (SpMat R)) :
    Res ((LinB2 R × CmProof F R) × σ) := do
  let lin0 ← idx "lins[0]" lins 0
  let n := lin0.f.length
  let instances ← mapRes (fun lin : LinB R => fromF pr lin.f A params.decomp) lins
  let rg : Rg F R := ⟨Nat.clog 2 n, instances, params.decomp⟩
  let ((com, proof), s) ← cmProve pr T s rg M
  let cmG := sumVecs params.kappa com.x.cmG
  let vo0 ← idx "com.x.vo[0]" com.x.vo 0
  let vo ← sumPairs vo0.length com.x.vo
  let g := sumVecs n com.g
  .ok ((⟨g, ⟨cmG, com.x.ro, vo⟩⟩, proof), s)

/-- `lin.rs:50-63` `LinB::lin`. -/
def lin (pr : PlusRing F R d) (T : Transcript F R σ) (s : σ) (params : LinParams)
    (l : LinB R) (A : Mat R) (M : List (SpMat R)) : Res ((LinB2 R × CmProof F R) × σ) :=
  mlin pr T s params [l] A M

/-! ## `decomp.rs` -/

/-- `decomp.rs:20-25` `DecompProof`. -/
structure DecompProof (R : Type) where
  C : List R × List R
  v : List (R × R) × List (R × R)
  deriving DecidableEq

/-- `decomp.rs:38-68` `vi_calc`. -/
def viCalc (nvars : Nat) (r : List (R × R)) (M : List (SpMat R)) (Fi : List R) :
    Res (List (R × R)) := do
  let ra := r.map (·.1)
  let rb := r.map (·.2)
  let a ← evalVec nvars Fi ra
  let b ← evalVec nvars Fi rb
  let vs ← mapRes (fun m : SpMat R => do
    let w ← m.tryMulVec Fi
    let a ← evalVec nvars w ra
    let b ← evalVec nvars w rb
    .ok (a, b)) M
  .ok ((a, b) :: vs)

/-- `decomp.rs:34`: `self.f.decompose_to_vec(B, 2).transpose()`. -/
def decTwo (pr : PlusRing F R d) (B : Nat) (f : List R) : Res (List (List R)) := do
  let ds ← mapRes (pr.dec B 2) f
  .ok (@transposeL R ⟨0⟩ ds)

/-- `decomp.rs:32-98` `Decomp::decompose`. -/
def decompose (pr : PlusRing F R d) (f : List R) (r : List (R × R)) (M : List (SpMat R))
    (A : Mat R) (B : Nat) : Res ((LinB R × LinB R) × DecompProof R) := do
  let nvars := Nat.clog 2 A.ncols
  let Fs ← decTwo pr B f
  let F0 ← idx "F.next().unwrap()" Fs 0
  let F1 ← idx "F.next().unwrap()" Fs 1
  let v0 ← viCalc nvars r M F0
  let v1 ← viCalc nvars r M F1
  let C0 ← A.tryMulVec F0
  let C1 ← A.tryMulVec F1
  .ok ((⟨F0, ⟨C0, r, v0⟩⟩, ⟨F1, ⟨C1, r, v1⟩⟩), ⟨(C0, C1), (v0, v1)⟩)

/-- `decomp.rs:102-122` `DecompProof::verify` (returns nothing, aborts on failure). -/
def decompVerify [DecidableEq R] (p : DecompProof R) (cmF : List R) (v : List (R × R)) (B : Nat) :
    Res Unit :=
  let recCm := List.zipWith (fun a b => recomposeL (B : R) [a, b]) p.C.1 p.C.2
  let recV := List.zipWith (fun (a b : R × R) =>
    (recomposeL (B : R) [a.1, b.1], recomposeL (B : R) [a.2, b.2])) p.v.1 p.v.2
  if recCm = cmF then
    if recV = v then .ok () else .error (.panic "assert_eq!(rec_v, v)")
  else .error (.panic "assert_eq!(rec_cm, cm_f)")

/-! ## `r1cs.rs` -/

/-- `r1cs.rs:28-35` `ComR1CSX` and `22-26` `ComR1CS`. -/
structure ComR1CS (R : Type) where
  r1cs : R1CS R
  z : List R
  cmF : List R
  lIn : Nat
  f : List R

/-- `r1cs.rs:37-46` `ComR1CSProof`. -/
structure ComR1CSProof (R : Type) where
  sumcheck : List (List R)
  nvars : Nat
  r : List R
  v : R
  va : R
  vb : R
  vc : R
  deriving DecidableEq

/-- `z.gadget_decompose(b, k)` for a vector. -/
def gadgetVec (pr : PlusRing F R d) (b k : Nat) (z : List R) : Res (List R) := do
  let ds ← mapRes (pr.dec b k) z
  .ok ds.flatten

/-- `r1cs.rs:49-59` `ComR1CS::new`. -/
def ComR1CS.new (pr : PlusRing F R d) (r1cs : R1CS R) (z : List R) (lIn b k : Nat) (A : Mat R) :
    Res (ComR1CS R) := do
  let f ← gadgetVec pr b k z
  let cmF ← A.tryMulVec f
  .ok ⟨r1cs, z, cmF, lIn, f⟩

/-- `r1cs.rs:63-69` `matrices`. -/
def ComR1CS.matrices (c : ComR1CS R) : List (SpMat R) := [c.r1cs.A, c.r1cs.B, c.r1cs.C]

/-- `r1cs.rs:92` `comb_fn`. -/
def r1csComb (vals : List R) : Res R := do
  let e ← idx "vals" vals 0
  let a ← idx "vals" vals 1
  let b ← idx "vals" vals 2
  let c ← idx "vals" vals 3
  .ok (e * (a * b - c))

/-- `mle.evaluate(&ro).unwrap()`. -/
def evalUnwrap (m : Mle R) (ro : List R) : Res R :=
  match m.evaluate ro with
  | some v => .ok v
  | none => .error (.panic "evaluate.unwrap()")

/-- `r1cs.rs:74-133` `linearize`. -/
def ComR1CS.linearize (T : Transcript F R σ) (s : σ) (c : ComR1CS R) :
    Res ((LinB R × ComR1CSProof R) × σ) := do
  let nvars := Nat.clog 2 c.f.length
  let ga ← c.r1cs.A.tryMulVec c.f
  let gb ← c.r1cs.B.tryMulVec c.f
  let gc ← c.r1cs.C.tryMulVec c.f
  let (r, s) := T.challenges nvars s
  let eq ← unwrapRes "build_eq_x_r.unwrap()" (buildEq (r.map (algebraMap F R)))
  let mf ← Mle.fromEvals nvars c.f
  let ma ← Mle.fromEvals nvars ga
  let mb ← Mle.fromEvals nvars gb
  let mc ← Mle.fromEvals nvars gc
  let ((proof, pst), s) ← proveAsSubprotocol T s [eq, ma, mb, mc] nvars 3 r1csComb
  let ro : List R := pst.randomness.map (algebraMap F R)
  let v ← evalUnwrap mf ro
  let va ← evalUnwrap ma ro
  let vb ← evalUnwrap mb ro
  let vc ← evalUnwrap mc ro
  let s := T.absorbSlice s [v, va, vb, vc]
  .ok ((⟨c.f, ⟨c.cmF, ro.map fun x => (x, x), [(v, v), (va, va), (vb, vb), (vc, vc)]⟩⟩,
    ⟨proof, nvars, ro, v, va, vb, vc⟩), s)

variable [DecidableEq F] [DecidableEq R]

/-- `r1cs.rs:137-162` `ComR1CSProof::verify`: `true`, or an abort. -/
def ComR1CSProof.verify (T : Transcript F R σ) (s : σ) (p : ComR1CSProof R) : Res (Bool × σ) := do
  let (r, s) := T.challenges p.nvars s
  let (sc, s) ← unwrapRes "verify_as_subprotocol.unwrap()"
    (verifyAsSubprotocol T s p.nvars 3 (0 : R) p.sumcheck)
  let ro : List R := sc.point.map (algebraMap F R)
  let s := T.absorbSlice s [p.v, p.va, p.vb, p.vc]
  let e ← unwrapRes "eq_eval.unwrap()" (eqEval (r.map (algebraMap F R)) ro)
  if e * (p.va * p.vb - p.vc) = sc.expectedEvaluation then .ok (true, s)
  else .error (.panic "assert_eq!")

/-- `r1cs.rs:172-185` `r1cs_decomposed_square`. `gad b k` is the external `SparseMatrix::gadget_decompose(b, k)`. -/
def r1csDecomposedSquare (gad : Nat → Nat → SpMat R → SpMat R) (cs : R1CS R) (n b k : Nat) : R1CS R :=
  { cs with A := (gad b k cs.A).padRows n, B := (gad b k cs.B).padRows n, C := (gad b k cs.C).padRows n }

/-! ## `plus.rs` -/

/-- `plus.rs:42-46` `PlusParameters`. -/
structure PlusParams where
  lin : LinParams
  B : Nat
  deriving DecidableEq

/-- `plus.rs:34-40` `PlusProof`. -/
structure PlusProof (F R P : Type) where
  linb2x : LinB2X R
  lproof : List P
  cmproof : CmProof F R
  dproof : DecompProof R

/-- `plus.rs:81-86`: linearize all computations; the accumulated instances come first. -/
def linearizeAll (linearize : σ → L → Res ((LinB R × P) × σ)) :
    List L → σ → Res ((List (LinB R) × List P) × σ)
  | [], s => .ok (([], []), s)
  | c :: cs, s => do
    let ((lb, lp), s) ← linearize s c
    let ((lbs, lps), s) ← linearizeAll linearize cs s
    .ok ((lb :: lbs, lp :: lps), s)

/-- `plus.rs:77-108` `PlusProver::prove`: the accumulator `acc` (`self.acc.lins`) and the transcript
are returned. `Linearize::linearize` is a parameter (`plus.rs` is generic in it). -/
def plusProve (pr : PlusRing F R d) (T : Transcript F R σ)
    (linearize : σ → L → Res ((LinB R × P) × σ)) (A : Mat R) (M : List (SpMat R))
    (params : PlusParams) (acc : List (LinB R)) (s : σ) (comp : List L) :
    Res (PlusProof F R P × List (LinB R) × σ) := do
  let ((lbs, lps), s) ← linearizeAll linearize comp s
  let ((lb2, cmproof), s) ← mlin pr T s params.lin (acc ++ lbs) A M
  let ((l0, l1), dproof) ← decompose pr lb2.g lb2.x.ro M A params.B
  .ok (⟨lb2.x, lps, cmproof, dproof⟩, [l0, l1], s)

/-- `plus.rs:134-136`: the results of the individual verifications are discarded. -/
def verifyAll (lverify : σ → P → Res (Bool × σ)) : List P → σ → Res σ
  | [], s => .ok s
  | p :: ps, s => do
    let (_, s) ← lverify s p
    verifyAll lverify ps s

/-- `plus.rs:133-142` `PlusVerifier::verify`. -/
def plusVerify (pr : PlusRing F R d) (T : Transcript F R σ) (lverify : σ → P → Res (Bool × σ))
    (M : List (SpMat R)) (params : PlusParams) (s : σ) (p : PlusProof F R P) : Res (Bool × σ) := do
  let s ← verifyAll lverify p.lproof s
  let (_, s) ← unwrapRes "cmproof.verify.unwrap()" (cmVerify pr T s M p.cmproof)
  let _ ← decompVerify p.dproof p.linb2x.cmG p.linb2x.vo params.B
  .ok (true, s)

/-- Successive calls of `PlusProver::prove` on the same prover. -/
def plusProveAll (pr : PlusRing F R d) (T : Transcript F R σ)
    (linearize : σ → L → Res ((LinB R × P) × σ)) (A : Mat R) (M : List (SpMat R)) (params : PlusParams) :
    List (List L) → List (LinB R) → σ → Res (List (PlusProof F R P) × List (LinB R) × σ)
  | [], acc, s => .ok ([], acc, s)
  | comp :: comps, acc, s => do
    let (p, acc, s) ← plusProve pr T linearize A M params acc s comp
    let (ps, acc, s) ← plusProveAll pr T linearize A M params comps acc s
    .ok (p :: ps, acc, s)

/-- Successive calls of `PlusVerifier::verify` on the same verifier. -/
def plusVerifyAll (pr : PlusRing F R d) (T : Transcript F R σ) (lverify : σ → P → Res (Bool × σ))
    (M : List (SpMat R)) (params : PlusParams) : List (PlusProof F R P) → σ → Res (List Bool × σ)
  | [], s => .ok ([], s)
  | p :: ps, s => do
    let (b, s) ← plusVerify pr T lverify M params s p
    let (bs, s) ← plusVerifyAll pr T lverify M params ps s
    .ok (b :: bs, s)

end

end Verif.Plus
