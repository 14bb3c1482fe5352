import Verif.Model.PlusSetCheck

/-!
# Model of `crates/latticefold-plus/src/rgchk.rs`
-/

namespace Verif.Plus

variable {F R σ : Type} {d : Nat}

/-- `rgchk.rs:20-24` `DecompParameters`. -/
structure DParams where
  b : Nat
  k : Nat
  l : Nat
  deriving DecidableEq

/-- `rgchk.rs:27-31` `FComs`. -/
structure FComs (R : Type) where
  cmF : List R
  CMf : List R
  cmMtau : List R
  deriving DecidableEq

/-- `rgchk.rs:41-48` `RgInstance`. -/
structure RgInstance (F R : Type) where
  Mf : List (Mat R)
  tau : List F
  mTau : List R
  f : List R
  comMf : List (Mat R)
  fcoms : FComs R

/-- `rgchk.rs:34-38` `Rg`. -/
structure Rg (F R : Type) where
  nvars : Nat
  instances : List (RgInstance F R)
  dparams : DParams

/-- `rgchk.rs:59-64` `DcomEvals`. -/
structure DcomEvals (F R : Type) where
  v : List F
  a : List F
  b : List R
  c : List R
  deriving DecidableEq

/-- `rgchk.rs:51-56` `Dcom`. -/
structure Dcom (F R : Type) where
  evals : List (DcomEvals F R)
  fcoms : List (FComs R)
  out : SetOut F R
  dparams : DParams
  deriving DecidableEq

section
variable [Field F] [CommRing R] [Algebra F R]

/-- `rgchk.rs:335-340` `absorb_evaluations`: `a` and `c` of every instance. -/
def absorbDcom (T : Transcript F R σ) (s : σ) (evals : List (DcomEvals F R)) : σ :=
  evals.foldl (fun s ev => T.absorbSlice (T.absorbSlice s (ev.a.map (algebraMap F R))) ev.c) s

/-- `rgchk.rs:86-94`: all matrix sets of all instances, then all vector sets. -/
def rangeSets (insts : List (RgInstance F R)) : List (MonomialSet R) :=
  (insts.flatMap fun inst => inst.Mf.map fun m => MonomialSet.matrix (SpMat.fromDense m))
    ++ insts.map fun inst => MonomialSet.vector inst.mTau

/-- `rgchk.rs:107-112`: the transposed coefficient table of `f` (`d` rows, none if `f` is empty). -/
def coeffTable (pr : PlusRing F R d) (f : List R) : List (List F) :=
  if f.isEmpty then [] else (List.range d).map fun j => f.map fun r => (pr.coeffs r).getD j 0

/-- `rgchk.rs:145-165`: the entries of `a`, `b`, `c` for one matrix. -/
def dcomMatEvals (pr : PlusRing F R d) (nvars : Nat) (r : List R) (inst : RgInstance F R)
    (m : SpMat R) : Res (F × R × R) := do
  let mtau ← m.tryMulVec (inst.tau.map (algebraMap F R))
  let a ← evalVec nvars mtau r
  let mmtau ← m.tryMulVec inst.mTau
  let b ← evalVec nvars mmtau r
  let mf ← m.tryMulVec inst.f
  let c ← evalVec nvars mf r
  .ok (pr.ct a, b, c)

/-- `rgchk.rs:103-168`: the evaluations of one instance (with its index). -/
def dcomEvals (pr : PlusRing F R d) (nvars : Nat) (M : List (SpMat R)) (out : SetOut F R)
    (p : RgInstance F R × Nat) : Res (DcomEvals F R) := do
  let inst := p.1
  let v ← mapRes (fun evals => evalVec nvars evals out.r) (coeffTable pr inst.f)
  let r : List R := out.r.map (algebraMap F R)
  let a0 ← evalVec nvars inst.tau out.r
  let b0 ← idx "out_rel.b[l]" out.b p.2
  let c0 ← evalVec nvars inst.f r
  let ts ← mapRes (dcomMatEvals pr nvars r inst) M
  .ok ⟨v, a0 :: ts.map (·.1), b0 :: ts.map (·.2.1), c0 :: ts.map (·.2.2)⟩

/-- `rgchk.rs:81-186` `Rg::range_check`. (`Vec::with_capacity(.. self.instances[0] ..)` aborts when
there is no instance, as does `Ms[0]` in the set check.) -/
def rangeCheck (pr : PlusRing F R d) (T : Transcript F R σ) (s : σ) (rg : Rg F R)
    (M : List (SpMat R)) : Res (Dcom F R × σ) := do
  let (out, s) ← setCheck pr T s rg.nvars (rangeSets rg.instances) M
  let evals ← mapRes (dcomEvals pr rg.nvars M out) rg.instances.zipIdx
  .ok (⟨evals, rg.instances.map (·.fcoms), out, rg.dparams⟩, absorbDcom T s evals)

/-- `rgchk.rs:208-219`: `∑_i d'^i u_i` for the `k` rows of one instance, accumulated into `d` slots. -/
def uComb (d : Nat) (F : Type) [Field F] [Algebra F R] (us : List (List R)) : List R :=
  us.zipIdx.foldl (fun acc p =>
    zipAssign (fun a u => a + u * algebraMap F R (((d / 2 : Nat) : F) ^ p.2)) acc p.1)
    (List.replicate d 0)

/-- `rgchk.rs:206-236`: the check of `e[ni]` for instance `l`. -/
def psiCheckU [DecidableEq F] (pr : PlusRing F R d) (dp : DParams) (ev : DcomEvals F R) (l : Nat)
    (p : List (List R) × Nat) : Res Unit := do
  let u := uComb d F ((p.1.drop (dp.k * l)).take dp.k)
  let vrec := u.map fun x => pr.ct (pr.psi * x)
  if p.2 = 0 then
    if ev.v = vrec then .ok () else .error .recomposedError
  else do
    let c ← idx "eval.c[ni]" ev.c p.2
    if pr.coeffs c = vrec then .ok () else .error .recomposedError

/-- `rgchk.rs:198-204`: `ct(psi b_i) = a_i`. -/
def psiCheckAB [DecidableEq F] (pr : PlusRing F R d) (ev : DcomEvals F R) : Res Unit :=
  foldRes (fun _ (p : F × R) =>
    if pr.ct (pr.psi * p.2) = p.1 then .ok () else .error .recomposedError) () (ev.a.zip ev.b)

/-- `rgchk.rs:193-241` `Dcom::verify`. `RangeCheckError::{PsiCheckAB, PsiCheckVU}` are both the error
`recomposedError`. -/
def dcomVerify [DecidableEq F] [DecidableEq R] (pr : PlusRing F R d) (T : Transcript F R σ) (s : σ)
    (dcom : Dcom F R) : Res σ := do
  let s ← unwrapRes "out.verify.unwrap()" (setVerify pr T s dcom.out)
  let s := absorbDcom T s dcom.evals
  let _ ← foldRes (fun _ (p : DcomEvals F R × Nat) => do
    let _ ← psiCheckAB pr p.1
    foldRes (fun _ q => psiCheckU pr dcom.dparams p.1 p.2 q) () dcom.out.e.zipIdx) ()
    dcom.evals.zipIdx
  .ok s

/-- `exp::<R>(c).unwrap()`. -/
def expUnwrap (pr : PlusRing F R d) (c : F) : Res R :=
  match pr.exp c with
  | some m => .ok m
  | none => .error (.panic "exp.unwrap()")

/-- `rgchk.rs:267-288`: the digits of all coefficients, `dec[n_i][d_i][k_i]`; writing to `D_f[k_i]` aborts if there are more
than `k` digits, and missing digits stay zero. -/
def digitTable (pr : PlusRing F R d) (b k : Nat) (f : List R) : Res (List (List (List F))) :=
  mapRes (fun r => mapRes (fun c => do
    let ds ← pr.decF b k c
    if ds.length ≤ k then .ok ds else .error (.panic "D_f[k_i]")) (pr.coeffs r)) f

/-- `rgchk.rs:290-304`: the matrix of monomials of digit `ki`. `nrows`/`ncols` are read off the rows by `into()`. -/
def monoMat (pr : PlusRing F R d) (dec : List (List (List F))) (ki : Nat) : Res (Mat R) := do
  let rows ← mapRes (fun row => mapRes (fun ds => expUnwrap pr (ds.getD ki 0)) row) dec
  .ok (Mat.ofRows rows)

/-- `rgchk.rs:260-332` `RgInstance::from_f`. -/
def fromF (pr : PlusRing F R d) (f : List R) (A : Mat R) (dp : DParams) : Res (RgInstance F R) := do
  let dec ← digitTable pr dp.b dp.k f
  let Mf ← mapRes (monoMat pr dec) (List.range dp.k)
  let comMf ← mapRes A.tryMulMat Mf
  let com ← Mat.hconcat comMf
  let tau ← split pr com f.length (d / 2) dp.l
  let mTau ← mapRes (expUnwrap pr) tau
  let cmF ← A.tryMulVec f
  let CMf ← A.tryMulVec (tau.map (algebraMap F R))
  let cmMtau ← A.tryMulVec mTau
  .ok ⟨Mf, tau, mTau, f, comMf, ⟨cmF, CMf, cmMtau⟩⟩

end

end Verif.Plus
