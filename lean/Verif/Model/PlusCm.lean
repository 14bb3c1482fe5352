import Verif.Model.PlusRange

/-!
# Model of `crates/latticefold-plus/src/cm.rs`
-/

namespace Verif.Plus

variable {F R σ : Type} {d : Nat}

/-- `[R; 4]`: the evaluations of `[tau, m_tau, f, h]`. -/
structure Quad (R : Type) where
  a : R
  b : R
  c : R
  h : R
  deriving DecidableEq

/-- `cm.rs:28-29` `InstanceEvals`. -/
abbrev InstanceEvals (R : Type) := List (Quad R)

/-- `cm.rs:32-37` `CmProof`. -/
structure CmProof (F R : Type) where
  dcom : Dcom F R
  comh : List (List R)
  proofs : List (List R) × List (List R)
  evals : List (InstanceEvals R) × List (InstanceEvals R)
  deriving DecidableEq

/-- `cm.rs:46-50` `ComX`. -/
structure ComX (R : Type) where
  cmG : List (List R)
  ro : List (R × R)
  vo : List (List (R × R))
  deriving DecidableEq

/-- `cm.rs:40-43` `Com`. -/
structure Com (R : Type) where
  g : List (List R)
  x : ComX R
  deriving DecidableEq

section
variable [Field F] [CommRing R] [Algebra F R]

/-- `n` short challenges in a row. -/
def shortChallenges (pr : PlusRing F R d) (T : Transcript F R σ) : Nat → σ → Res (List R × σ)
  | 0, s => .ok ([], s)
  | n + 1, s => do
    let (x, s) ← shortChallenge pr 128 T s
    let (xs, s) ← shortChallenges pr T n s
    .ok (x :: xs, s)

/-- `cm.rs:71-77` `s_prime`: `k` rows of `d` short challenges. -/
def sPrime (pr : PlusRing F R d) (T : Transcript F R σ) : Nat → σ → Res (List (List R) × σ)
  | 0, s => .ok ([], s)
  | k + 1, s => do
    let (row, s) ← shortChallenges pr T d s
    let (rows, s) ← sPrime pr T k s
    .ok (row :: rows, s)

/-- `for (i, val) in v.iter().enumerate() { h[i] += *val }` (`cm.rs:95-99`, `119-123`). -/
def addInto (h v : List R) : Res (List R) :=
  if v.length ≤ h.length then .ok (zipAssign (· + ·) h v) else .error (.panic "h[i] +=")

/-- `cm.rs:80-102` and `104-126`: `∑_i M_i s'_i`, accumulated in `n` slots. -/
def combineMats (n : Nat) (ms : List (Mat R)) (sp : List (List R)) : Res (List R) := do
  let vs ← mapRes (fun p : Mat R × List R => p.1.tryMulVec p.2) (ms.zip sp)
  foldRes addInto (List.replicate n 0) vs

/-- `cm.rs:104-126`: `comh` of one instance. -/
def comhOf (sp : List (List R)) (inst : RgInstance F R) : Res (List R) := do
  let m0 ← idx "comM_f[0]" inst.comMf 0
  combineMats m0.nrows inst.comMf sp

/-- `cm.rs:582-584` `absorb_comh`. -/
def absorbComh (T : Transcript F R σ) (s : σ) (comh : List (List R)) : σ :=
  comh.foldl T.absorbSlice s

/-- `cm.rs:586-595` `absorb_evaluations`. -/
def absorbQuads (T : Transcript F R σ) (s : σ) (evals : List (InstanceEvals R)) : σ :=
  evals.foldl (fun s ie => ie.foldl (fun s q => T.absorbSlice s [q.a, q.b, q.c, q.h]) s) s

/-- `cm.rs:598-606` `calculate_t_z`. -/
def calculateTz (c sp dpp xp : List R) : List R :=
  tensorProduct (tensorProduct (tensorProduct (tensor c) sp) dpp) xp

/-- `cm.rs:143-146`, `427-431`: the powers of `d' = d / 2`. -/
def dPowers (R : Type) [CommRing R] [Algebra F R] (d l : Nat) : List R :=
  (List.range l).map fun i => algebraMap F R (((d / 2 : Nat) : F) ^ i)

/-- `cm.rs:147`, `432`: `1, X, .., X^(d-1)`. -/
def xPowers (pr : PlusRing F R d) : List R := (List.range d).map fun i => pr.X ^ i

/-- `cm.rs:149-154`: `t` padded to `n` entries. -/
def padT (n : Nat) (t : List R) : Res (List R) :=
  if t.length ≤ n then .ok (t ++ List.replicate (n - t.length) 0)
  else .error (.panic "t too large!")

/-- `cm.rs:222-256`: the tables of one instance, for the vectors `[tau, m_tau, f, h]` and their
products with the matrices. -/
def instTables (nvars : Nat) (M : List (SpMat R)) (vs : List (List R)) : Res (List (Mle R)) := do
  let t0 ← mapRes (Mle.fromEvals nvars) vs
  let ts ← mapRes (fun m : SpMat R => mapRes (fun v => do
    let w ← m.tryMulVec v
    Mle.fromEvals nvars w) vs) M
  .ok (t0 ++ ts.flatten)

/-- Four consecutive values with consecutive powers, `cm.rs:290-293`, `295-299`. -/
def quadTerm (rcps : List F) (vals : List R) (i : Nat) : Res R := do
  let a ← idx "vals" vals i
  let b ← idx "vals" vals (i + 1)
  let c ← idx "vals" vals (i + 2)
  let h ← idx "vals" vals (i + 3)
  let ra ← idx "rcps" rcps (i - 1)
  let rb ← idx "rcps" rcps i
  let rc ← idx "rcps" rcps (i + 1)
  let rh ← idx "rcps" rcps (i + 2)
  .ok (a * algebraMap F R ra + b * algebraMap F R rb + c * algebraMap F R rc + h * algebraMap F R rh)

/-- `cm.rs:285-306`: the summand of instance `l` of `comb_fn`. -/
def cmCombOne (Mlen : Nat) (rcps : List F) (vals : List R) (l : Nat) : Res R := do
  let li := 1 + l * (4 + 4 * Mlen)
  let eq ← idx "vals" vals 0
  let q0 ← quadTerm rcps vals li
  let qs ← mapRes (fun i => quadTerm rcps vals (li + 4 + i * 4)) (List.range Mlen)
  let tau ← idx "vals" vals li
  let t0 ← idx "vals" vals (vals.length - 2)
  let t1 ← idx "vals" vals (vals.length - 1)
  let r0 ← idx "rcps" rcps (vals.length - 3)
  let r1 ← idx "rcps" rcps (vals.length - 2)
  .ok (eq * (q0 + qs.sum) + tau * t0 * algebraMap F R r0 + tau * t1 * algebraMap F R r1)

/-- `cm.rs:283-308` `comb_fn`. -/
def cmComb (L Mlen : Nat) (rcps : List F) (vals : List R) : Res R := do
  let xs ← mapRes (cmCombOne Mlen rcps vals) (List.range L)
  .ok xs.sum

/-- `cm.rs:262-281`: the powers `rc^0, rc^1, ..` (one per table except `eq`). -/
def rcPowers (rc : F) (L Mlen : Nat) : List F :=
  (List.range (L * (4 + 4 * Mlen) + 2)).map fun i => rc ^ i

/-- `mles[idx].evaluate(&ro).unwrap()` of four consecutive tables. -/
def quadEval (mles : List (Mle R)) (ro : List R) (i : Nat) : Res (Quad R) := do
  let es ← mapRes (fun k => do
    let m ← idx "mles" mles (i + k)
    match m.evaluate ro with
    | some v => .ok v
    | none => .error (.panic "evaluate.unwrap()")) [0, 1, 2, 3]
  match es with
  | [a, b, c, h] => .ok ⟨a, b, c, h⟩
  | _ => .error (.panic "unreachable")

/-- `cm.rs:318-340`: the evaluations sent for instance `l`. -/
def instEvals (mles : List (Mle R)) (ro : List R) (Mlen l : Nat) : Res (InstanceEvals R) := do
  let li := 1 + l * (4 + 4 * Mlen)
  let q0 ← quadEval mles ro li
  let qs ← mapRes (fun i => quadEval mles ro (li + 4 + i * 4)) (List.range Mlen)
  .ok (q0 :: qs)

/-- `cm.rs:201-342` `sumchecker`. `vss` are the vectors `[tau, m_tau, f, h]` of the instances. -/
def sumchecker (T : Transcript F R σ) (s : σ) (nvars : Nat) (r : List F)
    (vss : List (List (List R))) (t0 t1 : List R) (M : List (SpMat R)) :
    Res ((List (List R) × List (InstanceEvals R) × List R) × σ) := do
  let (rc, s) := T.challenge s
  let eq ← unwrapRes "build_eq_x_r.unwrap()" (buildEq (r.map (algebraMap F R)))
  let ts ← mapRes (instTables nvars M) vss
  let m0 ← Mle.fromEvals nvars t0
  let m1 ← Mle.fromEvals nvars t1
  let mles := eq :: (ts.flatten ++ [m0, m1])
  let ((proof, pst), s) ← proveAsSubprotocol T s mles nvars 2
    (cmComb vss.length M.length (rcPowers rc vss.length M.length))
  let ro : List R := pst.randomness.map (algebraMap F R)
  let evals ← mapRes (instEvals mles ro M.length) (List.range vss.length)
  .ok ((proof, evals, ro), absorbQuads T s evals)

/-- `cm.rs:165-183`: the folded witness of one instance. -/
def foldG (s0 s1 s2 : R) (inst : RgInstance F R) (h : List R) : List R :=
  (((inst.tau.zip inst.mTau).zip inst.f).zip h).map fun p =>
    s0 * algebraMap F R p.1.1.1 + s1 * p.1.1.2 + s2 * p.1.2 + p.2

/-- `cm.rs:540-579`, `cm_g` of one instance. -/
def foldCm (s0 s1 s2 : R) (fc : FComs R) (comh : List R) : List R :=
  (((fc.CMf.zip fc.cmMtau).zip fc.cmF).zip comh).map fun p =>
    s0 * p.1.1.1 + s1 * p.1.1.2 + s2 * p.1.2 + p.2

/-- `cm.rs:540-579`, one folded evaluation. -/
def foldQuad (s0 s1 s2 : R) (q : Quad R) : R := s0 * q.a + s1 * q.b + s2 * q.c + q.h

/-- `cm.rs:540-579` `x`. -/
def CmProof.x (p : CmProof F R) (s : List R) (ro : List (R × R)) : Res (ComX R) := do
  let s0 ← idx "s[0]" s 0
  let s1 ← idx "s[1]" s 1
  let s2 ← idx "s[2]" s 2
  let cmG ← mapRes (fun q : FComs R × Nat => do
    let ch ← idx "comh[l]" p.comh q.2
    .ok (foldCm s0 s1 s2 q.1 ch)) p.dcom.fcoms.zipIdx
  let vo ← mapRes (fun l => do
    let e0 ← idx "evals.0[l]" p.evals.1 l
    let e1 ← idx "evals.1[l]" p.evals.2 l
    .ok ((e0.zip e1).map fun q => (foldQuad s0 s1 s2 q.1, foldQuad s0 s1 s2 q.2)))
    (List.range p.dcom.fcoms.length)
  .ok ⟨cmG, ro, vo⟩

/-- The vectors `[tau, m_tau, f, h]` of an instance. -/
def instVecs (p : RgInstance F R × List R) : List (List R) :=
  [p.1.tau.map (algebraMap F R), p.1.mTau, p.1.f, p.2]

/-- `cm.rs:66-198`: `prove` after the range check. -/
def cmProveTail (pr : PlusRing F R d) (T : Transcript F R σ) (s : σ) (rg : Rg F R)
    (M : List (SpMat R)) (dcom : Dcom F R) : Res ((Com R × CmProof F R) × σ) := do
  let inst0 ← idx "instances[0]" rg.instances 0
  let n := inst0.tau.length
  let (ss, s) ← shortChallenges pr T 3 s
  let (sp, s) ← sPrime pr T rg.dparams.k s
  let h ← mapRes (fun inst => combineMats (2 ^ rg.nvars) inst.Mf sp) rg.instances
  let comh ← mapRes (comhOf sp) rg.instances
  let s := absorbComh T s comh
  let comh0 ← idx "comh[0]" comh 0
  let (c0, s) := T.challenges (Nat.clog 2 comh0.length) s
  let (c1, s) := T.challenges (Nat.clog 2 comh0.length) s
  let dpp := dPowers (F := F) R d rg.dparams.l
  let t0 ← padT n (calculateTz (c0.map (algebraMap F R)) sp.flatten dpp (xPowers pr))
  let t1 ← padT n (calculateTz (c1.map (algebraMap F R)) sp.flatten dpp (xPowers pr))
  let vss := (rg.instances.zip h).map instVecs
  let ((proofA, evalsA, roA), s) ← sumchecker T s rg.nvars dcom.out.r vss t0 t1 M
  let ((proofB, evalsB, roB), s) ← sumchecker T s rg.nvars dcom.out.r vss t0 t1 M
  let s0 ← idx "s[0]" ss 0
  let s1 ← idx "s[1]" ss 1
  let s2 ← idx "s[2]" ss 2
  let g := (rg.instances.zip h).map fun p => foldG s0 s1 s2 p.1 p.2
  let proof : CmProof F R := ⟨dcom, comh, (proofA, proofB), (evalsA, evalsB)⟩
  let x ← proof.x ss (roA.zip roB)
  .ok ((⟨g, x⟩, proof), s)

/-- `cm.rs:56-199` `Cm::prove`. -/
def cmProve (pr : PlusRing F R d) (T : Transcript F R σ) (s : σ) (rg : Rg F R)
    (M : List (SpMat R)) : Res ((Com R × CmProof F R) × σ) := do
  let (dcom, s) ← rangeCheck pr T s rg M
  cmProveTail pr T s rg M dcom

/-- `cm.rs:387-402`: `u` for instance `l`, one entry per `e[ni]`. -/
def uOf (k : Nat) (spFlat : List R) (e : List (List (List R))) (l : Nat) : List R :=
  e.map fun ei => (List.zipWith (· * ·) ((ei.drop (l * k)).take k).flatten spFlat).sum

/-- `cm.rs:446-449`, `453-456`: the four claims with consecutive powers of `rc`. -/
def claimQuad (rc a b c u : R) (i : Nat) : R :=
  a * rc ^ i + b * rc ^ (i + 1) + c * rc ^ (i + 2) + u * rc ^ (i + 3)

/-- `cm.rs:440-463`: the part of the claimed sum of instance `l`. -/
def claimOne (Mlen zi : Nat) (rc : R) (us : List (List R)) (tc0 tc1 : List R)
    (p : DcomEvals F R × Nat) : Res R := do
  let li := p.2 * (4 + 4 * Mlen)
  let ul ← idx "u[l]" us p.2
  let qs ← mapRes (fun i => do
    let a ← idx "eval.a" p.1.a i
    let b ← idx "eval.b" p.1.b i
    let c ← idx "eval.c" p.1.c i
    let u ← idx "u[l][i]" ul i
    .ok (claimQuad rc (algebraMap F R a) b c u (li + 4 * i))) (List.range (1 + Mlen))
  let y0 ← idx "tcch0[l]" tc0 p.2
  let y1 ← idx "tcch1[l]" tc1 p.2
  .ok (qs.sum + y0 * rc ^ zi + y1 * rc ^ (zi + 1))

/-- `cm.rs:493-519`: the part of the recomputed evaluation of instance `l`. -/
def evalOne (Mlen zi : Nat) (rc eq t0 t1 : R) (p : InstanceEvals R × Nat) : Res R := do
  let li := p.2 * (4 + 4 * Mlen)
  let qs ← mapRes (fun i => do
    let q ← idx "el[i]" p.1 i
    .ok (claimQuad rc q.a q.b q.c q.h (li + 4 * i))) (List.range (1 + Mlen))
  let q0 ← idx "el[0]" p.1 0
  .ok (eq * qs.sum + t0 * q0.a * rc ^ zi + t1 * q0.a * rc ^ (zi + 1))

variable [DecidableEq F] [DecidableEq R]

/-- `cm.rs:434-525` the closure `verify_sumcheck`. `L` is the number of instances in `evals.0`. `eq_eval(..).unwrap()` aborts when `out.r` does not
have `nvars` entries. -/
def cmVerifySumcheck (T : Transcript F R σ) (s : σ) (dcom : Dcom F R) (L Mlen : Nat)
    (us : List (List R)) (tc0 tc1 tz0 tz1 : List R) (proof : List (List R))
    (evals : List (InstanceEvals R)) : Res (List R × σ) := do
  let (rcF, s) := T.challenge s
  let rc : R := algebraMap F R rcF
  let zi := L * (4 + 4 * Mlen)
  let cs ← mapRes (claimOne Mlen zi rc us tc0 tc1) dcom.evals.zipIdx
  let (sc, s) ← unwrapRes "verify_as_subprotocol.unwrap()"
    (verifyAsSubprotocol T s dcom.out.nvars 2 cs.sum proof)
  let r : List R := dcom.out.r.map (algebraMap F R)
  let ro : List R := sc.point.map (algebraMap F R)
  let t0 ← evalVec dcom.out.nvars tz0 ro
  let t1 ← evalVec dcom.out.nvars tz1 ro
  let s := absorbQuads T s evals
  let eq ← unwrapRes "eq_eval.unwrap()" (eqEval r ro)
  let es ← mapRes (evalOne Mlen zi rc eq t0 t1) evals.zipIdx
  if sc.expectedEvaluation = es.sum then .ok (ro, s) else .error (.panic "assert_eq!")

/-- `cm.rs:349-538` `CmProof::verify`. -/
def cmVerify (pr : PlusRing F R d) (T : Transcript F R σ) (s : σ) (M : List (SpMat R))
    (p : CmProof F R) : Res (ComX R × σ) := do
  let k := p.dcom.dparams.k
  let L := p.evals.1.length
  let s ← unwrapRes "dcom.verify.unwrap()" (dcomVerify pr T s p.dcom)
  let (ss, s) ← shortChallenges pr T 3 s
  let (sp, s) ← sPrime pr T k s
  let s := absorbComh T s p.comh
  let comh0 ← idx "comh[0]" p.comh 0
  let (c0, s) := T.challenges (Nat.clog 2 comh0.length) s
  let (c1, s) := T.challenges (Nat.clog 2 comh0.length) s
  let us := (List.range L).map (uOf k sp.flatten p.dcom.out.e)
  let tc0 := p.comh.map fun com => dot (tensor (c0.map (algebraMap F R))) com
  let tc1 := p.comh.map fun com => dot (tensor (c1.map (algebraMap F R))) com
  let dpp := dPowers (F := F) R d p.dcom.dparams.l
  let tz0 := calculateTz (c0.map (algebraMap F R)) sp.flatten dpp (xPowers pr)
  let tz1 := calculateTz (c1.map (algebraMap F R)) sp.flatten dpp (xPowers pr)
  let (ro0, s) ← cmVerifySumcheck T s p.dcom L M.length us tc0 tc1 tz0 tz1 p.proofs.1 p.evals.1
  let (ro1, s) ← cmVerifySumcheck T s p.dcom L M.length us tc0 tc1 tz0 tz1 p.proofs.2 p.evals.2
  let x ← p.x ss (ro0.zip ro1)
  .ok (x, s)

end

end Verif.Plus
