import Verif.Spec.Log
import Verif.Model.PlusFold

/-!
# The records the verifiers of `latticefold-plus` should leave in a recording transcript
-/

namespace Verif.Spec

open Verif Verif.Plus

variable {F R : Type}

section
variable [Field F] [CommRing R] [Algebra F R]

/-- The challenges of one claim of the set check: a point and two more. -/
def claimEv (t : List F × F × F) : List (Event F R) := (t.1 ++ [t.2.1, t.2.2]).map .squeeze

/-- The set check: the challenges of all claims, the batching challenge if there is one, the sum-check, then all evaluations. -/
def setLog (out : SetOut F R) (cba : List (List F × F × F)) (rc point : List F) : List (Event F R) :=
  (cba.map claimEv).flatten ++ rc.map .squeeze ++ sumcheckLog out.nvars 3 out.sumcheck point
    ++ sent out.e.flatten.flatten ++ sent out.b

/-- The evaluations of the range check that are sent: `a` and `c` of every instance. -/
def dcomEv (evals : List (DcomEvals F R)) : List (Event F R) :=
  (evals.map fun ev => sent (ev.a.map (algebraMap F R)) ++ sent ev.c).flatten

/-- One of the two sum-checks of the commitment transformation. -/
def cmSumLog (nvars : Nat) (proof : List (List R)) (evals : List (InstanceEvals R)) (rc : F) (point : List F) : List (Event F R) :=
  .squeeze rc :: sumcheckLog nvars 2 proof point ++ (evals.flatten.map fun q => sent [q.a, q.b, q.c, q.h]).flatten

/-- The commitment transformation: range check, bytes of the short challenges, commitments `comh`, two points, two sum-checks. -/
def cmLog (d : Nat) (p : CmProof F R) (cba : List (List F × F × F)) (rc point : List F) (bss : List (List UInt8)) (c0 c1 : List F)
    (rcA : F) (pointA : List F) (rcB : F) (pointB : List F) : List (Event F R) :=
  setLog p.dcom.out cba rc point ++ dcomEv p.dcom.evals ++ bss.map (.bytes d) ++ sent p.comh.flatten
    ++ c0.map .squeeze ++ c1.map .squeeze
    ++ cmSumLog p.dcom.out.nvars p.proofs.1 p.evals.1 rcA pointA ++ cmSumLog p.dcom.out.nvars p.proofs.2 p.evals.2 rcB pointB

/-- Linearization: a point, the sum-check, four evaluations. -/
def linearizeLog (p : ComR1CSProof R) (r point : List F) : List (Event F R) :=
  r.map .squeeze ++ sumcheckLog p.nvars 3 p.sumcheck point ++ sent [p.v, p.va, p.vb, p.vc]

/-- The ring element with coefficients `byte mod u - u/2`, `u = 2^(128/d)`. -/
def shortElt {d : Nat} (pr : PlusRing F R d) (bs : List UInt8) : R :=
  pr.coeff.symm fun i => (((bs.getD i 0).toNat % 2 ^ (128 / d) : Nat) : F) - ((2 ^ (128 / d) / 2 : Nat) : F)

/-- All lengths in a proof of the commitment transformation that concern absorbed parts, the number of variables and the digit count. -/
structure SameShape (p p' : CmProof F R) : Prop where
  nvars : p.dcom.out.nvars = p'.dcom.out.nvars
  k : p.dcom.dparams.k = p'.dcom.dparams.k
  sumcheck : p.dcom.out.sumcheck.map List.length = p'.dcom.out.sumcheck.map List.length
  e : p.dcom.out.e.map (fun x => x.map List.length) = p'.dcom.out.e.map (fun x => x.map List.length)
  b : p.dcom.out.b.length = p'.dcom.out.b.length
  evals : p.dcom.evals.map (fun ev => (ev.a.length, ev.c.length)) = p'.dcom.evals.map (fun ev => (ev.a.length, ev.c.length))
  comh : p.comh.map List.length = p'.comh.map List.length
  proofA : p.proofs.1.map List.length = p'.proofs.1.map List.length
  proofB : p.proofs.2.map List.length = p'.proofs.2.map List.length
  evalsA : p.evals.1.map List.length = p'.evals.1.map List.length
  evalsB : p.evals.2.map List.length = p'.evals.2.map List.length

/-- The sum-checks have as many messages as rounds. -/
def AllRounds (p : CmProof F R) : Prop :=
  p.dcom.out.sumcheck.length = p.dcom.out.nvars ∧ p.proofs.1.length = p.dcom.out.nvars ∧ p.proofs.2.length = p.dcom.out.nvars

end

end Verif.Spec
