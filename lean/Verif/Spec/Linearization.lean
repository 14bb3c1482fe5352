import Verif.Spec.Arith
import Verif.Spec.Mle
import Verif.Model.Linearization

/-!
# Specification for linearization
-/

namespace Verif.Spec

open Finset

variable {R C : Type} [CommRing R]

/-- `∑_k c_k ∏_{j ∈ S_k} x_j`. -/
def ccsEval (ccs : CCS R) (x : Nat → R) : R :=
  ∑ k ∈ range ccs.q, ccs.c.getD k 0 * ((ccs.S.getD k []).map x).prod

/-- Matrix indices of the multisets with nonzero coefficient, in order. -/
def usedIdx [DecidableEq R] (ccs : CCS R) : List Nat :=
  (((List.range ccs.q).filter fun k => decide (ccs.c.getD k 0 ≠ 0)).map fun k => ccs.S.getD k []).flatten

/-- Matrix `j` occurs first at position `j`: the order in which the linearization prover reads its
tables. Holds for `S = [[0, 1], [2]]`. -/
def Aligned [DecidableEq R] (ccs : CCS R) : Prop := ∀ j ∈ usedIdx ccs, (usedIdx ccs)[j]? = some j

/-- Size conditions under which linearization works: `2^s` rows, at least one variable, multisets
not larger than the declared degree. -/
structure LinShape [DecidableEq R] (ccs : CCS R) : Prop where
  wf : CCSWF ccs
  spos : 1 ≤ ccs.s
  pow : ccs.m = 2 ^ ccs.s
  rows : ∀ M ∈ ccs.M, M.nrows ≤ 2 ^ ccs.s
  deg : ∀ k < ccs.q, ccs.c.getD k 0 ≠ 0 → (ccs.S.getD k []).length ≤ ccs.d

/-- The evaluations claimed by a linearized statement are those of the given tables and `z`. -/
structure EvalsCorrect (ccs : CCS R) (fHat : List (Mle R)) (wCcs : List R) (st : LCCCS R) : Prop where
  rlen : st.r.length = ccs.s
  v : st.v = fHat.map fun m => mle m.get st.r
  u : st.u = ccs.M.map fun M => mle (mulVec M ((st.x_w ++ [st.h]) ++ wCcs)) st.r

end Verif.Spec
