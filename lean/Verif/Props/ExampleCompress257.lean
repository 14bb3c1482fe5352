import Verif.Props.NifsKnowledge
import Verif.Spec.Extractor

/-!
# Example: a compressing commitment over the field of 257 elements

The commitment matrix has a short kernel vector, so C88 and C90 do not apply. C91 and C92 do.
-/

set_option linter.unusedSectionVars false

namespace Verif.Example

open Finset Spec Verif Verif.Props

/-- Commitment by the matrix `(1 2)`. -/
def schemeC : Ajtai C257 := ⟨⟨1, 2, [[1, 2]]⟩⟩

theorem sizesC : SizesOK par257 ccs257 schemeC where
  sh := ccs257_shape
  nl := by decide
  hat := by decide
  mat := ⟨rfl, by simp [schemeC]⟩
  width := rfl

/-- The matrix has a short kernel vector. -/
theorem kernelC : KernelVec ring257 schemeC 2 [![-2], ![1]] where
  len := rfl
  ne := ⟨![1], by simp, by decide⟩
  ker := by
    rw [commit_ok schemeC _ rfl]
    congr 2
    have h : (schemeC.matrix.vals.map fun row => dot row [(![-2] : C257), ![1]]) = [0] := by decide +kernel
    exact h
  short := by
    intro x hx i
    have hi : i = (0 : Fin 1) := Subsingleton.elim (α := Fin 1) _ _
    subst hi
    simp only [List.mem_cons, List.not_mem_nil, or_false] at hx
    rcases hx with rfl | rfl
    · exact ⟨-2, by decide, by decide⟩
    · exact ⟨1, by decide, by decide⟩

/-- A statement about `w`. -/
def accC (r x h : C257) (w : Witness C257 C257) : LCCCS C257 :=
  ⟨[r], w.fHat.map fun m => mle m.get [r], ⟨schemeC.matrix.vals.map fun row => dot row w.f⟩,
    ccs257.M.map fun M => mle (mulVec M (([x] ++ [h]) ++ w.wCcs)) [r], [x], h⟩

theorem accC_holds (r x h c0 c1 : C257) :
    LcccsHolds ring257 par257 ccs257 schemeC (accC r x h (wit257 c0 c1)) (wit257 c0 c1) where
  witOK := mkWit_ok ring257 par257 (wl := 1) [c0, c1] rfl
  cm := commit_ok schemeC _ (by simp [wit257, mkWit, schemeC])
  xlen := rfl
  evals := ⟨rfl, rfl, rfl⟩

/-- Fresh statement: public input `1`, the witness is `w_0 = 3 + 16 * 2`. -/
def freshC : CCCS C257 := ⟨⟨schemeC.matrix.vals.map fun row => dot row (wit257 ![3] ![2]).f⟩, [![1]]⟩

theorem freshC_holds : FreshHolds ring257 par257 ccs257 schemeC freshC (wit257 ![3] ![2]) where
  witOK := mkWit_ok ring257 par257 (wl := 1) _ rfl
  opens := commit_ok schemeC _ (by simp [wit257, mkWit, schemeC])
  xlen := rfl
  sat := by
    intro i hi
    have hi : i < 2 := hi
    interval_cases i <;> decide +kernel
  short := fun _ _ _ => reach257 _

theorem wit257_small (c0 c1 : C257) (h : 2 * (c0 0).valMinAbs.natAbs ≤ 16 ∧ 2 * (c1 0).valMinAbs.natAbs ≤ 16) :
    WitShort ring257 par257.bSmall (wit257 c0 c1) := by
  intro c hc i
  have hi : i = (0 : Fin 1) := Subsingleton.elim (α := Fin 1) _ _
  subst hi
  simp only [wit257, mkWit, List.mem_cons, List.not_mem_nil, or_false] at hc
  rcases hc with rfl | rfl
  · exact short257.2 h.1
  · exact short257.2 h.2

/-- The tables of `M_j z`. -/
def tabs257 (x h : C257) (w : Witness C257 C257) : List (Mle C257) :=
  ccs257.M.map fun M => ⟨ccs257.s, (List.range M.nrows).map fun i => mulVec M (([x] ++ [h]) ++ w.wCcs) i⟩

def witsC : List (Witness C257 C257) := [wit257 ![3] ![2], wit257 ![5] ![-8], wit257 ![0] ![7], wit257 ![1] ![-1]]

def accsC : List (LCCCS C257) :=
  [accC ![7] ![1] ![1] (wit257 ![3] ![2]), accC ![7] ![100] ![30] (wit257 ![5] ![-8]), accC ![200] ![4] ![0] (wit257 ![0] ![7]),
    accC ![200] ![9] ![55] (wit257 ![1] ![-1])]

def mzC : List (List (Mle C257)) :=
  [tabs257 ![1] ![1] (wit257 ![3] ![2]), tabs257 ![100] ![30] (wit257 ![5] ![-8]), tabs257 ![4] ![0] (wit257 ![0] ![7]),
    tabs257 ![9] ![55] (wit257 ![1] ![-1])]

theorem inputC : FoldInput ring257 par257 ccs257 schemeC accsC witsC mzC where
  cmLen := rfl
  wLen := rfl
  mzLen := rfl
  holds := by
    intro k hk
    have hk : k < 4 := hk
    interval_cases k
    · exact ⟨_, _, rfl, rfl, accC_holds _ _ _ _ _, wit257_small _ _ (by decide +kernel), rfl⟩
    · exact ⟨_, _, rfl, rfl, accC_holds _ _ _ _ _, wit257_small _ _ (by decide +kernel), rfl⟩
    · exact ⟨_, _, rfl, rfl, accC_holds _ _ _ _ _, wit257_small _ _ (by decide +kernel), rfl⟩
    · exact ⟨_, _, rfl, rfl, accC_holds _ _ _ _ _, wit257_small _ _ (by decide +kernel), rfl⟩
  points := by
    refine ⟨[![7]], [![200]], ?_⟩
    intro k st h
    match k with
    | 0 | 1 | 2 | 3 => cases h; rfl
    | k + 4 => simp [accsC] at h

end Verif.Example
