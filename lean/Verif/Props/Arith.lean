import Verif.Lemmas.Arith

/-!
# Property theorems: constraint systems (C05 - C14)
-/

set_option linter.unusedSectionVars false
set_option linter.unusedSimpArgs false

namespace Verif.Props

open Finset Verif Verif.Spec

variable {R : Type} [CommRing R] [DecidableEq R]

/-! ## A running example: `x * x = y` and `y * x = 6 x` over the integers, `z = (x, 1, y)`. -/

/-- Two-row R1CS over `Int` with columns `(x, 1, y)`: rows `x*x = y`, `y*x = 6x`. -/
def exR1CS : R1CS Int :=
  { l := 1
    A := ⟨2, 3, [[(1, 0)], [(1, 2)]]⟩
    B := ⟨2, 3, [[(1, 0)], [(1, 0)]]⟩
    C := ⟨2, 3, [[(1, 2)], [(4, 0), (2, 0)]]⟩ }

theorem exR1CS_wf : R1CSWF exR1CS := by
  refine ⟨⟨rfl, ?_⟩, ⟨rfl, ?_⟩, ⟨rfl, ?_⟩, rfl, rfl, rfl, rfl⟩
  · simp [exR1CS]
  · simp [exR1CS]
  · simp [exR1CS]; omega

/-! ## C05 -/

/-- **C05**: on a well-formed instance the check decides the R1CS relation, reports the least
violated row, and rejects vectors of the wrong length. -/
theorem C05_check_decides (cs : R1CS R) (wf : R1CSWF cs) (z : List R) :
    (cs.checkRelation z = .ok () ↔
      z.length = cs.A.ncols ∧ R1CSHolds cs.A cs.B cs.C cs.A.nrows z) ∧
    (∀ i, cs.checkRelation z = .error (.notSatisfied i) ↔
      z.length = cs.A.ncols ∧ LeastViolated (R1CSRow cs.A cs.B cs.C z) cs.A.nrows i) ∧
    (z.length ≠ cs.A.ncols →
      cs.checkRelation z = .error (.lengthsNotEqual cs.A.ncols z.length)) := by
  by_cases hz : z.length = cs.A.ncols
  · rw [r1cs_check_eq wf hz]
    have := failAtFirst_spec (P := R1CSRow cs.A cs.B cs.C z) (n := cs.A.nrows)
      (q := fun p : R × R => decide (p.1 ≠ p.2))
      (f := fun i => (mulVec cs.A z i * mulVec cs.B z i, mulVec cs.C z i))
      (by intro i; simp [R1CSRow])
    refine ⟨?_, ?_, fun h => absurd hz h⟩
    · rw [this.1]; simp [hz, R1CSHolds]
    · intro i; rw [this.2]; simp [hz]
  · rw [r1cs_check_bad hz]; simp [hz]

example : exR1CS.checkRelation [3, 1, 9] = .error (.notSatisfied 1) := by rfl
example : exR1CS.checkRelation [0, 1, 0] = .ok () := by rfl

/-- **C05 fails without the shape condition**: with one more row in `C` than in `A` and `B` the
check accepts although the extra row demands `(A z)_1 (B z)_1 = 0 = 1`. All three matrices are
individually well formed. -/
theorem C05_ragged_counterexample :
    ∃ (cs : R1CS Int) (z : List Int), cs.A.WF ∧ cs.B.WF ∧ cs.C.WF ∧
      cs.B.ncols = cs.A.ncols ∧ cs.C.ncols = cs.A.ncols ∧ cs.B.nrows = cs.A.nrows ∧
      cs.checkRelation z = .ok () ∧
      ¬ R1CSHolds cs.A cs.B cs.C cs.C.nrows z := by
  refine ⟨⟨0, ⟨1, 1, [[]]⟩, ⟨1, 1, [[]]⟩, ⟨2, 1, [[], [(1, 0)]]⟩⟩, [1], ⟨rfl, ?_⟩, ⟨rfl, ?_⟩,
    ⟨rfl, ?_⟩, rfl, rfl, rfl, rfl, ?_⟩
  · simp
  · simp
  · simp
  · intro h
    have := h 1 (by decide)
    simp [R1CSRow, mulVec, entry] at this

/-! ## C06 -/

/-- **C06**, relaxed check: on a well-formed relaxed instance the check decides
`(A z)_i (B z)_i = u (C z)_i + E_i` for all rows. -/
theorem C06_relaxed_check_decides (cs : RelaxedR1CS R) (wf : RelaxedWF cs) (z : List R) :
    (cs.checkRelation z = .ok () ↔
      z.length = cs.A.ncols ∧ ∀ i < cs.A.nrows, RelaxedRow cs z i) ∧
    (∀ i, cs.checkRelation z = .error (.notSatisfied i) ↔
      z.length = cs.A.ncols ∧ LeastViolated (RelaxedRow cs z) cs.A.nrows i) ∧
    (z.length ≠ cs.A.ncols →
      cs.checkRelation z = .error (.lengthsNotEqual cs.A.ncols z.length)) := by
  have wfA := wf.wf.wfA
  have wfB := wf.wf.wfB
  have wfC := wf.wf.wfC
  have rB := wf.wf.rowsB
  have rC := wf.wf.rowsC
  have cB := wf.wf.colsB
  have cC := wf.wf.colsC
  simp only at wfA wfB wfC rB rC cB cC
  by_cases hz : z.length = cs.A.ncols
  · have hE : cs.E = (List.range cs.A.nrows).map fun i => cs.E.getD i 0 := by
      apply List.ext_getElem
      · simp [wf.lenE]
      · intro i h1 h2; simp [h1]
    have hcheck : cs.checkRelation z = failAtFirst (fun p : R × R => decide (p.1 ≠ p.2))
        ((List.range cs.A.nrows).map fun i => (mulVec cs.A z i * mulVec cs.B z i,
          mulVec cs.C z i * cs.u + cs.E.getD i 0)) := by
      unfold RelaxedR1CS.checkRelation
      rw [matVecMul_wf wfA hz, matVecMul_wf wfB (by rw [cB, hz]), matVecMul_wf wfC (by rw [cC, hz])]
      simp only [bind_ok', rB, rC, vecScalarMul, List.map_map]
      rw [hE]
      rw [vecAdd_range]
      simp only [bind_ok', hadamard_range, zip_map_self, Function.comp]
      rw [← hE]
    rw [hcheck]
    have := failAtFirst_spec (P := RelaxedRow cs z) (n := cs.A.nrows)
      (q := fun p : R × R => decide (p.1 ≠ p.2))
      (f := fun i => (mulVec cs.A z i * mulVec cs.B z i, mulVec cs.C z i * cs.u + cs.E.getD i 0))
      (by intro i; simp [RelaxedRow, mul_comm])
    refine ⟨?_, ?_, fun h => absurd hz h⟩
    · rw [this.1]; simp [hz]
    · intro i; rw [this.2]; simp [hz]
  · unfold RelaxedR1CS.checkRelation
    rw [matVecMul_bad (Ne.symm hz)]; simp [hz]

/-- Results of a check with only three kinds of outcomes are equal if the outcomes agree. -/
theorem check_result_ext {cs : R1CS R} (wf : R1CSWF cs) {x : Res Unit} {z : List R}
    (h1 : x = .ok () ↔ z.length = cs.A.ncols ∧ R1CSHolds cs.A cs.B cs.C cs.A.nrows z)
    (h2 : ∀ i, x = .error (.notSatisfied i) ↔
      z.length = cs.A.ncols ∧ LeastViolated (R1CSRow cs.A cs.B cs.C z) cs.A.nrows i)
    (h3 : z.length ≠ cs.A.ncols → x = .error (.lengthsNotEqual cs.A.ncols z.length)) :
    x = cs.checkRelation z := by
  obtain ⟨g1, g2, g3⟩ := C05_check_decides cs wf z
  by_cases hz : z.length = cs.A.ncols
  · by_cases hall : R1CSHolds cs.A cs.B cs.C cs.A.nrows z
    · rw [h1.2 ⟨hz, hall⟩, g1.2 ⟨hz, hall⟩]
    · have : ∃ i, LeastViolated (R1CSRow cs.A cs.B cs.C z) cs.A.nrows i := by
        classical
        simp only [R1CSHolds, not_forall] at hall
        have hex : ∃ i, i < cs.A.nrows ∧ ¬ R1CSRow cs.A cs.B cs.C z i := by
          obtain ⟨i, hi, hn⟩ := hall; exact ⟨i, hi, hn⟩
        refine ⟨Nat.find hex, (Nat.find_spec hex).1, (Nat.find_spec hex).2, fun j hj => ?_⟩
        have := Nat.find_min hex hj
        by_contra hcon
        exact this ⟨lt_trans hj (Nat.find_spec hex).1, hcon⟩
      obtain ⟨i, hi⟩ := this
      rw [(h2 i).2 ⟨hz, hi⟩, (g2 i).2 ⟨hz, hi⟩]
  · rw [h3 hz, g3 hz]

/-- **C06**, relaxing gives a well-formed relaxed instance with the same verdict on every `z`. -/
theorem C06_relax_same_verdict (cs : R1CS R) (wf : R1CSWF cs) (z : List R) :
    RelaxedWF cs.relax ∧ cs.relax.checkRelation z = cs.checkRelation z := by
  have wfr : RelaxedWF cs.relax := ⟨wf, by simp [R1CS.relax]⟩
  refine ⟨wfr, ?_⟩
  obtain ⟨h1, h2, h3⟩ := C06_relaxed_check_decides cs.relax wfr z
  have hrow : ∀ i, RelaxedRow cs.relax z i ↔ R1CSRow cs.A cs.B cs.C z i := by
    intro i
    have : (List.replicate cs.A.nrows (0 : R)).getD i 0 = 0 := by
      by_cases h : i < cs.A.nrows <;> simp [List.getD_eq_getElem?_getD, h]
    simp only [RelaxedRow, R1CSRow, R1CS.relax, this, one_mul, add_zero]
  have hrow' : RelaxedRow cs.relax z = R1CSRow cs.A cs.B cs.C z := by
    funext i; exact propext (hrow i)
  refine check_result_ext wf ?_ ?_ ?_
  · rw [h1, hrow']; rfl
  · intro i; rw [h2 i, hrow']; rfl
  · exact h3

example : exR1CS.relax.checkRelation [0, 1, 0] = .ok () := by rfl
example : RelaxedWF exR1CS.relax := (C06_relax_same_verdict exR1CS exR1CS_wf []).1

/-! ## C08 (used by C07) -/

/-- **C08**: on a well-formed CCS and a `z` of length `n` the check decides the CCS relation and
reports the least violated row. -/
theorem C08_check_decides (ccs : CCS R) (wf : CCSWF ccs) (z : List R) (hz : z.length = ccs.n) :
    (ccs.checkRelation z = .ok () ↔ CCSHolds ccs z) ∧
    (∀ i, ccs.checkRelation z = .error (.notSatisfied i) ↔
      LeastViolated (fun i => ccsRow ccs z i = 0) ccs.m i) := by
  rw [ccs_check_eq wf hz]
  exact failAtFirst_spec (P := fun i => ccsRow ccs z i = 0) (n := ccs.m)
      (q := fun x : R => decide (x ≠ 0)) (f := fun i => ccsRow ccs z i)
      (by intro i; simp)

/-- **C08**, wrong length: if the first multiset is non-empty, a `z` of the wrong length gives the
length error. -/
theorem C08_check_wrong_length (ccs : CCS R) (wf : CCSWF ccs) (z : List R) (hz : z.length ≠ ccs.n)
    (hq : 0 < ccs.q) (hS : ccs.S.getD 0 [] ≠ []) :
    ccs.checkRelation z = .error (.lengthsNotEqual ccs.n z.length) := by
  unfold CCS.checkRelation
  obtain ⟨q, hq'⟩ : ∃ q, ccs.q = q + 1 := ⟨ccs.q - 1, by omega⟩
  have hkS : 0 < ccs.S.length := by rw [wf.lenS]; exact hq
  have hmem : ccs.S.getD 0 [] ∈ ccs.S := by simp [hkS]
  rw [hq', List.range_succ_eq_map]
  simp only [foldRes]
  rw [idx_getD [] hkS]
  simp only [bind_ok']
  rw [mapRes_ok (g := fun j => ccs.M.getD j ⟨0, 0, []⟩)
      (fun j hj => idx_getD _ (wf.idxS _ hmem j hj))]
  simp only [bind_ok', CCS.hadamardChain]
  obtain ⟨j, js, hjs⟩ := List.exists_cons_of_ne_nil hS
  have hj' := wf.idxS _ hmem j (by rw [hjs]; simp)
  have hn := (wf.wfM (ccs.M.getD j ⟨0, 0, []⟩) (by simp [hj'])).2
  rw [hjs]
  simp only [List.map_cons, foldRes]
  rw [matVecMul_bad (by rw [hn]; exact Ne.symm hz), hn]
  rfl

/-- A CCS that is not R1CS-shaped: one row `z0^3 - 2 z1 z1 + 5 z2 = 0` with a repeated matrix. -/
def exCCS : CCS Int :=
  { m := 1, n := 3, l := 1, t := 3, q := 3, d := 3, s := 0, s_prime := 2
    M := [⟨1, 3, [[(1, 0)]]⟩, ⟨1, 3, [[(1, 1)]]⟩, ⟨1, 3, [[(1, 2)]]⟩]
    S := [[0, 0, 0], [1, 1], [2]]
    c := [1, -2, 5] }

theorem exCCS_wf : CCSWF exCCS := by
  refine ⟨?_, rfl, rfl, ?_⟩
  · intro M hM
    simp only [exCCS, List.mem_cons, List.not_mem_nil, or_false] at hM
    rcases hM with rfl | rfl | rfl <;> exact ⟨⟨rfl, by simp⟩, rfl⟩
  · simp [exCCS]

example : CCSHolds exCCS [2, 3, 2] := by
  have := (C08_check_decides exCCS exCCS_wf [2, 3, 2] rfl).1.1 rfl
  exact this
example : exCCS.checkRelation [1, 1, 1] = .error (.notSatisfied 0) := by rfl
example : exCCS.checkRelation [1, 1] = .error (.lengthsNotEqual 3 2) := by rfl

/-! ## C07 -/

theorem fromR1CS_wf (cs : R1CS R) (wf : R1CSWF cs) (W : Nat) : CCSWF (CCS.fromR1CS cs W) := by
  refine ⟨?_, rfl, rfl, ?_⟩
  · intro M hM
    simp only [CCS.fromR1CS, List.mem_cons, List.not_mem_nil, or_false] at hM
    rcases hM with rfl | rfl | rfl
    · exact ⟨wf.wfA, rfl⟩
    · exact ⟨wf.wfB, wf.colsB⟩
    · exact ⟨wf.wfC, wf.colsC⟩
  · simp [CCS.fromR1CS]

/-- A CCS of the shape produced from R1CS matrices (possibly padded) with `m` rows. -/
theorem r1csShaped_check (cs : R1CS R) (ccs : CCS R)
    (hq : ccs.q = 2) (hS : ccs.S = [[0, 1], [2]]) (hc : ccs.c = [1, -1]) (hn : ccs.n = cs.A.ncols)
    (A B C : SpMat R) (hM : ccs.M = [A, B, C]) (wA : A.WF) (wB : B.WF) (wC : C.WF)
    (cA : A.ncols = ccs.n) (cB : B.ncols = ccs.n) (cC : C.ncols = ccs.n)
    (eA : ∀ z i, mulVec A z i = mulVec cs.A z i) (eB : ∀ z i, mulVec B z i = mulVec cs.B z i)
    (eC : ∀ z i, mulVec C z i = mulVec cs.C z i) (z : List R) :
    (ccs.checkRelation z = .ok () ↔
      z.length = cs.A.ncols ∧ R1CSHolds cs.A cs.B cs.C ccs.m z) ∧
    (∀ i, ccs.checkRelation z = .error (.notSatisfied i) ↔
      z.length = cs.A.ncols ∧ LeastViolated (R1CSRow cs.A cs.B cs.C z) ccs.m i) ∧
    (z.length ≠ cs.A.ncols →
      ccs.checkRelation z = .error (.lengthsNotEqual cs.A.ncols z.length)) := by
  have wfc : CCSWF ccs := by
    refine ⟨?_, by rw [hS, hq]; rfl, by rw [hc, hq]; rfl, ?_⟩
    · intro M hM'
      rw [hM] at hM'
      simp only [List.mem_cons, List.not_mem_nil, or_false] at hM'
      rcases hM' with rfl | rfl | rfl
      · exact ⟨wA, cA⟩
      · exact ⟨wB, cB⟩
      · exact ⟨wC, cC⟩
    · rw [hS, hM]; simp
  have hrow : ∀ i, (ccsRow ccs z i = 0) = R1CSRow cs.A cs.B cs.C z i := by
    intro i
    unfold ccsRow R1CSRow
    rw [hq, hS, hc, hM]
    simp only [Finset.sum_range_succ, Finset.sum_range_zero, zero_add, List.getD_cons_zero,
      List.getD_cons_succ, List.map_cons, List.map_nil, List.prod_cons, List.prod_nil, mul_one,
      one_mul, eA, eB, eC]
    rw [neg_one_mul, ← sub_eq_add_neg, sub_eq_zero]
  by_cases hz : z.length = cs.A.ncols
  · have := C08_check_decides ccs wfc z (by rw [hn, hz])
    rw [show (fun i => ccsRow ccs z i = 0) = R1CSRow cs.A cs.B cs.C z from funext hrow] at this
    refine ⟨?_, ?_, fun h => absurd hz h⟩
    · rw [this.1]; simp only [hz, true_and]; unfold CCSHolds R1CSHolds; simp only [hrow]
    · intro i; rw [this.2 i]; simp only [hz, true_and]
  · have := C08_check_wrong_length ccs wfc z (by rw [hn]; exact hz) (by omega) (by rw [hS]; simp)
    rw [hn] at this
    simp [this, hz]

/-- **C07**, exact meaning for every `W`: the converted CCS checks exactly the first `W` rows
(rows beyond the matrices are trivially true). -/
theorem C07_fromR1CS_exact (cs : R1CS R) (wf : R1CSWF cs) (W : Nat) (z : List R) :
    ((CCS.fromR1CS cs W).checkRelation z = .ok () ↔
      z.length = cs.A.ncols ∧ R1CSHolds cs.A cs.B cs.C W z) :=
  (r1csShaped_check cs (CCS.fromR1CS cs W) rfl rfl rfl rfl cs.A cs.B cs.C rfl wf.wfA wf.wfB
    wf.wfC rfl wf.colsB wf.colsC (fun _ _ => rfl) (fun _ _ => rfl) (fun _ _ => rfl) z).1

theorem R1CSRow_out (cs : R1CS R) (wf : R1CSWF cs) (z : List R) (i : Nat) (hi : cs.A.nrows ≤ i) :
    R1CSRow cs.A cs.B cs.C z i := by
  unfold R1CSRow
  rw [mulVec_out wf.wfA z hi, mulVec_out wf.wfC z (by rw [wf.rowsC]; exact hi), zero_mul]

theorem holds_extend (cs : R1CS R) (wf : R1CSWF cs) (z : List R) (m : Nat) (hm : cs.A.nrows ≤ m) :
    (R1CSHolds cs.A cs.B cs.C m z ↔ R1CSHolds cs.A cs.B cs.C cs.A.nrows z) ∧
    ∀ i, LeastViolated (R1CSRow cs.A cs.B cs.C z) m i ↔
      LeastViolated (R1CSRow cs.A cs.B cs.C z) cs.A.nrows i := by
  constructor
  · constructor
    · intro h i hi; exact h i (by omega)
    · intro h i hi
      by_cases h' : i < cs.A.nrows
      · exact h i h'
      · exact R1CSRow_out cs wf z i (by omega)
  · intro i
    unfold LeastViolated
    constructor
    · rintro ⟨h1, h2, h3⟩
      refine ⟨?_, h2, h3⟩
      by_contra h'
      exact h2 (R1CSRow_out cs wf z i (by omega))
    · rintro ⟨h1, h2, h3⟩
      exact ⟨by omega, h2, h3⟩

/-- **C07**: with at least as many CCS rows as R1CS rows the two checks return the same result
(including the first failing row and length errors) on every `z`. -/
theorem C07_fromR1CS_same_verdict (cs : R1CS R) (wf : R1CSWF cs) (W : Nat) (hW : cs.A.nrows ≤ W)
    (z : List R) : (CCS.fromR1CS cs W).checkRelation z = cs.checkRelation z := by
  obtain ⟨h1, h2, h3⟩ := r1csShaped_check cs (CCS.fromR1CS cs W) rfl rfl rfl rfl cs.A cs.B cs.C
    rfl wf.wfA wf.wfB wf.wfC rfl wf.colsB wf.colsC (fun _ _ => rfl) (fun _ _ => rfl)
    (fun _ _ => rfl) z
  have he := holds_extend cs wf z W hW
  refine check_result_ext wf ?_ ?_ h3
  · rw [h1]; exact and_congr_right fun _ => he.1
  · intro i; rw [h2 i]; exact and_congr_right fun _ => he.2 i

/-- What padding does to an R1CS-shaped CCS. -/
theorem padRowsTo_check (cs : R1CS R) (wf : R1CSWF cs) (W size : Nat) (hW : cs.A.nrows ≤ W)
    (z : List R) : ((CCS.fromR1CS cs W).padRowsTo size).checkRelation z = cs.checkRelation z := by
  unfold CCS.padRowsTo
  simp only
  split
  · rename_i hgt
    obtain ⟨h1, h2, h3⟩ := r1csShaped_check cs
      { CCS.fromR1CS cs W with
        m := nextPow2 size, s := arkLog2 (nextPow2 size),
        M := (CCS.fromR1CS cs W).M.map (·.padRows (nextPow2 size)) }
      rfl rfl rfl rfl (cs.A.padRows (nextPow2 size)) (cs.B.padRows (nextPow2 size))
      (cs.C.padRows (nextPow2 size)) rfl
      (padRows_wf wf.wfA _) (padRows_wf wf.wfB _) (padRows_wf wf.wfC _)
      (padRows_ncols _ _) (by rw [padRows_ncols]; exact wf.colsB)
      (by rw [padRows_ncols]; exact wf.colsC)
      (fun _ _ => padRows_mulVec _ _ _ _) (fun _ _ => padRows_mulVec _ _ _ _)
      (fun _ _ => padRows_mulVec _ _ _ _) z
    have hm : cs.A.nrows ≤ nextPow2 size := by
      have : (CCS.fromR1CS cs W).m = W := rfl
      rw [this] at hgt; omega
    have he := holds_extend cs wf z _ hm
    refine check_result_ext wf ?_ ?_ h3
    · rw [h1]; exact and_congr_right fun _ => he.1
    · intro i; rw [h2 i]; exact and_congr_right fun _ => he.2 i
  · exact C07_fromR1CS_same_verdict cs wf W hW z

/-- **C07**, padded conversion: whenever it does not abort (and `W` covers the rows), the padded CCS
accepts exactly the same assignments with the same first failing row. -/
theorem C07_padded_same_verdict (cs : R1CS R) (wf : R1CSWF cs) (W L : Nat) (hW : cs.A.nrows ≤ W)
    (ccs : CCS R) (h : CCS.fromR1CSPadded cs W L = .ok ccs) (z : List R) :
    ccs.checkRelation z = cs.checkRelation z := by
  unfold CCS.fromR1CSPadded at h
  simp only [bind_eq_ok] at h
  obtain ⟨a, _, b, _, h⟩ := h
  simp only [Except.ok.injEq] at h
  subst h
  exact padRowsTo_check cs wf W _ hW z

/-- **C07 fails for `W` below the number of rows**: the converted CCS accepts an assignment the R1CS
rejects. -/
theorem C07_truncation_counterexample :
    ∃ (cs : R1CS Int) (W : Nat) (z : List Int), R1CSWF cs ∧ W < cs.A.nrows ∧
      (CCS.fromR1CS cs W).checkRelation z = .ok () ∧
      cs.checkRelation z = .error (.notSatisfied 1) := by
  exact ⟨exR1CS, 1, [3, 1, 9], exR1CS_wf, by decide, rfl, rfl⟩

/-- Even the padded conversion can lose rows when `W` is too small. -/
theorem C07_padded_truncation_counterexample :
    ∃ (cs : R1CS Int) (W L : Nat) (z : List Int) (ccs : CCS Int), R1CSWF cs ∧
      CCS.fromR1CSPadded cs W L = .ok ccs ∧ ccs.checkRelation z = .ok () ∧
      cs.checkRelation z = .error (.notSatisfied 1) := by
  refine ⟨exR1CS, 1, 1, [3, 1, 9], CCS.fromR1CS exR1CS 1, exR1CS_wf, ?_, rfl, rfl⟩
  have h1 : (CCS.fromR1CS exR1CS 1).n = 3 := rfl
  have h2 : (CCS.fromR1CS exR1CS 1).l = 1 := rfl
  have h3 : (CCS.fromR1CS exR1CS 1).m = 1 := rfl
  simp [CCS.fromR1CSPadded, h1, h2, h3, usub, CCS.padRowsTo, nextPow2]

example : ∃ ccs, CCS.fromR1CSPadded exR1CS 2 3 = .ok ccs ∧ ccs.m = 4 ∧
    ccs.checkRelation [0, 1, 0] = .ok () := by
  have hc : Nat.clog 2 3 = 2 := by decide
  have hc4 : Nat.clog 2 4 = 2 := by decide
  obtain ⟨ccs, h⟩ : ∃ ccs, CCS.fromR1CSPadded exR1CS 2 3 = .ok ccs := ⟨_, rfl⟩
  refine ⟨ccs, h, ?_, ?_⟩
  · have h1 : (CCS.fromR1CS exR1CS 2).n = 3 := rfl
    have h2 : (CCS.fromR1CS exR1CS 2).l = 1 := rfl
    have h3 : (CCS.fromR1CS exR1CS 2).m = 2 := rfl
    simp [CCS.fromR1CSPadded, h1, h2, h3, usub, CCS.padRowsTo, nextPow2, hc, hc4] at h
    subst h; rfl
  · rw [C07_padded_same_verdict exR1CS exR1CS_wf 2 3 (by decide) ccs h]; rfl

/-! ## C09 -/

/-- **C09**, unpadded: converting to CCS and back is the identity. -/
theorem C09_roundtrip (cs : R1CS R) (W : Nat) : (CCS.fromR1CS cs W).toR1CS = .ok cs := rfl

/-- **C09**, padded: the round trip keeps the public input length, stays well formed, and accepts
exactly the same assignments with the same first failing row (for every `W`). -/
theorem C09_roundtrip_padded (cs : R1CS R) (wf : R1CSWF cs) (W L : Nat) (ccs : CCS R)
    (h : CCS.fromR1CSPadded cs W L = .ok ccs) :
    ∃ cs', ccs.toR1CS = .ok cs' ∧ cs'.l = cs.l ∧ R1CSWF cs' ∧ cs'.A.ncols = cs.A.ncols ∧
      ∀ z, cs'.checkRelation z = cs.checkRelation z := by
  unfold CCS.fromR1CSPadded at h
  simp only [bind_eq_ok] at h
  obtain ⟨a, _, b, _, h⟩ := h
  simp only [Except.ok.injEq] at h
  subst h
  unfold CCS.padRowsTo
  simp only
  split
  · generalize nextPow2 (nextPow2 (max (b * L) (CCS.fromR1CS cs W).m)) = size
    refine ⟨⟨cs.l, cs.A.padRows size, cs.B.padRows size, cs.C.padRows size⟩, rfl, rfl, ?_,
      padRows_ncols _ _, ?_⟩
    · refine ⟨padRows_wf wf.wfA _, padRows_wf wf.wfB _, padRows_wf wf.wfC _, ?_, ?_, ?_, ?_⟩
      · simp [padRows_nrows, wf.rowsB]
      · simp [padRows_nrows, wf.rowsC]
      · simp [padRows_ncols, wf.colsB]
      · simp [padRows_ncols, wf.colsC]
    · intro z
      have wf' : R1CSWF (⟨cs.l, cs.A.padRows size, cs.B.padRows size, cs.C.padRows size⟩ : R1CS R) :=
        ⟨padRows_wf wf.wfA _, padRows_wf wf.wfB _, padRows_wf wf.wfC _,
          by simp [padRows_nrows, wf.rowsB], by simp [padRows_nrows, wf.rowsC],
          by simp [padRows_ncols, wf.colsB], by simp [padRows_ncols, wf.colsC]⟩
      obtain ⟨h1, h2, h3⟩ := C05_check_decides _ wf' z
      have hrow : R1CSRow (cs.A.padRows size) (cs.B.padRows size) (cs.C.padRows size) z
          = R1CSRow cs.A cs.B cs.C z := by
        funext i; simp only [R1CSRow, padRows_mulVec]
      have hlen : (cs.A.padRows size).ncols = cs.A.ncols := padRows_ncols _ _
      have hm : cs.A.nrows ≤ (cs.A.padRows size).nrows := by rw [padRows_nrows]; omega
      have he := holds_extend cs wf z _ hm
      simp only at h1 h2 h3
      rw [hlen] at h1 h3
      refine check_result_ext wf ?_ ?_ h3
      · rw [h1]; refine and_congr_right fun _ => ?_
        rw [← he.1]; unfold R1CSHolds; rw [hrow]
      · intro i; rw [h2 i, hlen]; refine and_congr_right fun _ => ?_
        rw [← he.2 i, hrow]
  · exact ⟨cs, rfl, rfl, wf, rfl, fun _ => rfl⟩

example : ∃ ccs, CCS.fromR1CSPadded exR1CS 2 3 = .ok ccs := ⟨_, rfl⟩

end Verif.Props
