import Verif.Lemmas.List
import Verif.Spec.Arith
import Mathlib.Tactic.Tauto

/-! Helper lemmas for constraint systems. -/

set_option linter.unusedSectionVars false
set_option linter.unusedSimpArgs false

namespace Verif

open Finset Spec

variable {R : Type} [CommRing R]

/-- Value of a sparse row at a vector, as a list sum. -/
def rowVal (row : List (R × Nat)) (z : List R) : R := (row.map fun t => t.1 * z.getD t.2 0).sum

theorem rowMul_ok {row : List (R × Nat)} {z : List R} (h : ∀ t ∈ row, t.2 < z.length) :
    rowMul row z = .ok (rowVal row z) := by
  unfold rowMul
  rw [mapRes_ok (g := fun t => t.1 * z.getD t.2 0)]
  · rfl
  · intro t ht
    rw [idx_getD 0 (h t ht)]

theorem rowVal_eq_sum (row : List (R × Nat)) (z : List R) (n : Nat) (h : ∀ t ∈ row, t.2 < n) :
    rowVal row z = ∑ j ∈ range n,
      ((row.filter fun t => decide (t.2 = j)).map (·.1)).sum * z.getD j 0 := by
  induction row with
  | nil => simp [rowVal]
  | cons t ts ih =>
    have ih := ih (fun x hx => h x (by simp [hx]))
    have ht : t.2 < n := h t (by simp)
    have : rowVal (t :: ts) z = t.1 * z.getD t.2 0 + rowVal ts z := by simp [rowVal]
    rw [this, ih]
    have h2 : ∀ j ∈ range n, (((t :: ts).filter fun t => decide (t.2 = j)).map (·.1)).sum * z.getD j 0
        = (if t.2 = j then t.1 * z.getD j 0 else 0)
          + ((ts.filter fun t => decide (t.2 = j)).map (·.1)).sum * z.getD j 0 := by
      intro j _
      by_cases hj : t.2 = j
      · simp [hj, add_mul]
      · simp [hj]
    rw [Finset.sum_congr rfl h2, Finset.sum_add_distrib, Finset.sum_ite_eq]
    simp [ht]

theorem matVecMul_ok {M : SpMat R} {z : List R} (hz : M.ncols = z.length)
    (h : ∀ row ∈ M.coeffs, ∀ t ∈ row, t.2 < M.ncols) :
    matVecMul M z = .ok (M.coeffs.map fun row => rowVal row z) := by
  unfold matVecMul
  simp only [hz, ne_eq, not_true_eq_false, if_false]
  exact mapRes_ok fun row hr => rowMul_ok fun t ht => hz ▸ h row hr t ht

theorem matVecMul_bad {M : SpMat R} {z : List R} (hz : M.ncols ≠ z.length) :
    matVecMul M z = .error (.lengthsNotEqual M.ncols z.length) := by
  simp [matVecMul, hz]

theorem rowVal_eq_mulVec {M : SpMat R} (hM : M.WF) (z : List R) (i : Nat) :
    rowVal (M.coeffs.getD i []) z = mulVec M z i := by
  unfold mulVec entry
  apply rowVal_eq_sum
  intro t ht
  by_cases hi : i < M.coeffs.length
  · refine hM.2 _ ?_ t ht
    simp [hi]
  · simp [List.getD_eq_getElem?_getD, List.getElem?_eq_none (Nat.le_of_not_lt hi)] at ht

theorem mulVec_out {M : SpMat R} (hM : M.WF) (z : List R) {i : Nat} (hi : M.nrows ≤ i) :
    mulVec M z i = 0 := by
  rw [← rowVal_eq_mulVec hM]
  rw [← hM.1] at hi
  simp [List.getD_eq_getElem?_getD, List.getElem?_eq_none hi, rowVal]

/-- Successful result of `mat_vec_mul` on a well-formed matrix. -/
theorem matVecMul_wf {M : SpMat R} (hM : M.WF) {z : List R} (hz : z.length = M.ncols) :
    matVecMul M z = .ok ((List.range M.nrows).map fun i => mulVec M z i) := by
  rw [matVecMul_ok hz.symm hM.2]
  congr 1
  apply List.ext_getElem
  · simp [hM.1]
  · intro i h1 h2
    simp only [List.length_map] at h1
    simp only [List.getElem_map, List.getElem_range]
    rw [← rowVal_eq_mulVec hM]
    simp [h1]

theorem failAtFirst_ok_iff {α : Type} {p : α → Bool} {l : List α} :
    failAtFirst p l = .ok () ↔ ∀ x ∈ l, p x = false := by
  unfold failAtFirst
  cases h : l.findIdx? p with
  | none => simpa [List.findIdx?_eq_none_iff] using h
  | some i =>
    rw [List.findIdx?_eq_some_iff_getElem] at h
    obtain ⟨h1, h2, _⟩ := h
    simp only [reduceCtorEq, false_iff]
    intro hall
    have := hall _ (List.getElem_mem h1)
    simp [h2] at this

theorem failAtFirst_err_iff {α : Type} {p : α → Bool} {l : List α} {i : Nat} :
    failAtFirst p l = .error (.notSatisfied i) ↔
      ∃ h : i < l.length, p l[i] = true ∧ ∀ j (hj : j < i), p l[j] = false := by
  unfold failAtFirst
  cases h : l.findIdx? p with
  | none =>
    simp only [List.findIdx?_eq_none_iff] at h
    simp only [reduceCtorEq, false_iff]
    rintro ⟨h1, h2, _⟩
    simp [h _ (List.getElem_mem h1)] at h2
  | some k =>
    rw [List.findIdx?_eq_some_iff_getElem] at h
    obtain ⟨h1, h2, h3⟩ := h
    simp only [Except.error.injEq, Err.notSatisfied.injEq]
    constructor
    · rintro rfl
      exact ⟨h1, h2, fun j hj => by simpa using h3 j hj⟩
    · rintro ⟨h4, h5, h6⟩
      rcases Nat.lt_trichotomy k i with hlt | heq | hgt
      · exact absurd (h6 k hlt) (by simp [h2])
      · exact heq
      · exact absurd (h3 i hgt) (by simp [h5])

theorem failAtFirst_range_ok {p : Nat → Bool} {n : Nat} {α : Type} {q : α → Bool} {f : Nat → α}
    (hq : ∀ i, q (f i) = p i) :
    failAtFirst q ((List.range n).map f) = .ok () ↔ ∀ i < n, p i = false := by
  rw [failAtFirst_ok_iff]; simp [hq]

theorem failAtFirst_range_err {p : Nat → Bool} {n i : Nat} {α : Type} {q : α → Bool} {f : Nat → α}
    (hq : ∀ i, q (f i) = p i) :
    failAtFirst q ((List.range n).map f) = .error (.notSatisfied i) ↔
      i < n ∧ p i = true ∧ ∀ j < i, p j = false := by
  rw [failAtFirst_err_iff]; simp [hq]; tauto

/-- The result of `failAtFirst` over a range, in terms of a row predicate. -/
theorem failAtFirst_spec {P : Nat → Prop} {n : Nat} {α : Type} {q : α → Bool} {f : Nat → α}
    (hq : ∀ i, q (f i) = true ↔ ¬ P i) :
    (failAtFirst q ((List.range n).map f) = .ok () ↔ ∀ i < n, P i) ∧
    ∀ i, failAtFirst q ((List.range n).map f) = .error (.notSatisfied i) ↔
      LeastViolated P n i := by
  classical
  have hq' : ∀ i, q (f i) = decide (¬ P i) := by
    intro i; rw [Bool.eq_iff_iff, hq]; simp
  constructor
  · rw [failAtFirst_range_ok hq']; simp
  · intro i
    rw [failAtFirst_range_err hq']
    simp [LeastViolated]

theorem zip_map_self {α β γ : Type} (f : α → β) (g : α → γ) (l : List α) :
    (l.map f).zip (l.map g) = l.map fun x => (f x, g x) := by
  induction l with
  | nil => rfl
  | cons a as ih => simp [ih]

theorem zipWith_map_self {α β γ δ : Type} (h : β → γ → δ) (f : α → β) (g : α → γ) (l : List α) :
    List.zipWith h (l.map f) (l.map g) = l.map fun x => h (f x) (g x) := by
  induction l with
  | nil => rfl
  | cons a as ih => simp [ih]

theorem hadamard_range (f g : Nat → R) (n : Nat) :
    hadamard ((List.range n).map f) ((List.range n).map g)
      = .ok ((List.range n).map fun i => f i * g i) := by
  simp [hadamard]

theorem vecAdd_range (f g : Nat → R) (n : Nat) :
    vecAdd ((List.range n).map f) ((List.range n).map g)
      = .ok ((List.range n).map fun i => f i + g i) := by
  simp [vecAdd]

theorem replicate_eq_range_map {α : Type} (n : Nat) (x : α) :
    List.replicate n x = (List.range n).map fun _ => x := by
  simp

theorem resize_range (f : Nat → R) (n m : Nat) (hf : ∀ i, n ≤ i → f i = 0) :
    resize ((List.range n).map f) m 0 = (List.range m).map f := by
  apply List.ext_getElem
  · simp [resize]; omega
  · intro i h1 h2
    simp at h2
    by_cases hi : i < n
    · simp [resize, List.getElem_append, hi]; omega
    · simp [resize, List.getElem_append, hi, hf i (by omega)]

theorem sum_map_range {M : Type} [AddCommMonoid M] (f : Nat → M) (n : Nat) :
    ((List.range n).map f).sum = ∑ k ∈ range n, f k := by
  induction n with
  | zero => rfl
  | succ n ih => rw [List.range_succ, List.map_append, List.sum_append, ih, Finset.sum_range_succ]; simp

section
variable [DecidableEq R]

theorem r1cs_check_eq {cs : R1CS R} (wf : R1CSWF cs) {z : List R} (hz : z.length = cs.A.ncols) :
    cs.checkRelation z = failAtFirst (fun p : R × R => decide (p.1 ≠ p.2))
      ((List.range cs.A.nrows).map fun i =>
        (mulVec cs.A z i * mulVec cs.B z i, mulVec cs.C z i)) := by
  unfold R1CS.checkRelation
  rw [matVecMul_wf wf.wfA hz, matVecMul_wf wf.wfB (by rw [wf.colsB, hz]),
    matVecMul_wf wf.wfC (by rw [wf.colsC, hz])]
  simp only [bind_ok', wf.rowsB, wf.rowsC, hadamard_range, zip_map_self]

theorem r1cs_check_bad {cs : R1CS R} {z : List R} (hz : z.length ≠ cs.A.ncols) :
    cs.checkRelation z = .error (.lengthsNotEqual cs.A.ncols z.length) := by
  unfold R1CS.checkRelation
  rw [matVecMul_bad (Ne.symm hz)]; rfl

theorem hadamardChain_range (m : Nat) (z : List R) (Ms : List (SpMat R))
    (hM : ∀ M ∈ Ms, M.WF ∧ z.length = M.ncols) (F : Nat → R) :
    foldRes (fun acc M => do
      let res ← matVecMul M z
      hadamard acc (resize res m 0)) ((List.range m).map F) Ms
      = .ok ((List.range m).map fun i => F i * (Ms.map fun M => mulVec M z i).prod) := by
  induction Ms generalizing F with
  | nil => simp [foldRes]
  | cons M Ms ih =>
    have h1 := hM M (by simp)
    simp only [foldRes]
    rw [matVecMul_wf h1.1 h1.2]
    simp only [bind_ok']
    rw [resize_range _ _ _ (fun i hi => mulVec_out h1.1 z hi), hadamard_range]
    simp only
    rw [ih (fun M hM' => hM M (by simp [hM']))]
    simp [mul_assoc]

theorem ccs_check_eq {ccs : CCS R} (wf : CCSWF ccs) {z : List R} (hz : z.length = ccs.n) :
    ccs.checkRelation z = failAtFirst (fun x : R => decide (x ≠ 0))
      ((List.range ccs.m).map fun i => ccsRow ccs z i) := by
  unfold CCS.checkRelation
  have step : ∀ k < ccs.q, ∀ F : Nat → R, (do
        let Si ← idx "check_relation.S" ccs.S k
        let Ms ← mapRes (fun j => idx "check_relation.M" ccs.M j) Si
        let had ← CCS.hadamardChain ccs.m z Ms
        let ci ← idx "check_relation.c" ccs.c k
        vecAdd ((List.range ccs.m).map F) (vecScalarMul had ci))
      = .ok ((List.range ccs.m).map fun i => F i + ccs.c.getD k 0 *
          ((ccs.S.getD k []).map fun j => mulVec (ccs.M.getD j ⟨0, 0, []⟩) z i).prod) := by
    intro k hk F
    have hkS : k < ccs.S.length := by rw [wf.lenS]; exact hk
    have hkc : k < ccs.c.length := by rw [wf.lenC]; exact hk
    have hmem : ccs.S.getD k [] ∈ ccs.S := by simp [hkS]
    rw [idx_getD [] hkS]
    simp only [bind_ok']
    rw [mapRes_ok (g := fun j => ccs.M.getD j ⟨0, 0, []⟩)
      (fun j hj => idx_getD _ (wf.idxS _ hmem j hj))]
    simp only [bind_ok', CCS.hadamardChain]
    rw [replicate_eq_range_map, hadamardChain_range]
    · simp only [bind_ok', idx_getD 0 hkc, vecScalarMul, List.map_map]
      rw [vecAdd_range]
      simp [Function.comp_def, mul_comm]
    · intro M hM
      obtain ⟨j, hj, rfl⟩ := List.mem_map.1 hM
      have hj' := wf.idxS _ hmem j hj
      have := wf.wfM (ccs.M.getD j ⟨0, 0, []⟩) (by simp [hj'])
      exact ⟨this.1, by rw [hz, this.2]⟩
  have key : ∀ (ks : List Nat), (∀ k ∈ ks, k < ccs.q) → ∀ F : Nat → R,
      foldRes (fun result i => do
        let Si ← idx "check_relation.S" ccs.S i
        let Ms ← mapRes (fun j => idx "check_relation.M" ccs.M j) Si
        let had ← CCS.hadamardChain ccs.m z Ms
        let ci ← idx "check_relation.c" ccs.c i
        vecAdd result (vecScalarMul had ci)) ((List.range ccs.m).map F) ks
      = .ok ((List.range ccs.m).map fun i => F i + (ks.map fun k => ccs.c.getD k 0 *
          ((ccs.S.getD k []).map fun j => mulVec (ccs.M.getD j ⟨0, 0, []⟩) z i).prod).sum) := by
    intro ks hks
    induction ks with
    | nil => intro F; simp [foldRes]
    | cons k ks ih =>
      intro F
      simp only [foldRes]
      rw [step k (hks k (by simp)) F]
      simp only
      rw [ih (fun k hk => hks k (by simp [hk]))]
      simp [add_assoc]
  rw [replicate_eq_range_map, key _ (by simp)]
  simp only [bind_ok', sum_map_range, zero_add]
  rfl

end

theorem padRows_wf {M : SpMat R} (h : M.WF) (size : Nat) : (M.padRows size).WF := by
  unfold SpMat.padRows
  split
  · refine ⟨by simp [h.1]; omega, ?_⟩
    intro row hrow t ht
    simp only [List.mem_append, List.mem_replicate] at hrow
    rcases hrow with hrow | ⟨_, rfl⟩
    · exact h.2 row hrow t ht
    · simp at ht
  · exact h

theorem padRows_ncols (M : SpMat R) (size : Nat) : (M.padRows size).ncols = M.ncols := by
  unfold SpMat.padRows; split <;> rfl

theorem padRows_nrows (M : SpMat R) (size : Nat) : (M.padRows size).nrows = max M.nrows size := by
  unfold SpMat.padRows; split
  · simp; omega
  · omega

theorem padRows_mulVec (M : SpMat R) (size : Nat) (z : List R) (i : Nat) :
    mulVec (M.padRows size) z i = mulVec M z i := by
  unfold mulVec
  rw [padRows_ncols]
  refine Finset.sum_congr rfl fun j _ => ?_
  congr 1
  unfold entry SpMat.padRows
  split
  · simp only [List.getD_eq_getElem?_getD, List.getElem?_append]
    split
    · rfl
    · rename_i h1 h2
      rw [List.getElem?_eq_none (Nat.le_of_not_lt h2), List.getElem?_replicate]
      split <;> rfl
  · rfl

end Verif
