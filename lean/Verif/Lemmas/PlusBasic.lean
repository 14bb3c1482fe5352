import Verif.Model.PlusRange
import Verif.Spec.Plus
import Verif.Lemmas.Comb
import Verif.Lemmas.Sumcheck
import Mathlib.Algebra.BigOperators.Fin
import Mathlib.Algebra.Module.BigOperators

/-! Basic lemmas for the `latticefold-plus` models. -/

set_option linter.unusedSectionVars false
set_option linter.unusedSimpArgs false

namespace Verif.Plus

open Finset Spec

variable {F R σ : Type} {d : Nat}

/-! ### MLE evaluation and matrix products -/

section
variable [CommRing R]

theorem evalVec_ok (nv : Nat) (v p : List R) (h : v.length ≤ 2 ^ nv) (hp : p.length = nv) :
    evalVec nv v p = .ok (mle (fun i => v.getD i 0) p) := by
  unfold evalVec
  rw [fromEvals_ok nv v h]
  simp only [bind_ok']
  rw [evaluate_eq, if_pos (by simpa using hp)]
  rfl

theorem tryMulVec_wf {M : SpMat R} (hM : M.WF) {z : List R} (hz : z.length = M.ncols) :
    M.tryMulVec z = .ok ((List.range M.nrows).map fun i => mulVec M z i) := by
  have h1 := matVecMul_wf hM hz
  rw [matVecMul_ok hz.symm hM.2] at h1
  rw [← h1]
  unfold SpMat.tryMulVec
  rw [if_pos hz]
  apply mapRes_ok
  intro row hr
  rw [mapRes_ok (g := fun t : R × Nat => t.1 * z.getD t.2 0)]
  · rfl
  · intro t ht
    rw [idx_getD 0 (by rw [hz]; exact hM.2 row hr t ht)]
    rfl

theorem tryMulVec_bad {M : SpMat R} {z : List R} (hz : z.length ≠ M.ncols) :
    M.tryMulVec z = .error (.panic "try_mul_vec") := by
  unfold SpMat.tryMulVec
  rw [if_neg hz]

theorem mat_tryMulVec_ok {A : Mat R} {v : List R} (h : v.length = A.ncols) :
    A.tryMulVec v = .ok (A.vals.map fun row => dot row v) := by
  unfold Mat.tryMulVec Mat.checkedMulVec
  rw [if_pos h]

/-! ### Scattering sparse rows -/

theorem foldl_set_length (g : R → R) (l : List (R × Nat)) (acc : List R) :
    (l.foldl (fun acc t => acc.set t.2 (g t.1)) acc).length = acc.length := by
  induction l generalizing acc with
  | nil => rfl
  | cons t l ih => rw [List.foldl_cons, ih, List.length_set]

theorem foldl_set_getD (g : R → R) (l : List (R × Nat)) (acc : List R) (i : Nat) (hi : i < acc.length) :
    (l.foldl (fun acc t => acc.set t.2 (g t.1)) acc).getD i 0
      = (((l.filter fun t => decide (t.2 = i)).getLast?).map fun t => g t.1).getD (acc.getD i 0) := by
  induction l generalizing acc with
  | nil => simp
  | cons t l ih =>
    rw [List.foldl_cons, ih _ (by simpa using hi), List.filter_cons]
    by_cases h : t.2 = i
    · rw [if_pos (by simpa using h)]
      rw [List.getLast?_cons]
      cases hl : (l.filter fun t => decide (t.2 = i)).getLast? with
      | none => simp [List.getD_eq_getElem?_getD, h, hi]
      | some x => simp
    · rw [if_neg (by simpa using h)]
      have : (acc.set t.2 (g t.1)).getD i 0 = acc.getD i 0 := by
        simp [List.getD_eq_getElem?_getD, List.getElem?_set, h]
      rw [this]

theorem foldRes_set (g : R → R) (l : List (R × Nat)) (acc : List R) (h : ∀ t ∈ l, t.2 < acc.length) :
    foldRes (fun (acc : List R) (t : R × Nat) =>
      if t.2 < acc.length then .ok (acc.set t.2 (g t.1)) else .error (.panic "m_j[*i]")) acc l
      = .ok (l.foldl (fun acc t => acc.set t.2 (g t.1)) acc) := by
  induction l generalizing acc with
  | nil => rfl
  | cons t l ih =>
    unfold foldRes
    rw [if_pos (h t (by simp))]
    exact ih _ fun t' ht' => by rw [List.length_set]; exact h t' (by simp [ht'])

/-- Row `j` of the transpose. -/
def tRow (M : SpMat R) (j : Nat) : List (R × Nat) :=
  M.coeffs.zipIdx.flatMap fun p => p.1.filterMap fun t => if t.2 = j then some (t.1, p.2) else none

theorem transpose_coeffs (M : SpMat R) : M.transpose.coeffs = (List.range M.ncols).map (tRow M) := rfl

theorem filter_tRow_aux (rows : List (List (R × Nat))) (j i k : Nat) :
    ((rows.zipIdx k).flatMap fun p => p.1.filterMap fun t =>
        if t.2 = j then some (t.1, p.2) else none).filter (fun t => decide (t.2 = i + k))
      = (((rows.getD i []).filter fun t => decide (t.2 = j)).map fun t => (t.1, i + k)) := by
  induction rows generalizing i k with
  | nil => simp
  | cons row rows ih =>
    rw [List.zipIdx_cons, List.flatMap_cons, List.filter_append]
    cases i with
    | zero =>
      have h1 : ((rows.zipIdx (k + 1)).flatMap fun p => p.1.filterMap fun t =>
          if t.2 = j then some (t.1, p.2) else none).filter (fun t => decide (t.2 = 0 + k)) = [] := by
        rw [List.filter_eq_nil_iff]
        intro t ht
        simp only [List.mem_flatMap, List.mem_filterMap] at ht
        obtain ⟨p, hp, q, -, hq⟩ := ht
        have := List.mem_zipIdx hp
        split at hq
        · simp only [Option.some.injEq] at hq
          subst hq
          simp only [decide_eq_true_eq]
          omega
        · simp at hq
      rw [h1, List.append_nil]
      simp only [List.getD_cons_zero, Nat.zero_add]
      induction row with
      | nil => simp
      | cons t row ih2 =>
        by_cases ht : t.2 = j
        · simp only [List.filterMap_cons, ht, if_true, List.filter_cons, decide_true, List.map_cons]
          rw [ih2]
        · simp only [List.filterMap_cons, ht, if_false, List.filter_cons, decide_false]
          rw [ih2]; simp
    | succ i =>
      have h1 : (row.filterMap fun t => if t.2 = j then some (t.1, k) else none).filter
          (fun t => decide (t.2 = i + 1 + k)) = [] := by
        rw [List.filter_eq_nil_iff]
        intro t ht
        simp only [List.mem_filterMap] at ht
        obtain ⟨q, -, hq⟩ := ht
        split at hq
        · simp only [Option.some.injEq] at hq
          subst hq
          simp only [decide_eq_true_eq]
          omega
        · simp at hq
      rw [h1, List.nil_append, List.getD_cons_succ]
      have := ih i (k + 1)
      rw [show i + (k + 1) = i + 1 + k by omega] at this
      exact this

theorem tRow_mem {M : SpMat R} {j : Nat} {t : R × Nat} (h : t ∈ tRow M j) : t.2 < M.coeffs.length := by
  unfold tRow at h
  simp only [List.mem_flatMap, List.mem_filterMap] at h
  obtain ⟨p, hp, q, -, hq⟩ := h
  have := List.mem_zipIdx hp
  split at hq
  · simp only [Option.some.injEq] at hq
    subst hq
    omega
  · simp at hq

theorem scatter_tRow (M : SpMat R) (j : Nat) (g : R → R) (hg : g 0 = 0) (h : M.coeffs.length ≤ M.nrows) :
    scatter g M.nrows (tRow M j) = .ok ((List.range M.nrows).map fun i => g (lastEntry M i j)) := by
  unfold scatter
  rw [foldRes_set]
  · congr 1
    apply ext_getD (n := M.nrows)
    · rw [foldl_set_length]; simp
    · simp
    · intro i hi
      rw [foldl_set_getD _ _ _ _ (by simpa using hi), getD_map_range _ _ hi]
      have := filter_tRow_aux M.coeffs j i 0
      simp only [Nat.add_zero] at this
      unfold tRow lastEntry
      rw [this, List.getLast?_map]
      cases hl : ((M.coeffs.getD i []).filter fun t => decide (t.2 = j)).getLast? with
      | none => simp [List.getD_eq_getElem?_getD, hi, hg]
      | some x => simp
  · intro t ht
    have := tRow_mem ht
    simp only [List.length_replicate]
    omega

theorem lastEntry_out (M : SpMat R) {i : Nat} (j : Nat) (h : M.coeffs.length ≤ i) : lastEntry M i j = 0 := by
  unfold lastEntry
  simp [List.getD_eq_getElem?_getD, h]

theorem lastEntry_fromDense (D : Mat R) (i j : Nat) : lastEntry (SpMat.fromDense D) i j = matEntry D i j := by
  unfold lastEntry matEntry SpMat.fromDense
  have hrow : (D.vals.map fun row => row.zipIdx).getD i [] = (D.vals.getD i []).zipIdx := by
    simp only [List.getD_eq_getElem?_getD, List.getElem?_map]
    cases D.vals[i]? <;> simp
  rw [hrow]
  generalize D.vals.getD i [] = row
  suffices h : ∀ k, ((row.zipIdx k).filter fun t => decide (t.2 = j + k))
      = if j < row.length then [(row.getD j 0, j + k)] else [] by
    have := h 0
    simp only [Nat.add_zero] at this
    rw [this]
    by_cases hj : j < row.length
    · simp [hj]
    · rw [if_neg hj, getD_out row (by omega)]; simp
  induction row generalizing j with
  | nil => simp
  | cons a row ih =>
    intro k
    rw [List.zipIdx_cons, List.filter_cons]
    cases j with
    | zero =>
      rw [if_pos (by simp)]
      have : ((row.zipIdx (k + 1)).filter fun t => decide (t.2 = 0 + k)) = [] := by
        rw [List.filter_eq_nil_iff]
        intro t ht
        have := List.mem_zipIdx ht
        simp only [decide_eq_true_eq]; omega
      rw [this]; simp
    | succ j =>
      rw [if_neg (by simp only [decide_eq_true_eq]; omega)]
      have := ih j (k + 1)
      rw [show j + (k + 1) = j + 1 + k by omega] at this
      rw [this]
      simp

end

/-! ### Evaluation of coefficient polynomials -/

section
variable [Field F] [CommRing R] [Algebra F R]

theorem ev_foldl (l : List F) (x a e : F) :
    (l.foldl (fun (p : F × F) c => (p.1 + c * p.2, p.2 * x)) (a, e)).1
      = a + e * ∑ i ∈ range l.length, l.getD i 0 * x ^ i := by
  induction l generalizing a e with
  | nil => simp
  | cons c l ih =>
    rw [List.foldl_cons, ih, List.length_cons, sum_range_succ', mul_add, mul_sum]
    simp only [List.getD_cons_succ, List.getD_cons_zero, pow_zero, mul_one]
    rw [mul_sum]
    have : ∀ i, e * x * (l.getD i 0 * x ^ i) = e * (l.getD i 0 * x ^ (i + 1)) := fun i => by ring
    simp only [this]; ring

theorem ev_eq (pr : PlusRing F R d) (r : R) (x : F) : ev pr r x = polyEval pr r x := by
  unfold ev PlusRing.coeffs polyEval
  rw [ev_foldl, List.length_ofFn, zero_add, one_mul, sum_range]
  apply sum_congr rfl
  intro i _
  simp [List.getD_eq_getElem?_getD]

/-- `ev(·, x)` as a linear map. -/
def evLin (pr : PlusRing F R d) (x : F) : R →ₗ[F] F where
  toFun r := ev pr r x
  map_add' a b := by
    simp only [ev_eq, polyEval, map_add, Pi.add_apply, add_mul, sum_add_distrib]
  map_smul' c a := by
    simp only [ev_eq, polyEval, map_smul, Pi.smul_apply, smul_eq_mul, mul_sum, RingHom.id_apply]
    exact sum_congr rfl fun i _ => by ring

theorem ev_zero (pr : PlusRing F R d) (x : F) : ev pr 0 x = 0 := (evLin pr x).map_zero

theorem ev_pow (pr : PlusRing F R d) (i : Fin d) (x : F) : ev pr (pr.X ^ (i : Nat)) x = x ^ (i : Nat) := by
  rw [ev_eq, polyEval, pr.coeff_X]
  simp [Pi.single_apply]

theorem ev_monomial_sq (pr : PlusRing F R d) {a : R} (ha : IsMonomial pr a) (x : F) :
    ev pr a x * ev pr a x = ev pr a (x * x) := by
  rcases ha with rfl | ⟨i, rfl⟩
  · simp [ev_zero]
  · rw [ev_pow, ev_pow, mul_pow]

/-- `ct` as a linear map. -/
def ctLin (pr : PlusRing F R d) : R →ₗ[F] F where
  toFun r := pr.ct r
  map_add' a b := by simp [PlusRing.ct]
  map_smul' c a := by simp [PlusRing.ct]

/-- `ct(psi * ·)` as a linear map. -/
def psiLin (pr : PlusRing F R d) : R →ₗ[F] F where
  toFun r := pr.ct (pr.psi * r)
  map_add' a b := by simp [PlusRing.ct, mul_add]
  map_smul' c a := by simp [PlusRing.ct]

/-- A coefficient as a linear map. -/
def coeffLin (pr : PlusRing F R d) (i : Fin d) : R →ₗ[F] F where
  toFun r := pr.coeff r i
  map_add' a b := by simp
  map_smul' c a := by simp

theorem eqWeight_map (p : List F) (i : Nat) :
    eqWeight (p.map (algebraMap F R)) i = algebraMap F R (eqWeight p i) := by
  unfold eqWeight
  rw [map_prod, List.length_map]
  apply prod_congr rfl
  intro k hk
  have hk' := mem_range.1 hk
  have : (p.map (algebraMap F R)).getD k 0 = algebraMap F R (p.getD k 0) := by
    simp [List.getD_eq_getElem?_getD, hk']
  rw [this]
  split <;> simp

theorem linear_mle (φ : R →ₗ[F] F) (f : Nat → R) (p : List F) :
    φ (mle f (p.map (algebraMap F R))) = mle (fun i => φ (f i)) p := by
  unfold mle
  rw [map_sum, List.length_map]
  apply sum_congr rfl
  intro i _
  rw [eqWeight_map, mul_comm, ← Algebra.smul_def, map_smul, smul_eq_mul, mul_comm]

theorem mle_map (g : Nat → F) (p : List F) :
    mle (fun i => algebraMap F R (g i)) (p.map (algebraMap F R)) = algebraMap F R (mle g p) := by
  unfold mle
  rw [map_sum, List.length_map]
  apply sum_congr rfl
  intro i _
  rw [eqWeight_map, map_mul]

theorem challenges_length (T : Transcript F R σ) (n : Nat) (s : σ) : (T.challenges n s).1.length = n := by
  induction n generalizing s with
  | zero => rfl
  | succ n ih =>
    unfold Transcript.challenges
    simp [ih]

theorem drawClaims_length (T : Transcript F R σ) (nv k : Nat) (s : σ) :
    (drawClaims T nv k s).1.length = k := by
  induction k generalizing s with
  | zero => rfl
  | succ n ih =>
    unfold drawClaims
    simp [ih]

theorem drawClaims_point (T : Transcript F R σ) (nv k : Nat) (s : σ) :
    ∀ t ∈ (drawClaims T nv k s).1, t.1.length = nv := by
  induction k generalizing s with
  | zero => simp [drawClaims]
  | succ n ih =>
    unfold drawClaims
    intro t ht
    simp only [List.mem_cons] at ht
    rcases ht with rfl | ht
    · unfold drawClaim
      simp [challenges_length]
    · exact ih _ t ht

end

end Verif.Plus
