import Verif.Lemmas.Linearization
import Verif.Ext.Ring

/-! Linear combinations of lists. -/

set_option linter.unusedSectionVars false
set_option linter.unusedSimpArgs false

namespace Verif

open Finset Spec

variable {R : Type} [CommRing R]

/-- `v = ∑_{k < K} c_k v_k` entrywise, all lists of length `n`. -/
structure IsComb (K : Nat) (c : Nat → R) (vs : Nat → List R) (v : List R) (n : Nat) : Prop where
  len : v.length = n
  lens : ∀ k < K, (vs k).length = n
  eq : ∀ i < n, v.getD i 0 = ∑ k ∈ range K, c k * (vs k).getD i 0

theorem ext_getD {v w : List R} {n : Nat} (h1 : v.length = n) (h2 : w.length = n)
    (h : ∀ i < n, v.getD i 0 = w.getD i 0) : v = w := by
  apply List.ext_getElem (by omega)
  intro i hi hi'
  have := h i (by omega)
  simpa [List.getD_eq_getElem?_getD, hi, hi'] using this

theorem IsComb.unique {K n : Nat} {c : Nat → R} {vs : Nat → List R} {v w : List R}
    (h1 : IsComb K c vs v n) (h2 : IsComb K c vs w n) : v = w :=
  ext_getD h1.len h2.len fun i hi => by rw [h1.eq i hi, h2.eq i hi]

theorem getD_out (v : List R) {i : Nat} (h : v.length ≤ i) : v.getD i 0 = 0 := by
  simp [List.getD_eq_getElem?_getD, h]

theorem IsComb.eq_all {K n : Nat} {c : Nat → R} {vs : Nat → List R} {v : List R}
    (h : IsComb K c vs v n) (i : Nat) : v.getD i 0 = ∑ k ∈ range K, c k * (vs k).getD i 0 := by
  by_cases hi : i < n
  · exact h.eq i hi
  · rw [getD_out v (by rw [h.len]; omega)]
    symm
    apply sum_eq_zero
    intro k hk
    rw [getD_out (vs k) (by rw [h.lens k (mem_range.1 hk)]; omega), mul_zero]

theorem getD_map_range (n : Nat) (f : Nat → R) {i : Nat} (h : i < n) :
    ((List.range n).map f).getD i 0 = f i := by
  simp [List.getD_eq_getElem?_getD, h]

theorem IsComb.mk' {K n : Nat} {c : Nat → R} {vs : Nat → List R} (hl : ∀ k < K, (vs k).length = n) :
    IsComb K c vs ((List.range n).map fun i => ∑ k ∈ range K, c k * (vs k).getD i 0) n :=
  ⟨by simp, hl, fun i hi => getD_map_range n _ hi⟩

theorem IsComb.append {K n m : Nat} {c : Nat → R} {vs ws : Nat → List R} {v w : List R}
    (h1 : IsComb K c vs v n) (h2 : IsComb K c ws w m) :
    IsComb K c (fun k => vs k ++ ws k) (v ++ w) (n + m) := by
  refine ⟨by simp [h1.len, h2.len], fun k hk => by simp [h1.lens k hk, h2.lens k hk], fun i hi => ?_⟩
  by_cases hin : i < n
  · rw [List.getD_append _ _ _ _ (by rw [h1.len]; exact hin), h1.eq i hin]
    apply sum_congr rfl
    intro k hk
    rw [List.getD_append _ _ _ _ (by rw [h1.lens k (mem_range.1 hk)]; exact hin)]
  · rw [List.getD_append_right _ _ _ _ (by rw [h1.len]; omega), h1.len, h2.eq (i - n) (by omega)]
    apply sum_congr rfl
    intro k hk
    rw [List.getD_append_right _ _ _ _ (by rw [h1.lens k (mem_range.1 hk)]; omega),
      h1.lens k (mem_range.1 hk)]

theorem mulVec_comb {K n : Nat} {c : Nat → R} {vs : Nat → List R} {v : List R}
    (h : IsComb K c vs v n) (M : SpMat R) (i : Nat) :
    mulVec M v i = ∑ k ∈ range K, c k * mulVec M (vs k) i := by
  unfold mulVec
  simp only [h.eq_all, mul_sum]
  rw [sum_comm]
  apply sum_congr rfl
  intro k _
  apply sum_congr rfl
  intro j _
  ring

theorem mle_comb {K : Nat} {c : Nat → R} {fs : Nat → Nat → R} {f : Nat → R}
    (h : ∀ i, f i = ∑ k ∈ range K, c k * fs k i) (p : List R) :
    mle f p = ∑ k ∈ range K, c k * mle (fs k) p := by
  rw [show f = fun i => ∑ k ∈ range K, c k * fs k i from funext h, mle_sum]
  apply sum_congr rfl
  intro k _
  rw [← mle_smul]

theorem dot_comb {K n : Nat} {c : Nat → R} {vs : Nat → List R} {v : List R}
    (h : IsComb K c vs v n) (row : List R) :
    dot row v = ∑ k ∈ range K, c k * dot row (vs k) := by
  rw [dot_eq_sum row v n (Or.inr (by rw [h.len]))]
  have : ∀ k ∈ range K, c k * dot row (vs k) = ∑ i ∈ range n, c k * (row.getD i 0 * (vs k).getD i 0) := by
    intro k hk
    rw [dot_eq_sum row (vs k) n (Or.inr (by rw [h.lens k (mem_range.1 hk)])), mul_sum]
  rw [sum_congr rfl this, sum_comm]
  apply sum_congr rfl
  intro i hi
  rw [h.eq i (mem_range.1 hi), mul_sum]
  apply sum_congr rfl
  intro k _
  ring

theorem commit_ok (A : Ajtai R) (f : List R) (h : f.length = A.matrix.ncols) :
    A.commit f = .ok ⟨A.matrix.vals.map fun row => dot row f⟩ := by
  unfold Ajtai.commit Mat.checkedMulVec
  rw [if_neg (by simpa using h), if_pos h]

theorem commit_comb {K n : Nat} {c : Nat → R} {vs : Nat → List R} {v : List R}
    (h : IsComb K c vs v n) (A : Ajtai R) :
    IsComb K c (fun k => A.matrix.vals.map fun row => dot row (vs k))
      (A.matrix.vals.map fun row => dot row v) A.matrix.vals.length := by
  refine ⟨by simp, by simp, fun i hi => ?_⟩
  simp only [List.getD_eq_getElem?_getD, List.getElem?_map, List.getElem?_eq_getElem hi,
    Option.map_some, Option.getD_some]
  exact dot_comb h _

/-! Chunks. -/

theorem recomposeL_eq (b : R) (v : List R) : recomposeL b v = ∑ k ∈ range v.length, b ^ k * v.getD k 0 := by
  induction v with
  | nil => simp [recomposeL]
  | cons x v ih =>
    have : recomposeL b (x :: v) = x + b * recomposeL b v := rfl
    rw [this, ih, List.length_cons, sum_range_succ', mul_sum]
    simp only [pow_zero, List.getD_cons_zero, one_mul, List.getD_cons_succ]
    rw [add_comm]
    congr 1
    apply sum_congr rfl
    intro k _
    ring

theorem chunksOf_mul {α : Type} {L m : Nat} (hL : 1 ≤ L) (v : List α) (h : v.length = m * L) :
    chunksOf L v = (List.range m).map fun i => (v.drop (i * L)).take L := by
  unfold chunksOf
  congr 2
  rw [h]
  have : m * L + L - 1 = (L - 1) + m * L := by omega
  rw [this, Nat.add_mul_div_right _ _ (by omega), Nat.div_eq_of_lt (by omega)]
  omega

theorem chunk_length {α : Type} {L m : Nat} (v : List α) (h : v.length = m * L) {i : Nat} (hi : i < m) :
    ((v.drop (i * L)).take L).length = L := by
  rw [List.length_take, List.length_drop, h]
  have : (i + 1) * L ≤ m * L := Nat.mul_le_mul_right L hi
  have h2 : (i + 1) * L = i * L + L := by ring
  omega

theorem chunk_getD {α : Type} (d : α) {L : Nat} (v : List α) (i : Nat) {k : Nat} (hk : k < L) :
    ((v.drop (i * L)).take L).getD k d = v.getD (i * L + k) d := by
  simp [List.getD_eq_getElem?_getD, List.getElem?_take, hk, List.getElem?_drop]

theorem gadgetRecompose_ok {B L m : Nat} (hL : 1 ≤ L) (v : List R) (h : v.length = m * L) :
    gadgetRecompose B L v
      = .ok ((List.range m).map fun i => ∑ k ∈ range L, (B : R) ^ k * v.getD (i * L + k) 0) := by
  unfold gadgetRecompose chunks
  rw [if_neg (by omega)]
  simp only [bind_ok']
  rw [chunksOf_mul hL v h, List.map_map]
  congr 1
  apply List.map_congr_left
  intro i hi
  have hi' := List.mem_range.1 hi
  change recomposeL (B : R) _ = _
  rw [recomposeL_eq, chunk_length v h hi']
  apply sum_congr rfl
  intro k hk
  rw [chunk_getD 0 v i (mem_range.1 hk)]

end Verif
