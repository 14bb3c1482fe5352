import Verif.Lemmas.PlusCmTail

/-!
# Property theorems: tensor products of flat vectors (C113)
-/

set_option linter.unusedSectionVars false

namespace Verif.Props

open Finset Verif Verif.Spec Verif.Plus

variable {R : Type} [CommRing R] [DecidableEq R]

/-- **C113**, what holds: the tensor product of nonempty vectors of lengths `m` and `n` has length `m n`, with `a_i b_j` at position
`i n + j`. Missing: empty vectors (`C113_empty`). -/
theorem C113_product_partial (a b : List R) (ha : a ≠ []) (hb : b ≠ []) :
    (tensorProduct a b).length = a.length * b.length ∧
    ∀ i < a.length, ∀ j < b.length, (tensorProduct a b)[i * b.length + j]? = some (a.getD i 0 * b.getD j 0) := by
  refine ⟨tensorProduct_length a b ha hb, fun i hi j hj => ?_⟩
  have hlt : i * b.length + j < (tensorProduct a b).length := by
    rw [tensorProduct_length a b ha hb]
    calc i * b.length + j < i * b.length + b.length := by omega
      _ = (i + 1) * b.length := by ring
      _ ≤ a.length * b.length := Nat.mul_le_mul_right _ hi
  have := tensorProduct_getD a b ha hb (i := i) hj
  rw [List.getD_eq_getElem?_getD, List.getElem?_eq_getElem hlt, Option.getD_some] at this
  rw [List.getElem?_eq_getElem hlt, this]

/-- **C113** fails for empty vectors: an empty factor is ignored, and the length is not the product of the lengths. -/
theorem C113_empty (a : List R) (ha : a ≠ []) :
    tensorProduct [] a = a ∧ tensorProduct a [] = a ∧ (tensorProduct [] a).length ≠ 0 * a.length ∧
      (tensorProduct a []).length ≠ a.length * 0 := by
  have hl : a.length ≠ 0 := fun h => ha (List.length_eq_zero_iff.1 h)
  have h1 : tensorProduct [] a = a := by simp [tensorProduct]
  have h2 : tensorProduct a [] = a := by
    unfold tensorProduct
    rw [if_neg (by simpa using ha)]
    rfl
  refine ⟨h1, h2, ?_, ?_⟩
  · rw [h1]; simpa using hl
  · rw [h2]; simpa using hl

/-- The product is associative, for empty vectors too. -/
theorem C113_assoc (a b c : List R) : tensorProduct (tensorProduct a b) c = tensorProduct a (tensorProduct b c) := by
  by_cases ha : a = []
  · subst ha; simp [tensorProduct]
  by_cases hb : b = []
  · subst hb
    rw [(C113_empty a ha).2.1]
    simp [tensorProduct]
  by_cases hc : c = []
  · subst hc
    rw [(C113_empty _ (tensorProduct_ne a b ha hb)).2.1, (C113_empty b hb).2.1]
  have key : ∀ x y : List R, x ≠ [] → y ≠ [] → tensorProduct x y = x.flatMap fun u => y.map fun v => u * v := by
    intro x y hx hy
    rw [tensorProduct_eq x y hx hy, List.flatMap_def]
  rw [key _ c (tensorProduct_ne a b ha hb) hc, key a _ ha (tensorProduct_ne b c hb hc), key a b ha hb, key b c hb hc]
  simp only [List.flatMap_assoc, List.map_flatMap, List.flatMap_map, List.map_map, Function.comp_def, mul_assoc]

/-- **C113**: `tensor(r)` has `2^n` entries for `r` of length `n`, and entry `i` is the weight of the vertex `i` of the cube at the point
`r`, the first coordinate of `r` belonging to the most significant bit of `i`. -/
theorem C113_tensor (r : List R) :
    (tensor r).length = 2 ^ r.length ∧ ∀ i < 2 ^ r.length, (tensor r)[i]? = some (∏ k ∈ range r.length,
      if i.testBit (r.length - 1 - k) then r.getD k 0 else 1 - r.getD k 0) := by
  refine ⟨tensor_length r, ?_⟩
  have key : ∀ (r : List R) (i : Nat), i < 2 ^ r.length → (tensor r).getD i 0 = eqWeight r.reverse i := by
    intro r
    induction r using List.reverseRecOn with
    | nil => intro i hi; simp at hi; subst hi; simp [tensor, eqWeight]
    | append_singleton r x ih =>
      intro i hi
      have e : tensor (r ++ [x]) = tensorProduct (tensor r) [1 - x, x] := by simp [tensor]
      rw [List.length_append, List.length_singleton, pow_succ] at hi
      have hlt : i % 2 < ([1 - x, x] : List R).length := Nat.mod_lt _ (by simp)
      have h := tensorProduct_getD (tensor r) [1 - x, x] (tensor_ne r) (by simp) (i := i / 2) hlt
      have hi2 : i / 2 * ([1 - x, x] : List R).length + i % 2 = i := by
        simp only [List.length_cons, List.length_nil]
        omega
      rw [hi2] at h
      rw [e, h, ih (i / 2) (by omega), List.reverse_append, List.reverse_singleton, List.singleton_append, eqWeight_cons, mul_comm]
      congr 1
      rcases Nat.mod_two_eq_zero_or_one i with h0 | h0 <;> simp [h0, Nat.testBit_zero]
  intro i hi
  have hi' : i < (tensor r).length := by rw [tensor_length]; exact hi
  have h := key r i hi
  rw [List.getD_eq_getElem?_getD, List.getElem?_eq_getElem hi', Option.getD_some] at h
  rw [List.getElem?_eq_getElem hi', h, eqWeight, List.length_reverse, ← prod_range_reflect]
  congr 1
  refine prod_congr rfl fun k hk => ?_
  have hk := mem_range.1 hk
  have e : r.reverse.getD (r.length - 1 - k) 0 = r.getD k 0 := by
    rw [List.getD_eq_getElem?_getD, List.getElem?_reverse (by omega), List.getD_eq_getElem?_getD]
    congr 2
    omega
  rw [e]

/-- **C113**: the inner product of `tensor(r)` with a table is the multilinear extension of the table at the reversed point. -/
theorem C113_inner (r : List R) (f : Nat → R) : ∑ i ∈ range (tensor r).length, f i * (tensor r).getD i 0 = mle f r.reverse := by
  obtain ⟨h1, h2⟩ := C113_tensor r
  rw [h1, mle, List.length_reverse]
  refine sum_congr rfl fun i hi => ?_
  rw [List.getD_eq_getElem?_getD, h2 i (mem_range.1 hi), Option.getD_some, eqWeight, List.length_reverse, ← prod_range_reflect]
  congr 1
  refine prod_congr rfl fun k hk => ?_
  have hk := mem_range.1 hk
  have e : r.reverse.getD k 0 = r.getD (r.length - 1 - k) 0 := by
    rw [List.getD_eq_getElem?_getD, List.getElem?_reverse (by omega), List.getD_eq_getElem?_getD]
  have e2 : r.length - 1 - (r.length - 1 - k) = k := by omega
  rw [e, e2]

example : tensor [(3 : ℤ), 5] = [8, -10, -12, 15] := by decide
example : tensorProduct [(3 : ℤ), 5] [1, 10, 100] = [3, 30, 300, 5, 50, 500] ∧ tensorProduct ([] : List ℤ) [1, 10, 100] = [1, 10, 100] := by decide
example : ∑ i ∈ range (tensor [(3 : ℤ), 5]).length, ([7, 1, 2, 4].getD i 0) * (tensor [(3 : ℤ), 5]).getD i 0 = mle (fun i => [7, 1, 2, 4].getD i 0) [5, 3] :=
  C113_inner [3, 5] _

end Verif.Props
