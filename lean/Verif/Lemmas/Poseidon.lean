import Verif.Model.Poseidon
import Verif.Spec.Poseidon
import Mathlib.FieldTheory.Finite.Basic
import Mathlib.Algebra.Polynomial.Roots
import Mathlib.LinearAlgebra.Matrix.ToLin

/-!
# Lemmas about the Poseidon sponge
-/

set_option linter.unusedSectionVars false
set_option linter.unusedSimpArgs false

namespace Verif.Poseidon

open Finset Verif Verif.Spec

variable {K : Type} [CommRing K]

/-! ## The permutation -/

theorem applyArk_injective (c : PoseidonConfig K) (r : Nat) : Function.Injective (c.applyArk r) := by
  intro s t h
  funext i
  exact add_right_cancel (congrFun h i)

theorem applySBox_injective (c : PoseidonConfig K) (hα : Function.Injective fun x : K => x ^ c.alpha)
    (full : Bool) : Function.Injective (c.applySBox full) := by
  intro s t h
  funext i
  have hi := congrFun h i
  unfold PoseidonConfig.applySBox at hi
  split at hi
  · exact hα hi
  · exact hi

theorem applyMds_injective (c : PoseidonConfig K) {M' : Matrix (Fin c.width) (Fin c.width) K}
    (hM : M' * c.mdsMat = 1) : Function.Injective c.applyMds := by
  intro s t h
  have := congrArg M'.mulVec h
  simpa only [PoseidonConfig.applyMds, Matrix.mulVec_mulVec, hM, Matrix.one_mulVec] using this

theorem permute_injective (c : PoseidonConfig K) (hα : Function.Injective fun x : K => x ^ c.alpha)
    {M' : Matrix (Fin c.width) (Fin c.width) K} (hM : M' * c.mdsMat = 1) :
    Function.Injective c.permute := by
  unfold PoseidonConfig.permute
  generalize List.range (c.partialRounds + c.fullRounds) = l
  induction l with
  | nil => exact fun _ _ h => h
  | cons r l ih =>
    intro s t h
    simp only [List.foldl_cons] at h
    exact applyArk_injective c r (applySBox_injective c hα _ (applyMds_injective c hM (ih h)))

/-- Fermat: `x ↦ x^a` is injective on `ZMod p` if `a` is invertible modulo `p - 1`. -/
theorem pow_injective {p : Nat} [Fact p.Prime] (a b k : Nat) (h : a * b = 1 + k * (p - 1)) :
    Function.Injective fun x : ZMod p => x ^ a := by
  have key : ∀ x : ZMod p, (x ^ a) ^ b = x := by
    intro x
    rw [← pow_mul, h]
    by_cases hx : x = 0
    · rw [hx, zero_pow (by omega)]
    · rw [pow_add, pow_one, mul_comm k, pow_mul, ZMod.pow_card_sub_one_eq_one hx, one_pow, mul_one]
  intro x y hxy
  rw [← key x, ← key y]
  simp only at hxy
  rw [hxy]

/-! ## Sponge operations -/

variable (c : PoseidonConfig K)

theorem absorbStep_snd (p q : (Fin c.width → K) × Nat) (x y : K) (h : p.2 = q.2) :
    (c.absorbStep p x).2 = (c.absorbStep q y).2 := by
  unfold PoseidonConfig.absorbStep
  simp only [h]
  split <;> simp [h]

theorem absorbStep_injective (hc : Function.Injective c.permute) (p q : (Fin c.width → K) × Nat) (x : K)
    (h : p.2 = q.2) (he : (c.absorbStep p x).1 = (c.absorbStep q x).1) : p.1 = q.1 := by
  unfold PoseidonConfig.absorbStep at he
  simp only [h] at he
  have key : ∀ (a b : Fin c.width → K) (m n : Nat), m = n →
      (fun j : Fin c.width => if j.val = c.capacity + m then a j + x else a j)
        = (fun j : Fin c.width => if j.val = c.capacity + n then b j + x else b j) → a = b := by
    intro a b m n hmn he
    subst hmn
    funext j
    have := congrFun he j
    split at this
    · exact add_right_cancel this
    · exact this
  split at he
  · exact hc (key _ _ _ _ rfl he)
  · exact key _ _ _ _ h he

theorem absorbFold_injective (hc : Function.Injective c.permute) (xs : List K)
    (p q : (Fin c.width → K) × Nat) (h : p.2 = q.2)
    (he : (xs.foldl c.absorbStep p).1 = (xs.foldl c.absorbStep q).1) : p.1 = q.1 := by
  induction xs generalizing p q with
  | nil => exact he
  | cons x xs ih =>
    simp only [List.foldl_cons] at he
    exact absorbStep_injective c hc p q x h (ih _ _ (absorbStep_snd c p q x x h) he)

theorem absorbFold_snd (xs ys : List K) (hl : xs.length = ys.length) (p q : (Fin c.width → K) × Nat)
    (h : p.2 = q.2) : (xs.foldl c.absorbStep p).2 = (ys.foldl c.absorbStep q).2 := by
  induction xs generalizing p q ys with
  | nil =>
    cases ys with
    | nil => exact h
    | cons y ys => simp at hl
  | cons x xs ih =>
    cases ys with
    | nil => simp at hl
    | cons y ys =>
      simp only [List.foldl_cons]
      exact ih ys (by simpa using hl) _ _ (absorbStep_snd c p q x y h)

theorem absorb_injective (hc : Function.Injective c.permute) (s t : Sponge K c.width) (xs : List K)
    (hm : s.mode = t.mode) (h : c.absorb s xs = c.absorb t xs) : s = t := by
  unfold PoseidonConfig.absorb at h
  split at h
  · exact h
  · rw [hm] at h
    have := absorbFold_injective c hc xs (s.state, _) (t.state, _) rfl (Sponge.mk.inj h).1
    cases s; cases t
    simp_all

theorem absorb_mode (s t : Sponge K c.width) (xs ys : List K) (hl : xs.length = ys.length)
    (hm : s.mode = t.mode) : (c.absorb s xs).mode = (c.absorb t ys).mode := by
  unfold PoseidonConfig.absorb
  have he : xs.isEmpty = ys.isEmpty := by
    cases xs <;> cases ys <;> simp_all
  rw [he]
  split
  · exact hm
  · rw [hm]
    exact congrArg SpongeMode.absorbing (absorbFold_snd c xs ys hl (s.state, _) (t.state, _) rfl)

/-- Absorbing twice is absorbing the concatenation. -/
theorem absorb_append (s : Sponge K c.width) (xs ys : List K) :
    c.absorb (c.absorb s xs) ys = c.absorb s (xs ++ ys) := by
  unfold PoseidonConfig.absorb
  cases xs with
  | nil => simp
  | cons x xs =>
    cases ys with
    | nil => simp
    | cons y ys => simp

/-- Within a block the elements are added one after the other. -/
theorem absorbFold_block (xs : List K) (st : Fin c.width → K) (i : Nat) (h : i + xs.length ≤ c.rate) :
    xs.foldl c.absorbStep (st, i) = (fun j =>
      if c.capacity + i ≤ j.val ∧ j.val < c.capacity + i + xs.length then
        st j + xs.getD (j.val - (c.capacity + i)) 0 else st j, i + xs.length) := by
  induction xs generalizing st i with
  | nil =>
    simp only [List.foldl_nil, List.length_nil, Nat.add_zero]
    congr 1
    funext j
    rw [if_neg (by omega)]
  | cons x xs ih =>
    simp only [List.length_cons] at h ⊢
    simp only [List.foldl_cons]
    have h1 : c.absorbStep (st, i) x
        = (fun j => if j.val = c.capacity + i then st j + x else st j, i + 1) := by
      unfold PoseidonConfig.absorbStep
      simp only [if_neg (show ¬ i = c.rate by omega)]
    rw [h1, ih _ _ (by omega)]
    refine Prod.ext ?_ (by simp only; omega)
    funext j
    simp only
    by_cases hj : j.val = c.capacity + i
    · rw [if_neg (by omega), if_pos hj, if_pos (by omega), hj]
      simp
    · simp only [if_neg hj]
      by_cases hj2 : c.capacity + i ≤ j.val ∧ j.val < c.capacity + i + (xs.length + 1)
      · rw [if_pos (by omega), if_pos hj2]
        congr 1
        rw [show j.val - (c.capacity + i) = (j.val - (c.capacity + (i + 1))) + 1 by omega,
          List.getD_cons_succ]
      · rw [if_neg (by omega), if_neg hj2]

theorem squeezeFrom_length (n : Nat) (p : (Fin c.width → K) × Nat) : (c.squeezeFrom n p).1.length = n := by
  induction n generalizing p with
  | zero => rfl
  | succ n ih => simp [PoseidonConfig.squeezeFrom, ih]

theorem squeeze_length (s : Sponge K c.width) (n : Nat) : (c.squeeze s n).1.length = n :=
  squeezeFrom_length c n _

theorem squeezeFrom_snd (n : Nat) (p q : (Fin c.width → K) × Nat) (h : p.2 = q.2) :
    (c.squeezeFrom n p).2.2 = (c.squeezeFrom n q).2.2 := by
  induction n generalizing p q with
  | zero => exact h
  | succ n ih =>
    simp only [PoseidonConfig.squeezeFrom]
    apply ih
    simp only [h]
    split <;> simp [h]

theorem squeezeFrom_injective (hc : Function.Injective c.permute) (n : Nat)
    (p q : (Fin c.width → K) × Nat) (h : p.2 = q.2)
    (he : (c.squeezeFrom n p).2.1 = (c.squeezeFrom n q).2.1) : p.1 = q.1 := by
  induction n generalizing p q with
  | zero => exact he
  | succ n ih =>
    simp only [PoseidonConfig.squeezeFrom] at he
    have := ih _ _ (by simp only [h]; split <;> simp [h]) he
    simp only [h] at this
    split at this
    · exact hc this
    · exact this

theorem squeeze_injective (hc : Function.Injective c.permute) (s t : Sponge K c.width) (n : Nat)
    (hm : s.mode = t.mode) (h : (c.squeeze s n).2 = (c.squeeze t n).2) : s = t := by
  unfold PoseidonConfig.squeeze at h
  rw [hm] at h
  have h1 := (Sponge.mk.inj h).1
  have : s.state = t.state := by
    cases ht : t.mode with
    | absorbing i =>
      rw [ht] at h1
      exact hc (squeezeFrom_injective c hc n (c.permute s.state, 0) (c.permute t.state, 0) rfl h1)
    | squeezing i =>
      rw [ht] at h1
      simp only at h1
      split at h1
      · exact hc (squeezeFrom_injective c hc n (c.permute s.state, 0) (c.permute t.state, 0) rfl h1)
      · exact squeezeFrom_injective c hc n (s.state, i) (t.state, i) rfl h1
  cases s; cases t
  simp_all

theorem squeeze_mode (s t : Sponge K c.width) (n : Nat) (hm : s.mode = t.mode) :
    (c.squeeze s n).2.mode = (c.squeeze t n).2.mode := by
  unfold PoseidonConfig.squeeze
  rw [hm]
  simp only
  congr 1
  apply squeezeFrom_snd
  cases t.mode with
  | absorbing i => rfl
  | squeezing i => simp only; split <;> rfl

/-- Within a block the elements are read one after the other. -/
theorem squeezeFrom_block (n : Nat) (st : Fin c.width → K) (i : Nat) (h : i + n ≤ c.rate) :
    c.squeezeFrom n (st, i) = ((List.range n).map fun k => c.rateAt st (i + k), (st, i + n)) := by
  induction n generalizing i with
  | zero => rfl
  | succ n ih =>
    simp only [PoseidonConfig.squeezeFrom, if_neg (show ¬ i = c.rate by omega)]
    rw [ih _ (by omega), List.range_succ_eq_map]
    refine Prod.ext ?_ (by simp only; congr 1; omega)
    simp only [List.map_cons, Nat.add_zero, List.map_map]
    congr 1
    apply List.map_congr_left
    intro k _
    simp only [Function.comp]
    congr 1
    omega

/-! ## Diffusion -/

section Diffusion
variable {L : Type} [Field L] [DecidableEq L]

open Polynomial in
/-- A Cauchy matrix `1 / (x_i + y_j)` has maximal diffusion. -/
theorem cauchy_weight {w : Nat} (x y : Fin w → L) (hx : Function.Injective x) (hy : Function.Injective y)
    (M : Matrix (Fin w) (Fin w) L)
    (hM : ∀ i j, M i j * (x i + y j) = 1) (v : Fin w → L) (hv : v ≠ 0) :
    w + 1 ≤ weight v + weight (M.mulVec v) := by
  classical
  set S := univ.filter fun i => v i ≠ 0 with hS
  let N : L[X] := ∑ j ∈ S, C (v j) * ∏ l ∈ S.erase j, (X + C (y l))
  obtain ⟨j0, hj0⟩ : ∃ j, v j ≠ 0 := by
    by_contra h
    simp only [not_exists, not_not] at h
    exact hv (funext h)
  have hj0S : j0 ∈ S := by simp [hS, hj0]
  -- `N` is not zero
  have hN : N ≠ 0 := by
    intro h
    have h1 : N.eval (-(y j0)) = 0 := by rw [h]; simp
    simp only [N, eval_finsetSum, eval_mul, eval_C, eval_prod, eval_add, eval_X] at h1
    rw [Finset.sum_eq_single j0] at h1
    · rcases mul_eq_zero.1 h1 with h2 | h2
      · exact hj0 h2
      · rw [Finset.prod_eq_zero_iff] at h2
        obtain ⟨l, hl, h3⟩ := h2
        have : y l = y j0 := by linear_combination h3
        exact (Finset.mem_erase.1 hl).1 (hy this)
    · intro j _ hj
      rw [mul_eq_zero]
      right
      exact Finset.prod_eq_zero (i := j0) (Finset.mem_erase.2 ⟨Ne.symm hj, hj0S⟩) (by ring)
    · intro h; exact absurd hj0S h
  have hdeg : N.natDegree ≤ S.card - 1 := by
    apply natDegree_sum_le_of_forall_le
    intro j hj
    refine (natDegree_C_mul_le _ _).trans ?_
    refine (natDegree_prod_le _ _).trans ?_
    rw [Finset.sum_congr rfl fun l _ => natDegree_X_add_C (y l), Finset.sum_const, smul_eq_mul,
      mul_one, Finset.card_erase_of_mem hj]
  -- zeros of the image are roots of `N`
  have hz : ∀ i, (M.mulVec v) i = 0 → N.eval (x i) = 0 := by
    intro i hi
    have h1 : (M.mulVec v) i * ∏ l ∈ S, (x i + y l) = N.eval (x i) := by
      simp only [N, eval_finsetSum, eval_mul, eval_C, eval_prod, eval_add, eval_X, Matrix.mulVec,
        dotProduct]
      rw [Finset.sum_mul, ← Finset.sum_subset (Finset.subset_univ S)]
      · apply Finset.sum_congr rfl
        intro j hj
        rw [← Finset.mul_prod_erase S _ hj]
        linear_combination (v j * ∏ l ∈ S.erase j, (x i + y l)) * hM i j
      · intro j _ hj
        have : v j = 0 := by
          by_contra h
          exact hj (by simp [hS, h])
        rw [this]; ring
    rw [← h1, hi, zero_mul]
  set Z := univ.filter fun i => (M.mulVec v) i = 0 with hZ
  have hZcard : Z.card ≤ S.card - 1 := by
    refine le_trans ?_ hdeg
    have h2 : (Z.image x) ⊆ N.roots.toFinset := by
      intro a ha
      obtain ⟨i, hi, rfl⟩ := Finset.mem_image.1 ha
      rw [Multiset.mem_toFinset, mem_roots hN]
      exact hz i (Finset.mem_filter.1 hi).2
    calc Z.card = (Z.image x).card := (Finset.card_image_of_injective _ hx).symm
      _ ≤ N.roots.toFinset.card := Finset.card_le_card h2
      _ ≤ Multiset.card N.roots := Multiset.toFinset_card_le _
      _ ≤ N.natDegree := card_roots' _
  have hSpos : 0 < S.card := Finset.card_pos.2 ⟨j0, hj0S⟩
  have hsplit : Z.card + weight (M.mulVec v) = w := by
    have := Finset.card_filter_add_card_filter_not (s := (univ : Finset (Fin w)))
      (fun i => (M.mulVec v) i = 0)
    rw [Finset.card_univ, Fintype.card_fin] at this
    exact this
  have hw : weight v = S.card := rfl
  omega

end Diffusion

end Verif.Poseidon
