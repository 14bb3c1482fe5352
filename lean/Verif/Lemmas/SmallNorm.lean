import Mathlib.RingTheory.Polynomial.Resultant.Basic
import Mathlib.Analysis.MeanInequalities
import Mathlib.Analysis.Complex.Polynomial.Basic
import Mathlib.RingTheory.RootsOfUnity.Complex

/-!
# Short polynomials do not vanish at roots modulo a large number

Let `P` be a monic integer polynomial which is irreducible over the rationals and divides
`Y ^ m + 1`. An integer polynomial of smaller degree whose coefficients are small enough has a
resultant with `P` that is not zero and smaller than `q`, so it does not vanish at a root of `P`
in characteristic `q`.
-/

set_option linter.unusedSimpArgs false
set_option linter.unusedSectionVars false

namespace Verif.SmallNorm

open Polynomial

/-- Mean of powers: the product of `n` non-negative numbers is at most the `n`-th power of their
mean. -/
theorem prod_le_mean_pow {ι : Type} (s : Finset ι) (z : ι → ℝ) (hz : ∀ i ∈ s, 0 ≤ z i)
    (hs : 0 < s.card) :
    (∏ i ∈ s, z i) * (s.card : ℝ) ^ s.card ≤ (∑ i ∈ s, z i) ^ s.card := by
  have h := Real.geom_mean_le_arith_mean s (fun _ => 1) z (fun _ _ => zero_le_one)
    (by simpa using hs) hz
  simp only [Real.rpow_one, Finset.sum_const, nsmul_eq_mul, mul_one, one_mul] at h
  have hp : 0 ≤ ∏ i ∈ s, z i := Finset.prod_nonneg hz
  have hc : (0 : ℝ) < s.card := by exact_mod_cast hs
  have h2 := pow_le_pow_left₀ (Real.rpow_nonneg hp _) h s.card
  rw [Real.rpow_inv_natCast_pow hp hs.ne', div_pow, le_div_iff₀ (by positivity)] at h2
  exact h2

/-- The squared values of a polynomial of degree less than `m` at the `m` roots of `Y ^ m + 1`
sum to `m` times the sum of the squared coefficients. -/
theorem sum_sq_values (m : ℕ) (hm : 0 < m) (a : ℕ → ℝ) (θ η : ℂ) (hθ : ‖θ‖ = 1)
    (hη : IsPrimitiveRoot η m) :
    ∑ k ∈ Finset.range m, ‖∑ i ∈ Finset.range m, (a i : ℂ) * (θ * η ^ k) ^ i‖ ^ 2
      = m * ∑ i ∈ Finset.range m, a i ^ 2 := by
  have hη1 : ‖η‖ = 1 := hη.norm'_eq_one hm.ne'
  have hα : ∀ k, ‖θ * η ^ k‖ = 1 := fun k => by simp [hθ, hη1]
  have hθ0 : θ ≠ 0 := by rintro rfl; simp at hθ
  have hη0 : η ≠ 0 := hη.ne_zero hm.ne'
  have horth : ∀ i ∈ Finset.range m, ∀ j ∈ Finset.range m,
      ∑ k ∈ Finset.range m, (θ * η ^ k) ^ i * (starRingEnd ℂ) ((θ * η ^ k) ^ j)
        = if i = j then (m : ℂ) else 0 := by
    intro i hi j hj
    have hc : ∀ k, (starRingEnd ℂ) ((θ * η ^ k) ^ j) = ((θ * η ^ k) ^ j)⁻¹ := by
      intro k
      rw [Complex.inv_eq_conj]
      simp [hθ, hη1]
    simp only [hc]
    by_cases hij : i = j
    · subst hij
      rw [if_pos rfl, Finset.sum_congr rfl (g := fun _ => (1 : ℂ))]
      · simp
      · intro k _
        exact mul_inv_cancel₀ (pow_ne_zero _ (mul_ne_zero hθ0 (pow_ne_zero _ hη0)))
    · rw [if_neg hij]
      have hterm : ∀ k, (θ * η ^ k) ^ i * ((θ * η ^ k) ^ j)⁻¹
          = (θ ^ i * (θ ^ j)⁻¹) * (η ^ i * (η ^ j)⁻¹) ^ k := by
        intro k
        rw [mul_pow, mul_pow, mul_pow, inv_pow, ← pow_mul, ← pow_mul, ← pow_mul, ← pow_mul,
          mul_inv, mul_comm k i, mul_comm k j]
        ring
      simp only [hterm, ← Finset.mul_sum]
      set ξ := η ^ i * (η ^ j)⁻¹ with hξ
      have hξm : ξ ^ m = 1 := by
        rw [hξ, mul_pow, inv_pow, ← pow_mul, ← pow_mul, mul_comm i, mul_comm j, pow_mul, pow_mul,
          hη.pow_eq_one]
        simp
      have hξ1 : ξ ≠ 1 := by
        intro h
        rw [hξ, mul_inv_eq_one₀ (pow_ne_zero _ hη0)] at h
        exact hij (hη.pow_inj (Finset.mem_range.1 hi) (Finset.mem_range.1 hj) h)
      have hg : ∑ k ∈ Finset.range m, ξ ^ k = 0 := by
        have := mul_geom_sum ξ m
        rw [hξm, sub_self] at this
        exact (mul_eq_zero.1 this).resolve_left (sub_ne_zero.2 hξ1)
      rw [hg, mul_zero]
  have key : ((∑ k ∈ Finset.range m,
      ‖∑ i ∈ Finset.range m, (a i : ℂ) * (θ * η ^ k) ^ i‖ ^ 2 : ℝ) : ℂ)
      = ((m * ∑ i ∈ Finset.range m, a i ^ 2 : ℝ) : ℂ) := by
    push_cast
    have hsq : ∀ z : ℂ, ((‖z‖ : ℂ)) ^ 2 = z * (starRingEnd ℂ) z := by
      intro z; rw [Complex.mul_conj, Complex.normSq_eq_norm_sq]; push_cast; rfl
    simp only [hsq, map_sum, Finset.sum_mul_sum, map_mul, Complex.conj_ofReal]
    rw [Finset.sum_comm, Finset.mul_sum]
    refine Finset.sum_congr rfl fun i hi => ?_
    rw [Finset.sum_comm]
    have : ∀ j ∈ Finset.range m, ∑ k ∈ Finset.range m,
        (a i : ℂ) * (θ * η ^ k) ^ i * ((a j : ℂ) * (starRingEnd ℂ) ((θ * η ^ k) ^ j))
        = if i = j then (m : ℂ) * (a i : ℂ) ^ 2 else 0 := by
      intro j hj
      have h := horth i hi j hj
      calc _ = (a i : ℂ) * (a j : ℂ) * ∑ k ∈ Finset.range m,
            (θ * η ^ k) ^ i * (starRingEnd ℂ) ((θ * η ^ k) ^ j) := by
              rw [Finset.mul_sum]
              exact Finset.sum_congr rfl fun k _ => by ring
        _ = _ := by
              rw [h]
              split
              · next hij => subst hij; ring
              · ring
    simp only [map_mul, map_pow] at this ⊢
    rw [Finset.sum_congr rfl this, Finset.sum_ite_eq, if_pos hi]
  exact_mod_cast key

/-- The bound on the product of the values of a short polynomial at the complex roots of `P`. -/
theorem prod_values_sq_le (P : ℤ[X]) (hP : P.Monic) (hn : 0 < P.natDegree) (m : ℕ) (hm : 0 < m)
    (hdvd : P ∣ X ^ m + 1) (y : ℤ[X]) (hdeg : y.natDegree < P.natDegree) :
    (((P.map (Int.castRingHom ℂ)).roots.map (y.map (Int.castRingHom ℂ)).eval).prod
        = ∏ α ∈ (P.map (Int.castRingHom ℂ)).roots.toFinset,
          (y.map (Int.castRingHom ℂ)).eval α) ∧
      (∏ α ∈ (P.map (Int.castRingHom ℂ)).roots.toFinset,
          ‖(y.map (Int.castRingHom ℂ)).eval α‖ ^ 2) * (P.natDegree : ℝ) ^ P.natDegree
        ≤ (m * ∑ i ∈ Finset.range m, (y.coeff i : ℝ) ^ 2) ^ P.natDegree := by
  set PC := P.map (Int.castRingHom ℂ) with hPC
  set yC := y.map (Int.castRingHom ℂ) with hyC
  have hPCm : PC.Monic := hP.map _
  have hPC0 : PC ≠ 0 := hPCm.ne_zero
  have hdvdC : PC ∣ X ^ m + 1 := by
    have := Polynomial.map_dvd (Int.castRingHom ℂ) hdvd
    simpa using this
  have hmC : (m : ℂ) ≠ 0 := by exact_mod_cast hm.ne'
  have hsep : PC.Separable := by
    have : (X ^ m - C (-1 : ℂ)).Separable := separable_X_pow_sub_C _ hmC (by norm_num)
    simp only [map_neg, map_one, sub_neg_eq_add] at this
    exact this.of_dvd hdvdC
  have hnd : PC.roots.Nodup := nodup_roots hsep
  have hcard : PC.roots.toFinset.card = P.natDegree := by
    rw [Multiset.toFinset_card_of_nodup hnd,
      ← (IsAlgClosed.splits PC).natDegree_eq_card_roots, hPC, hP.natDegree_map]
  have hle : P.natDegree ≤ m := by
    have h1 : (X ^ m + 1 : ℤ[X]).natDegree = m := by
      rw [← map_one C, natDegree_X_pow_add_C]
    have h2 : (X ^ m + 1 : ℤ[X]) ≠ 0 := by
      intro h
      have := (monic_X_pow_add_C (1 : ℤ) hm.ne').ne_zero
      rw [map_one] at this
      exact this h
    calc _ ≤ _ := natDegree_le_of_dvd hdvd h2
      _ = _ := h1
  refine ⟨?_, ?_⟩
  · rw [Finset.prod_eq_multiset_prod, Multiset.toFinset_val, hnd.dedup]
  · obtain ⟨θ, hθ⟩ := IsAlgClosed.exists_pow_nat_eq (-1 : ℂ) hm
    have hη := Complex.isPrimitiveRoot_exp m hm.ne'
    set η := Complex.exp (2 * Real.pi * Complex.I / m)
    have hθ1 : ‖θ‖ = 1 := by
      have : ‖θ‖ ^ m = 1 := by rw [← norm_pow, hθ]; simp
      exact (pow_eq_one_iff_of_nonneg (norm_nonneg _) hm.ne').1 this
    have hθ0 : θ ≠ 0 := by rintro rfl; simp at hθ1
    have hsum := sum_sq_values m hm (fun i => (y.coeff i : ℝ)) θ η hθ1 hη
    have hev : ∀ α : ℂ, yC.eval α
        = ∑ i ∈ Finset.range m, (((y.coeff i : ℝ)) : ℂ) * α ^ i := by
      intro α
      rw [eval_eq_sum_range' (n := m)]
      · simp [hyC]
      · calc _ ≤ y.natDegree := natDegree_map_le
          _ < m := lt_of_lt_of_le hdeg hle
    have hinj : Set.InjOn (fun k => θ * η ^ k) (Finset.range m : Set ℕ) := by
      intro k hk l hl h
      exact hη.pow_inj (by simpa using hk) (by simpa using hl) (mul_left_cancel₀ hθ0 h)
    have hsub : PC.roots.toFinset ⊆ (Finset.range m).image (fun k => θ * η ^ k) := by
      intro α hα
      have hr : PC.IsRoot α := by simpa [hPC0] using hα
      obtain ⟨Q, hQ⟩ := hdvdC
      have h0 : α ^ m + 1 = 0 := by
        have := congrArg (eval α) hQ
        rw [eval_mul, hr.eq_zero, zero_mul] at this
        simpa using this
      have h1 : (α * θ⁻¹) ^ m = 1 := by
        rw [mul_pow, inv_pow, hθ, eq_neg_of_add_eq_zero_left h0]
        norm_num
      have : NeZero m := ⟨hm.ne'⟩
      obtain ⟨k, hk, hk'⟩ := hη.eq_pow_of_pow_eq_one h1
      refine Finset.mem_image.2 ⟨k, Finset.mem_range.2 hk, ?_⟩
      rw [hk']
      field_simp
    have hle2 : ∑ α ∈ PC.roots.toFinset, ‖yC.eval α‖ ^ 2
        ≤ m * ∑ i ∈ Finset.range m, (y.coeff i : ℝ) ^ 2 := by
      rw [← hsum]
      calc _ ≤ ∑ α ∈ (Finset.range m).image (fun k => θ * η ^ k), ‖yC.eval α‖ ^ 2 :=
            Finset.sum_le_sum_of_subset_of_nonneg hsub (fun _ _ _ => by positivity)
        _ = _ := by
            rw [Finset.sum_image hinj]
            exact Finset.sum_congr rfl fun k _ => by rw [hev]
    have ham := prod_le_mean_pow PC.roots.toFinset (fun α => ‖yC.eval α‖ ^ 2)
      (fun _ _ => by positivity) (by rw [hcard]; exact hn)
    rw [hcard] at ham
    exact ham.trans (pow_le_pow_left₀ (Finset.sum_nonneg fun _ _ => by positivity) hle2 _)

/-- The arithmetic at the end of `short_ne_zero`. -/
theorem sq_lt_of_bound (r : ℤ) (q m S n : ℕ) (hn : 0 < n) (A : ℝ) (hA : 0 ≤ A) (hS : A ≤ S)
    (h : (r : ℝ) ^ 2 * (n : ℝ) ^ n ≤ (m * A) ^ n) (hb : (m * S) ^ n < q ^ 2 * n ^ n) :
    r ^ 2 < (q : ℤ) ^ 2 := by
  have hbR : ((m : ℝ) * S) ^ n < (q : ℝ) ^ 2 * (n : ℝ) ^ n := by exact_mod_cast hb
  have hn' : (0 : ℝ) < (n : ℝ) ^ n := pow_pos (by exact_mod_cast hn) _
  have hm : (0 : ℝ) ≤ m := Nat.cast_nonneg m
  have h1 : (m * A) ^ n ≤ ((m : ℝ) * S) ^ n :=
    pow_le_pow_left₀ (mul_nonneg hm hA) (mul_le_mul_of_nonneg_left hS hm) n
  have hlt2 : (r : ℝ) ^ 2 < (q : ℝ) ^ 2 :=
    lt_of_mul_lt_mul_right (lt_of_le_of_lt (h.trans h1) hbR) hn'.le
  exact_mod_cast hlt2

/-- **Short polynomials do not vanish.** `P` is monic, irreducible over `ℚ`, and divides
`Y ^ m + 1`; `y` is not zero, has smaller degree and the squares of its coefficients sum to at
most `S`. If `(m S) ^ n < q ^ 2 n ^ n`, where `n` is the degree of `P`, then `y` does not vanish
at any root of `P` in any field of characteristic `q`. -/
theorem short_ne_zero {K : Type} [Field K] (q : ℕ) [CharP K q] (P : ℤ[X]) (hP : P.Monic)
    (hirr : Irreducible (P.map (Int.castRingHom ℚ))) (m : ℕ) (hm : 0 < m)
    (hdvd : P ∣ X ^ m + 1) (y : ℤ[X]) (hy : y ≠ 0) (hdeg : y.natDegree < P.natDegree)
    (S : ℕ) (hS : ∑ i ∈ Finset.range m, y.coeff i ^ 2 ≤ S)
    (hb : (m * S) ^ P.natDegree < q ^ 2 * P.natDegree ^ P.natDegree)
    (ζ : K) (hζ : P.eval₂ (Int.castRingHom K) ζ = 0) :
    y.eval₂ (Int.castRingHom K) ζ ≠ 0 := by
  intro hyζ
  have hn : 0 < P.natDegree := by omega
  set r : ℤ := resultant P y P.natDegree y.natDegree with hr
  -- the resultant is not zero
  have hr0 : r ≠ 0 := by
    intro h0
    have hinj : Function.Injective (Int.castRingHom ℚ) := Int.cast_injective
    have hco : IsCoprime (P.map (Int.castRingHom ℚ)) (y.map (Int.castRingHom ℚ)) := by
      rw [hirr.coprime_iff_not_dvd]
      intro hd
      have h1 := natDegree_le_of_dvd hd (by
        rwa [Ne, Polynomial.map_eq_zero_iff hinj])
      rw [natDegree_map_eq_of_injective hinj, natDegree_map_eq_of_injective hinj] at h1
      omega
    have h2 := resultant_ne_zero _ _ hco
    rw [natDegree_map_eq_of_injective hinj, natDegree_map_eq_of_injective hinj,
      resultant_map_map] at h2
    rw [← hr, h0] at h2
    simp at h2
  -- `q` divides it
  have hq : (q : ℤ) ∣ r := by
    obtain ⟨a, b, -, -, hab⟩ := exists_mul_add_mul_eq_C_resultant P y
      (m := P.natDegree) (n := y.natDegree) le_rfl le_rfl (by omega)
    have := congrArg (eval₂ (Int.castRingHom K) ζ) hab
    rw [eval₂_add, eval₂_mul, eval₂_mul, hζ, hyζ, eval₂_C, zero_mul, zero_mul, add_zero] at this
    rw [← CharP.intCast_eq_zero_iff K q]
    simpa using this.symm
  -- and it is smaller
  obtain ⟨hprod, hbound⟩ := prod_values_sq_le P hP hn m hm hdvd y hdeg
  have hrC : (r : ℂ) = ∏ α ∈ (P.map (Int.castRingHom ℂ)).roots.toFinset,
      (y.map (Int.castRingHom ℂ)).eval α := by
    rw [← hprod]
    have h := resultant_eq_prod_eval (P.map (Int.castRingHom ℂ)) (y.map (Int.castRingHom ℂ))
      y.natDegree natDegree_map_le (IsAlgClosed.splits _)
    rw [hP.natDegree_map, resultant_map_map, (hP.map _).leadingCoeff, one_pow, one_mul] at h
    rw [← h]
    simp [hr]
  have hrsq : ((r : ℝ)) ^ 2 = ∏ α ∈ (P.map (Int.castRingHom ℂ)).roots.toFinset,
      ‖(y.map (Int.castRingHom ℂ)).eval α‖ ^ 2 := by
    rw [Finset.prod_pow, ← norm_prod, ← hrC, Complex.norm_intCast, sq_abs]
  rw [← hrsq] at hbound
  have hSR : ∑ i ∈ Finset.range m, (y.coeff i : ℝ) ^ 2 ≤ (S : ℝ) := by exact_mod_cast hS
  have hlt3 := sq_lt_of_bound r q m S P.natDegree hn _ (Finset.sum_nonneg fun _ _ => sq_nonneg _)
    hSR hbound hb
  have h4 : |r| < q := by
    have := sq_lt_sq.1 hlt3
    simpa using this
  have := Int.le_of_dvd (abs_pos.2 hr0) ((dvd_abs _ _).2 hq)
  omega

end Verif.SmallNorm
