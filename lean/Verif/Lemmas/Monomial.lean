import Verif.Lemmas.PlusBasic
import Mathlib.Algebra.Polynomial.Expand
import Mathlib.Algebra.Polynomial.Roots
import Mathlib.Algebra.BigOperators.NatAntidiagonal

/-! The monomial test `p(X)^2 = p(X^2)`. -/

set_option linter.unusedSectionVars false
set_option linter.unusedSimpArgs false

namespace Verif.Plus

open Finset Spec Polynomial

variable {F R : Type} {d : Nat}

section
variable [Field F]

theorem unit_test {q : F[X]} (h2 : (2 : F) ≠ 0) (h : q * q = expand F 2 q) (h0 : q.coeff 0 = 1) : q = 1 := by
  have key : ∀ t, 1 ≤ t → q.coeff t = 0 := by
    intro t
    induction t using Nat.strong_induction_on with
    | _ t ih =>
      intro ht
      have h1 := congrArg (fun p => p.coeff t) h
      simp only [coeff_mul, coeff_expand (by omega : 0 < 2)] at h1
      have hr : (if 2 ∣ t then q.coeff (t / 2) else 0) = 0 := by
        split
        · rename_i hd
          exact ih (t / 2) (by omega) (by omega)
        · rfl
      rw [hr, Nat.sum_antidiagonal_eq_sum_range_succ_mk, sum_range_succ] at h1
      obtain ⟨k, rfl⟩ : ∃ k, t = k + 1 := ⟨t - 1, by omega⟩
      rw [sum_range_succ'] at h1
      have hz : ∑ i ∈ range k, q.coeff (i + 1) * q.coeff (k + 1 - (i + 1)) = 0 := by
        apply sum_eq_zero
        intro i hi
        rw [ih (i + 1) (by have := mem_range.1 hi; omega) (by omega), zero_mul]
      simp only at h1
      rw [hz, h0] at h1
      simp only [Nat.sub_self, h0, Nat.sub_zero, one_mul, mul_one, zero_add] at h1
      have : (2 : F) * q.coeff (k + 1) = 0 := by rw [two_mul]; exact h1
      exact (mul_eq_zero.1 this).resolve_left h2
  ext t
  rw [coeff_one]
  split
  · rename_i ht; rw [ht, h0]
  · exact key t (by omega)

/-- Over a field of characteristic other than two, `p(X)^2 = p(X^2)` exactly for `0` and the powers of
`X`. -/
theorem monomial_test {p : F[X]} (h2 : (2 : F) ≠ 0) :
    p * p = expand F 2 p ↔ p = 0 ∨ ∃ i, p = X ^ i := by
  constructor
  · intro h
    by_cases hp : p = 0
    · exact Or.inl hp
    refine Or.inr ⟨p.natTrailingDegree, ?_⟩
    obtain ⟨q, hq⟩ : X ^ p.natTrailingDegree ∣ p :=
      X_pow_dvd_iff.2 fun k hk => coeff_eq_zero_of_lt_natTrailingDegree hk
    set m := p.natTrailingDegree with hm
    have hq0 : q.coeff 0 ≠ 0 := by
      have h3 : p.coeff m ≠ 0 := by
        rw [hm]
        exact mt trailingCoeff_eq_zero.1 hp
      rw [hq] at h3
      have := coeff_X_pow_mul q m 0
      rw [zero_add] at this
      rwa [this] at h3
    have h4 : q * q = expand F 2 q := by
      rw [hq] at h
      simp only [map_mul, map_pow, expand_X] at h
      have h5 : X ^ m * X ^ m * (q * q) = X ^ m * X ^ m * (expand F 2 q) := by
        calc X ^ m * X ^ m * (q * q) = X ^ m * q * (X ^ m * q) := by ring
          _ = (X ^ 2) ^ m * (expand F 2 q) := h
          _ = X ^ m * X ^ m * (expand F 2 q) := by ring
      exact mul_left_cancel₀ (mul_ne_zero (pow_ne_zero _ X_ne_zero) (pow_ne_zero _ X_ne_zero)) h5
    have h1 : q.coeff 0 = 1 := by
      have h6 := congrArg (fun p => p.coeff 0) h4
      simp only [mul_coeff_zero, coeff_expand (by omega : 0 < 2)] at h6
      simp only [dvd_zero, if_true, Nat.zero_div] at h6
      have : q.coeff 0 * q.coeff 0 = q.coeff 0 * 1 := by rw [mul_one]; exact h6
      exact mul_left_cancel₀ hq0 this
    rw [hq, unit_test h2 h4 h1, mul_one]
  · rintro (rfl | ⟨i, rfl⟩)
    · simp
    · simp only [map_pow, expand_X]
      ring

end

section
variable [Field F] [CommRing R] [Algebra F R]

/-- The coefficient polynomial. -/
noncomputable def poly (pr : PlusRing F R d) (a : R) : F[X] := ∑ i : Fin d, C (pr.coeff a i) * X ^ (i : Nat)

theorem poly_eval (pr : PlusRing F R d) (a : R) (x : F) : (poly pr a).eval x = polyEval pr a x := by
  unfold poly polyEval
  rw [eval_finsetSum]
  simp

theorem poly_coeff (pr : PlusRing F R d) (a : R) (n : Nat) :
    (poly pr a).coeff n = if h : n < d then pr.coeff a ⟨n, h⟩ else 0 := by
  unfold poly
  rw [finsetSum_coeff]
  simp only [coeff_C_mul, coeff_X_pow]
  split
  · rename_i h
    rw [sum_eq_single ⟨n, h⟩]
    · simp
    · intro b _ hb
      have : n ≠ (b : Nat) := fun e => hb (Fin.ext e.symm)
      simp [this]
    · simp
  · rename_i h
    apply sum_eq_zero
    intro b _
    have : n ≠ (b : Nat) := fun e => h (e ▸ b.2)
    simp [this]

theorem poly_natDegree (pr : PlusRing F R d) (a : R) : (poly pr a).natDegree ≤ d - 1 := by
  rw [natDegree_le_iff_coeff_eq_zero]
  intro n hn
  rw [poly_coeff, dif_neg (by omega)]

theorem poly_inj (pr : PlusRing F R d) {a b : R} (h : poly pr a = poly pr b) : a = b := by
  apply pr.coeff.injective
  funext i
  have := congrArg (fun p => p.coeff (i : Nat)) h
  simpa [poly_coeff] using this

theorem poly_zero (pr : PlusRing F R d) : poly pr 0 = 0 := by simp [poly]

theorem poly_pow (pr : PlusRing F R d) (i : Fin d) : poly pr (pr.X ^ (i : Nat)) = X ^ (i : Nat) := by
  ext n
  rw [poly_coeff, coeff_X_pow]
  split
  · rename_i h
    rw [pr.coeff_X, Pi.single_apply]
    simp [Fin.ext_iff]
  · rename_i h
    rw [if_neg]
    intro e
    exact h (e ▸ i.2)

theorem poly_monomial (pr : PlusRing F R d) (a : R) :
    (poly pr a = 0 ∨ ∃ i, poly pr a = X ^ i) ↔ IsMonomial pr a := by
  constructor
  · rintro (h | ⟨i, h⟩)
    · exact Or.inl (poly_inj pr (by rw [h, poly_zero]))
    · have hi : i < d := by
        by_contra hn
        have := poly_natDegree pr a
        rw [h, natDegree_X_pow] at this
        have := pr.dpos
        omega
      exact Or.inr ⟨⟨i, hi⟩, poly_inj pr (by rw [h, ← poly_pow pr ⟨i, hi⟩])⟩
  · rintro (rfl | ⟨i, rfl⟩)
    · exact Or.inl (poly_zero pr)
    · exact Or.inr ⟨i, poly_pow pr i⟩

/-- An element that is not a monomial passes the test at no more than `2 (d - 1)` points. -/
theorem bad_points [Fintype F] [DecidableEq F] (pr : PlusRing F R d) (h2 : (2 : F) ≠ 0) {a : R}
    (ha : ¬ IsMonomial pr a) :
    (univ.filter fun x : F => polyEval pr a x * polyEval pr a x = polyEval pr a (x * x)).card ≤ 2 * (d - 1) := by
  set q := poly pr a * poly pr a - expand F 2 (poly pr a) with hq
  have hq0 : q ≠ 0 := by
    intro h
    rw [← poly_monomial, ← monomial_test h2] at ha
    exact ha (sub_eq_zero.1 h)
  have hsub : (univ.filter fun x : F => polyEval pr a x * polyEval pr a x = polyEval pr a (x * x)) ⊆ q.roots.toFinset := by
    intro x hx
    rw [mem_filter] at hx
    rw [Multiset.mem_toFinset, mem_roots hq0, IsRoot.def, hq]
    simp only [eval_sub, eval_mul, expand_eval, poly_eval]
    rw [hx.2, pow_two, sub_self]
  calc _ ≤ q.roots.toFinset.card := card_le_card hsub
    _ ≤ Multiset.card q.roots := Multiset.toFinset_card_le _
    _ ≤ q.natDegree := card_roots' q
    _ ≤ 2 * (d - 1) := by
      have h1 := poly_natDegree pr a
      refine (natDegree_sub_le _ _).trans (max_le ?_ ?_)
      · exact natDegree_mul_le.trans (by omega)
      · rw [natDegree_expand]
        omega

end

end Verif.Plus
