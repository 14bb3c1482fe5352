import Mathlib.Algebra.BigOperators.Ring.Finset
import Mathlib.Algebra.Order.BigOperators.Ring.Finset
import Mathlib.Data.Fintype.BigOperators
import Mathlib.Tactic.Linarith
import Mathlib.Tactic.Ring

/-!
# Values that are missed by a family of maps

If two different arguments of `f ω` have the same value for a share of at most `1 / |Y|` of the `ω`, then the values missed by `f ω` are few
on average.
-/

namespace Verif

open Finset

variable {Ω U Y : Type} [Fintype Ω] [Fintype U] [Fintype Y] [DecidableEq Y]

/-- The number of arguments with the value `y`. -/
def hits (f : U → Y) (y : Y) : Nat := (univ.filter fun u => f u = y).card

theorem sum_hits (f : U → Y) : ∑ y, hits f y = Fintype.card U := by
  unfold hits
  rw [← card_univ (α := U)]
  exact (card_eq_sum_card_fiberwise (f := f) (t := univ) fun _ _ => mem_coe.2 (mem_univ _)).symm

theorem sum_hits_sq (f : U → Y) : ∑ y, hits f y ^ 2 = (univ.filter fun u : U × U => f u.1 = f u.2).card := by
  have h1 : (univ.filter fun u : U × U => f u.1 = f u.2).card =
      ∑ y, ((univ.filter fun u : U × U => f u.1 = f u.2).filter fun u => f u.1 = y).card :=
    card_eq_sum_card_fiberwise (f := fun u : U × U => f u.1) (t := univ) fun _ _ => mem_coe.2 (mem_univ _)
  rw [h1]
  refine sum_congr rfl fun y _ => ?_
  unfold hits
  rw [sq, ← card_product]
  congr 1
  ext u
  simp only [mem_product, mem_filter, mem_univ, true_and]
  constructor
  · rintro ⟨h, h'⟩
    exact ⟨h.trans h'.symm, h⟩
  · rintro ⟨h, h'⟩
    exact ⟨h', h.symm.trans h'⟩

/-- The missed values against the number of pairs with equal values. -/
theorem missed_le (f : U → Y) :
    (((univ.filter fun y => ∀ u, f u ≠ y).card : ℤ)) * (Fintype.card U : ℤ) ^ 2 + Fintype.card Y * (Fintype.card U : ℤ) ^ 2 ≤
      (Fintype.card Y : ℤ) ^ 2 * ((univ.filter fun u : U × U => f u.1 = f u.2).card : ℤ) := by
  have h1 : ∑ y, ((Fintype.card Y : ℤ) * hits f y - Fintype.card U) ^ 2 =
      (Fintype.card Y : ℤ) ^ 2 * ∑ y, (hits f y : ℤ) ^ 2 - 2 * Fintype.card Y * Fintype.card U * ∑ y, (hits f y : ℤ)
        + Fintype.card Y * (Fintype.card U : ℤ) ^ 2 := by
    rw [mul_sum, mul_sum, ← sum_sub_distrib]
    have : (Fintype.card Y : ℤ) * (Fintype.card U : ℤ) ^ 2 = ∑ _y : Y, (Fintype.card U : ℤ) ^ 2 := by
      rw [sum_const, card_univ, nsmul_eq_mul]
    rw [this, ← sum_add_distrib]
    exact sum_congr rfl fun y _ => by ring
  have h2 : (((univ.filter fun y => ∀ u, f u ≠ y).card : ℤ)) * (Fintype.card U : ℤ) ^ 2 ≤
      ∑ y, ((Fintype.card Y : ℤ) * hits f y - Fintype.card U) ^ 2 := by
    calc _ = ∑ y ∈ univ.filter fun y => ∀ u, f u ≠ y, ((Fintype.card Y : ℤ) * hits f y - Fintype.card U) ^ 2 := by
          rw [← nsmul_eq_mul, ← sum_const]
          refine sum_congr rfl fun y hy => ?_
          have : hits f y = 0 := by
            unfold hits
            rw [card_eq_zero, filter_eq_empty_iff]
            exact fun u _ => (mem_filter.1 hy).2 u
          rw [this]
          push_cast
          ring
      _ ≤ _ := sum_le_sum_of_subset_of_nonneg (filter_subset _ _) fun _ _ _ => sq_nonneg _
  have h3 : ∑ y, (hits f y : ℤ) = Fintype.card U := by
    rw [← sum_hits f]; push_cast; rfl
  have h4 : ∑ y, (hits f y : ℤ) ^ 2 = ((univ.filter fun u : U × U => f u.1 = f u.2).card : ℤ) := by
    rw [← sum_hits_sq f]; push_cast; rfl
  rw [h1, h3, h4] at h2
  linarith

/-- If different arguments collide for a share of at most `1 / |Y|` of the `ω`, then the pairs of an `ω` and a value that it misses are at most a
share `|Y| / |U|` of all pairs. -/
theorem missed_count (f : Ω → U → Y)
    (h : ∀ u u', u ≠ u' → (univ.filter fun ω => f ω u = f ω u').card * Fintype.card Y ≤ Fintype.card Ω) :
    (univ.filter fun p : Ω × Y => ∀ u, f p.1 u ≠ p.2).card * Fintype.card U ≤ Fintype.card Y * Fintype.card (Ω × Y) := by
  classical
  rw [Fintype.card_prod]
  rcases Nat.eq_zero_or_pos (Fintype.card U) with h0 | h0
  · rw [h0, mul_zero]; exact Nat.zero_le _
  have e1 : (univ.filter fun p : Ω × Y => ∀ u, f p.1 u ≠ p.2).card = ∑ ω, (univ.filter fun y => ∀ u, f ω u ≠ y).card := by
    rw [card_eq_sum_card_fiberwise (f := Prod.fst) (t := univ) fun _ _ => mem_coe.2 (mem_univ _)]
    refine sum_congr rfl fun ω _ => ?_
    refine card_bij' (fun p _ => p.2) (fun y _ => (ω, y)) ?_ ?_ ?_ ?_
    · intro p hp
      simp only [mem_filter, mem_univ, true_and] at hp ⊢
      rw [← hp.2]; exact hp.1
    · intro y hy
      simp only [mem_filter, mem_univ, true_and, and_true] at hy ⊢
      exact hy
    · intro p hp
      simp only [mem_filter, mem_univ, true_and] at hp
      rw [← hp.2]
    · intro y _; rfl
  have e2 : ∑ ω, (univ.filter fun u : U × U => f ω u.1 = f ω u.2).card = ∑ u : U × U, (univ.filter fun ω => f ω u.1 = f ω u.2).card := by
    simp only [card_filter]
    exact sum_comm
  have e3 : (∑ u : U × U, (univ.filter fun ω => f ω u.1 = f ω u.2).card) * Fintype.card Y ≤
      Fintype.card U * Fintype.card U * Fintype.card Ω + Fintype.card U * (Fintype.card Ω * Fintype.card Y) := by
    have : ∀ u : U × U, (univ.filter fun ω => f ω u.1 = f ω u.2).card * Fintype.card Y ≤
        Fintype.card Ω + if u.1 = u.2 then Fintype.card Ω * Fintype.card Y else 0 := by
      intro u
      split
      · refine le_trans (Nat.mul_le_mul_right _ (card_le_univ _)) (Nat.le_add_left _ _)
      · exact le_trans (h _ _ ‹_›) (Nat.le_add_right _ _)
    rw [sum_mul]
    refine le_trans (sum_le_sum fun u _ => this u) ?_
    rw [sum_add_distrib, sum_const, card_univ, Fintype.card_prod, nsmul_eq_mul, Nat.cast_id]
    refine Nat.add_le_add_left ?_ _
    rw [Fintype.sum_prod_type]
    simp
  have e4 : ((∑ ω, (univ.filter fun y => ∀ u, f ω u ≠ y).card : ℕ) : ℤ) * (Fintype.card U : ℤ) ^ 2
      + Fintype.card Ω * (Fintype.card Y * (Fintype.card U : ℤ) ^ 2) ≤
      (Fintype.card Y : ℤ) ^ 2 * ((∑ ω, (univ.filter fun u : U × U => f ω u.1 = f ω u.2).card : ℕ) : ℤ) := by
    have := sum_le_sum fun ω (_ : ω ∈ (univ : Finset Ω)) => missed_le (f ω)
    rw [sum_add_distrib, ← sum_mul, ← mul_sum, ← mul_sum, sum_const, card_univ, nsmul_eq_mul] at this
    push_cast
    linarith
  rw [e1]
  rw [e2] at e4
  generalize (∑ ω, (univ.filter fun y => ∀ u, f ω u ≠ y).card : ℕ) = a at *
  generalize (∑ u : U × U, (univ.filter fun ω => f ω u.1 = f ω u.2).card : ℕ) = b at *
  generalize Fintype.card U = nu at *
  generalize Fintype.card Y = ny at *
  generalize Fintype.card Ω = no at *
  have e5 : (b : ℤ) * ny ≤ nu * nu * no + nu * (no * ny) := by exact_mod_cast e3
  have e6 : (a : ℤ) * nu ^ 2 ≤ ny ^ 2 * (nu * no) := by nlinarith [mul_le_mul_of_nonneg_left e5 (Int.natCast_nonneg ny)]
  have e7 : (nu : ℤ) * (a * nu) ≤ nu * (ny * (no * ny)) := by linarith [show (nu : ℤ) * (a * nu) = a * nu ^ 2 by ring, show (nu : ℤ) * (ny * (no * ny)) = ny ^ 2 * (nu * no) by ring]
  have e8 := le_of_mul_le_mul_left e7 (by exact_mod_cast h0)
  exact_mod_cast e8

end Verif
