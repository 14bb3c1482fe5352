import Mathlib.Data.Fintype.BigOperators
import Mathlib.Algebra.Order.BigOperators.Group.Finset

/-!
# Counting runs that can be forked
-/

set_option linter.unusedSimpArgs false

namespace Verif

open Finset Classical

/-- If many pairs succeed, there is one choice of the second component for which many first components succeed, also with each
coordinate of the second component replaced by an unrelated value. -/
theorem forking {A B : Type} [Fintype A] [Fintype B] {n : Nat} (S : A → (Fin n → B) → Prop) (U : B → B → Prop) (D E : Nat)
    (hD : ∀ b, (univ.filter fun b' => ¬ U b b').card ≤ D)
    (h : E * Fintype.card B ^ n + n * (D * (Fintype.card A * Fintype.card B ^ (n - 1)))
      < (univ.filter fun p : A × (Fin n → B) => S p.1 p.2).card) :
    ∃ ρ : Fin n → B, E < (univ.filter fun a : A => S a ρ ∧ ∀ i, ∃ b, U (ρ i) b ∧ S a (Function.update ρ i b)).card := by
  by_contra hcon
  push Not at hcon
  set G : Finset (A × (Fin n → B)) := univ.filter fun p => S p.1 p.2 ∧ ∀ i, ∃ b, U (p.2 i) b ∧ S p.1 (Function.update p.2 i b)
  set I : Fin n → Finset (A × (Fin n → B)) := fun i => univ.filter fun p => S p.1 p.2 ∧ ∀ b, U (p.2 i) b → ¬ S p.1 (Function.update p.2 i b)
  have hcov : (univ.filter fun p : A × (Fin n → B) => S p.1 p.2) ⊆ G ∪ univ.biUnion I := by
    intro p hp
    rw [mem_filter] at hp
    by_cases hg : ∀ i, ∃ b, U (p.2 i) b ∧ S p.1 (Function.update p.2 i b)
    · exact mem_union_left _ (mem_filter.2 ⟨mem_univ _, hp.2, hg⟩)
    · push Not at hg
      obtain ⟨i, hi⟩ := hg
      exact mem_union_right _ (mem_biUnion.2 ⟨i, mem_univ _, mem_filter.2 ⟨mem_univ _, hp.2, hi⟩⟩)
  have hG : G.card ≤ E * Fintype.card B ^ n := by
    have e : G.card = ∑ ρ : Fin n → B, (univ.filter fun a : A => S a ρ ∧ ∀ i, ∃ b, U (ρ i) b ∧ S a (Function.update ρ i b)).card := by
      rw [card_eq_sum_card_fiberwise (f := fun p : A × (Fin n → B) => p.2) (t := univ) (fun _ _ => mem_univ _)]
      apply sum_congr rfl
      intro ρ _
      apply card_bij (fun p _ => p.1)
      · intro p hp
        simp only [G, mem_filter, mem_univ, true_and] at hp ⊢
        rw [← hp.2]
        exact hp.1
      · intro p hp q hq he
        simp only [G, mem_filter, mem_univ, true_and] at hp hq
        exact Prod.ext he (hp.2.trans hq.2.symm)
      · intro a ha
        exact ⟨(a, ρ), by simpa [G] using ha, rfl⟩
    rw [e]
    calc _ ≤ ∑ _ρ : Fin n → B, E := sum_le_sum fun ρ _ => hcon ρ
      _ = E * Fintype.card B ^ n := by simp [mul_comm]
  have hI : ∀ i, (I i).card ≤ D * (Fintype.card A * Fintype.card B ^ (n - 1)) := by
    intro i
    let f : A × (Fin n → B) → A × ({j // j ≠ i} → B) := fun p => (p.1, fun j => p.2 j)
    have h1 : (I i).card ≤ D * ((I i).image f).card := by
      apply card_le_mul_card_image
      intro y hy
      obtain ⟨p0, hp0, rfl⟩ := mem_image.1 hy
      refine le_trans ?_ (hD (p0.2 i))
      have hag : ∀ p, f p = f p0 → p.1 = p0.1 ∧ p.2 = Function.update p0.2 i (p.2 i) := by
        intro p hp
        have e1 := congrArg Prod.fst hp
        have e2 := congrArg Prod.snd hp
        refine ⟨e1, funext fun j => ?_⟩
        by_cases hj : j = i
        · subst hj; simp
        · rw [Function.update_of_ne hj]
          exact congrFun e2 ⟨j, hj⟩
      apply card_le_card_of_injOn (fun p => p.2 i)
      · intro p hp
        simp only [I, coe_filter, mem_filter, mem_univ, true_and, Set.mem_ofPred_eq] at hp hp0 ⊢
        intro hu
        obtain ⟨e1, e2⟩ := hag p hp.2
        apply hp0.2 _ hu
        rw [← e2, ← e1]
        exact hp.1.1
      · intro p hp q hq he
        simp only [coe_filter, mem_filter, mem_univ, true_and, Set.mem_ofPred_eq] at hp hq
        obtain ⟨e1, e2⟩ := hag p hp.2
        obtain ⟨e3, e4⟩ := hag q hq.2
        refine Prod.ext (e1.trans e3.symm) ?_
        rw [e2, e4]
        simp only at he
        rw [he]
    refine h1.trans (Nat.mul_le_mul_left _ ((card_le_univ _).trans ?_))
    rw [Fintype.card_prod, Fintype.card_fun, Fintype.card_subtype_compl]
    simp
  have : (univ.filter fun p : A × (Fin n → B) => S p.1 p.2).card
      ≤ E * Fintype.card B ^ n + n * (D * (Fintype.card A * Fintype.card B ^ (n - 1))) := by
    refine (card_le_card hcov).trans ((card_union_le _ _).trans (Nat.add_le_add hG (card_biUnion_le.trans ?_)))
    calc _ ≤ ∑ _i : Fin n, D * (Fintype.card A * Fintype.card B ^ (n - 1)) := sum_le_sum fun i _ => hI i
      _ = _ := by simp
  omega

end Verif
