import Verif.Lemmas.Knowledge
import Verif.Lemmas.Forking
import Verif.Spec.Extractor
import Mathlib.Algebra.Order.Chebyshev

/-!
# Lemmas for the extractor
-/

set_option linter.unusedSectionVars false
set_option linter.unusedSimpArgs false

namespace Verif

open Finset Spec Props NormGrowth

/-- The runs which have more than `T` forks in every direction are all but a few of the successful ones. -/
theorem fork_count {A B : Type} [Fintype A] [Fintype B] {n : Nat} (S : A → (Fin n → B) → Prop) (U : B → B → Prop) (D T : Nat)
    [∀ a ρ, Decidable (S a ρ)] [∀ b b', Decidable (U b b')]
    (hD : ∀ b, (univ.filter fun b' => ¬ U b b').card ≤ D) :
    (univ.filter fun p : A × (Fin n → B) => S p.1 p.2).card ≤
      (univ.filter fun p : A × (Fin n → B) => S p.1 p.2 ∧
        ∀ i, T < (univ.filter fun b => U (p.2 i) b ∧ S p.1 (Function.update p.2 i b)).card).card
      + n * ((D + T) * (Fintype.card A * Fintype.card B ^ (n - 1))) := by
  classical
  set G : Finset (A × (Fin n → B)) := univ.filter fun p => S p.1 p.2 ∧
        ∀ i, T < (univ.filter fun b => U (p.2 i) b ∧ S p.1 (Function.update p.2 i b)).card with hG
  set I : Fin n → Finset (A × (Fin n → B)) := fun i => univ.filter fun p => S p.1 p.2 ∧
    (univ.filter fun b => U (p.2 i) b ∧ S p.1 (Function.update p.2 i b)).card ≤ T with hIdef
  have hcov : (univ.filter fun p : A × (Fin n → B) => S p.1 p.2) ⊆ G ∪ univ.biUnion I := by
    intro p hp
    rw [mem_filter] at hp
    by_cases hg : ∀ i, T < (univ.filter fun b => U (p.2 i) b ∧ S p.1 (Function.update p.2 i b)).card
    · exact mem_union_left _ (mem_filter.2 ⟨mem_univ _, hp.2, hg⟩)
    · push Not at hg
      obtain ⟨i, hi⟩ := hg
      exact mem_union_right _ (mem_biUnion.2 ⟨i, mem_univ _, mem_filter.2 ⟨mem_univ _, hp.2, hi⟩⟩)
  have hI : ∀ i, (I i).card ≤ (D + T) * (Fintype.card A * Fintype.card B ^ (n - 1)) := by
    intro i
    let f : A × (Fin n → B) → A × ({j // j ≠ i} → B) := fun p => (p.1, fun j => p.2 j)
    have h1 : (I i).card ≤ (D + T) * ((I i).image f).card := by
      apply card_le_mul_card_image
      intro y hy
      obtain ⟨p0, hp0, rfl⟩ := mem_image.1 hy
      simp only [hIdef, mem_filter, mem_univ, true_and] at hp0
      refine le_trans ?_ (Nat.add_le_add (hD (p0.2 i)) hp0.2)
      have hag : ∀ p, f p = f p0 → p.1 = p0.1 ∧ p.2 = Function.update p0.2 i (p.2 i) := by
        intro p hp
        have e1 := congrArg Prod.fst hp
        have e2 := congrArg Prod.snd hp
        refine ⟨e1, funext fun j => ?_⟩
        by_cases hj : j = i
        · subst hj; simp
        · rw [Function.update_of_ne hj]
          exact congrFun e2 ⟨j, hj⟩
      refine le_trans ?_ (card_union_le _ _)
      apply card_le_card_of_injOn (fun p => p.2 i)
      · intro p hp
        simp only [I, coe_filter, mem_filter, mem_univ, true_and, Set.mem_ofPred_eq] at hp
        obtain ⟨e1, e2⟩ := hag p hp.2
        rw [mem_coe, mem_union]
        by_cases hu : U (p0.2 i) (p.2 i)
        · right
          rw [mem_filter]
          refine ⟨mem_univ _, hu, ?_⟩
          rw [← e2, ← e1]
          exact hp.1.1
        · left
          exact mem_filter.2 ⟨mem_univ _, hu⟩
      · intro p hp q hq he
        simp only [coe_filter, mem_filter, mem_univ, true_and, Set.mem_ofPred_eq] at hp hq
        obtain ⟨e1, e2⟩ := hag p hp.2
        obtain ⟨e3, e4⟩ := hag q hq.2
        refine Prod.ext (e1.trans e3.symm) ?_
        rw [e2, e4]
        simp only at he
        rw [he]
    refine h1.trans (Nat.mul_le_mul_left _ ((card_le_univ _).trans ?_))
    rw [Fintype.card_prod, Fintype.card_fun, Fintype.card_subtype_compl]
    simp
  refine (card_le_card hcov).trans ((card_union_le _ _).trans (Nat.add_le_add_left (card_biUnion_le.trans ?_) _))
  calc _ ≤ ∑ _i : Fin n, (D + T) * (Fintype.card A * Fintype.card B ^ (n - 1)) := sum_le_sum fun i _ => hI i
    _ = _ := by simp

/-- Pairs of good tapes for the same challenges: there are many, and few of them are not `ok`. -/
theorem pair_count {A R : Type} [Fintype A] [Fintype R] (S : A → R → Prop) (ok : R → A → A → Prop) (E n : Nat)
    [∀ a ρ, Decidable (S a ρ)] [∀ ρ a a', Decidable (ok ρ a a')]
    (hE : ∀ ρ a, S a ρ → (univ.filter fun a' => S a' ρ ∧ ¬ ok ρ a a').card ≤ E)
    (hn : n ≤ (univ.filter fun p : A × R => S p.1 p.2).card) :
    n * (n - E * Fintype.card R) ≤ Fintype.card R *
      (univ.filter fun q : R × A × A => S q.2.1 q.1 ∧ S q.2.2 q.1 ∧ ok q.1 q.2.1 q.2.2).card := by
  classical
  set g : R → ℕ := fun ρ => (univ.filter fun a => S a ρ).card with hg
  have hsum : (univ.filter fun p : A × R => S p.1 p.2).card = ∑ ρ, g ρ := by
    rw [card_filter, Fintype.sum_prod_type_right]
    apply sum_congr rfl
    intro ρ _
    rw [hg]
    simp only
    rw [card_filter]
  have hok : ∑ ρ, g ρ * (g ρ - E) ≤
      (univ.filter fun q : R × A × A => S q.2.1 q.1 ∧ S q.2.2 q.1 ∧ ok q.1 q.2.1 q.2.2).card := by
    rw [card_filter, Fintype.sum_prod_type]
    apply sum_le_sum
    intro ρ _
    rw [Fintype.sum_prod_type]
    calc g ρ * (g ρ - E) = ∑ a ∈ univ.filter (fun a => S a ρ), (g ρ - E) := by rw [sum_const, smul_eq_mul]
      _ ≤ ∑ a ∈ univ.filter (fun a => S a ρ), ∑ a', if S a ρ ∧ S a' ρ ∧ ok ρ a a' then 1 else 0 := by
        apply sum_le_sum
        intro a ha
        have ha := (mem_filter.1 ha).2
        rw [← card_filter]
        have h1 := hE ρ a ha
        have h2 : g ρ ≤ (univ.filter fun a' => S a' ρ ∧ ¬ ok ρ a a').card + (univ.filter fun a' => S a ρ ∧ S a' ρ ∧ ok ρ a a').card := by
          refine (card_le_card ?_).trans (card_union_le _ _)
          intro a' ha'
          have ha' := (mem_filter.1 ha').2
          rw [mem_union, mem_filter, mem_filter]
          by_cases h : ok ρ a a'
          · exact Or.inr ⟨mem_univ _, ha, ha', h⟩
          · exact Or.inl ⟨mem_univ _, ha', h⟩
        omega
      _ ≤ _ := sum_le_sum_of_subset (filter_subset _ _)
  set G := ∑ ρ, g ρ with hG
  have hmono : n * (n - E * Fintype.card R) ≤ G * (G - E * Fintype.card R) := by
    rw [hsum] at hn
    exact Nat.mul_le_mul hn (Nat.sub_le_sub_right hn _)
  refine hmono.trans (le_trans ?_ (Nat.mul_le_mul_left _ hok))
  by_cases hle : G ≤ E * Fintype.card R
  · rw [Nat.sub_eq_zero_of_le hle, mul_zero]
    exact Nat.zero_le _
  · have hcs := sq_sum_le_card_mul_sum_sq (s := (univ : Finset R)) (f := fun ρ => (g ρ : ℤ))
    rw [card_univ] at hcs
    have h1 : (∑ ρ, (g ρ : ℤ)) = (G : ℤ) := by rw [hG]; push_cast; rfl
    have h2 : ∑ ρ, (g ρ : ℤ) ^ 2 - E * G ≤ ∑ ρ, ((g ρ * (g ρ - E) : ℕ) : ℤ) := by
      rw [← h1, mul_sum, ← sum_sub_distrib]
      apply sum_le_sum
      intro ρ _
      push_cast
      have : (g ρ : ℤ) - E ≤ ((g ρ - E : ℕ) : ℤ) := by omega
      nlinarith [Int.natCast_nonneg (g ρ)]
    zify
    rw [Nat.cast_sub (by omega)]
    have h3 : (0 : ℤ) ≤ Fintype.card R := Int.natCast_nonneg _
    have h4 := mul_le_mul_of_nonneg_left h2 h3
    rw [h1] at hcs
    push_cast at h4 ⊢
    nlinarith

/-- The same for two independent pairs, where extraction from the first pair (`a`), a collision in one of the pairs (`ok`), or a collision
between them (`dif`) counts. -/
theorem quad_count {U R W : Type} [Fintype U] [Fintype R] [Fintype W] (S : U → R → W → Prop) (a : U → R → W → Prop)
    (ok : U → R → W → W → Prop) (dif : U → R → W → U → R → W → Prop) (Ef El n : Nat)
    [∀ u r w, Decidable (S u r w)] [∀ u r w, Decidable (a u r w)] [∀ u r w w', Decidable (ok u r w w')]
    [∀ u r w u' r' w', Decidable (dif u r w u' r' w')]
    (h : ∀ u0 r0 w0, S u0 r0 w0 → a u0 r0 w0 ∨ (univ.filter fun w => S u0 r0 w ∧ ¬ ok u0 r0 w0 w).card ≤ Ef ∨
      ∃ Y : Finset U, Y.card ≤ El ∧ ∀ u ∉ Y, ∀ r w, S u r w → dif u0 r0 w0 u r w ∨
        (univ.filter fun w' => S u r w' ∧ ¬ ok u r w w').card ≤ Ef)
    (hn : n ≤ (univ.filter fun p : U × R × W => S p.1 p.2.1 p.2.2).card) :
    n * n * (n * (n - 2 * Ef * (Fintype.card U * Fintype.card R))
        - El * (Fintype.card U * Fintype.card R) * (Fintype.card R * Fintype.card W * Fintype.card W)) ≤
      (Fintype.card U * Fintype.card R) ^ 2 *
      (univ.filter fun q : (U × R × W × W) × U × R × W × W =>
        (S q.1.1 q.1.2.1 q.1.2.2.1 ∧ S q.1.1 q.1.2.1 q.1.2.2.2 ∧ S q.2.1 q.2.2.1 q.2.2.2.1 ∧ S q.2.1 q.2.2.1 q.2.2.2.2) ∧
        (a q.1.1 q.1.2.1 q.1.2.2.1 ∨ ok q.1.1 q.1.2.1 q.1.2.2.1 q.1.2.2.2 ∨
          dif q.1.1 q.1.2.1 q.1.2.2.1 q.2.1 q.2.2.1 q.2.2.2.1 ∨ ok q.2.1 q.2.2.1 q.2.2.2.1 q.2.2.2.2)).card := by
  classical
  set G := (univ.filter fun p : U × R × W => S p.1 p.2.1 p.2.2).card with hG
  set Q : Finset (U × R × W × W) := univ.filter fun q => S q.1 q.2.1 q.2.2.1 ∧ S q.1 q.2.1 q.2.2.2 with hQ
  set Good := univ.filter fun q : (U × R × W × W) × U × R × W × W =>
        (S q.1.1 q.1.2.1 q.1.2.2.1 ∧ S q.1.1 q.1.2.1 q.1.2.2.2 ∧ S q.2.1 q.2.2.1 q.2.2.2.1 ∧ S q.2.1 q.2.2.1 q.2.2.2.2) ∧
        (a q.1.1 q.1.2.1 q.1.2.2.1 ∨ ok q.1.1 q.1.2.1 q.1.2.2.1 q.1.2.2.2 ∨
          dif q.1.1 q.1.2.1 q.1.2.2.1 q.2.1 q.2.2.1 q.2.2.2.1 ∨ ok q.2.1 q.2.2.1 q.2.2.2.1 q.2.2.2.2) with hGood
  set B0 : Finset (U × R × W × W) := Q.filter fun q =>
    (univ.filter fun w => S q.1 q.2.1 w ∧ ¬ ok q.1 q.2.1 q.2.2.1 w).card ≤ Ef ∧ ¬ ok q.1 q.2.1 q.2.2.1 q.2.2.2 with hB0
  -- pairs where the second run is one of the few
  have hB0c : B0.card ≤ Ef * G := by
    let f : U × R × W × W → U × R × W := fun q => (q.1, q.2.1, q.2.2.1)
    have h1 : B0.card ≤ Ef * (B0.image f).card := by
      apply card_le_mul_card_image
      intro y hy
      obtain ⟨q0, hq0, rfl⟩ := mem_image.1 hy
      rw [hB0, mem_filter] at hq0
      refine le_trans ?_ hq0.2.1
      apply card_le_card_of_injOn (fun q => q.2.2.2)
      · intro q hq
        rw [mem_coe, mem_filter, hB0, mem_filter, hQ, mem_filter] at hq
        obtain ⟨⟨⟨-, -, h2⟩, -, h3⟩, he⟩ := hq
        obtain ⟨e1, e2, e3⟩ : q.1 = q0.1 ∧ q.2.1 = q0.2.1 ∧ q.2.2.1 = q0.2.2.1 := by
          simpa [f] using he
        rw [mem_coe, mem_filter]
        rw [e1, e2] at h2
        rw [e1, e2, e3] at h3
        exact ⟨mem_univ _, h2, h3⟩
      · intro q hq q' hq' he
        rw [mem_coe, mem_filter] at hq hq'
        have e := hq.2.trans hq'.2.symm
        obtain ⟨e1, e2, e3⟩ : q.1 = q'.1 ∧ q.2.1 = q'.2.1 ∧ q.2.2.1 = q'.2.2.1 := by
          simpa [f] using e
        exact Prod.ext e1 (Prod.ext e2 (Prod.ext e3 he))
    refine h1.trans (Nat.mul_le_mul_left _ (card_le_card fun y hy => ?_))
    obtain ⟨q0, hq0, rfl⟩ := mem_image.1 hy
    rw [hB0, mem_filter, hQ, mem_filter] at hq0
    exact mem_filter.2 ⟨mem_univ _, hq0.1.2.1⟩
  choose! Y hY1 hY2 using fun (x : {x : U × R × W // S x.1 x.2.1 x.2.2 ∧ ¬ a x.1 x.2.1 x.2.2 ∧
      ¬ (univ.filter fun w => S x.1 x.2.1 w ∧ ¬ ok x.1 x.2.1 x.2.2 w).card ≤ Ef}) => (h x.1.1 x.1.2.1 x.1.2.2 x.2.1).resolve_left x.2.2.1 |>.resolve_left x.2.2.2
  let Y' : U × R × W × W → Finset U := fun q => if hx : S q.1 q.2.1 q.2.2.1 ∧ ¬ a q.1 q.2.1 q.2.2.1 ∧
      ¬ (univ.filter fun w => S q.1 q.2.1 w ∧ ¬ ok q.1 q.2.1 q.2.2.1 w).card ≤ Ef then Y ⟨(q.1, q.2.1, q.2.2.1), hx⟩ else ∅
  have hY' : ∀ q, (Y' q).card ≤ El := by
    intro q
    simp only [Y']
    split
    · exact hY1 _
    · rw [card_empty]
      exact Nat.zero_le _
  set B1 : Finset ((U × R × W × W) × U × R × W × W) := (Q ×ˢ univ).filter fun x => x.2.1 ∈ Y' x.1 with hB1
  have hB1c : B1.card ≤ Q.card * (El * (Fintype.card R * Fintype.card W * Fintype.card W)) := by
    rw [hB1, card_filter, sum_product, ← smul_eq_mul, ← sum_const]
    apply sum_le_sum
    intro q0 _
    rw [← card_filter]
    have e : (univ.filter fun q : U × R × W × W => q.1 ∈ Y' q0) = (Y' q0) ×ˢ (univ : Finset (R × W × W)) := by
      ext q
      simp
    rw [e, card_product, card_univ, Fintype.card_prod, Fintype.card_prod, mul_assoc (Fintype.card R)]
    exact Nat.mul_le_mul_right _ (hY' q0)
  have hcov : Q ×ˢ Q ⊆ Good ∪ (B0 ×ˢ Q ∪ (Q ×ˢ B0 ∪ B1)) := by
    rintro ⟨q0, q⟩ hq
    rw [mem_product] at hq
    obtain ⟨hq0, hq⟩ := hq
    by_contra hno
    simp only [mem_union, not_or, mem_product] at hno
    obtain ⟨n1, n2, n3, n4⟩ := hno
    have hq0' := hq0
    have hq' := hq
    rw [hQ, mem_filter] at hq0' hq'
    have n1' : ¬ (a q0.1 q0.2.1 q0.2.2.1 ∨ ok q0.1 q0.2.1 q0.2.2.1 q0.2.2.2 ∨
          dif q0.1 q0.2.1 q0.2.2.1 q.1 q.2.1 q.2.2.1 ∨ ok q.1 q.2.1 q.2.2.1 q.2.2.2) := fun hh =>
      n1 (mem_filter.2 ⟨mem_univ _, ⟨hq0'.2.1, hq0'.2.2, hq'.2.1, hq'.2.2⟩, hh⟩)
    simp only [not_or] at n1'
    obtain ⟨m1, m2, m3, m4⟩ := n1'
    have hcond : S q0.1 q0.2.1 q0.2.2.1 ∧ ¬ a q0.1 q0.2.1 q0.2.2.1 ∧
      ¬ (univ.filter fun w => S q0.1 q0.2.1 w ∧ ¬ ok q0.1 q0.2.1 q0.2.2.1 w).card ≤ Ef :=
      ⟨hq0'.2.1, m1, fun hc => n2 ⟨mem_filter.2 ⟨hq0, hc, m2⟩, hq⟩⟩
    have hu : q.1 ∉ Y' q0 := fun hu => n4 (mem_filter.2 ⟨mem_product.2 ⟨hq0, mem_univ _⟩, hu⟩)
    simp only [Y', dif_pos hcond] at hu
    rcases hY2 ⟨(q0.1, q0.2.1, q0.2.2.1), hcond⟩ q.1 hu q.2.1 q.2.2.1 hq'.2.1 with h1 | h1
    · exact m3 h1
    · exact n3 ⟨hq0, mem_filter.2 ⟨hq, h1, m4⟩⟩
  have hmain : Q.card * Q.card ≤ Good.card + (Ef * G * Q.card + (Q.card * (Ef * G)
      + Q.card * (El * (Fintype.card R * Fintype.card W * Fintype.card W)))) := by
    rw [← card_product]
    refine (card_le_card hcov).trans ((card_union_le _ _).trans (Nat.add_le_add_left ((card_union_le _ _).trans
      (Nat.add_le_add ?_ ((card_union_le _ _).trans (Nat.add_le_add ?_ hB1c)))) _))
    · rw [card_product]
      exact Nat.mul_le_mul_right _ hB0c
    · rw [card_product]
      exact Nat.mul_le_mul_left _ hB0c
  -- many pairs
  have hpairs : G * G ≤ (Fintype.card U * Fintype.card R) * Q.card := by
    set g : U × R → ℕ := fun x => (univ.filter fun w => S x.1 x.2 w).card with hg
    have e1 : G = ∑ x, g x := by
      rw [hG, card_filter, Fintype.sum_prod_type, Fintype.sum_prod_type]
      apply sum_congr rfl
      intro u _
      rw [Fintype.sum_prod_type]
      apply sum_congr rfl
      intro r _
      rw [hg]
      simp only
      rw [card_filter]
    have e2 : Q.card = ∑ x, g x * g x := by
      rw [hQ, card_filter, Fintype.sum_prod_type, Fintype.sum_prod_type]
      apply sum_congr rfl
      intro u _
      rw [Fintype.sum_prod_type]
      apply sum_congr rfl
      intro r _
      rw [← card_filter, hg]
      simp only
      rw [← card_product]
      congr 1
      ext y
      simp
    have hcs := sq_sum_le_card_mul_sum_sq (s := (univ : Finset (U × R))) (f := fun x => (g x : ℤ))
    rw [card_univ, Fintype.card_prod] at hcs
    rw [e1, e2]
    zify
    simpa only [sq, Nat.cast_mul] using hcs
  set c := Fintype.card U * Fintype.card R with hc
  set D := Fintype.card R * Fintype.card W * Fintype.card W with hD
  have hmono : n * n * (n * (n - 2 * Ef * c) - El * c * D) ≤ G * G * (G * (G - 2 * Ef * c) - El * c * D) :=
    Nat.mul_le_mul (Nat.mul_le_mul hn hn) (Nat.sub_le_sub_right (Nat.mul_le_mul hn (Nat.sub_le_sub_right hn _)) _)
  refine hmono.trans ?_
  by_cases h1 : G ≤ 2 * Ef * c
  · rw [Nat.sub_eq_zero_of_le h1, mul_zero, Nat.zero_sub, mul_zero]
    exact Nat.zero_le _
  by_cases h2 : G * (G - 2 * Ef * c) ≤ El * c * D
  · rw [Nat.sub_eq_zero_of_le h2, mul_zero]
    exact Nat.zero_le _
  have h1 := le_of_not_ge h1
  have h2 := le_of_not_ge h2
  zify [h1, h2] at hmain hpairs ⊢
  have p1 : (0 : ℤ) ≤ Q.card := Int.natCast_nonneg _
  have p2 : (0 : ℤ) ≤ c := Int.natCast_nonneg _
  have p3 : (0 : ℤ) ≤ (G : ℤ) * (G - 2 * Ef * c) - El * c * D := by
    zify [h1] at h2
    linarith
  have s1 := mul_le_mul_of_nonneg_right hpairs p3
  have s2 : (c : ℤ) * Q.card * ((G : ℤ) * (G - 2 * Ef * c) - El * c * D)
      ≤ c * Q.card * (c * Q.card - 2 * Ef * c * G - El * c * D) :=
    mul_le_mul_of_nonneg_left (by linarith) (mul_nonneg p2 p1)
  have s3 := mul_le_mul_of_nonneg_left hmain (mul_nonneg p2 p2)
  refine s1.trans (s2.trans ?_)
  nlinarith

section Gen
variable {Fp F C : Type} {N τ : Nat} [Field Fp] [Field F] [DecidableEq F] [Algebra Fp F] [CommRing C]
  [Algebra Fp C]

/-- A multiple, by a unit, of the difference of two different openings of a commitment. -/
theorem kernel_diff (rd : RingData Fp F C N τ) (scheme : Ajtai (Fin N → F)) (fc fc' z : List C)
    (hl : fc.length = scheme.matrix.ncols) (hl' : fc'.length = scheme.matrix.ncols) (hz : z.length = scheme.matrix.ncols)
    (hne : fc ≠ fc') (hcm : scheme.commit (fc.map rd.crt) = scheme.commit (fc'.map rd.crt)) (q : C) (hqu : IsUnit q)
    (hzj : ∀ j < scheme.matrix.ncols, z.getD j 0 = q * (fc.getD j 0 - fc'.getD j 0)) :
    (∃ x ∈ z, x ≠ 0) ∧ scheme.commit (z.map rd.crt) = .ok ⟨List.replicate scheme.matrix.vals.length 0⟩ := by
  set m := scheme.matrix.ncols with hm
  constructor
  · by_contra hall
    push Not at hall
    apply hne
    apply ext_getD hl hl'
    intro j hj
    have h5 : z.getD j 0 = 0 := by
      apply hall
      rw [List.getD_eq_getElem?_getD, List.getElem?_eq_getElem (by rw [hz]; exact hj)]
      exact List.getElem_mem _
    rw [hzj j hj] at h5
    exact sub_eq_zero.1 ((hqu.mul_right_eq_zero).1 h5)
  · set vs : Nat → List C := fun k => if k = 0 then fc else fc' with hvs
    set cc : Nat → C := fun k => if k = 0 then q else -q with hcc
    have hcomb : IsComb 2 cc vs z m := by
      refine ⟨hz, fun k _ => ?_, fun j hj => ?_⟩
      · rw [hvs]
        simp only
        split
        · exact hl
        · exact hl'
      · rw [hzj j hj, sum_range_succ, sum_range_one]
        simp only [hcc, hvs, if_true, one_ne_zero, if_false]
        ring
    have hc0 := commit_comb (map_crt_comb rd hcomb) scheme
    rw [commit_ok scheme _ (by rw [List.length_map, hz])]
    rw [commit_ok scheme _ (by rw [List.length_map, hl]), commit_ok scheme _ (by rw [List.length_map, hl'])] at hcm
    have hcm' : (scheme.matrix.vals.map fun row => dot row (fc.map rd.crt))
        = scheme.matrix.vals.map fun row => dot row (fc'.map rd.crt) := by
      have := Except.ok.inj hcm
      exact (Commitment.mk.injEq _ _).mp this
    congr 2
    apply ext_getD hc0.len (by simp)
    intro j hj
    rw [hc0.eq j hj, sum_range_succ, sum_range_one]
    simp only [hcc, hvs, if_true, one_ne_zero, if_false]
    rw [hcm']
    simp only [List.getD_eq_getElem?_getD, List.getElem?_replicate, hj, if_true, Option.getD_some, map_neg]
    ring

theorem chal_eq (cs : ChallengeSet C) (b : Bytes cs.bytesNeeded) {c : C} (h : cs.decode b.toList = .ok c) : chal cs b = c := by
  unfold chal
  rw [h]

theorem getD_range {α : Type} [Zero α] (n : Nat) (f : Nat → α) (j : Nat) (hj : j < n) : ((List.range n).map f).getD j 0 = f j := by
  rw [List.getD_eq_getElem?_getD, List.getElem?_map, List.getElem?_range hj]
  rfl

/-- What forked runs give: the extracted vectors are witnesses of the claimed statements. -/
theorem forked_extract (rd : RingData Fp F C N τ) (P : Params) (hK : 1 ≤ P.K) (cs : ChallengeSet C)
    (w0 : List F) (ccs : CCS (Fin N → F)) (scheme : Ajtai (Fin N → F))
    (hS : SizesOK P ccs scheme) (ht : ccs.t = ccs.M.length) (cms : List (LCCCS (Fin N → F)))
    (proof : FoldProof (Fin N → F)) (hsh : FoldShape P ccs scheme cms proof.etaS) (bound : Nat)
    (out : (Fin (2 * P.K - 1) → Bytes cs.bytesNeeded) → Witness (Fin N → F) C)
    (ρ b : Fin (2 * P.K - 1) → Bytes cs.bytesNeeded)
    (h : Forked cs (fun ρ => SucceedsWith rd P cs ccs scheme cms bound w0 proof ρ (out ρ)) ρ b) :
    ∃ (st : LCCCS (Fin N → F)) (t : List F × Nat) (W : Nat → Witness (Fin N → F) C),
      foldVerify rd P cs (scripted (coinT F (Fin N → F)) (byteScript cs ρ)) (w0, 0) cms proof ccs = .ok (st, t) ∧
      LcccsHolds rd P ccs scheme st (out ρ) ∧ WitShort rd bound (out ρ) ∧
      (∀ i, WitShort rd bound (out (Function.update ρ i (b i))) ∧
        (out (Function.update ρ i (b i))).fCoeff.length = (ccs.n - ccs.l - 1) * P.L) ∧
      (∀ k < 2 * P.K, LcccsHolds rd P ccs scheme (claimed cms proof.thetaS proof.etaS 0 st.r k) (W k)) ∧
      (∀ i, cs.decode (ρ i).toList = .ok (chal cs (ρ i)) ∧ cs.decode (b i).toList = .ok (chal cs (b i)) ∧
        IsUnit (chal cs (ρ i) - chal cs (b i)) ∧ ∀ j, (chal cs (ρ i) - chal cs (b i)) * (W i).fCoeff.getD j 0
          = (out ρ).fCoeff.getD j 0 - (out (Function.update ρ i (b i))).fCoeff.getD j 0) ∧
      (∀ j, (W (2 * P.K - 1)).fCoeff.getD j 0 = (out ρ).fCoeff.getD j 0
        - ∑ i : Fin (2 * P.K - 1), chal cs (ρ i) * (W i).fCoeff.getD j 0) ∧
      ∀ k < 2 * P.K, (W k).fCoeff = extract cs ρ b (out ρ).fCoeff (fun i => (out (Function.update ρ i (b i))).fCoeff) k := by
  obtain ⟨⟨st, t, h1, h2, h3⟩, hf⟩ := h
  choose hb st' t' h4 h5 h6 using hf
  let bb : Nat → Nat → List UInt8 := fun i => if hi : i < 2 * P.K - 1 then byteScript cs (Function.update ρ ⟨i, hi⟩ (b ⟨i, hi⟩)) i
    else fun n => List.replicate n 0
  have hbb : ∀ i (hi : i < 2 * P.K - 1), bb i = byteScript cs (Function.update ρ ⟨i, hi⟩ (b ⟨i, hi⟩)) i := fun i hi => by
    simp only [bb, dif_pos hi]
  have hbn : ∀ i (hi : i < 2 * P.K - 1), bb i cs.bytesNeeded = (b ⟨i, hi⟩).toList := by
    intro i hi
    rw [hbb i hi, byteScript_at _ _ _ hi, Function.update_self]
  have hu : ∀ i < 2 * P.K - 1, ∀ c c', cs.decode (byteScript cs ρ i cs.bytesNeeded) = .ok c →
      cs.decode (bb i cs.bytesNeeded) = .ok c' → IsUnit (c - c') := by
    intro i hi c c' e1 e2
    rw [byteScript_at _ _ _ hi] at e1
    rw [hbn i hi] at e2
    exact hb ⟨i, hi⟩ c c' e1 e2
  obtain ⟨W, hW, hrel, rho, hr1, hr2, hcomb⟩ := C86_extract rd P hK cs _ w0 ccs scheme hS ht cms proof hsh _ st t (out ρ) h1 h2 bb
    (fun i => if hi : i < 2 * P.K - 1 then st' ⟨i, hi⟩ else st) (fun i => if hi : i < 2 * P.K - 1 then t' ⟨i, hi⟩ else t)
    (fun i => if hi : i < 2 * P.K - 1 then out (Function.update ρ ⟨i, hi⟩ (b ⟨i, hi⟩)) else out ρ)
    (by
      intro i hi
      rw [dif_pos hi, dif_pos hi, hbb i hi, ← byteScript_update cs ρ ⟨i, hi⟩ (b ⟨i, hi⟩)]
      exact h4 ⟨i, hi⟩)
    (by
      intro i hi
      rw [dif_pos hi, dif_pos hi]
      exact h5 ⟨i, hi⟩) hu
  have hdec : ∀ i, cs.decode (ρ i).toList = .ok (chal cs (ρ i)) ∧ cs.decode (b i).toList = .ok (chal cs (b i)) ∧
        IsUnit (chal cs (ρ i) - chal cs (b i)) ∧ ∀ j, (chal cs (ρ i) - chal cs (b i)) * (W i).fCoeff.getD j 0
          = (out ρ).fCoeff.getD j 0 - (out (Function.update ρ i (b i))).fCoeff.getD j 0 := by
    intro i
    obtain ⟨c, c', e1, e2, e3⟩ := hrel i i.2
    have e4 := hu i i.2 c c' e1 e2
    rw [byteScript_at _ _ _ i.2] at e1
    rw [hbn i i.2] at e2
    rw [chal_eq cs _ e1, chal_eq cs _ e2]
    refine ⟨e1, e2, e4, fun j => ?_⟩
    have := e3 j
    rwa [dif_pos i.2] at this
  refine ⟨st, t, W, h1, h2, h3, fun i => ⟨h6 i, (h5 i).witOK.flen⟩, hW, hdec, ?_, ?_⟩
  · intro j
    have := hcomb.eq_all j
    rw [show 2 * P.K = (2 * P.K - 1) + 1 by omega, sum_range_succ, hr1, one_mul, Finset.sum_range] at this
    have hsum : ∑ i, chal cs (ρ i) * (W i).fCoeff.getD j 0 = ∑ i : Fin (2 * P.K - 1), rho i * (W i).fCoeff.getD j 0 := by
      apply sum_congr rfl
      intro i _
      have e := hr2 i i.2
      rw [byteScript_at _ _ _ i.2] at e
      rw [chal_eq cs _ e]
    rw [hsum, this]
    ring
  have hq : ∀ (i : Fin (2 * P.K - 1)) j, (W i).fCoeff.getD j 0 = Ring.inverse (chal cs (ρ i) - chal cs (b i)) *
      ((out ρ).fCoeff.getD j 0 - (out (Function.update ρ i (b i))).fCoeff.getD j 0) := by
    intro i j
    rw [← (hdec i).2.2.2 j, ← mul_assoc, Ring.inverse_mul_cancel _ (hdec i).2.2.1, one_mul]
  intro k hk
  have hlen : (out ρ).fCoeff.length = (ccs.n - ccs.l - 1) * P.L := h2.witOK.flen
  apply ext_getD (hW k hk).witOK.flen (by unfold extract; rw [List.length_map, List.length_range, hlen])
  intro j hj
  unfold extract
  rw [getD_range _ _ _ (by rw [hlen]; exact hj)]
  split
  · rename_i hk'
    exact hq ⟨k, hk'⟩ j
  · rename_i hk'
    have hk2 : k = 2 * P.K - 1 := by omega
    subst hk2
    have := hcomb.eq_all j
    rw [show 2 * P.K = (2 * P.K - 1) + 1 by omega, sum_range_succ, hr1, one_mul] at this
    rw [Finset.sum_range] at this
    have hsum : ∑ i, chal cs (ρ i) * (Ring.inverse (chal cs (ρ i) - chal cs (b i)) *
        ((out ρ).fCoeff.getD j 0 - (out (Function.update ρ i (b i))).fCoeff.getD j 0))
        = ∑ i : Fin (2 * P.K - 1), rho i * (W i).fCoeff.getD j 0 := by
      apply sum_congr rfl
      intro i _
      have e := hr2 i i.2
      rw [byteScript_at _ _ _ i.2] at e
      rw [← hq i j, chal_eq cs _ e]
    rw [hsum, this]
    ring

end Gen

section Norm
variable {p : ℕ} [Fact p.Prime] {F C : Type} {N τ : ℕ} [Field F] [DecidableEq F] [CommRing C] [Algebra (ZMod p) F] [Algebra (ZMod p) C]

/-- Products with differences of challenges. -/
theorem diff_mul_short (rd : RingData (ZMod p) F C N τ) (cs : ChallengeSet C) {red : ℕ → ℕ → ℤ} {s γ β : ℕ}
    (ht : Table rd red s γ) (hc : Bounded rd cs s β) (α : ℕ) (bs bs' : List UInt8) (c c' x : C) (hb : bs.length = cs.bytesNeeded)
    (hb' : bs'.length = cs.bytesNeeded) (h : cs.decode bs = .ok c) (h' : cs.decode bs' = .ok c')
    (hx : ∀ i, Short α (rd.coeff x i)) (i : Fin (τ * N)) :
    ∃ n : ℤ, n.natAbs ≤ γ * (2 * β) * (α / 2) ∧ rd.coeff ((c - c') * x) i = (n : ZMod p) := by
  obtain ⟨r, r1, r2, r3⟩ := hc bs c hb h
  obtain ⟨r', r1', r2', r3'⟩ := hc bs' c' hb' h'
  obtain ⟨a, a1, a2⟩ := short_lift rd hx
  have hd1 : ∀ i : Fin (τ * N), rd.coeff (c - c') i = (((r i - r' i : ℤ)) : ZMod p) := by
    intro i
    rw [map_sub, Pi.sub_apply, r1, r1']
    push_cast
    ring
  have hd2 : ∀ i, s ≤ i → i < τ * N → r i - r' i = 0 := fun i hi hi' => by simp only [r2 i hi hi', r2' i hi hi', sub_zero]
  have hd3 : ∀ i < s, |r i - r' i| ≤ (2 * β : ℕ) := by
    intro i hi
    refine (abs_sub _ _).trans ?_
    have g5 := r3 i hi
    have g6 := r3' i hi
    push_cast
    linarith
  refine ⟨_, ?_, coeff_mul rd.coeff rd.X rd.coeff_X red s ht.le ht.pow _ _ (fun i => r i - r' i) a hd1 hd2 a1 i⟩
  have := abs_conv_le ht.exp (fun i => r i - r' i) a (2 * β) (α / 2) hd3 a2 i i.2
  rw [Int.abs_eq_natAbs] at this
  exact_mod_cast this

end Norm

end Verif
