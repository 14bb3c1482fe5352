import Verif.Lemmas.Mle
import Mathlib.Algebra.Polynomial.Roots
import Mathlib.Data.Fintype.BigOperators
import Mathlib.Data.Fin.Tuple.Basic
import Mathlib.Data.List.OfFn
import Mathlib.Tactic.LinearCombination
import Mathlib.Algebra.Order.BigOperators.Group.Finset

/-! Counting tapes of challenges. -/

set_option linter.unusedSectionVars false
set_option linter.unusedSimpArgs false

namespace Verif

open Finset Spec Polynomial

variable {F : Type} [Fintype F]

open Classical in
/-- Number of tapes of length `n` with the property `p`. -/
noncomputable def cnt (n : Nat) (p : List F → Prop) : Nat :=
  (univ.filter fun r : Fin n → F => p (List.ofFn r)).card

theorem cnt_mono {n : Nat} {p q : List F → Prop} (h : ∀ l, l.length = n → p l → q l) : cnt n p ≤ cnt n q := by
  classical
  unfold cnt
  apply card_le_card
  intro r hr
  rw [mem_filter] at hr ⊢
  exact ⟨hr.1, h _ (by simp) hr.2⟩

theorem cnt_congr {n : Nat} {p q : List F → Prop} (h : ∀ l, l.length = n → (p l ↔ q l)) : cnt n p = cnt n q :=
  le_antisymm (cnt_mono fun l hl => (h l hl).1) (cnt_mono fun l hl => (h l hl).2)

theorem cnt_le (n : Nat) (p : List F → Prop) : cnt n p ≤ Fintype.card F ^ n := by
  classical
  unfold cnt
  refine (card_le_univ _).trans ?_
  simp

theorem cnt_false (n : Nat) (p : List F → Prop) (h : ∀ l, l.length = n → ¬ p l) : cnt n p = 0 := by
  classical
  unfold cnt
  rw [card_eq_zero, filter_eq_empty_iff]
  intro r _
  exact h _ (by simp)

theorem cnt_zero (p : List F → Prop) [Decidable (p [])] : cnt 0 p = if p [] then 1 else 0 := by
  classical
  unfold cnt
  split
  · rename_i h
    rw [filter_true_of_mem (by intro r _; simpa using h)]
    simp
  · rename_i h
    rw [filter_false_of_mem (by intro r _; simpa using h)]
    simp

theorem cnt_succ (n : Nat) (p : List F → Prop) : cnt (n + 1) p = ∑ a : F, cnt n fun l => p (a :: l) := by
  classical
  unfold cnt
  simp only [card_filter]
  rw [← (Fin.consEquiv fun _ => F).sum_comp, Fintype.sum_prod_type]
  apply sum_congr rfl
  intro a _
  apply sum_congr rfl
  intro r _
  congr 1
  simp [Fin.consEquiv]

theorem cnt_split (a b : Nat) (p : List F → Prop) :
    cnt (a + b) p = ∑ u : Fin a → F, cnt b fun v => p (List.ofFn u ++ v) := by
  induction a generalizing p with
  | zero => simp
  | succ a ih =>
    rw [Nat.add_right_comm, cnt_succ]
    simp only [ih]
    rw [← (Fin.consEquiv fun _ => F).sum_comp, Fintype.sum_prod_type]
    apply sum_congr rfl
    intro x _
    apply sum_congr rfl
    intro r _
    simp [Fin.consEquiv]

/-- Union bound along a tape: few bad prefixes, and few bad extensions of every other prefix. -/
theorem cnt_append_le (a b ka kb : Nat) (ha : 1 ≤ a) (hb : 1 ≤ b) (p bad : List F → Prop)
    (h1 : cnt a bad ≤ ka * Fintype.card F ^ (a - 1))
    (h2 : ∀ u, u.length = a → ¬ bad u → cnt b (fun v => p (u ++ v)) ≤ kb * Fintype.card F ^ (b - 1)) :
    cnt (a + b) p ≤ (ka + kb) * Fintype.card F ^ (a + b - 1) := by
  classical
  set q := Fintype.card F with hq
  rw [cnt_split, ← sum_filter_add_sum_filter_not univ fun u : Fin a → F => bad (List.ofFn u)]
  have e1 : ∑ u ∈ univ.filter (fun u : Fin a → F => bad (List.ofFn u)), cnt b (fun v => p (List.ofFn u ++ v))
      ≤ ka * q ^ (a + b - 1) := by
    refine (sum_le_card_nsmul _ _ (q ^ b) fun u _ => cnt_le b _).trans ?_
    rw [smul_eq_mul]
    have : (univ.filter fun u : Fin a → F => bad (List.ofFn u)).card ≤ ka * q ^ (a - 1) := h1
    calc _ ≤ ka * q ^ (a - 1) * q ^ b := Nat.mul_le_mul_right _ this
      _ = ka * q ^ (a + b - 1) := by rw [mul_assoc, ← pow_add]; congr 2; omega
  have e2 : ∑ u ∈ univ.filter (fun u : Fin a → F => ¬ bad (List.ofFn u)), cnt b (fun v => p (List.ofFn u ++ v))
      ≤ kb * q ^ (a + b - 1) := by
    refine (sum_le_card_nsmul _ _ (kb * q ^ (b - 1)) fun u hu => ?_).trans ?_
    · exact h2 _ (by simp) (mem_filter.1 hu).2
    · rw [smul_eq_mul]
      have : (univ.filter fun u : Fin a → F => ¬ bad (List.ofFn u)).card ≤ q ^ a := by
        refine (card_le_univ _).trans ?_
        simp [hq]
      calc _ ≤ q ^ a * (kb * q ^ (b - 1)) := Nat.mul_le_mul_right _ this
        _ = kb * q ^ (a + b - 1) := by rw [mul_left_comm, ← pow_add]; congr 2; omega
  calc _ ≤ ka * q ^ (a + b - 1) + kb * q ^ (a + b - 1) := Nat.add_le_add e1 e2
    _ = (ka + kb) * q ^ (a + b - 1) := by ring

/-- The order of two parts of the tape does not matter. -/
theorem cnt_swap (a b : Nat) (p : List F → List F → Prop) :
    cnt (a + b) (fun l => p (l.take a) (l.drop a)) = cnt (b + a) (fun l => p (l.drop b) (l.take b)) := by
  classical
  rw [cnt_split, cnt_split]
  have : ∀ u : Fin a → F, cnt b (fun v => p ((List.ofFn u ++ v).take a) ((List.ofFn u ++ v).drop a))
      = ∑ v : Fin b → F, if p (List.ofFn u) (List.ofFn v) then 1 else 0 := by
    intro u
    unfold cnt
    rw [card_filter]
    apply sum_congr rfl
    intro v _
    have e1 : (List.ofFn u ++ List.ofFn v).take a = List.ofFn u := List.take_left' (by simp)
    have e2 : (List.ofFn u ++ List.ofFn v).drop a = List.ofFn v := List.drop_left' (by simp)
    simp only [e1, e2]
  simp only [this]
  rw [sum_comm]
  apply sum_congr rfl
  intro v _
  unfold cnt
  rw [card_filter]
  apply sum_congr rfl
  intro u _
  have e1 : (List.ofFn v ++ List.ofFn u).take b = List.ofFn v := List.take_left' (by simp)
  have e2 : (List.ofFn v ++ List.ofFn u).drop b = List.ofFn u := List.drop_left' (by simp)
  simp only [e1, e2]

/-- A property of the middle part of the tape. -/
theorem cnt_middle (a b c k : Nat) (hb : 1 ≤ b) (p : List F → Prop) (h : cnt b p ≤ k * Fintype.card F ^ (b - 1)) :
    cnt (a + b + c) (fun l => p ((l.drop a).take b)) ≤ k * Fintype.card F ^ (a + b + c - 1) := by
  classical
  set q := Fintype.card F with hq
  have h1 : cnt (a + b) (fun l => p (l.drop a)) ≤ k * q ^ (a + b - 1) := by
    rw [cnt_split]
    refine (sum_le_card_nsmul _ _ (k * q ^ (b - 1)) fun u _ => ?_).trans ?_
    · refine le_trans (cnt_mono fun l hl hp => ?_) h
      rwa [List.drop_left' (by simp)] at hp
    · rw [smul_eq_mul, card_univ, Fintype.card_fun, Fintype.card_fin, ← hq, mul_left_comm, ← pow_add]
      apply le_of_eq
      congr 2
      omega
  rw [cnt_split]
  have h2 : ∀ u : Fin (a + b) → F, cnt c (fun v => p (((List.ofFn u ++ v).drop a).take b))
      ≤ if p ((List.ofFn u).drop a) then q ^ c else 0 := by
    intro u
    have e : ∀ v : List F, ((List.ofFn u ++ v).drop a).take b = (List.ofFn u).drop a := by
      intro v
      rw [List.drop_append_of_le_length (by simp), List.take_left' (by simp)]
    simp only [e]
    split
    · exact cnt_le _ _
    · rename_i h
      rw [cnt_false _ _ fun _ _ => h]
  refine (sum_le_sum fun u _ => h2 u).trans ?_
  rw [← sum_filter, sum_const, smul_eq_mul]
  have h3 : (univ.filter fun u : Fin (a + b) → F => p ((List.ofFn u).drop a)).card ≤ k * q ^ (a + b - 1) := h1
  calc _ ≤ k * q ^ (a + b - 1) * q ^ c := Nat.mul_le_mul_right _ h3
    _ = k * q ^ (a + b + c - 1) := by rw [mul_assoc, ← pow_add]; congr 2; omega

/-! ### Schwartz-Zippel -/

variable [Field F]

/-- A polynomial of degree at most `k` with a nonzero coefficient vanishes at no more than `k` challenges. -/
theorem cnt_roots (k : Nat) (D : F[X]) (hD : D ≠ 0) (hk : D.natDegree ≤ k) :
    cnt 1 (fun l => D.eval (l.getD 0 0) = 0) ≤ k := by
  classical
  rw [cnt_succ]
  have h1 : ∀ a : F, cnt 0 (fun l : List F => D.eval ((a :: l).getD 0 0) = 0) = if D.eval a = 0 then 1 else 0 := by
    intro a
    rw [cnt_zero]
    rfl
  simp only [h1]
  rw [sum_boole]
  have : (univ.filter fun a : F => D.eval a = 0) ⊆ D.roots.toFinset := by
    intro a ha
    rw [Multiset.mem_toFinset, mem_roots hD, IsRoot.def]
    exact (mem_filter.1 ha).2
  calc _ ≤ D.roots.toFinset.card := by exact_mod_cast card_le_card this
    _ ≤ Multiset.card D.roots := Multiset.toFinset_card_le _
    _ ≤ D.natDegree := card_roots' D
    _ ≤ k := hk

/-- `∑_{i<k} a_i x^i` with a nonzero coefficient `a_i`. -/
theorem cnt_powers (k : Nat) (a : Nat → F) (h : ∃ i < k + 1, a i ≠ 0) :
    cnt 1 (fun l => ∑ i ∈ range (k + 1), a i * (l.getD 0 0) ^ i = 0) ≤ k := by
  classical
  obtain ⟨i, hi, hai⟩ := h
  set D : F[X] := ∑ i ∈ range (k + 1), C (a i) * X ^ i with hD
  have hc : ∀ n, D.coeff n = if n < k + 1 then a n else 0 := by
    intro n
    rw [hD, finsetSum_coeff]
    simp only [coeff_C_mul, coeff_X_pow]
    split
    · rename_i hn
      rw [sum_eq_single n (by intro b _ hb; rw [if_neg (Ne.symm hb), mul_zero])
        (by intro hh; exact absurd (mem_range.2 hn) hh)]
      simp
    · rename_i hn
      apply sum_eq_zero
      intro b hb
      have := mem_range.1 hb
      rw [if_neg (by omega), mul_zero]
  have h0 : D ≠ 0 := by
    intro h
    have := hc i
    rw [h, coeff_zero, if_pos hi] at this
    exact hai this.symm
  have hdeg : D.natDegree ≤ k := by
    rw [natDegree_le_iff_coeff_eq_zero]
    intro n hn
    rw [hc, if_neg (by omega)]
  refine le_trans (cnt_mono fun l _ hl => ?_) (cnt_roots k D h0 hdeg)
  rw [hD, eval_finsetSum]
  simpa using hl

/-- A multilinear polynomial that is nonzero at some vertex vanishes at no more than `n |F|^(n-1)` points. -/
theorem cnt_mle (n : Nat) (f : Nat → F) (h : ∃ i < 2 ^ n, f i ≠ 0) :
    cnt n (fun p => mle f p = 0) ≤ n * Fintype.card F ^ (n - 1) := by
  classical
  induction n generalizing f with
  | zero =>
    obtain ⟨i, hi, hf⟩ := h
    have : i = 0 := by simpa using hi
    subst this
    rw [cnt_false]
    · simp
    · intro l hl
      rw [List.length_eq_zero_iff.1 hl, mle_nil]
      exact hf
  | succ n ih =>
    obtain ⟨i, hi, hf⟩ := h
    rw [Nat.add_comm n 1]
    rcases Nat.eq_zero_or_pos n with rfl | hn
    · have := cnt_powers 1 (fun j => if j = 0 then f 0 else f 1 - f 0) (by
        have : i = 0 ∨ i = 1 := by simp at hi; omega
        by_cases h0 : f 0 = 0
        · rcases this with rfl | rfl
          · exact absurd h0 hf
          · exact ⟨1, by omega, by simpa [h0] using hf⟩
        · exact ⟨0, by omega, by simpa using h0⟩)
      simp only [sum_range_succ, range_one, sum_singleton] at this
      simp only [Nat.add_zero, Nat.sub_self, pow_zero, mul_one]
      refine le_trans (cnt_mono fun l hl hp => ?_) this
      obtain ⟨x, rfl⟩ := List.length_eq_one_iff.1 hl
      rw [mle_cons, mle_nil] at hp
      simp only [if_true, pow_zero, mul_one, List.getD_cons_zero, pow_one, range_zero, sum_empty, zero_add,
        one_ne_zero, if_false]
      rw [← hp]
      ring
    · refine cnt_append_le 1 n 1 n (by omega) hn _
        (fun l => f (2 * (i / 2)) + l.getD 0 0 * (f (2 * (i / 2) + 1) - f (2 * (i / 2))) = 0) ?_ ?_
      · have := cnt_powers 1 (fun j => if j = 0 then f (2 * (i / 2)) else f (2 * (i / 2) + 1) - f (2 * (i / 2))) (by
          by_cases h0 : f (2 * (i / 2)) = 0
          · refine ⟨1, by omega, ?_⟩
            have h2 : i = 2 * (i / 2) ∨ i = 2 * (i / 2) + 1 := by omega
            rcases h2 with h2 | h2
            · rw [h2] at hf; exact absurd h0 hf
            · rw [h2] at hf; simpa [h0] using hf
          · exact ⟨0, by omega, by simpa using h0⟩)
        simp only [sum_range_succ, range_one, sum_singleton] at this
        rw [Nat.sub_self, pow_zero, mul_one]
        refine le_trans (cnt_mono fun l hl hp => ?_) this
        simp only [if_true, pow_zero, mul_one, List.getD_cons_zero, pow_one, range_zero, sum_empty, zero_add,
          one_ne_zero, if_false]
        linear_combination hp
      · intro u hu hbad
        obtain ⟨x, rfl⟩ := List.length_eq_one_iff.1 hu
        have := ih (fun b => f (2 * b) + x * (f (2 * b + 1) - f (2 * b))) ⟨i / 2, by rw [pow_succ] at hi; omega, by
          simpa using hbad⟩
        refine le_trans (cnt_mono fun l hl hp => ?_) this
        simp only [List.singleton_append] at hp
        rwa [mle_cons] at hp

end Verif
