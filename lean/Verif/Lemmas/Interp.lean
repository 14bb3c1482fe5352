import Verif.Model.Sumcheck
import Verif.Lemmas.List
import Mathlib.LinearAlgebra.Lagrange
import Mathlib.Data.Nat.Factorial.Basic
import Mathlib.Algebra.BigOperators.Intervals
import Mathlib.Tactic.Ring
import Mathlib.Tactic.FieldSimp
import Mathlib.Tactic.LinearCombination

/-! Helper lemmas for `interpolate_uni_poly`. -/

set_option linter.unusedSectionVars false
set_option linter.unusedSimpArgs false

namespace Verif

open Finset Polynomial

variable {F R : Type} [Field F] [DecidableEq F] [CommRing R] [Algebra F R]

/-- `1, ..., n` are invertible in `F` (characteristic zero or greater than `n`). -/
def CharGt (F : Type) [Field F] (n : Nat) : Prop := ∀ k, 0 < k → k ≤ n → (k : F) ≠ 0

theorem CharGt.mono {n m : Nat} (h : CharGt F n) (hm : m ≤ n) : CharGt F m :=
  fun k h0 hk => h k h0 (le_trans hk hm)

theorem CharGt.factorial_ne {n : Nat} (h : CharGt F n) {m : Nat} (hm : m ≤ n) :
    ((Nat.factorial m : Nat) : F) ≠ 0 := by
  induction m with
  | zero => simp
  | succ m ih =>
    rw [Nat.factorial_succ, Nat.cast_mul]
    exact mul_ne_zero (h (m + 1) (by omega) hm) (ih (by omega))

theorem CharGt.cast_inj {n : Nat} (h : CharGt F n) {a b : Nat} (ha : a ≤ n) (hb : b ≤ n)
    (hab : (a : F) = b) : a = b := by
  rcases lt_trichotomy a b with hlt | heq | hgt
  · exfalso
    refine h (b - a) (by omega) (by omega) ?_
    rw [Nat.cast_sub hlt.le, hab, sub_self]
  · exact heq
  · exfalso
    refine h (a - b) (by omega) (by omega) ?_
    rw [Nat.cast_sub hgt.le, hab, sub_self]

theorem interpScan_spec (r : F) (k i : Nat) (hi : 1 ≤ i) :
    (∃ j, i - 1 ≤ j ∧ j < i - 1 + k ∧ r = (j : F) ∧
      interpScan r k i ((i - 1 : Nat) : F) ((List.range i).map fun j : Nat => r - (j : F))
        (∏ j ∈ range i, (r - (j : F))) = .inl j) ∨
    ((∀ j, i - 1 ≤ j → j < i - 1 + k → r ≠ (j : F)) ∧
      interpScan r k i ((i - 1 : Nat) : F) ((List.range i).map fun j : Nat => r - (j : F))
        (∏ j ∈ range i, (r - (j : F))) =
        .inr ((List.range (i + k)).map fun j : Nat => r - (j : F), ∏ j ∈ range (i + k), (r - (j : F)),
          ((i - 1 + k : Nat) : F))) := by
  induction k generalizing i with
  | zero => right; exact ⟨fun j h1 h2 => by omega, rfl⟩
  | succ k ih =>
    unfold interpScan
    by_cases hr : r = ((i - 1 : Nat) : F)
    · left; exact ⟨i - 1, le_refl _, by omega, hr, by rw [if_pos hr]⟩
    · rw [if_neg hr]
      simp only
      have e1 : ((i - 1 : Nat) : F) + 1 = ((i + 1 - 1 : Nat) : F) := by
        rw [← Nat.cast_succ]; congr 1; omega
      have e2 : (List.range i).map (fun j : Nat => r - (j : F)) ++ [r - (((i - 1 : Nat) : F) + 1)]
          = (List.range (i + 1)).map fun j : Nat => r - (j : F) := by
        rw [List.range_succ, List.map_append, e1]; simp
      have e3 : (∏ j ∈ range i, (r - (j : F))) * (r - (((i - 1 : Nat) : F) + 1))
          = ∏ j ∈ range (i + 1), (r - (j : F)) := by
        rw [prod_range_succ, e1]; simp
      rw [e2, e3, e1]
      rcases ih (i + 1) (by omega) with ⟨j, h1, h2, h3, h4⟩ | ⟨h1, h2⟩
      · left; exact ⟨j, by omega, by omega, h3, h4⟩
      · right
        refine ⟨fun j g1 g2 => ?_, ?_⟩
        · by_cases hj : j = i - 1
          · rw [hj]; exact hr
          · exact h1 j (by omega) (by omega)
        · rw [h2, show i + 1 + k = i + (k + 1) by omega, show i + 1 - 1 + k = i - 1 + (k + 1) by omega]

theorem uFactorial_ok {bits a : Nat} (h : a.factorial < 2 ^ bits) :
    uFactorial bits a = .ok a.factorial := by
  induction a with
  | zero => rfl
  | succ a ih =>
    have h' : a.factorial < 2 ^ bits := lt_of_le_of_lt (Nat.factorial_le (by omega)) h
    have ih := ih h'
    unfold uFactorial at ih ⊢
    rw [List.range_succ, foldRes_append, ih]
    simp only [foldRes, bind_ok']
    have : a.factorial * (a + 1) = (a + 1).factorial := by rw [Nat.factorial_succ, mul_comm]
    rw [this, if_pos h]

theorem fieldFactorial_eq (a : Nat) : fieldFactorial F a = (a.factorial : F) := by
  induction a with
  | zero => simp [fieldFactorial]
  | succ a ih =>
    unfold fieldFactorial at ih ⊢
    rw [List.range_succ, List.foldl_append, ih]
    simp [Nat.factorial_succ, mul_comm]

/-- Lagrange weight computed by the code. -/
def lagW (n : Nat) (r : F) (j : Nat) : F :=
  (∏ k ∈ range (n + 1), (r - (k : F))) /
    ((j.factorial : F) * ((-1) ^ (n - j) * ((n - j).factorial : F)) * (r - (j : F)))

theorem fdiv_ok {a b : F} (h : b ≠ 0) : fdiv a b = .ok (a / b) := by
  unfold fdiv; rw [if_neg h]

theorem sum_step (p : List R) (n : Nat) (r : F) (m : Nat) (res : R) :
    res + p.getD m 0 * algebraMap F R (lagW n r m) + ∑ j ∈ range m, p.getD j 0 * algebraMap F R (lagW n r j)
      = res + ∑ j ∈ range (m + 1), p.getD j 0 * algebraMap F R (lagW n r j) := by
  rw [sum_range_succ]; ring

theorem range_reverse_succ (m : Nat) : (List.range (m + 1)).reverse = m :: (List.range m).reverse := by
  rw [List.range_succ, List.reverse_append]; rfl

theorem interpIntLoop_ok (bits : Nat) (hb : 1 ≤ bits) (p : List R) (n : Nat) (hp : p.length = n + 1) (r : F)
    (hc : CharGt F n) (hr : ∀ j ≤ n, r ≠ (j : F)) (hn : n.factorial < 2 ^ (bits - 1)) (m : Nat)
    (hm : m ≤ n + 1) (en : Nat) (num : Int) (res : R)
    (hen : m ≠ 0 → en * (m - 1).factorial = n.factorial)
    (hnum : m ≠ 0 → num = (-1) ^ (n + 1 - m) * ((n + 1 - m).factorial : Int)) :
    interpIntLoop bits p ((List.range (n + 1)).map fun j : Nat => r - (j : F))
      (∏ j ∈ range (n + 1), (r - (j : F))) ((n.factorial : Nat) : F) (n + 1)
      (List.range m).reverse num en res
      = .ok (res + ∑ j ∈ range m, p.getD j 0 * algebraMap F R (lagW n r j)) := by
  induction m generalizing en num res with
  | zero => simp [interpIntLoop]
  | succ m ih =>
    have hen := hen (by omega)
    have hnum := hnum (by omega)
    rw [show n + 1 - (m + 1) = n - m by omega] at hnum
    rw [show m + 1 - 1 = m by omega] at hen
    rw [range_reverse_succ]
    simp only [interpIntLoop]
    have hfle : (n - m).factorial ≤ n.factorial := Nat.factorial_le (by omega)
    have habs : num = ((n - m).factorial : Int) ∨ num = -((n - m).factorial : Int) := by
      rw [hnum]
      rcases neg_one_pow_eq_or Int (n - m) with h | h <;> rw [h] <;> simp
    have hpos : (0 : Int) < ((n - m).factorial : Int) := by exact_mod_cast Nat.factorial_pos _
    have hlt : ((n - m).factorial : Int) < 2 ^ (bits - 1) := by
      exact_mod_cast lt_of_le_of_lt hfle hn
    rw [if_neg (by rcases habs with h | h <;> rw [h] <;> omega)]
    have hnumF : (if num < 0 then - (((- num).toNat : Nat) : F) else ((num.toNat : Nat) : F))
        = (-1) ^ (n - m) * ((n - m).factorial : F) := by
      have : (if num < 0 then - (((- num).toNat : Nat) : F) else ((num.toNat : Nat) : F))
          = ((num : Int) : F) := by
        split
        · rename_i h
          obtain ⟨k, rfl⟩ : ∃ k : Nat, num = -(k : Int) := ⟨(-num).toNat, by omega⟩
          simp
        · rename_i h
          obtain ⟨k, rfl⟩ : ∃ k : Nat, num = (k : Int) := ⟨num.toNat, by omega⟩
          simp
      rw [this, hnum]; push_cast; ring
    rw [hnumF]
    have hm' : m ≤ n := by omega
    rw [idx_getD 0 (by simp; omega)]
    have hev : ((List.range (n + 1)).map fun j : Nat => r - (j : F)).getD m 0 = r - (m : F) := by
      rw [List.getD_eq_getElem?_getD, List.getElem?_map, List.getElem?_range (by omega)]; rfl
    rw [hev]
    simp only [bind_ok']
    have hsub : r - (m : F) ≠ 0 := sub_ne_zero.2 (hr m hm')
    have hf1 : ((n - m).factorial : F) ≠ 0 := hc.factorial_ne (by omega)
    have hf2 : (n.factorial : F) ≠ 0 := hc.factorial_ne (le_refl _)
    have hf3 : (m.factorial : F) ≠ 0 := hc.factorial_ne hm'
    have hs : ((-1 : F) ^ (n - m)) ≠ 0 := pow_ne_zero _ (by simp)
    rw [fdiv_ok (mul_ne_zero (mul_ne_zero hf2 (mul_ne_zero hs hf1)) hsub)]
    rw [idx_getD 0 (by omega)]
    simp only [bind_ok']
    have hw : (∏ j ∈ range (n + 1), (r - (j : F))) * (en : F) /
        ((n.factorial : F) * ((-1) ^ (n - m) * ((n - m).factorial : F)) * (r - (m : F)))
        = lagW n r m := by
      unfold lagW
      have : (n.factorial : F) = (en : F) * (m.factorial : F) := by
        rw [← hen]; push_cast; ring
      rw [this] at hf2 ⊢
      have hen0 : (en : F) ≠ 0 := left_ne_zero_of_mul hf2
      field_simp
    rw [hw]
    by_cases h0 : m = 0
    · subst h0
      simp only [ne_eq, not_true_eq_false, if_false, List.range_zero, List.reverse_nil, interpIntLoop]
      rw [← sum_step]; simp
    · rw [if_pos h0]
      have hnum' : num * (-(((n + 1 : Nat) : Int) - (m : Int)))
          = (-1) ^ (n + 1 - m) * ((n + 1 - m).factorial : Int) := by
        rw [hnum, show n + 1 - m = (n - m) + 1 by omega, Nat.factorial_succ, pow_succ]
        push_cast
        rw [Nat.cast_sub hm']
        ring
      have hen' : en * m * (m - 1).factorial = n.factorial := by
        rw [← hen]
        obtain ⟨m', rfl⟩ : ∃ m', m = m' + 1 := ⟨m - 1, by omega⟩
        simp [Nat.factorial_succ]; ring
      have hen_le : en * m ≤ n.factorial := by
        rw [← hen']; exact Nat.le_mul_of_pos_right _ (Nat.factorial_pos _)
      have habs' : num * (-(((n + 1 : Nat) : Int) - (m : Int))) = ((n + 1 - m).factorial : Int) ∨
          num * (-(((n + 1 : Nat) : Int) - (m : Int))) = -((n + 1 - m).factorial : Int) := by
        rw [hnum']
        rcases neg_one_pow_eq_or Int (n + 1 - m) with h | h <;> rw [h] <;> simp
      have hlt' : ((n + 1 - m).factorial : Int) < 2 ^ (bits - 1) := by
        have : (n + 1 - m).factorial ≤ n.factorial := Nat.factorial_le (by omega)
        exact_mod_cast lt_of_le_of_lt this hn
      have hpos' : (0 : Int) < ((n + 1 - m).factorial : Int) := by exact_mod_cast Nat.factorial_pos _
      have hpow : 2 ^ (bits - 1) ≤ 2 ^ bits := Nat.pow_le_pow_right (by omega) (by omega)
      rw [if_neg (by
        rintro (h | h | h)
        · rcases habs' with g | g <;> rw [g] at h <;> omega
        · rcases habs' with g | g <;> rw [g] at h <;> omega
        · omega)]
      rw [ih (by omega) (en * m) _ _ (fun _ => hen') (fun _ => hnum'), sum_step]

theorem interpFieldLoop_ok (p : List R) (n : Nat) (hp : p.length = n + 1) (r : F)
    (hc : CharGt F n) (hr : ∀ j ≤ n, r ≠ (j : F)) (m : Nat)
    (hm : m ≤ n + 1) (up down : F) (res : R)
    (hdown : m ≠ 0 → down * ((m - 1).factorial : F) = (n.factorial : F))
    (hup : m ≠ 0 → up = (n.factorial : F) * ((-1) ^ (n + 1 - m) * ((n + 1 - m).factorial : F))) :
    interpFieldLoop p ((List.range (n + 1)).map fun j : Nat => r - (j : F))
      (∏ j ∈ range (n + 1), (r - (j : F))) (n + 1)
      (List.range m).reverse up down res
      = .ok (res + ∑ j ∈ range m, p.getD j 0 * algebraMap F R (lagW n r j)) := by
  induction m generalizing up down res with
  | zero => simp [interpFieldLoop]
  | succ m ih =>
    have hdown := hdown (by omega)
    have hup := hup (by omega)
    rw [show n + 1 - (m + 1) = n - m by omega] at hup
    rw [show m + 1 - 1 = m by omega] at hdown
    rw [range_reverse_succ]
    simp only [interpFieldLoop]
    have hm' : m ≤ n := by omega
    rw [idx_getD 0 (by simp; omega)]
    have hev : ((List.range (n + 1)).map fun j : Nat => r - (j : F)).getD m 0 = r - (m : F) := by
      rw [List.getD_eq_getElem?_getD, List.getElem?_map, List.getElem?_range (by omega)]; rfl
    rw [hev]
    simp only [bind_ok']
    have hsub : r - (m : F) ≠ 0 := sub_ne_zero.2 (hr m hm')
    have hf1 : ((n - m).factorial : F) ≠ 0 := hc.factorial_ne (by omega)
    have hf2 : (n.factorial : F) ≠ 0 := hc.factorial_ne (le_refl _)
    have hf3 : (m.factorial : F) ≠ 0 := hc.factorial_ne hm'
    have hs : ((-1 : F) ^ (n - m)) ≠ 0 := pow_ne_zero _ (by simp)
    rw [fdiv_ok (mul_ne_zero (by rw [hup]; exact mul_ne_zero hf2 (mul_ne_zero hs hf1)) hsub)]
    rw [idx_getD 0 (by omega)]
    simp only [bind_ok']
    have hw : (∏ j ∈ range (n + 1), (r - (j : F))) * down / (up * (r - (m : F))) = lagW n r m := by
      unfold lagW
      rw [hup, ← hdown]
      rw [← hdown] at hf2
      have hd0 : down ≠ 0 := left_ne_zero_of_mul hf2
      field_simp
    rw [hw]
    by_cases h0 : m = 0
    · subst h0
      simp only [ne_eq, not_true_eq_false, if_false, List.range_zero, List.reverse_nil, interpFieldLoop]
      rw [← sum_step]; simp
    · rw [if_pos h0]
      rw [ih (by omega) _ _ _ ?_ ?_, sum_step]
      · intro _
        rw [← hdown]
        obtain ⟨m', rfl⟩ : ∃ m', m = m' + 1 := ⟨m - 1, by omega⟩
        simp [Nat.factorial_succ]; ring
      · intro _
        rw [hup, show n + 1 - m = (n - m) + 1 by omega, Nat.factorial_succ, pow_succ]
        push_cast
        ring

/-- Value of `interpolate_uni_poly` away from the nodes, and at the nodes. -/
theorem interpolateUniPoly_ok (p : List R) (n : Nat) (hp : p.length = n + 1) (r : F)
    (hc : CharGt F n) :
    (∃ j ≤ n, r = (j : F) ∧ interpolateUniPoly p r = .ok (p.getD j 0)) ∨
    ((∀ j ≤ n, r ≠ (j : F)) ∧ interpolateUniPoly p r
      = .ok (∑ j ∈ range (n + 1), p.getD j 0 * algebraMap F R (lagW n r j))) := by
  have hscan := interpScan_spec r n 1 (le_refl _)
  simp only [Nat.sub_self, Nat.cast_zero, List.range_one, List.map_cons, List.map_nil, sub_zero,
    prod_range_one, zero_add, Nat.zero_add] at hscan
  unfold interpolateUniPoly
  simp only [hp, Nat.add_sub_cancel]
  rcases hscan with ⟨j, _, h2, h3, h4⟩ | ⟨h1, h2⟩
  · left
    refine ⟨j, by omega, h3, ?_⟩
    rw [h4]
    simp only
    rw [idx_getD 0 (by omega)]
  · rw [h2]
    simp only
    by_cases hrn : r = (n : F)
    · left
      refine ⟨n, le_refl _, hrn, ?_⟩
      rw [if_pos hrn]
      simp only [usub, Nat.le_add_left, if_true, bind_ok', Nat.add_sub_cancel]
      rw [idx_getD 0 (by omega)]
    · right
      have hr : ∀ j ≤ n, r ≠ (j : F) := by
        intro j hj
        by_cases hjn : j = n
        · rw [hjn]; exact hrn
        · exact h1 j (by omega) (by omega)
      refine ⟨hr, ?_⟩
      rw [if_neg hrn]
      simp only [usub, Nat.le_add_left, if_true, bind_ok', Nat.add_sub_cancel]
      rw [show 1 + n = n + 1 by omega]
      have key : ∀ bits, 1 ≤ bits → n.factorial < 2 ^ (bits - 1) →
          (do let ld ← uFactorial bits n
              interpIntLoop bits p ((List.range (n + 1)).map fun j : Nat => r - (j : F))
                (∏ j ∈ range (n + 1), (r - (j : F))) (ld : F) (n + 1)
                (List.range (n + 1)).reverse 1 1 0)
            = .ok (∑ j ∈ range (n + 1), p.getD j 0 * algebraMap F R (lagW n r j)) := by
        intro bits hb hlt
        rw [uFactorial_ok (lt_of_lt_of_le hlt (Nat.pow_le_pow_right (by omega) (by omega)))]
        simp only [bind_ok']
        rw [interpIntLoop_ok bits hb p n hp r hc hr hlt (n + 1) (le_refl _) 1 1 0
          (fun _ => by simp) (fun _ => by simp), zero_add]
      by_cases hl1 : n + 1 ≤ 20
      · rw [if_pos hl1]
        refine key 64 (by omega) ?_
        exact lt_of_le_of_lt (Nat.factorial_le (show n ≤ 19 by omega)) (by decide)
      · rw [if_neg hl1]
        by_cases hl2 : n + 1 ≤ 33
        · rw [if_pos hl2]
          refine key 128 (by omega) ?_
          exact lt_of_le_of_lt (Nat.factorial_le (show n ≤ 32 by omega)) (by decide)
        · rw [if_neg hl2, fieldFactorial_eq]
          rw [interpFieldLoop_ok p n hp r hc hr (n + 1) (le_refl _) _ _ 0
            (fun _ => by simp) (fun _ => by simp), zero_add]

theorem interpolateUniPoly_nil (r : F) :
    (interpolateUniPoly ([] : List R) r) = .error (.panic "len - 1") := by
  unfold interpolateUniPoly
  simp only [List.length_nil, Nat.zero_sub, interpScan]
  by_cases h : r = 0
  · rw [if_pos h]; rfl
  · rw [if_neg h]; rfl

theorem prod_erase_sub (n j : Nat) (hj : j ≤ n) :
    ∏ k ∈ (range (n + 1)).erase j, ((j : F) - (k : F))
      = (j.factorial : F) * ((-1) ^ (n - j) * ((n - j).factorial : F)) := by
  induction n, hj using Nat.le_induction with
  | base =>
    have : (range (j + 1)).erase j = range j := by
      ext k; simp only [mem_erase, mem_range]; omega
    rw [this]
    simp only [Nat.sub_self, pow_zero, Nat.factorial_zero, Nat.cast_one, mul_one]
    rw [← Finset.prod_range_reflect]
    have : ∀ m, ∏ k ∈ range m, ((m : F) - ((m - 1 - k : Nat) : F)) = (m.factorial : F) := by
      intro m
      rw [← Finset.prod_range_add_one_eq_factorial]
      push_cast
      apply prod_congr rfl
      intro k hk
      have hk := mem_range.1 hk
      rw [Nat.cast_sub (by omega), Nat.cast_sub (by omega)]
      push_cast; ring
    exact this j
  | succ n hn ih =>
    have : (range (n + 1 + 1)).erase j = insert (n + 1) ((range (n + 1)).erase j) := by
      ext k; simp only [mem_erase, mem_range, mem_insert]; omega
    rw [this, prod_insert (by simp), ih, show n + 1 - j = (n - j) + 1 by omega, Nat.factorial_succ, pow_succ]
    push_cast
    rw [Nat.cast_sub hn]
    ring

theorem lagW_eq_basis (n : Nat) (r : F) (hr : ∀ j ≤ n, r ≠ (j : F)) (j : Nat)
    (hj : j ≤ n) :
    lagW n r j = (Lagrange.basis (range (n + 1)) (fun k : Nat => (k : F)) j).eval r := by
  unfold lagW Lagrange.basis
  rw [eval_prod]
  simp only [Lagrange.basisDivisor, eval_mul, eval_C, eval_sub, eval_X]
  rw [prod_mul_distrib, prod_inv_distrib, prod_erase_sub n j hj,
    ← mul_prod_erase (range (n + 1)) (fun k : Nat => r - (k : F)) (mem_range.2 (by omega : j < n + 1))]
  have : r - (j : F) ≠ 0 := sub_ne_zero.2 (hr j hj)
  rw [mul_comm (r - (j : F)), mul_div_mul_right _ _ this, div_eq_inv_mul]

/-- Evaluation of an `R`-polynomial of degree at most `n` at a field point through its values at
`0, ..., n`. -/
theorem lagrange_ring (n : Nat) (hc : CharGt F n) (r : F) (hr : ∀ j ≤ n, r ≠ (j : F)) (q : R[X])
    (hq : q.natDegree ≤ n) :
    ∑ j ∈ range (n + 1), q.eval (j : R) * algebraMap F R (lagW n r j) = q.eval (algebraMap F R r) := by
  have hmono : ∀ k ≤ n, ∑ j ∈ range (n + 1), (j : F) ^ k * lagW n r j = r ^ k := by
    intro k hk
    have hinj : Set.InjOn (fun k : Nat => (k : F)) (range (n + 1) : Finset Nat) := by
      intro a ha b hb hab
      simp only [coe_range, Set.mem_Iio] at ha hb
      exact hc.cast_inj (by omega) (by omega) hab
    have := Lagrange.eq_interpolate (f := (X : F[X]) ^ k) (s := range (n + 1))
      (v := fun k : Nat => (k : F)) hinj (by
        rw [degree_X_pow, card_range]; exact_mod_cast (by omega : k < n + 1))
    have h2 := congrArg (eval r) this
    rw [Lagrange.interpolate_apply, eval_finsetSum] at h2
    simp only [eval_pow, eval_X, eval_mul, eval_C] at h2
    rw [h2]
    apply sum_congr rfl
    intro j hj
    rw [lagW_eq_basis n r hr j (by have := mem_range.1 hj; omega)]
  rw [eval_eq_sum_range' (lt_of_le_of_lt hq (Nat.lt_succ_self n)) (algebraMap F R r)]
  simp only [eval_eq_sum_range' (lt_of_le_of_lt hq (Nat.lt_succ_self n)), sum_mul]
  rw [sum_comm]
  apply sum_congr rfl
  intro k hk
  rw [← map_pow, ← hmono k (by have := mem_range.1 hk; omega), map_sum, mul_sum]
  apply sum_congr rfl
  intro j _
  rw [map_mul, map_pow, map_natCast]
  ring

/-- The verifier's interpolation is exact. -/
theorem interpolate_poly (n : Nat) (hc : CharGt F n) (q : R[X]) (hq : q.natDegree ≤ n) (p : List R)
    (hp : p = (List.range (n + 1)).map fun j : Nat => q.eval (j : R)) (r : F) :
    interpolateUniPoly p r = .ok (q.eval (algebraMap F R r)) := by
  have hlen : p.length = n + 1 := by rw [hp]; simp
  have hget : ∀ j ≤ n, p.getD j 0 = q.eval (j : R) := by
    intro j hj
    rw [hp, List.getD_eq_getElem?_getD, List.getElem?_map, List.getElem?_range (by omega)]; rfl
  rcases interpolateUniPoly_ok p n hlen r hc with ⟨j, hj, h1, h2⟩ | ⟨h1, h2⟩
  · rw [h2, hget j hj, h1, map_natCast]
  · rw [h2, ← lagrange_ring n hc r h1 q hq]
    congr 1
    apply sum_congr rfl
    intro j hj
    rw [hget j (by have := mem_range.1 hj; omega)]

end Verif
