import Verif.Ext.Ring
import Mathlib.Data.ZMod.ValMinAbs
import Mathlib.Data.ZMod.Basic
import Mathlib.Algebra.Field.ZMod
import Mathlib.LinearAlgebra.Matrix.ToLin
import Mathlib.Tactic.LinearCombination

/-!
# A concrete suitable ring

`F_5[X] / (X^2 + 1)` with `X^2 + 1 = (X - 2)(X - 3)`: coefficient form written in its NTT basis, two
slots, extension degree 1, with a computable balanced decomposition. It shows that the contracts of
`RingData` are satisfiable, and is used in the examples beside the property theorems.
-/

set_option linter.unusedSimpArgs false

namespace Verif.Example

open Finset Verif

/-! ## Balanced digits of an integer -/

/-- Balanced remainder; a tie is rounded towards the sign of `n`. -/
def balRem (b : Nat) (n : ℤ) : ℤ := if 0 ≤ n then -Int.bmod (-n) b else Int.bmod n b

/-- `k` balanced digits base `b`, the last digit being the remaining quotient. -/
def balDigits (b : Nat) : Nat → ℤ → List ℤ
  | 0, _ => []
  | 1, n => [n]
  | k + 2, n => balRem b n :: balDigits b (k + 1) ((n - balRem b n) / b)

theorem balDigits_length (b : Nat) (k : Nat) (n : ℤ) : (balDigits b k n).length = k := by
  induction k using Nat.strong_induction_on generalizing n with
  | _ k ih =>
    match k with
    | 0 => rfl
    | 1 => rfl
    | k + 2 => simp [balDigits, ih (k + 1) (by omega)]

theorem bmod_dvd (b : Nat) (n : ℤ) : (b : ℤ) ∣ n - Int.bmod n b := by
  have := Int.bmod_add_bdiv n b
  exact ⟨Int.bdiv n b, by omega⟩

theorem balRem_dvd (b : Nat) (n : ℤ) : (b : ℤ) ∣ n - balRem b n := by
  unfold balRem
  split
  · obtain ⟨c, hc⟩ := bmod_dvd b (-n)
    exact ⟨-c, by rw [mul_neg, ← hc]; ring⟩
  · exact bmod_dvd b n

theorem balDigits_sum (b : Nat) (k : Nat) (hk : 1 ≤ k) (n : ℤ) :
    ∑ i ∈ range k, (b : ℤ) ^ i * (balDigits b k n).getD i 0 = n := by
  induction k using Nat.strong_induction_on generalizing n with
  | _ k ih =>
    match k with
    | 0 => omega
    | 1 => simp [balDigits]
    | k + 2 =>
      rw [sum_range_succ']
      simp only [balDigits, List.getD_cons_succ, List.getD_cons_zero, pow_zero, one_mul]
      have := ih (k + 1) (by omega) (by omega) ((n - balRem b n) / b)
      have h2 : ∑ i ∈ range (k + 1), (b : ℤ) ^ (i + 1)
          * (balDigits b (k + 1) ((n - balRem b n) / b)).getD i 0
          = b * ((n - balRem b n) / b) := by
        conv_rhs => rw [← this, mul_sum]
        apply sum_congr rfl
        intro i _
        ring
      rw [h2, Int.mul_ediv_cancel' (balRem_dvd b n)]
      omega

theorem reach_succ (b k : Nat) : reach b (k + 1) = b + b * reach b k := by
  unfold reach
  rw [sum_range_succ', mul_sum]
  have : ∑ i ∈ range k, b ^ (i + 1) = b * ∑ i ∈ range k, b ^ i := by
    rw [mul_sum]
    exact sum_congr rfl fun i _ => by ring
  rw [this, mul_sum]
  ring

theorem balDigits_short (b : Nat) (h2 : 2 ≤ b) (he : Even b) (k : Nat) (hk : 1 ≤ k) (n : ℤ)
    (hn : 2 * n.natAbs ≤ reach b k) : ∀ d ∈ balDigits b k n, 2 * d.natAbs ≤ b := by
  induction k using Nat.strong_induction_on generalizing n with
  | _ k ih =>
    match k with
    | 0 => omega
    | 1 =>
      intro d hd
      simp only [balDigits, List.mem_singleton] at hd
      subst hd
      simpa [reach] using hn
    | k + 2 =>
      obtain ⟨c, hc⟩ := he
      have hb1 : ∀ m : ℤ, -((b : ℤ) / 2) ≤ Int.bmod m b := fun m => Int.le_bmod (by omega)
      have hb2 : ∀ m : ℤ, Int.bmod m b < ((b : ℤ) + 1) / 2 := fun m => Int.bmod_lt (by omega)
      have hm : 2 * (balRem b n).natAbs ≤ b ∧ (0 ≤ n → -(b : ℤ) < 2 * balRem b n) ∧
          (n < 0 → 2 * balRem b n < b) := by
        have := hb1 n
        have := hb1 (-n)
        have := hb2 n
        have := hb2 (-n)
        unfold balRem
        split <;> refine ⟨by omega, fun _ => by omega, fun _ => by omega⟩
      intro d hd
      simp only [balDigits, List.mem_cons] at hd
      rcases hd with rfl | hd
      · exact hm.1
      · refine ih (k + 1) (by omega) (by omega) _ ?_ d hd
        obtain ⟨q, hq⟩ := balRem_dvd b n
        rw [hq, Int.mul_ediv_cancel_left _ (by omega)]
        rw [reach_succ b (k + 1)] at hn
        obtain ⟨e, hev⟩ : ∃ e, reach b (k + 1) = 2 * e := ⟨c * ∑ i ∈ range (k + 1), b ^ i, by
          unfold reach; rw [hc]; ring⟩
        rw [hev] at hn ⊢
        have h3 : (b : ℤ) * q < b * (e + 1) ∧ -((b : ℤ) * (e + 1)) < b * q := by
          have h4 : (2 * n.natAbs : ℤ) ≤ b + b * (2 * e) := by exact_mod_cast hn
          obtain ⟨m1, m2, m3⟩ := hm
          have h5 : (2 : ℤ) * |n| ≤ b + b * (2 * e) := by rwa [Int.abs_eq_natAbs]
          have h0 : (0 : ℤ) < b := by omega
          have h6 : (0 : ℤ) ≤ b * e := by positivity
          rw [← hq]
          rcases le_or_gt 0 n with hs | hs
          · have := m2 hs
            rw [abs_of_nonneg hs] at h5
            have m1' : 2 * balRem b n ≤ b := by omega
            constructor <;> nlinarith
          · have := m3 hs
            rw [abs_of_neg hs] at h5
            have m1' : -(b : ℤ) ≤ 2 * balRem b n := by omega
            constructor <;> nlinarith
        have h0 : (0 : ℤ) < b := by omega
        have h7 : q < e + 1 := lt_of_mul_lt_mul_left h3.1 h0.le
        have h8 : -((e : ℤ) + 1) < q := by
          have : (b : ℤ) * (-(e + 1)) < b * q := by rw [mul_neg]; exact h3.2
          exact lt_of_mul_lt_mul_left this h0.le
        omega

/-! ## The ring -/

/-- NTT form of `F_5[X]/(X^2+1)`. -/
abbrev C5 := Fin 2 → ZMod 5

instance : Fact (Nat.Prime 5) := ⟨by decide⟩

/-- Coefficients `(c_0, c_1)` of the element with values `a_0 = c_0 + 2 c_1`, `a_1 = c_0 + 3 c_1`. -/
def coeff5 : C5 ≃ₗ[ZMod 5] (Fin (1 * 2) → ZMod 5) where
  toFun a := fun i => if i = 0 then 3 * a 0 - 2 * a 1 else a 1 - a 0
  invFun c := fun i => if i = 0 then c 0 + 2 * c 1 else c 0 + 3 * c 1
  map_add' a b := by
    funext i
    simp only [Pi.add_apply]
    split <;> ring
  map_smul' t a := by
    funext i
    simp only [Pi.smul_apply, smul_eq_mul, RingHom.id_apply]
    split <;> ring
  left_inv a := by
    funext i
    fin_cases i
    · simp; ring
    · simp; ring
  right_inv c := by
    funext i
    fin_cases i
    · simp; ring
    · simp; ring

/-- Balanced decomposition, coefficient by coefficient. -/
def dec5 (b k : Nat) (a : C5) : Res (List C5) :=
  if ∀ i, 2 * (coeff5 a i).valMinAbs.natAbs ≤ reach b k then
    .ok ((List.range k).map fun j => coeff5.symm fun i =>
      (((balDigits b k (coeff5 a i).valMinAbs).getD j 0 : ℤ) : ZMod 5))
  else .error (.panic "decompose")

theorem short5 {B : Nat} {x : ZMod 5} : Short B x ↔ 2 * x.valMinAbs.natAbs ≤ B := by
  constructor
  · rintro ⟨n, h1, h2⟩
    have := ZMod.natAbs_min_of_le_div_two 5 x.valMinAbs n (by rw [ZMod.coe_valMinAbs, h2])
      (ZMod.natAbs_valMinAbs_le x)
    omega
  · intro h
    exact ⟨x.valMinAbs, h, (ZMod.coe_valMinAbs x).symm⟩

/-- `F_5[X]/(X^2+1)` as a suitable ring. -/
def ring5 : RingData (ZMod 5) (ZMod 5) C5 2 1 where
  npos := by decide
  coeff := coeff5
  crt := AlgEquiv.refl
  X := ![2, 3]
  coeff_X := by decide
  dec := dec5
  dec_ok := by
    intro b k a hb he hk h
    have hs : ∀ i, 2 * (coeff5 a i).valMinAbs.natAbs ≤ reach b k := fun i => short5.1 (h i)
    refine ⟨_, if_pos hs, by simp, ?_, ?_⟩
    · apply coeff5.injective
      funext i
      rw [map_sum, Finset.sum_apply]
      have : ∀ j ∈ range k, coeff5 ((b : C5) ^ j * ((List.range k).map fun j => coeff5.symm fun i =>
          (((balDigits b k (coeff5 a i).valMinAbs).getD j 0 : ℤ) : ZMod 5)).getD j 0) i
          = (((b : ℤ) ^ j * (balDigits b k (coeff5 a i).valMinAbs).getD j 0 : ℤ) : ZMod 5) := by
        intro j hj
        have hj' := mem_range.1 hj
        have e1 : ((List.range k).map fun j => coeff5.symm fun i =>
          (((balDigits b k (coeff5 a i).valMinAbs).getD j 0 : ℤ) : ZMod 5)).getD j 0
          = coeff5.symm fun i => (((balDigits b k (coeff5 a i).valMinAbs).getD j 0 : ℤ) : ZMod 5) := by
          simp [List.getD_eq_getElem?_getD, hj']
        have e2 : ∀ x : C5, (b : C5) ^ j * x = ((b : ZMod 5) ^ j) • x := by
          intro x
          funext l
          simp
        rw [e1, e2, map_smul, LinearEquiv.apply_symm_apply]
        simp
      rw [sum_congr rfl this, ← Int.cast_sum, balDigits_sum b k hk, ZMod.coe_valMinAbs]
    · intro d hd i
      obtain ⟨j, hj, rfl⟩ := List.mem_map.1 hd
      rw [LinearEquiv.apply_symm_apply]
      refine ⟨_, balDigits_short b hb he k hk _ (hs i) _ ?_, rfl⟩
      have hj' : j < (balDigits b k (coeff5 a i).valMinAbs).length := by
        rw [balDigits_length]; exact List.mem_range.1 hj
      rw [List.getD_eq_getElem?_getD, List.getElem?_eq_getElem hj', Option.getD_some]
      exact List.getElem_mem hj'

/-- `B = 4`, `L = 1`, `b = 2`, `K = 2`. -/
def par5 : Params := ⟨4, 1, 2, 2⟩

end Verif.Example
