import Verif.Lemmas.Invertible
import Verif.Ext.Ring
import Verif.Lemmas.Witness

/-!
# Growth of coefficients under multiplication by challenges
-/

set_option linter.unusedSimpArgs false
set_option linter.unusedSectionVars false

namespace Verif.NormGrowth

open Finset Verif Verif.SmallNorm

/-- Coefficient `k` of `X ^ m` modulo `X ^ D + 1`, for `m < 2D`. -/
def redPlus (D m k : ℕ) : ℤ := if m < D then (if k = m then 1 else 0) else (if k + D = m then -1 else 0)

/-- Coefficient `k` of `X ^ m` modulo `X ^ (2h) - X ^ h + 1`, for `m < 4h`. -/
def redTri (h m k : ℕ) : ℤ :=
  if m < 2 * h then (if k = m then 1 else 0)
  else if m < 3 * h then (if k + h = m then 1 else 0) - (if k + 2 * h = m then 1 else 0)
  else (if k + 3 * h = m then -1 else 0)

variable {p : ℕ} [Fact p.Prime] {A : Type} [CommRing A] [Algebra (ZMod p) A]

theorem sum_single (D t : ℕ) (z : ℤ) (x : A) (ht : t < D) :
    ∑ k ∈ range D, ((if k = t then z else 0 : ℤ) : A) * x ^ k = z * x ^ t := by
  rw [sum_eq_single t]
  · simp
  · intro b _ hb; simp [hb]
  · intro h; exact absurd (mem_range.2 ht) h

theorem pow_redPlus (D m : ℕ) (x : A) (hx : x ^ D + 1 = 0) (hm : m < 2 * D) :
    x ^ m = ∑ k ∈ range D, (redPlus D m k : A) * x ^ k := by
  unfold redPlus
  split
  case isTrue h => rw [sum_single D m 1 x h]; simp
  case isFalse h =>
    have : ∀ k, (k + D = m) = (k = m - D) := fun k => by apply propext; omega
    simp only [this]
    rw [sum_single D (m - D) (-1) x (by omega)]
    conv_lhs => rw [show m = D + (m - D) by omega, pow_add, eq_neg_of_add_eq_zero_left hx]
    simp

theorem pow_redTri (h m : ℕ) (x : A) (hx : x ^ (2 * h) - x ^ h + 1 = 0) (hm : m < 4 * h) :
    x ^ m = ∑ k ∈ range (2 * h), (redTri h m k : A) * x ^ k := by
  unfold redTri
  have e1 : x ^ (2 * h) = x ^ h - 1 := by linear_combination hx
  split
  case isTrue h1 => rw [sum_single (2 * h) m 1 x h1]; simp
  case isFalse h1 =>
    split
    case isTrue h2 =>
      have r1 : ∀ k, (k + h = m) = (k = m - h) := fun k => by apply propext; omega
      have r2 : ∀ k, (k + 2 * h = m) = (k = m - 2 * h) := fun k => by apply propext; omega
      simp only [r1, r2, Int.cast_sub, sub_mul, sum_sub_distrib]
      rw [sum_single (2 * h) (m - h) 1 x (by omega), sum_single (2 * h) (m - 2 * h) 1 x (by omega)]
      conv_lhs => rw [show m = 2 * h + (m - 2 * h) by omega, pow_add, e1, sub_mul, ← pow_add,
        show h + (m - 2 * h) = m - h by omega]
      simp
    case isFalse h2 =>
      have r1 : ∀ k, (k + 3 * h = m) = (k = m - 3 * h) := fun k => by apply propext; omega
      simp only [r1]
      rw [sum_single (2 * h) (m - 3 * h) (-1) x (by omega)]
      have e3 : x ^ (3 * h) = -1 := by
        rw [show 3 * h = 2 * h + h by ring, pow_add, e1, sub_mul, ← pow_add, one_mul, ← two_mul, e1]; ring
      conv_lhs => rw [show m = 3 * h + (m - 3 * h) by omega, pow_add, e3]
      simp

section
variable {D : ℕ} (coeff : A ≃ₗ[ZMod p] (Fin D → ZMod p)) (X : A)
  (hX : ∀ i : Fin D, coeff (X ^ (i : ℕ)) = Pi.single i 1)
include hX

theorem coeff_sum_int (a : ℕ → ℤ) (k : Fin D) :
    coeff (∑ i ∈ range D, (a i : A) * X ^ i) k = ((a k : ℤ) : ZMod p) := by
  rw [map_sum, Finset.sum_apply, ← Fin.sum_univ_eq_sum_range (fun i => coeff ((a i : A) * X ^ i) k)]
  have : ∀ i : Fin D, coeff ((a i : A) * X ^ (i : ℕ)) k = if i = k then ((a i : ℤ) : ZMod p) else 0 := by
    intro i
    have e : (a i : A) * X ^ (i : ℕ) = ((a i : ℤ) : ZMod p) • X ^ (i : ℕ) := by rw [Algebra.smul_def]; simp
    rw [e, map_smul, hX, Pi.smul_apply, Pi.single_apply, smul_eq_mul]
    simp only [eq_comm]
    split <;> simp
  simp only [this]
  simp

theorem eq_sum_ofInt (y : A) (a : ℕ → ℤ) (ha : ∀ i : Fin D, coeff y i = ((a i : ℤ) : ZMod p)) :
    y = ∑ i ∈ range D, (a i : A) * X ^ i := by
  have := eq_sum_int coeff X hX y (fun i => ((a i : ℤ) : ZMod p)) ha
  simpa using this

/-- Coefficients of a product. -/
theorem coeff_mul (red : ℕ → ℕ → ℤ) (s : ℕ) (hs : s ≤ D)
    (hred : ∀ m, m < 2 * D → X ^ m = ∑ k ∈ range D, (red m k : A) * X ^ k)
    (y x : A) (r a : ℕ → ℤ) (hr : ∀ i : Fin D, coeff y i = ((r i : ℤ) : ZMod p))
    (hr0 : ∀ i, s ≤ i → i < D → r i = 0) (ha : ∀ i : Fin D, coeff x i = ((a i : ℤ) : ZMod p)) (k : Fin D) :
    coeff (y * x) k = ((∑ j ∈ range s, ∑ i ∈ range D, r j * a i * red (j + i) k : ℤ) : ZMod p) := by
  have hy : y = ∑ j ∈ range s, (r j : A) * X ^ j := by
    rw [eq_sum_ofInt coeff X hX y r hr]
    symm
    refine sum_subset (range_subset_range.2 hs) fun j hj hj' => ?_
    rw [hr0 j (by simpa using hj') (by simpa using hj)]
    simp
  have hx := eq_sum_ofInt coeff X hX x a ha
  have : y * x = ∑ l ∈ range D, ((∑ j ∈ range s, ∑ i ∈ range D, r j * a i * red (j + i) l : ℤ) : A) * X ^ l := by
    rw [hy, hx, sum_mul_sum]
    have : ∀ j ∈ range s, ∀ i ∈ range D, (r j : A) * X ^ j * ((a i : A) * X ^ i)
        = ∑ l ∈ range D, ((r j * a i * red (j + i) l : ℤ) : A) * X ^ l := by
      intro j hj i hi
      have h1 := mem_range.1 hj
      have h2 := mem_range.1 hi
      rw [show (r j : A) * X ^ j * ((a i : A) * X ^ i) = (r j : A) * a i * X ^ (j + i) by ring,
        hred (j + i) (by omega), mul_sum]
      refine sum_congr rfl fun l _ => ?_
      push_cast
      ring
    rw [sum_congr rfl fun j hj => sum_congr rfl (this j hj)]
    simp only [Int.cast_sum, sum_mul]
    exact (sum_comm.trans (sum_congr rfl fun j _ => sum_comm)).symm
  rw [this]
  exact coeff_sum_int coeff X hX _ k

end

/-- The sums of absolute values are at most `γ`. -/
def Expands (red : ℕ → ℕ → ℤ) (s D γ : ℕ) : Prop :=
  ∀ k < D, ∑ j ∈ range s, ∑ i ∈ range D, |red (j + i) k| ≤ (γ : ℤ)

theorem abs_conv_le {red : ℕ → ℕ → ℤ} {s D γ : ℕ} (hγ : Expands red s D γ) (r a : ℕ → ℤ) (β α : ℕ)
    (hr : ∀ j < s, |r j| ≤ β) (ha : ∀ i < D, |a i| ≤ α) (k : ℕ) (hk : k < D) :
    |∑ j ∈ range s, ∑ i ∈ range D, r j * a i * red (j + i) k| ≤ (γ * β * α : ℕ) := by
  refine (abs_sum_le_sum_abs _ _).trans ?_
  calc ∑ j ∈ range s, |∑ i ∈ range D, r j * a i * red (j + i) k|
      ≤ ∑ j ∈ range s, ∑ i ∈ range D, (β * α : ℤ) * |red (j + i) k| := by
        refine sum_le_sum fun j hj => (abs_sum_le_sum_abs _ _).trans (sum_le_sum fun i hi => ?_)
        rw [abs_mul, abs_mul]
        have h1 := hr j (mem_range.1 hj)
        have h2 := ha i (mem_range.1 hi)
        gcongr
    _ = (β * α : ℤ) * ∑ j ∈ range s, ∑ i ∈ range D, |red (j + i) k| := by
        simp only [mul_sum]
    _ ≤ (β * α : ℤ) * γ := by
        have := hγ k hk
        gcongr
    _ = (γ * β * α : ℕ) := by push_cast; ring

/-- A list of `K` digits of absolute value at most `b / 2` represents an integer in reach. -/
theorem short_of_digits {Fp : Type} [CommRing Fp] (b K : ℕ) (d : ℕ → Fp) (hd : ∀ i < K, Short b (d i)) :
    Short (reach b K) (∑ i ∈ range K, (b : Fp) ^ i * d i) := by
  induction K with
  | zero => exact ⟨0, by simp, by simp⟩
  | succ K ih =>
    obtain ⟨n, h1, h2⟩ := ih fun i hi => hd i (by omega)
    obtain ⟨m, h3, h4⟩ := hd K (by omega)
    refine ⟨n + (b : ℤ) ^ K * m, ?_, ?_⟩
    · have h5 : (n + (b : ℤ) ^ K * m).natAbs ≤ n.natAbs + b ^ K * m.natAbs := by
        refine (Int.natAbs_add_le _ _).trans ?_
        rw [Int.natAbs_mul, Int.natAbs_pow]
        rfl
      have h6 : b ^ K * (2 * m.natAbs) ≤ b ^ K * b := Nat.mul_le_mul_left _ h3
      have h7 : reach b (K + 1) = reach b K + b ^ K * b := by
        unfold reach
        rw [sum_range_succ, mul_add, mul_comm b (b ^ K)]
      rw [h7]
      nlinarith
    · rw [sum_range_succ, h2, h4]
      push_cast
      ring

end Verif.NormGrowth
