import Verif.Model.SecurityCheck
import Verif.Spec.SecurityCheck
import Verif.Model.Poseidon
import Mathlib.Algebra.Order.BigOperators.Ring.Finset

set_option linter.unusedSimpArgs false
set_option linter.unusedSectionVars false

/-! # Property C81: what `check_ring_modulus_128_bits_security` guarantees. -/

namespace Verif.Props
open Verif Verif.Spec Finset

/-- `log₂ δ` lies between `1/155` and `1/154`. -/
theorem log_delta : (1 : ℝ) / 155 ≤ Real.log 1.0045 / Real.log 2 ∧ Real.log 1.0045 / Real.log 2 ≤ 1 / 154 := by
  have h2 : (0 : ℝ) < Real.log 2 := Real.log_pos (by norm_num)
  constructor
  · rw [div_le_div_iff₀ (by norm_num) h2, one_mul]
    have h : Real.log 2 ≤ Real.log (1.0045 ^ 155) := Real.log_le_log (by norm_num) (by norm_num)
    rw [Real.log_pow] at h
    push_cast at h
    linarith
  · rw [div_le_div_iff₀ h2 (by norm_num), one_mul]
    have h : Real.log (1.0045 ^ 154) ≤ Real.log 2 := Real.log_le_log (by norm_num) (by norm_num)
    rw [Real.log_pow] at h
    push_cast at h
    linarith

theorem log_delta_pos : 0 < Real.log 1.0045 / Real.log 2 :=
  lt_of_lt_of_le (by norm_num) log_delta.1

theorem raw_exponent (degree kappa : Nat) (t : ℝ) :
    rawBoundL2 degree kappa t = 2 ^ (2 * √(Real.log 1.0045 / Real.log 2 * (degree * kappa * t))) := by
  unfold rawBoundL2
  rw [Real.sqrt_mul log_delta_pos.le, mul_assoc]

/-- Numerical bounds for the norm bound. -/
theorem raw_bounds (degree kappa bits lo hi : Nat) (h1 : 155 * lo ^ 2 ≤ degree * kappa * bits)
    (h2 : degree * kappa * bits ≤ 154 * hi ^ 2) :
    (2 : ℝ) ^ (2 * lo) ≤ rawBoundL2 degree kappa bits ∧ rawBoundL2 degree kappa bits ≤ 2 ^ (2 * hi) := by
  rw [raw_exponent]
  have hN : (0 : ℝ) ≤ (degree : ℝ) * kappa * bits := by positivity
  have h1' : (155 : ℝ) * lo ^ 2 ≤ degree * kappa * bits := by exact_mod_cast h1
  have h2' : (degree : ℝ) * kappa * bits ≤ 154 * hi ^ 2 := by exact_mod_cast h2
  constructor
  · rw [← Real.rpow_natCast]
    apply Real.rpow_le_rpow_of_exponent_le (by norm_num)
    push_cast
    apply mul_le_mul_of_nonneg_left _ (by norm_num)
    apply Real.le_sqrt_of_sq_le
    calc (lo : ℝ) ^ 2 = 1 / 155 * (155 * lo ^ 2) := by ring
      _ ≤ Real.log 1.0045 / Real.log 2 * (degree * kappa * bits) :=
        mul_le_mul log_delta.1 h1' (by positivity) log_delta_pos.le
  · rw [← Real.rpow_natCast]
    apply Real.rpow_le_rpow_of_exponent_le (by norm_num)
    push_cast
    apply mul_le_mul_of_nonneg_left _ (by norm_num)
    rw [Real.sqrt_le_left (by positivity)]
    calc Real.log 1.0045 / Real.log 2 * (degree * kappa * bits) ≤ 1 / 154 * (154 * hi ^ 2) :=
        mul_le_mul log_delta.2 h2' hN (by norm_num)
      _ = (hi : ℝ) ^ 2 := by ring

/-- **C81**, norms: if the check accepts, every witness of `numCols` ring elements (`degree · numCols` coefficients) with
coefficients of absolute value at most `b` has Euclidean norm below the bound, and this bound is below `q / 2` and
below `2^64`. -/
theorem C81_norm (q kappa degree numCols b l : Nat) (under : Bool)
    (h : checkRingModulus q kappa degree numCols b l under) (x : Fin (degree * numCols) → ℤ)
    (hx : ∀ i, |x i| ≤ b) :
    ∃ bound : Nat, √(∑ i, (x i : ℝ) ^ 2) < bound ∧ bound < q / 2 ∧ bound < 2 ^ 64 ∧
      (bound : ℝ) < rawBoundL2 degree kappa (Nat.size q) + 1 := by
  obtain ⟨h1, h2, _⟩ := h
  have hpos : 0 < rawBoundL2 degree kappa (Nat.size q) := by unfold rawBoundL2; positivity
  refine ⟨calculateBoundL2 degree kappa (Nat.size q), ?_, h1, ?_, ?_⟩
  · rcases h2 with h2 | h2
    · have : IsEmpty (Fin (degree * numCols)) := by rw [h2]; infer_instance
      rw [Finset.univ_eq_empty, Finset.sum_empty, Real.sqrt_zero]
      have : 0 < calculateBoundL2 degree kappa (Nat.size q) := by
        unfold calculateBoundL2
        exact lt_min (Nat.ceil_pos.2 hpos) (by norm_num)
      exact_mod_cast this
    · have hn : 0 < √((degree : ℝ) * numCols) := by
        rcases eq_or_lt_of_le (Real.sqrt_nonneg ((degree : ℝ) * numCols)) with h0 | h0
        · rw [← h0, div_zero] at h2
          have : (0 : ℝ) ≤ b := by positivity
          linarith
        · exact h0
      rw [lt_div_iff₀ hn] at h2
      refine lt_of_le_of_lt ?_ h2
      have h3 : ∑ i, (x i : ℝ) ^ 2 ≤ (b : ℝ) ^ 2 * ((degree : ℝ) * numCols) := by
        calc ∑ i, (x i : ℝ) ^ 2 ≤ ∑ _i : Fin (degree * numCols), (b : ℝ) ^ 2 := by
              apply Finset.sum_le_sum
              intro i _
              rw [← sq_abs]
              have : |(x i : ℝ)| ≤ b := by exact_mod_cast hx i
              exact pow_le_pow_left₀ (abs_nonneg _) this 2
          _ = (b : ℝ) ^ 2 * ((degree : ℝ) * numCols) := by
              rw [Finset.sum_const, Finset.card_univ, Fintype.card_fin, nsmul_eq_mul]
              push_cast
              ring
      calc √(∑ i, (x i : ℝ) ^ 2) ≤ √((b : ℝ) ^ 2 * ((degree : ℝ) * numCols)) := Real.sqrt_le_sqrt h3
        _ = b * √((degree : ℝ) * numCols) := by
          rw [Real.sqrt_mul (by positivity), Real.sqrt_sq (by positivity)]
  · unfold calculateBoundL2
    exact lt_of_le_of_lt (min_le_right _ _) (by norm_num)
  · refine lt_of_le_of_lt ?_ (Nat.ceil_lt_add_one hpos.le)
    unfold calculateBoundL2
    exact_mod_cast min_le_left _ _

/-- **C81**, meaning of the bound: for every number `m` of columns, lattice reduction with root Hermite factor `1.0045` finds
only vectors at least as long as the bound with the exact logarithm of the modulus. -/
theorem C81_hermite (degree kappa : Nat) (q m : ℝ) (hq : 1 < q) (hm : 0 < m) :
    rawBoundL2 degree kappa (Real.logb 2 q) ≤ hermiteLength 1.0045 q (degree * kappa) m := by
  have h2 : (0 : ℝ) < Real.log 2 := Real.log_pos (by norm_num)
  have hlq : 0 ≤ Real.logb 2 q := Real.logb_nonneg (by norm_num) hq.le
  rw [raw_exponent]
  set a := Real.log 1.0045 / Real.log 2 with ha
  have hapos : 0 < a := log_delta_pos
  set N := (degree : ℝ) * kappa with hN
  have hN0 : 0 ≤ N := by positivity
  have e1 : (1.0045 : ℝ) = 2 ^ a := by
    rw [ha, Real.log_div_log, Real.rpow_logb (by norm_num) (by norm_num) (by norm_num)]
  have e2 : q = 2 ^ Real.logb 2 q := by
    rw [Real.rpow_logb (by norm_num) (by norm_num) (by linarith)]
  have e3 : hermiteLength 1.0045 q N m = 2 ^ (a * m + Real.logb 2 q * (N / m)) := by
    unfold hermiteLength
    rw [e1]
    nth_rewrite 1 [e2]
    rw [← Real.rpow_mul (by norm_num), ← Real.rpow_mul (by norm_num), ← Real.rpow_add (by norm_num)]
  rw [e3]
  apply Real.rpow_le_rpow_of_exponent_le (by norm_num)
  set t := Real.logb 2 q
  have hx : 0 ≤ a * m := by positivity
  have hy : 0 ≤ t * (N / m) := by positivity
  have hp : a * (N * t) = (a * m) * (t * (N / m)) := by
    field_simp
  rw [hp, Real.sqrt_mul hx]
  nlinarith [sq_nonneg (√(a * m) - √(t * (N / m))), Real.sq_sqrt hx, Real.sq_sqrt hy]

/-- **C81 fails**, rounding: the code uses the bit length in place of the logarithm. The bound it computes (before rounding) is
always larger than the length found by lattice reduction with the best number of columns. -/
theorem C81_bits_too_large (degree kappa q : Nat) (hd : 0 < degree) (hk : 0 < kappa) (hq : 2 ≤ q) :
    ∃ m : ℝ, 0 < m ∧ hermiteLength 1.0045 q (degree * kappa) m < rawBoundL2 degree kappa (Nat.size q) := by
  have h2 : (0 : ℝ) < Real.log 2 := Real.log_pos (by norm_num)
  have hq1 : (1 : ℝ) < q := by exact_mod_cast (by omega : 1 < q)
  have hlq : 0 < Real.logb 2 q := Real.logb_pos (by norm_num) hq1
  have hlt : Real.logb 2 q < Nat.size q := by
    rw [Real.logb_lt_iff_lt_rpow (by norm_num) (by linarith), Real.rpow_natCast]
    exact_mod_cast Nat.lt_size_self q
  rw [raw_exponent]
  set a := Real.log 1.0045 / Real.log 2 with ha
  have hapos : 0 < a := log_delta_pos
  set N := (degree : ℝ) * kappa with hN
  have hN0 : 0 < N := by positivity
  have e1 : (1.0045 : ℝ) = 2 ^ a := by
    rw [ha, Real.log_div_log, Real.rpow_logb (by norm_num) (by norm_num) (by norm_num)]
  have e2 : (q : ℝ) = 2 ^ Real.logb 2 q := by
    rw [Real.rpow_logb (by norm_num) (by norm_num) (by linarith)]
  have e3 : ∀ m, hermiteLength 1.0045 q N m = 2 ^ (a * m + Real.logb 2 q * (N / m)) := by
    intro m
    unfold hermiteLength
    rw [e1]
    nth_rewrite 1 [e2]
    rw [← Real.rpow_mul (by norm_num), ← Real.rpow_mul (by norm_num), ← Real.rpow_add (by norm_num)]
  set t := Real.logb 2 q
  have hs : 0 < √(a * (N * t)) := Real.sqrt_pos.2 (by positivity)
  have hss : √(a * (N * t)) * √(a * (N * t)) = a * (N * t) := Real.mul_self_sqrt (by positivity)
  refine ⟨√(a * (N * t)) / a, by positivity, ?_⟩
  rw [e3]
  apply Real.rpow_lt_rpow_of_exponent_lt (by norm_num)
  have e4 : a * (√(a * (N * t)) / a) + t * (N / (√(a * (N * t)) / a)) = 2 * √(a * (N * t)) := by
    have : t * (N / (√(a * (N * t)) / a)) = √(a * (N * t)) := by
      rw [div_div_eq_mul_div, ← mul_div_assoc, div_eq_iff hs.ne', hss]
      ring
    rw [this, mul_div_cancel₀ _ hapos.ne']
    ring
  rw [e4]
  apply mul_lt_mul_of_pos_left _ (by norm_num)
  apply Real.sqrt_lt_sqrt (by positivity)
  apply mul_lt_mul_of_pos_left _ hapos
  exact mul_lt_mul_of_pos_left hlt hN0

/-- **C81 fails**, saturation: for moduli of at least `2^65` the first condition of the check holds for all ranks and degrees;
it never compares the norm bound with the modulus. -/
theorem C81_saturated (q kappa degree : Nat) (hq : 2 ^ 65 ≤ q) :
    calculateBoundL2 degree kappa (Nat.size q) < q / 2 := by
  unfold calculateBoundL2
  have : (2 : Nat) ^ 64 - 1 < q / 2 := by
    have := Nat.div_le_div_right (c := 2) hq
    norm_num at this ⊢
    omega
  exact lt_of_le_of_lt (min_le_right _ _) this

/-- **C81 fails**, saturation, with the Stark prime: parameters are accepted although the norm bound exceeds the modulus. -/
theorem C81_saturated_witness :
    checkRingModulus Poseidon.pStark 621 16 16 65536 16 false ∧
    (Poseidon.pStark : ℝ) < rawBoundL2 16 621 (Nat.size Poseidon.pStark) := by
  have hsz : Nat.size Poseidon.pStark = 252 := by decide +kernel
  have hr := raw_bounds 16 621 252 127 128 (by norm_num) (by norm_num)
  have hbig : calculateBoundL2 16 621 (Nat.size Poseidon.pStark) = 2 ^ 64 - 1 := by
    unfold calculateBoundL2
    rw [hsz]
    apply min_eq_right
    apply Nat.cast_le (α := ℝ).1
    refine le_trans ?_ (Nat.le_ceil _)
    refine le_trans ?_ hr.1
    norm_num
  refine ⟨⟨C81_saturated _ _ _ (by norm_num), Or.inr ?_, ?_⟩, ?_⟩
  · rw [hbig]
    have : √(((16 : Nat) : ℝ) * ((16 : Nat) : ℝ)) = 16 := by
      rw [Real.sqrt_mul_self] <;> norm_num
    rw [this]
    norm_num
  · norm_num
  · rw [hsz]
    refine lt_of_lt_of_le ?_ hr.1
    norm_num

/-! ## Digits -/

theorem digit_sum_bound (b l : Nat) (d : Fin l → ℤ) (hd : ∀ i, 2 * |d i| ≤ b) :
    2 * |∑ i, d i * (b : ℤ) ^ (i : Nat)| ≤ ∑ i ∈ range l, (b : ℤ) ^ (i + 1) := by
  rw [← Fin.sum_univ_eq_sum_range (fun i => (b : ℤ) ^ (i + 1)) l]
  calc 2 * |∑ i, d i * (b : ℤ) ^ (i : Nat)| ≤ 2 * ∑ i, |d i * (b : ℤ) ^ (i : Nat)| :=
        mul_le_mul_of_nonneg_left (Finset.abs_sum_le_sum_abs _ _) (by norm_num)
    _ = ∑ i, 2 * |d i| * (b : ℤ) ^ (i : Nat) := by
        rw [Finset.mul_sum]
        apply Finset.sum_congr rfl
        intro i _
        rw [abs_mul, abs_of_nonneg (by positivity : (0 : ℤ) ≤ (b : ℤ) ^ (i : Nat))]
        ring
    _ ≤ ∑ i : Fin l, (b : ℤ) ^ ((i : Nat) + 1) := by
        apply Finset.sum_le_sum
        intro i _
        rw [pow_succ']
        exact mul_le_mul_of_nonneg_right (hd i) (by positivity)

/-- **C81 fails**, digits: `b^l > q/2` is accepted, but `l` digits of absolute value at most `b/2` reach only up to about
`b^l / 2`. With the Goldilocks prime, `b = 3037000500` and `l = 2` the check accepts, and the coefficient `(q-1)/2`
has no decomposition. -/
theorem C81_digits_witness :
    checkRingModulus Poseidon.pGoldilocks 70 24 16 3037000500 2 false ∧
    ¬ Representable Poseidon.pGoldilocks 3037000500 2 ((Poseidon.pGoldilocks - 1) / 2 : Nat) := by
  have hsz : Nat.size Poseidon.pGoldilocks = 64 := by decide +kernel
  have hr := raw_bounds 24 70 64 26 27 (by norm_num) (by norm_num)
  refine ⟨⟨?_, Or.inr ?_, ?_⟩, ?_⟩
  · rw [hsz]
    have : calculateBoundL2 24 70 ((64 : Nat) : ℝ) ≤ 2 ^ (2 * 27) := by
      unfold calculateBoundL2
      refine le_trans (min_le_left _ _) (Nat.ceil_le.2 ?_)
      push_cast
      exact_mod_cast hr.2
    refine lt_of_le_of_lt this (by norm_num)
  · rw [hsz]
    have hb : (2 : ℝ) ^ (2 * 26) ≤ (calculateBoundL2 24 70 ((64 : Nat) : ℝ) : ℝ) := by
      have : 2 ^ (2 * 26) ≤ calculateBoundL2 24 70 ((64 : Nat) : ℝ) := by
        unfold calculateBoundL2
        refine le_min ?_ (by norm_num)
        apply Nat.cast_le (α := ℝ).1
        refine le_trans ?_ (Nat.le_ceil _)
        push_cast
        exact_mod_cast hr.1
      exact_mod_cast this
    have hs : √(((24 : Nat) : ℝ) * ((16 : Nat) : ℝ)) ≤ 20 := by
      rw [Real.sqrt_le_left (by norm_num)]
      norm_num
    have hs0 : 0 < √(((24 : Nat) : ℝ) * ((16 : Nat) : ℝ)) := Real.sqrt_pos.2 (by norm_num)
    rw [lt_div_iff₀ hs0]
    calc ((3037000500 : Nat) : ℝ) * √(((24 : Nat) : ℝ) * ((16 : Nat) : ℝ)) ≤ 3037000500 * 20 := by
          push_cast
          exact mul_le_mul_of_nonneg_left (by exact_mod_cast hs) (by norm_num)
      _ < 2 ^ (2 * 26) := by norm_num
      _ ≤ _ := hb
  · norm_num
  · rintro ⟨d, hd, hx⟩
    have h1 := digit_sum_bound 3037000500 2 d hd
    simp only [Finset.sum_range_succ, Finset.sum_range_zero] at h1
    have h2 := abs_le.1 (show |∑ i, d i * ((3037000500 : Nat) : ℤ) ^ (i : Nat)| ≤ 4611686021520375000 by
      norm_num at h1 ⊢
      omega)
    obtain ⟨k, hk⟩ := hx.dvd
    generalize ∑ i, d i * ((3037000500 : Nat) : ℤ) ^ (i : Nat) = S at h2 hk
    norm_num at hk
    omega

/-- `C81_norm` and `C81_hermite` for these parameters. -/
example (x : Fin (24 * 16) → ℤ) (hx : ∀ i, |x i| ≤ 3037000500) :
    ∃ bound : Nat, √(∑ i, (x i : ℝ) ^ 2) < bound ∧ bound < 9223372034707292160 := by
  obtain ⟨bound, h1, h2, _⟩ := C81_norm _ 70 24 16 3037000500 2 false C81_digits_witness.1 x hx
  exact ⟨bound, h1, h2⟩

example (m : ℝ) (hm : 0 < m) : rawBoundL2 24 70 (Real.logb 2 1000003)
    ≤ hermiteLength 1.0045 1000003 ((24 : Nat) * (70 : Nat)) m := C81_hermite 24 70 1000003 m (by norm_num) hm

/-- **C81**, digits, partial: `b^l ≥ q` suffices for every coefficient `-q/2 < x ≤ q/2`. -/
theorem C81_digits_partial (q b l : Nat) (hb : 2 ≤ b) (hq : q ≤ b ^ l) (x : ℤ) (hx : 2 * |x| ≤ q) :
    Representable q b l x := by
  have key : ∀ (l : Nat) (x : ℤ), 2 * |x| ≤ (b : ℤ) ^ l →
      ∃ d : Fin l → ℤ, (∀ i, 2 * |d i| ≤ b) ∧ ∑ i, d i * (b : ℤ) ^ (i : Nat) = x := by
    intro l
    induction l with
    | zero =>
      intro x hx
      refine ⟨fun _ => 0, fun i => i.elim0, ?_⟩
      have := abs_nonneg x
      have h0 : |x| = 0 := by simp at hx; omega
      simp [abs_eq_zero.1 h0]
    | succ l ih =>
      intro x hx
      have hb' : (2 : ℤ) ≤ b := by exact_mod_cast hb
      obtain ⟨d0, y, h1, h2, h3⟩ : ∃ d0 y : ℤ, x = d0 + b * y ∧ 2 * |d0| ≤ b ∧ 2 * |y| ≤ (b : ℤ) ^ l := by
        rcases Nat.eq_zero_or_pos l with rfl | hl
        · exact ⟨x, 0, by simp, by simpa using hx, by simp⟩
        obtain ⟨d0, y, h1, h2⟩ : ∃ d0 y : ℤ, x = d0 + b * y ∧ 2 * |d0| ≤ b := by
          have e := Int.emod_add_mul_ediv x b
          have e1 := Int.emod_nonneg x (show (b : ℤ) ≠ 0 by omega)
          have e2 := Int.emod_lt_of_pos x (show (0 : ℤ) < b by omega)
          by_cases hc : 2 * (x % b) ≤ b
          · exact ⟨x % b, x / b, e.symm, by rw [abs_of_nonneg e1]; exact hc⟩
          · refine ⟨x % b - b, x / b + 1, by linarith, ?_⟩
            rw [abs_of_neg (by omega)]
            omega
        refine ⟨d0, y, h1, h2, ?_⟩
        have h4 : (b : ℤ) * (2 * |y|) ≤ b * (b : ℤ) ^ l + 2 * |d0| := by
          have h5 : |(b : ℤ) * y| = b * |y| := by rw [abs_mul, abs_of_nonneg (by omega : (0 : ℤ) ≤ b)]
          have h6 : |(b : ℤ) * y| ≤ |x| + |d0| := by
            have : (b : ℤ) * y = x - d0 := by rw [h1]; ring
            rw [this]
            exact abs_sub _ _
          rw [h5] at h6
          rw [pow_succ'] at hx
          linarith
        rcases eq_or_lt_of_le h2 with h5 | h5
        · have h6 : 2 * |y| ≤ (b : ℤ) ^ l + 1 := by
            rw [h5] at h4
            exact le_of_mul_le_mul_left (by linarith) (by omega : (0 : ℤ) < b)
          have h7 : Even ((b : ℤ) ^ l) := by
            refine Even.pow_of_ne_zero ?_ (by omega)
            exact ⟨|d0|, by omega⟩
          obtain ⟨w, hw⟩ := h7
          omega
        · have h6 : 2 * |y| < (b : ℤ) ^ l + 1 :=
            lt_of_mul_lt_mul_left (by linarith) (by omega : (0 : ℤ) ≤ b)
          omega
      obtain ⟨d, hd, hs⟩ := ih y h3
      refine ⟨Fin.cons d0 d, fun i => ?_, ?_⟩
      · refine Fin.cases ?_ (fun j => ?_) i
        · simpa using h2
        · simpa using hd j
      · rw [Fin.sum_univ_succ]
        simp only [Fin.cons_zero, Fin.val_zero, pow_zero, mul_one, Fin.cons_succ, Fin.val_succ]
        rw [h1, ← hs, Finset.mul_sum]
        congr 1
        apply Finset.sum_congr rfl
        intro i _
        rw [pow_succ]
        ring
  obtain ⟨d, hd, hs⟩ := key l x (hx.trans (by exact_mod_cast hq))
  exact ⟨d, hd, by rw [hs]⟩

/-- **C81**, digits, partial: for `b = 2` the condition of the check itself suffices. -/
theorem C81_digits_two_partial (q l : Nat) (hq : q / 2 < 2 ^ l) (x : ℤ) (hx : 2 * |x| ≤ q) :
    Representable q 2 l x := by
  have key : ∀ (l : Nat) (x : ℤ), |x| < (2 : ℤ) ^ l →
      ∃ d : Fin l → ℤ, (∀ i, 2 * |d i| ≤ 2) ∧ ∑ i, d i * (2 : ℤ) ^ (i : Nat) = x := by
    intro l
    induction l with
    | zero =>
      intro x hx
      refine ⟨fun _ => 0, fun i => i.elim0, ?_⟩
      have := abs_nonneg x
      have h0 : |x| = 0 := by rw [pow_zero] at hx; omega
      simp [abs_eq_zero.1 h0]
    | succ l ih =>
      intro x hx
      obtain ⟨d0, y, h1, h2, h3⟩ : ∃ d0 y : ℤ, x = d0 + 2 * y ∧ 2 * |d0| ≤ 2 ∧ |y| < (2 : ℤ) ^ l := by
        rw [pow_succ] at hx
        rcases le_total 0 x with h | h
        · rw [abs_of_nonneg h] at hx
          refine ⟨x % 2, x / 2, by omega, ?_, ?_⟩
          · rw [abs_of_nonneg (by omega)]; omega
          · rw [abs_of_nonneg (by omega)]; omega
        · rw [abs_of_nonpos h] at hx
          refine ⟨-((-x) % 2), -((-x) / 2), by omega, ?_, ?_⟩
          · rw [abs_of_nonpos (by omega)]; omega
          · rw [abs_of_nonpos (by omega)]; omega
      obtain ⟨d, hd, hs⟩ := ih y h3
      refine ⟨Fin.cons d0 d, fun i => ?_, ?_⟩
      · refine Fin.cases ?_ (fun j => ?_) i
        · simpa using h2
        · simpa using hd j
      · rw [Fin.sum_univ_succ]
        simp only [Fin.cons_zero, Fin.val_zero, pow_zero, mul_one, Fin.cons_succ, Fin.val_succ]
        have h4 : ∑ i : Fin l, d i * (2 : ℤ) ^ ((i : Nat) + 1) = 2 * y := by
          rw [← hs, Finset.mul_sum]
          apply Finset.sum_congr rfl
          intro i _
          rw [pow_succ]
          ring
        rw [h4, h1]
  have hlt : |x| < (2 : ℤ) ^ l := by
    have h1 : ((q / 2 : Nat) : ℤ) < (2 : ℤ) ^ l := by exact_mod_cast hq
    push_cast at h1
    omega
  obtain ⟨d, hd, hs⟩ := key l x hlt
  exact ⟨d, by simpa using hd, by push_cast; rw [hs]⟩

example : Representable 101 4 4 (-50) := C81_digits_partial 101 4 4 (by norm_num) (by norm_num) (-50) (by norm_num)

/-- Every integer of absolute value below `b^l` is a sum of `l` digits of absolute value below `b`. -/
theorem signed_digits (b : Nat) (hb : 1 ≤ b) : ∀ (l : Nat) (x : ℤ), |x| < (b : ℤ) ^ l →
    ∃ d : Fin l → ℤ, (∀ i, |d i| < b) ∧ ∑ i, d i * (b : ℤ) ^ (i : Nat) = x := by
  have hb' : (1 : ℤ) ≤ b := by exact_mod_cast hb
  intro l
  induction l with
  | zero =>
    intro x hx
    refine ⟨fun _ => 0, fun i => i.elim0, ?_⟩
    have := abs_nonneg x
    have h0 : |x| = 0 := by rw [pow_zero] at hx; omega
    simp [abs_eq_zero.1 h0]
  | succ l ih =>
    intro x hx
    have key : ∀ x : ℤ, 0 ≤ x → x < (b : ℤ) ^ (l + 1) →
        ∃ d0 y : ℤ, x = d0 + b * y ∧ |d0| < b ∧ |y| < (b : ℤ) ^ l := by
      intro x h0 hx
      refine ⟨x % b, x / b, (Int.emod_add_mul_ediv x b).symm, ?_, ?_⟩
      · rw [abs_of_nonneg (Int.emod_nonneg x (by omega))]
        exact Int.emod_lt_of_pos x (by omega)
      · rw [abs_of_nonneg (Int.ediv_nonneg h0 (by omega))]
        rw [pow_succ] at hx
        exact Int.ediv_lt_of_lt_mul (by omega) hx
    obtain ⟨d0, y, h1, h2, h3⟩ : ∃ d0 y : ℤ, x = d0 + b * y ∧ |d0| < b ∧ |y| < (b : ℤ) ^ l := by
      rcases le_total 0 x with h | h
      · exact key x h (by rwa [abs_of_nonneg h] at hx)
      · obtain ⟨d0, y, h1, h2, h3⟩ := key (-x) (by omega) (by rwa [abs_of_nonpos h] at hx)
        exact ⟨-d0, -y, by linarith, by rwa [abs_neg], by rwa [abs_neg]⟩
    obtain ⟨d, hd, hs⟩ := ih y h3
    refine ⟨Fin.cons d0 d, fun i => ?_, ?_⟩
    · refine Fin.cases ?_ (fun j => ?_) i
      · simpa using h2
      · simpa using hd j
    · rw [Fin.sum_univ_succ]
      simp only [Fin.cons_zero, Fin.val_zero, pow_zero, mul_one, Fin.cons_succ, Fin.val_succ]
      rw [h1, ← hs, Finset.mul_sum]
      congr 1
      apply Finset.sum_congr rfl
      intro i _
      rw [pow_succ]
      ring

/-- **C81**, digits, partial: what the check does guarantee. If it accepts (and the witness was not declared to be short already),
every coefficient `-q/2 ≤ x ≤ q/2` has `l` digits of absolute value below `b`, twice the range of balanced digits. -/
theorem C81_digits_signed_partial (q kappa degree numCols b l : Nat) (under : Bool)
    (h : checkRingModulus q kappa degree numCols b l under) (hu : under = false ∨ l ≠ 1) (hl : l < 2 ^ 32) (hb : 1 ≤ b)
    (x : ℤ) (hx : 2 * |x| ≤ q) :
    ∃ d : Fin l → ℤ, (∀ i, |d i| < b) ∧ ∑ i, d i * (b : ℤ) ^ (i : Nat) = x := by
  obtain ⟨_, _, h3⟩ := h
  have hn : ¬ (under = true ∧ l = 1) := by
    rcases hu with rfl | hu
    · simp
    · exact fun h => hu h.2
  simp only [if_neg hn, Nat.mod_eq_of_lt hl] at h3
  apply signed_digits b hb
  have h4 : ((q / 2 : Nat) : ℤ) < (b : ℤ) ^ l := by exact_mod_cast h3
  push_cast at h4
  omega

example (x : ℤ) (hx : 2 * |x| ≤ Poseidon.pGoldilocks) :
    ∃ d : Fin 2 → ℤ, (∀ i, |d i| < 3037000500) ∧ ∑ i, d i * (3037000500 : ℤ) ^ (i : Nat) = x :=
  C81_digits_signed_partial _ 70 24 16 3037000500 2 false C81_digits_witness.1 (Or.inl rfl) (by norm_num) (by norm_num) x hx

end Verif.Props
