import Verif.Lemmas.SmallNorm
import Mathlib.RingTheory.Polynomial.Cyclotomic.Factorization
import Mathlib.RingTheory.Polynomial.Cyclotomic.Expand

/-!
# Units of cyclotomic quotient rings from their coefficients

A ring over `ZMod p` generated by an element `x` with `Φ_{kτ}(x) = 0`, where `Φ_{kτ}(Y)` is
`Φ_k(Y ^ τ)`, `ZMod p` contains a primitive `k`-th root of unity and `p` has order `τ` modulo `kτ`.
-/

set_option linter.unusedSimpArgs false
set_option linter.unusedSectionVars false

namespace Verif.SmallNorm

open Polynomial Finset

/-! ## The cyclotomic polynomials of the four rings -/

theorem cyclo6 (R : Type) [CommRing R] : cyclotomic 6 R = X ^ 2 - X + 1 := by
  have hZ : cyclotomic 6 ℤ = X ^ 2 - X + 1 := by
    have h := cyclotomic_expand_eq_cyclotomic_mul (p := 2) (n := 3) Nat.prime_two (by norm_num) ℤ
    rw [cyclotomic_three] at h
    simp only [map_add, map_pow, expand_X, map_one, Nat.reduceMul] at h
    have h0 : (X ^ 2 + X + 1 : ℤ[X]) ≠ 0 := by
      rw [← cyclotomic_three]; exact cyclotomic_ne_zero 3 ℤ
    apply mul_right_cancel₀ h0
    rw [← h]
    ring
  rw [← map_cyclotomic_int, hZ]
  simp

theorem cyclo24 (R : Type) [CommRing R] : cyclotomic 24 R = X ^ 8 - X ^ 4 + 1 := by
  have h1 := cyclotomic_expand_eq_cyclotomic (p := 2) (n := 6) Nat.prime_two (by norm_num) R
  have h2 := cyclotomic_expand_eq_cyclotomic (p := 2) (n := 12) Nat.prime_two (by norm_num) R
  simp only [Nat.reduceMul] at h1 h2
  rw [← h2, ← h1, cyclo6]
  simp only [map_add, map_sub, map_pow, expand_X, map_one]
  ring

theorem cyclo8 (R : Type) [CommRing R] : cyclotomic 8 R = X ^ 4 + 1 := by
  have h1 := cyclotomic_expand_eq_cyclotomic (p := 2) (n := 2) Nat.prime_two (by norm_num) R
  have h2 := cyclotomic_expand_eq_cyclotomic (p := 2) (n := 4) Nat.prime_two (by norm_num) R
  simp only [Nat.reduceMul] at h1 h2
  rw [← h2, ← h1, cyclotomic_two]
  simp only [map_add, map_sub, map_pow, expand_X, map_one]
  ring

theorem cyclo32 (R : Type) [CommRing R] : cyclotomic 32 R = X ^ 16 + 1 := by
  have h1 := cyclotomic_expand_eq_cyclotomic (p := 2) (n := 8) Nat.prime_two (by norm_num) R
  have h2 := cyclotomic_expand_eq_cyclotomic (p := 2) (n := 16) Nat.prime_two (by norm_num) R
  simp only [Nat.reduceMul] at h1 h2
  rw [← h2, ← h1, cyclo8]
  simp only [map_add, map_sub, map_pow, expand_X, map_one]
  ring

theorem cyclo72 (R : Type) [CommRing R] : cyclotomic 72 R = X ^ 24 - X ^ 12 + 1 := by
  have h1 := cyclotomic_expand_eq_cyclotomic (p := 3) (n := 24) Nat.prime_three (by norm_num) R
  simp only [Nat.reduceMul] at h1
  rw [← h1, cyclo24]
  simp only [map_add, map_sub, map_pow, expand_X, map_one]
  ring

theorem cyclo216 (R : Type) [CommRing R] : cyclotomic 216 R = X ^ 72 - X ^ 36 + 1 := by
  have h1 := cyclotomic_expand_eq_cyclotomic (p := 3) (n := 72) Nat.prime_three (by norm_num) R
  simp only [Nat.reduceMul] at h1
  rw [← h1, cyclo72]
  simp only [map_add, map_sub, map_pow, expand_X, map_one]
  ring

/-! ## The slot argument -/

/-- `p` has order `τ` modulo `n`. -/
def HasOrder (p n τ : ℕ) : Prop := p ^ τ % n = 1 % n ∧ ∀ i, 0 < i → i < τ → p ^ i % n ≠ 1 % n

theorem orderOf_unit {p n τ : ℕ} (hτ : 0 < τ) (hc : p.Coprime n) (h : HasOrder p n τ) :
    orderOf (ZMod.unitOfCoprime p hc) = τ := by
  have key : ∀ i, ZMod.unitOfCoprime p hc ^ i = 1 ↔ p ^ i % n = 1 % n := by
    intro i
    rw [Units.ext_iff, Units.val_pow_eq_pow_val, ZMod.coe_unitOfCoprime, Units.val_one]
    have := ZMod.natCast_eq_natCast_iff' (p ^ i) 1 n
    push_cast at this
    exact this
  rw [orderOf_eq_iff hτ]
  refine ⟨(key τ).2 h.1, fun i hi hi0 => ?_⟩
  rw [Ne, key]
  exact h.2 i hi0 hi

/-- A root of `Φ_n` has degree `τ` over the prime field. -/
theorem minpoly_degree {p : ℕ} [Fact p.Prime] {τ n : ℕ} (hτ : 0 < τ)
    (hpn : p.Coprime n) (hord : HasOrder p n τ) {K : Type} [Field K] [Algebra (ZMod p) K] (b : K)
    (hb0 : aeval b (cyclotomic n (ZMod p)) = 0) :
    IsIntegral (ZMod p) b ∧ (minpoly (ZMod p) b).natDegree = τ := by
  have hint : IsIntegral (ZMod p) b := ⟨_, cyclotomic.monic n _, by simpa [aeval_def] using hb0⟩
  have hirr := minpoly.irreducible hint
  have hdvd : minpoly (ZMod p) b ∣ cyclotomic n (ZMod p) := minpoly.dvd _ _ hb0
  refine ⟨hint, ?_⟩
  have := natDegree_of_dvd_cyclotomic_of_irreducible (f := 1) (p := p) (by simp)
    (by simpa using hpn) hdvd hirr
  rw [this]
  have := orderOf_unit hτ hpn hord
  simpa using this

/-- One slot. `b` is a root of `Φ_n` with `b ^ τ = ζ` in the prime field. If
`∑_{j<τ} ∑_{i<N} a_{iτ+j} b^{iτ+j}` vanishes then all `τ` sums `∑_i a_{iτ+j} ζ^i` vanish. -/
theorem slot_zero {p : ℕ} [Fact p.Prime] {τ N n : ℕ} (hτ : 0 < τ)
    (hpn : p.Coprime n) (hord : HasOrder p n τ) {K : Type} [Field K] [Algebra (ZMod p) K] (b : K)
    (hb0 : aeval b (cyclotomic n (ZMod p)) = 0) (ζ : ZMod p) (hζ : algebraMap (ZMod p) K ζ = b ^ τ)
    (a : ℕ → ZMod p)
    (h : ∑ j ∈ range τ, ∑ i ∈ range N, algebraMap (ZMod p) K (a (i * τ + j)) * b ^ (i * τ + j) = 0)
    (j : ℕ) (hj : j < τ) : ∑ i ∈ range N, a (i * τ + j) * ζ ^ i = 0 := by
  obtain ⟨-, hdeg⟩ := minpoly_degree hτ hpn hord b hb0
  set s : ℕ → ZMod p := fun j => ∑ i ∈ range N, a (i * τ + j) * ζ ^ i with hs
  have himg : aeval b (∑ j ∈ range τ, C (s j) * X ^ j) = 0 := by
    rw [← h]
    simp only [map_sum, map_mul, map_pow, aeval_C, aeval_X]
    refine sum_congr rfl fun j _ => ?_
    rw [hs, map_sum, sum_mul]
    refine sum_congr rfl fun i _ => ?_
    rw [map_mul, map_pow, hζ, pow_add, pow_mul', mul_assoc]
  have hd2 := minpoly.dvd _ _ himg
  have hz : (∑ j ∈ range τ, C (s j) * X ^ j : (ZMod p)[X]) = 0 := by
    apply eq_zero_of_dvd_of_natDegree_lt hd2
    rw [hdeg]
    refine lt_of_le_of_lt (natDegree_sum_le_of_forall_le (n := τ - 1) _ _ fun j hj => ?_) (by omega)
    refine (natDegree_C_mul_X_pow_le _ _).trans ?_
    have := mem_range.1 hj
    omega
  have hc := congrArg (fun q => coeff q j) hz
  simp only [finsetSum_coeff, coeff_C_mul, coeff_X_pow, mul_ite, mul_one, mul_zero,
    sum_ite_eq, mem_range, coeff_zero] at hc
  rw [if_pos hj] at hc
  exact hc

/-- The `τ`-th power of a root of `Φ_n` lies in the prime field. -/
theorem pow_mem_prime {p : ℕ} [Fact p.Prime] {k τ n : ℕ} (hk : 0 < k)
    (ω : ZMod p) (hω : IsPrimitiveRoot ω k)
    (hexp : expand (ZMod p) τ (cyclotomic k (ZMod p)) = cyclotomic n (ZMod p))
    {K : Type} [Field K] [Algebra (ZMod p) K] (b : K)
    (hb0 : aeval b (cyclotomic n (ZMod p)) = 0) :
    ∃ ζ, (cyclotomic k (ZMod p)).IsRoot ζ ∧ algebraMap (ZMod p) K ζ = b ^ τ := by
  have hbk : (cyclotomic k K).IsRoot (b ^ τ) := by
    have := hb0
    rw [← hexp, expand_aeval, ← map_cyclotomic k (algebraMap (ZMod p) (ZMod p))] at this
    rw [IsRoot.def, ← map_cyclotomic k (algebraMap (ZMod p) K), eval_map_algebraMap]
    simpa using this
  have hpow : (b ^ τ) ^ k = 1 := by
    obtain ⟨Q, hQ⟩ := cyclotomic.dvd_X_pow_sub_one k K
    have := congrArg (eval (b ^ τ)) hQ
    rw [eval_mul, hbk.eq_zero, zero_mul] at this
    simpa [sub_eq_zero] using this
  have hinj : Function.Injective (algebraMap (ZMod p) K) := (algebraMap (ZMod p) K).injective
  have hω' := hω.map_of_injective hinj
  have : NeZero k := ⟨hk.ne'⟩
  obtain ⟨e, -, he⟩ := hω'.eq_pow_of_pow_eq_one hpow
  rw [← map_pow] at he
  refine ⟨ω ^ e, ?_, he⟩
  apply IsRoot.of_map (f := algebraMap (ZMod p) K) _ hinj
  rw [map_cyclotomic, he]
  exact hbk

/-- Sufficient condition for a unit. `x` is a root of `Φ_n`, `n = kτ`; the element is
`∑_{j<τ} ∑_{i<N} a_{iτ+j} x^{iτ+j}`. If for every root `ζ` of `Φ_k` in the prime field one of the
`τ` sums `∑_i a_{iτ+j} ζ^i` does not vanish then the element is a unit. -/
theorem isUnit_of_slots {p : ℕ} [Fact p.Prime] {k τ N n : ℕ} (hk : 0 < k) (hτ : 0 < τ)
    (hpn : p.Coprime n) (hord : HasOrder p n τ) (ω : ZMod p) (hω : IsPrimitiveRoot ω k)
    (hexp : expand (ZMod p) τ (cyclotomic k (ZMod p)) = cyclotomic n (ZMod p))
    {A : Type} [CommRing A] [Algebra (ZMod p) A] (x : A)
    (hx : aeval x (cyclotomic n (ZMod p)) = 0) (a : ℕ → ZMod p)
    (h : ∀ ζ : ZMod p, (cyclotomic k (ZMod p)).IsRoot ζ →
      ∃ j < τ, ∑ i ∈ range N, a (i * τ + j) * ζ ^ i ≠ 0) :
    IsUnit (∑ j ∈ range τ, ∑ i ∈ range N, algebraMap (ZMod p) A (a (i * τ + j)) * x ^ (i * τ + j)) := by
  by_contra hnu
  obtain ⟨M, hM, hmem⟩ := exists_max_ideal_of_mem_nonunits hnu
  let _ : Field (A ⧸ M) := Ideal.Quotient.field M
  set φ : A →ₐ[ZMod p] A ⧸ M := Ideal.Quotient.mkₐ (ZMod p) M with hφ
  have hb0 : aeval (φ x) (cyclotomic n (ZMod p)) = 0 := by
    rw [aeval_algHom_apply, hx, map_zero]
  obtain ⟨ζ, hζ, hζb⟩ := pow_mem_prime hk ω hω hexp (φ x) hb0
  obtain ⟨j, hj, hne⟩ := h _ hζ
  refine hne (slot_zero hτ hpn hord (φ x) hb0 ζ hζb a ?_ j hj)
  have h0 : φ (∑ j ∈ range τ, ∑ i ∈ range N,
      algebraMap (ZMod p) A (a (i * τ + j)) * x ^ (i * τ + j)) = 0 := by
    rw [hφ, Ideal.Quotient.mkₐ_eq_mk]
    exact Ideal.Quotient.eq_zero_iff_mem.2 hmem
  rw [← h0]
  simp only [map_sum, map_mul, map_pow, AlgHom.commutes]

/-! ## Elements with short coefficients -/

/-- Data of one of the rings: `Φ_k` has degree `N`, divides `Y ^ m + 1`, `n = kτ`. -/
structure CycloData (p k τ N n m : ℕ) : Prop where
  kpos : 0 < k
  τpos : 0 < τ
  mpos : 0 < m
  nk : n = k * τ
  coprime : p.Coprime n
  order : HasOrder p n τ
  root : ∃ ω : ZMod p, IsPrimitiveRoot ω k
  exp : ∀ (R : Type) [CommRing R], expand R τ (cyclotomic k R) = cyclotomic n R
  deg : (cyclotomic k ℤ).natDegree = N
  dvd : cyclotomic k ℤ ∣ X ^ m + 1

/-- An integer vector with small entries does not vanish at a root of `Φ_k` modulo `p`. -/
theorem short_sum_ne_zero {p k τ N n m : ℕ} [Fact p.Prime] (D : CycloData p k τ N n m) (B : ℕ)
    (hB : (m * B ^ 2) ^ N < p ^ 2) (a : ℕ → ℤ) (ha : ∀ i < N, |a i| ≤ B) (i₀ : ℕ) (hi₀ : i₀ < N)
    (hne : a i₀ ≠ 0) (ζ : ZMod p) (hζ : (cyclotomic k (ZMod p)).IsRoot ζ) :
    ∑ i ∈ range N, (a i : ZMod p) * ζ ^ i ≠ 0 := by
  set y : ℤ[X] := ∑ i ∈ range N, C (a i) * X ^ i with hy
  have hcoeff : ∀ i, y.coeff i = if i < N then a i else 0 := by
    intro i
    simp only [hy, finsetSum_coeff, coeff_C_mul, coeff_X_pow, mul_ite, mul_one, mul_zero,
      sum_ite_eq, mem_range]
  have hy0 : y ≠ 0 := by
    intro h
    have := hcoeff i₀
    rw [h, if_pos hi₀, coeff_zero] at this
    exact hne this.symm
  have hydeg : y.natDegree < (cyclotomic k ℤ).natDegree := by
    rw [D.deg]
    refine lt_of_le_of_lt (natDegree_sum_le_of_forall_le (n := N - 1) _ _ fun j hj => ?_) (by omega)
    refine (natDegree_C_mul_X_pow_le _ _).trans ?_
    have := mem_range.1 hj
    omega
  have hS : ∑ i ∈ range m, y.coeff i ^ 2 ≤ ((N * B ^ 2 : ℕ) : ℤ) := by
    have h1 : ∑ i ∈ range m, y.coeff i ^ 2 ≤ ∑ i ∈ range (max m N), y.coeff i ^ 2 :=
      sum_le_sum_of_subset_of_nonneg (range_subset_range.2 (le_max_left _ _))
        fun _ _ _ => sq_nonneg _
    have h2 : ∑ i ∈ range (max m N), y.coeff i ^ 2 = ∑ i ∈ range N, y.coeff i ^ 2 := by
      symm
      apply sum_subset (range_subset_range.2 (le_max_right _ _))
      intro i _ hi
      rw [hcoeff, if_neg (by simpa using hi)]
      norm_num
    rw [h2] at h1
    refine h1.trans ?_
    calc ∑ i ∈ range N, y.coeff i ^ 2 ≤ ∑ i ∈ range N, (B : ℤ) ^ 2 := by
          refine sum_le_sum fun i hi => ?_
          rw [hcoeff, if_pos (mem_range.1 hi)]
          exact sq_le_sq' (by have := abs_le.1 (ha i (mem_range.1 hi)); omega)
            (by have := abs_le.1 (ha i (mem_range.1 hi)); omega)
      _ = _ := by simp
  have hb : (m * (N * B ^ 2)) ^ (cyclotomic k ℤ).natDegree
      < p ^ 2 * (cyclotomic k ℤ).natDegree ^ (cyclotomic k ℤ).natDegree := by
    rw [D.deg]
    have hN : 0 < N ^ N := Nat.pow_pos (by omega)
    calc _ = (m * B ^ 2) ^ N * N ^ N := by rw [← mul_pow]; ring
      _ < _ := Nat.mul_lt_mul_of_pos_right hB hN
  have := short_ne_zero (K := ZMod p) p (cyclotomic k ℤ) (cyclotomic.monic k ℤ)
    (by rw [map_cyclotomic]; exact cyclotomic.irreducible_rat D.kpos) m D.mpos D.dvd y hy0 hydeg
    _ hS hb ζ (by rw [eval₂_eq_eval_map, map_cyclotomic]; exact hζ)
  rw [hy, eval₂_finsetSum] at this
  simp only [eval₂_mul, eval₂_C, eval₂_pow, eval₂_X] at this
  simpa using this

theorem sum_range_mul_eq {A : Type} [AddCommMonoid A] (N τ : ℕ) (f : ℕ → A) :
    ∑ i ∈ range (N * τ), f i = ∑ i ∈ range N, ∑ j ∈ range τ, f (i * τ + j) := by
  induction N with
  | zero => simp
  | succ N ih => rw [Nat.succ_mul, sum_range_add, sum_range_succ, ih]

/-- **Short elements are units.** The coefficients are integers of absolute value at most `B`, one of
them is not zero, and `(m B ^ 2) ^ N < p ^ 2`. -/
theorem isUnit_of_short {p k τ N n m : ℕ} [Fact p.Prime] (D : CycloData p k τ N n m) (B : ℕ)
    (hB : (m * B ^ 2) ^ N < p ^ 2) {A : Type} [CommRing A] [Algebra (ZMod p) A] (x : A)
    (hx : aeval x (cyclotomic n (ZMod p)) = 0) (a : ℕ → ℤ) (ha : ∀ i < τ * N, |a i| ≤ B)
    (hne : ∃ i < τ * N, a i ≠ 0) :
    IsUnit (∑ i ∈ range (τ * N), algebraMap (ZMod p) A (a i) * x ^ i) := by
  obtain ⟨ω, hω⟩ := D.root
  have hsplit : ∑ i ∈ range (τ * N), algebraMap (ZMod p) A (a i) * x ^ i
      = ∑ j ∈ range τ, ∑ i ∈ range N, algebraMap (ZMod p) A (a (i * τ + j)) * x ^ (i * τ + j) := by
    rw [sum_comm, mul_comm τ N]
    exact sum_range_mul_eq N τ _
  rw [hsplit]
  refine isUnit_of_slots D.kpos D.τpos D.coprime D.order ω hω (D.exp _) x hx
    (fun i => (a i : ZMod p)) fun ζ hζ => ?_
  obtain ⟨i, hi, hai⟩ := hne
  have hτ := D.τpos
  have hdm := Nat.div_add_mod i τ
  have hiN : i / τ < N := Nat.div_lt_of_lt_mul hi
  refine ⟨i % τ, Nat.mod_lt _ hτ, ?_⟩
  refine short_sum_ne_zero D B hB (fun l => a (l * τ + i % τ)) (fun l hl => ha _ ?_) (i / τ) hiN ?_ ζ hζ
  · have := Nat.mod_lt i hτ
    calc l * τ + i % τ < l * τ + τ := by omega
      _ = (l + 1) * τ := by ring
      _ ≤ N * τ := Nat.mul_le_mul_right _ hl
      _ = τ * N := Nat.mul_comm _ _
  · rw [mul_comm, hdm]
    exact hai

/-! ## Rings given by their coefficients -/

variable {p k τ N n m : ℕ} [Fact p.Prime] {A : Type} [CommRing A] [Algebra (ZMod p) A]

/-- An element is the combination of the powers of `x` with its coefficients. -/
theorem eq_sum_coeff {D : ℕ} (coeff : A ≃ₗ[ZMod p] (Fin D → ZMod p)) (x : A)
    (hX : ∀ i : Fin D, coeff (x ^ (i : ℕ)) = Pi.single i 1) (y : A) :
    y = ∑ i : Fin D, algebraMap (ZMod p) A (coeff y i) * x ^ (i : ℕ) := by
  apply coeff.injective
  rw [map_sum]
  simp only [← Algebra.smul_def, map_smul, hX]
  funext j
  simp [Finset.sum_apply, Pi.single_apply]

/-- The same with coefficients that are images of integers. -/
theorem eq_sum_int {D : ℕ} (coeff : A ≃ₗ[ZMod p] (Fin D → ZMod p)) (x : A)
    (hX : ∀ i : Fin D, coeff (x ^ (i : ℕ)) = Pi.single i 1) (y : A) (a : ℕ → ZMod p)
    (ha : ∀ i : Fin D, coeff y i = a i) :
    y = ∑ i ∈ range D, algebraMap (ZMod p) A (a i) * x ^ i := by
  rw [← Fin.sum_univ_eq_sum_range (fun i => algebraMap (ZMod p) A (a i) * x ^ i)]
  conv_lhs => rw [eq_sum_coeff coeff x hX y]
  exact Finset.sum_congr rfl fun i _ => by rw [ha]

/-- A ring element that is not zero and has integer coefficients of absolute value at most `B`. -/
theorem isUnit_of_short_coeff (D : CycloData p k τ N n m) (B : ℕ)
    (hB : (m * B ^ 2) ^ N < p ^ 2) (coeff : A ≃ₗ[ZMod p] (Fin (τ * N) → ZMod p)) (x : A)
    (hX : ∀ i : Fin (τ * N), coeff (x ^ (i : ℕ)) = Pi.single i 1)
    (hx : aeval x (cyclotomic n (ZMod p)) = 0) (y : A) (hy : y ≠ 0)
    (hc : ∀ i, ∃ z : ℤ, |z| ≤ B ∧ coeff y i = (z : ZMod p)) : IsUnit y := by
  choose z hz1 hz2 using hc
  set a : ℕ → ℤ := fun i => if h : i < τ * N then z ⟨i, h⟩ else 0 with ha
  have hav : ∀ i : Fin (τ * N), a i = z i := fun i => by simp [ha]
  have hsum := eq_sum_int coeff x hX y (fun i => (a i : ZMod p)) fun i => by rw [hz2, hav]
  rw [hsum]
  refine isUnit_of_short D B hB x hx a (fun i hi => ?_) ?_
  · rw [hav ⟨i, hi⟩]
    exact hz1 _
  · by_contra hne
    push Not at hne
    apply hy
    rw [hsum]
    refine Finset.sum_eq_zero fun i hi => ?_
    rw [hne i (mem_range.1 hi)]
    simp

end Verif.SmallNorm
