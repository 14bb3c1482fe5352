import Verif.Props.ExamplePlus
import Mathlib.NumberTheory.LucasPrimality
import Mathlib.Tactic.ReduceModChar
import Mathlib.Tactic.NormNum.Prime
import Mathlib.Tactic.NormNum.DivMod
import Mathlib.RingTheory.AdjoinRoot
import Mathlib.RingTheory.PowerBasis
import Mathlib.Algebra.Polynomial.Degree.Operations

/-!
# Rings of the shape used by the crate

`F_p[X] / (X^d + 1)` for every prime `p` and every even `d`, with the coefficients with respect to the powers of `X`, the monomial encoding
`n ↦ sgn(n) X^n`, the table polynomial `∑ j (X^j - X^(d-j))` and balanced decompositions. It satisfies the contracts of `PlusRing`; the rings of the crate
have `d = 16`.
-/

set_option linter.unusedSimpArgs false

namespace Verif.Example

open Finset Verif Polynomial

section
variable (p d : Nat) [Fact p.Prime]

/-- `F_p[X] / (X^d + 1)`. -/
abbrev Cyclo := AdjoinRoot (X ^ d + 1 : (ZMod p)[X])

theorem monic_cyclo (hd : 0 < d) : (X ^ d + 1 : (ZMod p)[X]).Monic := by
  have := monic_X_pow_add_C (R := ZMod p) (n := d) 1 (by omega)
  simpa using this

theorem natDegree_cyclo : (X ^ d + 1 : (ZMod p)[X]).natDegree = d := by
  have := natDegree_X_pow_add_C (R := ZMod p) (n := d) (r := 1)
  simpa using this

/-- Coefficients with respect to the powers of `X`. -/
noncomputable def coeffC (hd : 0 < d) : Cyclo p d ≃ₗ[ZMod p] (Fin d → ZMod p) :=
  ((AdjoinRoot.powerBasis' (monic_cyclo p d hd)).basis.reindex
    (finCongr (by rw [AdjoinRoot.powerBasis'_dim, natDegree_cyclo p d]))).equivFun

/-- The class of `X`. -/
noncomputable def rootC : Cyclo p d := AdjoinRoot.root _

theorem coeffC_X (hd : 0 < d) (i : Fin d) : coeffC p d hd (rootC p d ^ (i : Nat)) = Pi.single i 1 := by
  have : rootC p d ^ (i : Nat) = ((AdjoinRoot.powerBasis' (monic_cyclo p d hd)).basis.reindex
    (finCongr (by rw [AdjoinRoot.powerBasis'_dim, natDegree_cyclo p d]))) i := by
    rw [Module.Basis.reindex_apply, PowerBasis.basis_eq_pow, AdjoinRoot.powerBasis'_gen]
    rfl
  unfold coeffC
  rw [this]
  funext j
  rw [Module.Basis.equivFun_self, Pi.single_apply]
  simp [eq_comm]

theorem rootC_pow : rootC p d ^ d = -1 := by
  have := AdjoinRoot.mk_self (f := (X ^ d + 1 : (ZMod p)[X]))
  rw [map_add, map_pow, map_one, AdjoinRoot.mk_X] at this
  exact eq_neg_of_add_eq_zero_left this

/-- The constant coefficients of the powers of `X`. -/
theorem ct_pow (hd : 0 < d) {e : Nat} (he : e < 2 * d) :
    coeffC p d hd (rootC p d ^ e) ⟨0, hd⟩ = if e = 0 then 1 else if e = d then -1 else 0 := by
  by_cases h : e < d
  · have := coeffC_X p d hd ⟨e, h⟩
    simp only at this
    rw [this, Pi.single_apply]
    by_cases h0 : e = 0
    · subst h0
      simp
    · rw [if_neg (by simp [Fin.ext_iff]; omega), if_neg h0, if_neg (by omega)]
  · obtain ⟨f, rfl⟩ : ∃ f, e = d + f := ⟨e - d, by omega⟩
    have := coeffC_X p d hd ⟨f, by omega⟩
    simp only at this
    rw [pow_add, rootC_pow, neg_one_mul, map_neg, Pi.neg_apply, this, Pi.single_apply, if_neg (by omega : ¬ d + f = 0)]
    by_cases h0 : f = 0
    · subst h0
      simp
    · rw [if_neg (by simp [Fin.ext_iff]; omega), if_neg (by omega), neg_zero]

/-- `exp`: `X^n` for `n ≥ 0` and `X^(d-|n|) = -X^n` for `n < 0`. -/
noncomputable def expC (a : ZMod p) : Option (Cyclo p d) :=
  if 2 * a.valMinAbs.natAbs < d then
    some (rootC p d ^ if 0 ≤ a.valMinAbs then a.valMinAbs.natAbs else d - a.valMinAbs.natAbs)
  else none

/-- `psi`. -/
noncomputable def psiC : Cyclo p d := ∑ j ∈ range ((d + 1) / 2), algebraMap (ZMod p) (Cyclo p d) (j : ZMod p) * (rootC p d ^ j - rootC p d ^ (d - j))

theorem ct_psi (hd : 0 < d) (i : Nat) : coeffC p d hd (psiC p d * rootC p d ^ i) ⟨0, hd⟩
    = ∑ j ∈ range ((d + 1) / 2), (j : ZMod p) * (coeffC p d hd (rootC p d ^ (j + i)) ⟨0, hd⟩ - coeffC p d hd (rootC p d ^ (d - j + i)) ⟨0, hd⟩) := by
  unfold psiC
  rw [sum_mul, map_sum, Finset.sum_apply]
  apply sum_congr rfl
  intro j _
  rw [mul_assoc, sub_mul, ← pow_add, ← pow_add, ← Algebra.smul_def, map_smul, Pi.smul_apply, smul_eq_mul, map_sub, Pi.sub_apply]

theorem expC_ok (hd : 0 < d) (n : ℤ) (hn : 2 * n.natAbs < d) : ∃ i : Fin d, expC p d (n : ZMod p) = some (rootC p d ^ (i : Nat)) ∧
    coeffC p d hd (psiC p d * rootC p d ^ (i : Nat)) ⟨0, hd⟩ = n := by
  have : NeZero p := ⟨(Fact.out : p.Prime).ne_zero⟩
  have hm : 2 * ((n : ZMod p).valMinAbs).natAbs < d := by
    have := ZMod.natAbs_min_of_le_div_two p (n : ZMod p).valMinAbs n (by rw [ZMod.coe_valMinAbs]) (ZMod.natAbs_valMinAbs_le _)
    omega
  have hcast : ((((n : ZMod p).valMinAbs) : ℤ) : ZMod p) = (n : ZMod p) := ZMod.coe_valMinAbs _
  unfold expC
  rw [if_pos hm]
  generalize (n : ZMod p).valMinAbs = m at hm hcast
  by_cases h0 : 0 ≤ m
  · rw [if_pos h0]
    refine ⟨⟨m.natAbs, by omega⟩, rfl, ?_⟩
    simp only
    rw [ct_psi, ← hcast]
    have hmn : m = (m.natAbs : ℤ) := by omega
    generalize m.natAbs = k at hm hmn
    rw [hmn, Int.cast_natCast, sum_eq_single k]
    · rw [ct_pow p d hd (by omega), ct_pow p d hd (by omega), show d - k + k = d by omega]
      by_cases hk : k = 0
      · subst hk; simp
      · rw [if_neg (by omega), if_neg (by omega), if_neg (by omega), if_pos rfl]
        ring
    · intro j hj hne
      have hj' := mem_range.1 hj
      by_cases hj0 : j = 0
      · subst hj0; simp
      · rw [ct_pow p d hd (by omega), ct_pow p d hd (by omega), if_neg (by omega), if_neg (by omega), if_neg (by omega), if_neg (by omega)]
        ring
    · intro h
      rw [mem_range] at h
      omega
  · rw [if_neg h0]
    refine ⟨⟨d - m.natAbs, by omega⟩, rfl, ?_⟩
    simp only
    rw [ct_psi, ← hcast]
    have hmn : m = -(m.natAbs : ℤ) := by omega
    have hk0 : 0 < m.natAbs := by omega
    generalize m.natAbs = k at hm hmn hk0
    rw [hmn, Int.cast_neg, Int.cast_natCast, sum_eq_single k]
    · rw [ct_pow p d hd (by omega), ct_pow p d hd (by omega), show k + (d - k) = d by omega, if_neg (by omega), if_pos rfl, if_neg (by omega),
        if_neg (by omega)]
      ring
    · intro j hj hne
      have hj' := mem_range.1 hj
      by_cases hj0 : j = 0
      · subst hj0; simp
      · rw [ct_pow p d hd (by omega), ct_pow p d hd (by omega), if_neg (by omega), if_neg (by omega), if_neg (by omega), if_neg (by omega)]
        ring
    · intro h
      rw [mem_range] at h
      omega

/-- The ring. -/
noncomputable def cyclo (hd : 0 < d) : PlusRing (ZMod p) (Cyclo p d) d where
  dpos := hd
  coeff := coeffC p d hd
  X := rootC p d
  coeff_X := coeffC_X p d hd
  exp := expC p d
  psi := psiC p d
  exp_ok := expC_ok p d hd
  decF := decZ
  decF_ok b k a hb he hk h := decZ_ok b k a hb he hk (h.reach hk)
  dec := decR (coeffC p d hd)
  dec_ok b k a hb he hk h := decR_ok (coeffC p d hd) b k a hb he hk fun i => (h i).reach hk

end

/-- The prime `2^64 - 2^32 + 1`. -/
theorem goldilocks_prime : Nat.Prime 18446744069414584321 := by
  apply lucas_primality _ (7 : ZMod 18446744069414584321)
  · norm_num only
    reduce_mod_char
  · intro q hq hd
    have h : (18446744069414584321 - 1 : Nat) = 2 ^ 32 * (3 * (5 * (17 * (257 * 65537)))) := by norm_num
    rw [h] at hd
    have key : q = 2 ∨ q = 3 ∨ q = 5 ∨ q = 17 ∨ q = 257 ∨ q = 65537 := by
      rcases (Nat.Prime.dvd_mul hq).1 hd with hd | hd
      · exact .inl ((Nat.prime_dvd_prime_iff_eq hq Nat.prime_two).1 (hq.dvd_of_dvd_pow hd))
      rcases (Nat.Prime.dvd_mul hq).1 hd with hd | hd
      · exact .inr (.inl ((Nat.prime_dvd_prime_iff_eq hq (by norm_num)).1 hd))
      rcases (Nat.Prime.dvd_mul hq).1 hd with hd | hd
      · exact .inr (.inr (.inl ((Nat.prime_dvd_prime_iff_eq hq (by norm_num)).1 hd)))
      rcases (Nat.Prime.dvd_mul hq).1 hd with hd | hd
      · exact .inr (.inr (.inr (.inl ((Nat.prime_dvd_prime_iff_eq hq (by norm_num)).1 hd))))
      rcases (Nat.Prime.dvd_mul hq).1 hd with hd | hd
      · exact .inr (.inr (.inr (.inr (.inl ((Nat.prime_dvd_prime_iff_eq hq (by norm_num)).1 hd)))))
      · exact .inr (.inr (.inr (.inr (.inr ((Nat.prime_dvd_prime_iff_eq hq (by norm_num)).1 hd)))))
    rcases key with rfl | rfl | rfl | rfl | rfl | rfl <;> norm_num only <;> reduce_mod_char <;> decide

instance factGoldilocks : Fact (Nat.Prime 18446744069414584321) := ⟨goldilocks_prime⟩

end Verif.Example
