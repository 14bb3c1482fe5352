import Verif.Lemmas.Invertible
import Verif.Lemmas.Primes

/-!
# The four cyclotomic rings

Goldilocks `X^24 - X^12 + 1`, BabyBear `X^72 - X^36 + 1`, Frog and Stark `X^16 + 1`
(`crates/cyclotomic-rings/src/rings/*.rs:19`).
-/

set_option linter.unusedSimpArgs false
set_option linter.unusedSectionVars false

namespace Verif.SmallNorm

open Polynomial Finset Verif.Poseidon

theorem hasOrder_of_lt {p n τ : ℕ} (h : p ^ τ % n = 1 % n)
    (h' : ∀ i < τ, 0 < i → p ^ i % n ≠ 1 % n) : HasOrder p n τ := ⟨h, fun i h0 h1 => h' i h1 h0⟩

theorem prim_of_pow {p : ℕ} (ω : ZMod p) (k : ℕ) (hk : 0 < k) (h1 : ω ^ k = 1)
    (h2 : ∀ q, q.Prime → q ∣ k → ω ^ (k / q) ≠ 1) : IsPrimitiveRoot ω k := by
  have := orderOf_eq_of_pow_and_pow_div_prime hk h1 h2
  rw [← this]
  exact IsPrimitiveRoot.orderOf ω

theorem prime_dvd_24 {q : ℕ} (hq : q.Prime) (h : q ∣ 24) : q = 2 ∨ q = 3 := by
  rw [show (24 : ℕ) = 2 ^ 3 * 3 by norm_num] at h
  rcases (Nat.Prime.dvd_mul hq).1 h with h | h
  · exact .inl ((Nat.prime_dvd_prime_iff_eq hq Nat.prime_two).1 (hq.dvd_of_dvd_pow h))
  · exact .inr ((Nat.prime_dvd_prime_iff_eq hq Nat.prime_three).1 h)

theorem prime_dvd_pow2 {q e : ℕ} (hq : q.Prime) (h : q ∣ 2 ^ e) : q = 2 :=
  (Nat.prime_dvd_prime_iff_eq hq Nat.prime_two).1 (hq.dvd_of_dvd_pow h)

theorem dvd24 : cyclotomic 24 ℤ ∣ X ^ 12 + 1 := ⟨X ^ 4 + 1, by rw [cyclo24]; ring⟩

theorem deg24 : (cyclotomic 24 ℤ).natDegree = 8 := by rw [natDegree_cyclotomic]; decide
theorem deg8 : (cyclotomic 8 ℤ).natDegree = 4 := by rw [natDegree_cyclotomic]; decide
theorem deg32 : (cyclotomic 32 ℤ).natDegree = 16 := by rw [natDegree_cyclotomic]; decide

theorem goldilocks_root : IsPrimitiveRoot (1099511627776 : ZMod 18446744069414584321) 24 := by
  apply prim_of_pow _ _ (by norm_num) (by decide +kernel)
  intro q hq hd
  rcases prime_dvd_24 hq hd with rfl | rfl <;> decide +kernel

theorem babybear_root : IsPrimitiveRoot (1398021245 : ZMod 2013265921) 24 := by
  apply prim_of_pow _ _ (by norm_num) (by decide +kernel)
  intro q hq hd
  rcases prime_dvd_24 hq hd with rfl | rfl <;> decide +kernel

theorem frog_root : IsPrimitiveRoot (2755067726615789629 : ZMod 15912092521325583641) 8 := by
  apply prim_of_pow _ _ (by norm_num) (by decide +kernel)
  intro q hq hd
  rw [prime_dvd_pow2 (e := 3) hq hd]
  decide +kernel

theorem stark_root : IsPrimitiveRoot
    (3409443867035641044245057348756544640549407421541289951053907001322227935403 :
      ZMod 3618502788666131213697322783095070105623107215331596699973092056135872020481) 32 := by
  apply prim_of_pow _ _ (by norm_num) (by decide +kernel)
  intro q hq hd
  rw [prime_dvd_pow2 (e := 5) hq hd]
  decide +kernel

theorem goldilocksData : CycloData 18446744069414584321 24 3 8 72 12 where
  kpos := by norm_num
  τpos := by norm_num
  mpos := by norm_num
  nk := by norm_num
  coprime := by norm_num
  order := hasOrder_of_lt (by norm_num) (by decide +kernel)
  root := ⟨_, goldilocks_root⟩
  exp R _ := cyclotomic_expand_eq_cyclotomic Nat.prime_three (by norm_num) R
  deg := deg24
  dvd := dvd24

theorem babybearData : CycloData 2013265921 24 9 8 216 12 where
  kpos := by norm_num
  τpos := by norm_num
  mpos := by norm_num
  nk := by norm_num
  coprime := by norm_num
  order := hasOrder_of_lt (by decide +kernel) (by decide +kernel)
  root := ⟨_, babybear_root⟩
  exp R _ := by
    rw [cyclo24, cyclo216]
    simp only [map_add, map_sub, map_pow, expand_X, map_one]
    ring
  deg := deg24
  dvd := dvd24

theorem frogData : CycloData 15912092521325583641 8 4 4 32 4 where
  kpos := by norm_num
  τpos := by norm_num
  mpos := by norm_num
  nk := by norm_num
  coprime := by norm_num
  order := hasOrder_of_lt (by decide +kernel) (by decide +kernel)
  root := ⟨_, frog_root⟩
  exp R _ := by
    rw [cyclo8, cyclo32]
    simp only [map_add, map_sub, map_pow, expand_X, map_one]
    ring
  deg := deg8
  dvd := by rw [cyclo8]

theorem starkData : CycloData
    3618502788666131213697322783095070105623107215331596699973092056135872020481 32 1 16 32 16 where
  kpos := by norm_num
  τpos := by norm_num
  mpos := by norm_num
  nk := by norm_num
  coprime := by norm_num
  order := hasOrder_of_lt (by decide +kernel) (by decide +kernel)
  root := ⟨_, stark_root⟩
  exp R _ := by rw [expand_one]
  deg := deg32
  dvd := by rw [cyclo32]

/-! ## The roots of unity in BabyBear -/

/-- Every root `ζ` of `Φ_24` modulo the BabyBear prime: no relation `a0 + a1 ζ + a2 ζ^2 = 0` with
integers of absolute value at most 63 (shifted by 63 to naturals). -/
def bbCheck : Bool :=
  (List.range 24).all fun e =>
    let z := 1398021245 ^ e % 2013265921
    let z2 := z * z % 2013265921
    (z2 * z2 % 2013265921 * (z2 * z2 % 2013265921) + (2013265921 - z2 * z2 % 2013265921) + 1) % 2013265921 != 0 ||
      (List.range 127).all fun u1 => (List.range 127).all fun u2 =>
        126 < (u1 * z + u2 * z2 + 63 * (2013265921 - z) + 63 * (2013265921 - z2) + 63) % 2013265921 ||
          (u1 == 63 && u2 == 63)

theorem bbCheck_ok : bbCheck = true := by decide +kernel

/-- No relation `a0 + a1 ζ + a2 ζ^2 = 0` with integers of absolute value at most 63, except the trivial one. -/
theorem bb_no_relation (ζ : ZMod 2013265921) (hζ : (cyclotomic 24 (ZMod 2013265921)).IsRoot ζ)
    (a0 a1 a2 : ℤ) (h0 : |a0| ≤ 63) (h1 : |a1| ≤ 63) (h2 : |a2| ≤ 63)
    (h : (a0 : ZMod 2013265921) + a1 * ζ + a2 * ζ ^ 2 = 0) : a0 = 0 ∧ a1 = 0 ∧ a2 = 0 := by
  have hpow : ζ ^ 24 = 1 := by
    obtain ⟨Q, hQ⟩ := cyclotomic.dvd_X_pow_sub_one 24 (ZMod 2013265921)
    have := congrArg (eval ζ) hQ
    rw [eval_mul, hζ.eq_zero, zero_mul] at this
    simpa [sub_eq_zero] using this
  rw [IsRoot.def, cyclo24] at hζ
  simp only [eval_add, eval_sub, eval_pow, eval_X, eval_one] at hζ
  obtain ⟨e, he, rfl⟩ := babybear_root.eq_pow_of_pow_eq_one hpow
  have hc := bbCheck_ok
  unfold bbCheck at hc
  rw [List.all_eq_true] at hc
  have hce := hc e (List.mem_range.2 he)
  simp only at hce
  generalize hz : 1398021245 ^ e % 2013265921 = z at hce
  generalize hz2 : z * z % 2013265921 = z2 at hce
  have hzc : ((1398021245 : ZMod 2013265921)) ^ e = (z : ZMod 2013265921) := by
    rw [← hz, ZMod.natCast_mod]; push_cast; rfl
  rw [hzc] at h hζ
  have hz2c : (z : ZMod 2013265921) ^ 2 = (z2 : ZMod 2013265921) := by
    rw [← hz2, ZMod.natCast_mod]; push_cast; ring
  have hzlt : z ≤ 2013265921 := by rw [← hz]; exact (Nat.mod_lt _ (by norm_num)).le
  have hz2lt : z2 ≤ 2013265921 := by rw [← hz2]; exact (Nat.mod_lt _ (by norm_num)).le
  have hz4 : ((z2 * z2 % 2013265921 : ℕ) : ZMod 2013265921) = (z : ZMod 2013265921) ^ 4 := by
    rw [ZMod.natCast_mod]; push_cast; rw [← hz2c]; ring
  have hz4lt : z2 * z2 % 2013265921 ≤ 2013265921 := (Nat.mod_lt _ (by norm_num)).le
  have hp0 : ((2013265921 : ℕ) : ZMod 2013265921) = 0 := ZMod.natCast_self _
  rcases Bool.or_eq_true_iff.1 hce with hroot | hall
  · exfalso
    rw [bne_iff_ne] at hroot
    apply hroot
    rw [← Nat.dvd_iff_mod_eq_zero, ← ZMod.natCast_eq_zero_iff]
    rw [Nat.cast_add, Nat.cast_add, Nat.cast_mul, Nat.cast_sub hz4lt, hz4, hp0]
    push_cast
    linear_combination hζ
  · have := abs_le.1 h0
    have := abs_le.1 h1
    have := abs_le.1 h2
    obtain ⟨u1, hu1⟩ : ∃ u : ℕ, (u : ℤ) = a1 + 63 := ⟨(a1 + 63).toNat, by omega⟩
    obtain ⟨u2, hu2⟩ : ∃ u : ℕ, (u : ℤ) = a2 + 63 := ⟨(a2 + 63).toNat, by omega⟩
    obtain ⟨v, hv⟩ : ∃ u : ℕ, (u : ℤ) = 63 - a0 := ⟨(63 - a0).toNat, by omega⟩
    rw [List.all_eq_true] at hall
    have hall1 := hall u1 (List.mem_range.2 (by omega))
    rw [List.all_eq_true] at hall1
    have hall2 := hall1 u2 (List.mem_range.2 (by omega))
    have e1 : (u1 : ZMod 2013265921) = a1 + 63 := by exact_mod_cast congrArg (Int.cast (R := ZMod 2013265921)) hu1
    have e2 : (u2 : ZMod 2013265921) = a2 + 63 := by exact_mod_cast congrArg (Int.cast (R := ZMod 2013265921)) hu2
    have e3 : (v : ZMod 2013265921) = 63 - a0 := by exact_mod_cast congrArg (Int.cast (R := ZMod 2013265921)) hv
    have hW : (u1 * z + u2 * z2 + 63 * (2013265921 - z) + 63 * (2013265921 - z2) + 63) % 2013265921 = v := by
      have hc : ((u1 * z + u2 * z2 + 63 * (2013265921 - z) + 63 * (2013265921 - z2) + 63 : ℕ) : ZMod 2013265921)
          = (v : ZMod 2013265921) := by
        rw [Nat.cast_add, Nat.cast_add, Nat.cast_add, Nat.cast_add, Nat.cast_mul, Nat.cast_mul,
          Nat.cast_mul, Nat.cast_mul, Nat.cast_sub hzlt, Nat.cast_sub hz2lt, hp0, e1, e2, e3]
        rw [hz2c] at h
        push_cast
        linear_combination h
      rw [ZMod.natCast_eq_natCast_iff'] at hc
      rw [hc, Nat.mod_eq_of_lt (by omega)]
    rw [hW] at hall2
    simp only [Bool.or_eq_true, decide_eq_true_eq, Bool.and_eq_true, beq_iff_eq] at hall2
    have hu : u1 = 63 ∧ u2 = 63 := by
      rcases hall2 with h' | h'
      · omega
      · exact h'
    have ha1 : a1 = 0 := by omega
    have ha2 : a2 = 0 := by omega
    refine ⟨?_, ha1, ha2⟩
    rw [ha1, ha2] at h
    simp only [Int.cast_zero, zero_mul, add_zero] at h
    rw [ZMod.intCast_zmod_eq_zero_iff_dvd] at h
    obtain ⟨t, ht⟩ := h
    push_cast at ht
    omega

end Verif.SmallNorm
