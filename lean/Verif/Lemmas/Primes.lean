import Mathlib.NumberTheory.LucasPrimality
import Mathlib.Tactic.ReduceModChar
import Mathlib.Tactic.NormNum.Prime
import Mathlib.Tactic.NormNum.DivMod

/-!
# The moduli of the four rings are prime

Lucas certificates. The moduli are those of `stark-rings` (BabyBear `15 * 2^27 + 1`, Goldilocks
`2^64 - 2^32 + 1`, Frog `15912092521325583641`, Stark `2^251 + 17 * 2^192 + 1`).
-/

namespace Verif.Poseidon

theorem babybear_prime : Nat.Prime 2013265921 := by
  apply lucas_primality _ (31 : ZMod 2013265921)
  · norm_num only
    reduce_mod_char
  · intro q hq hd
    have h : (2013265921 - 1 : Nat) = 2 ^ 27 * (3 * (5)) := by norm_num
    rw [h] at hd
    have key : q = 2 ∨ q = 3 ∨ q = 5 := by
      rcases (Nat.Prime.dvd_mul hq).1 hd with hd | hd
      · exact (.inl ((Nat.prime_dvd_prime_iff_eq hq (by norm_num)).1 (hq.dvd_of_dvd_pow hd)))
      rcases (Nat.Prime.dvd_mul hq).1 hd with hd | hd
      · exact (.inr (.inl ((Nat.prime_dvd_prime_iff_eq hq (by norm_num)).1 hd)))
      · exact (.inr (.inr ((Nat.prime_dvd_prime_iff_eq hq (by norm_num)).1 hd)))
    rcases key with rfl | rfl | rfl <;> norm_num only <;> reduce_mod_char <;> decide

theorem p633927373_prime : Nat.Prime 633927373 := by
  apply lucas_primality _ (5 : ZMod 633927373)
  · norm_num only
    reduce_mod_char
  · intro q hq hd
    have h : (633927373 - 1 : Nat) = 2 ^ 2 * (3 * (13 * (61 * (66617)))) := by norm_num
    rw [h] at hd
    have key : q = 2 ∨ q = 3 ∨ q = 13 ∨ q = 61 ∨ q = 66617 := by
      rcases (Nat.Prime.dvd_mul hq).1 hd with hd | hd
      · exact (.inl ((Nat.prime_dvd_prime_iff_eq hq (by norm_num)).1 (hq.dvd_of_dvd_pow hd)))
      rcases (Nat.Prime.dvd_mul hq).1 hd with hd | hd
      · exact (.inr (.inl ((Nat.prime_dvd_prime_iff_eq hq (by norm_num)).1 hd)))
      rcases (Nat.Prime.dvd_mul hq).1 hd with hd | hd
      · exact (.inr (.inr (.inl ((Nat.prime_dvd_prime_iff_eq hq (by norm_num)).1 hd))))
      rcases (Nat.Prime.dvd_mul hq).1 hd with hd | hd
      · exact (.inr (.inr (.inr (.inl ((Nat.prime_dvd_prime_iff_eq hq (by norm_num)).1 hd)))))
      · exact (.inr (.inr (.inr (.inr ((Nat.prime_dvd_prime_iff_eq hq (by norm_num)).1 hd)))))
    rcases key with rfl | rfl | rfl | rfl | rfl <;> norm_num only <;> reduce_mod_char <;> decide

theorem p319007468350553_prime : Nat.Prime 319007468350553 := by
  apply lucas_primality _ (3 : ZMod 319007468350553)
  · norm_num only
    reduce_mod_char
  · intro q hq hd
    have h : (319007468350553 - 1 : Nat) = 2 ^ 3 * (62903 * (633927373)) := by norm_num
    rw [h] at hd
    have key : q = 2 ∨ q = 62903 ∨ q = 633927373 := by
      rcases (Nat.Prime.dvd_mul hq).1 hd with hd | hd
      · exact (.inl ((Nat.prime_dvd_prime_iff_eq hq (by norm_num)).1 (hq.dvd_of_dvd_pow hd)))
      rcases (Nat.Prime.dvd_mul hq).1 hd with hd | hd
      · exact (.inr (.inl ((Nat.prime_dvd_prime_iff_eq hq (by norm_num)).1 hd)))
      · exact (.inr (.inr ((Nat.prime_dvd_prime_iff_eq hq p633927373_prime).1 hd)))
    rcases key with rfl | rfl | rfl <;> norm_num only <;> reduce_mod_char <;> decide

theorem frog_prime : Nat.Prime 15912092521325583641 := by
  apply lucas_primality _ (3 : ZMod 15912092521325583641)
  · norm_num only
    reduce_mod_char
  · intro q hq hd
    have h : (15912092521325583641 - 1 : Nat) = 2 ^ 3 * (5 * (29 * (43 * (319007468350553)))) := by norm_num
    rw [h] at hd
    have key : q = 2 ∨ q = 5 ∨ q = 29 ∨ q = 43 ∨ q = 319007468350553 := by
      rcases (Nat.Prime.dvd_mul hq).1 hd with hd | hd
      · exact (.inl ((Nat.prime_dvd_prime_iff_eq hq (by norm_num)).1 (hq.dvd_of_dvd_pow hd)))
      rcases (Nat.Prime.dvd_mul hq).1 hd with hd | hd
      · exact (.inr (.inl ((Nat.prime_dvd_prime_iff_eq hq (by norm_num)).1 hd)))
      rcases (Nat.Prime.dvd_mul hq).1 hd with hd | hd
      · exact (.inr (.inr (.inl ((Nat.prime_dvd_prime_iff_eq hq (by norm_num)).1 hd))))
      rcases (Nat.Prime.dvd_mul hq).1 hd with hd | hd
      · exact (.inr (.inr (.inr (.inl ((Nat.prime_dvd_prime_iff_eq hq (by norm_num)).1 hd)))))
      · exact (.inr (.inr (.inr (.inr ((Nat.prime_dvd_prime_iff_eq hq p319007468350553_prime).1 hd)))))
    rcases key with rfl | rfl | rfl | rfl | rfl <;> norm_num only <;> reduce_mod_char <;> decide

theorem p9269339_prime : Nat.Prime 9269339 := by
  apply lucas_primality _ (6 : ZMod 9269339)
  · norm_num only
    reduce_mod_char
  · intro q hq hd
    have h : (9269339 - 1 : Nat) = 2 * (13 * (43 * (8291))) := by norm_num
    rw [h] at hd
    have key : q = 2 ∨ q = 13 ∨ q = 43 ∨ q = 8291 := by
      rcases (Nat.Prime.dvd_mul hq).1 hd with hd | hd
      · exact (.inl ((Nat.prime_dvd_prime_iff_eq hq (by norm_num)).1 hd))
      rcases (Nat.Prime.dvd_mul hq).1 hd with hd | hd
      · exact (.inr (.inl ((Nat.prime_dvd_prime_iff_eq hq (by norm_num)).1 hd)))
      rcases (Nat.Prime.dvd_mul hq).1 hd with hd | hd
      · exact (.inr (.inr (.inl ((Nat.prime_dvd_prime_iff_eq hq (by norm_num)).1 hd))))
      · exact (.inr (.inr (.inr ((Nat.prime_dvd_prime_iff_eq hq (by norm_num)).1 hd))))
    rcases key with rfl | rfl | rfl | rfl <;> norm_num only <;> reduce_mod_char <;> decide

theorem p166848103_prime : Nat.Prime 166848103 := by
  apply lucas_primality _ (6 : ZMod 166848103)
  · norm_num only
    reduce_mod_char
  · intro q hq hd
    have h : (166848103 - 1 : Nat) = 2 * (3 ^ 2 * (9269339)) := by norm_num
    rw [h] at hd
    have key : q = 2 ∨ q = 3 ∨ q = 9269339 := by
      rcases (Nat.Prime.dvd_mul hq).1 hd with hd | hd
      · exact (.inl ((Nat.prime_dvd_prime_iff_eq hq (by norm_num)).1 hd))
      rcases (Nat.Prime.dvd_mul hq).1 hd with hd | hd
      · exact (.inr (.inl ((Nat.prime_dvd_prime_iff_eq hq (by norm_num)).1 (hq.dvd_of_dvd_pow hd))))
      · exact (.inr (.inr ((Nat.prime_dvd_prime_iff_eq hq p9269339_prime).1 hd)))
    rcases key with rfl | rfl | rfl <;> norm_num only <;> reduce_mod_char <;> decide

theorem p4935719_prime : Nat.Prime 4935719 := by
  apply lucas_primality _ (17 : ZMod 4935719)
  · norm_num only
    reduce_mod_char
  · intro q hq hd
    have h : (4935719 - 1 : Nat) = 2 * (2467859) := by norm_num
    rw [h] at hd
    have key : q = 2 ∨ q = 2467859 := by
      rcases (Nat.Prime.dvd_mul hq).1 hd with hd | hd
      · exact (.inl ((Nat.prime_dvd_prime_iff_eq hq (by norm_num)).1 hd))
      · exact (.inr ((Nat.prime_dvd_prime_iff_eq hq (by norm_num)).1 hd))
    rcases key with rfl | rfl <;> norm_num only <;> reduce_mod_char <;> decide

theorem p98714381_prime : Nat.Prime 98714381 := by
  apply lucas_primality _ (2 : ZMod 98714381)
  · norm_num only
    reduce_mod_char
  · intro q hq hd
    have h : (98714381 - 1 : Nat) = 2 ^ 2 * (5 * (4935719)) := by norm_num
    rw [h] at hd
    have key : q = 2 ∨ q = 5 ∨ q = 4935719 := by
      rcases (Nat.Prime.dvd_mul hq).1 hd with hd | hd
      · exact (.inl ((Nat.prime_dvd_prime_iff_eq hq (by norm_num)).1 (hq.dvd_of_dvd_pow hd)))
      rcases (Nat.Prime.dvd_mul hq).1 hd with hd | hd
      · exact (.inr (.inl ((Nat.prime_dvd_prime_iff_eq hq (by norm_num)).1 hd)))
      · exact (.inr (.inr ((Nat.prime_dvd_prime_iff_eq hq p4935719_prime).1 hd)))
    rcases key with rfl | rfl | rfl <;> norm_num only <;> reduce_mod_char <;> decide

theorem stark_prime : Nat.Prime 3618502788666131213697322783095070105623107215331596699973092056135872020481 := by
  apply lucas_primality _ (3 : ZMod 3618502788666131213697322783095070105623107215331596699973092056135872020481)
  · norm_num only
    reduce_mod_char
  · intro q hq hd
    have h : (3618502788666131213697322783095070105623107215331596699973092056135872020481 - 1 : Nat) = 2 ^ 192 * (5 * (7 * (98714381 * (166848103)))) := by norm_num
    rw [h] at hd
    have key : q = 2 ∨ q = 5 ∨ q = 7 ∨ q = 98714381 ∨ q = 166848103 := by
      rcases (Nat.Prime.dvd_mul hq).1 hd with hd | hd
      · exact (.inl ((Nat.prime_dvd_prime_iff_eq hq (by norm_num)).1 (hq.dvd_of_dvd_pow hd)))
      rcases (Nat.Prime.dvd_mul hq).1 hd with hd | hd
      · exact (.inr (.inl ((Nat.prime_dvd_prime_iff_eq hq (by norm_num)).1 hd)))
      rcases (Nat.Prime.dvd_mul hq).1 hd with hd | hd
      · exact (.inr (.inr (.inl ((Nat.prime_dvd_prime_iff_eq hq (by norm_num)).1 hd))))
      rcases (Nat.Prime.dvd_mul hq).1 hd with hd | hd
      · exact (.inr (.inr (.inr (.inl ((Nat.prime_dvd_prime_iff_eq hq p98714381_prime).1 hd)))))
      · exact (.inr (.inr (.inr (.inr ((Nat.prime_dvd_prime_iff_eq hq p166848103_prime).1 hd)))))
    rcases key with rfl | rfl | rfl | rfl | rfl <;> norm_num only <;> reduce_mod_char <;> decide

theorem goldilocks_prime : Nat.Prime 18446744069414584321 := by
  apply lucas_primality _ (7 : ZMod 18446744069414584321)
  · norm_num only
    reduce_mod_char
  · intro q hq hd
    have h : (18446744069414584321 - 1 : Nat) = 2 ^ 32 * (3 * (5 * (17 * (257 * (65537))))) := by norm_num
    rw [h] at hd
    have key : q = 2 ∨ q = 3 ∨ q = 5 ∨ q = 17 ∨ q = 257 ∨ q = 65537 := by
      rcases (Nat.Prime.dvd_mul hq).1 hd with hd | hd
      · exact (.inl ((Nat.prime_dvd_prime_iff_eq hq (by norm_num)).1 (hq.dvd_of_dvd_pow hd)))
      rcases (Nat.Prime.dvd_mul hq).1 hd with hd | hd
      · exact (.inr (.inl ((Nat.prime_dvd_prime_iff_eq hq (by norm_num)).1 hd)))
      rcases (Nat.Prime.dvd_mul hq).1 hd with hd | hd
      · exact (.inr (.inr (.inl ((Nat.prime_dvd_prime_iff_eq hq (by norm_num)).1 hd))))
      rcases (Nat.Prime.dvd_mul hq).1 hd with hd | hd
      · exact (.inr (.inr (.inr (.inl ((Nat.prime_dvd_prime_iff_eq hq (by norm_num)).1 hd)))))
      rcases (Nat.Prime.dvd_mul hq).1 hd with hd | hd
      · exact (.inr (.inr (.inr (.inr (.inl ((Nat.prime_dvd_prime_iff_eq hq (by norm_num)).1 hd))))))
      · exact (.inr (.inr (.inr (.inr (.inr ((Nat.prime_dvd_prime_iff_eq hq (by norm_num)).1 hd))))))
    rcases key with rfl | rfl | rfl | rfl | rfl | rfl <;> norm_num only <;> reduce_mod_char <;> decide

instance fact_babybear : Fact (Nat.Prime 2013265921) := ⟨babybear_prime⟩

instance fact_goldilocks : Fact (Nat.Prime 18446744069414584321) := ⟨goldilocks_prime⟩

instance fact_frog : Fact (Nat.Prime 15912092521325583641) := ⟨frog_prime⟩

instance fact_stark : Fact (Nat.Prime 3618502788666131213697322783095070105623107215331596699973092056135872020481) := ⟨stark_prime⟩

end Verif.Poseidon
