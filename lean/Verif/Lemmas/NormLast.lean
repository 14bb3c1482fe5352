import Verif.Lemmas.NormFold
import Verif.Spec.NormLast
import Mathlib.Data.ZMod.ValMinAbs

/-!
# When the combinations fit although the last piece is out of range
-/

set_option linter.unusedSimpArgs false
set_option linter.unusedSectionVars false

namespace Verif.NormGrowth

open Finset Verif Verif.Spec

variable {p : ℕ} [Fact p.Prime] {F C : Type} {N τ : ℕ} [Field F] [CommRing C] [Algebra (ZMod p) F] [Algebra (ZMod p) C]

theorem normLast_of (rd : RingData (ZMod p) F C N τ) (P : Params) (cs : ChallengeSet C) {red : ℕ → ℕ → ℤ} {s γ β M : ℕ}
    (ht : Table rd red s γ) (hc : Bounded rd cs s β) (he : Even P.bSmall) (hK : 1 ≤ P.K)
    (h : P.bSmall * ((2 * P.K - 1) * (γ * β)) + M ≤ reach P.bSmall P.K) : NormLast rd P cs M := by
  intro rho x h1 hrho hx hl i
  obtain ⟨α, hα⟩ := he
  have hα2 : P.bSmall / 2 = α := by omega
  have hterm : ∀ k < 2 * P.K - 1, ∃ n : ℤ, |n| ≤ (γ * β * α : ℕ) ∧ rd.coeff (rho k * x k) i = (n : ZMod p) := by
    intro k hk
    obtain ⟨bs, hb, hd⟩ := hrho k hk
    obtain ⟨r, r1, r2, r3⟩ := hc bs _ hb hd
    obtain ⟨a, a1, a2⟩ := short_lift rd (hx k hk)
    rw [hα2] at a2
    exact ⟨_, abs_conv_le ht.exp r a β α r3 a2 i i.2, coeff_mul rd.coeff rd.X rd.coeff_X red s ht.le ht.pow _ _ r a r1 r2 a1 i⟩
  have hsum : ∀ m, m ≤ 2 * P.K - 1 → ∃ n : ℤ, |n| ≤ (m * (γ * β * α) : ℕ) ∧
      rd.coeff (∑ k ∈ range m, rho k * x k) i = (n : ZMod p) := by
    intro m
    induction m with
    | zero => exact fun _ => ⟨0, by simp, by simp⟩
    | succ m ih =>
      intro hm
      obtain ⟨n, n1, n2⟩ := ih (by omega)
      obtain ⟨n', m1, m2⟩ := hterm m (by omega)
      refine ⟨n + n', (abs_add_le _ _).trans ?_, ?_⟩
      · push_cast at n1 m1 ⊢
        linarith
      · rw [sum_range_succ, map_add, Pi.add_apply, n2, m2]
        push_cast
        ring
  obtain ⟨n, n1, n2⟩ := hsum (2 * P.K - 1) le_rfl
  obtain ⟨m, m1, m2⟩ := hl i
  refine ⟨n + m, le_trans ?_ h, ?_⟩
  · have n1' : n.natAbs ≤ (2 * P.K - 1) * (γ * β * α) := by
      rw [Int.abs_eq_natAbs] at n1
      exact_mod_cast n1
    have h5 := Int.natAbs_add_le n m
    have h6 : P.bSmall * ((2 * P.K - 1) * (γ * β)) = 2 * ((2 * P.K - 1) * (γ * β * α)) := by
      rw [hα]; ring
    omega
  · rw [show 2 * P.K = (2 * P.K - 1) + 1 by omega, sum_range_succ, map_add, Pi.add_apply, n2, h1, one_mul, m2]
    push_cast
    ring

/-- Division with rest of least absolute value. -/
theorem splits_of {q M : ℕ} (hq : 1 ≤ q) (h : p < M * q) : Splits (ZMod p) q M q := by
  intro u
  have hp : 0 < p := (Fact.out : p.Prime).pos
  have hu : u.valMinAbs.natAbs ≤ p / 2 := ZMod.natAbs_valMinAbs_le u
  set z := u.valMinAbs with hz
  have e : (q : ℤ) * Int.bdiv z q + Int.bmod z q = z := Int.bdiv_add_bmod z q
  have hr1 : -((q : ℤ) / 2) ≤ Int.bmod z q := Int.le_bmod (by omega)
  have hr2 : Int.bmod z q ≤ ((q : ℤ) - 1) / 2 := Int.bmod_le (by omega)
  refine ⟨(Int.bdiv z q : ℤ), (Int.bmod z q : ℤ), ?_, ⟨_, ?_, rfl⟩, ⟨_, ?_, rfl⟩⟩
  · have := congrArg (fun t : ℤ => (t : ZMod p)) e
    push_cast at this
    rw [this, hz, ZMod.coe_valMinAbs]
  · by_contra hcon
    push Not at hcon
    have h1 : (M + 1) * q ≤ 2 * (Int.bdiv z q).natAbs * q := Nat.mul_le_mul_right _ hcon
    have h2 : (q * Int.bdiv z q).natAbs = q * (Int.bdiv z q).natAbs := by
      rw [Int.natAbs_mul]; rfl
    have h3 : (q * Int.bdiv z q).natAbs ≤ z.natAbs + (Int.bmod z q).natAbs := by omega
    have h4 : 2 * (Int.bmod z q).natAbs ≤ q := by omega
    have h5 : 2 * (q * (Int.bdiv z q).natAbs) ≤ p + q := by omega
    have h6 : (M + 1) * q = M * q + q := by ring
    have h7 : 2 * (Int.bdiv z q).natAbs * q = 2 * (q * (Int.bdiv z q).natAbs) := by ring
    omega
  · omega

end Verif.NormGrowth
