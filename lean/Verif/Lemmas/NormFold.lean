import Verif.Lemmas.NormGrowth
import Verif.Spec.Nifs

/-!
# When the combinations formed by the folding fit in the next decomposition
-/

set_option linter.unusedSimpArgs false
set_option linter.unusedSectionVars false

namespace Verif.NormGrowth

open Finset Verif Verif.Spec

variable {p : ℕ} [Fact p.Prime] {F C : Type} {N τ : ℕ} [Field F] [CommRing C] [Algebra (ZMod p) F] [Algebra (ZMod p) C]

/-- Every challenge has integer coefficients: at most `s` of them, the first ones, of absolute value at most `β`. -/
def Bounded (rd : RingData (ZMod p) F C N τ) (cs : ChallengeSet C) (s β : ℕ) : Prop :=
  ∀ bs c, bs.length = cs.bytesNeeded → cs.decode bs = .ok c →
    ∃ r : ℕ → ℤ, (∀ i : Fin (τ * N), rd.coeff c i = ((r i : ℤ) : ZMod p)) ∧ (∀ i, s ≤ i → i < τ * N → r i = 0) ∧
      ∀ i < s, |r i| ≤ β

/-- The ring multiplication, given by a table, expands by at most `γ`. -/
structure Table (rd : RingData (ZMod p) F C N τ) (red : ℕ → ℕ → ℤ) (s γ : ℕ) : Prop where
  le : s ≤ τ * N
  pow : ∀ m, m < 2 * (τ * N) → rd.X ^ m = ∑ k ∈ range (τ * N), (red m k : C) * rd.X ^ k
  exp : Expands red s (τ * N) γ

theorem short_lift (rd : RingData (ZMod p) F C N τ) {b : ℕ} {x : C} (h : ∀ i, Short b (rd.coeff x i)) :
    ∃ a : ℕ → ℤ, (∀ i : Fin (τ * N), rd.coeff x i = ((a i : ℤ) : ZMod p)) ∧ ∀ i < τ * N, |a i| ≤ (b / 2 : ℕ) := by
  choose n h1 h2 using h
  refine ⟨fun i => if h : i < τ * N then n ⟨i, h⟩ else 0, fun i => by simp [h2], fun i hi => ?_⟩
  simp only [dif_pos hi]
  have := h1 ⟨i, hi⟩
  rw [Int.abs_eq_natAbs]
  omega

theorem normOK_of (rd : RingData (ZMod p) F C N τ) (P : Params) (cs : ChallengeSet C) {red : ℕ → ℕ → ℤ} {s γ β : ℕ}
    (ht : Table rd red s γ) (hc : Bounded rd cs s β) (he : Even P.bSmall) (hK : 1 ≤ P.K)
    (h : P.bSmall * ((2 * P.K - 1) * (γ * β) + 1) ≤ reach P.bSmall P.K) : NormOK rd P cs := by
  intro rho x h1 hrho hx i
  obtain ⟨α, hα⟩ := he
  have hα2 : P.bSmall / 2 = α := by omega
  have hterm : ∀ k < 2 * P.K - 1, ∃ n : ℤ, |n| ≤ (γ * β * α : ℕ) ∧ rd.coeff (rho k * x k) i = (n : ZMod p) := by
    intro k hk
    obtain ⟨bs, hb, hd⟩ := hrho k hk
    obtain ⟨r, r1, r2, r3⟩ := hc bs _ hb hd
    obtain ⟨a, a1, a2⟩ := short_lift rd (hx k (by omega))
    rw [hα2] at a2
    exact ⟨_, abs_conv_le ht.exp r a β α r3 a2 i i.2, coeff_mul rd.coeff rd.X rd.coeff_X red s ht.le ht.pow _ _ r a r1 r2 a1 i⟩
  have hsum : ∀ M, M ≤ 2 * P.K - 1 → ∃ n : ℤ, |n| ≤ (M * (γ * β * α) : ℕ) ∧
      rd.coeff (∑ k ∈ range M, rho k * x k) i = (n : ZMod p) := by
    intro M
    induction M with
    | zero => exact fun _ => ⟨0, by simp, by simp⟩
    | succ M ih =>
      intro hM
      obtain ⟨n, n1, n2⟩ := ih (by omega)
      obtain ⟨m, m1, m2⟩ := hterm M (by omega)
      refine ⟨n + m, (abs_add_le _ _).trans ?_, ?_⟩
      · push_cast at n1 m1 ⊢
        linarith
      · rw [sum_range_succ, map_add, Pi.add_apply, n2, m2]
        push_cast
        ring
  obtain ⟨n, n1, n2⟩ := hsum (2 * P.K - 1) le_rfl
  obtain ⟨m, m1, m2⟩ := hx (2 * P.K - 1) (by omega) i
  refine ⟨n + m, le_trans ?_ h, ?_⟩
  · have n1' : n.natAbs ≤ (2 * P.K - 1) * (γ * β * α) := by
      rw [Int.abs_eq_natAbs] at n1
      exact_mod_cast n1
    have h5 := Int.natAbs_add_le n m
    have h6 : P.bSmall * ((2 * P.K - 1) * (γ * β) + 1) = 2 * ((2 * P.K - 1) * (γ * β * α)) + 2 * α := by
      rw [hα]; ring
    omega
  · rw [show 2 * P.K = (2 * P.K - 1) + 1 by omega, sum_range_succ, map_add, Pi.add_apply, n2, h1, one_mul, m2]
    push_cast
    ring

/-- One challenge attains the bound with one sign `ε`. -/
structure Attains (rd : RingData (ZMod p) F C N τ) (cs : ChallengeSet C) (red : ℕ → ℕ → ℤ) (s γ β : ℕ) (ε : ℤ) where
  sign : ε = 1 ∨ ε = -1
  c : C
  mem : ∃ bs, bs.length = cs.bytesNeeded ∧ cs.decode bs = .ok c
  coeff : ∀ i : Fin (τ * N), rd.coeff c i = ((if (i : ℕ) < s then ε * β else 0 : ℤ) : ZMod p)
  pos : Fin (τ * N)
  sum : ∑ j ∈ range s, ∑ i ∈ range (τ * N), red (j + i) pos = γ

theorem not_short {V : ℕ} {B : ℕ} {ε : ℤ} (hε : ε = 1 ∨ ε = -1) (h1 : B < 2 * V) (h2 : 2 * V + B < 2 * p) :
    ¬ Short B ((ε * V : ℤ) : ZMod p) := by
  rintro ⟨n, h3, h4⟩
  rw [ZMod.intCast_eq_intCast_iff, Int.modEq_iff_dvd] at h4
  obtain ⟨t, ht⟩ := h4
  have ht0 : t = 0 := by
    by_contra h0
    have h5 : (p : ℤ) ≤ |n - ε * V| := by
      rw [ht, abs_mul, Nat.abs_cast]
      have : 1 ≤ |t| := Int.one_le_abs h0
      nlinarith
    have h6 : |n - ε * V| ≤ |n| + V := by
      refine (abs_sub _ _).trans ?_
      rcases hε with rfl | rfl <;> simp
    rw [Int.abs_eq_natAbs n] at h6
    omega
  rw [ht0, mul_zero] at ht
  rcases hε with rfl | rfl <;> omega

theorem not_normOK (rd : RingData (ZMod p) F C N τ) (P : Params) (cs : ChallengeSet C) {red : ℕ → ℕ → ℤ} {s γ β : ℕ}
    {ε : ℤ} (ht : Table rd red s γ) (hat : Attains rd cs red s γ β ε) (he : Even P.bSmall) (hK : 1 ≤ P.K)
    (h : reach P.bSmall P.K < P.bSmall * ((2 * P.K - 1) * (γ * β) + 1))
    (hp : P.bSmall * ((2 * P.K - 1) * (γ * β) + 1) + reach P.bSmall P.K < 2 * p) : ¬ NormOK rd P cs := by
  intro hN
  obtain ⟨α, hα⟩ := he
  set V := ((2 * P.K - 1) * (γ * β) + 1) * α with hV
  have hVb : P.bSmall * ((2 * P.K - 1) * (γ * β) + 1) = 2 * V := by rw [hV, hα]; ring
  rw [hVb] at h hp
  obtain ⟨w, hw⟩ : ∃ w : ℤ → C, ∀ z i, rd.coeff (w z) i = (z : ZMod p) :=
    ⟨fun z => rd.coeff.symm fun _ => (z : ZMod p), fun z i => by rw [LinearEquiv.apply_symm_apply]⟩
  have h1 := hN (fun k => if k < 2 * P.K - 1 then hat.c else 1) (fun k => if k < 2 * P.K - 1 then w α else w (ε * α))
    (by simp) (fun k hk => by simpa [hk] using hat.mem) (fun k _ i => by
      by_cases hk : k < 2 * P.K - 1
      · simp only [hk, if_true]
        exact ⟨α, by omega, hw _ _⟩
      · simp only [hk, if_false]
        refine ⟨ε * α, ?_, hw _ _⟩
        rcases hat.sign with h | h <;> rw [h] <;> omega) hat.pos
  refine not_short (p := p) hat.sign h hp ?_
  convert h1 using 1
  rw [show 2 * P.K = (2 * P.K - 1) + 1 by omega, sum_range_succ]
  simp only [Nat.add_sub_cancel, lt_irrefl, if_false, one_mul]
  have e1 : ∑ k ∈ range (2 * P.K - 1), (if k < 2 * P.K - 1 then hat.c else 1) * (if k < 2 * P.K - 1 then w α else w (ε * α))
      = (2 * P.K - 1 : ℕ) • (hat.c * w α) := by
    rw [sum_congr rfl fun k hk => by rw [if_pos (mem_range.1 hk), if_pos (mem_range.1 hk)], sum_const, card_range]
  rw [e1, map_add, Pi.add_apply, hw, map_nsmul, Pi.smul_apply,
    coeff_mul rd.coeff rd.X rd.coeff_X red s ht.le ht.pow hat.c (w α) (fun i => if i < s then ε * β else 0) (fun _ => α)
      hat.coeff (fun i hi _ => by simp only [if_neg (not_lt.2 hi)]) (fun i => hw _ i) hat.pos]
  have e2 : ∑ j ∈ range s, ∑ i ∈ range (τ * N), (if j < s then ε * (β : ℤ) else 0) * (α : ℤ) * red (j + i) hat.pos
      = ε * (γ * β * α : ℕ) := by
    have : ∀ j ∈ range s, ∑ i ∈ range (τ * N), (if j < s then ε * (β : ℤ) else 0) * (α : ℤ) * red (j + i) hat.pos
        = ε * β * α * ∑ i ∈ range (τ * N), red (j + i) hat.pos := by
      intro j hj
      rw [if_pos (mem_range.1 hj), mul_sum]
    rw [sum_congr rfl this, ← mul_sum, hat.sum]
    push_cast
    ring
  rw [e2, hV, nsmul_eq_mul]
  push_cast
  ring

end Verif.NormGrowth
