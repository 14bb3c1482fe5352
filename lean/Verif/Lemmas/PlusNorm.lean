import Verif.Spec.PlusNorm
import Verif.Lemmas.PlusFromF
import Mathlib.Tactic.Linarith
import Mathlib.Tactic.Ring

/-!
# Lemmas on norms
-/

set_option linter.unusedSectionVars false
set_option linter.unusedSimpArgs false

namespace Verif.Plus

open Finset Verif Verif.Spec

variable {F R σ : Type} {d : Nat}
variable [Field F] [CommRing R] [Algebra F R]

theorem absLe_mono {N N' : Nat} {a : F} (h : AbsLe N a) (hN : N ≤ N') : AbsLe N' a := by
  obtain ⟨n, h1, h2⟩ := h
  exact ⟨n, by omega, h2⟩

theorem absLe_zero (N : Nat) : AbsLe N (0 : F) := ⟨0, by simp, by simp⟩

theorem absLe_neg {N : Nat} {a : F} (h : AbsLe N a) : AbsLe N (-a) := by
  obtain ⟨n, h1, rfl⟩ := h
  exact ⟨-n, by omega, by push_cast; rfl⟩

theorem absLe_add {N N' : Nat} {a b : F} (h : AbsLe N a) (h' : AbsLe N' b) : AbsLe (N + N') (a + b) := by
  obtain ⟨n, h1, rfl⟩ := h
  obtain ⟨m, h2, rfl⟩ := h'
  exact ⟨n + m, by omega, by push_cast; rfl⟩

theorem absLe_mul {N N' : Nat} {a b : F} (h : AbsLe N a) (h' : AbsLe N' b) : AbsLe (N * N') (a * b) := by
  obtain ⟨n, h1, rfl⟩ := h
  obtain ⟨m, h2, rfl⟩ := h'
  exact ⟨n * m, by rw [Int.natAbs_mul]; exact Nat.mul_le_mul h1 h2, by push_cast; rfl⟩

theorem absLe_sum {ι : Type} (s : Finset ι) (f : ι → F) (N : Nat) (h : ∀ i ∈ s, AbsLe N (f i)) : AbsLe (s.card * N) (∑ i ∈ s, f i) := by
  classical
  induction s using Finset.induction_on with
  | empty => simpa using absLe_zero 0
  | insert a s ha ih =>
    rw [sum_insert ha, card_insert_of_notMem ha, add_mul, one_mul, add_comm]
    rw [add_comm (f a)]
    rw [add_comm N]
    exact absLe_add (ih fun i hi => h i (mem_insert_of_mem hi)) (h a (mem_insert_self _ _))

theorem absLe_of_short {b : Nat} {a : F} (h : Short b a) : AbsLe (b / 2) a := by
  obtain ⟨n, h1, h2⟩ := h
  exact ⟨n, by omega, h2⟩

theorem short_of_absLe {N b : Nat} {a : F} (h : AbsLe N a) (hb : 2 * N ≤ b) : Short b a := by
  obtain ⟨n, h1, h2⟩ := h
  exact ⟨n, by omega, h2⟩

theorem normLe_zero (pr : PlusRing F R d) (N : Nat) : NormLe pr N (0 : R) := fun i => by
  rw [map_zero]
  exact absLe_zero N

theorem normLe_mono {pr : PlusRing F R d} {N N' : Nat} {x : R} (h : NormLe pr N x) (hN : N ≤ N') : NormLe pr N' x :=
  fun i => absLe_mono (h i) hN

theorem normLe_add {pr : PlusRing F R d} {N N' : Nat} {x y : R} (h : NormLe pr N x) (h' : NormLe pr N' y) : NormLe pr (N + N') (x + y) := by
  intro i
  rw [map_add]
  exact absLe_add (h i) (h' i)

theorem normLe_sum {pr : PlusRing F R d} {ι : Type} (s : Finset ι) (f : ι → R) (N : Nat) (h : ∀ i ∈ s, NormLe pr N (f i)) :
    NormLe pr (s.card * N) (∑ i ∈ s, f i) := by
  intro i
  rw [map_sum, Finset.sum_apply]
  exact absLe_sum s _ N fun j hj => h j hj i

theorem normLe_listSum {pr : PlusRing F R d} (l : List R) (N : Nat) (h : ∀ x ∈ l, NormLe pr N x) : NormLe pr (l.length * N) l.sum := by
  induction l with
  | nil => simpa using normLe_zero pr 0
  | cons a l ih =>
    rw [List.sum_cons, List.length_cons, add_mul, one_mul, add_comm]
    exact normLe_add (h a (by simp)) (ih fun x hx => h x (by simp [hx]))

theorem normLe_smul {pr : PlusRing F R d} {N N' : Nat} {a : F} {x : R} (h : AbsLe N a) (h' : NormLe pr N' x) :
    NormLe pr (N * N') (algebraMap F R a * x) := by
  intro i
  rw [← Algebra.smul_def, map_smul, Pi.smul_apply, smul_eq_mul]
  exact absLe_mul h (h' i)

/-- Multiplication by a monomial or zero. -/
theorem normLe_mono_mul {pr : PlusRing F R d} {γ N : Nat} (hγ : Expands pr γ) {m x : R} (hm : IsMonomial pr m) (h : NormLe pr N x) :
    NormLe pr (γ * N) (m * x) := by
  rcases hm with rfl | ⟨i, rfl⟩
  · rw [zero_mul]
    exact normLe_zero pr _
  · exact hγ N x h i

theorem normLe_mul {pr : PlusRing F R d} {γ N N' : Nat} (hγ : Expands pr γ) {x y : R} (h : NormLe pr N x) (h' : NormLe pr N' y) :
    NormLe pr (d * (N * (γ * N'))) (x * y) := by
  rw [← sum_coeff pr x, sum_mul]
  have := normLe_sum (pr := pr) (range d) (fun e => pr.X ^ e * algebraMap F R ((pr.coeffs x).getD e 0) * y) (N * (γ * N')) (by
    intro e he
    have he' := mem_range.1 he
    rw [coeffs_getD pr x e he', show pr.X ^ e * algebraMap F R (pr.coeff x ⟨e, he'⟩) * y
      = algebraMap F R (pr.coeff x ⟨e, he'⟩) * (pr.X ^ e * y) by ring]
    exact normLe_smul (h ⟨e, he'⟩) (hγ _ _ h' ⟨e, he'⟩))
  rwa [card_range] at this

/-- In the ring with `X ^ d = -1` multiplication by a monomial keeps the norm. -/
theorem expands_of_negacyclic (pr : PlusRing F R d) (h : pr.X ^ d = -1) : Expands pr 1 := by
  have hd := pr.dpos
  have step : ∀ N x, NormLe pr N x → NormLe pr N (pr.X * x) := by
    intro N x hx i
    have e1 : pr.coeff (pr.X * x) i = ∑ e ∈ range d, (pr.coeffs x).getD e 0 * pr.coeff (pr.X ^ (e + 1)) i := by
      conv_lhs => rw [← sum_coeff pr x, mul_sum, map_sum, Finset.sum_apply]
      apply sum_congr rfl
      intro e _
      rw [show pr.X * (pr.X ^ e * algebraMap F R ((pr.coeffs x).getD e 0)) = algebraMap F R ((pr.coeffs x).getD e 0) * pr.X ^ (e + 1) by
        ring, ← Algebra.smul_def, map_smul, Pi.smul_apply, smul_eq_mul]
    rw [e1]
    have hlast : pr.X ^ (d - 1 + 1) = -(pr.X ^ ((⟨0, hd⟩ : Fin d) : Nat)) := by
      rw [Nat.sub_add_cancel hd, h, pow_zero]
    obtain ⟨i, hi⟩ := i
    rcases i with _ | i
    · rw [sum_eq_single (d - 1)]
      · rw [hlast, map_neg, Pi.neg_apply, pr.coeff_X, Pi.single_eq_same, mul_neg, mul_one, coeffs_getD pr x (d - 1) (by omega)]
        exact absLe_neg (hx _)
      · intro e he hne
        have he' := mem_range.1 he
        have hlt : e + 1 < d := by omega
        have := pr.coeff_X ⟨e + 1, hlt⟩
        simp only at this
        rw [this, Pi.single_eq_of_ne (by simp [Fin.ext_iff]), mul_zero]
      · intro hn
        exact absurd (mem_range.2 (by omega)) hn
    · rw [sum_eq_single i]
      · have := pr.coeff_X ⟨i + 1, hi⟩
        simp only at this
        rw [this, Pi.single_eq_same, mul_one, coeffs_getD pr x i (by omega)]
        exact hx _
      · intro e he hne
        have he' := mem_range.1 he
        by_cases hlt : e + 1 < d
        · have := pr.coeff_X ⟨e + 1, hlt⟩
          simp only at this
          rw [this, Pi.single_eq_of_ne (by simp [Fin.ext_iff]; omega), mul_zero]
        · rw [show e = d - 1 by omega, hlast, map_neg, Pi.neg_apply, pr.coeff_X, Pi.single_eq_of_ne (by simp [Fin.ext_iff]), neg_zero, mul_zero]
      · intro hn
        exact absurd (mem_range.2 (by omega)) hn
  intro N x hx i
  obtain ⟨i, hi⟩ := i
  simp only
  clear hi
  induction i with
  | zero => rwa [pow_zero, one_mul, one_mul]
  | succ n ih =>
    rw [pow_succ', mul_assoc, one_mul]
    rw [one_mul] at ih
    exact step _ _ ih

theorem normLe_challenge {pr : PlusRing F R d} {x : R} (h : ShortChallenge pr x) : NormLe pr (2 ^ (128 / d) / 2) x := by
  intro i
  obtain ⟨n, h1, h2, h3⟩ := h i
  refine ⟨n, ?_, h3⟩
  have hu : 2 ^ (128 / d) = 1 ∨ 2 ^ (128 / d) = 2 * (2 ^ (128 / d) / 2) := by
    rcases Nat.eq_zero_or_pos (128 / d) with h0 | h0
    · left
      rw [h0, pow_zero]
    · right
      obtain ⟨k, hk⟩ : ∃ k, 128 / d = k + 1 := ⟨128 / d - 1, by omega⟩
      rw [hk, pow_succ]
      omega
  generalize 2 ^ (128 / d) = u at *
  omega

theorem normLe_folded {pr : PlusRing F R d} {γ Nf Nt k : Nat} (hγ : Expands pr γ) {s0 s1 s2 : R} {sp : List (List R)}
    (hs : ShortChallenges pr s0 s1 s2 sp) {inst : RgInstance F R} {x : Nat} (ht : AbsLe Nt (inst.tau.getD x 0))
    (hm : IsMonomial pr (inst.mTau.getD x 0)) (hf : NormLe pr Nf (inst.f.getD x 0)) (hk : inst.Mf.length = k)
    (hM : ∀ D ∈ inst.Mf, ∀ i j, IsMonomial pr (matEntry D i j)) :
    NormLe pr (2 ^ (128 / d) / 2 * (Nt + γ + d * (γ * Nf) + k * (d * γ))) (foldedEntry d s0 s1 s2 sp inst x) := by
  obtain ⟨h0, h1, h2, h3⟩ := hs
  set U := 2 ^ (128 / d) / 2 with hU
  have a0 := normLe_smul ht (normLe_challenge h0)
  have a1 := normLe_mono_mul hγ hm (normLe_challenge h1)
  have a2 := normLe_mul hγ (normLe_challenge h2) hf
  have a3 : NormLe pr (k * (d * (γ * U))) (∑ κ ∈ range inst.Mf.length, ∑ j ∈ range d, matEntry (digitMat inst κ) x j * (sp.getD κ []).getD j 0) := by
    have := normLe_sum (pr := pr) (range inst.Mf.length)
      (fun κ => ∑ j ∈ range d, matEntry (digitMat inst κ) x j * (sp.getD κ []).getD j 0) (d * (γ * U)) (by
        intro κ hκ
        have := normLe_sum (pr := pr) (range d) (fun j => matEntry (digitMat inst κ) x j * (sp.getD κ []).getD j 0) (γ * U) (by
          intro j _
          apply normLe_mono_mul hγ
          · have hκ' := mem_range.1 hκ
            unfold digitMat
            rw [List.getD_eq_getElem?_getD, List.getElem?_eq_getElem hκ', Option.getD_some]
            exact hM _ (List.getElem_mem hκ') _ _
          · by_cases hr : κ < sp.length
            · by_cases hj : j < (sp.getD κ []).length
              · have e : sp.getD κ [] = sp[κ] := by simp [List.getD_eq_getElem?_getD, hr]
                rw [e] at hj ⊢
                rw [List.getD_eq_getElem?_getD, List.getElem?_eq_getElem hj, Option.getD_some]
                exact normLe_challenge (h3 _ (List.getElem_mem hr) _ (List.getElem_mem hj))
              · rw [getD_out _ (by omega)]
                exact normLe_zero pr _
            · rw [show sp.getD κ [] = [] by simp [List.getD_eq_getElem?_getD, Nat.not_lt.1 hr], List.getD_nil]
              exact normLe_zero pr _)
        rwa [card_range] at this)
    rw [card_range, hk] at this
    rwa [hk]
  unfold foldedEntry
  refine normLe_mono (normLe_add (normLe_add (normLe_add ?_ ?_) a2) a3) (N := Nt * U + γ * U + d * (U * (γ * Nf)) + k * (d * (γ * U))) ?_
  · rw [mul_comm s0]
    exact a0
  · rw [mul_comm s1]
    exact a1
  · apply le_of_eq
    ring

end Verif.Plus
