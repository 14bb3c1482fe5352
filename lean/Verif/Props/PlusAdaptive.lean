import Verif.Props.PlusRange

/-!
# Property theorems: the set check of `latticefold-plus` against sets chosen after the challenges (C69)
-/

set_option linter.unusedSectionVars false
set_option linter.unusedSimpArgs false

namespace Verif.Props

open Finset Spec Verif.Plus

variable {F R σ : Type} {d : Nat} [Field F] [DecidableEq F] [CommRing R] [DecidableEq R] [Algebra F R]

/-- The matrix with the entry `p` in the upper left corner. -/
def corner (n m : Nat) (p : R) : SpMat R := ⟨n, m, [(p, 0)] :: List.replicate (n - 1) []⟩

theorem corner_wf {n m : Nat} (hn : 1 ≤ n) (hm : 1 ≤ m) (p : R) : (corner n m p).WF := by
  refine ⟨by simp [corner]; omega, ?_⟩
  intro row hr t ht
  simp only [corner, List.mem_cons, List.mem_replicate] at hr
  rcases hr with rfl | ⟨-, rfl⟩
  · simp at ht
    subst ht
    exact hm
  · simp at ht

theorem corner_entry (n m : Nat) (p : R) (i j : Nat) : lastEntry (corner n m p) i j = if i = 0 ∧ j = 0 then p else 0 := by
  unfold lastEntry corner
  rcases i with _ | i
  · by_cases hj : j = 0
    · subst hj; simp
    · have : ¬ 0 = j := fun h => hj h.symm
      simp [hj, this]
  · have : (List.replicate (n - 1) ([] : List (R × Nat))).getD i [] = [] := by
      by_cases h : i < n - 1 <;> simp [List.getD_eq_getElem?_getD, h]
    simp [this]

/-- For every `beta` there is an element that is not a monomial and passes the test at `beta`. -/
theorem exists_nonmonomial (pr : PlusRing F R d) (hd : 3 ≤ d) (beta : F) :
    ∃ p : R, ¬ IsMonomial pr p ∧ EvSq pr beta p ∧ pr.coeff p ≠ 0 := by
  have key : ∀ (a : F) (k : Nat) (hk : 0 < k) (hkd : k < d), a ≠ 0 → a = 1 - 2 * beta ^ k →
      ∃ p : R, ¬ IsMonomial pr p ∧ EvSq pr beta p ∧ pr.coeff p ≠ 0 := by
    intro a k hk hkd ha hak
    have hcoeff : ∀ i : Fin d, pr.coeff (a • pr.X ^ 0 + pr.X ^ k) i = (if (i : Nat) = 0 then a else 0) + if (i : Nat) = k then 1 else 0 := by
      intro i
      have e0 := pr.coeff_X ⟨0, by omega⟩
      have ek := pr.coeff_X ⟨k, hkd⟩
      simp only at e0 ek
      rw [map_add, map_smul, e0, ek]
      simp only [Pi.add_apply, Pi.smul_apply, Pi.single_apply, Fin.ext_iff, smul_eq_mul, mul_ite, mul_one, mul_zero]
    have hev : ∀ x : F, ev pr (a • pr.X ^ 0 + pr.X ^ k) x = a + x ^ k := by
      intro x
      have e0 := ev_pow pr ⟨0, by omega⟩ x
      have ek := ev_pow pr ⟨k, hkd⟩ x
      simp only at e0 ek
      have : ev pr (a • pr.X ^ 0 + pr.X ^ k) x = evLin pr x (a • pr.X ^ 0 + pr.X ^ k) := rfl
      rw [this, map_add, map_smul]
      change a • ev pr (pr.X ^ 0) x + ev pr (pr.X ^ k) x = _
      rw [e0, ek]
      simp
    refine ⟨a • pr.X ^ 0 + pr.X ^ k, ?_, ?_, ?_⟩
    · rintro (h | ⟨i, h⟩)
      · have := hcoeff ⟨0, by omega⟩
        rw [h] at this
        simp [(show ¬ 0 = k by omega)] at this
        exact ha this.symm
      · have e := pr.coeff_X i
        rw [← h] at e
        have h0 := hcoeff ⟨0, by omega⟩
        have hk' := hcoeff ⟨k, hkd⟩
        rw [e] at h0 hk'
        simp only [Pi.single_apply, Fin.ext_iff] at h0 hk'
        by_cases hi : (i : Nat) = 0
        · simp [hi, (show ¬ k = 0 by omega)] at hk'
        · simp [(show ¬ 0 = (i : Nat) by omega), (show ¬ 0 = k by omega)] at h0
          exact ha h0.symm
    · unfold EvSq
      rw [hev, hev, hak, mul_pow]
      ring
    · intro h
      have := hcoeff ⟨0, by omega⟩
      rw [h] at this
      simp [(show ¬ 0 = k by omega)] at this
      exact ha this.symm
  by_cases hb : (1 : F) - 2 * beta = 0
  · refine key (1 - 2 * beta ^ 2) 2 (by omega) (by omega) ?_ rfl
    intro h
    have e1 : (2 : F) * beta = 1 := by linear_combination -hb
    have e2 : (2 : F) * beta ^ 2 = 1 := by linear_combination -h
    have e3 : beta = 1 := by linear_combination e2 - beta * e1
    rw [e3] at e1
    have : (1 : F) = 0 := by linear_combination e1
    exact one_ne_zero this
  · exact key (1 - 2 * beta) 1 (by omega) (by omega) hb (by ring)

/-- **C69** is false: the challenges of the set check are drawn before anything that depends on the sets is absorbed, so a prover can
choose the sets after them. For every transcript and every state there is a matrix with an entry that is not a monomial for which the set check,
run exactly as in the code, is accepted. -/
theorem C69_adaptive_sets (pr : PlusRing F R d) (T : Transcript F R σ) (s : σ) (hd : 3 ≤ d) (hc : CharGt F 3) (n m : Nat) (hn : 2 ≤ n) (hm : 1 ≤ m)
    (M : List (SpMat R)) (hM : ∀ Mi ∈ M, Mi.WF ∧ Mi.ncols = n ∧ Mi.nrows ≤ 2 ^ Nat.clog 2 n) :
    ∃ (A : SpMat R) (out : SetOut F R) (s' : σ), A.WF ∧ A.nrows = n ∧ A.ncols = m ∧ ¬ IsMonomial pr (lastEntry A 0 0) ∧
      setCheck pr T s (Nat.clog 2 n) [.matrix A] M = .ok (out, s') ∧ setVerify pr T s out = .ok s' ∧
      out.e[0]? = some (columnEvals m [.matrix A] out.r) := by
  obtain ⟨p, h1, h3, -⟩ := exists_nonmonomial pr hd ((drawAll T (Nat.clog 2 n) 1 0 s).1.1.getD 0 noCba).2.1
  obtain ⟨out, s', g1, g2, -, -, g3, -⟩ := setCheck_accepted pr T s (Nat.clog 2 n) n m [.matrix (corner n m p)] M
    ⟨rfl, Nat.clog_pos (by omega) hn, by
      intro A hA
      simp only [List.mem_cons, MonomialSet.matrix.injEq, List.not_mem_nil, or_false] at hA
      subst hA
      exact ⟨corner_wf (by omega) hm p, rfl, rfl⟩, by simp, hM⟩ hc (by right; exact ⟨rfl, rfl⟩) (by
      intro l hl i j _
      obtain rfl : l = 0 := by simpa [matSets] using hl
      change EvSq pr _ (lastEntry (corner n m p) i j)
      rw [corner_entry]
      split
      · exact h3
      · exact evSq_monomial (.inl rfl) _) (by
      intro l hl
      simp [vecSets] at hl)
  refine ⟨corner n m p, out, s', corner_wf (by omega) hm p, rfl, rfl, by rw [corner_entry]; simpa using h1, g1, g2, ?_⟩
  rw [g3]
  unfold columnEvals setE
  simp only [List.getElem?_cons_zero, Option.some.injEq]
  apply List.map_congr_left
  intro A _
  apply List.map_congr_left
  intro j _
  congr 1
  funext i
  unfold colL
  by_cases hi : i < A.nrows
  · rw [getD_map_range _ _ hi, if_pos hi]
  · rw [if_neg hi, List.getD_eq_getElem?_getD]
    simp [hi]

example (T : Transcript (ZMod 17) Example.R17 σ) (s : σ) : ∃ (A : SpMat Example.R17) (out : SetOut (ZMod 17) Example.R17) (s' : σ),
    A.nrows = 4 ∧ A.ncols = 3 ∧ ¬ IsMonomial Example.plus17 (lastEntry A 0 0) ∧
    setCheck Example.plus17 T s 2 [.matrix A] [] = .ok (out, s') ∧ setVerify Example.plus17 T s out = .ok s' := by
  obtain ⟨A, out, s', -, h1, h2, h3, h4, h5, -⟩ := C69_adaptive_sets Example.plus17 T s (by decide) charGt17 4 3 (by decide) (by decide) [] (by simp)
  exact ⟨A, out, s', h1, h2, h3, h4, h5⟩

end Verif.Props
