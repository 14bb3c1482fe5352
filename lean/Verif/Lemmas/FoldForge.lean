import Verif.Lemmas.ExtractRun
import Verif.Lemmas.FoldingComplete
import Verif.Props.Folding

/-!
# Entries of a folding proof that only the final check reads
-/

set_option linter.unusedSectionVars false
set_option linter.unusedSimpArgs false

namespace Verif

open Finset Spec Props

section Surplus
variable {R : Type} [CommRing R]

theorem zipAssign_append_right {α β : Type} (f : α → β → α) (a : List α) (b c : List β) (h : a.length ≤ b.length) :
    zipAssign f a (b ++ c) = zipAssign f a b := by
  induction a generalizing b with
  | nil => cases b <;> cases c <;> rfl
  | cons x a ih =>
    cases b with
    | nil => simp at h
    | cons y b => simp [zipAssign, ih b (by simpa using h)]

theorem foldl_zipAssign_surplus {α β ι : Type} (f : α → β → α) (l : List ι) (b c : ι → List β) (a : List α)
    (h : ∀ k ∈ l, a.length ≤ (b k).length) :
    (l.map fun k => b k ++ c k).foldl (zipAssign f) a = (l.map b).foldl (zipAssign f) a := by
  induction l generalizing a with
  | nil => rfl
  | cons k l ih =>
    simp only [List.map_cons, List.foldl_cons]
    rw [zipAssign_append_right f a _ _ (h k (by simp))]
    exact ih _ fun j hj => by rw [zipAssign_length]; exact h j (by simp [hj])

theorem powComb_append (a : R) (l : List R) (x : R) : powComb a (l ++ [x]) = powComb a l + a ^ (l.length + 1) * x := by
  unfold powComb
  rw [List.length_append, List.length_singleton, sum_range_succ]
  congr 1
  · apply sum_congr rfl
    intro j hj
    have := mem_range.1 hj
    rw [List.getD_append _ _ _ _ this]
  · rw [List.getD_append_right _ _ _ _ le_rfl]
    simp

end Surplus

variable {Fp F C : Type} {N τ : Nat} [Field Fp] [Field F] [DecidableEq F] [Algebra Fp F] [CommRing C]
  [Algebra Fp C]

theorem computeFolded_surplus (rd : RingData Fp F C N τ) (rhoC : List C) (K2 : Nat) (rho : Nat → Fin N → F)
    (theta : List (List (Fin N → F))) (cms : List (LCCCS (Fin N → F))) (et sp : Nat → List (Fin N → F))
    (ccs : CCS (Fin N → F)) (h : ∀ k < K2, ccs.t ≤ (et k).length) :
    computeFolded rd rhoC ((List.range K2).map rho) theta cms ((List.range K2).map fun k => et k ++ sp k) ccs
      = computeFolded rd rhoC ((List.range K2).map rho) theta cms ((List.range K2).map et) ccs := by
  unfold computeFolded
  rw [zipWith_map_self, zipWith_map_self]
  simp only [List.map_append]
  rw [foldl_zipAssign_surplus]
  intro k hk
  rw [List.length_replicate, List.length_map]
  exact h k (List.mem_range.1 hk)

theorem computeFolded_defined (rd : RingData Fp F C N τ) (rhoC : List C) (rho : List (Fin N → F))
    (theta : List (List (Fin N → F))) (cms : List (LCCCS (Fin N → F))) (eta : List (List (Fin N → F)))
    (ccs : CCS (Fin N → F)) (r : List (Fin N → F)) (h1 : rhoC.length = theta.length) (h2 : theta ≠ [])
    (h3 : ∀ t ∈ theta, t.length = τ) :
    ∃ out st, computeFolded rd rhoC rho theta cms eta ccs = .ok out ∧ foldOutput r out = .ok st := by
  obtain ⟨v0, hv⟩ := ((C43_defined_iff rd rhoC theta).1).2 ⟨h1, h2, h3⟩
  have key : ∀ (l : List (List (Fin N → F))) (a : List (Fin N → F)), a ≠ [] → l.foldl (zipAssign (· + ·)) a ≠ [] := by
    intro l
    induction l with
    | nil => exact fun a h => h
    | cons b l ih =>
      intro a h
      apply ih
      intro h'
      have := congrArg List.length h'
      rw [zipAssign_length] at this
      exact h (List.length_eq_zero_iff.1 this)
  unfold computeFolded
  rw [hv]
  simp only [bind_ok']
  exact ⟨_, _, rfl, foldOutput_ok r _ _ _ _ (key _ _ (by simp))⟩

end Verif
