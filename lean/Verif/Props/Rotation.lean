import Verif.Lemmas.Rotation
import Verif.Lemmas.Decomposition
import Verif.Props.ExampleData

/-!
# Property theorems for `rotation.rs`: C42, C43
-/

set_option linter.unusedSectionVars false
set_option linter.unusedSimpArgs false

namespace Verif.Props

open Finset Verif Verif.Spec

variable {Fp F C : Type} {N τ : Nat} [Field Fp] [Field F] [DecidableEq F] [Algebra Fp F] [CommRing C]
  [Algebra Fp C]

/-! ## C42 -/

/-- **C42** (formula). `rot_sum(a, b)` succeeds exactly for `τ * N` scalars, and coefficient `m` of its
result is `∑_i b_i * coeff_m(X^i a)`. -/
theorem C42_rot_sum_formula (rd : RingData Fp F C N τ) (a : C) (b r : List F) :
    rotSum rd a b = .ok r ↔ b.length = τ * N ∧ r.length = τ * N ∧ ∀ m : Fin (τ * N),
      r.getD m 0 = ∑ i ∈ range (τ * N), b.getD i 0 * algebraMap Fp F (rd.coeff (rd.X ^ i * a) m) := by
  constructor
  · intro h
    by_cases hb : b.length = τ * N
    · rw [rotSum_ok rd a b hb] at h
      injection h with h
      subst h
      refine ⟨hb, by simp, fun m => ?_⟩
      rw [getD_map_range _ _ m.2]
      unfold rotVal
      apply sum_congr rfl
      intro i _
      rw [cf_eq rd _ m.2]
    · unfold rotSum at h
      rw [if_pos hb] at h
      exact absurd h (by simp)
  · rintro ⟨hb, hr, h⟩
    rw [rotSum_ok rd a b hb]
    congr 1
    apply ext_getD (by simp) hr
    intro m hm
    rw [getD_map_range _ _ hm, h ⟨m, hm⟩]
    unfold rotVal
    apply sum_congr rfl
    intro i _
    rw [cf_eq rd _ hm]

/-- **C42** (abort). With any other number of scalars it aborts. -/
theorem C42_rot_sum_panic (rd : RingData Fp F C N τ) (a : C) (b : List F) (h : b.length ≠ τ * N) :
    (rotSum rd a b).isPanic = true := by
  unfold rotSum
  rw [if_pos h]
  rfl

/-- **C42** (Lemma 2.1). Applied to the coefficients of `c`, `rot_sum(a, ·)` yields the coefficients of
the ring product `a * c`. -/
theorem C42_rot_sum_mul (rd : RingData Fp F C N τ) (a c : C) :
    rotSum rd a ((List.ofFn (rd.coeff c)).map (algebraMap Fp F))
      = .ok ((List.ofFn (rd.coeff (a * c))).map (algebraMap Fp F)) := by
  have hb : ((coeffsList rd c).map (algebraMap Fp F)).length = τ * N := by simp [coeffsList]
  change rotSum rd a ((coeffsList rd c).map _) = .ok ((coeffsList rd (a * c)).map _)
  rw [rotSum_ok rd a _ hb]
  congr 1
  apply ext_getD (by simp) (n := τ * N) (by simp [coeffsList])
  intro m hm
  rw [getD_map_range _ _ hm, coeffsList_getD, cf_mul rd a c hm]
  unfold rotVal
  simp only [coeffsList_getD]

/-- **C42** (linear extension). `rot_sum(a, ·)` commutes with every `F`-linear combination of coefficient
vectors: `b = ∑_k w_k coeff(c_k)` is sent to `∑_k w_k coeff(a c_k)`. -/
theorem C42_rot_sum_linear (rd : RingData Fp F C N τ) (a : C) (n : Nat) (w : Nat → F) (c : Nat → C) :
    rotSum rd a (List.ofFn fun i => ∑ k ∈ range n, w k * algebraMap Fp F (rd.coeff (c k) i))
      = .ok (List.ofFn fun i => ∑ k ∈ range n, w k * algebraMap Fp F (rd.coeff (a * c k) i)) := by
  rw [rotSum_ok rd a _ (by simp)]
  congr 1
  apply ext_getD (by simp) (n := τ * N) (by simp)
  intro m hm
  have e : (fun i => (List.ofFn fun i : Fin (τ * N) => ∑ k ∈ range n, w k
      * algebraMap Fp F (rd.coeff (c k) i)).getD i 0) = fun i => ∑ k ∈ range n, w k * cf rd (c k) i := by
    funext i
    rw [List.getD_eq_getElem?_getD, List.getElem?_ofFn]
    by_cases hi : i < τ * N
    · simp [hi, cf]
    · simp [hi, cf]
  rw [getD_map_range _ _ hm, e, rotVal_comb rd a _ _ _ hm, List.getD_eq_getElem?_getD,
    List.getElem?_ofFn, dif_pos hm, Option.getD_some]
  apply sum_congr rfl
  intro k _
  rw [cf_eq rd _ hm]

/-- `(1 + 2X)(3 + X) = 1 + 2X` in `F_5[X]/(X^2+1)`. -/
example : rotSum Example.ring5 (Example.coeff5.symm ![1, 2]) [3, 1] = .ok [1, 2] := by decide +kernel
example : rotSum Example.ring5 (Example.coeff5.symm ![1, 2]) [3] ≠ .ok [1, 2] := by decide +kernel

/-! ## C43 -/

theorem rotLinStep_ok_len (rd : RingData Fp F C N τ) {l : List (C × List (Fin N → F))} {res r : List F}
    (h : foldRes (rotLinStep rd) res l = .ok r) : ∀ p ∈ l, p.2.length = τ := by
  induction l generalizing res with
  | nil => simp
  | cons p l ih =>
    unfold foldRes at h
    intro q hq
    rcases h1 : rotLinStep rd res p with e | r1
    · rw [h1] at h; exact absurd h (by simp)
    · rw [h1] at h
      rcases List.mem_cons.1 hq with rfl | hq
      · unfold rotLinStep at h1
        by_contra hne
        have : rotSum rd q.1 (flattenCoeffs q.2) = .error (.panic "assert_eq!(b.len(), dimension)") := by
          unfold rotSum
          rw [if_pos]
          rw [flattenCoeffs_length]
          intro he
          exact hne (Nat.eq_of_mul_eq_mul_right rd.npos he)
        rw [this] at h1
        exact absurd h1 (by simp)
      · exact ih h q hq

theorem rotLinStep_err (rd : RingData Fp F C N τ) {l : List (C × List (Fin N → F))} {res : List F} {e : Err}
    (h : foldRes (rotLinStep rd) res l = .error e) : ∃ s, e = .panic s := by
  induction l generalizing res with
  | nil => exact absurd h (by simp [foldRes])
  | cons p l ih =>
    unfold foldRes at h
    rcases h1 : rotLinStep rd res p with e' | r1
    · rw [h1] at h
      injection h with h
      subst h
      unfold rotLinStep rotSum addIndexed at h1
      split at h1
      · injection h1 with h1; exact ⟨_, h1.symm⟩
      · simp only [bind_ok'] at h1
        split at h1
        · exact absurd h1 (by simp)
        · injection h1 with h1; exact ⟨_, h1.symm⟩
    · rw [h1] at h
      exact ih h

/-- **C43** (when defined). `rot_lin_combination` returns a value exactly when there are as many vectors as
challenges, at least one, and every vector has `τ` elements; otherwise it aborts. -/
theorem C43_defined_iff (rd : RingData Fp F C N τ) (rhos : List C) (thetas : List (List (Fin N → F))) :
    ((∃ v, rotLinComb rd rhos thetas = .ok v) ↔
      rhos.length = thetas.length ∧ thetas ≠ [] ∧ ∀ t ∈ thetas, t.length = τ) ∧
    (¬ (∃ v, rotLinComb rd rhos thetas = .ok v) → (rotLinComb rd rhos thetas).isPanic = true) := by
  constructor
  · constructor
    · rintro ⟨v, h⟩
      unfold rotLinComb at h
      split at h
      · exact absurd h (by simp)
      next hl =>
        have hl' : rhos.length = thetas.length := by simpa using hl
        cases thetas with
        | nil => exact absurd h (by simp)
        | cons t0 ts =>
          refine ⟨hl', by simp, ?_⟩
          simp only at h
          rcases hf : foldRes (rotLinStep rd) (flattenCoeffs (List.replicate t0.length (0 : Fin N → F)))
            (rhos.zip (t0 :: ts)) with e | r
          · rw [hf] at h; exact absurd h (by simp)
          · have := rotLinStep_ok_len rd hf
            intro t ht
            obtain ⟨i, hi, rfl⟩ := List.getElem_of_mem ht
            have hi2 : i < rhos.length := by omega
            have hz : (rhos[i], (t0 :: ts)[i]) ∈ rhos.zip (t0 :: ts) := by
              rw [List.mem_iff_getElem]
              exact ⟨i, by simp at hi ⊢; omega, by simp⟩
            exact this _ hz
    · rintro ⟨h1, h2, h3⟩
      exact ⟨_, rotLinComb_ok rd rhos thetas h1 h2 h3⟩
  · intro h
    rcases hr : rotLinComb rd rhos thetas with e | v
    · unfold rotLinComb at hr
      split at hr
      · injection hr with hr; subst hr; rfl
      · cases thetas with
        | nil => injection hr with hr; subst hr; rfl
        | cons t0 ts =>
          simp only at hr
          rcases hf : foldRes (rotLinStep rd) (flattenCoeffs (List.replicate t0.length (0 : Fin N → F)))
            (rhos.zip (t0 :: ts)) with e' | r
          · rw [hf] at hr
            injection hr with hr
            subst hr
            obtain ⟨s, rfl⟩ := rotLinStep_err rd hf
            rfl
          · rw [hf] at hr
            simp only [bind_ok'] at hr
            split at hr
            · exact absurd hr (by simp)
            · injection hr with hr; subst hr; rfl
    · exact absurd ⟨v, hr⟩ h

/-- **C43** (folded evaluations). Let `theta_i` be the evaluations, at a point with constant coordinates, of
the coefficient tables of the vector `f_i` of ring elements. Then `rot_lin_combination` computes the
evaluations of the coefficient tables of `∑_i rho_i f_i`. -/
theorem C43_folds_evaluations (rd : RingData Fp F C N τ) (n K : Nat) (hK : 1 ≤ K) (rho : Nat → C)
    (fs : Nat → List C) (f : List C) (hlen : ∀ k < K, (fs k).length = n) (hf : f.length = n)
    (hcomb : ∀ i < n, f.getD i 0 = ∑ k ∈ range K, rho k * (fs k).getD i 0) (p : List F) :
    rotLinComb rd ((List.range K).map rho)
        ((List.range K).map fun k => (List.range τ).map fun j =>
          mle (fun i a => if h : j * N + a < τ * N then
            algebraMap Fp F (rd.coeff ((fs k).getD i 0) ⟨j * N + a, h⟩) else 0)
            (p.map (algebraMap F (Fin N → F))))
      = .ok ((List.range τ).map fun j =>
          mle (fun i a => if h : j * N + a < τ * N then
            algebraMap Fp F (rd.coeff (f.getD i 0) ⟨j * N + a, h⟩) else 0)
            (p.map (algebraMap F (Fin N → F)))) := by
  change rotLinComb rd _ ((List.range K).map fun k => (List.range τ).map
    (vEval rd (fs k) (p.map (algebraMap F (Fin N → F))))) = .ok ((List.range τ).map
    (vEval rd f (p.map (algebraMap F (Fin N → F)))))
  exact rotLinComb_vEval rd hK rho fs f ⟨hf, hlen, hcomb⟩ p

/-- Two vectors of one element each over `F_5[X]/(X^2+1)`, no variables: `f_0 = 3 + X`, `f_1 = X`,
challenges `1 + 2X` and `2`: `∑ rho_i f_i = (1 + 2X) + 2X = 1 + 4X`. -/
example : (rotLinComb Example.ring5 [Example.coeff5.symm ![1, 2], Example.coeff5.symm ![2, 0]]
    [[![3, 1]], [![0, 1]]] |>.map (·.map List.ofFn)) = .ok [[1, 4]] := by decide +kernel

/-- A vector of the wrong length aborts. -/
example : (rotLinComb Example.ring5 [Example.coeff5.symm ![1, 2], 1] [[![3, 1]], []]).isPanic = true := by
  decide +kernel

end Verif.Props
