import Verif.Lemmas.Count
import Verif.Lemmas.SumcheckSound

/-! Counting tapes of challenges for protocols ending in a sum-check. -/

set_option linter.unusedSectionVars false
set_option linter.unusedSimpArgs false

namespace Verif

open Finset Spec Polynomial

section
variable {R : Type} [CommRing R]

theorem partialDeg_const (n d : Nat) (c : R) : PartialDeg n d fun _ => c := fun _ _ _ => ⟨C c, by simp, by simp⟩

theorem Spec.PartialDeg.mul {n d e : Nat} {f g : List R → R} (hf : PartialDeg n d f) (hg : PartialDeg n e g) :
    PartialDeg n (d + e) fun x => f x * g x := by
  intro u w h
  obtain ⟨p, hp1, hp2⟩ := hf u w h
  obtain ⟨q, hq1, hq2⟩ := hg u w h
  refine ⟨p * q, natDegree_mul_le.trans (by omega), fun t => ?_⟩
  rw [eval_mul, ← hp2, ← hq2]

theorem Spec.PartialDeg.add {n d : Nat} {f g : List R → R} (hf : PartialDeg n d f) (hg : PartialDeg n d g) :
    PartialDeg n d fun x => f x + g x := by
  intro u w h
  obtain ⟨p, hp1, hp2⟩ := hf u w h
  obtain ⟨q, hq1, hq2⟩ := hg u w h
  refine ⟨p + q, (natDegree_add_le _ _).trans (by omega), fun t => ?_⟩
  rw [eval_add, ← hp2, ← hq2]

theorem Spec.PartialDeg.sub {n d : Nat} {f g : List R → R} (hf : PartialDeg n d f) (hg : PartialDeg n d g) :
    PartialDeg n d fun x => f x - g x := by
  intro u w h
  obtain ⟨p, hp1, hp2⟩ := hf u w h
  obtain ⟨q, hq1, hq2⟩ := hg u w h
  refine ⟨p - q, (natDegree_sub_le _ _).trans (by omega), fun t => ?_⟩
  rw [eval_sub, ← hp2, ← hq2]

theorem Spec.PartialDeg.mono {n d e : Nat} {f : List R → R} (hf : PartialDeg n d f) (h : d ≤ e) : PartialDeg n e f := by
  intro u w hl
  obtain ⟨p, hp1, hp2⟩ := hf u w hl
  exact ⟨p, hp1.trans h, hp2⟩

theorem Spec.PartialDeg.sum {n d : Nat} {ι : Type} (s : Finset ι) {f : ι → List R → R} (hf : ∀ i ∈ s, PartialDeg n d (f i)) :
    PartialDeg n d fun x => ∑ i ∈ s, f i x := by
  classical
  induction s using Finset.induction_on with
  | empty => simpa using partialDeg_const n d (0 : R)
  | insert a s ha ih =>
    simp only [sum_insert ha]
    exact (hf a (by simp)).add (ih fun i hi => hf i (by simp [hi]))

theorem Spec.PartialDeg.smul {n d : Nat} {f : List R → R} (c : R) (hf : PartialDeg n d f) :
    PartialDeg n d fun x => c * f x := by
  simpa using (partialDeg_const n 0 c).mul hf

theorem partialDeg_list_prod {α : Type} {n : Nat} {f : α → List R → R} (l : List α) (hf : ∀ a ∈ l, PartialDeg n 1 (f a)) :
    PartialDeg n l.length fun x => (l.map fun a => f a x).prod := by
  induction l with
  | nil => simpa using partialDeg_const n 0 (1 : R)
  | cons a l ih =>
    simp only [List.map_cons, List.prod_cons, List.length_cons]
    rw [Nat.add_comm]
    exact (hf a (by simp)).mul (ih fun b hb => hf b (by simp [hb]))

theorem Spec.PartialDeg.congr {n d : Nat} {f g : List R → R} (hf : PartialDeg n d f)
    (h : ∀ x, x.length = n → f x = g x) : PartialDeg n d g := by
  intro u w hl
  obtain ⟨p, hp1, hp2⟩ := hf u w hl
  exact ⟨p, hp1, fun t => by rw [← hp2, h _ (by simp; omega)]⟩

theorem partialDeg_mle (n : Nat) (f : Nat → R) : PartialDeg n 1 fun x => mle f x := by
  intro u w _
  refine ⟨C (mle f (u ++ 0 :: w)) + C (mle f (u ++ 1 :: w) - mle f (u ++ 0 :: w)) * X, ?_, fun t => ?_⟩
  · refine (natDegree_add_le _ _).trans (max_le (by simp) ?_)
    exact (natDegree_C_mul_le _ _).trans natDegree_X_le
  · simp only [eval_add, eval_mul, eval_C, eval_X]
    rw [mle_affine]
    ring

theorem partialDeg_eqPoly (c : List R) : PartialDeg c.length 1 fun x => eqPoly c x := by
  intro u w h
  obtain ⟨q, h1, h2⟩ := partialDeg_mle c.length (fun i => eqWeight c i) u w h
  refine ⟨q, h1, fun t => ?_⟩
  rw [← h2]
  exact (mle_eqWeight _ _ (by simp; omega)).symm

end

section
variable {F R : Type} [Field F] [DecidableEq F] [CommRing R] [DecidableEq R] [Algebra F R]

theorem challenges_coin (n : Nat) (s : List F) (h : n ≤ s.length) :
    (coinT F R).challenges n s = (s.take n, s.drop n) := by
  induction n generalizing s with
  | zero => rfl
  | succ n ih =>
    cases s with
    | nil => simp at h
    | cons x s =>
      unfold Transcript.challenges
      have : (coinT F R).challenge (x :: s) = (x, s) := rfl
      rw [this]
      simp only
      rw [ih s (by simpa using h)]
      rfl

/-- Verification of a sum-check with a tape returns the tape as the point. -/
theorem verify_coin_point {n d : Nat} (hn : 1 ≤ n) (c : R) (P : List F → List R) (v : List F) (hv : v.length = n)
    (sc : SubClaim F R) (s' : List F)
    (h : verifyAsSubprotocol (coinT F R) v n d c (strategyProof P v) = .ok (sc, s')) : sc.point = v := by
  have hlen : (strategyProof P v).length = n := by simp [strategyProof, hv]
  rw [verify_eq _ _ _ _ (by omega) _ _ (by omega), List.take_of_length_le (by omega)] at h
  have habs : ∀ (s : List F) (x : R), (coinT F R).absorb s x = s := fun _ _ => rfl
  rw [habs, habs, drawRun_coin _ _ (by omega), hlen, List.take_of_length_le (by omega), bind_eq_ok] at h
  obtain ⟨e, -, h9⟩ := h
  simp only [Except.ok.injEq, Prod.mk.injEq] at h9
  rw [← h9.1]

theorem dual_mle (φ : R →ₗ[F] F) (f : Nat → R) (p : List F) :
    φ (mle f (p.map (algebraMap F R))) = mle (fun i => φ (f i)) p := by
  have hw : ∀ i, eqWeight (p.map (algebraMap F R)) i = algebraMap F R (eqWeight p i) := by
    intro i
    unfold eqWeight
    rw [map_prod, List.length_map]
    apply prod_congr rfl
    intro k hk
    have hk' := mem_range.1 hk
    simp only [List.getD_eq_getElem?_getD, List.getElem?_map, List.getElem?_eq_getElem hk', Option.map_some,
      Option.getD_some]
    split <;> simp
  unfold mle
  rw [map_sum, List.length_map]
  apply sum_congr rfl
  intro i _
  rw [hw, mul_comm, ← Algebra.smul_def, map_smul, smul_eq_mul, mul_comm]

theorem cnt_mle_alg [Fintype F] (n : Nat) (f : Nat → R) (h : ∃ i < 2 ^ n, f i ≠ 0) :
    cnt n (fun p : List F => mle f (p.map (algebraMap F R)) = 0) ≤ n * Fintype.card F ^ (n - 1) := by
  obtain ⟨i, hi, hf⟩ := h
  obtain ⟨φ, hφ⟩ : ∃ φ : Module.Dual F R, φ (f i) ≠ 0 := by
    by_contra hcon
    push Not at hcon
    exact hf ((Module.forall_dual_apply_eq_zero_iff F (f i)).1 hcon)
  refine le_trans (cnt_mono fun l _ hl => ?_) (cnt_mle n (fun i => φ (f i)) ⟨i, hi, hφ⟩)
  rw [← dual_mle, hl, map_zero]

end

section
variable {F : Type} [Field F] [Fintype F]

theorem cnt_or {n : Nat} (p q r : List F → Prop) (h : ∀ l, l.length = n → p l → q l ∨ r l) :
    cnt n p ≤ cnt n q + cnt n r := by
  classical
  unfold cnt
  refine (card_le_card ?_).trans (card_union_le _ _)
  intro x hx
  simp only [mem_filter, mem_univ, true_and, mem_union] at hx ⊢
  exact h _ (by simp) hx

/-- Tapes on which a polynomial in one entry, nonzero whatever the other entries are, vanishes. -/
theorem cnt_coord (a b k : Nat) (p : List F → Prop)
    (h : ∀ u w : List F, u.length = a → w.length = b →
      ∃ D : F[X], D ≠ 0 ∧ D.natDegree ≤ k ∧ ∀ x, p (u ++ x :: w) → D.eval x = 0) :
    cnt (a + (1 + b)) p ≤ k * Fintype.card F ^ (a + b) := by
  classical
  set q := Fintype.card F with hq
  rw [cnt_split]
  have h1 : ∀ u : Fin a → F, cnt (1 + b) (fun v => p (List.ofFn u ++ v)) ≤ k * q ^ b := by
    intro u
    rw [Nat.add_comm 1 b, cnt_succ]
    have e : ∀ x : F, cnt b (fun l => p (List.ofFn u ++ x :: l))
        = ∑ w : Fin b → F, if p (List.ofFn u ++ x :: List.ofFn w) then 1 else 0 := by
      intro x
      unfold cnt
      rw [card_filter]
    simp only [e]
    rw [sum_comm]
    refine (sum_le_card_nsmul _ _ k fun w _ => ?_).trans ?_
    · obtain ⟨D, hD, hk, hr⟩ := h (List.ofFn u) (List.ofFn w) (by simp) (by simp)
      rw [← card_filter]
      calc (univ.filter fun x => p (List.ofFn u ++ x :: List.ofFn w)).card
          ≤ D.roots.toFinset.card := card_le_card fun x hx => by
            simp only [mem_filter, mem_univ, true_and] at hx
            rw [Multiset.mem_toFinset, mem_roots hD]
            exact hr x hx
        _ ≤ Multiset.card D.roots := Multiset.toFinset_card_le _
        _ ≤ D.natDegree := card_roots' D
        _ ≤ k := hk
    · simp [hq, Nat.mul_comm]
  refine (sum_le_card_nsmul _ _ (k * q ^ b) fun u _ => h1 u).trans ?_
  simp only [card_univ, Fintype.card_fun, Fintype.card_fin, smul_eq_mul]
  rw [← hq, pow_add]
  exact le_of_eq (by ring)

end

end Verif
