import Verif.Lemmas.RoundByRound
import Verif.Lemmas.FoldingSound

/-! The challenges of folding from an oracle, and the degree of the defect in each of them. -/

set_option linter.unusedSectionVars false
set_option linter.unusedSimpArgs false

namespace Verif

open Finset Spec Polynomial

section Deg
variable {F R : Type} [Field F] [DecidableEq F] [CommRing R] [DecidableEq R] [Algebra F R] {a δ : Nat}

theorem scalarDeg_const (c : R) : ScalarDeg (F := F) a δ fun _ => c := fun _ _ _ => ⟨C c, by simp, by simp⟩

theorem ScalarDeg.add {f g : List F → R} (hf : ScalarDeg a δ f) (hg : ScalarDeg a δ g) : ScalarDeg a δ fun x => f x + g x := by
  intro u w h
  obtain ⟨p, hp1, hp2⟩ := hf u w h
  obtain ⟨q, hq1, hq2⟩ := hg u w h
  refine ⟨p + q, (natDegree_add_le _ _).trans (by omega), fun t => ?_⟩
  rw [eval_add, ← hp2, ← hq2]

theorem ScalarDeg.sub {f g : List F → R} (hf : ScalarDeg a δ f) (hg : ScalarDeg a δ g) : ScalarDeg a δ fun x => f x - g x := by
  intro u w h
  obtain ⟨p, hp1, hp2⟩ := hf u w h
  obtain ⟨q, hq1, hq2⟩ := hg u w h
  refine ⟨p - q, (natDegree_sub_le _ _).trans (by omega), fun t => ?_⟩
  rw [eval_sub, ← hp2, ← hq2]

theorem ScalarDeg.sum {ι : Type} (s : Finset ι) {f : ι → List F → R} (hf : ∀ i ∈ s, ScalarDeg a δ (f i)) :
    ScalarDeg a δ fun x => ∑ i ∈ s, f i x := by
  classical
  induction s using Finset.induction_on with
  | empty => simpa using scalarDeg_const (0 : R)
  | insert i s hi ih =>
    simp only [sum_insert hi]
    exact (hf i (by simp)).add (ih fun j hj => hf j (by simp [hj]))

theorem ScalarDeg.congr {f g : List F → R} (hf : ScalarDeg a δ f) (h : ∀ x, x.length = a → g x = f x) : ScalarDeg a δ g := by
  intro u w hl
  obtain ⟨p, hp1, hp2⟩ := hf u w hl
  exact ⟨p, hp1, fun t => by rw [← hp2, h _ (by simp; omega)]⟩

theorem getD_swap {k : Nat} {u w : List F} (h : k ≠ u.length) (t : F) : (u ++ t :: w).getD k 0 = (u ++ 0 :: w).getD k 0 := by
  simp only [List.getD_eq_getElem?_getD]
  by_cases hik : k < u.length
  · rw [List.getElem?_append_left hik, List.getElem?_append_left hik]
  · rw [List.getElem?_append_right (by omega), List.getElem?_append_right (by omega)]
    obtain ⟨s, hs⟩ : ∃ s, k - u.length = s + 1 := ⟨k - u.length - 1, by omega⟩
    rw [hs]
    simp

theorem scalarDeg_pow {e : Nat} (he : e ≤ δ) (k : Nat) (c : R) :
    ScalarDeg a δ fun l : List F => algebraMap F R (l.getD k 0) ^ e * c := by
  intro u w _
  by_cases hk : k = u.length
  · refine ⟨X ^ e * C c, (natDegree_mul_C_le _ _).trans ((natDegree_X_pow_le e).trans he), fun t => ?_⟩
    have : (u ++ t :: w).getD k 0 = t := by simp [List.getD_eq_getElem?_getD, hk]
    simp only [this, eval_mul, eval_pow, eval_X, eval_C]
  · refine ⟨C (algebraMap F R ((u ++ 0 :: w).getD k 0) ^ e * c), le_of_eq_of_le (natDegree_C _) (Nat.zero_le _), fun t => ?_⟩
    beta_reduce
    rw [eval_C, getD_swap hk]

/-- A power of one challenge times a multilinear function of the last ones. -/
theorem scalarDeg_pow_mle {e k a0 : Nat} (he : e ≤ δ) (hδ : 1 ≤ δ) (hk : k < a0) (f : Nat → R) :
    ScalarDeg a δ fun l : List F => algebraMap F R (l.getD k 0) ^ e * mle f ((l.drop a0).map (algebraMap F R)) := by
  intro u w hl
  by_cases hu : u.length < a0
  · obtain ⟨q, h1, h2⟩ := scalarDeg_pow (F := F) (a := a) he k (mle f (((u ++ 0 :: w).drop a0).map (algebraMap F R))) u w hl
    refine ⟨q, h1, fun t => ?_⟩
    rw [← h2]
    beta_reduce
    congr 3
    obtain ⟨s, hs⟩ : ∃ s, a0 = u.length + (s + 1) := ⟨a0 - u.length - 1, by omega⟩
    rw [hs, List.drop_append, List.drop_append]
    simp
  · obtain ⟨q, h1, h2⟩ := partialDeg_mle ((u.drop a0).length + 1 + w.length) f ((u.drop a0).map (algebraMap F R)) (w.map (algebraMap F R))
      (by simp)
    refine ⟨C (algebraMap F R ((u ++ 0 :: w).getD k 0) ^ e) * q, (natDegree_C_mul_le _ _).trans (h1.trans hδ), fun t => ?_⟩
    beta_reduce
    rw [eval_mul, eval_C, ← h2, getD_swap (by omega), List.drop_append_of_le_length (by omega)]
    simp

/-- Difference of the claimed and the true sum of the folding sum-check. -/
def foldDefect (b K n : Nat) (v u : Nat → List R) (fh mz : Nat → List (Mle R)) (rs : Nat → List R) (w : List F) : R :=
  ∑ i ∈ range (2 * K), (powComb (algebraMap F R (w.getD i 0)) (v i) + powComb (algebraMap F R (w.getD (2 * K + i) 0)) (u i))
    - ∑ x ∈ range (2 ^ n), foldFn b (2 * K) (fun i => algebraMap F R (w.getD i 0)) (fun i => algebraMap F R (w.getD (2 * K + i) 0))
      (fun i => algebraMap F R (if i < 2 * K - 1 then w.getD (4 * K + i) 0 else 1)) fh mz rs
      ((w.drop (6 * K - 1)).map (algebraMap F R)) (boolPoint n x)

theorem scalarDeg_powComb (k : Nat) (l : List R) (hl : l.length ≤ δ) :
    ScalarDeg a δ fun w : List F => powComb (algebraMap F R (w.getD k 0)) l := by
  unfold powComb
  exact ScalarDeg.sum _ fun j hj => scalarDeg_pow (by have := mem_range.1 hj; omega) k _

theorem foldDefect_deg {b K n : Nat} (hδ : 1 ≤ δ) (v u : Nat → List R) (fh mz : Nat → List (Mle R))
    (rs : Nat → List R) (hr : ∀ k < 2 * K, (rs k).length = n) (hv : ∀ k < 2 * K, (v k).length ≤ δ)
    (hu : ∀ k < 2 * K, (u k).length ≤ δ) (hfh : ∀ k < 2 * K, (fh k).length ≤ δ)
    (hmz : ∀ k < 2 * K, (mz k).length ≤ δ) :
    ScalarDeg (6 * K - 1 + n) δ (foldDefect (F := F) b K n v u fh mz rs) := by
  have hb : ∀ x : List F, x.length = 6 * K - 1 + n → ((x.drop (6 * K - 1)).map (algebraMap F R)).length = n := by
    intro x hx
    simp [hx]
  refine ScalarDeg.congr (f := fun w : List F =>
    ∑ i ∈ range (2 * K), (powComb (algebraMap F R (w.getD i 0)) (v i) + powComb (algebraMap F R (w.getD (2 * K + i) 0)) (u i))
    - ∑ i ∈ range (2 * K), ((powComb (algebraMap F R (w.getD i 0)) ((fh i).map fun m => mle m.get (rs i))
        + ∑ j ∈ range (fh i).length, algebraMap F R (if i < 2 * K - 1 then w.getD (4 * K + i) 0 else 1) ^ (j + 1)
          * mle (fun y => rangePoly b (((fh i).getD j ⟨0, []⟩).get y)) ((w.drop (6 * K - 1)).map (algebraMap F R)))
        + powComb (algebraMap F R (w.getD (2 * K + i) 0)) ((mz i).map fun m => mle m.get (rs i)))) ?_ ?_
  · refine ScalarDeg.sub (ScalarDeg.sum _ fun i hi => ?_) (ScalarDeg.sum _ fun i hi => ?_)
    · have hi' := mem_range.1 hi
      exact (scalarDeg_powComb i _ (hv i hi')).add (scalarDeg_powComb _ _ (hu i hi'))
    · have hi' := mem_range.1 hi
      refine ((scalarDeg_powComb i _ (by rw [List.length_map]; exact hfh i hi')).add (ScalarDeg.sum _ fun j hj => ?_)).add
        (scalarDeg_powComb _ _ (by rw [List.length_map]; exact hmz i hi'))
      have hj' := mem_range.1 hj
      have := hfh i hi'
      by_cases hlast : i < 2 * K - 1
      · simp only [if_pos hlast]
        exact scalarDeg_pow_mle (by omega) hδ (by omega) _
      · simp only [if_neg hlast, map_one, one_pow]
        have := scalarDeg_pow_mle (F := F) (a := 6 * K - 1 + n) (e := 0) (k := 0) (a0 := 6 * K - 1) (Nat.zero_le δ) hδ (by omega)
          (fun y => rangePoly b (((fh i).getD j ⟨0, []⟩).get y))
        simpa only [pow_zero] using this
  · intro x hx
    unfold foldDefect
    rw [foldFn_sum _ _ _ _ _ _ _ _ _ _ hr (hb x hx)]

theorem foldDefect_live [Fintype F] {b K m n : Nat} (hK : 1 ≤ K) (hn : 1 ≤ n) (hF : n + m < Fintype.card F)
    (v u : Nat → List R) (fh mz : Nat → List (Mle R))
    (rs : Nat → List R) (hr : ∀ k < 2 * K, (rs k).length = n) (hv : ∀ k < 2 * K, (v k).length ≤ m)
    (hu : ∀ k < 2 * K, (u k).length ≤ m) (hfh : ∀ k < 2 * K, (fh k).length ≤ m)
    (hmz : ∀ k < 2 * K, (mz k).length ≤ m) (hw : FoldWrong b K m n v u fh mz rs) :
    Live (6 * K - 1 + n) (foldDefect (F := F) b K n v u fh mz rs) [] := by
  classical
  have hcount := fold_count (F := F) hK hn v u fh mz rs hr hv hu hfh hmz hw
  by_contra hno
  unfold Live at hno
  push Not at hno
  have hall : cnt (6 * K - 1 + n) (fun _ : List F => True) ≤ (n + m) * Fintype.card F ^ (6 * K - 1 + n - 1) := by
    refine le_trans (cnt_mono fun l hl _ => ?_) hcount
    have := hno l (by simpa using hl)
    rw [List.nil_append] at this
    exact sub_eq_zero.1 this
  have htrue : cnt (6 * K - 1 + n) (fun _ : List F => True) = Fintype.card F ^ (6 * K - 1 + n) := by
    refine le_antisymm (cnt_le _ _) (le_of_eq ?_)
    unfold cnt
    simp
  rw [htrue] at hall
  obtain ⟨c, hc⟩ : ∃ c, 6 * K - 1 + n = c + 1 := ⟨6 * K - 1 + n - 1, by omega⟩
  rw [hc, Nat.add_sub_cancel, pow_succ, mul_comm] at hall
  have hpos : 0 < Fintype.card F ^ c := Nat.pow_pos Fintype.card_pos
  exact absurd (Nat.le_of_mul_le_mul_right hall hpos) (by omega)

end Deg

section Squeeze
variable {F R : Type} [Field F] [DecidableEq F] [CommRing R] [DecidableEq R] [Algebra F R]

/-- A label absorbed. -/
def labelled (l : String) (h : History F R) : History F R := .elem (algebraMap F R ((labelNat l : Nat) : F)) :: h

/-- The challenges of `squeezeFold`. -/
def sqA (P : Params) (n : Nat) (h : History F R) : Alg (History F R) F (List F × History F R) :=
  Alg'.bind (chA (2 * P.K) (labelled "alpha_s" h)) fun r1 =>
    Alg'.bind (chA (2 * P.K) (labelled "zeta_s" r1.2)) fun r2 =>
      Alg'.bind (chA (2 * P.K - 1) (labelled "mu_s" r2.2)) fun r3 =>
        Alg'.bind (chA n (labelled "beta_s" r3.2)) fun r4 => .done (r1.1 ++ (r2.1 ++ (r3.1 ++ r4.1)), r4.2)

theorem sqA_atMost (P : Params) (hK : 1 ≤ P.K) (n : Nat) (h : History F R) : (sqA P n h).AtMost (6 * P.K - 1 + n) := by
  have e : 6 * P.K - 1 + n = 2 * P.K + (2 * P.K + (2 * P.K - 1 + (n + 0))) := by omega
  rw [e]
  refine Alg'.atMost_bind _ _ _ _ (chA_atMost _ _) fun r1 => ?_
  refine Alg'.atMost_bind _ _ _ _ (chA_atMost _ _) fun r2 => ?_
  refine Alg'.atMost_bind _ _ _ _ (chA_atMost _ _) fun r3 => ?_
  exact Alg'.atMost_bind _ _ _ _ (chA_atMost _ _) fun r4 => trivial

theorem At.label {L0 : Nat} {h b : History F R} {u : List F} (H : At L0 h b u) (l : String) : At L0 (labelled l h) b u := H.elem _

theorem sqA_run (P : Params) (hK : 1 ≤ P.K) (n : Nat) (h : History F R) (O : History F R → F) (B : History F R → Nat → List UInt8) :
    squeezeFold P (oracleT O B) h n = .ok (⟨(List.range (2 * P.K)).map fun k => algebraMap F R (((sqA P n h).run O).1.getD k 0),
      ((((sqA P n h).run O).1.drop (6 * P.K - 1)).map (algebraMap F R)),
      (List.range (2 * P.K)).map fun k => algebraMap F R (((sqA P n h).run O).1.getD (2 * P.K + k) 0),
      ((List.range (2 * P.K - 1)).map fun k => algebraMap F R (((sqA P n h).run O).1.getD (4 * P.K + k) 0)) ++ [1]⟩,
        ((sqA P n h).run O).2) := by
  have hus : usub "2 * P::K - 1" (2 * P.K) 1 = .ok (2 * P.K - 1) := by
    unfold usub
    rw [if_pos (by omega)]
  have hlab : ∀ s label, absorbLabel (oracleT O B) s label = labelled label s := fun _ _ => rfl
  have key : ∀ (l : List F) (k : Nat), l.length = k → l.map (algebraMap F R)
      = (List.range k).map fun i => algebraMap F R (l.getD i 0) := by
    intro l k hl
    apply List.ext_getElem
    · simp [hl]
    · intro i h1 h2
      have : i < l.length := by simpa using h1
      simp [List.getD_eq_getElem?_getD, this]
  unfold squeezeFold sqA
  simp only [hlab, hus, bind_ok', Alg'.run_bind, Alg.run, chA_run O B]
  set c1 := (oracleT O B).challenges (2 * P.K) (labelled "alpha_s" h) with hc1
  set c2 := (oracleT O B).challenges (2 * P.K) (labelled "zeta_s" c1.2) with hc2
  set c3 := (oracleT O B).challenges (2 * P.K - 1) (labelled "mu_s" c2.2) with hc3
  set c4 := (oracleT O B).challenges n (labelled "beta_s" c3.2) with hc4
  have l1 : c1.1.length = 2 * P.K := by rw [hc1, ← chA_run O B, chA_length]
  have l2 : c2.1.length = 2 * P.K := by rw [hc2, ← chA_run O B, chA_length]
  have l3 : c3.1.length = 2 * P.K - 1 := by rw [hc3, ← chA_run O B, chA_length]
  congr 3
  · rw [key c1.1 _ l1]
    apply List.map_congr_left
    intro i hi
    have hi' := List.mem_range.1 hi
    rw [List.getD_append _ _ _ _ (by omega)]
  · congr 1
    rw [List.drop_append, List.drop_of_length_le (by omega), List.nil_append, List.drop_append, List.drop_of_length_le (by omega),
      List.nil_append, List.drop_append, List.drop_of_length_le (by omega), List.nil_append]
    rw [show 6 * P.K - 1 - c1.1.length - c2.1.length - c3.1.length = 0 by omega, List.drop_zero]
  · rw [key c2.1 _ l2]
    apply List.map_congr_left
    intro i hi
    have hi' := List.mem_range.1 hi
    rw [List.getD_append_right _ _ _ _ (by omega), List.getD_append _ _ _ _ (by omega)]
    congr 2
    omega
  · congr 1
    rw [key c3.1 _ l3]
    apply List.map_congr_left
    intro i hi
    have hi' := List.mem_range.1 hi
    rw [List.getD_append_right _ _ _ _ (by omega), List.getD_append_right _ _ _ _ (by omega), List.getD_append _ _ _ _ (by omega)]
    congr 2
    omega

theorem sqA_length (P : Params) (hK : 1 ≤ P.K) (n : Nat) (h : History F R) (O : History F R → F) :
    ((sqA P n h).run O).1.length = 6 * P.K - 1 + n := by
  unfold sqA
  simp only [Alg'.run_bind, Alg.run, List.length_append, chA_length]
  omega

theorem At.sq {L0 : Nat} {b : History F R} (P : Params) (n : Nat) (O : History F R → F) {h : History F R} (H : At L0 h b []) :
    At L0 ((sqA P n h).run O).2 b ((sqA P n h).run O).1 := by
  unfold sqA
  simp only [Alg'.run_bind, Alg.run]
  have h1 := (H.label "alpha_s").challenges O (2 * P.K)
  have h2 := (h1.label "zeta_s").challenges O (2 * P.K)
  have h3 := (h2.label "mu_s").challenges O (2 * P.K - 1)
  have h4 := (h3.label "beta_s").challenges O n
  simpa only [List.nil_append, List.append_assoc] using h4

theorem sq_live [Fintype F] {L0 n' d δ : Nat} {G : History F R → List F → R} {f : History F R → List F → List R → R}
    {b : History F R} (P : Params) (hK : 1 ≤ P.K) (n : Nat)
    (hG : ScalarDeg (6 * P.K - 1 + n) δ (G b)) (O : History F R → F) {h : History F R} (H : At L0 h b [])
    (hl : Live (6 * P.K - 1 + n) (G b) [])
    (hno : ∀ x ∈ Alg'.asked O (sqA P n h), O x ∉ rbrBad L0 (6 * P.K - 1 + n) n' d δ G f x) :
    Live (6 * P.K - 1 + n) (G b) ((sqA P n h).run O).1 := by
  unfold sqA at hno ⊢
  simp only [Alg'.asked_bind, List.mem_append] at hno
  simp only [Alg'.run_bind, Alg.run]
  have h1 := (H.label "alpha_s").challenges O (2 * P.K)
  have h2 := (h1.label "zeta_s").challenges O (2 * P.K)
  have h3 := (h2.label "mu_s").challenges O (2 * P.K - 1)
  have g1 := pre_challenges hG O (2 * P.K) (H.label "alpha_s") (by simp; omega) hl fun x hx => hno x (Or.inl hx)
  have g2 := pre_challenges hG O (2 * P.K) (h1.label "zeta_s") (by simp [chA_length]; omega) g1
    fun x hx => hno x (Or.inr (Or.inl hx))
  have g3 := pre_challenges hG O (2 * P.K - 1) (h2.label "mu_s") (by simp [chA_length]; omega) g2
    fun x hx => hno x (Or.inr (Or.inr (Or.inl hx)))
  have g4 := pre_challenges hG O n (h3.label "beta_s") (by simp [chA_length]; omega) g3
    fun x hx => hno x (Or.inr (Or.inr (Or.inr (Or.inl hx))))
  simpa only [List.nil_append, List.append_assoc] using g4

end Squeeze

end Verif
