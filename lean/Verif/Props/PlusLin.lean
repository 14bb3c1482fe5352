import Verif.Props.PlusFold
import Verif.Lemmas.PlusBench

/-!
# Property theorems: the challenges of the linearization in `latticefold-plus` (C107)
-/

set_option linter.unusedSectionVars false
set_option linter.unusedSimpArgs false

namespace Verif.Props

open Finset Verif Verif.Spec Verif.Plus

variable {F R σ : Type} {d : Nat}
variable [Field F] [CommRing R] [Algebra F R] [DecidableEq F] [DecidableEq R]

/-- A multilinear extension of values that vanish outside the first two points. -/
theorem mle_two (e : Nat → R) (p : List R) (hp : 1 ≤ p.length) (h : ∀ i, 2 ≤ i → e i = 0) :
    mle e p = e 0 * eqWeight p 0 + e 1 * eqWeight p 1 := by
  obtain ⟨m, hm⟩ : ∃ m, 2 ^ p.length = m + 2 := ⟨2 ^ p.length - 2, by
    have : 2 ^ 1 ≤ 2 ^ p.length := Nat.pow_le_pow_right (by norm_num) hp
    omega⟩
  unfold mle
  rw [hm, sum_range_succ', sum_range_succ', sum_eq_zero, zero_add, add_comm]
  intro i _
  rw [h _ (by omega), zero_mul]

theorem mle_two' (e : Nat → R) (r : R) : mle e [r] = e 0 * (1 - r) + e 1 * r := by
  simp only [mle_cons, mle_nil, Nat.mul_zero, Nat.zero_add]
  ring

/-- The vector `(2, 0)` violates `x_0^2 = x_0`; with the challenge `0` the proof is rejected. -/
example : ∃ lb proof s', ComR1CS.linearize (coinT (ZMod 17) Example.R17) [0, 3] ⟨⟨0, id2, id2, id2⟩, [], commit ⟨1, 2, [[2, 5]]⟩ [2, 0], 0, [2, 0]⟩
      = .ok ((lb, proof), s') ∧ lb.f = [2, 0] ∧ ∃ e, proof.verify (coinT (ZMod 17) Example.R17) [0, 3] = .error e := by
  obtain ⟨lb, proof, s', h1, h2, -, -, h3⟩ := C107_accepted_iff (coinT (ZMod 17) Example.R17) [0, 3]
    ⟨⟨0, id2, id2, id2⟩, [], commit ⟨1, 2, [[2, 5]]⟩ [2, 0], 0, [2, 0]⟩ ⟨1, 2, [[2, 5]]⟩
    ⟨⟨id2_wf, id2_wf, id2_wf, rfl, rfl, rfl, rfl⟩, rfl, by change 2 ≤ 2 ^ Nat.clog 2 2; decide, by decide⟩ charGt17 rfl
  refine ⟨lb, proof, s', h1, h2, h3 ?_⟩
  change mle (rowError ⟨0, id2, id2, id2⟩ [2, 0]) (((coinT (ZMod 17) Example.R17).challenges (Nat.clog 2 2) [0, 3]).1.map (algebraMap (ZMod 17) Example.R17)) ≠ 0
  rw [show Nat.clog 2 2 = 1 by decide,
    show ((coinT (ZMod 17) Example.R17).challenges 1 [0, 3]).1.map (algebraMap (ZMod 17) Example.R17) = [0] by
      change [algebraMap (ZMod 17) Example.R17 0] = [0]
      rw [map_zero],
    mle_two' _ 0]
  decide

/-- The matrix with `n` rows and columns and no entries. -/
def spEmpty (n : Nat) : SpMat R := ⟨n, n, List.replicate n []⟩

theorem spEmpty_wf (n : Nat) : (spEmpty n : SpMat R).WF := by
  refine ⟨by simp [spEmpty], ?_⟩
  intro row hr t ht
  rw [List.eq_of_mem_replicate hr] at ht
  simp at ht

theorem spEmpty_mulVec (n : Nat) (z : List R) (i : Nat) : mulVec (spEmpty n) z i = 0 := by
  rw [← rowVal_eq_mulVec (spEmpty_wf n)]
  by_cases hi : i < n
  · simp [spEmpty, List.getD_eq_getElem?_getD, hi, rowVal]
  · simp [spEmpty, List.getD_eq_getElem?_getD, hi, rowVal]

/-- The R1CS `0 * 0 = x_i` in `n` variables: only the zero vector satisfies it. -/
def zeroR1CS (n : Nat) : R1CS R := ⟨0, spEmpty n, spEmpty n, spIdentity n⟩

theorem zeroR1CS_wf (n : Nat) : R1CSWF (zeroR1CS n : R1CS R) :=
  ⟨spEmpty_wf n, spEmpty_wf n, spIdentity_wf n, rfl, rfl, rfl, rfl⟩

theorem zeroR1CS_iff (n : Nat) (f : List R) : R1CSHolds (zeroR1CS n).A (zeroR1CS n).B (zeroR1CS n).C n f ↔ ∀ i < n, f.getD i 0 = 0 := by
  unfold R1CSHolds R1CSRow zeroR1CS
  refine forall₂_congr fun i hi => ?_
  simp only [spEmpty_mulVec, spIdentity_mulVec, if_pos hi, zero_mul]
  exact eq_comm

/-- **C107** (negation). The challenges of the linearization are known before the witness is chosen. For the R1CS `x_0 = 0, .., x_{n-1} = 0`, every
commitment matrix, every transcript and every state of it there is a vector `f` that violates the R1CS, such that the linearization of `f` with its true commitment
succeeds and the verifier accepts the proof. -/
theorem C107_not_sound (T : Transcript F R σ) (s : σ) (A : Mat R) (n : Nat) (hn : 2 ≤ n) (hc : CharGt F 3) (hnt : (1 : R) ≠ 0) :
    ∃ (f : List R) (lb : LinB R) (proof : ComR1CSProof R) (s' : σ), f.length = n ∧
      ¬ R1CSHolds (zeroR1CS n).A (zeroR1CS n).B (zeroR1CS n).C n f ∧
      ComR1CS.linearize T s ⟨zeroR1CS n, [], commit A f, 0, f⟩ = .ok ((lb, proof), s') ∧ lb.f = f ∧ lb.x.cmF = commit A f ∧
      proof.verify T s = .ok (true, s') := by
  set r := (T.challenges (Nat.clog 2 n) s).1.map (algebraMap F R) with hr
  have hrl : r.length = Nat.clog 2 n := by rw [hr, List.length_map, challenges_length]
  have hr1 : 1 ≤ r.length := by rw [hrl]; exact Nat.clog_pos (by norm_num) hn
  obtain ⟨a, b, hab, hw⟩ : ∃ a b : R, (a ≠ 0 ∨ b ≠ 0) ∧ a * eqWeight r 0 + b * eqWeight r 1 = 0 := by
    by_cases h : eqWeight r 0 = 0 ∧ eqWeight r 1 = 0
    · exact ⟨1, 0, .inl hnt, by rw [h.1, h.2]; ring⟩
    · refine ⟨eqWeight r 1, -eqWeight r 0, ?_, by ring⟩
      by_contra h'
      push Not at h'
      exact h ⟨neg_eq_zero.1 h'.2, h'.1⟩
  set f : List R := a :: b :: List.replicate (n - 2) 0 with hf
  have hfl : f.length = n := by simp [hf]; omega
  have hf2 : ∀ i, 2 ≤ i → f.getD i 0 = 0 := by
    intro i hi
    obtain ⟨j, rfl⟩ := Nat.exists_eq_add_of_le' hi
    simp [hf, List.getD_eq_getElem?_getD, List.getElem?_replicate]
    split <;> rfl
  have sh : ComShape (⟨zeroR1CS n, [], commit A f, 0, f⟩ : ComR1CS R) :=
    ⟨zeroR1CS_wf n, hfl.symm, by change n ≤ 2 ^ Nat.clog 2 f.length; rw [hfl]; exact Nat.le_pow_clog (by norm_num) _, by change 2 ≤ f.length; omega⟩
  obtain ⟨lb, proof, s', h1, h2, h3, h4, -⟩ := C107_accepted_iff T s ⟨zeroR1CS n, [], commit A f, 0, f⟩ A sh hc rfl
  refine ⟨f, lb, proof, s', hfl, ?_, h1, h2, ?_, h4 ?_⟩
  · rw [zeroR1CS_iff]
    intro h
    rcases hab with h' | h'
    · exact h' (h 0 (by omega))
    · exact h' (h 1 (by omega))
  · rw [h3.cm, h2]
  · change mle (rowError (zeroR1CS n) f) ((T.challenges (Nat.clog 2 f.length) s).1.map (algebraMap F R)) = 0
    have hre : ∀ i, rowError (zeroR1CS n) f i = -f.getD i 0 := by
      intro i
      unfold rowError zeroR1CS
      simp only [spEmpty_mulVec, spIdentity_mulVec]
      split
      · ring
      · rw [List.getD_eq_default _ _ (by omega)]
        ring
    rw [hfl, ← hr, mle_two _ _ hr1 (by intro i hi; rw [hre, hf2 i hi, neg_zero]), hre, hre]
    change -a * eqWeight r 0 + -b * eqWeight r 1 = 0
    rw [← neg_zero, ← hw]
    ring

/-- The honest linearization for the R1CS `x_0 = x_1 = x_2 = 0` is accepted with a vector that is not zero. -/
example (T : Transcript (ZMod 17) Example.R17 σ) (s : σ) : ∃ (f : List Example.R17) (lb : LinB Example.R17) (proof : ComR1CSProof Example.R17) (s' : σ),
    f.length = 3 ∧ ¬ R1CSHolds (zeroR1CS (R := Example.R17) 3).A (zeroR1CS 3).B (zeroR1CS 3).C 3 f ∧
    ComR1CS.linearize T s ⟨zeroR1CS 3, [], commit ⟨1, 3, [[2, 5, 7]]⟩ f, 0, f⟩ = .ok ((lb, proof), s') ∧ lb.f = f ∧
    lb.x.cmF = commit ⟨1, 3, [[2, 5, 7]]⟩ f ∧ proof.verify T s = .ok (true, s') :=
  C107_not_sound T s ⟨1, 3, [[2, 5, 7]]⟩ 3 (by decide) charGt17 (by decide)

/-- The matrix whose rows `0` and `1` hold `a` and `b` in column `0`. -/
def spTwo (n : Nat) (a b : R) : SpMat R := ⟨n, n, [(a, 0)] :: [(b, 0)] :: List.replicate (n - 2) []⟩

theorem spTwo_wf (n : Nat) (hn : 2 ≤ n) (a b : R) : (spTwo n a b).WF := by
  refine ⟨by simp [spTwo]; omega, ?_⟩
  intro row hr t ht
  simp only [spTwo, List.mem_cons] at hr
  rcases hr with rfl | rfl | hr
  · simp at ht; subst ht; change 0 < n; omega
  · simp at ht; subst ht; change 0 < n; omega
  · rw [List.eq_of_mem_replicate hr] at ht
    simp at ht

theorem spTwo_mulVec (n : Nat) (hn : 2 ≤ n) (a b : R) (z : List R) (i : Nat) :
    mulVec (spTwo n a b) z i = if i = 0 then a * z.getD 0 0 else if i = 1 then b * z.getD 0 0 else 0 := by
  rw [← rowVal_eq_mulVec (spTwo_wf n hn a b)]
  match i with
  | 0 => simp [spTwo, rowVal]
  | 1 => simp [spTwo, rowVal]
  | i + 2 =>
    by_cases hi : i < n - 2
    · simp [spTwo, List.getD_eq_getElem?_getD, hi, rowVal]
    · simp [spTwo, List.getD_eq_getElem?_getD, hi, rowVal]

/-- **C107** (negation for a whole step). For every transcript and state and every vector `f` in range with first entry `1` there is an R1CS that `f` violates,
such that folding `f` with its true commitment as the only computation succeeds and the verifier accepts the proof of the step. -/
theorem C107_step_not_sound (pr : PlusRing F R d) (T : Transcript F R σ) (s : σ) {A : Mat R} {n : Nat} {params : PlusParams} {M : List (SpMat R)}
    (hp : MlinParams pr T A n params.lin M) (hB : 2 ≤ params.B) (hBe : Even params.B) (hk : 2 ≤ params.lin.decomp.k) (hnt : (1 : R) ≠ 0)
    (f : List R) (hf : WitOK pr n params.lin f) (hf0 : f.getD 0 0 = 1) (hnorm : ∀ comp, StepNorm pr T A M params [] s comp) :
    ∃ (cs : R1CS R) (proof : PlusProof F R (ComR1CSProof R)) (acc : List (LinB R)) (s' : σ),
      R1CSWF cs ∧ cs.A.nrows = n ∧ cs.A.ncols = n ∧ ¬ R1CSHolds cs.A cs.B cs.C n f ∧
      plusProve pr T (fun s c => ComR1CS.linearize T s c) A M params [] s [⟨cs, [], commit A f, 0, f⟩] = .ok (proof, acc, s') ∧
      plusVerify pr T (fun s p => ComR1CSProof.verify T s p) M params s proof = .ok (true, s') := by
  have hn := hp.n2
  set r := (T.challenges (Nat.clog 2 n) s).1.map (algebraMap F R) with hr
  have hrl : r.length = Nat.clog 2 n := by rw [hr, List.length_map, challenges_length]
  have hr1 : 1 ≤ r.length := by rw [hrl]; exact Nat.clog_pos (by norm_num) hn
  obtain ⟨a, b, hab, hw⟩ : ∃ a b : R, (a ≠ 0 ∨ b ≠ 0) ∧ a * eqWeight r 0 + b * eqWeight r 1 = 0 := by
    by_cases h : eqWeight r 0 = 0 ∧ eqWeight r 1 = 0
    · exact ⟨1, 0, .inl hnt, by rw [h.1, h.2]; ring⟩
    · refine ⟨eqWeight r 1, -eqWeight r 0, ?_, by ring⟩
      by_contra h'
      push Not at h'
      exact h ⟨neg_eq_zero.1 h'.2, h'.1⟩
  let cs : R1CS R := ⟨0, spEmpty n, spEmpty n, spTwo n a b⟩
  have hwf : R1CSWF cs := ⟨spEmpty_wf n, spEmpty_wf n, spTwo_wf n hn a b, rfl, rfl, rfl, rfl⟩
  have hre : ∀ i, rowError cs f i = if i = 0 then -a else if i = 1 then -b else 0 := by
    intro i
    unfold rowError
    simp only [cs, spEmpty_mulVec, spTwo_mulVec n hn, hf0]
    split
    · ring
    · split <;> ring
  have sh : ComShape (⟨cs, [], commit A f, 0, f⟩ : ComR1CS R) :=
    ⟨hwf, hf.1.symm, by change n ≤ 2 ^ Nat.clog 2 f.length; rw [hf.1]; exact Nat.le_pow_clog (by norm_num) _, by change 2 ≤ f.length; rw [hf.1]; exact hn⟩
  obtain ⟨lb, lp, s1, h1, h2, h3, h4, -⟩ := C107_accepted_iff T s ⟨cs, [], commit A f, 0, f⟩ A sh hp.char rfl
  have hv := h4 (by
    change mle (rowError cs f) ((T.challenges (Nat.clog 2 f.length) s).1.map (algebraMap F R)) = 0
    rw [hf.1, ← hr, mle_two _ _ hr1 (by intro i hi; rw [hre, if_neg (by omega), if_neg (by omega)]), hre, hre, if_pos rfl, if_neg (by decide), if_pos rfl,
      ← neg_zero, ← hw]
    ring)
  obtain ⟨proof, l0, l1, s', g1, g2, -⟩ := plusStep_lin pr T s hp hB hBe [] [⟨cs, [], commit A f, 0, f⟩] (by simp) (by simpa using hf)
    (by simpa using hk) (hnorm _) (lbs := [lb]) (lps := [lp]) (s1 := s1)
    (by
      unfold linearizeAll
      rw [h1]
      rfl)
    (by
      unfold verifyAll
      rw [hv]
      rfl)
    (by simpa using h2)
  refine ⟨cs, proof, [l0, l1], s', hwf, rfl, rfl, ?_, g1, g2⟩
  intro h
  have e : ∀ i < n, rowError cs f i = 0 := fun i hi => sub_eq_zero.2 (h i hi)
  rcases hab with h' | h'
  · have := e 0 (by omega)
    rw [hre, if_pos rfl] at this
    exact h' (neg_eq_zero.1 this)
  · have := e 1 (by omega)
    rw [hre, if_neg (by decide), if_pos rfl] at this
    exact h' (neg_eq_zero.1 this)

/-- A whole step for the vector `(1, 0, .., 0)` of length 256. -/
example (T : Transcript (ZMod 17) Example.R17 σ) (hT : BytesOK T) (s : σ) :
    ∃ (cs : R1CS Example.R17) (proof : PlusProof (ZMod 17) Example.R17 (ComR1CSProof Example.R17)) (acc : List (LinB Example.R17)) (s' : σ),
      ¬ R1CSHolds cs.A cs.B cs.C 256 (long256 1) ∧
      plusProve Example.plus17 T (fun s c => ComR1CS.linearize T s c) A256 [id256, id256, id256] params256 [] s
        [⟨cs, [], commit A256 (long256 1), 0, long256 1⟩] = .ok (proof, acc, s') ∧
      plusVerify Example.plus17 T (fun s p => ComR1CSProof.verify T s p) [id256, id256, id256] params256 s proof = .ok (true, s') := by
  obtain ⟨cs, proof, acc, s', -, -, -, h1, h2, h3⟩ := C107_step_not_sound Example.plus17 T s (mlin256 T hT) (by decide) (by decide) (by decide)
    (by decide) (long256 1) (wit256 1 (by decide)) rfl (fun comp => (norm256 T s [comp] []).1)
  exact ⟨cs, proof, acc, s', h1, h2, h3⟩

end Verif.Props
