import Verif.Lemmas.RoundByRound
import Verif.Props.Soundness

/-!
# C93: linearization with the challenges of a random oracle
-/

set_option linter.unusedSectionVars false
set_option linter.unusedSimpArgs false

namespace Verif.Props

open Finset Spec Verif

section
variable {F R : Type} [Field F] [DecidableEq F] [CommRing R] [DecidableEq R] [Algebra F R]

/-- With the oracle `O`, the adversary `A` outputs a history `h0` of length `L0` (the transcript at the start, with the statement), a
statement and a proof which the verifier started at `h0` accepts, although the vector `Z h0` fixed by `h0` violates the CCS relation.
The evaluations output are those of `Z h0`. -/
def LinForged (ccs : CCS R) (L0 : Nat) (Z : History F R → List R) (B : History F R → Nat → List UInt8)
    (A : Alg (History F R) F (History F R × CCCS R × LinProof R)) (O : History F R → F) : Prop :=
  ∃ h0 cm proof st s', A.run O = (h0, cm, proof) ∧ h0.length = L0 ∧ ¬ CCSHolds ccs (Z h0) ∧
    linVerify (oracleT O B) h0 cm proof ccs = .ok (st, s') ∧ st.u = ccs.M.map fun M => mle (mulVec M (Z h0)) st.r

/-- The polynomial of the linearization sum-check. -/
def linFn (ccs : CCS R) (z beta x : List R) : R :=
  eqPoly beta x * ccsEval ccs fun j => mle (mulVec (ccs.M.getD j ⟨0, 0, []⟩) z) x

theorem linFn_deg (ccs : CCS R) (sh : LinShape ccs) (z beta : List R) (hb : beta.length = ccs.s) :
    PartialDeg ccs.s (ccs.d + 1) (linFn ccs z beta) := by
  have h1 := partialDeg_eqPoly beta
  rw [hb] at h1
  have := h1.mul (ccsEval_deg ccs sh z)
  rwa [Nat.add_comm] at this

theorem linFn_sum (ccs : CCS R) (z beta : List R) (hb : beta.length = ccs.s) :
    restSum (linFn ccs z beta) [] ccs.s = mle (ccsRow ccs z) beta := by
  rw [show mle (ccsRow ccs z) beta = ∑ i ∈ range (2 ^ beta.length), ccsRow ccs z i * eqWeight beta i from rfl, hb]
  unfold restSum
  apply sum_congr rfl
  intro b hb0
  have hb' := mem_range.1 hb0
  have e1 : eqPoly beta (boolPoint ccs.s b) = eqWeight beta b := by
    rw [eqPoly_comm _ _ (by rw [hb, boolPoint_length]), eqPoly_boolPoint _ _ hb' _ hb]
  have e2 : ∀ f : Nat → R, mle f (boolPoint ccs.s b) = f b := fun f => mle_boolPoint f hb'
  rw [List.nil_append, linFn, e1, mul_comm]
  congr 1
  unfold ccsRow ccsEval
  simp only [e2]

/-- The challenges of the linearization verifier. -/
def linA (ccs : CCS R) (h0 : History F R) (proof : LinProof R) : Alg (History F R) F (List F × History F R) :=
  Alg'.bind (chA ccs.s (.elem (algebraMap F R ((labelNat "beta_s" : Nat) : F)) :: h0)) fun r =>
    drA (.elem ((ccs.d + 1 : Nat) : R) :: .elem (ccs.s : R) :: r.2) (proof.sumcheck.take ccs.s)

/-- An accepted forgery shows a bad answer. -/
theorem lin_bad [Fintype F] (ccs : CCS R) (sh : LinShape ccs) (hc : CharGt F (ccs.d + 1)) (Z : History F R → List R)
    (B : History F R → Nat → List UInt8) (O : History F R → F) (h0 s' : History F R) (cm : CCCS R) (proof : LinProof R) (st : LCCCS R)
    (hbad : ¬ CCSHolds ccs (Z h0)) (hver : linVerify (oracleT O B) h0 cm proof ccs = .ok (st, s'))
    (hu : st.u = ccs.M.map fun M => mle (mulVec M (Z h0)) st.r) :
    ∃ x ∈ Alg'.asked O (linA ccs h0 proof), O x ∈ rbrBad h0.length ccs.s ccs.s (ccs.d + 1) (ccs.d + 1)
      (fun b p => mle (ccsRow ccs (Z b)) (p.map (algebraMap F R)))
      (fun b p x => if p.length = ccs.s then linFn ccs (Z b) (p.map (algebraMap F R)) x else 0) x := by
  classical
  set G : History F R → List F → R := fun b p => mle (ccsRow ccs (Z b)) (p.map (algebraMap F R)) with hG
  set f : History F R → List F → List R → R :=
    fun b p x => if p.length = ccs.s then linFn ccs (Z b) (p.map (algebraMap F R)) x else 0 with hf
  have hlen : ccs.M.length ≤ proof.u.length := by
    unfold linVerify at hver
    simp only [bind_eq_ok] at hver
    obtain ⟨⟨sc, s2⟩, -, e, -, claim, -, h⟩ := hver
    simp only at h
    split at h
    · simp at h
    · simp only [Except.ok.injEq, Prod.mk.injEq] at h
      rw [← h.1] at hu
      simp only at hu
      rw [hu, List.length_map]
  rw [C29_verify_iff _ _ _ _ _ _ sh.wf hlen] at hver
  obtain ⟨sc, s2, h4, h5, rfl, -⟩ := hver
  simp only at hu
  set hl : History F R := .elem (algebraMap F R ((labelNat "beta_s" : Nat) : F)) :: h0 with hhl
  have hsq : squeezeBeta (oracleT O B) h0 ccs.s = ((((chA ccs.s hl).run O).1).map (algebraMap F R), ((chA ccs.s hl).run O).2) := by
    rw [chA_run O B]
    rfl
  rw [hsq] at h4 h5
  simp only at h4 h5
  set p := ((chA ccs.s hl).run O).1 with hp
  have hpl : p.length = ccs.s := chA_length O ccs.s hl
  have H0 : At h0.length hl h0 [] := (At.start h0).elem _
  have H1 : At h0.length ((chA ccs.s hl).run O).2 h0 p := by
    have := H0.challenges O ccs.s
    rwa [List.nil_append] at this
  have hdegG : ScalarDeg ccs.s (ccs.d + 1) (G h0) := by
    intro u w h
    obtain ⟨q, h1, h2⟩ := partialDeg_mle ccs.s (ccsRow ccs (Z h0)) (u.map (algebraMap F R)) (w.map (algebraMap F R)) (by simpa using h)
    refine ⟨q, h1.trans (by omega), fun t => ?_⟩
    rw [← h2]
    simp [hG]
  have hlive : Live ccs.s (G h0) [] := by
    have hbad' : ∃ i < 2 ^ ccs.s, ccsRow ccs (Z h0) i ≠ 0 := by
      unfold CCSHolds at hbad
      rw [sh.pow] at hbad
      push Not at hbad
      exact hbad
    obtain ⟨i, hi, hne⟩ := hbad'
    refine ⟨boolPoint ccs.s i, by simp [boolPoint_length], ?_⟩
    have : (boolPoint ccs.s i : List F).map (algebraMap F R) = boolPoint ccs.s i := by
      unfold boolPoint
      rw [List.map_map]
      apply List.map_congr_left
      intro j _
      simp only [Function.comp]
      split <;> simp
    change mle (ccsRow ccs (Z h0)) ((boolPoint ccs.s i : List F).map (algebraMap F R)) ≠ 0
    rw [this, mle_boolPoint _ hi]
    exact hne
  unfold linA
  rw [Alg'.asked_bind]
  by_cases hno : ∀ x ∈ Alg'.asked O (chA ccs.s hl), O x ∉ rbrBad h0.length ccs.s ccs.s (ccs.d + 1) (ccs.d + 1) G f x
  swap
  · push Not at hno
    obtain ⟨x, hx, hb⟩ := hno
    exact ⟨x, List.mem_append_left _ hx, hb⟩
  have hlive2 := pre_challenges hdegG O ccs.s H0 (by simp) hlive hno
  rw [List.nil_append, ← hp] at hlive2
  obtain ⟨w, hw, hne⟩ := hlive2
  have hw0 : w = [] := List.length_eq_zero_iff.1 (by omega)
  subst hw0
  rw [List.append_nil] at hne
  have hfb : ∀ q, PartialDeg ccs.s (ccs.d + 1) (f h0 q) := by
    intro q
    by_cases hq : q.length = ccs.s
    · have := linFn_deg ccs sh (Z h0) (q.map (algebraMap F R)) (by simpa using hq)
      simpa only [hf, hq, if_true] using this
    · simpa only [hf, hq, if_false] using partialDeg_const ccs.s (ccs.d + 1) (0 : R)
  have hfp : f h0 p = linFn ccs (Z h0) (p.map (algebraMap F R)) := by
    funext x
    simp only [hf, hpl, if_true]
  have hclaim : (0 : R) ≠ restSum (f h0 p) [] ccs.s := by
    rw [hfp, linFn_sum _ _ _ (by simpa using hpl)]
    exact fun h => hne h.symm
  have hpt : sc.point.length = ccs.s := by
    have hn := sh.spos
    by_cases hl2 : ccs.s ≤ proof.sumcheck.length
    · rw [verify_eq _ _ _ _ (by omega) _ _ hl2, bind_eq_ok] at h4
      obtain ⟨e, -, h⟩ := h4
      simp only [Except.ok.injEq, Prod.mk.injEq] at h
      rw [← h.1, drawRun_length]
      simp [hl2]
    · rw [verify_short _ _ _ _ _ _ (by omega)] at h4
      simp at h4
  have hval : sc.expectedEvaluation = f h0 p (sc.point.map (algebraMap F R)) := by
    rw [h5, hfp, linFn, eqPoly_comm _ _ (by simp [hpt, hpl])]
    congr 1
    unfold ccsEval
    apply sum_congr rfl
    intro k hk
    congr 2
    apply List.map_congr_left
    intro j hj
    have hj' : j < ccs.M.length := by
      have hk' : k < ccs.S.length := by rw [sh.wf.lenS]; exact mem_range.1 hk
      rw [List.getD_eq_getElem?_getD, List.getElem?_eq_getElem hk', Option.getD_some] at hj
      exact sh.wf.idxS _ (List.getElem_mem hk') j hj
    rw [hu]
    simp [List.getD_eq_getElem?_getD, hj']
  obtain ⟨x, hx, hb⟩ := sc_verify B hfb le_rfl hc (by have := sh.spos; omega) O H1 hpl 0 hclaim proof.sumcheck sc h4 hval
  exact ⟨x, List.mem_append_right _ hx, hb⟩

/-- **C93**: soundness of linearization with Fiat–Shamir challenges, the transcript being a random oracle. An adversary with at most `Q`
queries chooses statement and proof; with at most a fraction `(Q + 2 s) (d + 1) / |F|` of all oracles, the verifier accepts evaluations
of a vector which is fixed by the transcript at the start and violates the relation. -/
theorem C93_linearization [Fintype F] (ccs : CCS R) (sh : LinShape ccs) (hc : CharGt F (ccs.d + 1)) (L0 : Nat)
    (Z : History F R → List R) (B : History F R → Nat → List UInt8)
    (A : Alg (History F R) F (History F R × CCCS R × LinProof R)) (Q : Nat) (hA : A.AtMost Q) :
    ∃ X0 : Finset (History F R), ∀ X, X0 ⊆ X → ∀ E : History F R → F,
      oracleCount X E (LinForged ccs L0 Z B A)
        ≤ (Q + 2 * ccs.s) * (ccs.d + 1) * Fintype.card F ^ (X.card - 1) := by
  refine forgery_count A (fun out => linA ccs out.1 out.2.2) Q (2 * ccs.s) (ccs.d + 1) hA ?_
    (rbrBad L0 ccs.s ccs.s (ccs.d + 1) (ccs.d + 1)
      (fun b p => mle (ccsRow ccs (Z b)) (p.map (algebraMap F R)))
      (fun b p x => if p.length = ccs.s then linFn ccs (Z b) (p.map (algebraMap F R)) x else 0))
    (rbrBad_card _ _ _ _ _ _ _) (LinForged ccs L0 Z B A) ?_
  · intro out
    rw [two_mul]
    exact Alg'.atMost_bind _ _ _ _ (chA_atMost _ _) fun r => drA_atMost _ _ _ (by simp)
  · rintro O ⟨h0, cm, proof, st, s', h1, rfl, h3, h4, h5⟩
    rw [h1]
    exact lin_bad ccs sh hc Z B O h0 s' cm proof st h3 h4 h5

end

section Example
open Verif.Example

/-- Over the field of 49 elements, for `z = (2, 1, 3)` violating `z_0 * z_2 = z_2`: an adversary with 10 queries succeeds with at most
36 of 49 oracles on every large enough domain. -/
example (L0 : Nat) (A : Alg (History F49 C49) F49 (History F49 C49 × CCCS C49 × LinProof C49)) (hA : A.AtMost 10) :
    ∃ X0 : Finset (History F49 C49), ∀ X, X0 ⊆ X → ∀ E : History F49 C49 → F49,
      oracleCount X E (LinForged ccs49 L0 (fun _ => [2, 1, 3]) (fun _ _ => []) A)
        ≤ 36 * 49 ^ (X.card - 1) := by
  have hc : CharGt F49 3 := by
    intro k h1 h2
    interval_cases k <;> decide
  have h := C93_linearization ccs49 ccs49_shape hc L0 (fun _ => [2, 1, 3]) (fun _ _ => []) A 10 hA
  have e : Fintype.card F49 = 49 := by decide
  rw [e] at h
  exact h

end Example

end Verif.Props
