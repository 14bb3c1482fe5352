import Verif.Lemmas.Tape
import Verif.Lemmas.Linearization
import Verif.Props.Sumcheck
import Verif.Props.Linearization
import Verif.Props.ExampleRing49

/-!
# C53: soundness of linearization as an interactive protocol
-/

set_option linter.unusedSectionVars false
set_option linter.unusedSimpArgs false

namespace Verif.Props

open Finset Spec Verif

section
variable {F R : Type} [Field F] [DecidableEq F] [CommRing R] [DecidableEq R] [Algebra F R]

/-- The interactive linearization verifier, with the tape `w` of its challenges, accepts the prover with strategy
`P`: every sum-check message may depend on all challenges up to then. The claimed evaluations `u` are those of
`M_j z` at the sum-check point. -/
def LinAccepted (cm : CCCS R) (ccs : CCS R) (z : List R) (P : List F → List R) (w : List F) : Prop :=
  ∃ proof st s', linVerify (coinT F R) w cm proof ccs = .ok (st, s') ∧
    proof.sumcheck = strategyProof (fun v => P (w.take ccs.s ++ v)) (w.drop ccs.s) ∧
    proof.u = ccs.M.map fun M => mle (mulVec M z) ((w.drop ccs.s).map (algebraMap F R))

theorem ccsEval_deg (ccs : CCS R) (sh : LinShape ccs) (z : List R) :
    PartialDeg ccs.s ccs.d fun x => ccsEval ccs fun j => mle (mulVec (ccs.M.getD j ⟨0, 0, []⟩) z) x := by
  unfold ccsEval
  refine Spec.PartialDeg.sum _ fun k hk => ?_
  by_cases h : ccs.c.getD k 0 = 0
  · rw [h]
    simpa using partialDeg_const ccs.s ccs.d (0 : R)
  · refine Spec.PartialDeg.smul _ ?_
    exact (partialDeg_list_prod _ fun j _ => partialDeg_mle _ _).mono (sh.deg k (mem_range.1 hk) h)

open Classical in
/-- **C53**: soundness of linearization as an interactive protocol. If the vector `z` violates the CCS relation,
then for every prover strategy the verifier accepts evaluations of `z` with at most a fraction
`(s + s (d + 1)) / |F|` of all challenge tapes. -/
theorem C53_linearization_sound [Fintype F] (cm : CCCS R) (ccs : CCS R) (sh : LinShape ccs) (hc : CharGt F (ccs.d + 1))
    (z : List R) (hbad : ¬ CCSHolds ccs z) (P : List F → List R) :
    (univ.filter fun w : Fin (ccs.s + ccs.s) → F => LinAccepted cm ccs z P (List.ofFn w)).card
      ≤ (ccs.s + ccs.s * (ccs.d + 1)) * Fintype.card F ^ (ccs.s + ccs.s - 1) := by
  have hn := sh.spos
  have hbad' : ∃ i < 2 ^ ccs.s, ccsRow ccs z i ≠ 0 := by
    unfold CCSHolds at hbad
    rw [sh.pow] at hbad
    push Not at hbad
    exact hbad
  refine cnt_append_le (F := F) ccs.s ccs.s ccs.s (ccs.s * (ccs.d + 1)) hn hn (LinAccepted cm ccs z P) _
    (cnt_mle_alg ccs.s (ccsRow ccs z) hbad') ?_
  intro u hu hgood
  set beta := u.map (algebraMap F R) with hbeta
  have hbl : beta.length = ccs.s := by simp [hbeta, hu]
  have hdeg : PartialDeg ccs.s (ccs.d + 1) fun x => eqPoly beta x
      * ccsEval ccs fun j => mle (mulVec (ccs.M.getD j ⟨0, 0, []⟩) z) x := by
    have h1 := partialDeg_eqPoly beta
    rw [hbl] at h1
    have := h1.mul (ccsEval_deg ccs sh z)
    rwa [Nat.add_comm] at this
  have hsound := C21_soundness (F := F) (R := R) ccs.s (ccs.d + 1) hn hc _ hdeg 0 (by
    intro h
    apply hgood
    rw [h]
    rw [show mle (ccsRow ccs z) beta = ∑ i ∈ range (2 ^ beta.length), ccsRow ccs z i * eqWeight beta i from rfl, hbl]
    apply sum_congr rfl
    intro b hb
    have hb' := mem_range.1 hb
    have e1 : eqPoly beta (boolPoint ccs.s b) = eqWeight beta b := by
      rw [eqPoly_comm _ _ (by rw [hbl, boolPoint_length]), eqPoly_boolPoint _ _ hb' _ hbl]
    have e2 : ∀ f : Nat → R, mle f (boolPoint ccs.s b) = f b := fun f => mle_boolPoint f hb'
    rw [e1, mul_comm]
    congr 1
    unfold ccsRow ccsEval
    simp only [e2]) (fun v => P (u ++ v))
  have hsound' : cnt ccs.s (fun v : List F => ∃ sc s', verifyAsSubprotocol (coinT F R) v ccs.s (ccs.d + 1) 0
        (strategyProof (fun v => P (u ++ v)) v) = .ok (sc, s') ∧ sc.expectedEvaluation
        = eqPoly beta (sc.point.map (algebraMap F R))
          * ccsEval ccs fun j => mle (mulVec (ccs.M.getD j ⟨0, 0, []⟩) z) (sc.point.map (algebraMap F R)))
        ≤ ccs.s * (ccs.d + 1) * Fintype.card F ^ (ccs.s - 1) := hsound
  refine le_trans (cnt_mono fun v hv h => ?_) hsound'
  obtain ⟨proof, st, s', h1, h2, h3⟩ := h
  rw [List.drop_left' hu, List.take_left' hu] at h2
  rw [List.drop_left' hu] at h3
  rw [C29_verify_iff _ _ _ _ _ _ sh.wf (by rw [h3, List.length_map])] at h1
  obtain ⟨sc, s2, h4, h5, -, -⟩ := h1
  have hsq : squeezeBeta (coinT F R) (u ++ v) ccs.s = (beta, v) := by
    unfold squeezeBeta
    simp only
    have : absorbLabel (coinT F R) (u ++ v) "beta_s" = u ++ v := rfl
    rw [this, challenges_coin _ _ (by simp [hu]), List.take_left' hu, List.drop_left' hu]
  rw [hsq] at h4 h5
  simp only at h4 h5
  rw [h2] at h4
  have hpt := verify_coin_point hn 0 _ v hv sc s2 h4
  refine ⟨sc, s2, h4, ?_⟩
  rw [h5, eqPoly_comm _ _ (by rw [hpt, List.length_map, hv, hbl]), hpt]
  congr 1
  unfold ccsEval
  apply sum_congr rfl
  intro k hk
  congr 2
  apply List.map_congr_left
  intro j hj
  have hj' : j < ccs.M.length := by
    have hk' : k < ccs.S.length := by rw [sh.wf.lenS]; exact mem_range.1 hk
    rw [List.getD_eq_getElem?_getD, List.getElem?_eq_getElem hk', Option.getD_some] at hj
    exact sh.wf.idxS _ (List.getElem_mem hk') j hj
  rw [h3]
  simp [List.getD_eq_getElem?_getD, hj']

end

section Example
open Verif.Example

open Classical in
/-- Over the field of 49 elements, `z = (2, 1, 3)` violates `z_0 * z_2 = z_2`: whatever the prover sends, at most 4 of
49 tapes are accepted. -/
example (P : List F49 → List C49) (cm : CCCS C49) :
    (univ.filter fun w : Fin 2 → F49 => LinAccepted cm ccs49 [2, 1, 3] P (List.ofFn w)).card ≤ 4 * 49 := by
  have hc : CharGt F49 3 := by
    intro k h1 h2
    interval_cases k <;> decide
  have h := C53_linearization_sound cm ccs49 ccs49_shape hc [2, 1, 3] (by
    intro h
    have := h 0 (by decide)
    revert this
    decide) P
  have e : Fintype.card F49 = 49 := by decide
  rw [e] at h
  exact h

end Example

end Verif.Props
