import Verif.Props.Arith
import Verif.Props.ConstraintSystem
import Verif.Props.Commitment
import Verif.Props.Mle
import Verif.Props.ChallengeSet
import Verif.Props.Rotation
import Verif.Props.Sumcheck
import Verif.Lemmas.Tape

/-!
# Concrete cases of property theorems (C01 - C48)

One `example` for each theorem beside which there is none, applied to data that meets its hypotheses.
-/

namespace Verif.Props

open Finset Verif Verif.Spec

/-! ## C01 - C04 -/

theorem exAjtai_wf : exAjtai.matrix.WF := ⟨rfl, by intro r hr; simp [exAjtai, Mat.ofRows] at hr ⊢; rcases hr with rfl | rfl <;> rfl⟩

example : (⟨[7, 16]⟩ : Commitment Int).val.getD 1 0 = ∑ j ∈ range 3, (exAjtai.matrix.vals.getD 1 []).getD j 0 * [1, 0, 2].getD j 0 :=
  (C01_commit_entries exAjtai exAjtai_wf [1, 0, 2] ⟨[7, 16]⟩ (by decide)).2 1 (by decide)

example : exAjtai.commit [5, 3, 10] = .ok ((⟨[7, 16]⟩ : Commitment Int).smul 5 |>.add ((⟨[2, 5]⟩ : Commitment Int).smul 3)) :=
  C01_commit_linear exAjtai exAjtai_wf 5 3 [1, 0, 2] [0, 1, 0] ⟨[7, 16]⟩ ⟨[2, 5]⟩ (by decide) (by decide)

example {G : Type} (rnd : G → Int × G) (rng : G) : (Ajtai.rand rnd 4 3 rng).1.commit [1, 2, 3] = (Ajtai.rand rnd 4 3 rng).1.commit [6, 0, 0] :=
  C03_rand_collides rnd 4 3 rng [1, 2, 3] [6, 0, 0] rfl rfl (by decide)

example {G : Type} (rnd : G → Int × G) (rng : G) : ∃ f g : List Int, f ≠ g ∧ (Ajtai.rand rnd 4 3 rng).1.commit f = (Ajtai.rand rnd 4 3 rng).1.commit g :=
  ⟨[1, 2, 3], [6, 0, 0], by decide, C03_rand_collides rnd 4 3 rng _ _ rfl rfl (by decide)⟩

example : ((⟨[1, 2, 3]⟩ : Commitment Int).add ⟨[5]⟩).len = 3 := (C04_lengths ⟨[1, 2, 3]⟩ ⟨[5]⟩ (0 : Int)).1

example : ((⟨[1, 2, 3]⟩ : Commitment Int).sub ⟨[5]⟩).val.getD 2 0 = 3 - 0 :=
  (C04_entries ⟨[1, 2, 3]⟩ ⟨[5]⟩ (0 : Int) 2 (by decide)).2.1

/-! ## C05 - C09 -/

example : exR1CS.relax.checkRelation [3, 1, 9] = .error (.notSatisfied 1) :=
  ((C06_relaxed_check_decides exR1CS.relax (C06_relax_same_verdict exR1CS exR1CS_wf []).1 [3, 1, 9]).2.1 1).2
    ⟨rfl, by decide, by unfold RelaxedRow; decide, by
      intro j hj
      obtain rfl : j = 0 := by omega
      unfold RelaxedRow
      decide⟩

example : (CCS.fromR1CS exR1CS 1).checkRelation [3, 1, 9] = .ok () :=
  (C07_fromR1CS_exact exR1CS exR1CS_wf 1 [3, 1, 9]).2 ⟨rfl, by
    intro i hi
    obtain rfl : i = 0 := by omega
    unfold R1CSRow
    decide⟩

example : (CCS.fromR1CS exR1CS 2).checkRelation [3, 1, 9] = .error (.notSatisfied 1) := by
  rw [C07_fromR1CS_same_verdict exR1CS exR1CS_wf 2 (by decide)]
  rfl

example : exCCS.checkRelation [1, 1, 1, 1] = .error (.lengthsNotEqual 3 4) :=
  C08_check_wrong_length exCCS exCCS_wf [1, 1, 1, 1] (by decide) (by decide) (by decide)

example : (CCS.fromR1CS exR1CS 4).toR1CS = .ok exR1CS := C09_roundtrip exR1CS 4

/-! ## C10 - C14 -/

example : exCS.toR1CS.checkRelation [3, 1, 5, 15, 5] = .error (.notSatisfied 1) := by
  have := C10_satisfied_eq_r1cs exCS rfl [3, 1] [5, 15, 5] rfl rfl
  rw [show ([3, 1] : List Int) ++ [5, 15, 5] = [3, 1, 5, 15, 5] from rfl] at this
  rw [← this]
  rfl

example : ∀ c ∈ exCS.constraints, ConstraintHolds c ([3, 1] ++ [5, 15, 4]) :=
  ((C10_satisfied_decides exCS rfl [3, 1] [5, 15, 4]).1.1 rfl).2.2

example : exCS.isValid = true := C10_satisfied_implies_valid exCS [3, 1] [5, 15, 4] rfl

example : ((⟨⟨[]⟩, [3, 4]⟩ : CCCS Int).getZ [9, 8])[4]? = some 8 :=
  (C12_layout (⟨⟨[]⟩, [3, 4]⟩ : CCCS Int) ⟨[], [], ⟨[]⟩, [], [], 0⟩ [9, 8]).2.2.2.2.2.2.1 1

/-- Two systems that differ in the number of columns only. -/
example : exCCS.paramsToLeBytes ≠ { exCCS with n := 259 }.paramsToLeBytes := by
  intro h
  have := ((C13_params_injective exCCS { exCCS with n := 259 } (by decide) (by decide)).2.1 h).2.2.1
  exact absurd this (by decide)

example : ([("x", 0, 2), ("y", 2, 3)].foldl (fun m e => m.add e.1 e.2.1 e.2.2) VariableMap.new).totalLen = 6 :=
  C13_varmap_total_len [("x", 0, 2), ("y", 2, 3)]

example : ((VariableMap.new.add "x" 0 2).add "y" 2 3).get "x" = some (0, 2) := by
  rw [(C13_varmap_get (VariableMap.new.add "x" 0 2) "y" "x" 2 3).2 (by decide)]
  exact (C13_varmap_get VariableMap.new "x" "" 0 2).1

example : ∃ ccs, CCS.fromR1CSPadded exR1CS 2 5 = .ok ccs ∧ sanityCheck ccs 5 = .ok () := by
  obtain ⟨ccs, h⟩ := (C14_padded_passes exR1CS 2 5).2.2 (by decide)
  exact ⟨ccs, h, (C14_padded_passes exR1CS 2 5).1 ccs h⟩

/-! ## C15 - C18 -/

example : eqEval [(3 : Int), 5] [2, 7] = .ok (eqPoly [3, 5] [2, 7]) := (C15_eq_eval _ _).1 rfl

example : eqEval [(3 : Int), 5] [2] = .error .invalidParameters := (C15_eq_eval _ _).2 (by decide)

example : ∃ t, buildEqVec [(3 : Int), 5, -4] = .ok t ∧ t.length = 8 ∧ t.sum = 1 := by
  obtain ⟨t, h1, h2, -, h3⟩ := C16_table_entries [(3 : Int), 5, -4] (by decide)
  exact ⟨t, h1, h2, h3⟩

example : (evaluateVec [(1 : Int), 2, 3] [5]).isPanic = true := (C17_evaluate ⟨0, []⟩ [1, 2, 3] [5]).2.2.2.1 (by decide)

example (t : Int) : ∃ a b, evaluateMle ⟨2, [1, 2, 3]⟩ [5, 0] = .ok a ∧ evaluateMle ⟨2, [1, 2, 3]⟩ [5, 1] = .ok b ∧
    evaluateMle ⟨2, [1, 2, 3]⟩ [5, t] = .ok ((1 - t) * a + t * b) :=
  (C17_multilinear ⟨2, [1, 2, 3]⟩).2 [5] [] t rfl

example : ∃ a b, evaluateMle ⟨2, [(1 : Int), 2, 3]⟩ [5, 7] = .ok a ∧ evaluateMle ⟨2, [4, 0, 1]⟩ [5, 7] = .ok b ∧
    evaluateMle ⟨2, [9, 2, 5]⟩ [5, 7] = .ok (a + 2 * b) := by
  have := C17_linear 2 [(1 : Int), 2, 3] [4, 0, 1] [5, 7] 2 rfl rfl
  rwa [show List.zipWith (fun x y : Int => x + 2 * y) [1, 2, 3] [4, 0, 1] = [9, 2, 5] by decide] at this

example : toMlesErr 1 [.ok [(1 : Int), 2], .ok [3]] = .ok [⟨1, [1, 2]⟩, ⟨1, [3]⟩] :=
  (C18_to_mles_ok 1 _ _).2 ⟨[[1, 2], [3]], rfl, by decide, rfl⟩

example (post : List (Res (List Int))) : toMlesErr 1 ([.ok [1]] ++ .ok [1, 2, 3] :: post) = .error (.mleIncorrectLength 2 3) :=
  (C18_to_mles_err 1 [.ok [1]] post (.ok [1, 2, 3]) (by simp)).2 [1, 2, 3] rfl (by decide)

/-! ## C21, C25 -/

open Classical in
example (P : List (ZMod 7) → List (ZMod 7)) :
    (univ.filter fun r : Fin 2 → ZMod 7 => ∃ sc s',
      verifyAsSubprotocol (coinT (ZMod 7) (ZMod 7)) (List.ofFn r) 2 2 3 (strategyProof P (List.ofFn r)) = .ok (sc, s') ∧
      sc.expectedEvaluation = mle (fun i => (i : ZMod 7)) (sc.point.map (algebraMap (ZMod 7) (ZMod 7)))
        * mle (fun i => (i : ZMod 7)) (sc.point.map (algebraMap (ZMod 7) (ZMod 7)))).card
      ≤ 2 * 2 * Fintype.card (ZMod 7) ^ (2 - 1) :=
  C21_soundness 2 2 (by omega) charGt_zmod7 (fun x => mle (fun i => (i : ZMod 7)) x * mle (fun i => (i : ZMod 7)) x)
    ((partialDeg_mle 2 _).mul (partialDeg_mle 2 _)) 3 (by
      intro h
      rw [sum_congr rfl fun b hb => by rw [mle_boolPoint _ (mem_range.1 hb)]] at h
      revert h
      decide) P

example {σ : Type} (T : Transcript ℚ ℚ σ) (s : σ) : verifyAsSubprotocol T s 2 2 5 [[1, 2], [3, 4, 5]] = .error (.panic "incorrect number of evaluations") :=
  C25_wrong_evaluations_panic T s 2 2 (by decide) 5 [1, 2] [[3, 4, 5]] (by decide) (by decide)

example {σ : Type} (T : Transcript ℚ ℚ σ) (s : σ) : verifyAsSubprotocol T s 0 3 5 [[1, 2]] = .error (.panic "Verifier has not finished.") :=
  (C25_degenerate_parameters_panic T s 5 0 3 [[1, 2]]).1

/-! ## C42, C43 -/

example : (rotSum Example.ring5 (Example.coeff5.symm ![1, 2]) [3]).isPanic = true :=
  C42_rot_sum_panic Example.ring5 _ [3] (by decide)

example (a c : Example.C5) : rotSum Example.ring5 a ((List.ofFn (Example.ring5.coeff c)).map (algebraMap _ _))
    = .ok ((List.ofFn (Example.ring5.coeff (a * c))).map (algebraMap _ _)) :=
  C42_rot_sum_mul Example.ring5 a c

example (a : Example.C5) : ∃ r, rotSum Example.ring5 a [3, 1] = .ok r ∧ r.getD 1 0
    = ∑ i ∈ range 2, [3, 1].getD i 0 * algebraMap _ _ (Example.ring5.coeff (Example.ring5.X ^ i * a) 1) := by
  have h : rotSum Example.ring5 a [3, 1] = .ok _ := rfl
  exact ⟨_, h, ((C42_rot_sum_formula Example.ring5 a [3, 1] _).1 h).2.2 1⟩

example : ∃ v, rotLinComb Example.ring5 [Example.coeff5.symm ![1, 2], 1] [[![3, 1]], [![0, 2]]] = .ok v :=
  (C43_defined_iff Example.ring5 _ _).1.2 ⟨rfl, by simp, by simp⟩

/-! ## C44 - C48 -/

/-- A ring of degree 24 over the field with 257 elements. -/
abbrev coeff24 : (Fin 24 → ZMod 257) ≃ₗ[ZMod 257] (Fin 24 → ZMod 257) := LinearEquiv.refl _ _

example : ∃ x, packedChallenge coeff24 (List.replicate 18 255) = .ok x ∧ ∀ i : Fin 24, x i = 31 := by
  obtain ⟨x, h1, h2⟩ := C44_packed_value coeff24 (List.replicate 18 255) rfl
  refine ⟨x, h1, fun i => ?_⟩
  have := h2 i
  rw [if_pos i.2] at this
  rw [show x i = coeff24 x i from rfl, this]
  clear this h2 h1 x
  revert i
  decide +kernel

example : packedChallenge coeff24 [1, 2, 3] = .error (.tooFewBytes 3 18) := C44_packed_length coeff24 [1, 2, 3] (by decide)

example : ∃ bs, bs.length = 18 ∧ packedChallenge coeff24 bs = .ok (fun i => ((i : ℕ) : ZMod 257)) :=
  (C44_packed_image coeff24 le_rfl _).2 fun i => by
    rw [if_pos i.2]
    exact ⟨i, by omega, by omega, by simp⟩

example (bs : List UInt8) (h : bs.length = 18) (he : packedChallenge coeff24 bs = packedChallenge coeff24 (List.replicate 18 7)) :
    bs = List.replicate 18 7 :=
  C44_packed_injective coeff24 le_rfl 257 (by decide) bs _ h rfl he

example {F R σ : Type} (T : Transcript F R σ) (hT : ∀ s n, (T.bytes s n).1.length = n) (s : σ) :
    ∃ l s', shortChallenges T (packedSet coeff24) 5 s = .ok (l, s') ∧ l.length = 5 := by
  obtain ⟨l, s', h1, h2, -⟩ := C44_short_challenges T (packedSet coeff24) hT
    (fun bs h => by obtain ⟨x, hx, -⟩ := C44_packed_value coeff24 bs h; exact ⟨x, hx⟩) 5 s
  exact ⟨l, s', h1, h2⟩

/-- A ring of degree 16. -/
abbrev coeff16 : (Fin 16 → ZMod 257) ≃ₗ[ZMod 257] (Fin 16 → ZMod 257) := LinearEquiv.refl _ _

example : ∃! bs : List UInt8, starkChallenge coeff16 bs = .ok (fun i => ((i : ℕ) : ZMod 257) + 240) :=
  (C45_stark_bijective coeff16 257 (by omega) _).1 fun i => ⟨i + 240, by omega, by omega, by simp⟩

/-- The byte 129 stands for 1 in the Frog ring and for 129 in the Stark ring. -/
example : ∃ x y, frogChallenge coeff16 (List.replicate 16 129) = .ok x ∧ starkChallenge coeff16 (List.replicate 16 129) = .ok y ∧
    x 3 = 1 ∧ y 3 = 129 := by
  obtain ⟨x, y, h1, h2, h3⟩ := C45_values coeff16 (List.replicate 16 129) rfl
  exact ⟨x, y, h1, h2, (h3 3).1.trans (by decide), (h3 3).2.trans (by decide)⟩

example : ∃ bs, packedChallenge coeff24 bs = .ok (fun _ => -32) :=
  (C48_documented_sets_partial coeff24 coeff16 257 (by decide)).1 _ fun _ => ⟨-32, by norm_num, by norm_num, by norm_num⟩

end Verif.Props
