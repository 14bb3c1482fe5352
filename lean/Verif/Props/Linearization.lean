import Verif.Lemmas.Linearization
import Verif.Props.Sumcheck
import Verif.Props.Mle

/-!
# Property theorems: linearization (C27 - C29)
-/

set_option linter.unusedSectionVars false
set_option linter.unusedSimpArgs false

namespace Verif.Props

open Finset Polynomial Verif Verif.Spec

variable {F R C σ : Type} [Field F] [DecidableEq F] [CommRing R] [DecidableEq R] [Algebra F R]

/-- The linearization prover succeeds on every witness of the right size, satisfying or not, with right
evaluations; the verifier accepts the proof of a satisfying one. -/
theorem linearization_prover (T : Transcript F R σ) (s : σ) (cm : CCCS R) (wit : Witness R C)
    (ccs : CCS R) (sh : LinShape ccs) (al : Aligned ccs) (hc : CharGt F (ccs.d + 1))
    (hlen : cm.x_ccs.length + 1 + wit.wCcs.length = ccs.n)
    (hf : ∀ m ∈ wit.fHat, m.numVars = ccs.s) :
    ∃ st proof s', linProve T s cm wit ccs = .ok ((st, proof), s') ∧
      (CCSHolds ccs ((cm.x_ccs ++ [1]) ++ wit.wCcs) → linVerify T s cm proof ccs = .ok (st, s')) ∧
      st.cm = cm.cm ∧ st.x_w = cm.x_ccs ∧ st.h = 1 ∧
      (∃ p : List F, st.r = p.map (algebraMap F R)) ∧
      EvalsCorrect ccs wit.fHat wit.wCcs st := by
  have hz : ((cm.x_ccs ++ [1]) ++ wit.wCcs).length = ccs.n := by simp; omega
  set z := (cm.x_ccs ++ [1]) ++ wit.wCcs with hzdef
  have hgetz : cm.getZ wit.wCcs = z := rfl
  generalize hsq : squeezeBeta T s ccs.s = bs
  obtain ⟨beta, s1⟩ := bs
  have hbl : beta.length = ccs.s := by
    have := squeezeBeta_length T s ccs.s; rw [hsq] at this; exact this
  have hb : beta ≠ [] := by
    have := sh.spos; intro h; rw [h] at hbl; simp at hbl; omega
  have hmz := calculateMzMles_ok sh.wf hz sh.rows
  have hmzl : (mzTables ccs z).length = ccs.M.length := by simp [mzTables]
  have hprep := prepareLinPoly_ok sh.wf (mzTables ccs z) hmzl beta hb
  set eqM : Mle R := ⟨beta.length, (List.range (2 ^ beta.length)).map fun i => eqWeight beta i⟩ with heqM
  set gm := (usedIdx ccs).map (fun j => (mzTables ccs z).getD j ⟨0, []⟩) ++ [eqM] with hgm
  have hgml : gm.length = (usedIdx ccs).length + 1 := by simp [hgm]
  have htab : ∀ j ∈ usedIdx ccs, (mzTables ccs z).getD j ⟨0, []⟩
      = ⟨ccs.s, (List.range (ccs.M.getD j ⟨0, 0, []⟩).nrows).map
          fun i => mulVec (ccs.M.getD j ⟨0, 0, []⟩) z i⟩ := by
    intro j hj
    have := usedIdx_lt sh.wf hj
    simp [mzTables, List.getD_eq_getElem?_getD, this]
  have hmemM : ∀ j ∈ usedIdx ccs, ccs.M.getD j ⟨0, 0, []⟩ ∈ ccs.M := by
    intro j hj
    have := usedIdx_lt sh.wf hj
    rw [List.getD_eq_getElem?_getD, List.getElem?_eq_getElem this]
    exact List.getElem_mem this
  have hnum : ∀ m ∈ gm, m.numVars = ccs.s := by
    intro m hm
    rw [hgm, List.mem_append] at hm
    rcases hm with hm | hm
    · obtain ⟨j, hj, rfl⟩ := List.mem_map.1 hm
      rw [htab j hj]
    · rw [List.mem_singleton.1 hm, heqM]; exact hbl
  let K := (usedIdx ccs).length
  let g : List R → R := fun vals => ccsEval ccs (fun j => vals.getD j 0) * vals.getD K 0
  have hcomb : ∀ v : List R, v.length = gm.length → linCombFn ccs v = .ok (g v) := by
    intro v hv
    rw [linCombFn_ok sh.wf v (fun j hj => by have := aligned_lt al hj; omega)
      (by intro h; rw [h, hgml] at hv; simp at hv)]
    simp only [g, K]
    rw [hv, hgml, Nat.add_sub_cancel]
  have hdeg : LineDeg gm.length (ccs.d + 1) g := by
    have := linComb_deg sh gm.length
    rw [hgml, Nat.add_sub_cancel] at this
    rw [hgml]; exact this
  -- value of the combination on mapped tables
  have hval : ∀ e : Mle R → R, g (gm.map e)
      = ccsEval ccs (fun j => e ⟨ccs.s, (List.range (ccs.M.getD j ⟨0, 0, []⟩).nrows).map
          fun i => mulVec (ccs.M.getD j ⟨0, 0, []⟩) z i⟩) * e eqM := by
    intro e
    simp only [g]
    have h1 : gm.map e = (usedIdx ccs).map (fun j => e ((mzTables ccs z).getD j ⟨0, []⟩)) ++ [e eqM] := by
      rw [hgm, List.map_append, List.map_map]; rfl
    rw [h1, getD_map_last _ _ K (by simp [K])]
    congr 1
    apply ccsEval_congr
    intro j hj
    rw [aligned_getD al hj, htab j hj]
  have hsum : CCSHolds ccs z → (0 : R) = ∑ b ∈ range (2 ^ ccs.s), g (gm.map fun m => m.get b) := by
    intro hsat
    symm
    apply sum_eq_zero
    intro b hbm
    rw [hval (fun m => m.get b)]
    have : ccsEval ccs (fun j => (⟨ccs.s, (List.range (ccs.M.getD j ⟨0, 0, []⟩).nrows).map
          fun i => mulVec (ccs.M.getD j ⟨0, 0, []⟩) z i⟩ : Mle R).get b) = ccsRow ccs z b := by
      rw [ccsRow_eq]
      apply ccsEval_congr
      intro j hj
      exact mzTables_get sh.wf z (hmemM j hj) b
    rw [this, hsat b (by rw [sh.pow]; exact mem_range.1 hbm), zero_mul]
  obtain ⟨proof, pst, s2, sc, vals, hp, hv, -, -, hpt, hptl, hev, hfin⟩ :=
    C20_completeness T s1 gm ccs.s (ccs.d + 1) (linCombFn ccs) g sh.spos (by omega) hc hnum hcomb hdeg
  set r := pst.randomness.map (algebraMap F R) with hr
  have hrl : r.length = ccs.s := by rw [hr, List.length_map, ← hpt, hptl]
  rw [hpt, ← hr] at hev
  have hmzr : ∀ m ∈ mzTables ccs z, r.length = m.numVars := by
    intro m hm
    obtain ⟨M, _, rfl⟩ := List.mem_map.1 hm
    exact hrl
  have hvE := evaluateMles_ok wit.fHat r (fun m hm => by rw [hrl, hf m hm])
  have huE := evaluateMles_ok (mzTables ccs z) r hmzr
  have hu : (mzTables ccs z).map (fun m => mle m.get r) = ccs.M.map fun M => mle (mulVec M z) r := by
    unfold mzTables
    rw [List.map_map]
    apply List.map_congr_left
    intro M hM
    exact congrArg (fun f => mle f r) (funext fun i => mzTables_get sh.wf z hM i)
  have hclaim := linClaim_ok sh.wf ((mzTables ccs z).map fun m => mle m.get r) (by simp [hmzl])
  have heq := eqEval_ok r beta (by rw [hrl, hbl])
  have hexp : sc.expectedEvaluation = eqPoly r beta
      * ccsEval ccs (fun j => ((mzTables ccs z).map fun m => mle m.get r).getD j 0) := by
    have hvals : vals = gm.map fun m => mle m.get r := by
      have := evaluateMles_ok gm r (fun m hm => by rw [hrl, hnum m hm])
      rw [this] at hev
      exact (Except.ok.inj hev).symm
    rw [hvals, hcomb _ (by simp)] at hfin
    rw [← Except.ok.inj hfin, hval (fun m => mle m.get r), mul_comm]
    congr 1
    · rw [eqPoly_comm r beta (by rw [hrl, hbl]), ← mle_eqWeight beta r (by rw [hrl, hbl])]
      apply mle_congr
      intro i hi
      rw [hrl, ← hbl] at hi
      exact get_map_range _ _ _ hi
    · apply ccsEval_congr
      intro j hj
      have := usedIdx_lt sh.wf hj
      have h1 : ((mzTables ccs z).map fun m => mle m.get r).getD j 0
          = mle ((mzTables ccs z)[j]'(by rw [hmzl]; exact this)).get r := by
        rw [List.getD_eq_getElem?_getD, List.getElem?_map,
          List.getElem?_eq_getElem (by rw [hmzl]; exact this)]
        rfl
      rw [h1]
      have h2 := htab j hj
      rw [List.getD_eq_getElem?_getD, List.getElem?_eq_getElem (by rw [hmzl]; exact this)] at h2
      rw [Option.getD_some] at h2
      rw [h2]
  refine ⟨⟨r, wit.fHat.map fun m => mle m.get r, cm.cm, (mzTables ccs z).map fun m => mle m.get r,
      cm.x_ccs, 1⟩, ⟨proof, wit.fHat.map fun m => mle m.get r, (mzTables ccs z).map fun m => mle m.get r⟩,
      T.absorbSlice (T.absorbSlice s2 (wit.fHat.map fun m => mle m.get r))
        ((mzTables ccs z).map fun m => mle m.get r), ?_, ?_, rfl, rfl, rfl, ⟨_, hr⟩, hrl, rfl, hu⟩
  · unfold linProve
    simp only [hgetz, hsq, hmz, bind_ok', hprep, hp, ← hr, hvE, huE]
  · intro hsat
    rw [← hsum hsat] at hv
    unfold linVerify
    simp only [hsq, hv, bind_ok', hpt, ← hr, heq, hclaim]
    rw [if_neg (by rw [hexp]; simp)]

/-- **C27**: completeness of linearization. -/
theorem C27_linearization_complete (T : Transcript F R σ) (s : σ) (cm : CCCS R) (wit : Witness R C)
    (ccs : CCS R) (sh : LinShape ccs) (al : Aligned ccs) (hc : CharGt F (ccs.d + 1))
    (hlen : cm.x_ccs.length + 1 + wit.wCcs.length = ccs.n)
    (hsat : CCSHolds ccs ((cm.x_ccs ++ [1]) ++ wit.wCcs))
    (hf : ∀ m ∈ wit.fHat, m.numVars = ccs.s) :
    ∃ st proof s', linProve T s cm wit ccs = .ok ((st, proof), s') ∧
      linVerify T s cm proof ccs = .ok (st, s') ∧
      st.cm = cm.cm ∧ st.x_w = cm.x_ccs ∧ st.h = 1 ∧
      (∃ p : List F, st.r = p.map (algebraMap F R)) ∧
      EvalsCorrect ccs wit.fHat wit.wCcs st := by
  obtain ⟨st, proof, s', h1, h2, h3⟩ := linearization_prover T s cm wit ccs sh al hc hlen hf
  exact ⟨st, proof, s', h1, h2 hsat, h3⟩

/-! A concrete instance: `R1CS`-shaped CCS over `ℚ` with one variable (two rows). -/

/-- `z_0 * z_1 = z_3` and `z_1 * z_1 = z_1`, `z = (x, 1, w_0, w_1)`. -/
def exLin : CCS ℚ :=
  { m := 2, n := 4, l := 1, t := 3, q := 2, d := 2, s := 1, s_prime := 2
    M := [⟨2, 4, [[(1, 0)], [(1, 1)]]⟩, ⟨2, 4, [[(1, 2)], [(1, 1)]]⟩, ⟨2, 4, [[(1, 3)], [(1, 1)]]⟩]
    S := [[0, 1], [2]]
    c := [1, -1] }

theorem exLin_shape : LinShape exLin := by
  refine ⟨⟨?_, rfl, rfl, ?_⟩, by decide, rfl, ?_, ?_⟩
  · intro M hM
    simp only [exLin, List.mem_cons, List.not_mem_nil, or_false] at hM
    rcases hM with rfl | rfl | rfl <;> exact ⟨⟨rfl, by simp⟩, rfl⟩
  · simp [exLin]
  · intro M hM
    simp only [exLin, List.mem_cons, List.not_mem_nil, or_false] at hM
    rcases hM with rfl | rfl | rfl <;> decide
  · intro k hk _
    have : k < 2 := hk
    interval_cases k <;> decide

theorem exLin_aligned : Aligned exLin := by
  have h : usedIdx exLin = [0, 1, 2] := by decide
  unfold Aligned
  rw [h]
  decide

theorem exLin_holds : CCSHolds exLin [3, 1, 5, 15] := by
  intro i hi
  have : i < 2 := hi
  interval_cases i <;>
  · simp only [ccsRow, exLin, mulVec, entry, sum_range_succ, sum_range_zero]
    norm_num [sum_range_succ]

example (T : Transcript ℚ ℚ σ) (s : σ) : ∃ st proof s',
    linProve T s ⟨⟨[7]⟩, [3]⟩ (⟨[5, 15], [], [], [⟨1, [5, 15]⟩]⟩ : Witness ℚ Unit) exLin
      = .ok ((st, proof), s') ∧
    linVerify T s ⟨⟨[7]⟩, [3]⟩ proof exLin = .ok (st, s') := by
  obtain ⟨st, proof, s', h1, h2, _⟩ := C27_linearization_complete T s ⟨⟨[7]⟩, [3]⟩
    (⟨[5, 15], [], [], [⟨1, [5, 15]⟩]⟩ : Witness ℚ Unit) exLin exLin_shape exLin_aligned
    (charGt_rat _) rfl exLin_holds (by decide)
  exact ⟨st, proof, s', h1, h2⟩

/-- **C27**, boundary: if some table of the witness has a number of variables different from `s`
(the code derives it from the length of the decomposed witness, not from the CCS; the size guard does
not exclude this), the honest prover fails although the relation holds. -/
theorem C27_fhat_size_mismatch (T : Transcript F R σ) (s : σ) (cm : CCCS R) (wit : Witness R C)
    (ccs : CCS R) (sh : LinShape ccs) (al : Aligned ccs)
    (hlen : cm.x_ccs.length + 1 + wit.wCcs.length = ccs.n)
    (m : Mle R) (hm : m ∈ wit.fHat) (hne : m.numVars ≠ ccs.s) :
    ∀ out, linProve T s cm wit ccs ≠ .ok out := by
  intro out hout
  unfold linProve at hout
  simp only at hout
  rw [bind_eq_ok] at hout
  obtain ⟨mz, hmz, hout⟩ := hout
  have hmz' := calculateMzMles_ok sh.wf (z := cm.getZ wit.wCcs)
    (by simp [CCCS.getZ]; omega) sh.rows
  rw [hmz'] at hmz
  obtain rfl := Except.ok.inj hmz
  have hbl := squeezeBeta_length T s ccs.s
  have hb : (squeezeBeta T s ccs.s).1 ≠ [] := by
    have := sh.spos; intro h; rw [h] at hbl; simp at hbl; omega
  rw [prepareLinPoly_ok sh.wf _ (by simp [mzTables]) _ hb] at hout
  simp only [bind_ok'] at hout
  set gm := (usedIdx ccs).map (fun j => (mzTables ccs (cm.getZ wit.wCcs)).getD j ⟨0, []⟩) ++ [_] with hgm
  have hgml : gm.length = (usedIdx ccs).length + 1 := by simp [hgm]
  have hnum : ∀ m ∈ gm, m.numVars = ccs.s := by
    intro m hm
    rw [hgm, List.mem_append] at hm
    rcases hm with hm | hm
    · obtain ⟨j, hj, rfl⟩ := List.mem_map.1 hm
      have := usedIdx_lt sh.wf hj
      simp [mzTables, List.getD_eq_getElem?_getD, this]
    · rw [List.mem_singleton.1 hm]; exact hbl
  have hcomb : ∀ v : List R, v.length = gm.length →
      linCombFn ccs v = .ok (ccsEval ccs (fun j => v.getD j 0) * v.getD (v.length - 1) 0) := by
    intro v hv
    exact linCombFn_ok sh.wf v (fun j hj => by have := aligned_lt al hj; omega)
      (by intro h; rw [h, hgml] at hv; simp at hv)
  obtain ⟨pst, hp, hrand⟩ := prove_ok (d := ccs.d + 1) (n := ccs.s) (by omega) sh.spos T
    (squeezeBeta T s ccs.s).2 gm hcomb hnum
  rw [hp] at hout
  simp only [bind_ok'] at hout
  rw [bind_eq_ok] at hout
  obtain ⟨v, hv, -⟩ := hout
  have := ((C17_evaluate_mles wit.fHat _ v).1 hv).1 m hm
  rw [List.length_map, hrand, drawRun_length, honestRun_length] at this
  exact hne this

example (T : Transcript ℚ ℚ σ) (s : σ) : ∀ out,
    linProve T s ⟨⟨[7]⟩, [3]⟩ (⟨[5, 15], [], [], [⟨2, [5, 15]⟩]⟩ : Witness ℚ Unit) exLin ≠ .ok out :=
  C27_fhat_size_mismatch T s ⟨⟨[7]⟩, [3]⟩ (⟨[5, 15], [], [], [⟨2, [5, 15]⟩]⟩ : Witness ℚ Unit) exLin
    exLin_shape exLin_aligned rfl ⟨2, [5, 15]⟩ (by simp) (by decide)

/-! ## C28 -/

/-- **C28**, the part that holds: for an aligned CCS the combining function applied to the values of
the prover's tables is `eq * ∑_k c_k ∏_{j ∈ S_k} (M_j z)`. Missing for the full property: CCS whose
multisets are not aligned (see `C28_misaligned_rejected`). -/
theorem C28_comb_is_ccs_polynomial_partial (ccs : CCS R) (wf : CCSWF ccs) (al : Aligned ccs)
    (mz : List R) (e : R) :
    linCombFn ccs ((usedIdx ccs).map (fun j => mz.getD j 0) ++ [e])
      = .ok (ccsEval ccs (fun j => mz.getD j 0) * e) := by
  rw [linCombFn_ok wf _ (fun j hj => by have := aligned_lt al hj; simp; omega) (by simp),
    getD_map_last _ _ _ (by simp)]
  congr 2
  apply ccsEval_congr
  intro j hj
  exact aligned_getD al hj _ e

example : linCombFn exLin [2, 3, 5, 7] = .ok (7 * (2 * 3 - 5)) := by
  have h : usedIdx exLin = [0, 1, 2] := by decide
  have := C28_comb_is_ccs_polynomial_partial exLin exLin_shape.wf exLin_aligned [2, 3, 5] 7
  rw [h] at this
  have h2 : ([0, 1, 2] : List Nat).map (fun j => ([2, 3, 5] : List ℚ).getD j 0) ++ [7] = [2, 3, 5, 7] := rfl
  rw [h2] at this
  rw [this]
  simp only [ccsEval, exLin, sum_range_succ, sum_range_zero]
  norm_num

/-- A satisfied, well-formed CCS of the form `(M_0 z)^2 - M_1 z = 0` (a repeated matrix index). -/
def badCCS : CCS ℚ :=
  { m := 2, n := 2, l := 0, t := 2, q := 2, d := 2, s := 1, s_prime := 1
    M := [⟨2, 2, [[(2, 0)], [(2, 0)]]⟩, ⟨2, 2, [[(1, 1)], [(1, 1)]]⟩]
    S := [[0, 0], [1]]
    c := [1, -1] }

theorem badCCS_shape : LinShape badCCS := by
  refine ⟨⟨?_, rfl, rfl, ?_⟩, by decide, rfl, ?_, ?_⟩
  · intro M hM
    simp only [badCCS, List.mem_cons, List.not_mem_nil, or_false] at hM
    rcases hM with rfl | rfl <;> exact ⟨⟨rfl, by simp⟩, rfl⟩
  · simp [badCCS]
  · intro M hM
    simp only [badCCS, List.mem_cons, List.not_mem_nil, or_false] at hM
    rcases hM with rfl | rfl <;> decide
  · intro k hk _
    have : k < 2 := hk
    interval_cases k <;> decide

/-- **C28** is false: there is a well-formed, satisfied CCS (with a repeated matrix index) for which
under every transcript the honest prover succeeds and its proof is rejected. -/
theorem C28_misaligned_rejected :
    LinShape badCCS ∧ CCSHolds badCCS [1, 4] ∧
    ∀ (σ : Type) (T : Transcript ℚ ℚ σ) (s : σ), ∃ st proof s',
      linProve T s ⟨⟨[7]⟩, []⟩ (⟨[4], [], [], [⟨1, [4]⟩]⟩ : Witness ℚ Unit) badCCS
        = .ok ((st, proof), s') ∧
      linVerify T s ⟨⟨[7]⟩, []⟩ proof badCCS = .error .sumCheckFailed := by
  have hholds : CCSHolds badCCS [1, 4] := by
    intro i hi
    have : i < 2 := hi
    interval_cases i <;>
    · simp only [ccsRow, badCCS, mulVec, entry, sum_range_succ, sum_range_zero]
      norm_num [sum_range_succ]
  refine ⟨badCCS_shape, hholds, fun σ T s => ?_⟩
  have hused : usedIdx badCCS = [0, 0, 1] := by decide
  generalize hsq : squeezeBeta T s 1 = bs
  obtain ⟨beta, s1⟩ := bs
  have hbl : beta.length = 1 := by
    have := squeezeBeta_length T s 1; rw [hsq] at this; exact this
  obtain ⟨b, rfl⟩ := List.length_eq_one_iff.1 hbl
  have hz : ([1, 4] : List ℚ).length = badCCS.n := rfl
  have hmz := calculateMzMles_ok badCCS_shape.wf hz badCCS_shape.rows
  have hmzv : mzTables badCCS [1, 4] = [⟨1, [2, 2]⟩, ⟨1, [4, 4]⟩] := by
    simp only [mzTables, badCCS, mulVec, entry, sum_range_succ, sum_range_zero, List.map_cons,
      List.map_nil, List.range_succ, List.range_zero]
    norm_num
  rw [hmzv] at hmz
  have hprep := prepareLinPoly_ok badCCS_shape.wf [⟨1, [2, 2]⟩, ⟨1, [4, 4]⟩] rfl [b] (by simp)
  rw [hused] at hprep
  set gm : List (Mle ℚ) := [⟨1, [2, 2]⟩, ⟨1, [2, 2]⟩, ⟨1, [4, 4]⟩,
    ⟨1, (List.range (2 ^ 1)).map fun i => eqWeight [b] i⟩] with hgm
  have hprep' : prepareLinPoly badCCS.c badCCS.d [⟨1, [2, 2]⟩, ⟨1, [4, 4]⟩] badCCS.S [b]
      = .ok (gm, 3) := hprep
  let g : List ℚ → ℚ := fun vals => ccsEval badCCS (fun j => vals.getD j 0) * vals.getD 3 0
  have hcomb : ∀ v : List ℚ, v.length = gm.length → linCombFn badCCS v = .ok (g v) := by
    intro v hv
    have hv' : v.length = 4 := hv
    rw [linCombFn_ok badCCS_shape.wf v (fun j hj => by
      rw [hused] at hj
      simp only [List.mem_cons, List.not_mem_nil, or_false] at hj
      omega) (by intro h; rw [h] at hv'; simp at hv'), hv']
  have hnum : ∀ m ∈ gm, m.numVars = 1 := by
    intro m hm
    simp only [hgm, List.mem_cons, List.not_mem_nil, or_false] at hm
    rcases hm with rfl | rfl | rfl | rfl <;> rfl
  obtain ⟨pst, hp, hrand⟩ := prove_ok (d := 3) (n := 1) (by omega) (by omega) T s1 gm hcomb hnum
  set s0 := T.absorb (T.absorb s1 ((1 : Nat) : ℚ)) ((3 : Nat) : ℚ) with hs0
  set proof := honestRun T g 3 1 s0 gm with hproof
  have hrl : pst.randomness.length = 1 := by
    rw [hrand, drawRun_length, honestRun_length]
  have hvE := evaluateMles_ok [(⟨1, [4]⟩ : Mle ℚ)] (pst.randomness.map (algebraMap ℚ ℚ))
    (by simp [hrl])
  have huE := evaluateMles_ok [(⟨1, [2, 2]⟩ : Mle ℚ), ⟨1, [4, 4]⟩] (pst.randomness.map (algebraMap ℚ ℚ))
    (by simp [hrl])
  have hver : ∀ c, c ≠ (2 : ℚ) → verifyAsSubprotocol T s1 1 3 c proof = .error .sumCheckFailed := by
    intro c hc
    rw [verify_eq T s1 1 3 (by omega) c proof (by rw [hproof, honestRun_length])]
    rw [List.take_of_length_le (by rw [hproof, honestRun_length])]
    have hm : proof = [(List.range (3 + 1)).map fun j : Nat => msgAt gm g 0 (j : ℚ)] := rfl
    rw [hm]
    simp only [drawRun, checkRec]
    rw [if_neg (by simp), idx_ok (by simp), idx_ok (by simp)]
    simp only [bind_ok', List.getElem_map, List.getElem_range, Nat.cast_zero, Nat.cast_one, msgAt_sum]
    have hsum : cubeSum gm (0 + 1) g = 2 := by
      simp only [cubeSum, hgm, g, ccsEval, badCCS, eqWeight, Mle.get, sum_range_succ, sum_range_zero,
        List.map_cons, List.map_nil, List.range_succ, List.range_zero, Nat.zero_add, pow_one,
        List.length_cons, List.length_nil, prod_range_succ, prod_range_zero]
      norm_num
      ring
    rw [if_pos (by rw [hsum]; exact fun h => hc h.symm)]
    rfl
  set rr := pst.randomness.map (algebraMap ℚ ℚ) with hrr
  refine ⟨⟨rr, [(⟨1, [4]⟩ : Mle ℚ)].map fun m => mle m.get rr, ⟨[7]⟩,
      [(⟨1, [2, 2]⟩ : Mle ℚ), ⟨1, [4, 4]⟩].map fun m => mle m.get rr, [], 1⟩,
    ⟨proof, [(⟨1, [4]⟩ : Mle ℚ)].map fun m => mle m.get rr,
      [(⟨1, [2, 2]⟩ : Mle ℚ), ⟨1, [4, 4]⟩].map fun m => mle m.get rr⟩, ?_, ?_, ?_⟩
  · exact T.absorbSlice (T.absorbSlice (drawRun T s0 proof).2
      ([(⟨1, [4]⟩ : Mle ℚ)].map fun m => mle m.get rr))
      ([(⟨1, [2, 2]⟩ : Mle ℚ), ⟨1, [4, 4]⟩].map fun m => mle m.get rr)
  · unfold linProve
    have h1 : badCCS.s = 1 := rfl
    have h3 : (CCCS.getZ (⟨⟨[7]⟩, []⟩ : CCCS ℚ) [4]) = [1, 4] := rfl
    simp only [h1, hsq, h3, hmz, bind_ok', hprep', hp, ← hrr, hvE, huE]
  · unfold linVerify
    have h1 : badCCS.s = 1 := rfl
    have h2 : badCCS.d + 1 = 3 := rfl
    simp only [h1, h2, hsq]
    rw [show verifyAsSubprotocol T s1 1 3 0 proof = .error .sumCheckFailed from hver 0 (by norm_num)]
    rfl

/-! ## C29 -/

/-- **C29**: on a well-formed CCS and a proof with at least `t` claimed evaluations `u`, the verifier
accepts with output `st` iff the sum-check accepts for claim `0` with a sub-claim whose value is
`eq(r, β) ∑_k c_k ∏_{j ∈ S_k} u_j`, and the output consists of the point, the claimed `v`, `u` and
the commitment and statement of the input with constant term 1. -/
theorem C29_verify_iff (T : Transcript F R σ) (s s' : σ) (cm : CCCS R) (proof : LinProof R)
    (ccs : CCS R) (wf : CCSWF ccs) (hu : ccs.M.length ≤ proof.u.length) (st : LCCCS R) :
    linVerify T s cm proof ccs = .ok (st, s') ↔
      ∃ sc s2, verifyAsSubprotocol T (squeezeBeta T s ccs.s).2 ccs.s (ccs.d + 1) 0 proof.sumcheck
          = .ok (sc, s2) ∧
        sc.expectedEvaluation
          = eqPoly (sc.point.map (algebraMap F R)) (squeezeBeta T s ccs.s).1
            * ccsEval ccs (fun j => proof.u.getD j 0) ∧
        st = ⟨sc.point.map (algebraMap F R), proof.v, cm.cm, proof.u, cm.x_ccs, 1⟩ ∧
        s' = T.absorbSlice (T.absorbSlice s2 proof.v) proof.u := by
  unfold linVerify
  simp only
  have hbl := squeezeBeta_length T s ccs.s
  rw [linClaim_ok wf proof.u hu]
  simp only [bind_ok']
  rw [bind_eq_ok]
  constructor
  · rintro ⟨⟨sc, s2⟩, h1, h2⟩
    have hpl : sc.point.length = ccs.s := by
      by_cases hn : ccs.s = 0
      · rw [hn, verify_zero] at h1; simp at h1
      by_cases hl : ccs.s ≤ proof.sumcheck.length
      · rw [verify_eq _ _ _ _ hn _ _ hl, bind_eq_ok] at h1
        obtain ⟨e, _, h1⟩ := h1
        simp only [Except.ok.injEq, Prod.mk.injEq] at h1
        rw [← h1.1]
        simp only [drawRun_length, List.length_take]
        omega
      · rw [verify_short _ _ _ _ _ _ (by omega)] at h1; simp at h1
    simp only at h2
    rw [eqEval_ok _ _ (by rw [List.length_map, hpl, hbl])] at h2
    simp only [bind_ok'] at h2
    split at h2
    · simp at h2
    · rename_i hne
      simp only [Except.ok.injEq, Prod.mk.injEq] at h2
      exact ⟨sc, s2, h1, (not_not.1 hne).symm, h2.1.symm, h2.2.symm⟩
  · rintro ⟨sc, s2, h1, h2, h3, h4⟩
    refine ⟨⟨sc, s2⟩, h1, ?_⟩
    have hpl : sc.point.length = ccs.s := by
      by_cases hn : ccs.s = 0
      · rw [hn, verify_zero] at h1; simp at h1
      by_cases hl : ccs.s ≤ proof.sumcheck.length
      · rw [verify_eq _ _ _ _ hn _ _ hl, bind_eq_ok] at h1
        obtain ⟨e, _, h1⟩ := h1
        simp only [Except.ok.injEq, Prod.mk.injEq] at h1
        rw [← h1.1]
        simp only [drawRun_length, List.length_take]
        omega
      · rw [verify_short _ _ _ _ _ _ (by omega)] at h1; simp at h1
    simp only
    rw [eqEval_ok _ _ (by rw [List.length_map, hpl, hbl])]
    simp only [bind_ok']
    rw [if_neg (by rw [h2]; simp), h3, h4]

/-- The hypotheses hold for the honest proof of the concrete CCS, and the characterisation gives the
value of its sub-claim. -/
example (T : Transcript ℚ ℚ σ) (s : σ) : ∃ (proof : LinProof ℚ) (sc : SubClaim ℚ ℚ) (s2 : σ),
    verifyAsSubprotocol T (squeezeBeta T s 1).2 1 3 0 proof.sumcheck = .ok (sc, s2) ∧
    sc.expectedEvaluation = eqPoly (sc.point.map (algebraMap ℚ ℚ)) (squeezeBeta T s 1).1
      * (proof.u.getD 0 0 * proof.u.getD 1 0 - proof.u.getD 2 0) := by
  obtain ⟨st, proof, s', h1, h2, _, _, _, _, h3⟩ := C27_linearization_complete T s ⟨⟨[7]⟩, [3]⟩
    (⟨[5, 15], [], [], [⟨1, [5, 15]⟩]⟩ : Witness ℚ Unit) exLin exLin_shape exLin_aligned
    (charGt_rat _) rfl exLin_holds (by decide)
  have hst : st.u = proof.u := by
    unfold linVerify at h2
    simp only [bind_eq_ok] at h2
    obtain ⟨_, _, e, _, c, _, h2⟩ := h2
    split at h2
    · simp at h2
    · simp only [Except.ok.injEq, Prod.mk.injEq] at h2
      rw [← h2.1]
  have hu : proof.u.length = 3 := by
    rw [← hst, h3.u]; rfl
  obtain ⟨sc, s2, h4, h5, -⟩ := (C29_verify_iff T s s' ⟨⟨[7]⟩, [3]⟩ proof exLin exLin_shape.wf
    (by rw [hu]; decide) st).1 h2
  refine ⟨proof, sc, s2, h4, ?_⟩
  rw [h5]
  simp only [ccsEval, exLin, sum_range_succ, sum_range_zero, List.getD_cons_zero, List.getD_cons_succ,
    List.map_cons, List.map_nil, List.prod_cons, List.prod_nil]
  ring

/-- **C29**, malformed proofs: a proof with no claimed evaluations `u` at all is not rejected but
aborts the verifier (on any CCS whose first multiset is non-empty) once its sum-check part passes. -/
theorem C29_missing_u_panics (T : Transcript F R σ) (s s2 : σ) (cm : CCCS R) (proof : LinProof R)
    (ccs : CCS R) (sc : SubClaim F R) (c0 : R) (cs : List R) (j : Nat) (js : List Nat)
    (Ss : List (List Nat)) (hc : ccs.c = c0 :: cs) (hS : ccs.S = (j :: js) :: Ss) (hu : proof.u = [])
    (hsc : verifyAsSubprotocol T (squeezeBeta T s ccs.s).2 ccs.s (ccs.d + 1) 0 proof.sumcheck
      = .ok (sc, s2)) (hpt : sc.point.length = ccs.s) :
    linVerify T s cm proof ccs = .error (.panic "proof.u[j]") := by
  unfold linVerify
  simp only
  rw [hsc]
  simp only [bind_ok']
  rw [eqEval_ok _ _ (by rw [List.length_map, hpt, squeezeBeta_length])]
  have : linClaim ccs proof.u = .error (.panic "proof.u[j]") := by
    unfold linClaim
    rw [hc, hu, hS]
    simp [List.zipIdx, mapRes, idx]
  rw [this]
  rfl

/-- A proof with an all-zero sum-check part and no `u` aborts the verifier. -/
example : linVerify (coinT ℚ ℚ) [2, 3] ⟨⟨[7]⟩, [3]⟩ ⟨[[0, 0, 0, 0]], [], []⟩ exLin
    = .error (.panic "proof.u[j]") :=
  C29_missing_u_panics (coinT ℚ ℚ) [2, 3] [] ⟨⟨[7]⟩, [3]⟩ ⟨[[0, 0, 0, 0]], [], []⟩ exLin ⟨[3], 0⟩
    1 [-1] 0 [1] [[2]] rfl rfl rfl (by decide +kernel) rfl

end Verif.Props
