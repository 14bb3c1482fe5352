import Verif.Lemmas.Sumcheck
import Verif.Spec.Linearization

/-! Helper lemmas for linearization. -/

set_option linter.unusedSectionVars false
set_option linter.unusedSimpArgs false

namespace Verif

open Finset Polynomial Spec

variable {F R C σ : Type} [Field F] [DecidableEq F] [CommRing R] [DecidableEq R] [Algebra F R]

theorem zipIdx_eq_range {α : Type} (l : List α) (d : α) :
    l.zipIdx = (List.range l.length).map fun k => (l.getD k d, k) := by
  apply List.ext_getElem
  · simp
  · intro i h1 h2
    have : i < l.length := by simpa using h1
    simp [this]

theorem challenges_length (T : Transcript F R σ) (n : Nat) (s : σ) :
    (T.challenges n s).1.length = n := by
  induction n generalizing s with
  | zero => rfl
  | succ n ih => simp [Transcript.challenges, ih]

theorem squeezeBeta_length (T : Transcript F R σ) (s : σ) (n : Nat) :
    (squeezeBeta T s n).1.length = n := by
  simp [squeezeBeta, challenges_length]

/-- The tables of `M_j z`. -/
def mzTables (ccs : CCS R) (z : List R) : List (Mle R) :=
  ccs.M.map fun M => ⟨ccs.s, (List.range M.nrows).map fun i => mulVec M z i⟩

theorem mzTables_get {ccs : CCS R} (wf : CCSWF ccs) (z : List R) {M : SpMat R} (hM : M ∈ ccs.M) (i : Nat) :
    (⟨ccs.s, (List.range M.nrows).map fun i => mulVec M z i⟩ : Mle R).get i = mulVec M z i := by
  by_cases hj : i < M.nrows
  · exact get_map_range _ _ _ hj
  · rw [mulVec_out (wf.wfM _ hM).1 z (by omega)]
    simp [Mle.get, List.getD_eq_getElem?_getD, hj]

theorem calculateMzMles_ok {ccs : CCS R} (wf : CCSWF ccs) {z : List R} (hz : z.length = ccs.n)
    (hrows : ∀ M ∈ ccs.M, M.nrows ≤ 2 ^ ccs.s) :
    calculateMzMles ccs z = .ok (mzTables ccs z) := by
  unfold calculateMzMles toMlesErr mzTables
  rw [show ccs.M.map (fun M => matVecMul M z)
      = ccs.M.map (fun M => Except.ok ((List.range M.nrows).map fun i => mulVec M z i)) from
    List.map_congr_left fun M hM =>
      matVecMul_wf (wf.wfM M hM).1 (by rw [hz, (wf.wfM M hM).2])]
  have key : ∀ Ms : List (SpMat R), (∀ M ∈ Ms, M.nrows ≤ 2 ^ ccs.s) →
      mapRes (fun m : Res (List R) => match m with
        | .error e => .error e
        | .ok m => if 2 ^ ccs.s < m.length then .error (.mleIncorrectLength (2 ^ ccs.s) m.length)
          else Mle.fromEvals ccs.s m)
        (Ms.map (fun M => Except.ok ((List.range M.nrows).map fun i => mulVec M z i)))
      = .ok (Ms.map fun M => ⟨ccs.s, (List.range M.nrows).map fun i => mulVec M z i⟩) := by
    intro Ms
    induction Ms with
    | nil => intro _; rfl
    | cons M Ms ih =>
      intro h
      simp only [List.map_cons, mapRes]
      have hM := h M (by simp)
      rw [if_neg (by simpa using hM), fromEvals_ok _ _ (by simpa using hM),
        ih (fun x hx => h x (by simp [hx]))]
  exact key ccs.M hrows

theorem ccsRow_eq (ccs : CCS R) (z : List R) (i : Nat) :
    ccsRow ccs z i = ccsEval ccs fun j => mulVec (ccs.M.getD j ⟨0, 0, []⟩) z i := rfl

theorem ccsEval_congr {ccs : CCS R} {x y : Nat → R} (h : ∀ j ∈ usedIdx ccs, x j = y j) :
    ccsEval ccs x = ccsEval ccs y := by
  unfold ccsEval
  apply sum_congr rfl
  intro k hk
  by_cases hc : ccs.c.getD k 0 = 0
  · rw [hc, zero_mul, zero_mul]
  · congr 2
    apply List.map_congr_left
    intro j hj
    apply h
    unfold usedIdx
    rw [List.mem_flatten]
    exact ⟨_, List.mem_map.2 ⟨k, List.mem_filter.2 ⟨by simpa using hk, by simpa using hc⟩, rfl⟩, hj⟩

theorem combTerm_ok (vals : List R) (js : List Nat) (t : R) (h : ∀ j ∈ js, j < vals.length) :
    ∃ o, combTerm vals js t = .ok o ∧ o.getD 0 = t * (js.map fun j => vals.getD j 0).prod := by
  induction js generalizing t with
  | nil => exact ⟨some t, rfl, by simp⟩
  | cons j js ih =>
    rw [combTerm, idx_getD 0 (h j (by simp))]
    simp only [bind_ok']
    split
    · rename_i h0
      exact ⟨none, rfl, by simp only [List.map_cons, List.prod_cons, h0]; simp⟩
    · obtain ⟨o, h1, h2⟩ := ih (t * vals.getD j 0) (fun x hx => h x (by simp [hx]))
      exact ⟨o, h1, by rw [h2]; simp only [List.map_cons, List.prod_cons]; ring⟩

theorem linCombFn_ok {ccs : CCS R} (wf : CCSWF ccs) (vals : List R)
    (hj : ∀ j ∈ usedIdx ccs, j < vals.length) (hv : vals ≠ []) :
    linCombFn ccs vals
      = .ok (ccsEval ccs (fun j => vals.getD j 0) * vals.getD (vals.length - 1) 0) := by
  have hl : vals.length ≠ 0 := by simpa using hv
  unfold linCombFn
  rw [zipIdx_eq_range ccs.c 0, wf.lenC]
  have key : ∀ N ≤ ccs.q, foldRes (linCombStep ccs vals) 0 ((List.range N).map fun k => (ccs.c.getD k 0, k))
      = .ok (∑ k ∈ range N, ccs.c.getD k 0 * ((ccs.S.getD k []).map fun j => vals.getD j 0).prod) := by
    intro N
    induction N with
    | zero => intro _; rfl
    | succ N ih =>
      intro hN
      rw [List.range_succ, List.map_append, foldRes_append, ih (by omega), sum_range_succ]
      simp only [bind_ok', List.map_cons, List.map_nil, foldRes, linCombStep]
      by_cases hc : ccs.c.getD N 0 = 0
      · simp only [hc, if_true, zero_mul, add_zero]
      · simp only [hc, if_false]
        rw [idx_getD [] (by rw [wf.lenS]; omega)]
        simp only [bind_ok']
        obtain ⟨o, h1, h2⟩ := combTerm_ok vals (ccs.S.getD N []) (ccs.c.getD N 0) (fun j hjm => hj j (by
          unfold usedIdx
          rw [List.mem_flatten]
          exact ⟨_, List.mem_map.2 ⟨N, List.mem_filter.2 ⟨by simp; omega, by simpa using hc⟩, rfl⟩, hjm⟩))
        rw [h1, ← h2]
        simp only [bind_ok']
        cases o <;> simp
  rw [key ccs.q (le_refl _)]
  simp only [bind_ok']
  unfold usub
  rw [if_pos (by omega)]
  simp only [bind_ok']
  rw [idx_getD 0 (by omega)]
  rfl

theorem linClaim_ok {ccs : CCS R} (wf : CCSWF ccs) (u : List R) (hu : ccs.M.length ≤ u.length) :
    linClaim ccs u = .ok (ccsEval ccs fun j => u.getD j 0) := by
  unfold linClaim
  rw [zipIdx_eq_range ccs.c 0, wf.lenC]
  rw [mapRes_ok (g := fun ci : R × Nat => ci.1 * ((ccs.S.getD ci.2 []).map fun j => u.getD j 0).prod)]
  · simp only [bind_ok', List.map_map, Function.comp_def]
    rw [sum_map_range]
    rfl
  · intro ci hci
    obtain ⟨k, hk, rfl⟩ := List.mem_map.1 hci
    have hk' : k < ccs.S.length := by rw [wf.lenS]; simpa using hk
    rw [idx_getD [] hk']
    simp only [bind_ok']
    rw [mapRes_ok (g := fun j => u.getD j 0)]
    · rfl
    · intro j hj
      apply idx_getD
      refine lt_of_lt_of_le (wf.idxS (ccs.S.getD k []) ?_ j hj) hu
      rw [List.getD_eq_getElem?_getD, List.getElem?_eq_getElem hk']
      exact List.getElem_mem hk'

theorem usedIdx_lt {ccs : CCS R} (wf : CCSWF ccs) {j : Nat} (hj : j ∈ usedIdx ccs) :
    j < ccs.M.length := by
  unfold usedIdx at hj
  rw [List.mem_flatten] at hj
  obtain ⟨l, hl, hjl⟩ := hj
  obtain ⟨k, hk, rfl⟩ := List.mem_map.1 hl
  have hk' : k < ccs.S.length := by
    rw [wf.lenS]; simpa using (List.mem_filter.1 hk).1
  refine wf.idxS _ ?_ j hjl
  rw [List.getD_eq_getElem?_getD, List.getElem?_eq_getElem hk']
  exact List.getElem_mem hk'

theorem prepareLinPoly_ok {ccs : CCS R} (wf : CCSWF ccs) (mz : List (Mle R))
    (hmz : mz.length = ccs.M.length) (beta : List R) (hb : beta ≠ []) :
    prepareLinPoly ccs.c ccs.d mz ccs.S beta
      = .ok ((usedIdx ccs).map (fun j => mz.getD j ⟨0, []⟩) ++
          [⟨beta.length, (List.range (2 ^ beta.length)).map fun i => eqWeight beta i⟩], ccs.d + 1) := by
  unfold prepareLinPoly
  rw [zipIdx_eq_range ccs.c 0, wf.lenC, List.filter_map]
  rw [mapRes_ok (g := fun ci : R × Nat => (ccs.S.getD ci.2 []).map fun j => mz.getD j ⟨0, []⟩)]
  · simp only [bind_ok']
    rw [buildEq_ok beta hb]
    simp only [bind_ok']
    unfold usedIdx
    rw [List.map_flatten, List.map_map, List.map_map]
    rfl
  · intro ci hci
    obtain ⟨k, hk, rfl⟩ := List.mem_map.1 hci
    have hk' : k < ccs.S.length := by
      rw [wf.lenS]; simpa using (List.mem_filter.1 hk).1
    rw [idx_getD [] hk']
    simp only [bind_ok']
    rw [mapRes_ok (g := fun j => mz.getD j ⟨0, []⟩)]
    intro j hj
    apply idx_getD
    rw [hmz]
    refine wf.idxS (ccs.S.getD k []) ?_ j hj
    rw [List.getD_eq_getElem?_getD, List.getElem?_eq_getElem hk']
    exact List.getElem_mem hk'

/-- The combining function is a polynomial of degree `d + 1`. -/
theorem linComb_deg {ccs : CCS R} (sh : LinShape ccs) (k : Nat) :
    LineDeg k (ccs.d + 1) fun vals : List R =>
      ccsEval ccs (fun j => vals.getD j 0) * vals.getD (k - 1) 0 := by
  refine LineDeg.mul ?_ (lineDeg_coord k (k - 1))
  unfold ccsEval
  refine LineDeg.sum _ fun i hi => ?_
  by_cases hc : ccs.c.getD i 0 = 0
  · simp only [hc, zero_mul]; exact lineDeg_const _ _ _
  · refine LineDeg.smul _ ?_
    refine LineDeg.mono ?_ (sh.deg i (by simpa using hi) hc)
    exact LineDeg.list_prod (ccs.S.getD i []) (g := fun j (v : List R) => v.getD j 0)
      fun j _ => lineDeg_coord k j

/-- Value of the `j`-th entry in the value list for an aligned CCS. -/
theorem aligned_getD {ccs : CCS R} (al : Aligned ccs) {j : Nat} (hj : j ∈ usedIdx ccs) (x : Nat → R)
    (e : R) : ((usedIdx ccs).map x ++ [e]).getD j 0 = x j := by
  have h := al j hj
  have hlt : j < (usedIdx ccs).length := by
    by_contra hge
    rw [List.getElem?_eq_none (by omega)] at h
    simp at h
  rw [List.getD_eq_getElem?_getD, List.getElem?_append_left (by simpa using hlt), List.getElem?_map, h]
  rfl

theorem aligned_lt {ccs : CCS R} (al : Aligned ccs) {j : Nat} (hj : j ∈ usedIdx ccs) :
    j < (usedIdx ccs).length := by
  by_contra hge
  have h := al j hj
  rw [List.getElem?_eq_none (by omega)] at h
  simp at h

theorem getD_map_last (l : List R) (e : R) (k : Nat) (hk : k = l.length) : (l ++ [e]).getD k 0 = e := by
  subst hk; simp [List.getD_eq_getElem?_getD]

end Verif
