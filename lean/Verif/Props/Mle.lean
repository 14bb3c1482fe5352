import Verif.Lemmas.Mle
import Verif.Lemmas.Arith

/-!
# Property theorems: equality polynomial, multilinear extensions, bits (C15 - C19)
-/

set_option linter.unusedSectionVars false
set_option linter.unusedSimpArgs false

namespace Verif.Props

open Finset Verif Verif.Spec

variable {R : Type} [CommRing R]

/-! ## C15 -/

/-- **C15**: `eq_eval` returns the product formula on points of equal length and the documented
error otherwise; in particular it is total. -/
theorem C15_eq_eval (x y : List R) :
    (x.length = y.length → eqEval x y = .ok (eqPoly x y)) ∧
    (x.length ≠ y.length → eqEval x y = .error .invalidParameters) := by
  refine ⟨eqEval_ok x y, fun h => ?_⟩
  unfold eqEval; rw [if_pos h]

/-- **C15**: the table-based equality polynomial evaluated at `y` equals `eq_eval`. An empty `r` is
rejected by the table builder; a `y` of the wrong dimension is rejected by the evaluation. -/
theorem C15_table_agrees (r y : List R) :
    (r = [] → buildEq r = .error .invalidParameters) ∧
    (r ≠ [] → ∃ m, buildEq r = .ok m ∧ m.numVars = r.length ∧
      (y.length = r.length → evaluateMle m y = eqEval r y) ∧
      (y.length ≠ r.length → ∃ e, evaluateMle m y = .error e)) := by
  constructor
  · rintro rfl; rfl
  · intro h
    refine ⟨_, buildEq_ok r h, rfl, fun hy => ?_, fun hy => ?_⟩
    · rw [evaluateMle_ok _ _ hy, eqEval_ok _ _ hy.symm, ← mle_eqWeight r y hy.symm]
      congr 1
      apply mle_congr
      intro i hi
      rw [hy] at hi
      exact get_map_range _ _ _ hi
    · exact ⟨_, evaluateMle_err _ _ hy⟩

example : eqEval [3, 5] [(2 : Int), 7] = .ok (8 * 59) := by rfl
example : ∃ m, buildEq [(3 : Int), 5] = .ok m ∧ evaluateMle m [2, 7] = .ok 472 := ⟨_, rfl, by decide⟩

/-! ## C16 -/

/-- **C16**: number of entries, each entry, and their sum. -/
theorem C16_table_entries (r : List R) (h : r ≠ []) :
    ∃ t, buildEqVec r = .ok t ∧ t.length = 2 ^ r.length ∧
      (∀ i < 2 ^ r.length,
        t[i]? = some (∏ k ∈ range r.length, if i.testBit k then r.getD k 0 else 1 - r.getD k 0)) ∧
      t.sum = 1 := by
  refine ⟨_, buildEqHelper_ok r h, by simp, fun i hi => ?_, ?_⟩
  · rw [List.getElem?_map, List.getElem?_range hi]; rfl
  · rw [sum_map_range, sum_eqWeight]

/-- **C16**, boolean `r`: the table is the indicator of `r`. -/
theorem C16_table_indicator (n i : Nat) (hn : 0 < n) (hi : i < 2 ^ n) :
    buildEqVec (boolPoint n i : List R)
      = .ok ((List.range (2 ^ n)).map fun j => if i = j then 1 else 0) := by
  have hne : (boolPoint n i : List R) ≠ [] := by
    intro h; have := congrArg List.length h; rw [boolPoint_length] at this; simp at this; omega
  unfold buildEqVec
  rw [buildEqHelper_ok _ hne, boolPoint_length]
  congr 1
  apply List.map_congr_left
  intro j hj
  exact eqWeight_boolPoint hi (List.mem_range.1 hj)

example : buildEqVec [(3 : Int), 5] = .ok [8, -12, -10, 15] := by rfl
example : buildEqVec (boolPoint 2 2 : List Int) = .ok [0, 0, 1, 0] := by rfl

/-! ## C17 -/

/-- **C17**: evaluation is the hypercube sum; an error is returned iff the dimension is wrong
(every evaluation entry point). -/
theorem C17_evaluate (m : Mle R) (v p : List R) :
    (p.length = m.numVars → evaluateMle m p
      = .ok (∑ i ∈ range (2 ^ p.length), m.get i * eqWeight p i)) ∧
    (p.length ≠ m.numVars →
      evaluateMle m p = .error (.mleIncorrectLength p.length m.evals.length)) ∧
    (v.length ≤ 2 ^ p.length → evaluateVec v p
      = .ok (∑ i ∈ range (2 ^ p.length), v.getD i 0 * eqWeight p i)) ∧
    (2 ^ p.length < v.length → (evaluateVec v p).isPanic = true) ∧
    (v.length = 2 ^ p.length → evaluateRefVec v p
      = .ok (∑ i ∈ range (2 ^ p.length), v.getD i 0 * eqWeight p i)) ∧
    (v.length ≠ 2 ^ p.length →
      evaluateRefVec v p = .error (.mleIncorrectLength p.length v.length)) := by
  refine ⟨evaluateMle_ok m p, evaluateMle_err m p, evaluateVec_ok v p, fun h => ?_,
    evaluateRefVec_ok v p, fun h => ?_⟩
  · rw [evaluateVec_panic v p (by omega)]; rfl
  · unfold evaluateRefVec; rw [if_pos h]

/-- **C17**: the evaluation interpolates the table on boolean points and is affine in each
coordinate; these two facts characterise the multilinear extension. -/
theorem C17_multilinear (m : Mle R) :
    (∀ i < 2 ^ m.numVars, evaluateMle m (boolPoint m.numVars i) = .ok (m.get i)) ∧
    (∀ (p q : List R) (t : R), p.length + 1 + q.length = m.numVars →
      ∃ a b, evaluateMle m (p ++ 0 :: q) = .ok a ∧ evaluateMle m (p ++ 1 :: q) = .ok b ∧
        evaluateMle m (p ++ t :: q) = .ok ((1 - t) * a + t * b)) := by
  constructor
  · intro i hi
    rw [evaluateMle_ok _ _ (boolPoint_length _ _), mle_boolPoint _ hi]
  · intro p q t h
    refine ⟨_, _, evaluateMle_ok _ _ ?_, evaluateMle_ok _ _ ?_, ?_⟩
    · simp; omega
    · simp; omega
    · rw [evaluateMle_ok _ _ (by simp; omega), mle_affine]

/-- **C17**: linearity in the table. -/
theorem C17_linear (n : Nat) (v w p : List R) (c : R) (hv : v.length = w.length)
    (h : p.length = n) :
    ∃ a b, evaluateMle ⟨n, v⟩ p = .ok a ∧ evaluateMle ⟨n, w⟩ p = .ok b ∧
      evaluateMle ⟨n, List.zipWith (fun x y => x + c * y) v w⟩ p = .ok (a + c * b) := by
  refine ⟨_, _, evaluateMle_ok _ _ h, evaluateMle_ok _ _ h, ?_⟩
  rw [evaluateMle_ok _ _ h, ← mle_smul, ← mle_add]
  congr 1
  apply mle_congr
  intro i _
  unfold Mle.get
  simp only [List.getD_eq_getElem?_getD, List.getElem?_zipWith]
  by_cases hi : i < v.length
  · have hi' : i < w.length := hv ▸ hi
    simp [hi, hi']
  · have hi' : ¬ i < w.length := hv ▸ hi
    simp [hi, hi']

/-- **C17**: a list of MLEs is evaluated entry by entry. -/
theorem C17_evaluate_mles (ms : List (Mle R)) (p : List R) :
    (∀ vs, evaluateMles ms p = .ok vs ↔
      (∀ m ∈ ms, m.numVars = p.length) ∧ vs = ms.map fun m => mle m.get p) := by
  intro vs
  constructor
  · intro h
    unfold evaluateMles at h
    have hlen : ∀ m ∈ ms, m.numVars = p.length := by
      rw [mapRes_eq_ok_iff] at h
      intro m hm
      by_contra hne
      induction h with
      | nil => simp at hm
      | cons hab _ ih =>
        rcases List.mem_cons.1 hm with rfl | hm'
        · rw [evaluateMle_err _ _ (Ne.symm hne)] at hab; simp at hab
        · exact ih hm'
    refine ⟨hlen, ?_⟩
    have := evaluateMles_ok ms p (fun m hm => (hlen m hm).symm)
    unfold evaluateMles at this
    rw [this] at h
    simpa using h.symm
  · rintro ⟨h1, rfl⟩
    exact evaluateMles_ok ms p (fun m hm => (h1 m hm).symm)

/-- A truncated table (3 of 4 entries). -/
example : evaluateMle ⟨2, [1, 2, 3]⟩ [(5 : Int), 7]
    = .ok (1 * (-4) * (-6) + 2 * 5 * (-6) + 3 * (-4) * 7) := by decide
example : evaluateRefVec [(1 : Int), 2, 3] [5, 7] = .error (.mleIncorrectLength 2 3) := by rfl

/-! ## C18 -/

/-- **C18**: success iff every entry is a vector that fits; then table `i` is vector `i`. -/
theorem C18_to_mles_ok (n : Nat) (ms : List (Res (List R))) (out : List (Mle R)) :
    toMlesErr n ms = .ok out ↔
      ∃ vs : List (List R), ms = vs.map .ok ∧ (∀ v ∈ vs, v.length ≤ 2 ^ n) ∧
        out = vs.map fun v => ⟨n, v⟩ := by
  unfold toMlesErr
  rw [mapRes_eq_ok_iff]
  constructor
  · intro h
    induction h with
    | nil => exact ⟨[], rfl, by simp, rfl⟩
    | @cons a b as bs hab _ ih =>
      obtain ⟨vs, rfl, h2, rfl⟩ := ih
      cases a with
      | error e => simp at hab
      | ok v =>
        simp only at hab
        split at hab
        · simp at hab
        · rename_i hlt
          rw [fromEvals_ok _ _ (by omega)] at hab
          refine ⟨v :: vs, rfl, ?_, ?_⟩
          · intro w hw
            rcases List.mem_cons.1 hw with rfl | hw
            · omega
            · exact h2 w hw
          · simp at hab; simp [hab]
  · rintro ⟨vs, rfl, h2, rfl⟩
    induction vs with
    | nil => exact .nil
    | cons v vs ih =>
      refine .cons ?_ (ih fun w hw => h2 w (by simp [hw]))
      have hv := h2 v (by simp)
      simp only
      rw [if_neg (by omega), fromEvals_ok _ _ hv]

/-- **C18**: the first bad entry decides the error: an error entry is propagated, a too long vector
gives the length error; the conversion itself never aborts. -/
theorem C18_to_mles_err (n : Nat) (pre post : List (Res (List R))) (bad : Res (List R))
    (hpre : ∀ m ∈ pre, ∃ v, m = .ok v ∧ v.length ≤ 2 ^ n) :
    (∀ e, bad = .error e → toMlesErr n (pre ++ bad :: post) = .error e) ∧
    (∀ v, bad = .ok v → 2 ^ n < v.length →
      toMlesErr n (pre ++ bad :: post) = .error (.mleIncorrectLength (2 ^ n) v.length)) := by
  unfold toMlesErr
  constructor
  · rintro e rfl
    induction pre with
    | nil => rfl
    | cons m pre ih =>
      obtain ⟨v, rfl, hv⟩ := hpre m (by simp)
      have ih := ih fun m hm => hpre m (by simp [hm])
      simp only [List.cons_append, mapRes]
      rw [if_neg (by omega), fromEvals_ok _ _ hv]
      simp only
      rw [ih]
  · rintro v rfl hlt
    induction pre with
    | nil => simp only [List.nil_append, mapRes]; rw [if_pos hlt]
    | cons m pre ih =>
      obtain ⟨v', rfl, hv⟩ := hpre m (by simp)
      have ih := ih fun m hm => hpre m (by simp [hm])
      simp only [List.cons_append, mapRes]
      rw [if_neg (by omega), fromEvals_ok _ _ hv]
      simp only
      rw [ih]

/-- **C18**: the tables of `M_i z` for a well-formed CCS whose matrices fit in `2^s` rows: entry `j`
of table `i` is `(M_i z)_j`, and evaluating table `i` at a point of dimension `s` gives the
multilinear extension of `M_i z`. -/
theorem C18_Mz_mles (ccs : CCS R) (wf : CCSWF ccs) (z : List R) (hz : z.length = ccs.n)
    (hrows : ∀ M ∈ ccs.M, M.nrows ≤ 2 ^ ccs.s) :
    ∃ mz, calculateMzMles ccs z = .ok mz ∧ mz.length = ccs.M.length ∧
      (∀ i (hi : i < ccs.M.length), ∃ m, mz[i]? = some m ∧ m.numVars = ccs.s ∧
        ∀ j, m.get j = mulVec ccs.M[i] z j) := by
  have h1 : ccs.M.map (fun M => matVecMul M z)
      = (ccs.M.map fun M => (List.range M.nrows).map fun i => mulVec M z i).map .ok := by
    rw [List.map_map]
    apply List.map_congr_left
    intro M hM
    rw [matVecMul_wf (wf.wfM M hM).1 (by rw [hz, (wf.wfM M hM).2])]
    rfl
  refine ⟨ccs.M.map fun M => ⟨ccs.s, (List.range M.nrows).map fun i => mulVec M z i⟩, ?_, by simp, ?_⟩
  · unfold calculateMzMles
    rw [C18_to_mles_ok]
    refine ⟨_, h1, ?_, by rw [List.map_map]; rfl⟩
    intro v hv
    obtain ⟨M, hM, rfl⟩ := List.mem_map.1 hv
    simpa using hrows M hM
  · intro i hi
    refine ⟨⟨ccs.s, (List.range (ccs.M[i]).nrows).map fun j => mulVec ccs.M[i] z j⟩,
      by simp [hi], rfl, fun j => ?_⟩
    by_cases hj : j < (ccs.M[i]).nrows
    · exact get_map_range _ _ _ hj
    · rw [mulVec_out (wf.wfM _ (List.getElem_mem hi)).1 z (by omega)]
      simp [Mle.get, List.getD_eq_getElem?_getD, hj]

example : toMlesErr 1 [.ok [(1 : Int), 2], .ok [3]] = .ok [⟨1, [1, 2]⟩, ⟨1, [3]⟩] := by rfl
example : toMlesErr 1 [.ok [(1 : Int), 2, 3], .error .incorrectLength]
    = .error (.mleIncorrectLength 2 3) := by rfl

/-! ## C19 -/

theorem bitsValue_cons (b : Bool) (bs : List Bool) :
    bitsValue (b :: bs) = (if b then 1 else 0) + 2 * bitsValue bs := by
  unfold bitsValue
  rw [List.length_cons, sum_range_succ', mul_sum]
  simp only [List.getD_cons_zero, List.getD_cons_succ, pow_zero]
  rw [add_comm]
  congr 1
  apply sum_congr rfl
  intro k _
  split <;> simp [pow_succ, mul_comm]

/-- **C19**: `num_var` booleans, bit `k` is bit `k` of the input, value is the input modulo
`2^num_var`. -/
theorem C19_bit_decompose (input n : Nat) :
    (bitDecompose input n).length = n ∧
    bitsValue (bitDecompose input n) = input % 2 ^ n ∧
    ∀ k < n, (bitDecompose input n)[k]? = some (input.testBit k) := by
  induction n generalizing input with
  | zero => exact ⟨rfl, by simp [bitDecompose, bitsValue, Nat.mod_one], by simp⟩
  | succ n ih =>
    obtain ⟨h1, h2, h3⟩ := ih (input / 2)
    refine ⟨by simp [bitDecompose, h1], ?_, ?_⟩
    · rw [bitDecompose, bitsValue_cons, h2, pow_succ, mul_comm (2 ^ n) 2, Nat.mod_mul]
      rcases Nat.mod_two_eq_zero_or_one input with h | h <;> simp [h]
    · intro k hk
      cases k with
      | zero => simp [bitDecompose, Nat.testBit_zero]
      | succ k =>
        simp only [bitDecompose, List.getElem?_cons_succ, Nat.testBit_succ]
        exact h3 k (by omega)

example : bitDecompose 13 6 = [true, false, true, true, false, false] := by rfl

end Verif.Props
