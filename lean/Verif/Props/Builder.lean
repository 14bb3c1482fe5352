import Verif.Props.ConstraintSystem

/-!
# Property theorems: malformed instances and the builder (C05, C06, C10, C13)
-/

set_option linter.unusedSectionVars false
set_option linter.unusedSimpArgs false

namespace Verif.Props

open Finset Verif Verif.Spec

variable {R : Type} [CommRing R] [DecidableEq R]

/-! ## C05, C06: mismatched numbers of rows -/

/-- **C05**, shape: matrices `A` and `B` with different numbers of rows are refused on every vector of
the right length, whatever `C` is; the error names the two numbers. -/
theorem C05_shape_refused (cs : R1CS R) (wfA : cs.A.WF) (wfB : cs.B.WF) (wfC : cs.C.WF)
    (colsB : cs.B.ncols = cs.A.ncols) (colsC : cs.C.ncols = cs.A.ncols)
    (hrows : cs.B.nrows ≠ cs.A.nrows) (z : List R) (hz : z.length = cs.A.ncols) :
    cs.checkRelation z = .error (.lengthsNotEqual cs.A.nrows cs.B.nrows) := by
  unfold R1CS.checkRelation
  rw [matVecMul_wf wfA hz, matVecMul_wf wfB (by rw [colsB, hz]),
    matVecMul_wf wfC (by rw [colsC, hz])]
  simp [hadamard, Ne.symm hrows]

example : (⟨0, ⟨2, 1, [[(1, 0)], []]⟩, ⟨1, 1, [[(1, 0)]]⟩, ⟨1, 1, [[(1, 0)]]⟩⟩ :
    R1CS Int).checkRelation [1] = .error (.lengthsNotEqual 2 1) := rfl

/-- **C06**, shape: an error vector whose length is not the number of rows is refused on every vector
of the right length; so are `A` and `B` with different numbers of rows. -/
theorem C06_shape_refused (cs : RelaxedR1CS R) (wfA : cs.A.WF) (wfB : cs.B.WF) (wfC : cs.C.WF)
    (colsB : cs.B.ncols = cs.A.ncols) (colsC : cs.C.ncols = cs.A.ncols)
    (z : List R) (hz : z.length = cs.A.ncols) :
    (cs.E.length ≠ cs.C.nrows →
      cs.checkRelation z = .error (.lengthsNotEqual cs.C.nrows cs.E.length)) ∧
    (cs.E.length = cs.C.nrows → cs.B.nrows ≠ cs.A.nrows →
      cs.checkRelation z = .error (.lengthsNotEqual cs.A.nrows cs.B.nrows)) := by
  unfold RelaxedR1CS.checkRelation
  rw [matVecMul_wf wfA hz, matVecMul_wf wfB (by rw [colsB, hz]),
    matVecMul_wf wfC (by rw [colsC, hz])]
  refine ⟨fun h => ?_, fun h h' => ?_⟩
  · simp [vecAdd, vecScalarMul, Ne.symm h]
  · simp [vecAdd, vecScalarMul, h, hadamard, Ne.symm h']

example : (⟨0, ⟨1, 1, [[(1, 0)]]⟩, ⟨1, 1, [[(1, 0)]]⟩, ⟨1, 1, [[(1, 0)]]⟩, 1, [0, 0]⟩ :
    RelaxedR1CS Int).checkRelation [1] = .error (.lengthsNotEqual 1 2) := rfl

/-! ## C10: the builder -/

/-- **C10**, linear combinations: after any sequence of `add_term` and `add_terms` the value is the
sum of all terms that were added, and adding never loses earlier ones. -/
theorem C10_terms_add (lc : LinComb R) (c : R) (i : Nat) (ts : List (R × Nat)) (z : List R)
    (hl : ∀ t ∈ lc.terms, t.2 < z.length) (hi : i < z.length) (ht : ∀ t ∈ ts, t.2 < z.length) :
    (∃ v, lc.evaluate z = .ok v ∧
      (lc.addTerm c i).evaluate z = .ok (v + c * z[i]) ∧
      (lc.addTerms ts).evaluate z = .ok (v + (ts.map fun t => t.1 * z.getD t.2 0).sum)) ∧
    (LinComb.new : LinComb R).evaluate z = .ok 0 ∧
    (LinComb.singleTerm c i).evaluate z = .ok (c * z[i]) := by
  have hfold : ∀ (l : List (R × Nat)), ts.foldl (fun acc t => acc ++ [t]) l = l ++ ts := by
    clear ht
    induction ts with
    | nil => simp
    | cons t ts ih => intro l; simp [ih]
  have hz : z.getD i 0 = z[i] := by simp [hi]
  refine ⟨⟨termsValue lc.terms z, evaluate_ok hl, ?_, ?_⟩, ?_, ?_⟩
  · rw [evaluate_ok]
    · simp [LinComb.addTerm, termsValue, ← hz]
    · intro t h
      rcases List.mem_append.1 h with h | h
      · exact hl t h
      · rw [List.mem_singleton.1 h]; exact hi
  · rw [evaluate_ok]
    · simp [LinComb.addTerms, hfold, termsValue]
    · simp only [LinComb.addTerms, hfold]
      intro t h
      rcases List.mem_append.1 h with h | h
      · exact hl t h
      · exact ht t h
  · rfl
  · rw [evaluate_ok]
    · simp [LinComb.singleTerm, termsValue, ← hz]
    · intro t h
      rw [List.mem_singleton.1 h]; exact hi

example : (((LinComb.singleTerm (2 : Int) 0).addTerm 3 1).addTerms [(5, 0), (7, 1)]).evaluate [1, 10]
    = .ok 107 := rfl

/-- **C10**, adding a constraint: the verdict on the old constraints is kept including the reported
index; if they hold, the verdict is that of the new one, reported under the next index. The new row
comes last in the exported R1CS. -/
theorem C10_add_constraint (cs : ConstraintSystem R) (c : Constraint R)
    (hv : (cs.addConstraint c).isValid = true) (primary aux : List R) :
    cs.isValid = true ∧
    (∀ e, cs.isSatisfied primary aux = .error e →
      (cs.addConstraint c).isSatisfied primary aux = .error e) ∧
    (cs.isSatisfied primary aux = .ok () → ConstraintHolds c (primary ++ aux) →
      (cs.addConstraint c).isSatisfied primary aux = .ok ()) ∧
    (cs.isSatisfied primary aux = .ok () → ¬ ConstraintHolds c (primary ++ aux) →
      (cs.addConstraint c).isSatisfied primary aux
        = .error (.notSatisfied cs.constraints.length)) ∧
    (cs.addConstraint c).toR1CS.A.coeffs = cs.toR1CS.A.coeffs ++ [c.a.terms] ∧
    (cs.addConstraint c).toR1CS.B.coeffs = cs.toR1CS.B.coeffs ++ [c.b.terms] ∧
    (cs.addConstraint c).toR1CS.C.coeffs = cs.toR1CS.C.coeffs ++ [c.c.terms] := by
  have hv' : cs.isValid = true := by
    rw [isValid_iff] at hv ⊢
    intro d hd
    exact hv d (by simp [ConstraintSystem.addConstraint, hd])
  obtain ⟨a1, a2, a3⟩ := C10_satisfied_decides cs hv' primary aux
  obtain ⟨b1, b2, b3⟩ := C10_satisfied_decides _ hv primary aux
  refine ⟨hv', ?_, ?_, ?_, ?_, ?_, ?_⟩
  · intro e he
    by_cases hp : primary.length = cs.ninputs
    · by_cases ha : primary.length + aux.length = cs.nvars
      · have key : ∀ (l : List (Constraint R)) (i : Nat) (z : List R) (e : Err),
            ConstraintSystem.satisfiedFrom z i l = .error e →
            ConstraintSystem.satisfiedFrom z i (l ++ [c]) = .error e := by
          intro l
          induction l with
          | nil => intro i z e h; simp [ConstraintSystem.satisfiedFrom] at h
          | cons d l ih =>
            intro i z e h
            simp only [List.cons_append, ConstraintSystem.satisfiedFrom] at h ⊢
            cases hA : d.a.evaluate z with
            | error e' => rw [hA] at h; exact h
            | ok va =>
              cases hB : d.b.evaluate z with
              | error e' => rw [hA, hB] at h; exact h
              | ok vb =>
                cases hC : d.c.evaluate z with
                | error e' => rw [hA, hB, hC] at h; exact h
                | ok vc =>
                  rw [hA, hB, hC] at h
                  simp only [bind_ok'] at h ⊢
                  split
                  · rename_i hne; rw [if_pos hne] at h; exact h
                  · rename_i hne; rw [if_neg hne] at h; exact ih _ _ _ h
        have hn : (cs.addConstraint c).nvars = cs.nvars := rfl
        unfold ConstraintSystem.isSatisfied at he ⊢
        rw [if_neg (by simpa using hp), if_neg (by simpa using ha)] at he
        rw [if_neg (by simpa [ConstraintSystem.addConstraint] using hp),
          if_neg (by rw [hn]; simpa using ha)]
        exact key _ _ _ _ he
      · unfold ConstraintSystem.isSatisfied at he ⊢
        rw [if_neg (by simpa using hp), if_pos ha] at he
        rw [if_neg (by simpa [ConstraintSystem.addConstraint] using hp), if_pos (by exact ha)]
        exact he
    · unfold ConstraintSystem.isSatisfied at he ⊢
      rw [if_pos hp] at he
      rw [if_pos (by exact hp)]
      exact he
  · intro h hc
    obtain ⟨h1, h2, h3⟩ := a1.1 h
    refine b1.2 ⟨h1, h2, fun d hd => ?_⟩
    rcases List.mem_append.1 hd with hd | hd
    · exact h3 d hd
    · rw [List.mem_singleton.1 hd]; exact hc
  · intro h hc
    obtain ⟨h1, h2, h3⟩ := a1.1 h
    refine (b2 _).2 ⟨h1, h2, by simp [ConstraintSystem.addConstraint], ?_, fun j hj => ?_⟩
    · simpa [ConstraintSystem.addConstraint] using hc
    · simp only [ConstraintSystem.addConstraint, List.getElem_append_left hj]
      exact h3 _ (List.getElem_mem hj)
  · simp [ConstraintSystem.toR1CS, ConstraintSystem.addConstraint]
  · simp [ConstraintSystem.toR1CS, ConstraintSystem.addConstraint]
  · simp [ConstraintSystem.toR1CS, ConstraintSystem.addConstraint]

example : (exCS.addConstraint ⟨⟨[(1, 0)]⟩, ⟨[(1, 0)]⟩, ⟨[(9, 1)]⟩⟩).isSatisfied [3, 1] [5, 15, 4]
      = .ok () ∧
    (exCS.addConstraint ⟨⟨[(1, 0)]⟩, ⟨[(1, 0)]⟩, ⟨[(8, 1)]⟩⟩).isSatisfied [3, 1] [5, 15, 4]
      = .error (.notSatisfied 2) := ⟨rfl, rfl⟩

/-! ## C13: position of the constant one -/

/-- **C13**: the position of the constant one is 0 at first, `set_one` stores and returns the new
position, adding variables does not move it and setting it does not change the variables. -/
theorem C13_one (m : VariableMap) (i j len : Nat) (name other : String) :
    VariableMap.new.getOne = 0 ∧ (m.setOne i).2 = i ∧ (m.setOne i).1.getOne = i ∧
    ((m.setOne i).1.add name j len).getOne = i ∧
    (m.setOne i).1.get other = m.get other ∧ (m.setOne i).1.totalLen = m.totalLen :=
  ⟨rfl, rfl, rfl, rfl, rfl, rfl⟩

example : (((VariableMap.new.add "x" 1 2).setOne 5).1.add "y" 6 1).getOne = 5 ∧
    (((VariableMap.new.add "x" 1 2).setOne 5).1.add "y" 6 1).get "x" = some (1, 2) := ⟨rfl, rfl⟩

end Verif.Props
