import Mathlib.Tactic.IntervalCases
import Verif.Props.Arith
import Mathlib.Data.Finset.Card
import Mathlib.Data.Finset.Dedup

/-!
# Property theorems: constraint-system builder, layouts, parameter bytes, size guard (C10 - C14)
-/

set_option linter.unusedSectionVars false
set_option linter.unusedSimpArgs false

namespace Verif.Props

open Finset Verif Verif.Spec

variable {R : Type} [CommRing R] [DecidableEq R]

/-! ## C10 -/

/-- Spec: value of a list of terms `coeff * z[index]`. -/
def termsValue (terms : List (R × Nat)) (z : List R) : R :=
  (terms.map fun t => t.1 * z.getD t.2 0).sum

/-- Spec: constraint `a * b = c` holds at `z`. -/
def ConstraintHolds (c : Constraint R) (z : List R) : Prop :=
  termsValue c.a.terms z * termsValue c.b.terms z = termsValue c.c.terms z

/-- Spec: all variable indices of a constraint are below `n`. -/
def ConstraintInRange (c : Constraint R) (n : Nat) : Prop :=
  (∀ t ∈ c.a.terms, t.2 < n) ∧ (∀ t ∈ c.b.terms, t.2 < n) ∧ (∀ t ∈ c.c.terms, t.2 < n)

theorem isValid_iff (cs : ConstraintSystem R) :
    cs.isValid = true ↔ ∀ c ∈ cs.constraints, ConstraintInRange c cs.nvars := by
  have : ¬ cs.ninputs > cs.nvars := by unfold ConstraintSystem.nvars; omega
  simp only [ConstraintSystem.isValid, this, if_false, List.all_eq_true, LinComb.isValid,
    Bool.and_eq_true, decide_eq_true_eq, ConstraintInRange, and_assoc]

theorem evaluate_ok {lc : LinComb R} {z : List R} (h : ∀ t ∈ lc.terms, t.2 < z.length) :
    lc.evaluate z = .ok (termsValue lc.terms z) := by
  unfold LinComb.evaluate
  rw [foldRes_ok (g := fun acc t => acc + t.1 * z.getD t.2 0)]
  · congr 1
    unfold termsValue
    rw [List.sum_eq_foldl, List.foldl_map]
  · intro b t ht
    rw [idx_getD 0 (h t ht)]

theorem evaluate_inRange {lc : LinComb R} {z : List R} {v : R} (h : lc.evaluate z = .ok v) :
    ∀ t ∈ lc.terms, t.2 < z.length := by
  unfold LinComb.evaluate at h
  generalize (0 : R) = b at h
  generalize lc.terms = ts at h
  induction ts generalizing b with
  | nil => simp
  | cons t ts ih =>
    by_cases ht : t.2 < z.length
    · simp only [foldRes] at h
      rw [idx_getD 0 ht] at h
      intro x hx
      rcases List.mem_cons.1 hx with rfl | hx
      · exact ht
      · exact ih _ h x hx
    · simp only [foldRes] at h
      rw [idx_error (by omega)] at h
      simp at h

theorem satisfiedFrom_eq {cs : List (Constraint R)} {z : List R} (i : Nat)
    (h : ∀ c ∈ cs, ConstraintInRange c z.length) :
    ConstraintSystem.satisfiedFrom z i cs =
      match cs.findIdx? (fun c => decide (termsValue c.a.terms z * termsValue c.b.terms z
          ≠ termsValue c.c.terms z)) with
      | none => .ok ()
      | some k => .error (.notSatisfied (i + k)) := by
  induction cs generalizing i with
  | nil => rfl
  | cons c cs ih =>
    have hc := h c (by simp)
    have ih := ih (i + 1) (fun c hc => h c (by simp [hc]))
    simp only [ConstraintSystem.satisfiedFrom, evaluate_ok hc.1, evaluate_ok hc.2.1,
      evaluate_ok hc.2.2, bind_ok', List.findIdx?_cons]
    by_cases hv : termsValue c.a.terms z * termsValue c.b.terms z = termsValue c.c.terms z
    · simp only [hv, ne_eq, not_true_eq_false, if_false, decide_false, Bool.false_eq_true]
      rw [ih]
      cases cs.findIdx? (fun c => decide (termsValue c.a.terms z * termsValue c.b.terms z
          ≠ termsValue c.c.terms z)) with
      | none => rfl
      | some k => simp [Nat.add_assoc, Nat.add_comm 1 k]
    · simp [hv]

theorem toR1CS_wf {cs : ConstraintSystem R} (h : cs.isValid = true) : R1CSWF cs.toR1CS := by
  rw [isValid_iff] at h
  refine ⟨⟨?_, ?_⟩, ⟨?_, ?_⟩, ⟨?_, ?_⟩, rfl, rfl, rfl, rfl⟩
  · simp [ConstraintSystem.toR1CS]
  · simp only [ConstraintSystem.toR1CS, List.mem_map]
    rintro row ⟨c, hc, rfl⟩; exact (h c hc).1
  · simp [ConstraintSystem.toR1CS]
  · simp only [ConstraintSystem.toR1CS, List.mem_map]
    rintro row ⟨c, hc, rfl⟩; exact (h c hc).2.1
  · simp [ConstraintSystem.toR1CS]
  · simp only [ConstraintSystem.toR1CS, List.mem_map]
    rintro row ⟨c, hc, rfl⟩; exact (h c hc).2.2

theorem toR1CS_check_eq {cs : ConstraintSystem R} (h : cs.isValid = true) {z : List R}
    (hz : z.length = cs.nvars) :
    cs.toR1CS.checkRelation z =
      match cs.constraints.findIdx? (fun c => decide (termsValue c.a.terms z * termsValue c.b.terms z
          ≠ termsValue c.c.terms z)) with
      | none => .ok ()
      | some k => .error (.notSatisfied k) := by
  have wf := toR1CS_wf h
  unfold R1CS.checkRelation
  rw [matVecMul_ok (by rw [hz]; rfl) wf.wfA.2, matVecMul_ok (by rw [hz]; rfl) wf.wfB.2,
    matVecMul_ok (by rw [hz]; rfl) wf.wfC.2]
  simp only [ConstraintSystem.toR1CS, List.map_map, bind_ok', hadamard, List.length_map, ne_eq,
    not_true_eq_false, if_false, zipWith_map_self, zip_map_self]
  unfold failAtFirst
  rw [List.findIdx?_map]
  rfl

/-- **C10**: for a valid system and correctly sized inputs, `is_satisfied` returns exactly what the
exported R1CS check returns on the concatenated assignment (same verdict, same failing row). -/
theorem C10_satisfied_eq_r1cs (cs : ConstraintSystem R) (hv : cs.isValid = true)
    (primary aux : List R) (hp : primary.length = cs.ninputs) (ha : aux.length = cs.nauxs) :
    cs.isSatisfied primary aux = cs.toR1CS.checkRelation (primary ++ aux) := by
  have hz : (primary ++ aux).length = cs.nvars := by
    simp [hp, ha, ConstraintSystem.nvars]
  rw [toR1CS_check_eq hv hz]
  unfold ConstraintSystem.isSatisfied
  simp only [List.length_append] at hz
  simp only [hp, ne_eq, not_true_eq_false, if_false]
  rw [hp] at hz
  simp only [hz, not_true_eq_false, if_false]
  rw [isValid_iff] at hv
  rw [satisfiedFrom_eq 0 (by
    intro c hc; have := hv c hc
    rwa [show (primary ++ aux).length = cs.nvars by simp [hp, hz]])]
  simp

/-- **C10**: the R1CS has the public inputs, the variables and the constraints of the system, in the same order. -/
theorem C10_sizes (cs : ConstraintSystem R) : cs.toR1CS.l = cs.ninputs ∧
    (∀ m ∈ [cs.toR1CS.A, cs.toR1CS.B, cs.toR1CS.C], m.nrows = cs.constraints.length ∧ m.ncols = cs.ninputs + cs.nauxs) ∧
    ∀ i : Nat, cs.toR1CS.A.coeffs[i]? = cs.constraints[i]?.map (·.a.terms) ∧ cs.toR1CS.B.coeffs[i]? = cs.constraints[i]?.map (·.b.terms) ∧
      cs.toR1CS.C.coeffs[i]? = cs.constraints[i]?.map (·.c.terms) := by
  refine ⟨rfl, ?_, ?_⟩
  · intro m hm
    simp only [List.mem_cons, List.not_mem_nil, or_false] at hm
    rcases hm with rfl | rfl | rfl <;> exact ⟨rfl, rfl⟩
  · intro i
    simp [ConstraintSystem.toR1CS]

/-- **C10**, meaning: on a valid system and inputs of any length, success means correct lengths and
all constraints holding; the failing row is the first violated one; there is never a panic. -/
theorem C10_satisfied_decides (cs : ConstraintSystem R) (hv : cs.isValid = true)
    (primary aux : List R) :
    (cs.isSatisfied primary aux = .ok () ↔
      primary.length = cs.ninputs ∧ aux.length = cs.nauxs ∧
        ∀ c ∈ cs.constraints, ConstraintHolds c (primary ++ aux)) ∧
    (∀ i, cs.isSatisfied primary aux = .error (.notSatisfied i) ↔
      primary.length = cs.ninputs ∧ aux.length = cs.nauxs ∧
        ∃ h : i < cs.constraints.length, ¬ ConstraintHolds cs.constraints[i] (primary ++ aux) ∧
          ∀ j (hj : j < i), ConstraintHolds cs.constraints[j] (primary ++ aux)) ∧
    (cs.isSatisfied primary aux).isPanic = false := by
  by_cases hp : primary.length = cs.ninputs
  · by_cases ha : aux.length = cs.nauxs
    · rw [C10_satisfied_eq_r1cs cs hv primary aux hp ha,
        toR1CS_check_eq hv (by simp [hp, ha, ConstraintSystem.nvars])]
      simp only [hp, ha, true_and]
      change (failAtFirst _ _ = _ ↔ _) ∧ (∀ i, failAtFirst _ _ = _ ↔ _) ∧ _
      refine ⟨?_, ?_, ?_⟩
      · rw [failAtFirst_ok_iff]; simp [ConstraintHolds]
      · intro i; rw [failAtFirst_err_iff]; simp [ConstraintHolds]
      · split <;> rfl
    · have h2 : ¬ cs.ninputs + aux.length = cs.nvars := by
        unfold ConstraintSystem.nvars; omega
      simp [ConstraintSystem.isSatisfied, hp, ha, h2, Res.isPanic]
  · simp [ConstraintSystem.isSatisfied, hp, Res.isPanic]

theorem satisfiedFrom_ok_inRange {cs : List (Constraint R)} {z : List R} {i : Nat}
    (h : ConstraintSystem.satisfiedFrom z i cs = .ok ()) :
    ∀ c ∈ cs, ConstraintInRange c z.length := by
  induction cs generalizing i with
  | nil => simp
  | cons c cs ih =>
    simp only [ConstraintSystem.satisfiedFrom, bind_eq_ok] at h
    obtain ⟨a, ha, b, hb, d, hd, h⟩ := h
    split at h
    · simp at h
    · intro x hx
      rcases List.mem_cons.1 hx with rfl | hx
      · exact ⟨evaluate_inRange ha, evaluate_inRange hb, evaluate_inRange hd⟩
      · exact ih h x hx

/-- **C10**, validity is necessary for acceptance: a system accepted on some input is valid. -/
theorem C10_satisfied_implies_valid (cs : ConstraintSystem R) (primary aux : List R)
    (h : cs.isSatisfied primary aux = .ok ()) : cs.isValid = true := by
  unfold ConstraintSystem.isSatisfied at h
  split at h
  · simp at h
  · split at h
    · simp at h
    · rename_i h1 h2
      rw [isValid_iff]
      intro c hc
      have := satisfiedFrom_ok_inRange h c hc
      simp only [ne_eq, not_not] at h2
      rwa [List.length_append, h2] at this

/-- An invalid system can abort: variable index 5 with a single variable. -/
theorem C10_invalid_can_abort :
    ∃ (cs : ConstraintSystem Int) (p a : List Int), p.length = cs.ninputs ∧ a.length = cs.nauxs ∧
      cs.isValid = false ∧ (cs.isSatisfied p a).isPanic = true :=
  ⟨⟨1, 0, [⟨⟨[(1, 5)]⟩, ⟨[]⟩, ⟨[]⟩⟩]⟩, [7], [], rfl, rfl, rfl, rfl⟩

/-- `x * y = z`, `(x + 1) * 1 = w` with public `x, 1` and auxiliary `y, z, w`. -/
def exCS : ConstraintSystem Int :=
  { ninputs := 2, nauxs := 3
    constraints := [⟨⟨[(1, 0)]⟩, ⟨[(1, 2)]⟩, ⟨[(1, 3)]⟩⟩,
      ⟨⟨[(1, 1)]⟩, ⟨[(1, 0), (1, 1)]⟩, ⟨[(1, 4)]⟩⟩] }

example : exCS.isValid = true ∧ exCS.isSatisfied [3, 1] [5, 15, 4] = .ok () ∧
    exCS.isSatisfied [3, 1] [5, 15, 5] = .error (.notSatisfied 1) := ⟨rfl, rfl, rfl⟩

example : exCS.toR1CS.l = 2 ∧ exCS.toR1CS.A.ncols = 5 := ⟨(C10_sizes exCS).1, ((C10_sizes exCS).2.1 _ (by simp)).2⟩

/-! ## C11 -/

/-- Spec: set of variables occurring in the `a` (resp. `b`) parts. -/
def varsA (cs : ConstraintSystem R) : Finset Nat :=
  (cs.constraints.flatMap fun c => c.a.terms.map (·.2)).toFinset
def varsB (cs : ConstraintSystem R) : Finset Nat :=
  (cs.constraints.flatMap fun c => c.b.terms.map (·.2)).toFinset

theorem touch_fold (t : List Bool) (is : List (R × Nat)) (h : ∀ x ∈ is, x.2 < t.length) :
    ∃ t', foldRes (fun t (term : R × Nat) => ConstraintSystem.touch t term.2) t is = .ok t' ∧
      t'.length = t.length ∧ ∀ j, t'.getD j false = (t.getD j false || decide (j ∈ is.map (·.2))) := by
  induction is generalizing t with
  | nil => exact ⟨t, rfl, rfl, by simp⟩
  | cons x xs ih =>
    have hx := h x (by simp)
    obtain ⟨t', h1, h2, h3⟩ := ih (t.set x.2 true) (fun y hy => by
      rw [List.length_set]; exact h y (by simp [hy]))
    refine ⟨t', ?_, by rw [h2, List.length_set], fun j => ?_⟩
    · simp only [foldRes, ConstraintSystem.touch, hx, if_true]
      exact h1
    · rw [h3 j]
      by_cases hj : x.2 = j
      · subst hj
        simp [List.getD_eq_getElem?_getD, hx]
      · have hj' : ¬ j = x.2 := fun h => hj h.symm
        simp [List.getD_eq_getElem?_getD, List.getElem?_set, hj, hj', -List.mem_map, List.map_cons, List.mem_cons]

theorem count_true (t : List Bool) (s : Finset Nat) (hs : ∀ j, t.getD j false = decide (j ∈ s)) :
    (t.filter fun x => x).length = s.card := by
  have key : ∀ (t : List Bool), (t.filter fun x => x).length
      = ((range t.length).filter fun j => t.getD j false = true).card := by
    intro t
    induction t with
    | nil => simp
    | cons b bs ih =>
      rw [List.length_cons, Finset.range_add_one', Finset.filter_insert, Finset.filter_map,
        ]
      have hs : ∀ j, (b :: bs).getD ((⟨fun i => i + 1, fun _ _ => by simp⟩ : Nat ↪ Nat) j) false
          = bs.getD j false := fun j => rfl
      simp only [Function.comp_def, List.getD_cons_zero, hs]
      cases b
      · rw [List.filter_cons_of_neg (by simp), ih]; simp
      · rw [List.filter_cons_of_pos (by simp), List.length_cons, ih]; simp
  rw [key]
  congr 1
  ext j
  simp only [mem_filter, mem_range, hs]
  constructor
  · rintro ⟨_, h⟩; simpa using h
  · intro h
    refine ⟨?_, by simpa using h⟩
    by_contra hj
    have := hs j
    rw [List.getD_eq_getElem?_getD, List.getElem?_eq_none (by omega)] at this
    simp [h] at this

theorem touch_fold2 (cs : List (Constraint R)) (n : Nat) (p : List Bool × List Bool)
    (hp : p.1.length = n + 1 ∧ p.2.length = n + 1) (h : ∀ c ∈ cs, ConstraintInRange c n) :
    ∃ q, foldRes (fun (p : List Bool × List Bool) (c : Constraint R) => do
      let ta ← foldRes (fun t term => ConstraintSystem.touch t term.2) p.1 c.a.terms
      let tb ← foldRes (fun t term => ConstraintSystem.touch t term.2) p.2 c.b.terms
      .ok (ta, tb)) p cs = .ok q ∧
      (∀ j, q.1.getD j false
        = (p.1.getD j false || decide (j ∈ cs.flatMap fun c => c.a.terms.map (·.2)))) ∧
      (∀ j, q.2.getD j false
        = (p.2.getD j false || decide (j ∈ cs.flatMap fun c => c.b.terms.map (·.2)))) := by
  induction cs generalizing p with
  | nil => exact ⟨p, rfl, by simp, by simp⟩
  | cons c cs ih =>
    have hc := h c (by simp)
    obtain ⟨ta, a1, a2, a3⟩ := touch_fold p.1 c.a.terms
      (fun x hx => by have := hc.1 x hx; omega)
    obtain ⟨tb, b1, b2, b3⟩ := touch_fold p.2 c.b.terms
      (fun x hx => by have := hc.2.1 x hx; omega)
    obtain ⟨q, q1, q2, q3⟩ := ih (ta, tb) ⟨by rw [a2, hp.1], by rw [b2, hp.2]⟩
      (fun c hc => h c (by simp [hc]))
    refine ⟨q, ?_, fun j => ?_, fun j => ?_⟩
    · simp only [foldRes, a1, b1, bind_ok']; exact q1
    · rw [q2, a3]; simp only [Bool.or_assoc, List.flatMap_cons, List.mem_append, Bool.decide_or]
    · rw [q3, b3]; simp only [Bool.or_assoc, List.flatMap_cons, List.mem_append, Bool.decide_or]

theorem swap_satisfiedFrom (z : List R) (cs : List (Constraint R)) (i : Nat)
    (h : ∀ c ∈ cs, ConstraintInRange c z.length) :
    ConstraintSystem.satisfiedFrom z i (cs.map fun c => { c with a := c.b, b := c.a })
      = ConstraintSystem.satisfiedFrom z i cs := by
  rw [satisfiedFrom_eq i h, satisfiedFrom_eq i]
  · rw [List.findIdx?_map]
    simp only [Function.comp_def, mul_comm]
  · intro c hc
    rw [List.mem_map] at hc
    obtain ⟨c', hc', rfl⟩ := hc
    exact ⟨(h c' hc').2.1, (h c' hc').1, (h c' hc').2.2⟩

/-- **C11**: on a valid system the A/B swap does not abort, keeps input counts and validity, returns
the same satisfaction result on every input (including error values), and afterwards the `b` parts
mention at most as many distinct variables as the `a` parts. -/
theorem C11_swap (cs : ConstraintSystem R) (hv : cs.isValid = true) :
    ∃ cs', cs.swapABIfBeneficial = .ok cs' ∧ cs'.ninputs = cs.ninputs ∧ cs'.nauxs = cs.nauxs ∧
      cs'.isValid = true ∧ (∀ p a, cs'.isSatisfied p a = cs.isSatisfied p a) ∧
      (varsB cs').card ≤ (varsA cs').card ∧
      cs'.constraints.length = cs.constraints.length := by
  have hv' := (isValid_iff cs).1 hv
  obtain ⟨q, q1, q2, q3⟩ := touch_fold2 cs.constraints cs.nvars
    (List.replicate (cs.nvars + 1) false, List.replicate (cs.nvars + 1) false)
    (by simp) hv'
  have hrep : ∀ j, (List.replicate (cs.nvars + 1) false).getD j false = false := by
    intro j
    by_cases hj : j < cs.nvars + 1 <;> simp [List.getD_eq_getElem?_getD, hj]
  have hA : (q.1.filter fun x => x).length = (varsA cs).card :=
    count_true _ _ (fun j => by rw [q2]; simp only [hrep, Bool.false_or, varsA, List.mem_toFinset])
  have hB : (q.2.filter fun x => x).length = (varsB cs).card :=
    count_true _ _ (fun j => by rw [q3]; simp only [hrep, Bool.false_or, varsB, List.mem_toFinset])
  unfold ConstraintSystem.swapABIfBeneficial
  simp only [q1, bind_ok', hA, hB]
  by_cases hgt : (varsB cs).card > (varsA cs).card
  · rw [if_pos hgt]
    refine ⟨_, rfl, rfl, rfl, ?_, ?_, ?_, by simp⟩
    · rw [isValid_iff]
      intro c hc
      simp only [List.mem_map] at hc
      obtain ⟨c', hc', rfl⟩ := hc
      have := hv' c' hc'
      exact ⟨this.2.1, this.1, this.2.2⟩
    · intro p a
      unfold ConstraintSystem.isSatisfied
      change (if p.length ≠ cs.ninputs then _ else if p.length + a.length ≠ cs.nvars then
        Except.error (Err.lengthsNotEqual (p.length + a.length) cs.nvars) else _) = _
      by_cases h1 : p.length ≠ cs.ninputs
      · rw [if_pos h1, if_pos h1]
      · rw [if_neg h1, if_neg h1]
        by_cases h2 : p.length + a.length ≠ cs.nvars
        · rw [if_pos h2, if_pos h2]
        · rw [if_neg h2, if_neg h2]
          refine swap_satisfiedFrom _ _ _ (fun c hc => ?_)
          have := hv' c hc
          simp only [ne_eq, not_not] at h2
          rw [List.length_append, h2]; exact this
    · have e1 : varsB { cs with constraints := cs.constraints.map fun c => { c with a := c.b, b := c.a } }
          = varsA cs := by
        simp [varsA, varsB, List.flatMap_map]
      have e2 : varsA { cs with constraints := cs.constraints.map fun c => { c with a := c.b, b := c.a } }
          = varsB cs := by
        simp [varsA, varsB, List.flatMap_map]
      rw [e1, e2]; omega
  · rw [if_neg hgt]
    exact ⟨cs, rfl, rfl, rfl, hv, fun _ _ => rfl, by omega, rfl⟩

/-- A valid system where the swap really happens. -/
example : exCS.isValid = true ∧ exCS.swapABIfBeneficial ≠ .ok exCS := by
  refine ⟨rfl, by decide⟩

/-! ## C12 -/

/-- **C12**: layout of the z-vectors. -/
theorem C12_layout (cm : CCCS R) (lc : LCCCS R) (w : List R) :
    cm.getZ w = cm.x_ccs ++ 1 :: w ∧ lc.getZ w = lc.x_w ++ lc.h :: w ∧
    (cm.getZ w)[cm.x_ccs.length]? = some 1 ∧ (lc.getZ w)[lc.x_w.length]? = some lc.h ∧
    (cm.getZ w).length = cm.x_ccs.length + 1 + w.length ∧
    (lc.getZ w).length = lc.x_w.length + 1 + w.length ∧
    (∀ i, (cm.getZ w)[cm.x_ccs.length + 1 + i]? = w[i]?) ∧
    (∀ i, i < cm.x_ccs.length → (cm.getZ w)[i]? = cm.x_ccs[i]?) := by
  refine ⟨by simp [CCCS.getZ], by simp [LCCCS.getZ], by simp [CCCS.getZ], by simp [LCCCS.getZ],
    by simp [CCCS.getZ]; omega, by simp [LCCCS.getZ]; omega, fun i => ?_, fun i hi => ?_⟩
  · rw [CCCS.getZ, List.getElem?_append_right (by simp)]
    simp
  · rw [CCCS.getZ, List.append_assoc, List.getElem?_append_left hi]

/-- **C12**: the z-vector of a linearized statement built from a committed statement with `h = 1`
coincides with the original one; conversely equal z-vectors (same statement length) force
`h = 1`, the same statement and the same witness. -/
theorem C12_linearized_same_z (cm : CCCS R) (lc : LCCCS R) (w w' : List R)
    (hlen : lc.x_w.length = cm.x_ccs.length) :
    lc.getZ w' = cm.getZ w ↔ lc.x_w = cm.x_ccs ∧ lc.h = 1 ∧ w' = w := by
  constructor
  · intro h
    simp only [CCCS.getZ, LCCCS.getZ, List.append_assoc] at h
    obtain ⟨h1, h2⟩ := List.append_inj h hlen
    simp at h2
    exact ⟨h1, h2⟩
  · rintro ⟨h1, h2, rfl⟩
    simp [CCCS.getZ, LCCCS.getZ, h1, h2]

example : (⟨⟨[]⟩, [3, 4]⟩ : CCCS Int).getZ [9] = [3, 4, 1, 9] := rfl

/-! ## C13 -/

theorem leBytes8_length (x : Nat) : (CCS.leBytes8 x).length = 8 := by simp [CCS.leBytes8]

theorem leBytes8_inj {x y : Nat} (hx : x < 2 ^ 64) (hy : y < 2 ^ 64)
    (h : CCS.leBytes8 x = CCS.leBytes8 y) : x = y := by
  simp only [CCS.leBytes8, List.range_succ, List.range_zero, List.nil_append, List.cons_append,
    List.map_cons, List.map_nil, List.cons.injEq, and_true] at h
  have e : ∀ a b : Nat, UInt8.ofNat a = UInt8.ofNat b → a % 256 = b % 256 := by
    intro a b hab
    have := congrArg UInt8.toNat hab
    simpa using this
  obtain ⟨h0, h1, h2, h3, h4, h5, h6, h7⟩ := h
  have := e _ _ h0; have := e _ _ h1; have := e _ _ h2; have := e _ _ h3
  have := e _ _ h4; have := e _ _ h5; have := e _ _ h6; have := e _ _ h7
  omega

/-- **C13**: equal parameter bytes force equal `l, m, n, t, q, d` (for sizes that fit 64 bits), and
the encoding always has 48 bytes. -/
theorem C13_params_injective (a b : CCS R)
    (ha : a.l < 2 ^ 64 ∧ a.m < 2 ^ 64 ∧ a.n < 2 ^ 64 ∧ a.t < 2 ^ 64 ∧ a.q < 2 ^ 64 ∧ a.d < 2 ^ 64)
    (hb : b.l < 2 ^ 64 ∧ b.m < 2 ^ 64 ∧ b.n < 2 ^ 64 ∧ b.t < 2 ^ 64 ∧ b.q < 2 ^ 64 ∧ b.d < 2 ^ 64) :
    a.paramsToLeBytes.length = 48 ∧
    (a.paramsToLeBytes = b.paramsToLeBytes ↔
      a.l = b.l ∧ a.m = b.m ∧ a.n = b.n ∧ a.t = b.t ∧ a.q = b.q ∧ a.d = b.d) := by
  refine ⟨by simp [CCS.paramsToLeBytes, leBytes8_length], ?_, ?_⟩
  · intro h
    unfold CCS.paramsToLeBytes at h
    obtain ⟨h, hd⟩ := List.append_inj' h (by simp [leBytes8_length])
    obtain ⟨h, hq⟩ := List.append_inj' h (by simp [leBytes8_length])
    obtain ⟨h, ht⟩ := List.append_inj' h (by simp [leBytes8_length])
    obtain ⟨h, hn⟩ := List.append_inj' h (by simp [leBytes8_length])
    obtain ⟨hl, hm⟩ := List.append_inj' h (by simp [leBytes8_length])
    exact ⟨leBytes8_inj ha.1 hb.1 hl, leBytes8_inj ha.2.1 hb.2.1 hm,
      leBytes8_inj ha.2.2.1 hb.2.2.1 hn, leBytes8_inj ha.2.2.2.1 hb.2.2.2.1 ht,
      leBytes8_inj ha.2.2.2.2.1 hb.2.2.2.2.1 hq, leBytes8_inj ha.2.2.2.2.2 hb.2.2.2.2.2 hd⟩
  · rintro ⟨h1, h2, h3, h4, h5, h6⟩
    simp [CCS.paramsToLeBytes, h1, h2, h3, h4, h5, h6]

theorem leBytes8_sum {x : Nat} (hx : x < 2 ^ 64) :
    ∑ i ∈ Finset.range 8, 256 ^ i * ((CCS.leBytes8 x).getD i 0).toNat = x := by
  simp only [CCS.leBytes8, List.range_succ, List.range_zero, List.nil_append, List.cons_append, List.map_cons, List.map_nil,
    Finset.sum_range_succ, Finset.range_zero, Finset.sum_empty, List.getD_cons_zero, List.getD_cons_succ,
    UInt8.toNat_ofNat', pow_zero, pow_one]
  norm_num at hx ⊢
  omega

/-- **C13**, the bytes are the parameters `l, m, n, t, q, d`, eight bytes each, least significant byte first. -/
theorem C13_params_little_endian (a : CCS R)
    (ha : a.l < 2 ^ 64 ∧ a.m < 2 ^ 64 ∧ a.n < 2 ^ 64 ∧ a.t < 2 ^ 64 ∧ a.q < 2 ^ 64 ∧ a.d < 2 ^ 64) (j : Nat) (hj : j < 6) :
    ∑ i ∈ Finset.range 8, 256 ^ i * (a.paramsToLeBytes.getD (8 * j + i) 0).toNat
      = [a.l, a.m, a.n, a.t, a.q, a.d].getD j 0 := by
  have step : ∀ x, x < 2 ^ 64 → (∀ i < 8, a.paramsToLeBytes.getD (8 * j + i) 0 = (CCS.leBytes8 x).getD i 0) →
      ∑ i ∈ Finset.range 8, 256 ^ i * (a.paramsToLeBytes.getD (8 * j + i) 0).toNat = x := by
    intro x hx h
    refine Eq.trans (Finset.sum_congr rfl fun i hi => ?_) (leBytes8_sum hx)
    rw [h i (Finset.mem_range.1 hi)]
  have get : ∀ i < 8, a.paramsToLeBytes.getD (8 * j + i) 0
      = (CCS.leBytes8 ([a.l, a.m, a.n, a.t, a.q, a.d].getD j 0)).getD i 0 := by
    intro i hi
    unfold CCS.paramsToLeBytes
    interval_cases j <;> interval_cases i <;> rfl
  refine step _ ?_ get
  obtain ⟨h1, h2, h3, h4, h5, h6⟩ := ha
  interval_cases j
  exacts [h1, h2, h3, h4, h5, h6]

example (a : CCS R) (h : a.l = 1 ∧ a.m = 259 ∧ a.n = 7 ∧ a.t = 3 ∧ a.q = 2 ∧ a.d = 2) :
    ∑ i ∈ Finset.range 8, 256 ^ i * (a.paramsToLeBytes.getD (8 * 1 + i) 0).toNat = 259 := by
  rw [C13_params_little_endian a (by rw [h.1, h.2.1, h.2.2.1, h.2.2.2.1, h.2.2.2.2.1, h.2.2.2.2.2]; norm_num) 1 (by norm_num)]
  exact h.2.1

/-- **C13**, what is not covered: two well-formed CCS with the same bytes, one satisfied and the
other not satisfied by the same assignment. -/
theorem C13_params_not_binding :
    ∃ (a b : CCS Int) (z : List Int), CCSWF a ∧ CCSWF b ∧
      a.paramsToLeBytes = b.paramsToLeBytes ∧
      a.checkRelation z = .ok () ∧ b.checkRelation z = .error (.notSatisfied 0) := by
  refine ⟨exCCS, { exCCS with c := [1, 1, 1] }, [2, 3, 2], exCCS_wf, ?_, rfl, rfl, rfl⟩
  exact ⟨exCCS_wf.wfM, exCCS_wf.lenS, rfl, exCCS_wf.idxS⟩

example : exCCS.l < 2 ^ 64 ∧ exCCS.m < 2 ^ 64 ∧ exCCS.n < 2 ^ 64 ∧ exCCS.t < 2 ^ 64 ∧
    exCCS.q < 2 ^ 64 ∧ exCCS.d < 2 ^ 64 := by decide

/-! ## C14 -/

theorem nextPow2_eq_self_iff (m : Nat) : nextPow2 m = m ↔ ∃ k, m = 2 ^ k := by
  constructor
  · intro h; exact ⟨_, h.symm⟩
  · rintro ⟨k, rfl⟩
    unfold nextPow2
    rw [Nat.clog_pow 2 k (by omega)]

theorem le_nextPow2 (n : Nat) : n ≤ nextPow2 n := Nat.le_pow_clog (by omega) n

theorem nextPow2_mono {a b : Nat} (h : a ≤ b) : nextPow2 a ≤ nextPow2 b :=
  Nat.pow_le_pow_right (by omega) (Nat.clog_mono_right 2 h)

theorem eq_nextPow2_max_iff (m k : Nat) :
    m = nextPow2 (max k m) ↔ (∃ j, m = 2 ^ j) ∧ k ≤ m := by
  constructor
  · intro h
    refine ⟨⟨_, h⟩, ?_⟩
    have := le_nextPow2 (max k m)
    omega
  · rintro ⟨hp, hk⟩
    rw [max_eq_right hk]
    exact ((nextPow2_eq_self_iff m).2 hp).symm

/-- **C14**: the guard accepts iff `n ≥ l + 1`, `m` is a power of two and `m ≥ (n - l - 1) L`; it
aborts iff `n < l + 1`; otherwise it returns the size error. -/
theorem C14_guard_exact (ccs : CCS R) (L : Nat) :
    (sanityCheck ccs L = .ok () ↔
      ccs.l + 1 ≤ ccs.n ∧ (∃ j, ccs.m = 2 ^ j) ∧ (ccs.n - ccs.l - 1) * L ≤ ccs.m) ∧
    ((sanityCheck ccs L).isPanic = true ↔ ccs.n < ccs.l + 1) ∧
    (ccs.l + 1 ≤ ccs.n → sanityCheck ccs L ≠ .ok () →
      sanityCheck ccs L = .error (.invalidSizeBounds ccs.m ccs.n L)) := by
  unfold sanityCheck usub
  by_cases h1 : ccs.l ≤ ccs.n
  · by_cases h2 : 1 ≤ ccs.n - ccs.l
    · have h3 : ccs.l + 1 ≤ ccs.n := by omega
      simp only [h1, h2, if_true, bind_ok', h3, true_and]
      rw [← eq_nextPow2_max_iff]
      by_cases h4 : ccs.m = nextPow2 (max ((ccs.n - ccs.l - 1) * L) ccs.m)
      · rw [if_neg (by rw [← h4]; simp)]
        simp only [Res.isPanic]
        refine ⟨⟨fun _ => h4, fun _ => trivial⟩, ?_, ?_⟩
        · simp; omega
        · intro _ h; simp at h
      · rw [if_pos h4]
        simp only [h4, Res.isPanic]
        simp; omega
    · have h3 : ¬ ccs.l + 1 ≤ ccs.n := by omega
      simp [h1, h2, Res.isPanic]
      omega
  · have h3 : ¬ ccs.l + 1 ≤ ccs.n := by omega
    simp [h1, Res.isPanic]
    omega

/-- **C14**: the padded conversion always passes the guard when it does not abort, and aborts iff
`n < l + 1`. -/
theorem C14_padded_passes (cs : R1CS R) (W L : Nat) :
    (∀ ccs, CCS.fromR1CSPadded cs W L = .ok ccs → sanityCheck ccs L = .ok ()) ∧
    ((∃ ccs, CCS.fromR1CSPadded cs W L = .ok ccs) ↔ cs.l + 1 ≤ cs.A.ncols) := by
  constructor
  · intro ccs h
    unfold CCS.fromR1CSPadded at h
    simp only [bind_eq_ok] at h
    obtain ⟨a, ha, b, hb, h⟩ := h
    unfold usub at ha hb
    split at ha <;> simp only [reduceCtorEq, Except.ok.injEq] at ha
    split at hb <;> simp only [reduceCtorEq, Except.ok.injEq] at hb
    simp only [Except.ok.injEq] at h
    subst h ha hb
    rename_i g1 g2
    have g1 : cs.l ≤ cs.A.ncols := g1
    have g2 : 1 ≤ cs.A.ncols - cs.l := g2
    have hn : (CCS.fromR1CS cs W).n = cs.A.ncols := rfl
    have hl : (CCS.fromR1CS cs W).l = cs.l := rfl
    have hm : (CCS.fromR1CS cs W).m = W := rfl
    rw [hm, hn, hl]
    generalize hk : (cs.A.ncols - cs.l - 1) * L = k
    have hpp : nextPow2 (nextPow2 (max k W)) = nextPow2 (max k W) :=
      (nextPow2_eq_self_iff _).2 ⟨_, rfl⟩
    have hle := le_nextPow2 (max k W)
    unfold CCS.padRowsTo
    simp only [hpp, hm]
    rw [(C14_guard_exact _ L).1]
    split
    · refine ⟨?_, ⟨_, rfl⟩, ?_⟩
      · change cs.l + 1 ≤ cs.A.ncols; omega
      · change (cs.A.ncols - cs.l - 1) * L ≤ nextPow2 (max k W); rw [hk]; omega
    · rename_i hng
      refine ⟨?_, ⟨Nat.clog 2 (max k W), ?_⟩, ?_⟩
      · change cs.l + 1 ≤ cs.A.ncols; omega
      · change W = nextPow2 (max k W); omega
      · change (cs.A.ncols - cs.l - 1) * L ≤ W; rw [hk]; omega
  · unfold CCS.fromR1CSPadded usub
    have hn : (CCS.fromR1CS cs W).n = cs.A.ncols := rfl
    have hl : (CCS.fromR1CS cs W).l = cs.l := rfl
    simp only [hn, hl]
    by_cases h1 : cs.l ≤ cs.A.ncols
    · by_cases h2 : 1 ≤ cs.A.ncols - cs.l
      · simp only [h1, h2, if_true, bind_ok', Except.ok.injEq, exists_eq', true_iff]
        omega
      · simp [h1, h2]; omega
    · simp [h1]; omega

/-- `s` is the least number of variables for `m` points of the hypercube. -/
def LeastVars (m s : Nat) : Prop := m ≤ 2 ^ s ∧ ∀ s', m ≤ 2 ^ s' → s ≤ s'

theorem leastVars (m : Nat) : LeastVars m (arkLog2 m) :=
  ⟨Nat.le_pow_clog (by omega) m, fun _ h => Nat.clog_le_of_le_pow h⟩

/-- **C14**: in the conversion of an R1CS, `s` and `s_prime` are the least numbers of variables for `m` rows and `n` columns; after padding
`m` is exactly the number of points of the hypercube in `s` variables, and `s_prime` still fits `n`. -/
theorem C14_vars (cs : R1CS R) (W L : Nat) :
    LeastVars (CCS.fromR1CS cs W).m (CCS.fromR1CS cs W).s ∧ LeastVars (CCS.fromR1CS cs W).n (CCS.fromR1CS cs W).s_prime ∧
    ∀ ccs, CCS.fromR1CSPadded cs W L = .ok ccs → ccs.m = 2 ^ ccs.s ∧ ccs.n = cs.A.ncols ∧ LeastVars ccs.n ccs.s_prime := by
  refine ⟨leastVars _, leastVars _, fun ccs h => ?_⟩
  have hp := (C14_guard_exact _ _).1.1 ((C14_padded_passes cs W L).1 ccs h)
  obtain ⟨-, ⟨j, hj⟩, -⟩ := hp
  unfold CCS.fromR1CSPadded at h
  simp only [bind_eq_ok] at h
  obtain ⟨a, -, b, -, h⟩ := h
  simp only [Except.ok.injEq] at h
  have hs : ccs.s = arkLog2 ccs.m ∧ ccs.n = cs.A.ncols ∧ ccs.s_prime = arkLog2 cs.A.ncols := by
    rw [← h]
    unfold CCS.padRowsTo
    simp only
    split
    · exact ⟨rfl, rfl, rfl⟩
    · exact ⟨rfl, rfl, rfl⟩
  refine ⟨?_, hs.2.1, by rw [hs.2.1, hs.2.2]; exact leastVars _⟩
  have h1 := leastVars ccs.m
  rw [hs.1]
  refine le_antisymm h1.1 ?_
  rw [hj] at h1 ⊢
  exact Nat.pow_le_pow_right (by omega) (h1.2 j le_rfl)

/-- Five rows need three variables, three columns two. -/
example (cs : R1CS ℤ) (h : cs.A.ncols = 3) : (CCS.fromR1CS cs 5).s = 3 ∧ (CCS.fromR1CS cs 5).s_prime = 2 := by
  obtain ⟨h1, h2, -⟩ := C14_vars cs 5 1
  have e1 : (CCS.fromR1CS cs 5).m = 5 := rfl
  have e2 : (CCS.fromR1CS cs 5).n = 3 := h
  rw [e1] at h1
  rw [e2] at h2
  have a := h1.2 3 (by decide)
  have b := h2.2 2 (by decide)
  have key : ∀ m k s : Nat, m ≤ 2 ^ s → 2 ^ k < m → k < s := fun m k s h g => by
    by_contra hlt
    have := Nat.pow_le_pow_right (n := 2) (by omega) (Nat.le_of_not_lt hlt)
    omega
  exact ⟨le_antisymm a (key 5 2 _ h1.1 (by decide)), le_antisymm b (key 3 1 _ h2.1 (by decide))⟩

example : sanityCheck { exCCS with m := 4 } 4 = .ok () := by
  rw [(C14_guard_exact _ _).1]; exact ⟨by decide, ⟨2, rfl⟩, by decide⟩
example : sanityCheck { exCCS with m := 3 } 1 = .error (.invalidSizeBounds 3 3 1) := by
  refine (C14_guard_exact _ _).2.2 (by decide) ?_
  rw [Ne, (C14_guard_exact _ _).1]
  rintro ⟨_, ⟨j, hj⟩, _⟩
  have : (3 : Nat) = 2 ^ j := hj
  rcases j with _ | _ | j
  · simp at this
  · simp at this
  · rw [pow_succ, pow_succ] at this; omega
example : (sanityCheck { exCCS with n := 1 } 1).isPanic = true := rfl

/-! ## C13 (variable map) -/

/-- `total_len` after a sequence of `add` calls is one plus the sum of all added lengths; when all
names are distinct this is one plus the sum of the lengths stored, so it counts each variable once. -/
theorem C13_varmap_total_len (adds : List (String × Nat × Nat)) :
    (adds.foldl (fun m e => m.add e.1 e.2.1 e.2.2) VariableMap.new).totalLen
      = 1 + (adds.map (·.2.2)).sum := by
  have : ∀ (m : VariableMap), (adds.foldl (fun m e => m.add e.1 e.2.1 e.2.2) m).totalLen
      = m.totalLen + (adds.map (·.2.2)).sum := by
    induction adds with
    | nil => simp
    | cons e es ih => intro m; rw [List.foldl_cons, ih]; simp [VariableMap.add]; omega
  rw [this]; rfl

/-- A lookup after `add` sees the new entry, and other names are unchanged. -/
theorem C13_varmap_get (m : VariableMap) (name other : String) (i len : Nat) :
    (m.add name i len).get name = some (i, len) ∧
    (other ≠ name → (m.add name i len).get other = m.get other) := by
  refine ⟨by simp [VariableMap.add, VariableMap.get], fun h => ?_⟩
  simp only [VariableMap.add, VariableMap.get, List.lookup_cons]
  have : (other == name) = false := by simpa using h
  rw [this]
  simp only
  generalize m.map = l
  induction l with
  | nil => rfl
  | cons e es ih =>
    by_cases he : e.1 = name
    · have h2 : (other == e.1) = false := by rw [he]; exact this
      simp only [List.filter_cons, he, ne_eq, not_true_eq_false, decide_false, Bool.false_eq_true,
        if_false, ih]
      obtain ⟨k, v⟩ := e
      simp only at he h2
      simp [List.lookup_cons, h2]
    · obtain ⟨k, v⟩ := e
      simp only at he
      simp only [List.filter_cons, ne_eq, he, not_false_eq_true, decide_true, if_true,
        List.lookup_cons, ih]

/-- Re-adding a name replaces its entry but counts its length twice. -/
theorem C13_varmap_overcount :
    ((VariableMap.new.add "x" 0 2).add "x" 0 2).totalLen = 5 ∧
    ((VariableMap.new.add "x" 0 2).add "x" 0 2).map.length = 1 := ⟨rfl, rfl⟩

end Verif.Props
