import Verif.Model.Dummy
import Verif.Props.Arith
import Verif.Props.ConstraintSystem

set_option linter.unusedSimpArgs false
set_option linter.unusedSectionVars false

/-! # Property C82: the generated test instances are satisfied. -/

namespace Verif.Props
open Verif Verif.Spec Finset

variable {R : Type} [CommRing R] [DecidableEq R]

/-- A matrix with the given diagonal. -/
def diag (rows cols : Nat) (f : Nat → R) : SpMat R := ⟨rows, cols, (List.range rows).map fun i => [(f i, i)]⟩

theorem diag_wf (rows cols : Nat) (h : rows ≤ cols) (f : Nat → R) : (diag rows cols f).WF := by
  refine ⟨by simp [diag], ?_⟩
  intro row hr t ht
  simp only [diag, List.mem_map, List.mem_range] at hr
  obtain ⟨i, hi, rfl⟩ := hr
  simp only [List.mem_singleton] at ht
  subst ht
  simp only [diag]
  omega

theorem diag_mulVec (rows cols : Nat) (h : rows ≤ cols) (f : Nat → R) (z : List R) (i : Nat) (hi : i < rows) :
    mulVec (diag rows cols f) z i = f i * z.getD i 0 := by
  have he : ∀ j, entry (diag rows cols f) i j = if i = j then f i else 0 := by
    intro j
    unfold entry diag
    simp only [List.getD_eq_getElem?_getD, List.getElem?_map, List.getElem?_range hi, Option.map_some,
      Option.getD_some]
    by_cases hij : i = j <;> simp [hij]
  unfold mulVec
  simp only [he]
  rw [Finset.sum_eq_single i]
  · simp
  · intro j _ hj
    rw [if_neg (Ne.symm hj), zero_mul]
  · intro hni
    exact absurd (mem_range.2 (show i < (diag rows cols f).ncols by simp only [diag]; omega)) hni

theorem dummyIdentity_eq (rows cols : Nat) : (dummyIdentity rows cols : SpMat R) = diag rows cols fun _ => 1 := rfl

theorem dummySquaring_eq (rows cols : Nat) (w : List R) (h : rows = w.length) :
    dummySquaring rows cols w = .ok (diag rows cols fun i => w.getD i 0) := by
  unfold dummySquaring
  rw [if_neg (by simpa using h), mapRes_ok (g := fun i => [(w.getD i 0, i)])]
  · rfl
  · intro i hi
    rw [List.mem_range] at hi
    rw [idx_getD 0 (by omega)]
    rfl

theorem dummyCubing_eq (rows cols : Nat) (w : List R) (h : rows = w.length) :
    dummyCubing rows cols w = .ok (diag rows cols fun i => w.getD i 0 * w.getD i 0) := by
  unfold dummyCubing
  rw [if_neg (by simpa using h), mapRes_ok (g := fun i => [(w.getD i 0 * w.getD i 0, i)])]
  · rfl
  · intro i hi
    rw [List.mem_range] at hi
    rw [idx_getD 0 (by omega)]
    rfl

/-- **C82**, scalar instances: with at most as many rows as columns the instance accepts exactly the assignments of the right
length whose first entries are idempotent, in particular the vector of ones from `get_test_dummy_z_split`. -/
theorem C82_r1cs (xLen witLen rows : Nat) (h : rows ≤ xLen + witLen + 1) (z : List R) :
    ((dummyR1CS xLen witLen rows : R1CS R).checkRelation z = .ok () ↔
      z.length = xLen + witLen + 1 ∧ ∀ i < rows, z.getD i 0 * z.getD i 0 = z.getD i 0) ∧
    (dummyR1CS xLen witLen rows : R1CS R).checkRelation
      ((dummyZSplit xLen witLen : R × List R × List R).2.1 ++ [(dummyZSplit xLen witLen : R × List R × List R).1]
        ++ (dummyZSplit xLen witLen : R × List R × List R).2.2) = .ok () := by
  have wf : R1CSWF (dummyR1CS xLen witLen rows : R1CS R) := by
    constructor <;> first | exact diag_wf _ _ h _ | rfl
  have key : ∀ z : List R, (dummyR1CS xLen witLen rows : R1CS R).checkRelation z = .ok () ↔
      z.length = xLen + witLen + 1 ∧ ∀ i < rows, z.getD i 0 * z.getD i 0 = z.getD i 0 := by
    intro z
    rw [(C05_check_decides _ wf z).1]
    refine and_congr Iff.rfl (forall_congr' fun i => forall_congr' fun hi => ?_)
    unfold R1CSRow
    simp only [dummyR1CS, dummyIdentity_eq]
    rw [diag_mulVec _ _ h _ _ _ hi, one_mul]
  refine ⟨key z, (key _).2 ⟨?_, ?_⟩⟩
  · simp [dummyZSplit]; omega
  · intro i hi
    have : (List.replicate xLen (1 : R) ++ [1] ++ List.replicate witLen 1) = List.replicate (xLen + witLen + 1) 1 := by
      rw [show xLen + witLen + 1 = xLen + 1 + witLen by omega, List.replicate_add, List.replicate_add]
      rfl
    simp only [dummyZSplit, this]
    rw [List.getD_eq_getElem?_getD, List.getElem?_replicate, if_pos (by omega)]
    simp

/-- **C82**, non-scalar R1CS: the instance built for a vector `w` of the full width accepts `w`; in general it accepts exactly
the assignments with `z_i² = w_i z_i` in every row. A vector of another length than the number of rows aborts. -/
theorem C82_r1cs_non_scalar (xLen witLen rows : Nat) (w : List R) :
    (rows ≠ w.length → ∃ e, dummyR1CSNonScalar xLen witLen rows w = .error (.panic e)) ∧
    (rows = w.length → rows ≤ xLen + witLen + 1 → ∃ cs, dummyR1CSNonScalar xLen witLen rows w = .ok cs ∧
      (∀ z, cs.checkRelation z = .ok () ↔
        z.length = xLen + witLen + 1 ∧ ∀ i < rows, z.getD i 0 * z.getD i 0 = w.getD i 0 * z.getD i 0) ∧
      (w.length = xLen + witLen + 1 → cs.checkRelation w = .ok ())) := by
  constructor
  · intro h
    unfold dummyR1CSNonScalar dummySquaring
    rw [if_pos h]
    exact ⟨_, rfl⟩
  · intro hr h
    unfold dummyR1CSNonScalar
    rw [dummySquaring_eq _ _ _ hr]
    refine ⟨_, rfl, ?_⟩
    have wf : R1CSWF (⟨1, dummyIdentity rows (xLen + witLen + 1), dummyIdentity rows (xLen + witLen + 1),
        diag rows (xLen + witLen + 1) fun i => w.getD i 0⟩ : R1CS R) := by
      constructor <;> first | exact diag_wf _ _ h _ | rfl
    have key := fun z : List R => (C05_check_decides _ wf z).1
    have key2 : ∀ z : List R, (⟨1, dummyIdentity rows (xLen + witLen + 1), dummyIdentity rows (xLen + witLen + 1),
        diag rows (xLen + witLen + 1) fun i => w.getD i 0⟩ : R1CS R).checkRelation z = .ok () ↔ z.length = xLen + witLen + 1 ∧
        ∀ i < rows, z.getD i 0 * z.getD i 0 = w.getD i 0 * z.getD i 0 := by
      intro z
      refine (key z).trans (and_congr Iff.rfl (forall_congr' fun i => forall_congr' fun hi => ?_))
      unfold R1CSRow
      simp only [dummyIdentity_eq]
      rw [diag_mulVec _ _ h _ _ _ hi, diag_mulVec _ _ h _ _ _ hi, one_mul]
    exact ⟨key2, fun hw => (key2 w).2 ⟨hw, fun _ _ => rfl⟩⟩

/-- The system before padding, and its shape after padding. -/
theorem degree_three_check (rows cols : Nat) (h : rows ≤ cols) (f : Nat → R) (ccs : CCS R) (size : Nat)
    (hM : ccs.M = [diag rows cols fun _ => 1, diag rows cols fun _ => 1, diag rows cols fun _ => 1, diag rows cols f] ∨
      ccs.M = [(diag rows cols fun _ => (1 : R)).padRows size, (diag rows cols fun _ => (1 : R)).padRows size,
        (diag rows cols fun _ => (1 : R)).padRows size, (diag rows cols f).padRows size])
    (hS : ccs.S = [[0, 1, 2], [3]]) (hc : ccs.c = [1, -1]) (hq : ccs.q = 2) (hn : ccs.n = cols) (z : List R)
    (hz : z.length = cols) :
    ccs.checkRelation z = .ok () ↔
      ∀ i < min rows ccs.m, z.getD i 0 * z.getD i 0 * z.getD i 0 = f i * z.getD i 0 := by
  have wf : CCSWF ccs := by
    refine ⟨?_, by rw [hS, hq]; rfl, by rw [hc, hq]; rfl, ?_⟩
    · intro M hm
      rcases hM with hM | hM <;> rw [hM] at hm <;>
        simp only [List.mem_cons, List.not_mem_nil, or_false] at hm <;>
        rcases hm with rfl | rfl | rfl | rfl
      all_goals first
        | exact ⟨diag_wf _ _ h _, hn.symm⟩
        | exact ⟨padRows_wf (diag_wf _ _ h _) _, (padRows_ncols _ _).trans hn.symm⟩
    · intro Sk hk j hj
      have hl : ccs.M.length = 4 := by rcases hM with hM | hM <;> rw [hM] <;> rfl
      rw [hS] at hk
      simp only [List.mem_cons, List.not_mem_nil, or_false] at hk
      rcases hk with rfl | rfl <;> simp only [List.mem_cons, List.not_mem_nil, or_false] at hj <;> omega
  have hrow : ∀ i, ccsRow ccs z i = mulVec (diag rows cols fun _ => 1) z i * (mulVec (diag rows cols fun _ => 1) z i *
      mulVec (diag rows cols fun _ => 1) z i) - mulVec (diag rows cols f) z i := by
    intro i
    unfold ccsRow
    rw [hq, hS, hc]
    rcases hM with hM | hM <;> rw [hM] <;>
      simp [Finset.sum_range_succ, padRows_mulVec] <;> ring
  rw [(C08_check_decides ccs wf z (by rw [hn, hz])).1]
  unfold CCSHolds
  constructor
  · intro hh i hi
    have := hh i (by omega)
    rw [hrow, diag_mulVec _ _ h _ _ _ (by omega), diag_mulVec _ _ h _ _ _ (by omega), one_mul, sub_eq_zero] at this
    rw [← this]; ring
  · intro hh i hi
    rw [hrow]
    by_cases hir : i < rows
    · rw [diag_mulVec _ _ h _ _ _ hir, diag_mulVec _ _ h _ _ _ hir, one_mul, ← hh i (by omega)]
      ring
    · have e : ∀ g : Nat → R, mulVec (diag rows cols g) z i = 0 := fun g =>
        mulVec_out (diag_wf _ _ h g) z (by simp only [diag]; omega)
      rw [e, e]; ring

theorem degree_three_both (w : List R) (cols : Nat) (h : w.length ≤ cols) (ccs : CCS R) (size : Nat)
    (hM : ccs.M = [diag w.length cols fun _ => 1, diag w.length cols fun _ => 1, diag w.length cols fun _ => 1,
        diag w.length cols fun i => w.getD i 0 * w.getD i 0] ∨
      ccs.M = [(diag w.length cols fun _ => (1 : R)).padRows size, (diag w.length cols fun _ => (1 : R)).padRows size,
        (diag w.length cols fun _ => (1 : R)).padRows size,
        (diag w.length cols fun i => w.getD i 0 * w.getD i 0).padRows size])
    (hS : ccs.S = [[0, 1, 2], [3]]) (hc : ccs.c = [1, -1]) (hq : ccs.q = 2) (hn : ccs.n = cols) (P : Prop) (hP : P) :
    (∀ z, z.length = cols → (ccs.checkRelation z = .ok () ↔
        ∀ i < min w.length ccs.m, z.getD i 0 * z.getD i 0 * z.getD i 0 = w.getD i 0 * w.getD i 0 * z.getD i 0)) ∧
      (w.length = cols → ccs.checkRelation w = .ok ()) ∧ P := by
  have h2 := degree_three_check w.length cols h (fun i => w.getD i 0 * w.getD i 0) ccs size hM hS hc hq hn
  exact ⟨h2, fun hl => (h2 w hl).2 fun _ _ => rfl, hP⟩

/-- **C82**, degree three: the system built for a vector `w` accepts exactly the `z` with `z_i³ = w_i² z_i` in every row;
so it accepts `w` itself if `w` has the full width. It has at least `n` rows, a power of two, and as many as the
decomposed witness has entries provided that there is a public input. -/
theorem C82_degree_three_partial (w : List R) (xLen n witLen L : Nat) (hw : w.length ≤ xLen + witLen + 1)
    (hx : 1 ≤ xLen + witLen) :
    ∃ ccs, dummyDegreeThree w xLen n witLen L w.length = .ok ccs ∧
      (∀ z, z.length = xLen + witLen + 1 → (ccs.checkRelation z = .ok () ↔
        ∀ i < min w.length ccs.m, z.getD i 0 * z.getD i 0 * z.getD i 0 = w.getD i 0 * w.getD i 0 * z.getD i 0)) ∧
      (w.length = xLen + witLen + 1 → ccs.checkRelation w = .ok ()) ∧
      ccs.n = xLen + witLen + 1 ∧ n ≤ ccs.m ∧ (∃ k, ccs.m = 2 ^ k) ∧ (1 ≤ xLen → witLen * L ≤ ccs.m) := by
  unfold dummyDegreeThree
  rw [dummyCubing_eq _ _ _ rfl]
  simp only [bind_ok', usub]
  rw [if_pos (by omega)]
  simp only [bind_ok']
  rw [if_pos (by omega)]
  refine ⟨_, rfl, ?_⟩
  have hwl : 1 ≤ xLen → witLen * L ≤ (xLen + witLen + 1 - 1 - 1) * L := fun hx1 =>
    Nat.mul_le_mul_right _ (by omega)
  have hle := le_nextPow2 (max ((xLen + witLen + 1 - 1 - 1) * L) n)
  have hle2 := le_nextPow2 (nextPow2 (max ((xLen + witLen + 1 - 1 - 1) * L) n))
  unfold CCS.padRowsTo
  simp only
  split
  · refine degree_three_both w _ hw _ _ (Or.inr rfl) rfl rfl rfl rfl _ ⟨rfl, ?_, ⟨_, rfl⟩, ?_⟩
    · simp only; omega
    · intro hx1; have := hwl hx1; simp only; omega
  · rename_i hgt
    have hn : n = nextPow2 (nextPow2 (max ((xLen + witLen + 1 - 1 - 1) * L) n)) := by omega
    refine degree_three_both w _ hw _ 0 (Or.inl rfl) rfl rfl rfl rfl _ ⟨rfl, Nat.le_refl _, ⟨_, hn⟩, ?_⟩
    intro hx1; have := hwl hx1; simp only; omega

/-- **C82**, the number of public inputs: `l` is one whatever was asked for, so a system without public inputs has too few
rows for its decomposed witness (five elements, two digits each, eight rows), although there is one row per variable. -/
theorem C82_public_inputs_ignored :
    ∃ ccs, dummyDegreeThree ([1, 2, 3, 4, 5, 6] : List ℤ) 0 6 5 2 6 = .ok ccs ∧ ccs.l = 1 ∧ ccs.m = 8 ∧
      ccs.m < 5 * 2 ∧ ccs.checkRelation [1, 2, 3, 4, 5, 6] = .ok () := by
  refine ⟨_, rfl, ?_, ?_, ?_, ?_⟩ <;> decide +kernel

/-- **C82**, the declared number of public inputs of every generated instance is one. -/
theorem C82_l_is_one (xLen n witLen L rows : Nat) (w : List R) :
    (dummyR1CS xLen witLen rows : R1CS R).l = 1 ∧
    (∀ cs, dummyR1CSNonScalar xLen witLen rows w = .ok cs → cs.l = 1) ∧
    (∀ ccs, dummyDegreeThree w xLen n witLen L rows = .ok ccs → ccs.l = 1) := by
  refine ⟨rfl, ?_, ?_⟩
  · intro cs h
    unfold dummyR1CSNonScalar at h
    obtain ⟨C, _, h⟩ := bind_eq_ok.1 h
    cases h; rfl
  · intro ccs h
    unfold dummyDegreeThree at h
    obtain ⟨D, _, h⟩ := bind_eq_ok.1 h
    obtain ⟨a, _, h⟩ := bind_eq_ok.1 h
    obtain ⟨b, _, h⟩ := bind_eq_ok.1 h
    cases h
    unfold CCS.padRowsTo
    simp only
    split <;> rfl

example : (dummyR1CS 1 2 4 : R1CS ℤ).checkRelation [1, 1, 0, 1] = .ok () := by decide +kernel
example : (dummyR1CS 1 2 4 : R1CS ℤ).checkRelation [1, 1, 2, 1] = .error (.notSatisfied 2) := by decide +kernel
example : (do (← dummyR1CSNonScalar 1 2 4 ([7, 1, 5, 3] : List ℤ)).checkRelation [7, 1, 5, 3]) = .ok () := by
  decide +kernel
example : (do (← dummyR1CSNonScalar 1 2 4 ([7, 1, 5, 3] : List ℤ)).checkRelation [7, 1, 5, 4]) =
    .error (.notSatisfied 3) := by decide +kernel
example : (do (← dummyDegreeThree ([7, 1, 5, 3] : List ℤ) 1 4 2 3 4).checkRelation [7, 1, 5, 3]) = .ok () := by
  decide +kernel
example : (do (← dummyDegreeThree ([7, 1, 5, 3] : List ℤ) 1 4 2 3 4).checkRelation [7, 2, 5, 3]) =
    .error (.notSatisfied 1) := by decide +kernel

end Verif.Props
