import Verif.Model.MleHelpers
import Verif.Spec.Mle
import Verif.Lemmas.List
import Mathlib.Tactic.Ring
import Mathlib.Tactic.LinearCombination

/-! Helper lemmas on multilinear extensions. -/

set_option linter.unusedSectionVars false
set_option linter.unusedSimpArgs false

namespace Verif

open Finset Spec

variable {R : Type} [CommRing R]

theorem sum_range_two_mul {M : Type} [AddCommMonoid M] (f : Nat → M) (n : Nat) :
    ∑ i ∈ range (2 * n), f i = ∑ b ∈ range n, (f (2 * b) + f (2 * b + 1)) := by
  induction n with
  | zero => simp
  | succ n ih =>
    rw [show 2 * (n + 1) = 2 * n + 1 + 1 by ring, sum_range_succ, sum_range_succ, ih,
      sum_range_succ, add_assoc]

theorem eqWeight_nil (i : Nat) : eqWeight ([] : List R) i = 1 := by simp [eqWeight]

theorem eqWeight_cons (r : R) (p : List R) (i : Nat) :
    eqWeight (r :: p) i = (if i.testBit 0 then r else 1 - r) * eqWeight p (i / 2) := by
  unfold eqWeight
  rw [List.length_cons, prod_range_succ']
  simp only [List.getD_cons_zero, List.getD_cons_succ, Nat.testBit_succ]
  rw [mul_comm]

theorem eqWeight_even (r : R) (p : List R) (b : Nat) :
    eqWeight (r :: p) (2 * b) = (1 - r) * eqWeight p b := by
  rw [eqWeight_cons]
  simp [Nat.testBit_zero]

theorem eqWeight_odd (r : R) (p : List R) (b : Nat) :
    eqWeight (r :: p) (2 * b + 1) = r * eqWeight p b := by
  rw [eqWeight_cons]
  have : (2 * b + 1) / 2 = b := by omega
  simp [Nat.testBit_zero, this]

theorem mle_nil (f : Nat → R) : mle f [] = f 0 := by simp [mle, eqWeight_nil]

theorem mle_cons (f : Nat → R) (r : R) (p : List R) :
    mle f (r :: p) = mle (fun b => f (2 * b) + r * (f (2 * b + 1) - f (2 * b))) p := by
  unfold mle
  rw [List.length_cons, pow_succ, mul_comm, sum_range_two_mul]
  apply sum_congr rfl
  intro b _
  rw [eqWeight_even, eqWeight_odd]
  ring

theorem mle_congr {f g : Nat → R} {p : List R} (h : ∀ i < 2 ^ p.length, f i = g i) :
    mle f p = mle g p := by
  unfold mle
  exact sum_congr rfl fun i hi => by rw [h i (mem_range.1 hi)]

theorem mle_add (f g : Nat → R) (p : List R) : mle (fun i => f i + g i) p = mle f p + mle g p := by
  simp [mle, add_mul, sum_add_distrib]

theorem mle_smul (c : R) (f : Nat → R) (p : List R) : mle (fun i => c * f i) p = c * mle f p := by
  simp [mle, mul_sum, mul_assoc]

theorem mle_zero (p : List R) : mle (fun _ => (0 : R)) p = 0 := by simp [mle]

theorem mle_sum {ι : Type} (s : Finset ι) (f : ι → Nat → R) (p : List R) :
    mle (fun i => ∑ k ∈ s, f k i) p = ∑ k ∈ s, mle (f k) p := by
  unfold mle
  rw [sum_comm]
  exact sum_congr rfl fun i _ => by rw [sum_mul]

theorem fix1_get (m : Mle R) (r : R) {b : Nat} (hb : b < 2 ^ (m.numVars - 1)) :
    (m.fix1 r).get b = m.get (2 * b) + r * (m.get (2 * b + 1) - m.get (2 * b)) := by
  simp [Mle.fix1, Mle.get, hb]

theorem fix1_numVars (m : Mle R) (r : R) : (m.fix1 r).numVars = m.numVars - 1 := rfl

theorem fix1_length (m : Mle R) (r : R) : (m.fix1 r).evals.length = 2 ^ (m.numVars - 1) := by
  simp [Mle.fix1]

theorem foldl_fix1 (p : List R) (m : Mle R) (h : p.length = m.numVars) :
    (p.foldl Mle.fix1 m).get 0 = mle m.get p := by
  induction p generalizing m with
  | nil => simp [mle_nil]
  | cons r p ih =>
    rw [List.foldl_cons, ih _ (by rw [fix1_numVars, ← h]; simp), mle_cons]
    apply mle_congr
    intro i hi
    rw [fix1_get]
    rw [← h]; simpa using hi

theorem evaluate_eq (m : Mle R) (p : List R) :
    m.evaluate p = if p.length = m.numVars then some (mle m.get p) else none := by
  unfold Mle.evaluate
  split
  · rename_i h; rw [foldl_fix1 p m h]
  · rfl

theorem evaluateMle_ok (m : Mle R) (p : List R) (h : p.length = m.numVars) :
    evaluateMle m p = .ok (mle m.get p) := by
  unfold evaluateMle
  rw [evaluate_eq, if_pos h]

theorem evaluateMle_err (m : Mle R) (p : List R) (h : p.length ≠ m.numVars) :
    evaluateMle m p = .error (.mleIncorrectLength p.length m.evals.length) := by
  unfold evaluateMle
  rw [evaluate_eq, if_neg h]

theorem evaluateMles_ok (ms : List (Mle R)) (p : List R) (h : ∀ m ∈ ms, p.length = m.numVars) :
    evaluateMles ms p = .ok (ms.map fun m => mle m.get p) :=
  mapRes_ok fun m hm => evaluateMle_ok m p (h m hm)

theorem evaluateVec_ok (v p : List R) (h : v.length ≤ 2 ^ p.length) :
    evaluateVec v p = .ok (mle (fun i => v.getD i 0) p) := by
  unfold evaluateVec Mle.fromEvals
  rw [if_pos h]
  simp only [bind_ok', evaluate_eq]
  simp only [if_true]
  rfl

theorem evaluateVec_panic (v p : List R) (h : ¬ v.length ≤ 2 ^ p.length) :
    evaluateVec v p = .error (.panic "from_evaluations_vec") := by
  unfold evaluateVec Mle.fromEvals
  rw [if_neg h]
  rfl

theorem evaluateRefVec_ok (v p : List R) (h : v.length = 2 ^ p.length) :
    evaluateRefVec v p = .ok (mle (fun i => v.getD i 0) p) := by
  unfold evaluateRefVec
  rw [if_neg (by simpa using h), evaluateVec_ok v p h.le]

theorem sum_eqWeight (p : List R) : ∑ i ∈ range (2 ^ p.length), eqWeight p i = 1 := by
  induction p with
  | nil => simp [eqWeight_nil]
  | cons r p ih =>
    rw [List.length_cons, pow_succ, mul_comm, sum_range_two_mul]
    simp only [eqWeight_even, eqWeight_odd]
    refine Eq.trans (sum_congr rfl fun b _ => ?_) ih
    ring

theorem boolPoint_succ (n i : Nat) : (boolPoint (n + 1) i : List R)
    = (if i.testBit 0 then 1 else 0) :: boolPoint n (i / 2) := by
  unfold boolPoint
  rw [List.range_succ_eq_map]
  simp [Nat.testBit_succ, Function.comp_def]

theorem boolPoint_length (n i : Nat) : (boolPoint n i : List R).length = n := by
  simp [boolPoint]

theorem eqWeight_boolPoint {n i j : Nat} (hi : i < 2 ^ n) (hj : j < 2 ^ n) :
    eqWeight (boolPoint n i : List R) j = if i = j then 1 else 0 := by
  induction n generalizing i j with
  | zero =>
    have : i = 0 := by simpa using hi
    have : j = 0 := by simpa using hj
    subst_vars
    simp [boolPoint, eqWeight]
  | succ n ih =>
    rw [boolPoint_succ, eqWeight_cons, ih (by rw [pow_succ] at hi; omega) (by rw [pow_succ] at hj; omega)]
    simp only [Nat.testBit_zero, decide_eq_true_eq]
    have hi2 : i % 2 = 0 ∨ i % 2 = 1 := by omega
    have hj2 : j % 2 = 0 ∨ j % 2 = 1 := by omega
    rcases hi2 with a | a <;> rcases hj2 with b | b <;> simp only [a, b, zero_ne_one, if_true, if_false, sub_zero,
      sub_self, zero_mul, one_mul]
    · congr 1; exact propext (by omega)
    · rw [if_neg (by omega)]
    · rw [if_neg (by omega)]
    · congr 1; exact propext (by omega)

theorem mle_boolPoint (f : Nat → R) {n i : Nat} (hi : i < 2 ^ n) : mle f (boolPoint n i) = f i := by
  unfold mle
  rw [boolPoint_length, sum_congr rfl fun j hj => by rw [eqWeight_boolPoint hi (mem_range.1 hj)]]
  simp [hi]

theorem mle_affine (f : Nat → R) (p q : List R) (t : R) :
    mle f (p ++ t :: q) = (1 - t) * mle f (p ++ 0 :: q) + t * mle f (p ++ 1 :: q) := by
  induction p generalizing f with
  | nil =>
    simp only [List.nil_append, mle_cons]
    rw [← mle_smul, ← mle_smul, ← mle_add]
    apply mle_congr
    intro i _
    ring
  | cons r p ih =>
    simp only [List.cons_append]
    rw [mle_cons, mle_cons, mle_cons, ih]

theorem eqPoly_nil (y : List R) : eqPoly [] y = 1 := by simp [eqPoly]

theorem eqPoly_cons (a b : R) (x y : List R) :
    eqPoly (a :: x) (b :: y) = (a * b + (1 - a) * (1 - b)) * eqPoly x y := by
  unfold eqPoly
  rw [List.length_cons, prod_range_succ']
  simp only [List.getD_cons_zero, List.getD_cons_succ]
  rw [mul_comm]

theorem eqPoly_comm (x y : List R) (h : x.length = y.length) : eqPoly x y = eqPoly y x := by
  unfold eqPoly
  rw [h]
  exact prod_congr rfl fun k _ => by ring

theorem mle_eqWeight (r y : List R) (h : r.length = y.length) :
    mle (eqWeight r) y = eqPoly r y := by
  induction y generalizing r with
  | nil =>
    have : r = [] := by simpa using h
    subst this
    simp [mle_nil, eqWeight_nil, eqPoly_nil]
  | cons b y ih =>
    cases r with
    | nil => simp at h
    | cons a r =>
      rw [mle_cons, eqPoly_cons, ← ih r (by simpa using h), ← mle_smul]
      apply mle_congr
      intro i _
      rw [eqWeight_even, eqWeight_odd]
      ring

theorem eqPoly_boolPoint (n i : Nat) (hi : i < 2 ^ n) (y : List R) (hy : y.length = n) :
    eqPoly (boolPoint n i) y = eqWeight y i := by
  subst hy
  rw [eqPoly_comm _ _ (boolPoint_length _ _), ← mle_eqWeight _ _ (boolPoint_length _ _).symm,
    mle_boolPoint _ hi]

theorem eqEval_foldl (x y : List R) (c : R) (h : x.length = y.length) :
    (List.zip x y).foldl (fun res p => res * (p.1 * p.2 + p.1 * p.2 - p.1 - p.2 + 1)) c
      = c * eqPoly x y := by
  induction x generalizing y c with
  | nil => simp [eqPoly_nil]
  | cons a x ih =>
    cases y with
    | nil => simp at h
    | cons b y =>
      rw [List.zip_cons_cons, List.foldl_cons, ih y _ (by simpa using h), eqPoly_cons]
      ring

theorem eqEval_ok (x y : List R) (h : x.length = y.length) : eqEval x y = .ok (eqPoly x y) := by
  unfold eqEval
  rw [if_neg (by simpa using h), eqEval_foldl x y 1 h, one_mul]

theorem buildEqHelper_ok (r : List R) (h : r ≠ []) :
    buildEqHelper r = .ok ((List.range (2 ^ r.length)).map fun i => eqWeight r i) := by
  induction r with
  | nil => exact absurd rfl h
  | cons r0 rs ih =>
    cases rs with
    | nil =>
      simp only [buildEqHelper, List.length_cons, List.length_nil]
      have e0 := eqWeight_even r0 ([] : List R) 0
      have e1 := eqWeight_odd r0 ([] : List R) 0
      simp only [eqWeight_nil, mul_one, Nat.mul_zero] at e0 e1
      simp [List.range_succ, e0, e1]
    | cons r1 rs =>
      have ih := ih (by simp)
      rw [buildEqHelper, ih]
      simp only [bind_ok', List.length_map, List.length_range]
      rw [mapRes_ok (g := fun i => eqWeight (r0 :: r1 :: rs) i)]
      · rw [List.length_cons (a := r0), pow_succ]
      · intro i hi
        have hi' : i / 2 < 2 ^ (r1 :: rs).length := by
          have := List.mem_range.1 hi; omega
        rw [idx_getD 0 (by simpa using hi')]
        simp only [bind_ok']
        have : (List.map (fun i => eqWeight (r1 :: rs) i) (List.range (2 ^ (r1 :: rs).length))).getD (i / 2) 0
            = eqWeight (r1 :: rs) (i / 2) := by
          rw [List.getD_eq_getElem?_getD, List.getElem?_map, List.getElem?_range hi']; rfl
        rw [this, eqWeight_cons r0]
        generalize eqWeight (r1 :: rs) (i / 2) = w
        rcases Nat.mod_two_eq_zero_or_one i with h0 | h0
        · simp [h0, Nat.testBit_zero, sub_mul]
        · simp [h0, Nat.testBit_zero]

theorem fromEvals_ok (n : Nat) (v : List R) (h : v.length ≤ 2 ^ n) :
    Mle.fromEvals n v = .ok ⟨n, v⟩ := by
  unfold Mle.fromEvals; rw [if_pos h]

theorem buildEq_ok (r : List R) (h : r ≠ []) :
    buildEq r = .ok ⟨r.length, (List.range (2 ^ r.length)).map fun i => eqWeight r i⟩ := by
  unfold buildEq buildEqVec
  rw [buildEqHelper_ok r h]
  simp only [bind_ok']
  exact fromEvals_ok _ _ (by simp)

theorem get_map_range (n : Nat) (f : Nat → R) (k : Nat) {i : Nat} (h : i < n) :
    (⟨k, (List.range n).map f⟩ : Mle R).get i = f i := by
  simp [Mle.get, List.getD_eq_getElem?_getD, List.getElem?_range h]

end Verif
