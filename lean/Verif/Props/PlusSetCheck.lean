import Verif.Lemmas.PlusSetVer
import Verif.Lemmas.Monomial
import Verif.Lemmas.PlusSetSound
import Verif.Props.ExamplePlus

/-!
# Property theorems: the monomial set check of `latticefold-plus` (C50 - C52)
-/

set_option linter.unusedSectionVars false
set_option linter.unusedSimpArgs false

namespace Verif.Props

open Finset Verif Verif.Spec Verif.Plus

variable {F R σ : Type} {d : Nat}
variable [Field F] [CommRing R] [Algebra F R] [DecidableEq F] [DecidableEq R]

/-! ## C50 -/

/-- **C50**: the test behind the set check. Over a finite field of odd characteristic a ring element that is
zero or a power of `X` passes `ev(a, x)^2 = ev(a, x^2)` at every point, and every other element passes it at
no more than `2 (d - 1)` points. -/
theorem C50_monomial_test [Fintype F] (pr : PlusRing F R d) (h2 : (2 : F) ≠ 0) (a : R) :
    (IsMonomial pr a → ∀ x : F, ev pr a x * ev pr a x = ev pr a (x * x)) ∧
    (¬ IsMonomial pr a →
      (univ.filter fun x : F => ev pr a x * ev pr a x = ev pr a (x * x)).card ≤ 2 * (d - 1)) := by
  refine ⟨fun h x => ev_monomial_sq pr h x, fun h => ?_⟩
  simp only [ev_eq]
  exact bad_points pr h2 h

/-- `ev` is the value of the coefficient polynomial. -/
theorem C50_ev (pr : PlusRing F R d) (a : R) (x : F) :
    ev pr a x = ∑ i : Fin d, pr.coeff a i * x ^ (i : Nat) := ev_eq pr a x

/-- `X^2` passes everywhere; `1 + X` is not a monomial, so it passes at no more than six of the seventeen points. -/
example : (∀ x : ZMod 17, ev Example.plus17 (Example.plus17.X ^ 2) x * ev Example.plus17 (Example.plus17.X ^ 2) x
      = ev Example.plus17 (Example.plus17.X ^ 2) (x * x)) ∧
    (univ.filter fun x : ZMod 17 => ev Example.plus17 (1 + Example.plus17.X) x * ev Example.plus17 (1 + Example.plus17.X) x
      = ev Example.plus17 (1 + Example.plus17.X) (x * x)).card ≤ 6 := by
  refine ⟨(C50_monomial_test Example.plus17 (by decide) _).1 (Or.inr ⟨2, rfl⟩),
    (C50_monomial_test Example.plus17 (by decide) _).2 ?_⟩
  rintro (h | ⟨i, h⟩)
  · revert h; decide
  · revert h; revert i; decide

/-! ## C51 -/

/-- All entries of a set are zero or powers of `X`. -/
def SetMonomial (pr : PlusRing F R d) : MonomialSet R → Prop
  | .matrix A => ∀ i j, IsMonomial pr (lastEntry A i j)
  | .vector v => ∀ x ∈ v, IsMonomial pr x

/-- The shapes of the input of the set check: every matrix set is `n × m`, the vector sets and the further
matrices fit into the `nvars` variables. -/
structure SetInput (nvars n m : Nat) (sets : List (MonomialSet R)) (M : List (SpMat R)) : Prop where
  nv : nvars = Nat.clog 2 n
  nvpos : 1 ≤ nvars
  mat : ∀ A, .matrix A ∈ sets → A.WF ∧ A.nrows = n ∧ A.ncols = m
  vec : ∀ v, .vector v ∈ sets → v.length ≤ 2 ^ nvars
  mats : ∀ Mi ∈ M, Mi.WF ∧ Mi.ncols = n ∧ Mi.nrows ≤ 2 ^ nvars

/-- Number of matrix sets. -/
def numMat (sets : List (MonomialSet R)) : Nat :=
  (sets.map fun | .matrix _ => 1 | .vector _ => 0).sum

/-- Number of vector sets. -/
def numVec (sets : List (MonomialSet R)) : Nat :=
  (sets.map fun | .matrix _ => 0 | .vector _ => 1).sum

theorem mem_matSets {sets : List (MonomialSet R)} {A : SpMat R} : A ∈ matSets sets ↔ .matrix A ∈ sets := by
  unfold matSets
  rw [List.mem_filterMap]
  constructor
  · rintro ⟨s, hs, h⟩
    cases s with
    | matrix B => simp at h; rwa [← h]
    | vector v => simp at h
  · intro h
    exact ⟨_, h, rfl⟩

theorem mem_vecSets {sets : List (MonomialSet R)} {v : List R} : v ∈ vecSets sets ↔ .vector v ∈ sets := by
  unfold vecSets
  rw [List.mem_filterMap]
  constructor
  · rintro ⟨s, hs, h⟩
    cases s with
    | matrix B => simp at h
    | vector w => simp at h; rwa [← h]
  · intro h
    exact ⟨_, h, rfl⟩

theorem matSets_length (sets : List (MonomialSet R)) : (matSets sets).length = numMat sets := by
  induction sets with
  | nil => rfl
  | cons s l ih =>
    unfold matSets numMat at *
    cases s with
    | matrix A => simp [ih]; omega
    | vector v => simp [ih]

theorem vecSets_length (sets : List (MonomialSet R)) : (vecSets sets).length = numVec sets := by
  induction sets with
  | nil => rfl
  | cons s l ih =>
    unfold vecSets numVec at *
    cases s with
    | matrix A => simp [ih]
    | vector v => simp [ih]; omega

theorem SetInput.shape {nvars n m : Nat} {sets : List (MonomialSet R)} {M : List (SpMat R)}
    (h : SetInput nvars n m sets M) (h0 : 0 < numMat sets) : SetShape nvars n m sets M :=
  ⟨h.nv, h.nvpos, by rw [matSets_length]; exact h0, fun A hA => h.mat A (mem_matSets.1 hA),
    fun v hv => h.vec v (mem_vecSets.1 hv), h.mats⟩

/-- The contributions of the vector sets to the value that the verifier recomputes, without batching
challenge. -/
def vectorTerms (pr : PlusRing F R d) (T : Transcript F R σ) (s : σ) (out : SetOut F R) : R :=
  ∑ i ∈ range out.b.length,
    verVec pr (out.b.getD i 0) ((drawAll T out.nvars 1 out.b.length s).1.1.getD (1 + i) noCba)
      (out.r.map (algebraMap F R))

/-- The set check succeeds and is accepted as soon as every entry of every set satisfies the tested equation at the challenge of its set. -/
theorem setCheck_accepted (pr : PlusRing F R d) (T : Transcript F R σ) (s : σ) (nvars n m : Nat)
    (sets : List (MonomialSet R)) (M : List (SpMat R)) (hs : SetInput nvars n m sets M) (hc : CharGt F 3)
    (hcount : 2 ≤ numMat sets ∨ numMat sets = 1 ∧ numVec sets = 0)
    (hA : ∀ l (hl : l < (matSets sets).length), ∀ i j, j < m →
      EvSq pr ((drawAll T nvars (numMat sets) (numVec sets) s).1.1.getD l noCba).2.1 (lastEntry (matSets sets)[l] i j))
    (hV : ∀ l (hl : l < (vecSets sets).length), ∀ x ∈ (vecSets sets)[l],
      EvSq pr ((drawAll T nvars (numMat sets) (numVec sets) s).1.1.getD (numMat sets + l) noCba).2.1 x) :
    ∃ out s', setCheck pr T s nvars sets M = .ok (out, s') ∧ setVerify pr T s out = .ok s' ∧
      out.nvars = nvars ∧ out.r.length = nvars ∧
      out.e = setE m (matSets sets) M (out.r.map (algebraMap F R)) ∧
      out.b = setB (vecSets sets) (out.r.map (algebraMap F R)) := by
  have h0 : 0 < numMat sets := by omega
  obtain ⟨out, sc, s2, h1, h2, h3, h4, h5, h6, h7, h8⟩ := setCheck_run pr T s nvars n m sets M (hs.shape h0) hc
  refine ⟨out, _, h1, ?_, h3, h5, h6, h7⟩
  rw [setVerify_iff]
  have he : out.e[0]? = some ((matSets sets).map fun A => (List.range m).map fun j =>
      mle (fun i => (colL A j).getD i 0) (out.r.map (algebraMap F R))) := by rw [h6]; rfl
  refine ⟨_, sc, s2, he, ?_, rfl, ?_⟩
  · rw [List.length_map, h7, setB, List.length_map, h3]; exact h2
  have hb : out.b.length = (vecSets sets).length := by rw [h7, setB, List.length_map]
  rw [← matSets_length, ← vecSets_length] at hA hV
  rw [h8, verVal, h4, List.length_map, hb, h3]
  rcases hrc : (drawAll T nvars (matSets sets).length (vecSets sets).length s).1.2 with _ | rc
  · have h9 := drawAll_rc T nvars (matSets sets).length (vecSets sets).length s
    rw [hrc, matSets_length] at h9
    have h10 : numMat sets = 1 ∧ numVec sets = 0 := by
      rcases hcount with h | h
      · rw [decide_eq_true (by omega)] at h9; simp at h9
      · exact h
    have hm1 := sum_verMat' pr m (matSets sets)
      (drawAll T nvars (matSets sets).length (vecSets sets).length s).1.1 1 out.r hA _ rfl
    rw [List.length_map] at hm1
    simp only [Option.getD_none]
    rw [hm1, setVal, matSets_length, h10.1, vecSets_length, h10.2]
    simp
  · have hm1 := sum_verMat' pr m (matSets sets)
      (drawAll T nvars (matSets sets).length (vecSets sets).length s).1.1 rc out.r hA _ rfl
    rw [List.length_map] at hm1
    have hv1 := sum_verVec' pr (vecSets sets)
      (drawAll T nvars (matSets sets).length (vecSets sets).length s).1.1 rc (matSets sets).length out.r hV
    rw [← h7, hb] at hv1
    simp only [Option.getD_some]
    rw [hm1, hv1, setVal]

/-- **C51** (partial): completeness of the set check. If all sets consist of monomials and there are at least
two matrix sets, or one matrix set and no vector set, then the prover succeeds, the verifier accepts and both
end in the same transcript state; the output contains the evaluations at `r` of the columns of all sets and of
the products with the further matrices. The case of one matrix set together with vector sets fails,
see `C51_one_matrix_iff`, `C51_rejected`. -/
theorem C51_complete_partial (pr : PlusRing F R d) (T : Transcript F R σ) (s : σ) (nvars n m : Nat)
    (sets : List (MonomialSet R)) (M : List (SpMat R)) (hs : SetInput nvars n m sets M)
    (hmono : ∀ S ∈ sets, SetMonomial pr S) (hc : CharGt F 3)
    (hcount : 2 ≤ numMat sets ∨ numMat sets = 1 ∧ numVec sets = 0) :
    ∃ out s', setCheck pr T s nvars sets M = .ok (out, s') ∧ setVerify pr T s out = .ok s' ∧
      out.nvars = nvars ∧ out.r.length = nvars ∧
      out.e = setE m (matSets sets) M (out.r.map (algebraMap F R)) ∧
      out.b = setB (vecSets sets) (out.r.map (algebraMap F R)) := by
  apply setCheck_accepted pr T s nvars n m sets M hs hc hcount
  · intro l hl i j _
    exact evSq_monomial (hmono _ (mem_matSets.1 (List.getElem_mem hl)) i j) _
  · intro l hl x hx
    exact evSq_monomial (hmono _ (mem_vecSets.1 (List.getElem_mem hl)) x hx) _

/-- **C51**: with exactly one matrix set the prover's sum-check leaves out the vector sets, which the verifier
includes: the honest proof is accepted exactly when the contributions of the vector sets happen to cancel. -/
theorem C51_one_matrix_iff (pr : PlusRing F R d) (T : Transcript F R σ) (s : σ) (nvars n m : Nat)
    (sets : List (MonomialSet R)) (M : List (SpMat R)) (hs : SetInput nvars n m sets M)
    (hmono : ∀ S ∈ sets, SetMonomial pr S) (hc : CharGt F 3) (hcount : numMat sets = 1) :
    ∃ out s', setCheck pr T s nvars sets M = .ok (out, s') ∧
      (setVerify pr T s out = .ok s' ↔ vectorTerms pr T s out = 0) ∧
      (vectorTerms pr T s out ≠ 0 → ∀ s'', setVerify pr T s out ≠ .ok s'') := by
  have h0 : 0 < numMat sets := by omega
  obtain ⟨out, sc, s2, h1, h2, h3, h4, h5, h6, h7, h8⟩ := setCheck_run pr T s nvars n m sets M (hs.shape h0) hc
  have he : out.e[0]? = some ((matSets sets).map fun A => (List.range m).map fun j =>
      mle (fun i => (colL A j).getD i 0) (out.r.map (algebraMap F R))) := by rw [h6]; rfl
  have hb : out.b.length = (vecSets sets).length := by rw [h7, setB, List.length_map]
  have hA : ∀ A ∈ matSets sets, ∀ i j, j < m → IsMonomial pr (lastEntry A i j) := fun A hA i j _ =>
    hmono _ (mem_matSets.1 hA) i j
  have hl : (matSets sets).length = 1 := by rw [matSets_length, hcount]
  have key : ∀ s'', setVerify pr T s out = .ok s'' ↔
      s'' = absorbSet T s2 out.e out.b ∧ vectorTerms pr T s out = 0 := by
    intro s''
    rw [setVerify_iff]
    have hm1 := sum_verMat pr m (matSets sets)
      (drawAll T nvars 1 (vecSets sets).length s).1.1 1 out.r hA _ rfl
    simp only [List.length_map, hl, range_one, sum_singleton, one_pow, map_one, mul_one] at hm1
    rw [hl] at h2 h8
    rw [drawAll_rcD T nvars 1 _ s le_rfl] at h8
    constructor
    · rintro ⟨e0, sc', s2', h9, h10, h11, h12⟩
      obtain rfl : _ = e0 := Option.some.inj (he.symm.trans h9)
      rw [List.length_map, hb, h3, hl, h2] at h10
      simp only [Except.ok.injEq, Prod.mk.injEq] at h10
      rw [← h10.1] at h12
      refine ⟨by rw [h11, h10.2], ?_⟩
      rw [verVal, List.length_map, hb, h3, hl, drawAll_rcD T nvars 1 _ s le_rfl, h8, h4, setVal] at h12
      simp only [Option.getD_none, one_pow, map_one, mul_one, range_one, sum_singleton] at h12
      rw [hm1] at h12
      have : ∀ a b : R, a = a + b → b = 0 := fun a b h => by linear_combination -h
      rw [vectorTerms, hb, h3]
      exact this _ _ h12
    · rintro ⟨h11, h12⟩
      refine ⟨_, sc, s2, he, by rw [List.length_map, hb, h3, hl, h2], h11, ?_⟩
      rw [verVal, List.length_map, hb, h3, hl, drawAll_rcD T nvars 1 _ s le_rfl, h8, h4, setVal]
      simp only [Option.getD_none, one_pow, map_one, mul_one, range_one, sum_singleton]
      rw [hm1]
      rw [vectorTerms, hb, h3] at h12
      rw [h12, add_zero]
  refine ⟨out, _, h1, ?_, ?_⟩
  · rw [key]; simp
  · intro h s'' h'
    exact h ((key s'').1 h').2

/-- Two matrix sets and a vector set. -/
example (T : Transcript (ZMod 17) Example.R17 σ) (s : σ) : ∃ out s',
    setCheck Example.plus17 T s 1 [.matrix ⟨2, 1, [[(1, 0)], [(Example.plus17.X, 0)]]⟩, .vector [Example.plus17.X, 0],
      .matrix ⟨2, 1, [[(Example.plus17.X ^ 3, 0)], []]⟩] [] = .ok (out, s') ∧
    setVerify Example.plus17 T s out = .ok s' := by
  obtain ⟨out, s', h1, h2, -⟩ := C51_complete_partial Example.plus17 T s 1 2 1
    [.matrix ⟨2, 1, [[(1, 0)], [(Example.plus17.X, 0)]]⟩, .vector [Example.plus17.X, 0],
      .matrix ⟨2, 1, [[(Example.plus17.X ^ 3, 0)], []]⟩] []
    ⟨by decide, by decide, by
      intro A hA
      simp only [List.mem_cons, MonomialSet.matrix.injEq, List.not_mem_nil, or_false, reduceCtorEq, false_or] at hA
      rcases hA with rfl | rfl <;> exact ⟨by unfold SpMat.WF; decide, rfl, rfl⟩, by
      intro v hv
      simp only [List.mem_cons, MonomialSet.vector.injEq, List.not_mem_nil, or_false, reduceCtorEq, false_or] at hv
      rw [hv]; decide, by simp⟩ (by
      intro S hS
      simp only [List.mem_cons, List.not_mem_nil, or_false] at hS
      have h0 : ∀ i, IsMonomial Example.plus17 (Example.plus17.X ^ (Fin.val (i : Fin 4))) := fun i => Or.inr ⟨i, rfl⟩
      have h1 : IsMonomial Example.plus17 1 := by simpa using h0 0
      have h2 : IsMonomial Example.plus17 Example.plus17.X := by simpa using h0 1
      have h4 : IsMonomial Example.plus17 0 := Or.inl rfl
      rcases hS with rfl | rfl | rfl
      · intro i j
        rcases i with _ | _ | i <;> rcases j with _ | j <;> simp [lastEntry, h1, h2, h4]
      · intro x hx
        simp only [List.mem_cons, List.not_mem_nil, or_false] at hx
        rcases hx with rfl | rfl
        · exact h2
        · exact h4
      · intro i j
        have := h0 3
        rcases i with _ | _ | i <;> rcases j with _ | j <;> simp [lastEntry, h1, h2, h4]
        exact this)
    (by intro n h1 h2; have : n = 1 ∨ n = 2 ∨ n = 3 := by omega
        rcases this with rfl | rfl | rfl <;> decide) (by decide)
  exact ⟨out, s', h1, h2⟩

/-- Without matrix set the prover aborts. -/
theorem C51_no_matrix (pr : PlusRing F R d) (T : Transcript F R σ) (s : σ) (nvars : Nat)
    (sets : List (MonomialSet R)) (M : List (SpMat R)) (h : numMat sets = 0) :
    (setCheck pr T s nvars sets M).isPanic := by
  have : matSets sets = [] := List.length_eq_zero_iff.1 (by rw [matSets_length, h])
  unfold setCheck
  rw [this]
  rfl

/-- A transcript over `F_17`: the challenges are `3, 10, 9, ..` (`3^(2k+1)`, 0, ..), absorbing advances the counter. -/
def tr17 : Transcript (ZMod 17) Example.R17 Nat :=
  ⟨fun s _ => s + 1, fun s => (3 ^ s + 2, s + 1), fun s n => ((List.range n).map fun i => UInt8.ofNat (s + i), s + 1)⟩

/-- One matrix set with the column `(1, X)`. -/
def mat17 : SpMat Example.R17 := ⟨2, 1, [[(1, 0)], [(Example.plus17.X, 0)]]⟩

/-- Whether the honest set check of `sets` is rejected. -/
def honestRejected (sets : List (MonomialSet Example.R17)) : Bool :=
  match setCheck Example.plus17 tr17 0 1 sets [] with
  | .ok (out, _) => decide (setVerify Example.plus17 tr17 0 out = .error .sumCheckFailed)
  | .error _ => false

/-- **C51** is false for one matrix set with a vector set: the honest proof for the column `(1, X)` and the
vector `(X, X^3)`, all of them monomials, is rejected. -/
theorem C51_rejected : ∃ out s', setCheck Example.plus17 tr17 0 1
      [.matrix mat17, .vector [Example.plus17.X, Example.plus17.X ^ 3]] [] = .ok (out, s') ∧
    setVerify Example.plus17 tr17 0 out = .error .sumCheckFailed := by
  have h : honestRejected [.matrix mat17, .vector [Example.plus17.X, Example.plus17.X ^ 3]] = true := by
    decide +kernel
  unfold honestRejected at h
  rcases hc : setCheck Example.plus17 tr17 0 1 [.matrix mat17, .vector [Example.plus17.X, Example.plus17.X ^ 3]] []
    with e | ⟨out, s'⟩
  · rw [hc] at h; simp at h
  · rw [hc] at h
    exact ⟨out, s', rfl, by simpa using h⟩

/-! ## C52 -/

/-- The evaluations of the columns of the matrix sets at the point `r`. -/
def columnEvals (m : Nat) (sets : List (MonomialSet R)) (r : List F) : List (List R) :=
  (matSets sets).map fun A => (List.range m).map fun j =>
    mle (fun i => if i < A.nrows then lastEntry A i j else 0) (r.map (algebraMap F R))

/-- The evaluations of the vector sets at the point `r`. -/
def vectorEvals (sets : List (MonomialSet R)) (r : List F) : List R :=
  (vecSets sets).map fun v => mle (fun i => v.getD i 0) (r.map (algebraMap F R))

/-- The interactive verifier, with the tape `w` of its challenges, accepts the prover with strategy `P`: the
sum-check message of every round may depend on all challenges up to then. The evaluations in the proof are
those of the sets at the sum-check point (in the protocol they are enforced by the commitments). -/
def SetAccepted (pr : PlusRing F R d) (nvars m : Nat) (sets : List (MonomialSet R)) (P : List F → List R) (n1 : Nat)
    (w : List F) : Prop :=
  ∃ out s', setVerify pr (coinT F R) w out = .ok s' ∧ out.nvars = nvars ∧
    out.sumcheck = strategyProof (fun v => P (w.take n1 ++ v)) (w.drop n1) ∧
    out.e[0]? = some (columnEvals m sets (w.drop n1)) ∧ out.b = vectorEvals sets (w.drop n1)

/-- Number of challenges drawn before the sum-check. -/
def setTape (nvars : Nat) (sets : List (MonomialSet R)) : Nat :=
  (numMat sets + numVec sets) * (nvars + 2) + if numMat sets > 1 then 1 else 0

open Classical in
/-- **C52**: soundness of the set check as an interactive protocol. If some entry of some set is not a
monomial, then for every prover strategy the number of challenge tapes with which the verifier accepts is at
most a fraction `(2 (d - 1) + max (m - 1) 1 + nvars + (#sets - 1) + 3 nvars) / |F|` of all tapes. The case of
one matrix set with vector sets, in which the verifier uses no batching challenge, is left out. -/
theorem C52_soundness [Fintype F] (pr : PlusRing F R d) (h2 : (2 : F) ≠ 0) (hc : CharGt F 3) (nvars n m : Nat)
    (sets : List (MonomialSet R)) (hs : SetInput nvars n m sets [])
    (hcount : 2 ≤ numMat sets ∨ numMat sets = 1 ∧ numVec sets = 0)
    (hbad : (∃ A, .matrix A ∈ sets ∧ ∃ i < n, ∃ j < m, ¬ IsMonomial pr (lastEntry A i j)) ∨
      ∃ v, .vector v ∈ sets ∧ ∃ x ∈ v, ¬ IsMonomial pr x) (P : List F → List R) :
    (univ.filter fun w : Fin (setTape nvars sets + nvars) → F =>
        SetAccepted pr nvars m sets P (setTape nvars sets) (List.ofFn w)).card
      ≤ (2 * (d - 1) + max (m - 1) 1 + nvars + (numMat sets + numVec sets - 1) + 3 * nvars)
        * Fintype.card F ^ (setTape nvars sets + nvars - 1) := by
  have hnv := hs.nvpos
  have htl : setTape nvars sets = tapeLen nvars (matSets sets).length (vecSets sets).length := by
    rw [matSets_length, vecSets_length]; rfl
  have hn : n ≤ 2 ^ nvars := by rw [hs.nv]; exact Nat.le_pow_clog (by omega) _
  have hcl : (claimsOf m sets).length = (matSets sets).length + (vecSets sets).length := by simp [claimsOf]
  have hgt : (matSets sets).length > 1 ∨ (matSets sets).length + (vecSets sets).length = 1 := by
    clear hbad
    rw [matSets_length, vecSets_length]
    omega
  have hcnt := tot_count pr h2 nvars (max (m - 1) 1) (matSets sets).length (vecSets sets).length hnv
    (claimsOf m sets) hcl hgt (by
      intro cl h
      unfold claimsOf at h
      rw [List.mem_append, List.mem_map, List.mem_map] at h
      rcases h with ⟨A, -, rfl⟩ | ⟨v, -, rfl⟩
      · simp; omega
      · simp) (by
      rcases hbad with ⟨A, hA, i, hi, j, hj, hb⟩ | ⟨v, hv, x, hx, hb⟩
      · refine ⟨_, List.mem_append_left _ (List.mem_map_of_mem (mem_matSets.2 hA)), j, by simpa using hj, i,
          by omega, ?_⟩
        have hr := (hs.mat A hA).2.1
        simp only [List.getD_eq_getElem?_getD, List.getElem?_map, List.getElem?_range hj, Option.map_some,
          Option.getD_some]
        rw [← List.getD_eq_getElem?_getD, colL, getD_map_range _ _ (by omega)]
        exact hb
      · obtain ⟨i, hi, rfl⟩ := List.getElem_of_mem hx
        have hr := hs.vec v hv
        refine ⟨_, List.mem_append_right _ (List.mem_map_of_mem (mem_vecSets.2 hv)), 0, by simp, i, by omega, ?_⟩
        simpa [List.getD_eq_getElem?_getD, hi] using hb)
  have hmain := cnt_append_le (F := F) (setTape nvars sets) nvars
    (2 * (d - 1) + max (m - 1) 1 + nvars + (numMat sets + numVec sets - 1)) (3 * nvars) (by
      clear hcnt hbad
      rw [htl, matSets_length, vecSets_length]
      unfold tapeLen
      have : 1 * 1 ≤ (numMat sets + numVec sets) * (nvars + 2) := Nat.mul_le_mul (by omega) (by omega)
      omega) hnv (SetAccepted pr nvars m sets P (setTape nvars sets)) _
    (by rw [← matSets_length, ← vecSets_length, htl]; exact hcnt) (by
    intro u hu hgood
    rw [htl] at hu
    have hcoin := fun v => drawAll_coin (F := F) (R := R) nvars (matSets sets).length (vecSets sets).length u v hu
    set cba := ((List.range ((matSets sets).length + (vecSets sets).length)).map fun i =>
      tapeClaim nvars ((u.drop (i * (nvars + 2))).take (nvars + 2))) with hcba
    set rc : Option F := if (matSets sets).length > 1 then
      some (u.getD (((matSets sets).length + (vecSets sets).length) * (nvars + 2)) 0) else none with hrc
    have hl : cba.length = (claimsOf m sets).length := by rw [hcl, hcba]; simp
    have hp : ∀ t ∈ cba, t.1.length = nvars := by
      intro t ht
      rw [hcba] at ht
      obtain ⟨i, hi, rfl⟩ := List.mem_map.1 ht
      have hi' := List.mem_range.1 hi
      have h3 : (i + 1) * (nvars + 2) ≤ ((matSets sets).length + (vecSets sets).length) * (nvars + 2) :=
        Nat.mul_le_mul_right _ (by omega)
      have h4 : (i + 1) * (nvars + 2) = i * (nvars + 2) + (nvars + 2) := by ring
      unfold tapeLen at hu
      unfold tapeClaim
      simp only [List.length_take, List.length_drop]
      omega
    have hsound := C21_soundness (R := R) nvars 3 hnv hc (totFn pr (claimsOf m sets) cba (rc.getD 1))
      (totFn_deg pr _ _ _ nvars hl hp) 0 (by
        rw [totFn_sum pr _ _ _ nvars hl hp]
        intro h
        have hnt : Nontrivial R := by
          obtain ⟨x, hx⟩ : ∃ x : R, ¬ IsMonomial pr x := by
            rcases hbad with ⟨A, -, i, -, j, -, hb⟩ | ⟨v, -, x, -, hb⟩
            · exact ⟨_, hb⟩
            · exact ⟨_, hb⟩
          exact ⟨⟨x, 0, fun e => hx (Or.inl e)⟩⟩
        apply hgood
        exact (algebraMap F R).injective (by rw [← h, map_zero])) (fun v => P (u ++ v))
    rw [Nat.mul_comm 3 nvars]
    have hsound' : cnt nvars (fun v : List F => ∃ sc s', verifyAsSubprotocol (coinT F R) v nvars 3 0
        (strategyProof (fun v => P (u ++ v)) v) = .ok (sc, s') ∧ sc.expectedEvaluation
        = totFn pr (claimsOf m sets) cba (rc.getD 1) (sc.point.map (algebraMap F R)))
        ≤ nvars * 3 * Fintype.card F ^ (nvars - 1) := hsound
    refine le_trans (cnt_mono (F := F) fun v hv h => ?_) hsound'
    obtain ⟨out, s', h1, h3, h4, h5, h6⟩ := h
    rw [htl, List.drop_left' hu, List.take_left' hu] at h4
    rw [htl, List.drop_left' hu] at h5 h6
    rw [setVerify_iff] at h1
    obtain ⟨e0, sc, s2, h7, h8, -, h10⟩ := h1
    obtain rfl : columnEvals m sets v = e0 := Option.some.inj (h5.symm.trans h7)
    have hce : columnEvals m sets v = (matSets sets).map fun A => (List.range m).map fun j =>
        mle (fun i => (colL A j).getD i 0) (v.map (algebraMap F R)) := by
      unfold columnEvals
      apply List.map_congr_left
      intro A hA
      apply List.map_congr_left
      intro j _
      congr 1
      funext i
      unfold colL
      split
      · rename_i hi; rw [getD_map_range _ _ hi]
      · rename_i hi; simp [List.getD_eq_getElem?_getD, hi]
    have hlen1 : (columnEvals m sets v).length = (matSets sets).length := by simp [columnEvals]
    have hlen2 : out.b.length = (vecSets sets).length := by rw [h6]; simp [vectorEvals]
    rw [h3, hlen1, hlen2, hcoin, h4] at h8
    rw [h3, hlen1, hlen2, hcoin] at h10
    have hpt : sc.point = v := by
      have hlen : (strategyProof (fun v => P (u ++ v)) v).length = nvars := by simp [strategyProof, hv]
      rw [verify_eq _ _ _ _ (by omega) _ _ (by omega), List.take_of_length_le (by omega)] at h8
      have habs : ∀ (s : List F) (x : R), (coinT F R).absorb s x = s := fun _ _ => rfl
      simp only at h8
      rw [habs, habs, drawRun_coin _ _ (by omega), hlen, List.take_of_length_le (by omega), bind_eq_ok] at h8
      obtain ⟨e, -, h9⟩ := h8
      simp only [Except.ok.injEq, Prod.mk.injEq] at h9
      rw [← h9.1]
    refine ⟨sc, s2, h8, ?_⟩
    rw [h10, hpt, hce, h6]
    exact verVal_totFn pr m sets cba (rc.getD 1) v)
  exact hmain

open Classical in
/-- Two one-column matrix sets, one of them with the entry `1 + X`: no strategy is accepted with more than
`12 / 17` of all tapes. -/
example (P : List (ZMod 17) → List Example.R17) :
    (univ.filter fun w : Fin 8 → ZMod 17 => SetAccepted Example.plus17 1 1
        [.matrix ⟨2, 1, [[(1, 0)], [(Example.plus17.X, 0)]]⟩,
          .matrix ⟨2, 1, [[(1 + Example.plus17.X, 0)], []]⟩] P 7 (List.ofFn w)).card ≤ 12 * 17 ^ 7 := by
  have h := C52_soundness Example.plus17 (by decide) (by
      intro n h1 h2; have : n = 1 ∨ n = 2 ∨ n = 3 := by omega
      rcases this with rfl | rfl | rfl <;> decide) 1 2 1 [.matrix ⟨2, 1, [[(1, 0)], [(Example.plus17.X, 0)]]⟩,
      .matrix ⟨2, 1, [[(1 + Example.plus17.X, 0)], []]⟩] ⟨by decide, by decide, by
      intro A hA
      simp only [List.mem_cons, MonomialSet.matrix.injEq, List.not_mem_nil, or_false] at hA
      rcases hA with rfl | rfl <;> exact ⟨by unfold SpMat.WF; decide, rfl, rfl⟩, by simp, by simp⟩ (by decide)
      (Or.inl ⟨⟨2, 1, [[(1 + Example.plus17.X, 0)], []]⟩, by simp, 0, by omega, 0, by omega, by
        rintro (h | ⟨i, h⟩)
        · revert h; decide
        · revert h; revert i; decide⟩) P
  have e : Fintype.card (ZMod 17) = 17 := ZMod.card 17
  rw [e] at h
  exact h

end Verif.Props
