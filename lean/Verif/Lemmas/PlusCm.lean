import Verif.Model.PlusCm
import Verif.Lemmas.PlusFromF

/-!
# Lemmas: the sum-checks of `cm.rs`
-/

set_option linter.unusedSectionVars false
set_option linter.unusedSimpArgs false

namespace Verif.Plus

open Finset Spec

variable {F R σ : Type} {d : Nat}
variable [Field F] [CommRing R] [Algebra F R] [DecidableEq F] [DecidableEq R]

/-- Entry `j` of a quadruple. -/
def Quad.comp {α : Type} (q : Quad α) (j : Nat) : α :=
  match j with
  | 0 => q.a
  | 1 => q.b
  | 2 => q.c
  | _ => q.h

/-- The four entries. -/
def Quad.list {α : Type} (q : Quad α) : List α := [q.a, q.b, q.c, q.h]

theorem Quad.list_getD {α : Type} (q : Quad α) (x : α) {j : Nat} (hj : j < 4) : q.list.getD j x = q.comp j := by
  rcases j with _ | _ | _ | _ | j
  · rfl
  · rfl
  · rfl
  · rfl
  · omega

theorem claimQuad_eq (rc : R) (q : Quad R) (i : Nat) :
    claimQuad rc q.a q.b q.c q.h i = ∑ j ∈ range 4, q.comp j * rc ^ (i + j) := by
  simp [sum_range_succ, claimQuad, Quad.comp]

/-- The vector (`i = 0`) or its product with matrix number `i - 1`, as a function. -/
def rowFn (M : List (SpMat R)) (i : Nat) (v : List R) : Nat → R :=
  match i with
  | 0 => fun x => v.getD x 0
  | i + 1 => mulVec (M.getD i ⟨0, 0, []⟩) v

/-- The same as a list. -/
def rowVec (M : List (SpMat R)) (i : Nat) (v : List R) : List R :=
  match i with
  | 0 => v
  | i + 1 => (List.range (M.getD i ⟨0, 0, []⟩).nrows).map fun x => mulVec (M.getD i ⟨0, 0, []⟩) v x

/-- Evaluations of the four vectors. -/
def evalQ (M : List (SpMat R)) (p : List R) (i : Nat) (q : Quad (List R)) : Quad R :=
  ⟨mle (rowFn M i q.a) p, mle (rowFn M i q.b) p, mle (rowFn M i q.c) p, mle (rowFn M i q.h) p⟩

theorem evalQ_comp (M : List (SpMat R)) (p : List R) (i : Nat) (q : Quad (List R)) (j : Nat) :
    (evalQ M p i q).comp j = mle (rowFn M i (q.comp j)) p := by
  rcases j with _ | _ | _ | j <;> rfl

/-- All evaluations of one instance. -/
def evalsQ (M : List (SpMat R)) (p : List R) (q : Quad (List R)) : InstanceEvals R :=
  (List.range (1 + M.length)).map fun i => evalQ M p i q

/-- The tables of one instance. -/
def tabsQ (nvars : Nat) (M : List (SpMat R)) (q : Quad (List R)) : List (Mle R) :=
  ((List.range (1 + M.length)).map fun i => q.list.map fun v => (⟨nvars, rowVec M i v⟩ : Mle R)).flatten

/-- The shapes of the vectors and matrices in the sum-check. -/
structure QuadShape (nvars : Nat) (M : List (SpMat R)) (q : Quad (List R)) : Prop where
  len : ∀ j, (q.comp j).length ≤ 2 ^ nvars
  mats : ∀ m ∈ M, m.WF ∧ m.nrows ≤ 2 ^ nvars ∧ ∀ j, (q.comp j).length = m.ncols

theorem Quad.mem_list {α : Type} {q : Quad α} {v : α} (h : v ∈ q.list) : ∃ j < 4, v = q.comp j := by
  simp only [Quad.list, List.mem_cons, List.not_mem_nil, or_false] at h
  rcases h with h | h | h | h
  · exact ⟨0, by omega, h⟩
  · exact ⟨1, by omega, h⟩
  · exact ⟨2, by omega, h⟩
  · exact ⟨3, by omega, h⟩

theorem instTables_ok {nvars : Nat} {M : List (SpMat R)} {q : Quad (List R)} (h : QuadShape nvars M q) :
    instTables nvars M q.list = .ok (tabsQ nvars M q) := by
  unfold instTables
  rw [mapRes_ok (g := fun v => (⟨nvars, v⟩ : Mle R)) (by
    intro v hv
    obtain ⟨j, _, rfl⟩ := Quad.mem_list hv
    exact fromEvals_ok nvars _ (h.len j)), bind_ok',
    mapRes_ok (g := fun m : SpMat R => q.list.map fun v => (⟨nvars, (List.range m.nrows).map fun x => mulVec m v x⟩ : Mle R)) (by
    intro m hm
    apply mapRes_ok
    intro v hv
    obtain ⟨j, _, rfl⟩ := Quad.mem_list hv
    obtain ⟨w, h1, h2⟩ := h.mats m hm
    rw [tryMulVec_wf w (h2 j), bind_ok', fromEvals_ok nvars _ (by simpa using h1)]), bind_ok']
  congr 1
  unfold tabsQ
  rw [add_comm 1 M.length, List.range_succ_eq_map, List.map_cons, List.flatten_cons, List.map_map]
  congr 2
  apply List.ext_getElem
  · simp
  · intro i h1 h2
    have hi : i < M.length := by simpa using h1
    have : M.getD i ⟨0, 0, []⟩ = M[i] := by simp [List.getD_eq_getElem?_getD, hi]
    simp only [List.getElem_map, List.getElem_range, Function.comp, rowVec, this]

theorem tabsQ_rows {nvars : Nat} {M : List (SpMat R)} {q : Quad (List R)} :
    ∀ r ∈ ((List.range (1 + M.length)).map fun i => q.list.map fun v => (⟨nvars, rowVec M i v⟩ : Mle R)), r.length = 4 := by
  intro r hr
  obtain ⟨i, _, rfl⟩ := List.mem_map.1 hr
  simp [Quad.list]

theorem tabsQ_length (nvars : Nat) (M : List (SpMat R)) (q : Quad (List R)) : (tabsQ nvars M q).length = 4 + 4 * M.length := by
  unfold tabsQ
  rw [flatten_length _ tabsQ_rows]
  simp
  ring

theorem tabsQ_numVars (nvars : Nat) (M : List (SpMat R)) (q : Quad (List R)) : ∀ t ∈ tabsQ nvars M q, t.numVars = nvars := by
  intro t ht
  unfold tabsQ at ht
  obtain ⟨r, hr, ht⟩ := List.mem_flatten.1 ht
  obtain ⟨i, _, rfl⟩ := List.mem_map.1 hr
  obtain ⟨v, _, rfl⟩ := List.mem_map.1 ht
  rfl

theorem tabsQ_getD (nvars : Nat) (M : List (SpMat R)) (q : Quad (List R)) (dflt : Mle R) {i j : Nat} (hi : i < 1 + M.length) (hj : j < 4) :
    (tabsQ nvars M q).getD (4 * i + j) dflt = ⟨nvars, rowVec M i (q.comp j)⟩ := by
  unfold tabsQ
  rw [mul_comm 4 i, flatten_getD _ _ tabsQ_rows i hj, getD_range_any _ _ hi, getD_map_lt _ q.list [] dflt (by simpa [Quad.list] using hj),
    Quad.list_getD q [] hj]

theorem rowVec_get {M : List (SpMat R)} (hM : ∀ m ∈ M, m.WF) (nvars i : Nat) (hi : i < 1 + M.length) (v : List R) (x : Nat) :
    (⟨nvars, rowVec M i v⟩ : Mle R).get x = rowFn M i v x := by
  cases i with
  | zero => rfl
  | succ i =>
    have hi' : i < M.length := by omega
    have : M.getD i ⟨0, 0, []⟩ ∈ M := by
      rw [List.getD_eq_getElem?_getD, List.getElem?_eq_getElem hi', Option.getD_some]
      exact List.getElem_mem hi'
    exact mulVec_list_getD (hM _ this) v x

/-! ### The combination -/

/-- The sum of the quadruples of instance `l`, weighted with powers of `rc`. -/
def quadSum (m : Nat) (rc : R) (l : Nat) (val : Nat → Nat → R) : R :=
  ∑ i ∈ range (1 + m), ∑ j ∈ range 4, val i j * rc ^ (l * (4 + 4 * m) + 4 * i + j)

/-- The value of the combination from the value `eq`, the values `val l i j` of the tables and the values of the two `t`. -/
def cmValue (L m : Nat) (rc eq : R) (val : Nat → Nat → Nat → R) (t0 t1 : R) : R :=
  ∑ l ∈ range L, (eq * quadSum m rc l (val l) + val l 0 0 * t0 * rc ^ (L * (4 + 4 * m)) + val l 0 0 * t1 * rc ^ (L * (4 + 4 * m) + 1))

/-- Values in the list of all tables. -/
def tabVal (m : Nat) (vals : List R) (l i j : Nat) : R := vals.getD (1 + l * (4 + 4 * m) + 4 * i + j) 0

theorem rcPowers_getD (rc : F) (L m : Nat) {i : Nat} (hi : i < L * (4 + 4 * m) + 2) :
    (rcPowers rc L m)[i]? = some (rc ^ i) := by
  unfold rcPowers
  simp [hi]

theorem quadTerm_ok (rc : F) (L m : Nat) (vals : List R) (hv : vals.length = L * (4 + 4 * m) + 3) (a : Nat) (ha : a + 4 ≤ L * (4 + 4 * m)) :
    quadTerm (rcPowers rc L m) vals (1 + a) = .ok (∑ j ∈ range 4, vals.getD (1 + a + j) 0 * (algebraMap F R rc) ^ (a + j)) := by
  have hp : ∀ i, i < L * (4 + 4 * m) + 2 → idx "rcps" (rcPowers rc L m) i = .ok (rc ^ i) := by
    intro i hi
    unfold idx
    rw [rcPowers_getD rc L m hi]
  unfold quadTerm
  rw [idx_getD 0 (by omega), bind_ok', idx_getD 0 (by omega), bind_ok', idx_getD 0 (by omega), bind_ok', idx_getD 0 (by omega), bind_ok',
    hp _ (by omega), bind_ok', hp _ (by omega), bind_ok', hp _ (by omega), bind_ok', hp _ (by omega), bind_ok']
  simp only [sum_range_succ, range_zero, sum_empty, map_pow]
  rw [show 1 + a - 1 = a by omega, show 1 + a + 1 = a + 2 by omega, show 1 + a + 2 = a + 3 by omega, show 1 + a = a + 1 by omega]
  congr 1
  rw [show a + 1 + 3 = a + 4 by omega, show a + 1 + 0 = a + 1 by omega, show a + 0 = a by omega, show a + 1 + 1 = a + 2 by omega, show a + 1 + 2 = a + 3 by omega]
  ring

theorem cmCombOne_ok (rc : F) (L m : Nat) (vals : List R) (hv : vals.length = L * (4 + 4 * m) + 3) (l : Nat) (hl : l < L) :
    cmCombOne m (rcPowers rc L m) vals l = .ok (vals.getD 0 0 * quadSum m (algebraMap F R rc) l (tabVal m vals l)
      + tabVal m vals l 0 0 * vals.getD (L * (4 + 4 * m) + 1) 0 * (algebraMap F R rc) ^ (L * (4 + 4 * m))
      + tabVal m vals l 0 0 * vals.getD (L * (4 + 4 * m) + 2) 0 * (algebraMap F R rc) ^ (L * (4 + 4 * m) + 1)) := by
  have hlw : l * (4 + 4 * m) + (4 + 4 * m) ≤ L * (4 + 4 * m) := by
    calc _ = (l + 1) * (4 + 4 * m) := by ring
      _ ≤ _ := Nat.mul_le_mul_right _ hl
  have hp : ∀ i, i < L * (4 + 4 * m) + 2 → idx "rcps" (rcPowers rc L m) i = .ok (rc ^ i) := by
    intro i hi
    unfold idx
    rw [rcPowers_getD rc L m hi]
  unfold cmCombOne
  simp only
  rw [idx_getD 0 (by omega), bind_ok', quadTerm_ok rc L m vals hv _ (by omega), bind_ok']
  rw [mapRes_ok (g := fun i => ∑ j ∈ range 4, vals.getD (1 + (l * (4 + 4 * m) + 4 + i * 4) + j) 0
      * (algebraMap F R rc) ^ (l * (4 + 4 * m) + 4 + i * 4 + j)) (by
    intro i hi
    have hi' := List.mem_range.1 hi
    have e : 1 + l * (4 + 4 * m) + 4 + i * 4 = 1 + (l * (4 + 4 * m) + 4 + i * 4) := by ring
    rw [e]
    exact quadTerm_ok rc L m vals hv _ (by omega)), bind_ok', idx_getD 0 (by omega), bind_ok', idx_getD 0 (by omega), bind_ok',
    idx_getD 0 (by omega), bind_ok', hp _ (by omega), bind_ok', hp _ (by omega), bind_ok']
  congr 1
  unfold quadSum tabVal
  have hsplit : ∀ X : Nat → R, ∑ i ∈ range (1 + m), X i = X 0 + ∑ i ∈ range m, X (i + 1) := by
    intro X
    rw [add_comm 1 m, sum_range_succ', add_comm]
  rw [sum_map_range', hsplit]
  simp only [map_pow, Nat.mul_zero, Nat.add_zero]
  rw [hv, show L * (4 + 4 * m) + 3 - 2 = L * (4 + 4 * m) + 1 by omega, show L * (4 + 4 * m) + 3 - 1 = L * (4 + 4 * m) + 2 by omega,
    show L * (4 + 4 * m) + 3 - 3 = L * (4 + 4 * m) by omega]
  congr 4
  apply sum_congr rfl
  intro i _
  apply sum_congr rfl
  intro j _
  congr 2 <;> ring

theorem cmComb_ok (rc : F) (L m : Nat) (vals : List R) (hv : vals.length = L * (4 + 4 * m) + 3) :
    cmComb L m (rcPowers rc L m) vals = .ok (cmValue L m (algebraMap F R rc) (vals.getD 0 0) (tabVal m vals)
      (vals.getD (L * (4 + 4 * m) + 1) 0) (vals.getD (L * (4 + 4 * m) + 2) 0)) := by
  unfold cmComb
  rw [mapRes_ok fun l hl => cmCombOne_ok rc L m vals hv l (List.mem_range.1 hl), bind_ok', sum_map_range']
  rfl

theorem cmValue_lineDeg (k L m : Nat) (rc : R) : LineDeg k 2 (fun vals : List R =>
    cmValue L m rc (vals.getD 0 0) (tabVal m vals) (vals.getD (L * (4 + 4 * m) + 1) 0) (vals.getD (L * (4 + 4 * m) + 2) 0)) := by
  unfold cmValue
  apply LineDeg.sum
  intro l _
  apply LineDeg.add
  · apply LineDeg.add
    · apply LineDeg.mul (d := 1) (e := 1) (lineDeg_coord _ _)
      unfold quadSum
      apply LineDeg.sum
      intro i _
      apply LineDeg.sum
      intro j _
      exact LineDeg.mul (d := 1) (e := 0) (lineDeg_coord _ _) (lineDeg_const _ _ _)
    · exact LineDeg.mul (d := 2) (e := 0) (LineDeg.mul (d := 1) (e := 1) (lineDeg_coord _ _) (lineDeg_coord _ _)) (lineDeg_const _ _ _)
  · exact LineDeg.mul (d := 2) (e := 0) (LineDeg.mul (d := 1) (e := 1) (lineDeg_coord _ _) (lineDeg_coord _ _)) (lineDeg_const _ _ _)

/-! ### All tables -/

/-- The tables of the sum-check. -/
def allTabs (nvars : Nat) (r : List F) (M : List (SpMat R)) (qs : List (Quad (List R))) (t0 t1 : List R) : List (Mle R) :=
  eqT R r :: ((qs.map (tabsQ nvars M)).flatten ++ [⟨nvars, t0⟩, ⟨nvars, t1⟩])

/-- Instance number `l`. -/
def quadAt (qs : List (Quad (List R))) (l : Nat) : Quad (List R) := qs.getD l ⟨[], [], [], []⟩

theorem tabs_flat_length (nvars : Nat) (M : List (SpMat R)) (qs : List (Quad (List R))) :
    (qs.map (tabsQ nvars M)).flatten.length = qs.length * (4 + 4 * M.length) := by
  rw [flatten_length (L := 4 + 4 * M.length) _ (by
    intro t ht
    obtain ⟨q, _, rfl⟩ := List.mem_map.1 ht
    exact tabsQ_length _ _ _), List.length_map]

theorem allTabs_length (nvars : Nat) (r : List F) (M : List (SpMat R)) (qs : List (Quad (List R))) (t0 t1 : List R) :
    (allTabs nvars r M qs t0 t1).length = qs.length * (4 + 4 * M.length) + 3 := by
  unfold allTabs
  rw [List.length_cons, List.length_append, tabs_flat_length]
  rfl

theorem allTabs_numVars (nvars : Nat) (r : List F) (hr : r.length = nvars) (M : List (SpMat R)) (qs : List (Quad (List R))) (t0 t1 : List R) :
    ∀ t ∈ allTabs nvars r M qs t0 t1, t.numVars = nvars := by
  intro t ht
  unfold allTabs at ht
  rcases List.mem_cons.1 ht with rfl | ht
  · exact hr
  · rcases List.mem_append.1 ht with ht | ht
    · obtain ⟨l, hl, ht⟩ := List.mem_flatten.1 ht
      obtain ⟨q, _, rfl⟩ := List.mem_map.1 hl
      exact tabsQ_numVars _ _ _ t ht
    · simp only [List.mem_cons, List.not_mem_nil, or_false] at ht
      rcases ht with rfl | rfl <;> rfl

theorem allTabs_tab (nvars : Nat) (r : List F) (M : List (SpMat R)) (qs : List (Quad (List R))) (t0 t1 : List R) (dflt : Mle R)
    {l i j : Nat} (hl : l < qs.length) (hi : i < 1 + M.length) (hj : j < 4) :
    (allTabs nvars r M qs t0 t1).getD (1 + l * (4 + 4 * M.length) + 4 * i + j) dflt = ⟨nvars, rowVec M i ((quadAt qs l).comp j)⟩ := by
  have hlt : 4 * i + j < 4 + 4 * M.length := by omega
  have hlw : l * (4 + 4 * M.length) + (4 + 4 * M.length) ≤ qs.length * (4 + 4 * M.length) := by
    calc _ = (l + 1) * (4 + 4 * M.length) := by ring
      _ ≤ _ := Nat.mul_le_mul_right _ hl
  unfold allTabs
  rw [show 1 + l * (4 + 4 * M.length) + 4 * i + j = (l * (4 + 4 * M.length) + (4 * i + j)) + 1 by ring, List.getD_cons_succ,
    List.getD_append _ _ _ _ (by rw [tabs_flat_length]; omega),
    flatten_getD (L := 4 + 4 * M.length) _ _ (by
      intro t ht
      obtain ⟨q, _, rfl⟩ := List.mem_map.1 ht
      exact tabsQ_length _ _ _) l hlt,
    getD_map_lt _ qs ⟨[], [], [], []⟩ [] hl, tabsQ_getD _ _ _ _ hi hj]
  rfl

theorem allTabs_t (nvars : Nat) (r : List F) (M : List (SpMat R)) (qs : List (Quad (List R))) (t0 t1 : List R) (dflt : Mle R) :
    (allTabs nvars r M qs t0 t1).getD (qs.length * (4 + 4 * M.length) + 1) dflt = ⟨nvars, t0⟩ ∧
    (allTabs nvars r M qs t0 t1).getD (qs.length * (4 + 4 * M.length) + 2) dflt = ⟨nvars, t1⟩ := by
  unfold allTabs
  have hl := tabs_flat_length nvars M qs
  constructor
  · rw [List.getD_cons_succ, List.getD_append_right _ _ _ _ (by omega), hl, Nat.sub_self]
    rfl
  · rw [List.getD_cons_succ, List.getD_append_right _ _ _ _ (by omega), hl,
      show qs.length * (4 + 4 * M.length) + 1 - qs.length * (4 + 4 * M.length) = 1 by omega]
    rfl

theorem cmValue_congr {L m : Nat} {rc eq t0 t1 : R} {val val' : Nat → Nat → Nat → R}
    (h : ∀ l < L, ∀ i < 1 + m, ∀ j < 4, val l i j = val' l i j) : cmValue L m rc eq val t0 t1 = cmValue L m rc eq val' t0 t1 := by
  unfold cmValue quadSum
  apply sum_congr rfl
  intro l hl
  have hl' := mem_range.1 hl
  rw [h l hl' 0 (by omega) 0 (by omega)]
  congr 3
  apply sum_congr rfl
  intro i hi
  apply sum_congr rfl
  intro j hj
  rw [h l hl' i (mem_range.1 hi) j (mem_range.1 hj)]

/-- The combination on the images of the tables. -/
theorem cmValue_tabs (φ : Mle R → R) (nvars : Nat) (r : List F) (M : List (SpMat R)) (qs : List (Quad (List R))) (t0 t1 : List R) (rc : R) :
    let vals := (allTabs nvars r M qs t0 t1).map φ
    cmValue qs.length M.length rc (vals.getD 0 0) (tabVal M.length vals) (vals.getD (qs.length * (4 + 4 * M.length) + 1) 0)
      (vals.getD (qs.length * (4 + 4 * M.length) + 2) 0)
    = cmValue qs.length M.length rc (φ (eqT R r)) (fun l i j => φ ⟨nvars, rowVec M i ((quadAt qs l).comp j)⟩) (φ ⟨nvars, t0⟩) (φ ⟨nvars, t1⟩) := by
  have hl := allTabs_length nvars r M qs t0 t1
  have dflt : Mle R := ⟨0, []⟩
  intro vals
  have h1 : vals.getD (qs.length * (4 + 4 * M.length) + 1) 0 = φ ⟨nvars, t0⟩ := by
    rw [getD_map_lt φ _ dflt 0 (by omega), (allTabs_t nvars r M qs t0 t1 dflt).1]
  have h2 : vals.getD (qs.length * (4 + 4 * M.length) + 2) 0 = φ ⟨nvars, t1⟩ := by
    rw [getD_map_lt φ _ dflt 0 (by omega), (allTabs_t nvars r M qs t0 t1 dflt).2]
  rw [h1, h2]
  have h0 : vals.getD 0 0 = φ (eqT R r) := rfl
  rw [h0]
  apply cmValue_congr
  intro l hl' i hi j hj
  have hlw : l * (4 + 4 * M.length) + (4 + 4 * M.length) ≤ qs.length * (4 + 4 * M.length) := by
    calc _ = (l + 1) * (4 + 4 * M.length) := by ring
      _ ≤ _ := Nat.mul_le_mul_right _ hl'
  unfold tabVal
  rw [getD_map_lt φ _ dflt 0 (by omega), allTabs_tab nvars r M qs t0 t1 dflt hl' hi hj]

/-- The inner product of two vectors of length up to `n`. -/
def inner (n : Nat) (a b : List R) : R := ∑ x ∈ range n, a.getD x 0 * b.getD x 0

/-- The claim of the sum-check. -/
def cmClaim (L m : Nat) (rc : R) (val : Nat → Nat → Nat → R) (y0 y1 : Nat → R) : R :=
  ∑ l ∈ range L, (quadSum m rc l (val l) + y0 l * rc ^ (L * (4 + 4 * m)) + y1 l * rc ^ (L * (4 + 4 * m) + 1))

theorem cm_sum (nvars : Nat) (r : List F) (hr : r.length = nvars) (M : List (SpMat R)) (hM : ∀ m ∈ M, m.WF) (qs : List (Quad (List R)))
    (t0 t1 : List R) (rc : R) :
    ∑ b ∈ range (2 ^ nvars), cmValue qs.length M.length rc ((eqT R r).get b)
      (fun l i j => (⟨nvars, rowVec M i ((quadAt qs l).comp j)⟩ : Mle R).get b) ((⟨nvars, t0⟩ : Mle R).get b) ((⟨nvars, t1⟩ : Mle R).get b)
    = cmClaim qs.length M.length rc (fun l i j => mle (rowFn M i ((quadAt qs l).comp j)) (r.map (algebraMap F R)))
      (fun l => inner (2 ^ nvars) (quadAt qs l).a t0) (fun l => inner (2 ^ nvars) (quadAt qs l).a t1) := by
  unfold cmValue cmClaim
  rw [sum_comm]
  apply sum_congr rfl
  intro l _
  rw [sum_add_distrib, sum_add_distrib]
  have ht : ∀ (t : List R) (e : Nat), ∑ b ∈ range (2 ^ nvars), (⟨nvars, rowVec M 0 ((quadAt qs l).comp 0)⟩ : Mle R).get b
      * (⟨nvars, t⟩ : Mle R).get b * rc ^ e = inner (2 ^ nvars) (quadAt qs l).a t * rc ^ e := by
    intro t e
    rw [← sum_mul]
    rfl
  rw [ht, ht]
  congr 2
  unfold quadSum
  simp only [mul_sum]
  rw [sum_comm]
  apply sum_congr rfl
  intro i hi
  rw [sum_comm]
  apply sum_congr rfl
  intro j _
  unfold mle
  rw [sum_mul, List.length_map, hr]
  apply sum_congr rfl
  intro b hb
  rw [rowVec_get hM nvars i (mem_range.1 hi)]
  have : (eqT R r).get b = eqWeight (r.map (algebraMap F R)) b := get_map_range _ _ _ (by rw [hr]; exact mem_range.1 hb)
  rw [this]
  ring

/-! ### The evaluations -/

theorem quadEval_ok (nvars : Nat) (r : List F) (M : List (SpMat R)) (hM : ∀ m ∈ M, m.WF) (qs : List (Quad (List R))) (t0 t1 ro : List R)
    (hro : ro.length = nvars) {l i : Nat} (hl : l < qs.length) (hi : i < 1 + M.length) :
    quadEval (allTabs nvars r M qs t0 t1) ro (1 + l * (4 + 4 * M.length) + 4 * i) = .ok (evalQ M ro i (quadAt qs l)) := by
  have hlw : l * (4 + 4 * M.length) + (4 + 4 * M.length) ≤ qs.length * (4 + 4 * M.length) := by
    calc _ = (l + 1) * (4 + 4 * M.length) := by ring
      _ ≤ _ := Nat.mul_le_mul_right _ hl
  unfold quadEval
  rw [mapRes_ok (g := fun k => mle (rowFn M i ((quadAt qs l).comp k)) ro)]
  · rfl
  · intro k hk
    have hk' : k < 4 := by
      simp only [List.mem_cons, List.not_mem_nil, or_false] at hk
      omega
    rw [idx_getD ⟨0, []⟩ (by rw [allTabs_length]; omega), allTabs_tab nvars r M qs t0 t1 _ hl hi hk', bind_ok', evaluate_eq,
      if_pos hro]
    simp only
    congr 1
    apply mle_congr
    intro x _
    exact rowVec_get hM nvars i hi _ x

theorem instEvals_ok (nvars : Nat) (r : List F) (M : List (SpMat R)) (hM : ∀ m ∈ M, m.WF) (qs : List (Quad (List R))) (t0 t1 ro : List R)
    (hro : ro.length = nvars) {l : Nat} (hl : l < qs.length) :
    instEvals (allTabs nvars r M qs t0 t1) ro M.length l = .ok (evalsQ M ro (quadAt qs l)) := by
  unfold instEvals
  simp only
  have h0 := quadEval_ok nvars r M hM qs t0 t1 ro hro hl (i := 0) (by omega)
  rw [Nat.mul_zero, Nat.add_zero] at h0
  rw [h0, bind_ok', mapRes_ok (g := fun i => evalQ M ro (i + 1) (quadAt qs l)) (by
    intro i hi
    have := quadEval_ok nvars r M hM qs t0 t1 ro hro hl (i := i + 1) (by have := List.mem_range.1 hi; omega)
    rw [← this]
    congr 1
    ring), bind_ok']
  unfold evalsQ
  rw [add_comm 1 M.length, List.range_succ_eq_map, List.map_cons, List.map_map]
  rfl

/-! ### The prover -/

theorem sumchecker_run (T : Transcript F R σ) (s : σ) (nvars : Nat) (r : List F) (M : List (SpMat R)) (qs : List (Quad (List R)))
    (t0 t1 : List R) (hnv : 1 ≤ nvars) (hr : r.length = nvars) (hc : CharGt F 2) (hq : ∀ q ∈ qs, QuadShape nvars M q)
    (hM : ∀ m ∈ M, m.WF) (h0 : t0.length ≤ 2 ^ nvars) (h1 : t1.length ≤ 2 ^ nvars) :
    ∃ proof sc s2, sumchecker T s nvars r (qs.map Quad.list) t0 t1 M
        = .ok ((proof, qs.map (evalsQ M (sc.point.map (algebraMap F R))), sc.point.map (algebraMap F R)),
          absorbQuads T s2 (qs.map (evalsQ M (sc.point.map (algebraMap F R))))) ∧
      sc.point.length = nvars ∧
      verifyAsSubprotocol T (T.challenge s).2 nvars 2 (cmClaim qs.length M.length (algebraMap F R (T.challenge s).1)
        (fun l i j => mle (rowFn M i ((quadAt qs l).comp j)) (r.map (algebraMap F R)))
        (fun l => inner (2 ^ nvars) (quadAt qs l).a t0) (fun l => inner (2 ^ nvars) (quadAt qs l).a t1)) proof = .ok (sc, s2) ∧
      sc.expectedEvaluation = cmValue qs.length M.length (algebraMap F R (T.challenge s).1)
        (eqPoly (r.map (algebraMap F R)) (sc.point.map (algebraMap F R)))
        (fun l i j => mle (rowFn M i ((quadAt qs l).comp j)) (sc.point.map (algebraMap F R)))
        (mle (fun x => t0.getD x 0) (sc.point.map (algebraMap F R))) (mle (fun x => t1.getD x 0) (sc.point.map (algebraMap F R))) := by
  rcases hch : T.challenge s with ⟨rc, s1⟩
  simp only
  obtain ⟨proof, pst, s2, sc, vals, h2, h3, -, -, h5, h6, h7, h8⟩ :=
    Props.C20_completeness T s1 (allTabs nvars r M qs t0 t1) nvars 2 (cmComb qs.length M.length (rcPowers rc qs.length M.length)) _
      hnv (by omega) hc (allTabs_numVars nvars r hr M qs t0 t1)
      (fun v hv => cmComb_ok rc qs.length M.length v (by rw [hv, allTabs_length])) (cmValue_lineDeg _ _ _ _)
  have hsum : ∑ b ∈ range (2 ^ nvars), cmValue qs.length M.length (algebraMap F R rc)
        (((allTabs nvars r M qs t0 t1).map fun q => q.get b).getD 0 0) (tabVal M.length ((allTabs nvars r M qs t0 t1).map fun q => q.get b))
        (((allTabs nvars r M qs t0 t1).map fun q => q.get b).getD (qs.length * (4 + 4 * M.length) + 1) 0)
        (((allTabs nvars r M qs t0 t1).map fun q => q.get b).getD (qs.length * (4 + 4 * M.length) + 2) 0)
      = cmClaim qs.length M.length (algebraMap F R rc)
        (fun l i j => mle (rowFn M i ((quadAt qs l).comp j)) (r.map (algebraMap F R)))
        (fun l => inner (2 ^ nvars) (quadAt qs l).a t0) (fun l => inner (2 ^ nvars) (quadAt qs l).a t1) := by
    rw [← cm_sum nvars r hr M hM qs t0 t1]
    apply sum_congr rfl
    intro b _
    exact cmValue_tabs (fun q => q.get b) nvars r M qs t0 t1 _
  rw [hsum] at h3
  have hrl : (sc.point.map (algebraMap F R)).length = nvars := by rw [List.length_map, h6]
  refine ⟨proof, sc, s2, ?_, h6, h3, ?_⟩
  · unfold sumchecker
    simp only [hch]
    rw [buildEq_eqT r (by rintro rfl; simp at hr; omega), show ∀ {α : Type} (u : String) (a : α), unwrapRes u (Except.ok a) = .ok a from fun _ _ => rfl, bind_ok', mapRes_comp_ok (Quad.list) (tabsQ nvars M) qs
      (fun q hq' => instTables_ok (hq q hq')), bind_ok', fromEvals_ok nvars t0 h0, bind_ok', fromEvals_ok nvars t1 h1, bind_ok',
      List.length_map]
    change (do
      let ((proof, pst), s) ← proveAsSubprotocol T s1 (allTabs nvars r M qs t0 t1) nvars 2
        (cmComb qs.length M.length (rcPowers rc qs.length M.length))
      let ro : List R := pst.randomness.map (algebraMap F R)
      let evals ← mapRes (instEvals (allTabs nvars r M qs t0 t1) ro M.length) (List.range qs.length)
      .ok ((proof, evals, ro), absorbQuads T s evals) : Res _) = _
    rw [h2, bind_ok']
    simp only [← h5]
    rw [mapRes_ok fun l hl => instEvals_ok nvars r M hM qs t0 t1 _ hrl (List.mem_range.1 hl), bind_ok']
    have : (List.range qs.length).map (fun l => evalsQ M (sc.point.map (algebraMap F R)) (quadAt qs l))
        = qs.map (evalsQ M (sc.point.map (algebraMap F R))) := by
      apply List.ext_getElem
      · simp
      · intro i h1 h2
        have hi : i < qs.length := by simpa using h1
        simp [quadAt, List.getD_eq_getElem?_getD, hi]
    rw [this]
  · rw [evaluateMles_ok _ _ (fun q hq' => by rw [hrl, allTabs_numVars nvars r hr M qs t0 t1 q hq'])] at h7
    cases h7
    rw [cmComb_ok rc _ _ _ (by rw [List.length_map, allTabs_length])] at h8
    simp only [Except.ok.injEq] at h8
    rw [← h8, cmValue_tabs (fun q => mle q.get (sc.point.map (algebraMap F R))) nvars r M qs t0 t1]
    rw [eqT_mle r _ (by rw [hrl, hr])]
    refine cmValue_congr ?_
    intro l _ i hi j _
    apply mle_congr
    intro x _
    exact rowVec_get hM nvars i hi _ x

end Verif.Plus
