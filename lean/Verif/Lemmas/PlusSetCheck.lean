import Verif.Lemmas.PlusBasic
import Verif.Lemmas.Witness
import Verif.Props.Sumcheck

/-! Lemmas for the set check. -/

set_option linter.unusedSectionVars false
set_option linter.unusedSimpArgs false

namespace Verif.Plus

open Finset Spec

variable {F R σ : Type} {d : Nat}

section
variable [CommRing R]

theorem sum_map_range' {M : Type} [AddCommMonoid M] (n : Nat) (g : Nat → M) :
    ((List.range n).map g).sum = ∑ i ∈ range n, g i := by
  induction n with
  | zero => simp
  | succ n ih => rw [List.range_succ, List.map_append, List.sum_append, ih, sum_range_succ]; simp

theorem foldRes_add {α : Type} (φ : R → α → Res R) (g : α → R) (l : List α)
    (h : ∀ acc, ∀ a ∈ l, φ acc a = .ok (acc + g a)) (a : R) :
    foldRes φ a l = .ok (a + (l.map g).sum) := by
  induction l generalizing a with
  | nil => simp [foldRes]
  | cons x l ih =>
    unfold foldRes
    rw [h a x (by simp)]
    simp only
    rw [ih (fun acc b hb => h acc b (by simp [hb]))]
    simp [add_assoc]

theorem foldRes_add_range (φ : R → Nat → Res R) (g : Nat → R) (n : Nat)
    (h : ∀ acc, ∀ i < n, φ acc i = .ok (acc + g i)) (a : R) :
    foldRes φ a (List.range n) = .ok (a + ∑ i ∈ range n, g i) := by
  rw [foldRes_add φ g _ fun acc i hi => h acc i (List.mem_range.1 hi), sum_map_range']

theorem sum_zipIdx {α : Type} (l : List α) (dflt : α) (g : α → Nat → R) :
    (l.zipIdx.map fun p => g p.1 p.2).sum = ∑ i ∈ range l.length, g (l.getD i dflt) i := by
  rw [← sum_map_range']
  congr 1
  apply List.ext_getElem
  · simp
  · intro i h1 h2
    have hi : i < l.length := by simpa using h1
    simp [List.getD_eq_getElem?_getD, hi]

theorem pairs_getD (x y : Nat → R) (m : Nat) (q : R) :
    let row := (((List.range m).map fun j => [x j, y j]).flatten ++ [q])
    row.length = 2 * m + 1 ∧ (∀ j < m, row.getD (j * 2) 0 = x j ∧ row.getD (j * 2 + 1) 0 = y j) ∧
      row.getD (2 * m) 0 = q := by
  intro row
  have hl : ∀ l ∈ (List.range m).map fun j => [x j, y j], l.length = 2 := by
    intro l hl
    obtain ⟨j, -, rfl⟩ := List.mem_map.1 hl
    rfl
  have hlen : (((List.range m).map fun j => [x j, y j]).flatten).length = m * 2 := by
    rw [flatten_length _ hl]; simp
  refine ⟨by simp [row, hlen]; omega, fun j hj => ⟨?_, ?_⟩, ?_⟩
  · rw [List.getD_append _ _ _ _ (by rw [hlen]; omega)]
    have := flatten_getD (0 : R) _ hl j (k := 0) (by omega)
    rw [Nat.add_zero] at this
    rw [this]
    simp [List.getD_eq_getElem?_getD, hj]
  · rw [List.getD_append _ _ _ _ (by rw [hlen]; omega), flatten_getD (0 : R) _ hl j (by omega)]
    simp [List.getD_eq_getElem?_getD, hj]
  · rw [List.getD_append_right _ _ _ _ (by rw [hlen]; omega), hlen]
    simp [show 2 * m - m * 2 = 0 by omega]

theorem blocks_left (A B : List (List R)) {w : Nat} (hA : ∀ l ∈ A, l.length = w) {i k : Nat}
    (hi : i < A.length) (hk : k < w) :
    (A.flatten ++ B.flatten).getD (i * w + k) 0 = (A.getD i []).getD k 0 := by
  have hlt : i * w + k < A.flatten.length := by
    rw [flatten_length _ hA]
    calc i * w + k < i * w + w := by omega
      _ = (i + 1) * w := by ring
      _ ≤ A.length * w := Nat.mul_le_mul_right _ hi
  rw [List.getD_append _ _ _ _ hlt, flatten_getD (0 : R) _ hA i hk]

theorem blocks_right (A B : List (List R)) {w w' : Nat} (hA : ∀ l ∈ A, l.length = w)
    (hB : ∀ l ∈ B, l.length = w') {i k : Nat} (hk : k < w') :
    (A.flatten ++ B.flatten).getD (A.length * w + i * w' + k) 0 = (B.getD i []).getD k 0 := by
  rw [List.getD_append_right _ _ _ _ (by rw [flatten_length _ hA]; omega), flatten_length _ hA,
    show A.length * w + i * w' + k - A.length * w = i * w' + k by omega, flatten_getD (0 : R) _ hB i hk]

end

section
variable [Field F] [CommRing R] [Algebra F R] [DecidableEq F] [DecidableEq R]

/-- The combination of one matrix claim. -/
def matG (m : Nat) (alpha : F) (vals : List R) (s : Nat) : R :=
  (∑ j ∈ range m, (vals.getD (s + j * 2) 0 * vals.getD (s + j * 2) 0 - vals.getD (s + j * 2 + 1) 0)
    * algebraMap F R (alpha ^ j)) * vals.getD (s + 2 * m) 0

/-- The combination of one vector claim. -/
def vecG (alpha : F) (vals : List R) (s : Nat) : R :=
  (vals.getD s 0 * vals.getD s 0 - vals.getD (s + 1) 0) * algebraMap F R alpha * vals.getD (s + 2) 0

/-- The combining function without aborts. -/
def setG (nMs nms m : Nat) (alphas : List F) (rc : Option F) (vals : List R) : R :=
  match rc with
  | none => matG m (alphas.getD 0 0) vals 0
  | some rc => ∑ i ∈ range nMs, matG m (alphas.getD i 0) vals (i * (2 * m + 1)) * algebraMap F R (rc ^ i)
      + ∑ i ∈ range nms, vecG (alphas.getD (nMs + i) 0) vals (nMs * (2 * m + 1) + i * 3)
        * algebraMap F R (rc ^ (nMs + i))

theorem matClaim_ok (m : Nat) (alpha : F) (vals : List R) (s : Nat) (h : s + 2 * m < vals.length) :
    matClaim m alpha vals s = .ok (matG m alpha vals s) := by
  unfold matClaim
  rw [foldRes_add_range (g := fun j => (vals.getD (s + j * 2) 0 * vals.getD (s + j * 2) 0
    - vals.getD (s + j * 2 + 1) 0) * algebraMap F R (alpha ^ j))]
  · simp only [bind_ok', zero_add]
    rw [idx_getD 0 h]
    rfl
  · intro acc j hj
    rw [idx_getD 0 (by omega), idx_getD 0 (by omega)]
    rfl

theorem vecClaim_ok (alpha : F) (vals : List R) (s : Nat) (h : s + 2 < vals.length) :
    vecClaim alpha vals s = .ok (vecG alpha vals s) := by
  unfold vecClaim
  rw [idx_getD 0 (by omega), idx_getD 0 (by omega), idx_getD 0 (by omega)]
  rfl

theorem setComb_ok (nMs nms m : Nat) (alphas : List F) (rc : Option F) (vals : List R) (h0 : 0 < nMs)
    (ha : alphas.length = nMs + nms) (hv : vals.length = nMs * (2 * m + 1) + nms * 3) :
    setComb nMs nms m alphas rc vals = .ok (setG nMs nms m alphas rc vals) := by
  cases rc with
  | none =>
    unfold setComb setG
    simp only [h0, if_true]
    rw [idx_getD 0 (by omega)]
    simp only [bind_ok']
    apply matClaim_ok
    have : 1 * (2 * m + 1) ≤ nMs * (2 * m + 1) := Nat.mul_le_mul_right _ h0
    omega
  | some rc =>
    simp only [setComb, setG]
    rw [foldRes_add_range (g := fun i => matG m (alphas.getD i 0) vals (i * (2 * m + 1))
      * algebraMap F R (rc ^ i))]
    · simp only [bind_ok', zero_add]
      rw [foldRes_add_range (g := fun i => vecG (alphas.getD (nMs + i) 0) vals (nMs * (2 * m + 1) + i * 3)
        * algebraMap F R (rc ^ (nMs + i)))]
      intro acc i hi
      rw [idx_getD 0 (by omega)]
      simp only [bind_ok']
      rw [vecClaim_ok _ _ _ (by omega)]
      rfl
    · intro acc i hi
      rw [idx_getD 0 (by omega)]
      simp only [bind_ok']
      rw [matClaim_ok]
      · rfl
      · have : (i + 1) * (2 * m + 1) ≤ nMs * (2 * m + 1) := Nat.mul_le_mul_right _ hi
        have h2 : (i + 1) * (2 * m + 1) = i * (2 * m + 1) + (2 * m + 1) := by ring
        omega

theorem matG_lineDeg (k m : Nat) (alpha : F) (s : Nat) : LineDeg k 3 (fun v : List R => matG m alpha v s) := by
  unfold matG
  apply LineDeg.mul (d := 2) (e := 1)
  · apply LineDeg.sum
    intro j _
    apply LineDeg.mul (d := 2) (e := 0) _ (lineDeg_const _ _ _)
    apply LineDeg.sub
    · exact LineDeg.mul (d := 1) (e := 1) (lineDeg_coord _ _) (lineDeg_coord _ _)
    · exact (lineDeg_coord _ _).mono (by omega)
  · exact lineDeg_coord _ _

theorem vecG_lineDeg (k : Nat) (alpha : F) (s : Nat) : LineDeg k 3 (fun v : List R => vecG alpha v s) := by
  unfold vecG
  apply LineDeg.mul (d := 2) (e := 1)
  · apply LineDeg.mul (d := 2) (e := 0) _ (lineDeg_const _ _ _)
    apply LineDeg.sub
    · exact LineDeg.mul (d := 1) (e := 1) (lineDeg_coord _ _) (lineDeg_coord _ _)
    · exact (lineDeg_coord _ _).mono (by omega)
  · exact lineDeg_coord _ _

theorem setG_lineDeg (k nMs nms m : Nat) (alphas : List F) (rc : Option F) :
    LineDeg k 3 (fun v : List R => setG nMs nms m alphas rc v) := by
  cases rc with
  | none => exact matG_lineDeg k m _ 0
  | some rc =>
    unfold setG
    apply LineDeg.add
    · apply LineDeg.sum
      intro i _
      exact LineDeg.mul (d := 3) (e := 0) (matG_lineDeg k m _ _) (lineDeg_const _ _ _)
    · apply LineDeg.sum
      intro i _
      exact LineDeg.mul (d := 3) (e := 0) (vecG_lineDeg k _ _) (lineDeg_const _ _ _)

/-! ### Tables -/

/-- Column `j` of a set, evaluated at `beta`. -/
def colTab (pr : PlusRing F R d) (beta : F) (M : SpMat R) (j : Nat) : List R :=
  (List.range M.nrows).map fun i => algebraMap F R (ev pr (lastEntry M i j) beta)

/-- A vector set evaluated at `beta`. -/
def vecTab (pr : PlusRing F R d) (beta : F) (m : List R) : List R :=
  m.map fun r => algebraMap F R (ev pr r beta)

/-- The equality table of the point `c`. -/
def eqT (R : Type) [CommRing R] [Algebra F R] (c : List F) : Mle R :=
  ⟨c.length, (List.range (2 ^ c.length)).map fun i => eqWeight (c.map (algebraMap F R)) i⟩

/-- Squares of a table. -/
def sqTab (v : List R) : List R := v.map fun z => z * z

/-- All tables of a matrix set. -/
def matTabs (pr : PlusRing F R d) (nv : Nat) (p : SpMat R × (List F × F × F)) : List (Mle R) :=
  ((List.range p.1.ncols).map fun j =>
    [(⟨nv, colTab pr p.2.2.1 p.1 j⟩ : Mle R), ⟨nv, sqTab (colTab pr p.2.2.1 p.1 j)⟩]).flatten
    ++ [eqT R p.2.1]

/-- All tables of a vector set. -/
def vecTabs (pr : PlusRing F R d) (nv : Nat) (p : List R × (List F × F × F)) : List (Mle R) :=
  [⟨nv, vecTab pr p.2.2.1 p.1⟩, ⟨nv, sqTab (vecTab pr p.2.2.1 p.1)⟩, eqT R p.2.1]

theorem pairMles_ok (nv : Nat) (v : List R) (h : v.length ≤ 2 ^ nv) :
    pairMles nv v = .ok [⟨nv, v⟩, ⟨nv, sqTab v⟩] := by
  unfold pairMles
  rw [fromEvals_ok nv v h, bind_ok', fromEvals_ok nv _ (by simpa using h)]
  rfl

theorem buildEq_eqT (c : List F) (h : c ≠ []) : buildEq (c.map (algebraMap F R)) = .ok (eqT R c) := by
  rw [buildEq_ok _ (by simpa using h)]
  simp [eqT]

theorem matMles_ok (pr : PlusRing F R d) (nv : Nat) (M : SpMat R) (t : List F × F × F)
    (h1 : M.coeffs.length ≤ M.nrows) (h2 : M.nrows ≤ 2 ^ nv) (ht : t.1 ≠ []) :
    matMles pr nv M t = .ok (matTabs pr nv (M, t)) := by
  unfold matMles matTabs
  rw [transpose_coeffs]
  have : mapRes (fun row => do
      let col ← scatter (fun r => algebraMap F R (ev pr r t.2.1)) M.nrows row
      pairMles nv col) ((List.range M.ncols).map (tRow M))
      = .ok ((List.range M.ncols).map fun j =>
        [(⟨nv, colTab pr t.2.1 M j⟩ : Mle R), ⟨nv, sqTab (colTab pr t.2.1 M j)⟩]) := by
    have h := mapRes_ok (f := fun j => do
      let col ← scatter (fun r => algebraMap F R (ev pr r t.2.1)) M.nrows (tRow M j)
      pairMles nv col) (g := fun j =>
        [(⟨nv, colTab pr t.2.1 M j⟩ : Mle R), ⟨nv, sqTab (colTab pr t.2.1 M j)⟩]) (l := List.range M.ncols) (by
      intro j _
      rw [scatter_tRow M j _ (by simp [ev_zero]) h1]
      simp only [bind_ok']
      exact pairMles_ok nv _ (by simpa using h2))
    rw [← h]
    generalize List.range M.ncols = l
    induction l with
    | nil => rfl
    | cons a l ih => simp only [List.map_cons, mapRes]; rw [ih]
  rw [this]
  simp only [bind_ok']
  rw [buildEq_eqT _ ht]
  rfl

theorem vecMles_ok (pr : PlusRing F R d) (nv : Nat) (v : List R) (t : List F × F × F)
    (h2 : v.length ≤ 2 ^ nv) (ht : t.1 ≠ []) :
    vecMles pr nv v t = .ok (vecTabs pr nv (v, t)) := by
  unfold vecMles vecTabs
  have : (v.map fun r => algebraMap F R (ev pr r t.2.1)).length ≤ 2 ^ nv := by simpa using h2
  rw [pairMles_ok nv _ this]
  simp only [bind_ok']
  rw [buildEq_eqT _ ht]
  rfl

theorem mapRes_map {α β γ : Type} (f : β → Res γ) (g : α → β) (l : List α) :
    mapRes f (l.map g) = mapRes (fun a => f (g a)) l := by
  induction l with
  | nil => rfl
  | cons a l ih => simp only [List.map_cons, mapRes]; rw [ih]

/-- The empty sparse matrix. -/
def noMat : SpMat R := ⟨0, 0, []⟩

/-- No challenge. -/
def noCba : List F × F × F := ([], 0, 0)

/-- Value of a matrix claim at the point `rp`. -/
def matVal (pr : PlusRing F R d) (m : Nat) (M : SpMat R) (t : List F × F × F) (rp : List R) : R :=
  (∑ j ∈ range m, (mle (fun i => (colTab pr t.2.1 M j).getD i 0) rp
      * mle (fun i => (colTab pr t.2.1 M j).getD i 0) rp
      - mle (fun i => (sqTab (colTab pr t.2.1 M j)).getD i 0) rp) * algebraMap F R (t.2.2 ^ j))
    * eqPoly (t.1.map (algebraMap F R)) rp

/-- Value of a vector claim at the point `rp`. -/
def vecVal (pr : PlusRing F R d) (v : List R) (t : List F × F × F) (rp : List R) : R :=
  (mle (fun i => (vecTab pr t.2.1 v).getD i 0) rp * mle (fun i => (vecTab pr t.2.1 v).getD i 0) rp
      - mle (fun i => (sqTab (vecTab pr t.2.1 v)).getD i 0) rp) * algebraMap F R t.2.2
    * eqPoly (t.1.map (algebraMap F R)) rp

/-- Value of all claims at the point `rp`. -/
def setVal (pr : PlusRing F R d) (m : Nat) (Ms : List (SpMat R)) (ms : List (List R))
    (cba : List (List F × F × F)) (rc : Option F) (rp : List R) : R :=
  match rc with
  | none => matVal pr m (Ms.getD 0 noMat) (cba.getD 0 noCba) rp
  | some rc => ∑ i ∈ range Ms.length, matVal pr m (Ms.getD i noMat) (cba.getD i noCba) rp
        * algebraMap F R (rc ^ i)
      + ∑ i ∈ range ms.length, vecVal pr (ms.getD i []) (cba.getD (Ms.length + i) noCba) rp
        * algebraMap F R (rc ^ (Ms.length + i))

/-- `setG` on the images of the tables under any function. -/
theorem setG_tables (pr : PlusRing F R d) (nv m : Nat) (Ms : List (SpMat R)) (ms : List (List R))
    (cba : List (List F × F × F)) (rc : Option F) (hM : ∀ M ∈ Ms, M.ncols = m) (h0 : 0 < Ms.length)
    (hc : cba.length = Ms.length + ms.length) (e : Mle R → R)
    (A B : Nat → R)
    (hA : ∀ i < Ms.length, A i = (∑ j ∈ range m,
        (e ⟨nv, colTab pr (cba.getD i noCba).2.1 (Ms.getD i noMat) j⟩
          * e ⟨nv, colTab pr (cba.getD i noCba).2.1 (Ms.getD i noMat) j⟩
          - e ⟨nv, sqTab (colTab pr (cba.getD i noCba).2.1 (Ms.getD i noMat) j)⟩)
          * algebraMap F R ((cba.getD i noCba).2.2 ^ j)) * e (eqT R (cba.getD i noCba).1))
    (hB : ∀ i < ms.length, B i = (e ⟨nv, vecTab pr (cba.getD (Ms.length + i) noCba).2.1 (ms.getD i [])⟩
          * e ⟨nv, vecTab pr (cba.getD (Ms.length + i) noCba).2.1 (ms.getD i [])⟩
          - e ⟨nv, sqTab (vecTab pr (cba.getD (Ms.length + i) noCba).2.1 (ms.getD i []))⟩)
          * algebraMap F R (cba.getD (Ms.length + i) noCba).2.2 * e (eqT R (cba.getD (Ms.length + i) noCba).1)) :
    setG Ms.length ms.length m (cba.map fun x => x.2.2) rc
      ((((Ms.zip cba).map (matTabs pr nv)).flatten
        ++ ((ms.zip (cba.drop Ms.length)).map (vecTabs pr nv)).flatten).map e)
      = match rc with
        | none => A 0
        | some rc => ∑ i ∈ range Ms.length, A i * algebraMap F R (rc ^ i)
            + ∑ i ∈ range ms.length, B i * algebraMap F R (rc ^ (Ms.length + i)) := by
  rw [List.map_append, List.map_flatten, List.map_flatten, List.map_map, List.map_map]
  set Am := (Ms.zip cba).map (List.map e ∘ matTabs pr nv) with hAm
  set Bm := (ms.zip (cba.drop Ms.length)).map (List.map e ∘ vecTabs pr nv) with hBm
  have hrow : ∀ p : SpMat R × (List F × F × F), (List.map e ∘ matTabs pr nv) p
      = ((List.range p.1.ncols).map fun j => [e ⟨nv, colTab pr p.2.2.1 p.1 j⟩,
        e ⟨nv, sqTab (colTab pr p.2.2.1 p.1 j)⟩]).flatten ++ [e (eqT R p.2.1)] := by
    intro p
    simp only [Function.comp, matTabs, List.map_append, List.map_flatten, List.map_map]
    rfl
  have hAl : Am.length = Ms.length := by simp [hAm, hc]
  have hBl : Bm.length = ms.length := by simp [hBm, hc]
  have hAw : ∀ l ∈ Am, l.length = 2 * m + 1 := by
    intro l hl
    obtain ⟨p, hp, rfl⟩ := List.mem_map.1 hl
    rw [hrow, (pairs_getD _ _ _ _).1, hM p.1 (List.of_mem_zip hp).1]
  have hBw : ∀ l ∈ Bm, l.length = 3 := by
    intro l hl
    obtain ⟨p, hp, rfl⟩ := List.mem_map.1 hl
    rfl
  have hAi : ∀ i < Ms.length, Am.getD i [] = ((List.range m).map fun j =>
      [e ⟨nv, colTab pr (cba.getD i noCba).2.1 (Ms.getD i noMat) j⟩,
        e ⟨nv, sqTab (colTab pr (cba.getD i noCba).2.1 (Ms.getD i noMat) j)⟩]).flatten
        ++ [e (eqT R (cba.getD i noCba).1)] := by
    intro i hi
    have hi' : i < cba.length := by omega
    have : Am.getD i [] = (List.map e ∘ matTabs pr nv) (Ms[i], cba[i]) := by
      simp [hAm, List.getD_eq_getElem?_getD, hi, hi']
    rw [this, hrow]
    simp only [hM Ms[i] (List.getElem_mem hi)]
    simp [List.getD_eq_getElem?_getD, hi, hi']
  have hBi : ∀ i < ms.length, Bm.getD i [] =
      [e ⟨nv, vecTab pr (cba.getD (Ms.length + i) noCba).2.1 (ms.getD i [])⟩,
        e ⟨nv, sqTab (vecTab pr (cba.getD (Ms.length + i) noCba).2.1 (ms.getD i []))⟩,
        e (eqT R (cba.getD (Ms.length + i) noCba).1)] := by
    intro i hi
    have hi' : Ms.length + i < cba.length := by omega
    have hi2 : i < (cba.drop Ms.length).length := by simp; omega
    have : Bm.getD i [] = (List.map e ∘ vecTabs pr nv) (ms[i], cba[Ms.length + i]) := by
      have hz : (ms.zip (cba.drop Ms.length))[i]? = some (ms[i], cba[Ms.length + i]) := by
        rw [List.getElem?_zip_eq_some]
        simp [hi, hi']
      rw [hBm, List.getD_eq_getElem?_getD, List.getElem?_map, hz]
      rfl
    rw [this]
    simp [vecTabs, List.getD_eq_getElem?_getD, hi, hi']
  have hal : ∀ i, (cba.map fun x => x.2.2).getD i 0 = (cba.getD i noCba).2.2 := by
    intro i
    simp only [List.getD_eq_getElem?_getD, List.getElem?_map]
    cases cba[i]? <;> simp [noCba]
  have hmat : ∀ i < Ms.length, matG m ((cba.map fun x => x.2.2).getD i 0) (Am.flatten ++ Bm.flatten)
      (i * (2 * m + 1)) = A i := by
    intro i hi
    rw [hA i hi]
    unfold matG
    obtain ⟨-, h2, h3⟩ := pairs_getD (fun j => e ⟨nv, colTab pr (cba.getD i noCba).2.1 (Ms.getD i noMat) j⟩)
      (fun j => e ⟨nv, sqTab (colTab pr (cba.getD i noCba).2.1 (Ms.getD i noMat) j)⟩) m
      (e (eqT R (cba.getD i noCba).1))
    rw [blocks_left _ _ hAw (by omega) (by omega), hAi i hi, h3]
    congr 1
    apply sum_congr rfl
    intro j hj
    have hj' := mem_range.1 hj
    rw [Nat.add_assoc, blocks_left _ _ hAw (by omega) (by omega),
      blocks_left _ _ hAw (by omega) (by omega), hAi i hi, (h2 j hj').1, (h2 j hj').2, hal]
  have hvec : ∀ i < ms.length, vecG ((cba.map fun x => x.2.2).getD (Ms.length + i) 0)
      (Am.flatten ++ Bm.flatten) (Ms.length * (2 * m + 1) + i * 3) = B i := by
    intro i hi
    rw [hB i hi]
    unfold vecG
    have hk : ∀ k < 3, (Am.flatten ++ Bm.flatten).getD (Ms.length * (2 * m + 1) + i * 3 + k) 0
        = (Bm.getD i []).getD k 0 := by
      intro k hk
      have := blocks_right Am Bm hAw hBw (i := i) hk
      rwa [hAl] at this
    have h0 := hk 0 (by omega)
    rw [Nat.add_zero] at h0
    rw [h0, hk 1 (by omega), hk 2 (by omega), hBi i hi, hal]
    rfl
  cases rc with
  | none =>
    have := hmat 0 h0
    rw [Nat.zero_mul] at this
    simp only [setG]
    exact this
  | some rc =>
    simp only [setG]
    congr 1
    · apply sum_congr rfl
      intro i hi
      rw [hmat i (mem_range.1 hi)]
    · apply sum_congr rfl
      intro i hi
      rw [hvec i (mem_range.1 hi)]

/-- Shapes under which the set check runs: all matrix sets are `n × m`, the vectors and the extra
matrices fit in `nvars` variables. -/
structure SetShape (nvars n m : Nat) (sets : List (MonomialSet R)) (M : List (SpMat R)) : Prop where
  nv : nvars = Nat.clog 2 n
  nvpos : 1 ≤ nvars
  some : 0 < (matSets sets).length
  rows : ∀ A ∈ matSets sets, A.WF ∧ A.nrows = n ∧ A.ncols = m
  vecs : ∀ v ∈ vecSets sets, v.length ≤ 2 ^ nvars
  mats : ∀ Mi ∈ M, Mi.WF ∧ Mi.ncols = n ∧ Mi.nrows ≤ 2 ^ nvars

/-- Column `j` of a matrix set. -/
def colL (A : SpMat R) (j : Nat) : List R := (List.range A.nrows).map fun i => lastEntry A i j

/-- The evaluations sent by the prover. -/
def setE (m : Nat) (Ms M : List (SpMat R)) (rp : List R) : List (List (List R)) :=
  (Ms.map fun A => (List.range m).map fun j => mle (fun i => (colL A j).getD i 0) rp)
    :: M.map fun Mi => Ms.map fun A => (List.range m).map fun j => mle (fun i => mulVec Mi (colL A j) i) rp

/-- See `setE`. -/
def setB (ms : List (List R)) (rp : List R) : List R := ms.map fun v => mle (fun i => v.getD i 0) rp

theorem evalCols_ok (nv : Nat) (rp : List R) (A : SpMat R) (h1 : A.WF) (h2 : A.nrows ≤ 2 ^ nv)
    (hr : rp.length = nv) :
    evalCols nv rp A = .ok ((List.range A.ncols).map fun j => mle (fun i => (colL A j).getD i 0) rp) := by
  unfold evalCols
  rw [transpose_coeffs, mapRes_map]
  apply mapRes_ok
  intro j _
  rw [scatter_tRow A j id rfl (by rw [h1.1])]
  simp only [bind_ok', id]
  exact evalVec_ok _ _ _ (by simpa using h2) hr

theorem mulVec_out {Mi : SpMat R} (h : Mi.WF) (z : List R) {i : Nat} (hi : Mi.nrows ≤ i) : mulVec Mi z i = 0 := by
  unfold mulVec entry
  have : Mi.coeffs.getD i [] = [] := by
    rw [List.getD_eq_getElem?_getD, List.getElem?_eq_none (by rw [h.1]; exact hi)]; rfl
  simp only [this]
  simp

theorem mulVec_list_getD {Mi : SpMat R} (h : Mi.WF) (z : List R) (i : Nat) :
    ((List.range Mi.nrows).map fun i => mulVec Mi z i).getD i 0 = mulVec Mi z i := by
  by_cases hi : i < Mi.nrows
  · exact getD_map_range _ _ hi
  · rw [getD_out _ (by simp; omega), mulVec_out h z (by omega)]

theorem evalColsMul_ok (nv : Nat) (rp : List R) (Mi A : SpMat R) (h1 : A.WF) (hMi : Mi.WF)
    (hc : Mi.ncols = A.nrows) (h2 : Mi.nrows ≤ 2 ^ nv) (hr : rp.length = nv) :
    evalColsMul nv rp Mi A
      = .ok ((List.range A.ncols).map fun j => mle (fun i => mulVec Mi (colL A j) i) rp) := by
  unfold evalColsMul
  rw [transpose_coeffs, mapRes_map]
  apply mapRes_ok
  intro j _
  rw [scatter_tRow A j id rfl (by rw [h1.1])]
  simp only [bind_ok', id]
  rw [tryMulVec_wf hMi (by simp [hc])]
  simp only [bind_ok']
  rw [evalVec_ok _ _ _ (by simpa using h2) hr]
  congr 1
  apply mle_congr
  intro i _
  exact mulVec_list_getD hMi _ i

theorem eqT_mle (c : List F) (rp : List R) (h : rp.length = c.length) :
    mle (eqT R c).get rp = eqPoly (c.map (algebraMap F R)) rp := by
  rw [← mle_eqWeight _ _ (by simp [h])]
  apply mle_congr
  intro i hi
  rw [h] at hi
  exact get_map_range _ _ _ hi

theorem tables_numVars (pr : PlusRing F R d) (nv : Nat) (Ms : List (SpMat R)) (ms : List (List R))
    (cba : List (List F × F × F)) (hcba : ∀ t ∈ cba, t.1.length = nv) :
    ∀ q ∈ ((Ms.zip cba).map (matTabs pr nv)).flatten
        ++ ((ms.zip (cba.drop Ms.length)).map (vecTabs pr nv)).flatten, q.numVars = nv := by
  intro q hq
  rcases List.mem_append.1 hq with hq | hq
  · obtain ⟨l, hl, hql⟩ := List.mem_flatten.1 hq
    obtain ⟨p, hp, rfl⟩ := List.mem_map.1 hl
    rcases List.mem_append.1 hql with h | h
    · obtain ⟨l2, hl2, h2⟩ := List.mem_flatten.1 h
      obtain ⟨j, -, rfl⟩ := List.mem_map.1 hl2
      simp only [List.mem_cons, List.not_mem_nil, or_false] at h2
      rcases h2 with rfl | rfl <;> rfl
    · simp only [List.mem_cons, List.not_mem_nil, or_false] at h
      subst h
      exact hcba _ (List.of_mem_zip hp).2
  · obtain ⟨l, hl, hql⟩ := List.mem_flatten.1 hq
    obtain ⟨p, hp, rfl⟩ := List.mem_map.1 hl
    simp only [vecTabs, List.mem_cons, List.not_mem_nil, or_false] at hql
    rcases hql with rfl | rfl | rfl
    · rfl
    · rfl
    · exact hcba _ (List.mem_of_mem_drop (List.of_mem_zip hp).2)

theorem tables_length (pr : PlusRing F R d) (nv m : Nat) (Ms : List (SpMat R)) (ms : List (List R))
    (cba : List (List F × F × F)) (hM : ∀ M ∈ Ms, M.ncols = m) (hc : cba.length = Ms.length + ms.length) :
    (((Ms.zip cba).map (matTabs pr nv)).flatten
        ++ ((ms.zip (cba.drop Ms.length)).map (vecTabs pr nv)).flatten).length
      = Ms.length * (2 * m + 1) + ms.length * 3 := by
  rw [List.length_append, flatten_length (L := 2 * m + 1), flatten_length (L := 3)]
  · simp [hc]
  · intro l hl
    obtain ⟨p, hp, rfl⟩ := List.mem_map.1 hl
    rfl
  · intro l hl
    obtain ⟨p, hp, rfl⟩ := List.mem_map.1 hl
    unfold matTabs
    rw [List.length_append, flatten_length (L := 2)]
    · simp [hM p.1 (List.of_mem_zip hp).1]; omega
    · intro l hl
      obtain ⟨j, -, rfl⟩ := List.mem_map.1 hl
      rfl

theorem drawAll_eq (T : Transcript F R σ) (nv a b : Nat) (s : σ) :
    (drawAll T nv a b s).1.1 = (drawClaims T nv (a + b) s).1 := by
  unfold drawAll
  by_cases h : a > 1 <;> simp [h]

theorem drawAll_rc (T : Transcript F R σ) (nv a b : Nat) (s : σ) :
    (drawAll T nv a b s).1.2.isSome = decide (1 < a) := by
  unfold drawAll
  by_cases h : a > 1 <;> simp [h]

theorem sqTab_get (v : List R) (i : Nat) : (sqTab v).getD i 0 = v.getD i 0 * v.getD i 0 := by
  simp only [sqTab, List.getD_eq_getElem?_getD, List.getElem?_map]
  cases v[i]? <;> simp

/-- The set check runs to completion, its sum-check is accepted for the claim zero, and the final
value is the combination of the evaluations of the tables. -/
theorem setCheck_run (pr : PlusRing F R d) (T : Transcript F R σ) (s : σ) (nvars n m : Nat)
    (sets : List (MonomialSet R)) (M : List (SpMat R)) (hs : SetShape nvars n m sets M)
    (hc : CharGt F 3) :
    ∃ (out : SetOut F R) (sc : SubClaim F R) (s2 : σ),
      setCheck pr T s nvars sets M = .ok (out, absorbSet T s2 out.e out.b) ∧
      verifyAsSubprotocol T (drawAll T nvars (matSets sets).length (vecSets sets).length s).2
        nvars 3 0 out.sumcheck = .ok (sc, s2) ∧
      out.nvars = nvars ∧ sc.point = out.r ∧ out.r.length = nvars ∧
      out.e = setE m (matSets sets) M (out.r.map (algebraMap F R)) ∧
      out.b = setB (vecSets sets) (out.r.map (algebraMap F R)) ∧
      sc.expectedEvaluation = setVal pr m (matSets sets) (vecSets sets)
        (drawAll T nvars (matSets sets).length (vecSets sets).length s).1.1
        (drawAll T nvars (matSets sets).length (vecSets sets).length s).1.2
        (out.r.map (algebraMap F R)) := by
  have hcl := drawClaims_length T nvars ((matSets sets).length + (vecSets sets).length) s
  have hcp := drawClaims_point T nvars ((matSets sets).length + (vecSets sets).length) s
  rw [← drawAll_eq T nvars (matSets sets).length (vecSets sets).length s] at hcl hcp
  rcases hD : drawAll T nvars (matSets sets).length (vecSets sets).length s with ⟨⟨cba, rc⟩, s1⟩
  rw [hD] at hcl hcp
  simp only at hcl hcp ⊢
  set Ms := matSets sets with hMs
  set ms := vecSets sets with hms
  have hne : ∀ t ∈ cba, t.1 ≠ [] := by
    intro t ht h
    have h1 := hcp t ht
    have h2 := hs.nvpos
    rw [h] at h1
    simp at h1
    omega
  have h0 : 0 < Ms.length := hs.some
  have hM0 : Ms[0] ∈ Ms := List.getElem_mem h0
  have hn : n ≤ 2 ^ nvars := by rw [hs.nv]; exact Nat.le_pow_clog (by omega) _
  have hcols : ∀ A ∈ Ms, A.ncols = m := fun A hA => (hs.rows A hA).2.2
  have htab1 : mapRes (fun p => matMles pr nvars p.1 p.2) (Ms.zip cba) = .ok ((Ms.zip cba).map (matTabs pr nvars)) := by
    apply mapRes_ok
    intro p hp
    have h1 := hs.rows p.1 (List.of_mem_zip hp).1
    exact matMles_ok pr nvars p.1 p.2 (by rw [h1.1.1]) (by rw [h1.2.1]; exact hn) (hne _ (List.of_mem_zip hp).2)
  have htab2 : mapRes (fun p => vecMles pr nvars p.1 p.2) (ms.zip (cba.drop Ms.length))
      = .ok ((ms.zip (cba.drop Ms.length)).map (vecTabs pr nvars)) := by
    apply mapRes_ok
    intro p hp
    exact vecMles_ok pr nvars p.1 p.2 (hs.vecs p.1 (List.of_mem_zip hp).1)
      (hne _ (List.mem_of_mem_drop (List.of_mem_zip hp).2))
  set tabs := ((Ms.zip cba).map (matTabs pr nvars)).flatten
    ++ ((ms.zip (cba.drop Ms.length)).map (vecTabs pr nvars)).flatten with htabs
  have htl : tabs.length = Ms.length * (2 * m + 1) + ms.length * 3 :=
    tables_length pr nvars m Ms ms cba hcols hcl
  have htn : ∀ q ∈ tabs, q.numVars = nvars := tables_numVars pr nvars Ms ms cba hcp
  have hcomb : ∀ v : List R, v.length = tabs.length → setComb Ms.length ms.length m (cba.map fun x => x.2.2) rc v
      = .ok (setG Ms.length ms.length m (cba.map fun x => x.2.2) rc v) := by
    intro v hv
    exact setComb_ok _ _ _ _ _ _ hs.some (by simpa using hcl) (by rw [hv, htl])
  obtain ⟨proof, pst, s2, sc, vals, h1, h2, -, -, h5, h6, h7, h8⟩ :=
    Props.C20_completeness T s1 tabs nvars 3 _ _ hs.nvpos (by omega) hc htn hcomb
      (setG_lineDeg tabs.length Ms.length ms.length m _ rc)
  have hzero : ∑ b ∈ range (2 ^ nvars), setG Ms.length ms.length m (cba.map fun x => x.2.2) rc
      (tabs.map fun q => q.get b) = 0 := by
    apply sum_eq_zero
    intro b _
    rw [htabs, setG_tables pr nvars m Ms ms cba rc hcols hs.some hcl (fun q => q.get b) (fun _ => 0)
      (fun _ => 0)]
    · cases rc <;> simp
    · intro i _
      symm
      convert zero_mul _
      apply sum_eq_zero
      intro j _
      simp only [Mle.get, sqTab_get, sub_self, zero_mul]
    · intro i _
      simp only [Mle.get, sqTab_get, sub_self, zero_mul]
  rw [hzero] at h2
  have hrl : (pst.randomness.map (algebraMap F R)).length = nvars := by
    rw [List.length_map, ← h5, h6]
  have hval : vals = tabs.map fun q => mle q.get (pst.randomness.map (algebraMap F R)) := by
    rw [h5, evaluateMles_ok _ _ (fun q hq => by rw [hrl, htn q hq])] at h7
    exact (Except.ok.inj h7).symm
  refine ⟨⟨nvars, pst.randomness, proof, setE m Ms M (pst.randomness.map (algebraMap F R)),
    setB ms (pst.randomness.map (algebraMap F R))⟩, sc, s2, ?_, h2, rfl, h5, ?_, rfl, rfl, ?_⟩
  · unfold setCheck
    simp only [← hMs, ← hms]
    rw [idx_ok h0]
    simp only [bind_ok']
    rw [hD]
    simp only
    rw [(hs.rows _ hM0).2.1, (hs.rows _ hM0).2.2, ← hs.nv, htab1]
    simp only [bind_ok']
    rw [htab2]
    simp only [bind_ok']
    rw [h1]
    simp only [bind_ok']
    rw [mapRes_ok (g := fun A => (List.range m).map fun j =>
      mle (fun i => (colL A j).getD i 0) (pst.randomness.map (algebraMap F R)))]
    · simp only [bind_ok']
      rw [mapRes_ok (g := fun Mi => Ms.map fun A => (List.range m).map fun j =>
        mle (fun i => mulVec Mi (colL A j) i) (pst.randomness.map (algebraMap F R)))]
      · simp only [bind_ok']
        rw [mapRes_ok (g := fun v => mle (fun i => v.getD i 0) (pst.randomness.map (algebraMap F R)))]
        · rfl
        · intro v hv
          exact evalVec_ok _ _ _ (hs.vecs v hv) hrl
      · intro Mi hMi
        apply mapRes_ok
        intro A hA
        have hA' := hs.rows A hA
        have hMi' := hs.mats Mi hMi
        rw [evalColsMul_ok nvars _ Mi A hA'.1 hMi'.1 (by rw [hMi'.2.1, hA'.2.1]) hMi'.2.2 hrl, hA'.2.2]
    · intro A hA
      have hA' := hs.rows A hA
      rw [evalCols_ok nvars _ A hA'.1 (by rw [hA'.2.1]; exact hn) hrl, hA'.2.2]
  · simpa using hrl
  · rw [hcomb vals (by simp [hval])] at h8
    rw [← Except.ok.inj h8, hval, htabs]
    have hget : ∀ i < cba.length, (cba.getD i noCba).1.length = nvars := by
      intro i hi
      rw [List.getD_eq_getElem?_getD, List.getElem?_eq_getElem hi]
      exact hcp _ (List.getElem_mem hi)
    rw [setG_tables pr nvars m Ms ms cba rc hcols hs.some hcl
      (fun q => mle q.get (pst.randomness.map (algebraMap F R)))
      (fun i => matVal pr m (Ms.getD i noMat) (cba.getD i noCba) (pst.randomness.map (algebraMap F R)))
      (fun i => vecVal pr (ms.getD i []) (cba.getD (Ms.length + i) noCba) (pst.randomness.map (algebraMap F R)))]
    · cases rc <;> rfl
    · intro i hi
      unfold matVal
      rw [eqT_mle _ _ (by rw [hrl, hget i (by omega)])]
      rfl
    · intro i hi
      unfold vecVal
      rw [eqT_mle _ _ (by rw [hrl, hget _ (by omega)])]
      rfl

end

end Verif.Plus
