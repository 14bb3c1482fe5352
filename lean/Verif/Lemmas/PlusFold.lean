import Verif.Model.PlusFold
import Verif.Spec.PlusFold
import Verif.Lemmas.PlusCmTail

/-!
# Lemmas: linear combinations of commitments and evaluations, decomposition and folding in `latticefold-plus`
-/

set_option linter.unusedSectionVars false
set_option linter.unusedSimpArgs false

namespace Verif.Plus

open Finset Verif Verif.Spec

variable {F R σ : Type} {d : Nat}
variable [Field F] [CommRing R] [Algebra F R] [DecidableEq F] [DecidableEq R]

/-! ### Two vectors -/

theorem addMul_length (c : R) {u v : List R} (h : u.length = v.length) : (addMul c u v).length = u.length := by
  unfold addMul
  rw [List.length_zipWith, ← h, min_self]

theorem addMul_getD (c : R) {u v : List R} (h : u.length = v.length) (i : Nat) :
    (addMul c u v).getD i 0 = u.getD i 0 + c * v.getD i 0 := by
  by_cases hi : i < u.length
  · have hv : i < v.length := h ▸ hi
    simp [addMul, List.getD_eq_getElem?_getD, hi, hv, List.getElem?_zipWith]
  · rw [getD_out, getD_out _ (by omega), getD_out _ (by omega)]
    · simp
    · rw [addMul_length c h]; omega

theorem addMul_map {α : Type} (c : R) (f g : α → R) (l : List α) :
    addMul c (l.map f) (l.map g) = l.map fun x => f x + c * g x := by
  unfold addMul
  induction l with
  | nil => rfl
  | cons x l ih => simp [ih]

theorem addMulPair_map {α : Type} (c : R) (f g : α → R × R) (l : List α) :
    addMulPair c (l.map f) (l.map g) = l.map fun x => ((f x).1 + c * (g x).1, (f x).2 + c * (g x).2) := by
  unfold addMulPair
  induction l with
  | nil => rfl
  | cons x l ih => simp [ih]

theorem commit_addMul (A : Mat R) (c : R) {u v : List R} (h : u.length = v.length) :
    commit A (addMul c u v) = addMul c (commit A u) (commit A v) := by
  unfold commit
  rw [addMul_map]
  apply List.map_congr_left
  intro i _
  rw [mul_sum, ← sum_add_distrib]
  apply sum_congr rfl
  intro x _
  rw [addMul_getD c h]
  ring

theorem mulVec_addMul (m : SpMat R) (c : R) {u v : List R} (h : u.length = v.length) (x : Nat) :
    mulVec m (addMul c u v) x = mulVec m u x + c * mulVec m v x := by
  unfold mulVec
  rw [mul_sum, ← sum_add_distrib]
  apply sum_congr rfl
  intro j _
  rw [addMul_getD c h]
  ring

theorem mle_addMul (c : R) {u v : List R} (h : u.length = v.length) (p : List R) :
    mle (fun i => (addMul c u v).getD i 0) p = mle (fun i => u.getD i 0) p + c * mle (fun i => v.getD i 0) p := by
  rw [mle_congr fun i _ => addMul_getD c h i, mle_add, mle_smul]

theorem mle_mulVec_addMul (m : SpMat R) (c : R) {u v : List R} (h : u.length = v.length) (p : List R) :
    mle (mulVec m (addMul c u v)) p = mle (mulVec m u) p + c * mle (mulVec m v) p := by
  rw [mle_congr fun i _ => mulVec_addMul m c h i, mle_add, mle_smul]

theorem evalPairs_addMul (M : List (SpMat R)) (ro : List (R × R)) (c : R) {u v : List R} (h : u.length = v.length) :
    evalPairs M ro (addMul c u v) = addMulPair c (evalPairs M ro u) (evalPairs M ro v) := by
  unfold evalPairs
  have e : ∀ (a b : R × R) (l m : List (R × R)), addMulPair c (a :: l) (b :: m) = (a.1 + c * b.1, a.2 + c * b.2) :: addMulPair c l m :=
    fun _ _ _ _ => rfl
  rw [e, addMulPair_map, mle_addMul c h, mle_addMul c h]
  congr 1
  apply List.map_congr_left
  intro m _
  rw [mle_mulVec_addMul m c h, mle_mulVec_addMul m c h]

theorem evalPairs_length (M : List (SpMat R)) (ro : List (R × R)) (g : List R) : (evalPairs M ro g).length = M.length + 1 := by
  simp [evalPairs]

theorem commit_length (A : Mat R) (v : List R) : (commit A v).length = A.nrows := by simp [commit]

theorem commit_zero (A : Mat R) (n : Nat) : commit A (List.replicate n 0) = List.replicate A.nrows 0 := by
  unfold commit
  rw [List.eq_replicate_iff]
  refine ⟨by simp, ?_⟩
  intro b hb
  obtain ⟨i, _, rfl⟩ := List.mem_map.1 hb
  apply sum_eq_zero
  intro x _
  have : (List.replicate n (0 : R)).getD x 0 = 0 := by
    by_cases h : x < n <;> simp [List.getD_eq_getElem?_getD, List.getElem?_replicate, h]
  rw [this, mul_zero]

theorem evalPairs_zero (M : List (SpMat R)) (ro : List (R × R)) (n : Nat) :
    evalPairs M ro (List.replicate n 0) = List.replicate (M.length + 1) (0, 0) := by
  have e : ∀ x, (List.replicate n (0 : R)).getD x 0 = 0 := by
    intro x
    by_cases h : x < n <;> simp [List.getD_eq_getElem?_getD, List.getElem?_replicate, h]
  have e2 : ∀ (m : SpMat R) x, mulVec m (List.replicate n 0) x = 0 := by
    intro m x
    unfold mulVec
    apply sum_eq_zero
    intro j _
    rw [e, mul_zero]
  rw [List.eq_replicate_iff]
  refine ⟨evalPairs_length _ _ _, ?_⟩
  intro b hb
  unfold evalPairs at hb
  rcases List.mem_cons.1 hb with rfl | hb
  · rw [mle_congr fun i _ => e i, mle_zero, mle_congr fun i _ => e i, mle_zero]
  · obtain ⟨m, _, rfl⟩ := List.mem_map.1 hb
    rw [mle_congr fun i _ => e2 m i, mle_zero, mle_congr fun i _ => e2 m i, mle_zero]

/-! ### Decomposition -/

theorem recompose_two (b x y : R) : recomposeL b [x, y] = x + b * y := by
  simp [recomposeL]

theorem decompVerify_iff' (p : DecompProof R) (cm : List R) (v : List (R × R)) (B : Nat) :
    decompVerify p cm v B = .ok () ↔ addMul (B : R) p.C.1 p.C.2 = cm ∧ addMulPair (B : R) p.v.1 p.v.2 = v := by
  unfold decompVerify addMul addMulPair
  simp only [recompose_two]
  constructor
  · intro h
    split_ifs at h with h1 h2
    exact ⟨h1, h2⟩
  · rintro ⟨h1, h2⟩
    rw [if_pos h1, if_pos h2]

theorem viCalc_ok {nv n : Nat} {r : List (R × R)} {M : List (SpMat R)} {f : List R} (hf : f.length = n) (hn : n ≤ 2 ^ nv)
    (hr : r.length = nv) (hM : ∀ m ∈ M, m.WF ∧ m.ncols = n ∧ m.nrows ≤ 2 ^ nv) : viCalc nv r M f = .ok (evalPairs M r f) := by
  unfold viCalc
  simp only
  rw [evalVec_ok nv f _ (by omega) (by simpa using hr), bind_ok', evalVec_ok nv f _ (by omega) (by simpa using hr), bind_ok',
    mapRes_ok (g := fun m => (mle (mulVec m f) (r.map (·.1)), mle (mulVec m f) (r.map (·.2))))]
  · rfl
  · intro m hm
    obtain ⟨h1, h2, h3⟩ := hM m hm
    rw [tryMulVec_wf h1 (by rw [hf, h2]), bind_ok', evalVec_ok nv _ _ (by simpa using h3) (by simpa using hr), bind_ok',
      evalVec_ok nv _ _ (by simpa using h3) (by simpa using hr), bind_ok']
    have e : ∀ p, mle (fun i => ((List.range m.nrows).map fun i => mulVec m f i).getD i 0) p = mle (mulVec m f) p :=
      fun p => mle_congr fun i _ => mulVec_list_getD h1 f i
    rw [e, e]

/-- Digit `t` of every entry. -/
noncomputable def digitVec (pr : PlusRing F R d) (B : Nat) (f : List R) (t : Nat) : List R := f.map fun x => (dgR pr B 2 x).getD t 0

theorem decTwo_ok (pr : PlusRing F R d) {B : Nat} (hB : 2 ≤ B) (he : Even B) {f : List R} (hne : f ≠ [])
    (hf : ∀ x ∈ f, ∀ i, Short (B ^ 2) (pr.coeff x i)) : decTwo pr B f = .ok [digitVec pr B f 0, digitVec pr B f 1] := by
  unfold decTwo
  rw [mapRes_ok (g := dgR pr B 2) fun x hx => (dgR_ok pr hB he (by omega) (hf x hx)).1, bind_ok']
  obtain ⟨x, xs, rfl⟩ := List.exists_cons_of_ne_nil hne
  unfold transposeL
  simp only [List.map_cons]
  rw [(dgR_ok pr hB he (by omega) (hf x (by simp))).2.1]
  have : List.range 2 = [0, 1] := rfl
  rw [this]
  simp only [List.map_cons, List.map_nil, List.map_map, digitVec]
  rfl

theorem digitVec_sum (pr : PlusRing F R d) {B : Nat} (hB : 2 ≤ B) (he : Even B) {f : List R}
    (hf : ∀ x ∈ f, ∀ i, Short (B ^ 2) (pr.coeff x i)) : addMul (B : R) (digitVec pr B f 0) (digitVec pr B f 1) = f := by
  unfold digitVec
  rw [addMul_map]
  conv_rhs => rw [← List.map_id f]
  apply List.map_congr_left
  intro x hx
  have h := (dgR_ok pr hB he (by omega) (hf x hx)).2.2.1
  rw [sum_range_succ, sum_range_one, pow_zero, one_mul, pow_one] at h
  exact h

theorem digitVec_short (pr : PlusRing F R d) {B : Nat} (hB : 2 ≤ B) (he : Even B) {f : List R}
    (hf : ∀ x ∈ f, ∀ i, Short (B ^ 2) (pr.coeff x i)) {t : Nat} (ht : t < 2) : ∀ x ∈ digitVec pr B f t, ∀ i, Short B (pr.coeff x i) := by
  intro x hx i
  obtain ⟨y, hy, rfl⟩ := List.mem_map.1 hx
  obtain ⟨-, hl, -, hs⟩ := dgR_ok pr hB he (by omega) (hf y hy)
  apply hs
  rw [List.getD_eq_getElem?_getD, List.getElem?_eq_getElem (by omega), Option.getD_some]
  exact List.getElem_mem _

theorem decompose_ok (pr : PlusRing F R d) {f : List R} {r : List (R × R)} {M : List (SpMat R)} {A : Mat R} {B : Nat} (hA : A.WF)
    (hB : 2 ≤ B) (he : Even B) (hne : f ≠ []) (hAn : A.ncols = f.length) (hr : r.length = Nat.clog 2 f.length)
    (hf : ∀ x ∈ f, ∀ i, Short (B ^ 2) (pr.coeff x i))
    (hM : ∀ m ∈ M, m.WF ∧ m.ncols = f.length ∧ m.nrows ≤ 2 ^ Nat.clog 2 f.length) :
    decompose pr f r M A B = .ok
      ((⟨digitVec pr B f 0, ⟨commit A (digitVec pr B f 0), r, evalPairs M r (digitVec pr B f 0)⟩⟩,
        ⟨digitVec pr B f 1, ⟨commit A (digitVec pr B f 1), r, evalPairs M r (digitVec pr B f 1)⟩⟩),
       ⟨(commit A (digitVec pr B f 0), commit A (digitVec pr B f 1)),
        (evalPairs M r (digitVec pr B f 0), evalPairs M r (digitVec pr B f 1))⟩) := by
  have hl : ∀ t, (digitVec pr B f t).length = f.length := fun t => by simp [digitVec]
  have hpow : f.length ≤ 2 ^ Nat.clog 2 f.length := Nat.le_pow_clog (by norm_num) _
  unfold decompose
  simp only
  rw [decTwo_ok pr hB he hne hf, bind_ok', idx_ok (by simp), bind_ok', idx_ok (by simp), bind_ok', hAn]
  simp only [List.getElem_cons_zero, List.getElem_cons_succ]
  rw [viCalc_ok (hl 0) hpow hr hM, bind_ok',
    viCalc_ok (hl 1) hpow hr hM, bind_ok', commit_eq hA (by rw [hl, hAn]), bind_ok', commit_eq hA (by rw [hl, hAn]), bind_ok']

/-! ### Sums of many vectors -/

theorem zipAssign_zipWith {α β : Type} (f : α → β → α) (l : List α) (m : List β) (h : l.length = m.length) :
    zipAssign f l m = List.zipWith f l m := by
  induction l generalizing m with
  | nil => cases m <;> rfl
  | cons a l ih =>
    cases m with
    | nil => simp at h
    | cons b m => simp [zipAssign, ih m (by simpa using h)]

theorem sum_step {u v : List R} (h : u.length = v.length) : zipAssign (· + ·) u v = addMul 1 u v := by
  rw [zipAssign_zipWith _ _ _ h]
  unfold addMul
  simp only [one_mul]

theorem sumVecs_eq {n : Nat} (vs : List (List R)) (h : ∀ v ∈ vs, v.length = n) :
    sumVecs n vs = vs.foldl (addMul 1) (List.replicate n 0) := by
  unfold sumVecs
  have key : ∀ (vs : List (List R)) (acc : List R), acc.length = n → (∀ v ∈ vs, v.length = n) →
      vs.foldl (fun acc v => zipAssign (· + ·) acc v) acc = vs.foldl (addMul 1) acc := by
    intro vs
    induction vs with
    | nil => intros; rfl
    | cons v vs ih =>
      intro acc ha hv
      have hv0 := hv v (by simp)
      rw [List.foldl_cons, List.foldl_cons, sum_step (by rw [ha, hv0]), ih _ (by rw [addMul_length 1 (by rw [ha, hv0]), ha])
        fun w hw => hv w (by simp [hw])]
  exact key vs _ (by simp) h

theorem foldl_addMul_length {n : Nat} (vs : List (List R)) (acc : List R) (ha : acc.length = n) (h : ∀ v ∈ vs, v.length = n) :
    (vs.foldl (addMul 1) acc).length = n := by
  induction vs generalizing acc with
  | nil => exact ha
  | cons v vs ih =>
    have hv := h v (by simp)
    exact ih _ (by rw [addMul_length 1 (by rw [ha, hv]), ha]) fun w hw => h w (by simp [hw])

theorem sumVecs_length {n : Nat} (vs : List (List R)) (h : ∀ v ∈ vs, v.length = n) : (sumVecs n vs).length = n := by
  rw [sumVecs_eq vs h]
  exact foldl_addMul_length vs _ (by simp) h

theorem foldl_addMul_getD {n : Nat} (vs : List (List R)) (acc : List R) (ha : acc.length = n) (h : ∀ v ∈ vs, v.length = n) (i : Nat) :
    (vs.foldl (addMul 1) acc).getD i 0 = acc.getD i 0 + (vs.map fun v => v.getD i 0).sum := by
  induction vs generalizing acc with
  | nil => simp
  | cons v vs ih =>
    have hv := h v (by simp)
    have hl : acc.length = v.length := by rw [ha, hv]
    rw [List.foldl_cons, ih _ (by rw [addMul_length 1 hl, ha]) fun w hw => h w (by simp [hw]), addMul_getD 1 hl, one_mul, List.map_cons,
      List.sum_cons, add_assoc]

theorem sumVecs_getD {n : Nat} (vs : List (List R)) (h : ∀ v ∈ vs, v.length = n) (i : Nat) :
    (sumVecs n vs).getD i 0 = (vs.map fun v => v.getD i 0).sum := by
  rw [sumVecs_eq vs h, foldl_addMul_getD vs _ (by simp) h]
  have : (List.replicate n (0 : R)).getD i 0 = 0 := by
    by_cases h : i < n <;> simp [List.getD_eq_getElem?_getD, List.getElem?_replicate, h]
  rw [this, zero_add]

theorem commit_sum (A : Mat R) {n : Nat} (vs : List (List R)) (h : ∀ v ∈ vs, v.length = n) :
    sumVecs A.nrows (vs.map (commit A)) = commit A (sumVecs n vs) := by
  rw [sumVecs_eq (n := A.nrows) _ (by
    intro v hv
    obtain ⟨w, _, rfl⟩ := List.mem_map.1 hv
    exact commit_length A w), sumVecs_eq vs h, ← commit_zero A n]
  have key : ∀ (vs : List (List R)) (acc : List R), acc.length = n → (∀ v ∈ vs, v.length = n) →
      (vs.map (commit A)).foldl (addMul 1) (commit A acc) = commit A (vs.foldl (addMul 1) acc) := by
    intro vs
    induction vs with
    | nil => intros; rfl
    | cons v vs ih =>
      intro acc ha hv
      have hl : acc.length = v.length := by rw [ha, hv v (by simp)]
      rw [List.map_cons, List.foldl_cons, List.foldl_cons, ← commit_addMul A 1 hl, ih _ (by rw [addMul_length 1 hl, ha])
        fun w hw => hv w (by simp [hw])]
  exact key vs _ (by simp) h

theorem sumPairs_ok (M : List (SpMat R)) (ro : List (R × R)) {n : Nat} (vs : List (List R)) (h : ∀ v ∈ vs, v.length = n) :
    sumPairs (M.length + 1) (vs.map (evalPairs M ro)) = .ok (evalPairs M ro (sumVecs n vs)) := by
  unfold sumPairs
  rw [sumVecs_eq vs h, ← evalPairs_zero M ro n]
  have key : ∀ (vs : List (List R)) (acc : List R), acc.length = n → (∀ v ∈ vs, v.length = n) →
      foldRes (fun acc (v : List (R × R)) =>
        if v.length ≤ acc.length then (.ok (zipAssign (fun a x => (a.1 + x.1, a.2 + x.2)) acc v) : Res (List (R × R)))
        else .error (.panic "acc[i]")) (evalPairs M ro acc) (vs.map (evalPairs M ro)) = .ok (evalPairs M ro (vs.foldl (addMul 1) acc)) := by
    intro vs
    induction vs with
    | nil => intros; rfl
    | cons v vs ih =>
      intro acc ha hv
      have hl : acc.length = v.length := by rw [ha, hv v (by simp)]
      rw [List.map_cons, List.foldl_cons]
      unfold foldRes
      rw [if_pos (by rw [evalPairs_length, evalPairs_length]), zipAssign_zipWith _ _ _ (by rw [evalPairs_length, evalPairs_length])]
      have e : List.zipWith (fun a x : R × R => (a.1 + x.1, a.2 + x.2)) (evalPairs M ro acc) (evalPairs M ro v)
          = evalPairs M ro (addMul 1 acc v) := by
        rw [evalPairs_addMul M ro 1 hl]
        unfold addMulPair
        simp only [one_mul]
      rw [e]
      exact ih _ (by rw [addMul_length 1 hl, ha]) fun w hw => hv w (by simp [hw])
  exact key vs _ (by simp) h

end Verif.Plus
