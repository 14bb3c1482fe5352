import Verif.Model.PlusBench
import Verif.Props.PlusFold

/-!
# Lemmas about the benchmarks of `latticefold-plus`
-/

set_option linter.unusedSectionVars false
set_option linter.unusedSimpArgs false

namespace Verif

open Finset Verif.Spec Verif.Plus Verif.Props

variable {F R σ : Type} {d : Nat}
variable [Field F] [CommRing R] [Algebra F R] [DecidableEq F] [DecidableEq R]

theorem charGt_zmod_of_lt {p n : Nat} [Fact p.Prime] (h : n < p) : CharGt (ZMod p) n := by
  intro k h0 hk he
  rw [ZMod.natCast_eq_zero_iff] at he
  exact absurd (Nat.le_of_dvd h0 he) (by omega)

/-! ### Matrices -/

theorem spIdentity_wf (n : Nat) : (spIdentity n : SpMat R).WF := by
  refine ⟨by simp [spIdentity], ?_⟩
  intro row hr t ht
  simp only [spIdentity, List.mem_map, List.mem_range] at hr
  obtain ⟨i, hi, rfl⟩ := hr
  simp only [List.mem_cons, List.not_mem_nil, or_false] at ht
  subst ht
  exact hi

theorem spIdentity_scalar (n : Nat) : ScalarMat F (spIdentity n : SpMat R) := by
  intro row hr t ht
  simp only [spIdentity, List.mem_map, List.mem_range] at hr
  obtain ⟨i, hi, rfl⟩ := hr
  simp only [List.mem_cons, List.not_mem_nil, or_false] at ht
  subst ht
  exact ⟨1, by simp⟩

theorem spIdentity_mulVec (n : Nat) (z : List R) (i : Nat) : mulVec (spIdentity n) z i = if i < n then z.getD i 0 else 0 := by
  rw [← rowVal_eq_mulVec (spIdentity_wf n)]
  by_cases hi : i < n
  · simp [spIdentity, List.getD_eq_getElem?_getD, hi, rowVal]
  · simp [spIdentity, List.getD_eq_getElem?_getD, hi, rowVal]

theorem spGadget_wf {M : SpMat R} (hM : M.WF) {b k : Nat} : (spGadget b k M).WF := by
  refine ⟨by simp [spGadget, hM.1], ?_⟩
  intro row hr t ht
  simp only [spGadget, List.mem_map] at hr ⊢
  obtain ⟨row0, h0, rfl⟩ := hr
  simp only [List.mem_flatMap, List.mem_map, List.mem_range] at ht
  obtain ⟨t0, ht0, j, hj, rfl⟩ := ht
  have := hM.2 row0 h0 t0 ht0
  simp only
  calc t0.2 * k + j < t0.2 * k + k := by omega
    _ = (t0.2 + 1) * k := by ring
    _ ≤ M.ncols * k := Nat.mul_le_mul_right _ (by omega)

theorem spGadget_scalar {M : SpMat R} (h : ScalarMat F M) (b k : Nat) : ScalarMat F (spGadget b k M) := by
  intro row hr t ht
  simp only [spGadget, List.mem_map] at hr
  obtain ⟨row0, h0, rfl⟩ := hr
  simp only [List.mem_flatMap, List.mem_map, List.mem_range] at ht
  obtain ⟨t0, ht0, j, hj, rfl⟩ := ht
  obtain ⟨a, ha⟩ := h row0 h0 t0 ht0
  exact ⟨a * (b : F) ^ j, by simp [ha]⟩

theorem range_map_sum (f : Nat → R) (k : Nat) : ((List.range k).map f).sum = ∑ j ∈ range k, f j := by
  induction k with
  | zero => simp
  | succ k ih => rw [List.range_succ, List.map_append, List.sum_append, ih, sum_range_succ]; simp

theorem rowVal_gadget (b k : Nat) (row : List (R × Nat)) (f : List R) :
    rowVal (row.flatMap fun t => (List.range k).map fun j => (t.1 * (b : R) ^ j, t.2 * k + j)) f
      = (row.map fun t => t.1 * ∑ j ∈ range k, (b : R) ^ j * f.getD (t.2 * k + j) 0).sum := by
  induction row with
  | nil => simp [rowVal]
  | cons t ts ih =>
    have h1 : ∀ l l' : List (R × Nat), rowVal (l ++ l') f = rowVal l f + rowVal l' f := by
      intro l l'
      simp [rowVal]
    rw [List.flatMap_cons, h1, ih, List.map_cons, List.sum_cons]
    congr 1
    unfold rowVal
    rw [List.map_map, mul_sum, range_map_sum]
    apply sum_congr rfl
    intro j _
    simp only [Function.comp]
    ring

/-- The assumed decomposition of a sparse matrix meets the contract of C60. -/
theorem spGadget_mulVec {M : SpMat R} (hM : M.WF) (b k : Nat) (f z : List R)
    (hz : ∀ j < M.ncols, ∑ t ∈ range k, (b : R) ^ t * f.getD (j * k + t) 0 = z.getD j 0) (i : Nat) :
    mulVec (spGadget b k M) f i = mulVec M z i := by
  rw [← rowVal_eq_mulVec (spGadget_wf hM), ← rowVal_eq_mulVec hM]
  by_cases hi : i < M.coeffs.length
  · have e1 : (spGadget b k M).coeffs.getD i [] = (M.coeffs.getD i []).flatMap fun t => (List.range k).map fun j => (t.1 * (b : R) ^ j, t.2 * k + j) := by
      simp [spGadget, List.getD_eq_getElem?_getD, hi]
    rw [e1, rowVal_gadget]
    unfold rowVal
    congr 1
    apply List.map_congr_left
    intro t ht
    have : M.coeffs.getD i [] ∈ M.coeffs := by
      rw [List.getD_eq_getElem?_getD, List.getElem?_eq_getElem hi]
      exact List.getElem_mem hi
    rw [hz _ (hM.2 _ this t ht)]
  · simp [spGadget, List.getD_eq_getElem?_getD, hi, rowVal]

theorem padRows_scalar {M : SpMat R} (h : ScalarMat F M) (n : Nat) : ScalarMat F (M.padRows n) := by
  unfold SpMat.padRows
  split
  · intro row hr t ht
    simp only [List.mem_append, List.mem_replicate] at hr
    rcases hr with hr | ⟨-, rfl⟩
    · exact h row hr t ht
    · simp at ht
  · exact h

theorem setFirst_ok {M : SpMat R} (hM : M.WF) {v : R} {j : Nat} {row : List (R × Nat)} {rows : List (List (R × Nat))}
    (h : M.coeffs = ((v, j) :: row) :: rows) :
    ∃ M', setFirst M = .ok M' ∧ M'.WF ∧ M'.nrows = M.nrows ∧ M'.ncols = M.ncols ∧
      ∀ z i, mulVec M' z i = mulVec M z i + if i = 0 then (2 - v) * z.getD j 0 else 0 := by
  have hwf : ({ M with coeffs := ((2, j) :: row) :: rows } : SpMat R).WF := by
    refine ⟨by rw [← hM.1, h]; simp, ?_⟩
    intro r hr t ht
    simp only [List.mem_cons] at hr
    rcases hr with rfl | hr
    · rcases List.mem_cons.1 ht with rfl | ht
      · exact hM.2 ((v, j) :: row) (by rw [h]; simp) (v, j) (by simp)
      · exact hM.2 ((v, j) :: row) (by rw [h]; simp) t (by simp [ht])
    · exact hM.2 r (by rw [h]; simp [hr]) t ht
  refine ⟨{ M with coeffs := ((2, j) :: row) :: rows }, by unfold setFirst; rw [h], hwf, rfl, rfl, ?_⟩
  · intro z i
    rw [← rowVal_eq_mulVec hwf, ← rowVal_eq_mulVec hM, h]
    cases i with
    | zero =>
      simp only [List.getD_cons_zero, if_true, rowVal, List.map_cons, List.sum_cons]
      ring
    | succ i => simp

theorem setFirst_scalar {M M' : SpMat R} (hs : ScalarMat F M) (h : setFirst M = .ok M') : ScalarMat F M' := by
  unfold setFirst at h
  split at h
  · rename_i v j row rows hM
    simp only [Except.ok.injEq] at h
    subst h
    intro r hr t ht
    simp only [List.mem_cons] at hr
    rcases hr with rfl | hr
    · rcases List.mem_cons.1 ht with rfl | ht
      · exact ⟨2, by rw [map_ofNat]⟩
      · exact hs ((v, j) :: row) (by rw [hM]; simp) t (by simp [ht])
    · exact hs r (by rw [hM]; simp [hr]) t ht
  · cases h

theorem testM_ok {n : Nat} (hn : 1 ≤ n) (hn2 : n ≤ 2 ^ Nat.clog 2 n) :
    ∃ m : SpMat R, testM n = .ok [m] ∧ m.ncols = n ∧ MatsOK F (Nat.clog 2 n) n [m] := by
  obtain ⟨n, rfl⟩ : ∃ n', n = n' + 1 := ⟨n - 1, by omega⟩
  obtain ⟨m, h1, h2, h3, h4, -⟩ := setFirst_ok (spIdentity_wf (R := R) (n + 1)) (v := 1) (j := 0) (row := [])
    (rows := ((List.range n).map Nat.succ).map fun i => [((1 : R), i)]) (by
      simp only [spIdentity]
      rw [List.range_succ_eq_map]
      simp)
  refine ⟨m, by unfold testM; rw [h1, bind_ok'], h4, ?_⟩
  intro m' hm
  obtain rfl := List.mem_singleton.1 hm
  refine ⟨h2, h4, ?_, setFirst_scalar (spIdentity_scalar _) h1⟩
  rw [h3]
  exact hn2

/-- The R1CS of the builder for `m` squares: `B f` is the vector `z` with the digits `f`, and `A f`, `C f` have `f_0` added in row zero. -/
theorem buildDecomposed_ok {n m k b : Nat} (hm : 1 ≤ m) (hk : 1 ≤ k) (hn : n = m * k) :
    ∃ cs : R1CS R, (R1CSBuilder.new n k b).buildDecomposed = .ok cs ∧ R1CSWF cs ∧ cs.A.nrows = n ∧ cs.A.ncols = n ∧
      ScalarMat F cs.A ∧ ScalarMat F cs.B ∧ ScalarMat F cs.C ∧
      ∀ f z : List R, (∀ j < m, ∑ t ∈ range k, (b : R) ^ t * f.getD (j * k + t) 0 = z.getD j 0) → ∀ i,
        mulVec cs.B f i = (if i < m then z.getD i 0 else 0) ∧
        mulVec cs.A f i = (if i < m then z.getD i 0 else 0) + (if i = 0 then f.getD 0 0 else 0) ∧
        mulVec cs.C f i = (if i < m then z.getD i 0 else 0) + (if i = 0 then f.getD 0 0 else 0) := by
  set D : SpMat R := (spGadget b k (spIdentity m)).padRows n with hD
  have hwf : D.WF := padRows_wf (spGadget_wf (spIdentity_wf m)) n
  have hsc : ScalarMat F D := padRows_scalar (spGadget_scalar (spIdentity_scalar m) b k) n
  have hrows : D.nrows = n := by
    rw [hD, padRows_nrows]
    change max m n = n
    rw [hn]
    exact max_eq_right (Nat.le_mul_of_pos_right m hk)
  have hcols : D.ncols = n := by
    rw [hD]
    unfold SpMat.padRows
    split <;> exact hn.symm
  have hfirst : ∃ row rows, D.coeffs = (((1 : R), 0) :: row) :: rows := by
    obtain ⟨m', rfl⟩ : ∃ m', m = m' + 1 := ⟨m - 1, by omega⟩
    obtain ⟨k', rfl⟩ : ∃ k', k = k' + 1 := ⟨k - 1, by omega⟩
    have e : ∃ row rows, (spGadget b (k' + 1) (spIdentity (R := R) (m' + 1))).coeffs = (((1 : R), 0) :: row) :: rows := by
      unfold spGadget spIdentity
      simp only
      rw [List.range_succ_eq_map, List.range_succ_eq_map]
      simp only [List.map_cons, List.flatMap_cons, List.flatMap_nil, List.append_nil, pow_zero, mul_one, Nat.zero_mul, Nat.add_zero]
      exact ⟨_, _, rfl⟩
    obtain ⟨row, rows, e⟩ := e
    rw [hD]
    unfold SpMat.padRows
    split
    · exact ⟨row, rows ++ _, by simp only [e, List.cons_append]; rfl⟩
    · exact ⟨row, rows, e⟩
  obtain ⟨row, rows, hfirst⟩ := hfirst
  obtain ⟨D', h1, h2, h3, h4, h6⟩ := setFirst_ok hwf hfirst
  have h5 : ScalarMat F D → ScalarMat F D' := fun h => setFirst_scalar h h1
  have hmul : ∀ f z : List R, (∀ j < m, ∑ t ∈ range k, (b : R) ^ t * f.getD (j * k + t) 0 = z.getD j 0) → ∀ i,
      mulVec D f i = if i < m then z.getD i 0 else 0 := by
    intro f z hz i
    rw [hD, padRows_mulVec, spGadget_mulVec (spIdentity_wf m) b k f z hz, spIdentity_mulVec]
  refine ⟨⟨1, D', D, D'⟩, ?_, ⟨h2, hwf, h2, h3.symm, rfl, h4.symm, rfl⟩, h3.trans hrows, h4.trans hcols, h5 hsc, hsc, h5 hsc, ?_⟩
  · unfold R1CSBuilder.buildDecomposed R1CSBuilder.m R1CSBuilder.new
    simp only
    rw [if_neg (by omega), bind_ok', hn, Nat.mul_div_cancel _ (by omega), ← hn]
    unfold modifyR1CS
    rw [if_pos rfl]
    change (do let A ← setFirst D; let C ← setFirst D; Except.ok (⟨1, A, D, C⟩ : R1CS R)) = _
    rw [h1]
    rfl
  · intro f z hz i
    have h := hmul f z hz i
    have h' : mulVec D' f i = (if i < m then z.getD i 0 else 0) + (if i = 0 then f.getD 0 0 else 0) := by
      rw [h6, h]
      congr 1
      split_ifs
      · ring
      · rfl
    exact ⟨h, h', h'⟩

/-- When the digits satisfy the R1CS of the builder. -/
theorem builder_holds_iff {cs : R1CS R} {n m : Nat} (hm : 1 ≤ m) (hmn : m ≤ n) (f z : List R)
    (h : ∀ i, mulVec cs.B f i = (if i < m then z.getD i 0 else 0) ∧
        mulVec cs.A f i = (if i < m then z.getD i 0 else 0) + (if i = 0 then f.getD 0 0 else 0) ∧
        mulVec cs.C f i = (if i < m then z.getD i 0 else 0) + (if i = 0 then f.getD 0 0 else 0)) :
    R1CSHolds cs.A cs.B cs.C n f ↔ (z.getD 0 0 + f.getD 0 0) * z.getD 0 0 = z.getD 0 0 + f.getD 0 0 ∧
      ∀ i < m, 1 ≤ i → z.getD i 0 * z.getD i 0 = z.getD i 0 := by
  unfold R1CSHolds R1CSRow
  constructor
  · intro hr
    constructor
    · have := hr 0 (by omega)
      obtain ⟨e1, e2, e3⟩ := h 0
      rw [e1, e2, e3] at this
      simpa [show 0 < m by omega] using this
    · intro i hi h1
      have := hr i (by omega)
      obtain ⟨e1, e2, e3⟩ := h i
      rw [e1, e2, e3] at this
      simpa [hi, show i ≠ 0 by omega] using this
  · rintro ⟨h0, h1⟩ i hi
    obtain ⟨e1, e2, e3⟩ := h i
    rw [e1, e2, e3]
    rcases Nat.eq_zero_or_pos i with rfl | hi0
    · simpa [show 0 < m by omega] using h0
    · by_cases him : i < m
      · simpa [him, show i ≠ 0 by omega] using h1 i him hi0
      · simp [him, show i ≠ 0 by omega]

/-! ### The first digit -/

theorem sum_pow_lt {B : Nat} (hB : 2 ≤ B) (k : Nat) : ∑ i ∈ range k, B ^ i < B ^ k := by
  induction k with
  | zero => simp
  | succ k ih =>
    rw [sum_range_succ, pow_succ]
    have := Nat.mul_le_mul_left (B ^ k) hB
    omega

/-- Balanced digits of a small integer. -/
theorem int_digits {B : Nat} (hB : 2 ≤ B) (k : Nat) (n : Nat → ℤ) (hs : ∀ i < k, 2 * (n i).natAbs ≤ B) {m : ℤ}
    (hsum : ∑ i ∈ range k, (B : ℤ) ^ i * n i = m) (hm : 2 * m.natAbs < B) : ∀ i < k, n i = if i = 0 then m else 0 := by
  induction k generalizing n m with
  | zero => intro i hi; omega
  | succ k ih =>
    rw [sum_range_succ'] at hsum
    have e : ∑ i ∈ range k, (B : ℤ) ^ (i + 1) * n (i + 1) = B * ∑ i ∈ range k, (B : ℤ) ^ i * n (i + 1) := by
      rw [mul_sum]
      exact sum_congr rfl fun i _ => by ring
    rw [e, pow_zero, one_mul] at hsum
    have hdvd : (B : ℤ) ∣ n 0 - m := ⟨-∑ i ∈ range k, (B : ℤ) ^ i * n (i + 1), by linarith⟩
    have h0 := hs 0 (by omega)
    have hz : n 0 - m = 0 := by
      apply Int.eq_zero_of_abs_lt_dvd hdvd
      rw [Int.abs_eq_natAbs]
      have := Int.natAbs_sub_le (n 0) m
      omega
    have hrest : ∑ i ∈ range k, (B : ℤ) ^ i * n (i + 1) = 0 := by
      have : (B : ℤ) * ∑ i ∈ range k, (B : ℤ) ^ i * n (i + 1) = 0 := by linarith
      rcases mul_eq_zero.1 this with h | h
      · omega
      · exact h
    intro i hi
    rcases i with _ | i
    · simpa using sub_eq_zero.1 hz
    · have := ih (fun i => n (i + 1)) (fun i hi => hs (i + 1) (by omega)) hrest (by simp; omega) i (by omega)
      simpa using this

theorem small_digits {B k : Nat} (hB : 2 ≤ B) {ds : Nat → F} (hs : ∀ i < k, Short B (ds i)) {m : ℤ}
    (hsum : ∑ i ∈ range k, (B : F) ^ i * ds i = (m : F)) (hm : 2 * m.natAbs < B) (hc : CharGt F (B ^ (k + 1))) :
    ∀ i < k, ds i = if i = 0 then (m : F) else 0 := by
  have hch : ∀ i, ∃ n : ℤ, i < k → 2 * n.natAbs ≤ B ∧ ds i = (n : F) := by
    intro i
    by_cases hi : i < k
    · obtain ⟨n, h1, h2⟩ := hs i hi
      exact ⟨n, fun _ => ⟨h1, h2⟩⟩
    · exact ⟨0, fun h => absurd h hi⟩
  choose n hn using hch
  set S : ℤ := ∑ i ∈ range k, (B : ℤ) ^ i * n i - m with hS
  have hS0 : ((S : ℤ) : F) = 0 := by
    rw [hS]
    push_cast
    rw [← hsum, sub_eq_zero]
    apply sum_congr rfl
    intro i hi
    rw [(hn i (mem_range.1 hi)).2]
  have hb1 : 2 * (∑ i ∈ range k, (B : ℤ) ^ i * n i).natAbs ≤ B * ∑ i ∈ range k, B ^ i := by
    have h1 : (∑ i ∈ range k, (B : ℤ) ^ i * n i).natAbs ≤ ∑ i ∈ range k, B ^ i * (n i).natAbs := by
      refine le_trans (Int.natAbs_sum_le _ _) (sum_le_sum fun i _ => ?_)
      rw [Int.natAbs_mul, Int.natAbs_pow, Int.natAbs_natCast]
    calc 2 * (∑ i ∈ range k, (B : ℤ) ^ i * n i).natAbs ≤ 2 * ∑ i ∈ range k, B ^ i * (n i).natAbs := Nat.mul_le_mul_left _ h1
      _ = ∑ i ∈ range k, B ^ i * (2 * (n i).natAbs) := by rw [mul_sum]; exact sum_congr rfl fun i _ => by ring
      _ ≤ ∑ i ∈ range k, B ^ i * B := sum_le_sum fun i hi => Nat.mul_le_mul_left _ (hn i (mem_range.1 hi)).1
      _ = B * ∑ i ∈ range k, B ^ i := by rw [← sum_mul, mul_comm]
  have hb2 : S.natAbs ≤ B ^ (k + 1) := by
    have h1 : S.natAbs ≤ (∑ i ∈ range k, (B : ℤ) ^ i * n i).natAbs + m.natAbs := by rw [hS]; exact Int.natAbs_sub_le _ _
    have h2 : B * ∑ i ∈ range k, B ^ i ≤ B ^ (k + 1) := by
      rw [pow_succ, mul_comm]
      exact Nat.mul_le_mul_right _ (sum_pow_lt hB k).le
    have h3 : B ≤ B ^ (k + 1) := Nat.le_self_pow (by omega) B
    omega
  have hSz : S = 0 := by
    by_contra hne
    refine hc S.natAbs (by omega) hb2 ?_
    rcases Int.natAbs_eq S with h | h
    · rw [h, Int.cast_natCast] at hS0
      exact hS0
    · rw [h, Int.cast_neg, Int.cast_natCast, neg_eq_zero] at hS0
      exact hS0
  intro i hi
  rw [(hn i hi).2, int_digits hB k n (fun i hi => (hn i hi).1) (sub_eq_zero.1 hSz) hm i hi]
  split_ifs <;> simp

theorem coeff_natCast (pr : PlusRing F R d) (m : Nat) (i : Fin d) : pr.coeff ((m : Nat) : R) i = if (i : Nat) = 0 then (m : F) else 0 := by
  have h1 : ((m : Nat) : R) = (m : F) • pr.X ^ ((⟨0, pr.dpos⟩ : Fin d) : Nat) := by
    rw [pow_zero, Algebra.smul_def, mul_one, map_natCast]
  rw [h1, map_smul, pr.coeff_X]
  by_cases h : (i : Nat) = 0
  · have : i = ⟨0, pr.dpos⟩ := Fin.ext h
    subst this
    simp
  · have : i ≠ ⟨0, pr.dpos⟩ := fun h' => h (by rw [h'])
    simp [h, this]

theorem short_natCast (pr : PlusRing F R d) {m B : Nat} (h : 2 * m ≤ B) (i : Fin d) : Short B (pr.coeff ((m : Nat) : R) i) := by
  rw [coeff_natCast]
  split_ifs
  · exact ⟨m, by simpa using h, by simp⟩
  · exact ⟨0, by simp, by simp⟩

/-- The balanced digits of a small natural number are the number itself and zeros. -/
theorem small_digits_ring (pr : PlusRing F R d) {B k : Nat} (hB : 2 ≤ B) {ds : Nat → R}
    (hs : ∀ i < k, ∀ c, Short B (pr.coeff (ds i) c)) {m : Nat} (hsum : ∑ i ∈ range k, (B : R) ^ i * ds i = (m : R)) (hm : 2 * m < B)
    (hc : CharGt F (B ^ (k + 1))) : ∀ i < k, ds i = if i = 0 then (m : R) else 0 := by
  intro i hi
  apply pr.coeff.injective
  funext c
  have h1 := congrFun (congrArg pr.coeff hsum) c
  rw [map_sum, Finset.sum_apply] at h1
  have h2 : ∑ i ∈ range k, (B : F) ^ i * pr.coeff (ds i) c = ((if (c : Nat) = 0 then (m : ℤ) else 0 : ℤ) : F) := by
    rw [coeff_natCast] at h1
    rw [show (((if (c : Nat) = 0 then (m : ℤ) else 0 : ℤ)) : F) = if (c : Nat) = 0 then (m : F) else 0 by split_ifs <;> simp, ← h1]
    apply sum_congr rfl
    intro i _
    have : (B : R) ^ i * ds i = ((B : F) ^ i) • ds i := by rw [Algebra.smul_def, map_pow, map_natCast]
    rw [this, map_smul]
    rfl
  rw [small_digits hB (fun i hi => hs i hi c) h2 (by split_ifs <;> simp <;> omega) hc i hi]
  by_cases h0 : i = 0
  · rw [if_pos h0, if_pos h0, coeff_natCast]
    split_ifs <;> simp
  · rw [if_neg h0, if_neg h0, map_zero]
    rfl

/-! ### Linearization without satisfaction -/

/-- The linearization of any committed R1CS of the right shape succeeds, also if the witness does not satisfy the relation. -/
theorem linearize_runs (T : Transcript F R σ) (s : σ) (c : ComR1CS R) (sh : ComShape c) (hc : CharGt F 3) :
    ∃ lb proof s', c.linearize T s = .ok ((lb, proof), s') ∧ lb.f = c.f := by
  obtain ⟨⟨wA, wB, wC, rB, rC, cB, cC⟩, cols, rows, len⟩ := sh
  set nv := Nat.clog 2 c.f.length with hnv
  have hnv1 : 1 ≤ nv := Nat.clog_pos (by norm_num) len
  have hpow : c.f.length ≤ 2 ^ nv := Nat.le_pow_clog (by norm_num) _
  rcases hch : T.challenges nv s with ⟨r, s1⟩
  have hrl : r.length = nv := by
    have := challenges_length T nv s
    rw [hch] at this
    exact this
  let tab : SpMat R → Mle R := fun m => ⟨nv, (List.range m.nrows).map fun i => mulVec m c.f i⟩
  obtain ⟨proof, pst, s2, sc, vals, h2, h3, -, -, h5, h6, h7, h8⟩ :=
    C20_completeness T s1 [eqT R r, tab c.r1cs.A, tab c.r1cs.B, tab c.r1cs.C] nv 3 r1csComb r1csValue hnv1 (by omega) hc (by
      intro p hp
      simp only [List.mem_cons, List.not_mem_nil, or_false] at hp
      rcases hp with rfl | rfl | rfl | rfl
      · exact hrl
      all_goals rfl) (by
      intro v hv
      match v, hv with
      | [a, b, c, e], _ => rfl) (r1csValue_deg _)
  set ro := sc.point.map (algebraMap F R) with hro
  have hrol : ro.length = nv := by rw [hro, List.length_map, h6]
  have hmul : ∀ m : SpMat R, m.WF → m.ncols = c.f.length → m.tryMulVec c.f = .ok ((List.range m.nrows).map fun i => mulVec m c.f i) :=
    fun m hm hc => tryMulVec_wf hm hc.symm
  have hfe : ∀ m : SpMat R, m.nrows ≤ 2 ^ nv → Mle.fromEvals nv ((List.range m.nrows).map fun i => mulVec m c.f i) = .ok (tab m) :=
    fun m hm => fromEvals_ok nv _ (by simpa using hm)
  have heu : ∀ m : Mle R, m.numVars = nv → evalUnwrap m ro = .ok (mle m.get ro) := by
    intro m hm
    unfold evalUnwrap
    rw [evaluate_eq, if_pos (by rw [hrol, hm])]
  have : ∃ lb proof s', c.linearize T s = .ok ((lb, proof), s') ∧ lb.f = c.f := by
    unfold ComR1CS.linearize
    simp only
    rw [← hnv, hmul _ wA cols, bind_ok', hmul _ wB (by rw [cB, cols]), bind_ok', hmul _ wC (by rw [cC, cols]), bind_ok', hch]
    simp only
    rw [buildEq_eqT r (by rintro rfl; simp at hrl; omega), show ∀ {α : Type} (u : String) (a : α), unwrapRes u (Except.ok a) = .ok a from fun _ _ => rfl, bind_ok', fromEvals_ok nv c.f hpow, bind_ok', hfe _ rows, bind_ok',
      hfe _ (by rw [rB]; exact rows), bind_ok', hfe _ (by rw [rC]; exact rows), bind_ok', h2, bind_ok']
    simp only
    rw [← h5, ← hro, heu ⟨nv, c.f⟩ rfl, bind_ok', heu (tab _) rfl, bind_ok', heu (tab _) rfl, bind_ok', heu (tab _) rfl, bind_ok']
    exact ⟨_, _, _, rfl, rfl⟩
  exact this

theorem linearizeAll_runs (T : Transcript F R σ) (s : σ) (hc : CharGt F 3) (comp : List (ComR1CS R)) (h : ∀ c ∈ comp, ComShape c) :
    ∃ lbs lps s1, linearizeAll (fun s c => ComR1CS.linearize T s c) comp s = .ok ((lbs, lps), s1) ∧ lbs.map (·.f) = comp.map (·.f) := by
  induction comp generalizing s with
  | nil => exact ⟨[], [], s, rfl, rfl⟩
  | cons c cs ih =>
    obtain ⟨lb, lp, s1, g1, g3⟩ := linearize_runs T s c (h c (by simp)) hc
    obtain ⟨lbs, lps, s2, k1, k3⟩ := ih s1 fun c' hc' => h c' (by simp [hc'])
    refine ⟨lb :: lbs, lp :: lps, s2, ?_, by simp [g3, k3]⟩
    unfold linearizeAll
    rw [g1]
    simp only [bind_ok']
    rw [k1]
    simp only [bind_ok']

/-! ### The vector `t` is too long -/

theorem shortChallenges_len (pr : PlusRing F R d) (T : Transcript F R σ) (n : Nat) (s : σ) {xs : List R} {s' : σ}
    (h : shortChallenges pr T n s = .ok (xs, s')) : xs.length = n := by
  induction n generalizing s xs s' with
  | zero =>
    simp only [shortChallenges, Except.ok.injEq, Prod.mk.injEq] at h
    rw [← h.1]
    rfl
  | succ n ih =>
    simp only [shortChallenges, bind_eq_ok, Prod.exists] at h
    obtain ⟨x, s1, -, ys, s2, h2, h⟩ := h
    simp only [Except.ok.injEq, Prod.mk.injEq] at h
    rw [← h.1, List.length_cons, ih _ h2]

theorem sPrime_len (pr : PlusRing F R d) (T : Transcript F R σ) (k : Nat) (s : σ) {sp : List (List R)} {s' : σ}
    (h : sPrime pr T k s = .ok (sp, s')) : sp.length = k ∧ ∀ r ∈ sp, r.length = d := by
  induction k generalizing s sp s' with
  | zero =>
    simp only [sPrime, Except.ok.injEq, Prod.mk.injEq] at h
    rw [← h.1]
    exact ⟨rfl, by simp⟩
  | succ n ih =>
    simp only [sPrime, bind_eq_ok, Prod.exists] at h
    obtain ⟨x, s1, h1, ys, s2, h2, h⟩ := h
    simp only [Except.ok.injEq, Prod.mk.injEq] at h
    obtain ⟨g1, g2⟩ := ih _ h2
    rw [← h.1, List.length_cons, g1]
    refine ⟨rfl, ?_⟩
    intro r hr
    rcases List.mem_cons.1 hr with rfl | hr
    · exact shortChallenges_len pr T d s h1
    · exact g2 r hr

/-- The commitment transformation never finishes if the vector `t` is longer than the witnesses. -/
theorem cm_t_too_large (pr : PlusRing F R d) (T : Transcript F R σ) (s : σ) {rg : Rg F R} {M : List (SpMat R)} {inst : RgInstance F R}
    {insts : List (RgInstance F R)} (hi : rg.instances = inst :: insts) {m : Mat R} {ms : List (Mat R)} (hm : inst.comMf = m :: ms)
    (hk : 1 ≤ rg.dparams.k) (hl : 1 ≤ rg.dparams.l)
    (hn : inst.tau.length < 2 ^ Nat.clog 2 m.nrows * (rg.dparams.k * d) * rg.dparams.l * d) : ∀ res, cmProve pr T s rg M ≠ .ok res := by
  intro res hres
  have hd := pr.dpos
  unfold cmProve at hres
  obtain ⟨⟨dcom, s1⟩, -, hres⟩ := bind_eq_ok.1 hres
  unfold cmProveTail at hres
  obtain ⟨inst0, h0, hres⟩ := bind_eq_ok.1 hres
  obtain ⟨⟨ss, _⟩, -, hres⟩ := bind_eq_ok.1 hres
  obtain ⟨⟨sp, _⟩, hsp, hres⟩ := bind_eq_ok.1 hres
  obtain ⟨hs, -, hres⟩ := bind_eq_ok.1 hres
  obtain ⟨comh, hcomh, hres⟩ := bind_eq_ok.1 hres
  obtain ⟨comh0, hc0, hres⟩ := bind_eq_ok.1 hres
  obtain ⟨_, ht, -⟩ := bind_eq_ok.1 hres
  rw [hi] at h0 hcomh
  cases comh with
  | nil => simp [idx] at hc0
  | cons c0 cs =>
    rw [mapRes_eq_ok_iff, List.forall₂_cons] at hcomh
    have e0 : inst = inst0 := by simpa [idx] using h0
    have e1 : c0 = comh0 := by simpa [idx] using hc0
    subst e0 e1
    have hlen : c0.length = m.nrows := by
      have := hcomh.1
      unfold comhOf at this
      rw [hm] at this
      obtain ⟨m0, hm0, this⟩ := bind_eq_ok.1 this
      have e2 : m = m0 := by simpa [idx] using hm0
      subst e2
      exact combineMats_length this
    obtain ⟨g1, g2⟩ := sPrime_len pr T _ _ hsp
    have hfl : sp.flatten.length = rg.dparams.k * d := by rw [flatten_length sp g2, g1]
    have hdp : (dPowers (F := F) R d rg.dparams.l).length = rg.dparams.l := by simp [dPowers]
    have hxp : (xPowers pr).length = d := by simp [xPowers]
    simp only [padT] at ht
    rw [if_neg] at ht
    · simp at ht
    rw [calculateTz_length _ _ _ _ (by intro h; rw [h] at hfl; have := Nat.mul_pos hk hd; simp at hfl; omega)
      (by intro h; rw [h] at hdp; simp at hdp; omega) (by intro h; rw [h] at hxp; simp at hxp; omega), List.length_map, hfl, hdp, hxp,
      challenges_length, hlen]
    omega

end Verif
