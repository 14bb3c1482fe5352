import Verif.Lemmas.PlusCm
import Verif.Spec.PlusCm

/-!
# Lemmas: the commitment transformation of `cm.rs`
-/

set_option linter.unusedSectionVars false
set_option linter.unusedSimpArgs false

namespace Verif.Plus

open Finset Spec

variable {F R σ : Type} {d : Nat}
variable [Field F] [CommRing R] [Algebra F R] [DecidableEq F] [DecidableEq R]

/-! ### Challenges -/

theorem shortChallenge_ok (pr : PlusRing F R d) (T : Transcript F R σ) (hd : 3 ≤ d) (hT : BytesOK T) (s : σ) :
    ∃ x s', shortChallenge pr 128 T s = .ok (x, s') ∧ ShortChallenge pr x := by
  unfold shortChallenge
  have h : ¬ 64 ≤ 128 / d := by
    rw [Nat.le_div_iff_mul_le (by omega)]
    omega
  rw [if_neg h]
  have := hT s d
  simp only
  rw [if_pos (by rw [List.length_map, this])]
  refine ⟨_, _, rfl, ?_⟩
  intro i
  have hi : (i : Nat) < (T.bytes s d).1.length := by rw [this]; exact i.2
  refine ⟨(((T.bytes s d).1[(i : Nat)].toNat % 2 ^ (128 / d) : Nat) : ℤ) - ((2 ^ (128 / d) / 2 : Nat) : ℤ), ?_, ?_, ?_⟩
  · omega
  · have : (T.bytes s d).1[(i : Nat)].toNat % 2 ^ (128 / d) < 2 ^ (128 / d) := Nat.mod_lt _ (by positivity)
    omega
  · rw [LinearEquiv.apply_symm_apply, List.getD_eq_getElem?_getD, List.getElem?_map, List.getElem?_eq_getElem hi,
      Option.map_some, Option.getD_some, Int.cast_sub, Int.cast_natCast, Int.cast_natCast]

theorem shortChallenges_ok (pr : PlusRing F R d) (T : Transcript F R σ) (hd : 3 ≤ d) (hT : BytesOK T) (n : Nat) (s : σ) :
    ∃ xs s', shortChallenges pr T n s = .ok (xs, s') ∧ xs.length = n ∧ ∀ x ∈ xs, ShortChallenge pr x := by
  induction n generalizing s with
  | zero => exact ⟨_, _, rfl, rfl, by simp⟩
  | succ n ih =>
    obtain ⟨x, s1, h1, hx⟩ := shortChallenge_ok pr T hd hT s
    obtain ⟨xs, s2, h2, h3, h4⟩ := ih s1
    refine ⟨x :: xs, s2, ?_, by simp [h3], by simpa using ⟨hx, h4⟩⟩
    unfold shortChallenges
    rw [h1, bind_ok']
    simp only
    rw [h2, bind_ok']

theorem sPrime_ok (pr : PlusRing F R d) (T : Transcript F R σ) (hd : 3 ≤ d) (hT : BytesOK T) (k : Nat) (s : σ) :
    ∃ rows s', sPrime pr T k s = .ok (rows, s') ∧ rows.length = k ∧ (∀ r ∈ rows, r.length = d) ∧ ∀ r ∈ rows, ∀ x ∈ r, ShortChallenge pr x := by
  induction k generalizing s with
  | zero => exact ⟨_, _, rfl, rfl, by simp, by simp⟩
  | succ n ih =>
    obtain ⟨x, s1, h1, hx, hxs⟩ := shortChallenges_ok pr T hd hT d s
    obtain ⟨xs, s2, h2, h3, h4, h5⟩ := ih s1
    refine ⟨x :: xs, s2, ?_, by simp [h3], ?_, ?_⟩
    · unfold sPrime
      rw [h1, bind_ok']
      simp only
      rw [h2, bind_ok']
    · intro r hr
      rcases List.mem_cons.1 hr with rfl | hr
      · exact hx
      · exact h4 r hr
    · intro r hr
      rcases List.mem_cons.1 hr with rfl | hr
      · exact hxs
      · exact h5 r hr

/-! ### Sums of matrix products -/

theorem addInto_fold (vs : List (List R)) (h : List R) (hv : ∀ v ∈ vs, v.length ≤ h.length) :
    ∃ w, foldRes addInto h vs = .ok w ∧ w.length = h.length ∧
      ∀ x, w.getD x 0 = h.getD x 0 + ∑ i ∈ range vs.length, (vs.getD i []).getD x 0 := by
  induction vs generalizing h with
  | nil => exact ⟨h, rfl, rfl, by simp⟩
  | cons v vs ih =>
    have hl := zipAssign_length (fun a b : R => a + b) h v
    obtain ⟨w, h1, h2, h3⟩ := ih (zipAssign (· + ·) h v) (fun u hu => by rw [hl]; exact hv u (by simp [hu]))
    refine ⟨w, ?_, by rw [h2, hl], ?_⟩
    · unfold foldRes
      rw [show addInto h v = .ok (zipAssign (· + ·) h v) from if_pos (hv v (by simp))]
      exact h1
    · intro x
      rw [h3, List.length_cons, sum_range_succ']
      simp only [List.getD_cons_succ, List.getD_cons_zero]
      by_cases hx : x < h.length
      · rw [zipAssign_getD _ (by simp) h v x hx]
        ring
      · have hx' : h.length ≤ x := by omega
        rw [getD_out _ (by rw [hl]; exact hx'), getD_out h hx', getD_out v (by have := hv v (by simp); omega)]
        ring

/-- `∑_κ M_κ s'_κ`. -/
def combFn (d : Nat) (ms : List (Mat R)) (sp : List (List R)) (x : Nat) : R :=
  ∑ κ ∈ range ms.length, ∑ j ∈ range d, matEntry (ms.getD κ ⟨0, 0, []⟩) x j * (sp.getD κ []).getD j 0

theorem combineMats_ok {N n0 : Nat} {ms : List (Mat R)} {sp : List (List R)} (hms : ∀ D ∈ ms, D.WF ∧ D.nrows = n0 ∧ D.ncols = d)
    (hn : n0 ≤ N) (hl : sp.length = ms.length) (hsp : ∀ r ∈ sp, r.length = d) :
    combineMats N ms sp = .ok ((List.range N).map (combFn d ms sp)) ∧ ∀ x, n0 ≤ x → combFn d ms sp x = 0 := by
  constructor
  · unfold combineMats
    rw [mapRes_ok (g := fun p : Mat R × List R => p.1.vals.map fun row => dot row p.2) (by
      rintro ⟨D, r⟩ hp
      obtain ⟨h1, h2⟩ := List.of_mem_zip hp
      exact mat_tryMulVec_ok (by rw [hsp r h2, (hms D h1).2.2])), bind_ok']
    obtain ⟨w, h1, h2, h3⟩ := addInto_fold ((ms.zip sp).map fun p => p.1.vals.map fun row => dot row p.2) (List.replicate N (0 : R)) (by
      intro v hv
      obtain ⟨⟨D, r⟩, hp, rfl⟩ := List.mem_map.1 hv
      obtain ⟨h1, _⟩ := List.of_mem_zip hp
      have := (hms D h1).1.1
      rw [List.length_map, List.length_replicate]
      have := (hms D h1).2.1
      simp only
      omega)
    rw [h1]
    congr 1
    rw [List.length_replicate] at h2
    apply List.ext_getElem
    · simp [h2]
    · intro x hx _
      have hx' : x < N := by rw [← h2]; exact hx
      have e1 : w[x] = w.getD x 0 := by simp [List.getD_eq_getElem?_getD, hx]
      rw [e1, h3]
      simp only [List.getElem_map, List.getElem_range]
      rw [show (List.replicate N (0 : R)).getD x 0 = 0 by simp [List.getD_eq_getElem?_getD, List.getElem?_replicate, hx'], zero_add]
      unfold combFn
      rw [List.length_map, List.length_zip, hl, min_self]
      apply sum_congr rfl
      intro κ hκ
      have hκ' := mem_range.1 hκ
      have hD := hms _ (List.getElem_mem hκ')
      have hs := hsp _ (List.getElem_mem (hl ▸ hκ' : κ < sp.length))
      have e2 : ((ms.zip sp).map fun p => p.1.vals.map fun row => dot row p.2).getD κ [] = ms[κ].vals.map fun row => dot row (sp[κ]'(hl ▸ hκ')) := by
        simp [List.getD_eq_getElem?_getD, hκ', hl]
      have e3 : ms.getD κ ⟨0, 0, []⟩ = ms[κ] := by simp [List.getD_eq_getElem?_getD, hκ']
      have e4 : sp.getD κ [] = sp[κ]'(hl ▸ hκ') := by simp [List.getD_eq_getElem?_getD, hl, hκ']
      rw [e2, e3, e4]
      unfold matEntry
      by_cases hx2 : x < ms[κ].vals.length
      · rw [getD_map_lt _ _ [] 0 hx2, dot_eq_sum _ _ d (Or.inr hs.le)]
      · rw [getD_out _ (by rw [List.length_map]; omega)]
        simp [List.getD_eq_getElem?_getD, List.getElem?_eq_none (not_lt.1 hx2)]
  · intro x hx
    unfold combFn
    apply sum_eq_zero
    intro κ hκ
    apply sum_eq_zero
    intro j _
    have hκ' := mem_range.1 hκ
    have hD := hms _ (List.getElem_mem hκ')
    have e3 : ms.getD κ ⟨0, 0, []⟩ = ms[κ] := by simp [List.getD_eq_getElem?_getD, hκ']
    rw [e3]
    unfold matEntry
    have : ms[κ].vals.length ≤ x := by rw [hD.1.1, hD.2.1]; exact hx
    simp [List.getD_eq_getElem?_getD, List.getElem?_eq_none this]

/-! ### Tensor products -/

theorem tensorProduct_eq (a b : List R) (ha : a ≠ []) (hb : b ≠ []) :
    tensorProduct a b = (a.map fun x => b.map fun y => x * y).flatten := by
  unfold tensorProduct
  rw [if_neg (by simpa using ha), if_neg (by simpa using hb), List.flatMap_def]

theorem tensorProduct_length (a b : List R) (ha : a ≠ []) (hb : b ≠ []) : (tensorProduct a b).length = a.length * b.length := by
  rw [tensorProduct_eq a b ha hb, flatten_length (L := b.length) _ (by
    intro l hl
    obtain ⟨x, _, rfl⟩ := List.mem_map.1 hl
    simp), List.length_map]

theorem tensorProduct_getD (a b : List R) (ha : a ≠ []) (hb : b ≠ []) {i j : Nat} (hj : j < b.length) :
    (tensorProduct a b).getD (i * b.length + j) 0 = a.getD i 0 * b.getD j 0 := by
  rw [tensorProduct_eq a b ha hb, flatten_getD (L := b.length) 0 _ (by
    intro l hl
    obtain ⟨x, _, rfl⟩ := List.mem_map.1 hl
    simp) i hj]
  by_cases hi : i < a.length
  · rw [getD_map_lt _ a 0 [] hi, getD_map_lt _ b 0 0 hj]
  · rw [getD_out a (by omega)]
    simp [List.getD_eq_getElem?_getD, hi]

theorem tensorProduct_ne (a b : List R) (ha : a ≠ []) (hb : b ≠ []) : tensorProduct a b ≠ [] := by
  intro h
  have := tensorProduct_length a b ha hb
  rw [h, List.length_nil] at this
  have h3 := Nat.mul_pos (List.length_pos_iff.2 ha) (List.length_pos_iff.2 hb)
  omega

theorem tensor_fold (r acc : List R) (h : acc ≠ []) :
    (r.foldl (fun acc x => tensorProduct acc [1 - x, x]) acc).length = acc.length * 2 ^ r.length ∧
    r.foldl (fun acc x => tensorProduct acc [1 - x, x]) acc ≠ [] := by
  induction r generalizing acc with
  | nil => simpa using h
  | cons x r ih =>
    have hne := tensorProduct_ne acc [1 - x, x] h (by simp)
    obtain ⟨h1, h2⟩ := ih _ hne
    refine ⟨?_, h2⟩
    rw [List.foldl_cons, h1, tensorProduct_length _ _ h (by simp)]
    simp only [List.length_cons, List.length_nil]
    ring

theorem tensor_length (r : List R) : (tensor r).length = 2 ^ r.length := by
  have := (tensor_fold r [1] (by simp)).1
  simpa [tensor] using this

theorem tensor_ne (r : List R) : tensor r ≠ [] := (tensor_fold r [1] (by simp)).2

theorem sum_split (a b : Nat) (f : Nat → R) : ∑ x ∈ range (a * b), f x = ∑ i ∈ range a, ∑ j ∈ range b, f (i * b + j) := by
  induction a with
  | zero => simp
  | succ a ih => rw [Nat.succ_mul, sum_range_add, ih, sum_range_succ]

/-- An inner product with a tensor product. -/
theorem inner_tensor (a b : List R) (ha : a ≠ []) (hb : b ≠ []) (v : Nat → R) :
    ∑ x ∈ range (tensorProduct a b).length, v x * (tensorProduct a b).getD x 0
      = ∑ i ∈ range a.length, a.getD i 0 * ∑ j ∈ range b.length, v (i * b.length + j) * b.getD j 0 := by
  rw [tensorProduct_length a b ha hb, sum_split]
  apply sum_congr rfl
  intro i _
  rw [mul_sum]
  apply sum_congr rfl
  intro j hj
  rw [tensorProduct_getD a b ha hb (mem_range.1 hj)]
  ring

theorem calculateTz_length (c sp dpp xp : List R) (h1 : sp ≠ []) (h2 : dpp ≠ []) (h3 : xp ≠ []) :
    (calculateTz c sp dpp xp).length = 2 ^ c.length * sp.length * dpp.length * xp.length := by
  unfold calculateTz
  rw [tensorProduct_length _ _ (tensorProduct_ne _ _ (tensorProduct_ne _ _ (tensor_ne c) h1) h2) h3,
    tensorProduct_length _ _ (tensorProduct_ne _ _ (tensor_ne c) h1) h2, tensorProduct_length _ _ (tensor_ne c) h1, tensor_length]

/-- The inner product of `tau` with `t(z)` is the inner product of `tensor(c)` with the commitment to `h`. -/
theorem inner_tz (pr : PlusRing F R d) {A : Mat R} {k l : Nat} {inst : RgInstance F R} (hc : RgCommitted pr A k l inst)
    (c : List R) (sp : List (List R)) (hk : 1 ≤ k) (hl : 1 ≤ l) (hd : 1 ≤ d) (hspl : sp.length = k)
    (hsp : ∀ r ∈ sp, r.length = d) (N : Nat) (hN : 2 ^ c.length * k * d * l * d ≤ N) :
    inner N (inst.tau.map (algebraMap F R)) (calculateTz c sp.flatten (dPowers (F := F) R d l) (xPowers pr))
      = dot (tensor c) ((List.range A.nrows).map (combFn d inst.comMf sp)) := by
  have hfl : sp.flatten.length = k * d := by rw [flatten_length sp hsp, hspl]
  have n1 : sp.flatten ≠ [] := by
    rw [← List.length_pos_iff, hfl]
    exact Nat.mul_pos hk hd
  have hdl : (dPowers (F := F) R d l).length = l := by simp [dPowers]
  have n2 : dPowers (F := F) R d l ≠ [] := by rw [← List.length_pos_iff, hdl]; omega
  have hxl : (xPowers pr).length = d := by simp [xPowers]
  have n3 : xPowers pr ≠ [] := by rw [← List.length_pos_iff, hxl]; omega
  have hlen := calculateTz_length c sp.flatten (dPowers (F := F) R d l) (xPowers pr) n1 n2 n3
  rw [hfl, hdl, hxl, ← mul_assoc] at hlen
  set tau : Nat → R := fun x => algebraMap F R (inst.tau.getD x 0) with htau
  have htl : ∀ x, (inst.tau.map (algebraMap F R)).getD x 0 = tau x := by
    intro x
    by_cases hx : x < inst.tau.length
    · rw [getD_map_lt _ _ 0 0 hx]
    · rw [getD_out _ (by rw [List.length_map]; omega), htau]
      simp only
      rw [getD_out _ (by omega), map_zero]
  have e1 : inner N (inst.tau.map (algebraMap F R)) (calculateTz c sp.flatten (dPowers (F := F) R d l) (xPowers pr))
      = ∑ x ∈ range (calculateTz c sp.flatten (dPowers (F := F) R d l) (xPowers pr)).length,
        tau x * (calculateTz c sp.flatten (dPowers (F := F) R d l) (xPowers pr)).getD x 0 := by
    unfold inner
    obtain ⟨m, rfl⟩ : ∃ m, N = (calculateTz c sp.flatten (dPowers (F := F) R d l) (xPowers pr)).length + m :=
      Nat.exists_eq_add_of_le (by rw [hlen]; exact hN)
    rw [sum_range_add]
    rw [show ∑ x ∈ range m, (inst.tau.map (algebraMap F R)).getD ((calculateTz c sp.flatten (dPowers (F := F) R d l) (xPowers pr)).length + x) 0
      * (calculateTz c sp.flatten (dPowers (F := F) R d l) (xPowers pr)).getD
        ((calculateTz c sp.flatten (dPowers (F := F) R d l) (xPowers pr)).length + x) 0 = 0 from
      sum_eq_zero fun x _ => by rw [getD_out (calculateTz _ _ _ _) (by omega), mul_zero], add_zero]
    exact sum_congr rfl fun x _ => by rw [htl]
  rw [e1]
  unfold calculateTz
  rw [inner_tensor _ _ (tensorProduct_ne _ _ (tensorProduct_ne _ _ (tensor_ne c) n1) n2) n3, hxl]
  have e2 : ∀ (a : List R) (w : Nat → R), (∑ i ∈ range a.length, a.getD i 0 * w i) = ∑ i ∈ range a.length, w i * a.getD i 0 :=
    fun a w => sum_congr rfl fun i _ => mul_comm _ _
  rw [e2, inner_tensor _ _ (tensorProduct_ne _ _ (tensor_ne c) n1) n2, hdl, e2, inner_tensor _ _ (tensor_ne c) n1, hfl, tensor_length]
  rw [dot_eq_sum _ _ (2 ^ c.length) (Or.inl (tensor_length c).le)]
  apply sum_congr rfl
  intro i _
  congr 1
  rw [sum_split]
  -- the inner sums
  have e3 : ∀ κ < k, ∀ j < d, (∑ t ∈ range l, (∑ e ∈ range d, tau ((((i * (k * d) + (κ * d + j)) * l + t)) * d + e) * (xPowers pr).getD e 0)
      * (dPowers (F := F) R d l).getD t 0) * sp.flatten.getD (κ * d + j) 0
      = (if i < A.nrows then matEntry (comMat inst κ) i j else 0) * (sp.getD κ []).getD j 0 := by
    intro κ hκ j hj
    rw [flatten_getD 0 sp hsp κ hj]
    congr 1
    split_ifs with hi
    · rw [← hc.tauDigits i hi κ hκ j hj]
      apply sum_congr rfl
      intro t ht
      rw [sum_mul]
      apply sum_congr rfl
      intro e he
      unfold dPowers xPowers
      rw [getD_map_range _ _ (mem_range.1 ht), getD_map_range _ _ (mem_range.1 he), htau,
        show i * (k * d) + (κ * d + j) = (i * k + κ) * d + j by ring]
      ring
    · apply sum_eq_zero
      intro t _
      rw [sum_mul]
      apply sum_eq_zero
      intro e _
      have : A.nrows * k * d * l * d ≤ ((i * (k * d) + (κ * d + j)) * l + t) * d + e := by
        have h1 : A.nrows * k * d * l * d ≤ i * k * d * l * d := by gcongr; omega
        nlinarith [Nat.zero_le (κ * d * l * d), Nat.zero_le (j * l * d), Nat.zero_le (t * d), Nat.zero_le e]
      rw [htau]
      simp only
      rw [hc.tauZero _ this, map_zero, zero_mul, zero_mul]
  rw [sum_congr rfl fun κ hκ => sum_congr rfl fun j hj => e3 κ (mem_range.1 hκ) j (mem_range.1 hj)]
  by_cases hi : i < A.nrows
  · rw [getD_map_range _ _ hi]
    unfold combFn
    rw [hc.count]
    simp only [hi, if_true]
    rfl
  · rw [getD_out _ (by rw [List.length_map, List.length_range]; omega)]
    simp [hi]

/-! ### The claims of the verifier -/

theorem mapRes_zipIdx {α β : Type} (f : α × Nat → Res β) (l : List α) (g : Nat → β)
    (h : ∀ i (hi : i < l.length), f (l[i], i) = .ok (g i)) : mapRes f l.zipIdx = .ok ((List.range l.length).map g) := by
  rw [mapRes_ok (g := fun p : α × Nat => g p.2)]
  · congr 1
    apply List.ext_getElem
    · simp
    · intro i h1 h2
      simp
  · intro p hp
    obtain ⟨h1, h2⟩ := List.mem_zipIdx' hp
    rw [← h p.2 h1, ← h2]

/-- The vector `h` of an instance. -/
def hList (d nvars : Nat) (sp : List (List R)) (inst : RgInstance F R) : List R :=
  (List.range (2 ^ nvars)).map (combFn d inst.Mf sp)

/-- The four vectors of an instance. -/
def quadOf (d nvars : Nat) (sp : List (List R)) (inst : RgInstance F R) : Quad (List R) :=
  ⟨inst.tau.map (algebraMap F R), inst.mTau, inst.f, hList d nvars sp inst⟩

/-- What the commitment transformation needs of an instance: the shapes only. -/
structure CmShape (n k : Nat) (d : Nat) (inst : RgInstance F R) : Prop where
  flen : inst.f.length = n
  taulen : inst.tau.length = n
  mTaulen : inst.mTau.length = n
  count : inst.Mf.length = k
  shape : ∀ D ∈ inst.Mf, D.WF ∧ D.nrows = n ∧ D.ncols = d

theorem hList_getD {n k nvars : Nat} {inst : RgInstance F R} (h : CmShape n k d inst) (hn : n ≤ 2 ^ nvars) (sp : List (List R))
    (hl : sp.length = k) (hsp : ∀ r ∈ sp, r.length = d) (x : Nat) : (hList d nvars sp inst).getD x 0 = combFn d inst.Mf sp x := by
  by_cases hx : x < 2 ^ nvars
  · exact getD_map_range _ _ hx
  · have := (combineMats_ok (N := 2 ^ nvars) h.shape hn (by rw [hl, h.count]) hsp).2 x (by omega)
    rw [this, getD_out _ (by rw [hList, List.length_map, List.length_range]; omega)]

theorem quadOf_shape {n k nvars : Nat} {M : List (SpMat R)} {inst : RgInstance F R} (h : CmShape n k d inst) (hn : n ≤ 2 ^ nvars)
    (hM : MatsOK F nvars n M) (hpow : M ≠ [] → n = 2 ^ nvars) (sp : List (List R)) : QuadShape nvars M (quadOf d nvars sp inst) := by
  constructor
  · intro j
    rcases j with _ | _ | _ | j
    · change (inst.tau.map (algebraMap F R)).length ≤ _
      rw [List.length_map, h.taulen]; exact hn
    · change inst.mTau.length ≤ _
      rw [h.mTaulen]; exact hn
    · change inst.f.length ≤ _
      rw [h.flen]; exact hn
    · change (hList d nvars sp inst).length ≤ _
      simp [hList]
  · intro m hm
    obtain ⟨h1, h2, h3, _⟩ := hM m hm
    refine ⟨h1, h3, ?_⟩
    intro j
    rw [h2]
    rcases j with _ | _ | _ | j
    · change (inst.tau.map (algebraMap F R)).length = _
      rw [List.length_map, h.taulen]
    · exact h.mTaulen
    · exact h.flen
    · change (hList d nvars sp inst).length = _
      rw [hpow (List.ne_nil_of_mem hm)]
      simp [hList]

/-- Multiplication by a matrix is linear in the vector. -/
theorem mulVec_sum {ι : Type} (m : SpMat R) (s : Finset ι) (c : ι → R) (z : ι → List R) (w : List R)
    (h : ∀ j < m.ncols, w.getD j 0 = ∑ i ∈ s, (z i).getD j 0 * c i) (x : Nat) : mulVec m w x = ∑ i ∈ s, mulVec m (z i) x * c i := by
  unfold mulVec
  simp only [sum_mul]
  rw [sum_comm]
  apply sum_congr rfl
  intro j hj
  rw [h j (mem_range.1 hj), mul_sum]
  apply sum_congr rfl
  intro i _
  ring

theorem mle_sum_mul {ι : Type} (s : Finset ι) (f : ι → Nat → R) (c : ι → R) (p : List R) :
    mle (fun x => ∑ i ∈ s, f i x * c i) p = ∑ i ∈ s, mle (f i) p * c i := by
  rw [mle_sum]
  apply sum_congr rfl
  intro i _
  rw [mul_comm, ← mle_smul]
  apply mle_congr
  intro x _
  ring

/-- Column `j` of a dense matrix. -/
def colOf (D : Mat R) (j : Nat) : List R := (List.range D.nrows).map fun i => matEntry D i j

theorem colOf_getD {D : Mat R} (hD : D.WF) (j x : Nat) : (colOf D j).getD x 0 = matEntry D x j := by
  by_cases hx : x < D.nrows
  · exact getD_map_range _ _ hx
  · rw [getD_out _ (by rw [colOf, List.length_map, List.length_range]; omega)]
    unfold matEntry
    have : D.vals.length ≤ x := by rw [hD.1]; omega
    simp [List.getD_eq_getElem?_getD, List.getElem?_eq_none this]

theorem rowFn_h {n k nvars : Nat} {M : List (SpMat R)} {inst : RgInstance F R} (h : CmShape n k d inst) (hn : n ≤ 2 ^ nvars)
    (sp : List (List R)) (hl : sp.length = k) (hsp : ∀ r ∈ sp, r.length = d) (i : Nat) (p : List R) :
    mle (rowFn M i (hList d nvars sp inst)) p
      = ∑ κ ∈ range k, ∑ j ∈ range d, mle (rowFn M i (colOf (digitMat inst κ) j)) p * (sp.getD κ []).getD j 0 := by
  have hg := hList_getD h hn sp hl hsp
  have hwf : ∀ κ < k, (digitMat inst κ).WF := by
    intro κ hκ
    unfold digitMat
    have : κ < inst.Mf.length := by rw [h.count]; exact hκ
    rw [show inst.Mf.getD κ ⟨0, 0, []⟩ = inst.Mf[κ] by simp [List.getD_eq_getElem?_getD, this]]
    exact (h.shape _ (List.getElem_mem _)).1
  rw [show (∑ κ ∈ range k, ∑ j ∈ range d, mle (rowFn M i (colOf (digitMat inst κ) j)) p * (sp.getD κ []).getD j 0)
    = ∑ q ∈ range k ×ˢ range d, mle (rowFn M i (colOf (digitMat inst q.1) q.2)) p * (sp.getD q.1 []).getD q.2 0 by rw [sum_product],
    ← mle_sum_mul]
  apply mle_congr
  intro x _
  have key : ∀ x, (hList d nvars sp inst).getD x 0
      = ∑ q ∈ range k ×ˢ range d, (colOf (digitMat inst q.1) q.2).getD x 0 * (sp.getD q.1 []).getD q.2 0 := by
    intro x
    rw [hg, combFn, h.count, sum_product]
    apply sum_congr rfl
    intro κ hκ
    apply sum_congr rfl
    intro j _
    rw [colOf_getD (hwf κ (mem_range.1 hκ))]
    rfl
  cases i with
  | zero => exact key x
  | succ i => exact mulVec_sum _ _ _ _ _ (fun j _ => key j) x

theorem uOf_ok {n k nvars : Nat} {M : List (SpMat R)} {insts : List (RgInstance F R)} (h : ∀ inst ∈ insts, CmShape n k d inst)
    (hn : n ≤ 2 ^ nvars) (sp : List (List R)) (hl : sp.length = k) (hsp : ∀ r ∈ sp, r.length = d) (r : List R) {l : Nat}
    (hll : l < insts.length) :
    uOf k sp.flatten (columnsAt M r d insts) l
      = (List.range (1 + M.length)).map fun i => mle (rowFn M i (hList d nvars sp insts[l])) r := by
  have hin := h _ (List.getElem_mem hll)
  have hwf : ∀ D ∈ insts[l].Mf, D.WF := fun D hD => (hin.shape D hD).1
  have key : ∀ g : Mat R → List R, (∀ D, (g D).length = d) →
      (List.zipWith (· * ·) ((((insts.flatMap fun inst => inst.Mf.map g)).drop (l * k)).take k).flatten sp.flatten).sum
      = ∑ κ ∈ range k, ∑ j ∈ range d, (g (digitMat insts[l] κ)).getD j 0 * (sp.getD κ []).getD j 0 := by
    intro g hg
    rw [mul_comm l k, block_take (fun inst : RgInstance F R => inst.Mf.map g) k insts (fun a ha => by
      rw [List.length_map, (h a ha).count]) l hll]
    change dot _ _ = _
    have hgl : ∀ x ∈ insts[l].Mf.map g, x.length = d := by
      intro x hx
      obtain ⟨D, _, rfl⟩ := List.mem_map.1 hx
      exact hg D
    rw [dot_eq_sum _ _ (k * d) (Or.inr (by rw [flatten_length sp hsp, hl])), sum_split]
    apply sum_congr rfl
    intro κ hκ
    apply sum_congr rfl
    intro j hj
    rw [flatten_getD 0 _ hgl κ (mem_range.1 hj), flatten_getD 0 sp hsp κ (mem_range.1 hj),
      getD_map_lt g _ ⟨0, 0, []⟩ [] (by rw [hin.count]; exact mem_range.1 hκ)]
    rfl
  unfold uOf columnsAt
  rw [add_comm 1 M.length, List.range_succ_eq_map, List.map_cons, List.map_cons, List.map_map, List.map_map]
  have hdwf : ∀ κ < k, (digitMat insts[l] κ).WF := by
    intro κ hκ
    unfold digitMat
    have : κ < insts[l].Mf.length := by rw [hin.count]; exact hκ
    rw [show insts[l].Mf.getD κ ⟨0, 0, []⟩ = insts[l].Mf[κ] by simp [List.getD_eq_getElem?_getD, this]]
    exact hwf _ (List.getElem_mem _)
  congr 1
  · rw [key _ (fun D => by simp), rowFn_h hin hn sp hl hsp]
    apply sum_congr rfl
    intro κ hκ
    apply sum_congr rfl
    intro j hj
    rw [getD_map_range _ _ (mem_range.1 hj)]
    congr 1
    apply mle_congr
    intro x _
    exact (colOf_getD (hdwf κ (mem_range.1 hκ)) j x).symm
  · apply List.ext_getElem
    · simp
    · intro i h1 h2
      have hi : i < M.length := by simpa using h1
      have : M.getD i ⟨0, 0, []⟩ = M[i] := by simp [List.getD_eq_getElem?_getD, hi]
      simp only [List.getElem_map, List.getElem_range, Function.comp]
      rw [key _ (fun D => by simp), rowFn_h hin hn sp hl hsp]
      apply sum_congr rfl
      intro κ hκ
      apply sum_congr rfl
      intro j hj
      rw [getD_map_range _ _ (mem_range.1 hj)]
      simp only [rowFn, this]
      rfl

/-- The products of `tau` with a matrix over the base field evaluate to elements of the base field. -/
theorem tau_row (pr : PlusRing F R d) {nvars n : Nat} {M : List (SpMat R)} (hM : MatsOK F nvars n M) (inst : RgInstance F R) (r : List F)
    {i : Nat} (hi : i < 1 + M.length) :
    algebraMap F R ((evalsAt pr M r inst).a.getD i 0) = mle (rowFn M i (inst.tau.map (algebraMap F R))) (r.map (algebraMap F R)) := by
  have htl : ∀ x, (inst.tau.map (algebraMap F R)).getD x 0 = algebraMap F R (inst.tau.getD x 0) := by
    intro x
    by_cases hx : x < inst.tau.length
    · rw [getD_map_lt _ _ 0 0 hx]
    · rw [getD_out _ (by rw [List.length_map]; omega), getD_out _ (by omega), map_zero]
  cases i with
  | zero =>
    change algebraMap F R (mle (fun i => inst.tau.getD i 0) r) = _
    rw [← mle_map]
    apply mle_congr
    intro x _
    exact (htl x).symm
  | succ i =>
    have hi' : i < M.length := by omega
    have e : M.getD i ⟨0, 0, []⟩ = M[i] := by simp [List.getD_eq_getElem?_getD, hi']
    have hs := (hM _ (List.getElem_mem hi')).2.2.2
    choose c hc using fun x j => scalar_entry (F := F) hs x j
    have e2 : mle (mulVec M[i] (inst.tau.map (algebraMap F R))) (r.map (algebraMap F R))
        = algebraMap F R (mle (fun x => ∑ j ∈ range M[i].ncols, c x j * inst.tau.getD j 0) r) := by
      rw [← mle_map]
      apply mle_congr
      intro x _
      unfold mulVec
      rw [map_sum]
      apply sum_congr rfl
      intro j _
      rw [htl, hc, map_mul]
    change algebraMap F R ((M.map fun m => pr.ct (mle (mulVec m (inst.tau.map (algebraMap F R))) (r.map (algebraMap F R)))).getD i 0) = _
    rw [getD_map_lt _ _ ⟨0, 0, []⟩ 0 hi', e]
    unfold rowFn
    simp only [e]
    rw [e2, ct_algebraMap]

theorem claimOne_ok (pr : PlusRing F R d) {nvars n : Nat} {M : List (SpMat R)} (hM : MatsOK F nvars n M) (inst : RgInstance F R) (r : List F)
    (ev : DcomEvals F R) (ha : ev.a = (evalsAt pr M r inst).a) (hb : ev.b = (evalsAt pr M r inst).b) (hc : ev.c = (evalsAt pr M r inst).c)
    (sp : List (List R)) (zi : Nat) (rc : R) (us : List (List R)) (tc0 tc1 : List R) (l : Nat) (hu : l < us.length)
    (hul : us.getD l [] = (List.range (1 + M.length)).map fun i => mle (rowFn M i (hList d nvars sp inst)) (r.map (algebraMap F R)))
    (h0 : l < tc0.length) (h1 : l < tc1.length) :
    claimOne M.length zi rc us tc0 tc1 (ev, l) = .ok (quadSum M.length rc l
      (fun i j => mle (rowFn M i ((quadOf d nvars sp inst).comp j)) (r.map (algebraMap F R))) + tc0.getD l 0 * rc ^ zi + tc1.getD l 0 * rc ^ (zi + 1)) := by
  unfold claimOne
  simp only
  rw [idx_getD [] hu, bind_ok', hul]
  have hal : ev.a.length = 1 + M.length := by rw [ha]; simp [evalsAt, add_comm]
  have hbl : ev.b.length = 1 + M.length := by rw [hb]; simp [evalsAt, add_comm]
  have hcl : ev.c.length = 1 + M.length := by rw [hc]; simp [evalsAt, add_comm]
  rw [mapRes_ok (g := fun i => ∑ j ∈ range 4, mle (rowFn M i ((quadOf d nvars sp inst).comp j)) (r.map (algebraMap F R))
    * rc ^ (l * (4 + 4 * M.length) + 4 * i + j)) (by
    intro i hi
    have hi' := List.mem_range.1 hi
    rw [idx_getD 0 (by omega), bind_ok', idx_getD 0 (by omega), bind_ok', idx_getD 0 (by omega), bind_ok',
      idx_getD 0 (by simpa using hi'), bind_ok', getD_map_range _ _ hi', ha, tau_row pr hM inst r hi']
    have eb : ev.b.getD i 0 = mle (rowFn M i inst.mTau) (r.map (algebraMap F R)) := by
      rw [hb]
      cases i with
      | zero => rfl
      | succ i =>
        have hi'' : i < M.length := by omega
        change (M.map fun m => mle (mulVec m inst.mTau) (r.map (algebraMap F R))).getD i 0 = _
        rw [getD_map_lt _ _ ⟨0, 0, []⟩ 0 hi'']
        rfl
    have ec : ev.c.getD i 0 = mle (rowFn M i inst.f) (r.map (algebraMap F R)) := by
      rw [hc]
      cases i with
      | zero => rfl
      | succ i =>
        have hi'' : i < M.length := by omega
        change (M.map fun m => mle (mulVec m inst.f) (r.map (algebraMap F R))).getD i 0 = _
        rw [getD_map_lt _ _ ⟨0, 0, []⟩ 0 hi'']
        rfl
    rw [eb, ec]
    congr 1
    exact (claimQuad_eq rc (evalQ M (r.map (algebraMap F R)) i (quadOf d nvars sp inst)) _).trans
      (sum_congr rfl fun j _ => by rw [evalQ_comp])), bind_ok', idx_getD 0 h0, bind_ok', idx_getD 0 h1, bind_ok', sum_map_range']
  rfl

theorem evalOne_ok (M : List (SpMat R)) (ro : List R) (q : Quad (List R)) (zi : Nat) (rc eq t0 t1 : R) (l : Nat) :
    evalOne M.length zi rc eq t0 t1 (evalsQ M ro q, l) = .ok (eq * quadSum M.length rc l (fun i j => mle (rowFn M i (q.comp j)) ro)
      + mle (rowFn M 0 (q.comp 0)) ro * t0 * rc ^ zi + mle (rowFn M 0 (q.comp 0)) ro * t1 * rc ^ (zi + 1)) := by
  unfold evalOne
  simp only
  have hlen : (evalsQ M ro q).length = 1 + M.length := by simp [evalsQ]
  have hget : ∀ i < 1 + M.length, (evalsQ M ro q).getD i ⟨0, 0, 0, 0⟩ = evalQ M ro i q := fun i hi => getD_range_any _ _ hi
  rw [mapRes_ok (g := fun i => ∑ j ∈ range 4, mle (rowFn M i (q.comp j)) ro * rc ^ (l * (4 + 4 * M.length) + 4 * i + j)) (by
    intro i hi
    have hi' := List.mem_range.1 hi
    rw [idx_getD ⟨0, 0, 0, 0⟩ (by omega), bind_ok', hget i hi', claimQuad_eq]
    exact congrArg _ (sum_congr rfl fun j _ => by rw [evalQ_comp])), bind_ok', idx_getD ⟨0, 0, 0, 0⟩ (by omega), bind_ok', hget 0 (by omega), sum_map_range']
  congr 1
  change eq * quadSum M.length rc l _ + t0 * mle (rowFn M 0 (q.comp 0)) ro * rc ^ zi + t1 * mle (rowFn M 0 (q.comp 0)) ro * rc ^ (zi + 1) = _
  ring

/-! ### One sum-check, prover and verifier -/

/-- The part of the proof of the range check that the commitment transformation relies on. -/
structure DcomOK (pr : PlusRing F R d) (nvars : Nat) (M : List (SpMat R)) (insts : List (RgInstance F R)) (dcom : Dcom F R) : Prop where
  nv : dcom.out.nvars = nvars
  rlen : dcom.out.r.length = nvars
  e : dcom.out.e = columnsAt M (dcom.out.r.map (algebraMap F R)) d insts
  len : dcom.evals.length = insts.length
  abc : ∀ l (h : l < insts.length) (h' : l < dcom.evals.length), dcom.evals[l].a = (evalsAt pr M dcom.out.r insts[l]).a ∧
    dcom.evals[l].b = (evalsAt pr M dcom.out.r insts[l]).b ∧ dcom.evals[l].c = (evalsAt pr M dcom.out.r insts[l]).c
  fcoms : dcom.fcoms = insts.map (·.fcoms)

/-- The sum-check is accepted as soon as the claims about the inner products are true in sum over all instances. -/
theorem cm_sumcheck_sum_ok (pr : PlusRing F R d) (T : Transcript F R σ) (s : σ) {nvars n k : Nat} {M : List (SpMat R)}
    {insts : List (RgInstance F R)} {dcom : Dcom F R} (hd : DcomOK pr nvars M insts dcom) (hnv : 1 ≤ nvars) (hn : n ≤ 2 ^ nvars)
    (hc : CharGt F 2) (hM : MatsOK F nvars n M) (hpow : M ≠ [] → n = 2 ^ nvars) (h : ∀ inst ∈ insts, CmShape n k d inst)
    (sp : List (List R)) (hl : sp.length = k) (hsp : ∀ r ∈ sp, r.length = d) (tz0 tz1 : List R) (h0 : tz0.length ≤ n) (h1 : tz1.length ≤ n)
    (tc0 tc1 : List R)
    (hcl0 : tc0.length = insts.length) (hcl1 : tc1.length = insts.length)
    (hc0 : tc0.sum = (insts.map fun inst => inner (2 ^ nvars) (inst.tau.map (algebraMap F R)) tz0).sum)
    (hc1 : tc1.sum = (insts.map fun inst => inner (2 ^ nvars) (inst.tau.map (algebraMap F R)) tz1).sum) :
    ∃ proof ro s', ro.length = nvars ∧
      sumchecker T s nvars dcom.out.r (insts.map fun inst => (quadOf d nvars sp inst).list) (tz0 ++ List.replicate (n - tz0.length) 0)
          (tz1 ++ List.replicate (n - tz1.length) 0) M
        = .ok ((proof, insts.map (fun inst => evalsQ M ro (quadOf d nvars sp inst)), ro), s') ∧
      cmVerifySumcheck T s dcom insts.length M.length ((List.range insts.length).map (uOf k sp.flatten dcom.out.e)) tc0 tc1 tz0 tz1 proof
        (insts.map (fun inst => evalsQ M ro (quadOf d nvars sp inst))) = .ok (ro, s') := by
  have hpad : ∀ (t : List R) (m x : Nat), (t ++ List.replicate m 0).getD x 0 = t.getD x 0 := by
    intro t m x
    by_cases hx : x < t.length
    · rw [List.getD_append _ _ _ _ hx]
    · rw [List.getD_append_right _ _ _ _ (by omega), getD_out t (by omega)]
      simp only [List.getD_eq_getElem?_getD, List.getElem?_replicate]
      split_ifs <;> rfl
  have hpl : ∀ t : List R, t.length ≤ n → (t ++ List.replicate (n - t.length) 0).length ≤ 2 ^ nvars := by
    intro t ht
    rw [List.length_append, List.length_replicate]
    omega
  obtain ⟨proof, sc, s2, r1, r2, r3, r4⟩ := sumchecker_run T s nvars dcom.out.r M (insts.map (quadOf d nvars sp))
    (tz0 ++ List.replicate (n - tz0.length) 0) (tz1 ++ List.replicate (n - tz1.length) 0) hnv hd.rlen hc (by
      intro q hq
      obtain ⟨inst, hi, rfl⟩ := List.mem_map.1 hq
      exact quadOf_shape (h inst hi) hn hM hpow sp) (fun m hm => (hM m hm).1) (hpl _ h0) (hpl _ h1)
  have hqa : ∀ l (hl : l < insts.length), quadAt (insts.map (quadOf d nvars sp)) l = quadOf d nvars sp insts[l] := by
    intro l hl
    simp [quadAt, List.getD_eq_getElem?_getD, hl]
  have hev : (insts.map (quadOf d nvars sp)).map (evalsQ M (sc.point.map (algebraMap F R)))
      = insts.map (fun inst => evalsQ M (sc.point.map (algebraMap F R)) (quadOf d nvars sp inst)) := by rw [List.map_map]; rfl
  rw [hev] at r1
  have hlists : (insts.map (quadOf d nvars sp)).map Quad.list = insts.map fun inst => (quadOf d nvars sp inst).list := by
    rw [List.map_map]; rfl
  rw [hlists] at r1
  have hrl : (sc.point.map (algebraMap F R)).length = nvars := by rw [List.length_map, r2]
  refine ⟨proof, sc.point.map (algebraMap F R), _, hrl, r1, ?_⟩
  unfold cmVerifySumcheck
  rcases hch : T.challenge s with ⟨rc, s1⟩
  rw [hch] at r3 r4
  simp only at r3 r4 ⊢
  rw [List.length_map] at r3 r4
  have hcs : mapRes (claimOne M.length (insts.length * (4 + 4 * M.length)) (algebraMap F R rc)
      ((List.range insts.length).map (uOf k sp.flatten dcom.out.e)) tc0 tc1) dcom.evals.zipIdx
      = .ok ((List.range dcom.evals.length).map fun l => quadSum M.length (algebraMap F R rc) l
        (fun i j => mle (rowFn M i ((quadAt (insts.map (quadOf d nvars sp)) l).comp j)) (dcom.out.r.map (algebraMap F R)))
        + tc0.getD l 0 * (algebraMap F R rc) ^ (insts.length * (4 + 4 * M.length))
        + tc1.getD l 0 * (algebraMap F R rc) ^ (insts.length * (4 + 4 * M.length) + 1)) := by
    apply mapRes_zipIdx
    intro l hll
    have hl' : l < insts.length := by rw [← hd.len]; exact hll
    obtain ⟨ha, hb, hc'⟩ := hd.abc l hl' hll
    rw [hqa l hl']
    apply claimOne_ok pr hM insts[l] dcom.out.r _ ha hb hc' sp
    · simpa using hl'
    · rw [getD_range_any _ _ hl', hd.e, uOf_ok h hn sp hl hsp _ hl']
    · rw [hcl0]; exact hl'
    · rw [hcl1]; exact hl'
  rw [hcs, bind_ok', sum_map_range', hd.len]
  have hclaim : (∑ l ∈ range insts.length, (quadSum M.length (algebraMap F R rc) l
        (fun i j => mle (rowFn M i ((quadAt (insts.map (quadOf d nvars sp)) l).comp j)) (dcom.out.r.map (algebraMap F R)))
        + tc0.getD l 0 * (algebraMap F R rc) ^ (insts.length * (4 + 4 * M.length))
        + tc1.getD l 0 * (algebraMap F R rc) ^ (insts.length * (4 + 4 * M.length) + 1)))
      = cmClaim insts.length M.length (algebraMap F R rc)
        (fun l i j => mle (rowFn M i ((quadAt (insts.map (quadOf d nvars sp)) l).comp j)) (dcom.out.r.map (algebraMap F R)))
        (fun l => inner (2 ^ nvars) (quadAt (insts.map (quadOf d nvars sp)) l).a (tz0 ++ List.replicate (n - tz0.length) 0))
        (fun l => inner (2 ^ nvars) (quadAt (insts.map (quadOf d nvars sp)) l).a (tz1 ++ List.replicate (n - tz1.length) 0)) := by
    have hin : ∀ (l : Nat), l < insts.length → ∀ t : List R, inner (2 ^ nvars) (quadAt (insts.map (quadOf d nvars sp)) l).a (t ++ List.replicate (n - t.length) 0)
        = (insts.map fun inst => inner (2 ^ nvars) (inst.tau.map (algebraMap F R)) t).getD l 0 := by
      intro l hl' t
      rw [hqa l hl', show (insts.map fun inst => inner (2 ^ nvars) (inst.tau.map (algebraMap F R)) t).getD l 0
        = inner (2 ^ nvars) (insts[l].tau.map (algebraMap F R)) t by simp [List.getD_eq_getElem?_getD, hl']]
      unfold inner
      exact sum_congr rfl fun x _ => by rw [hpad]; rfl
    have hs : ∀ (t : List R), t.length = insts.length → t.sum = ∑ l ∈ range insts.length, t.getD l 0 := by
      intro t ht
      rw [← ht, ← sum_map_range']
      congr 1
      apply List.ext_getElem
      · simp
      · intro i h1 h2
        simp [List.getD_eq_getElem?_getD, h1]
    unfold cmClaim
    rw [sum_add_distrib, sum_add_distrib, sum_add_distrib, sum_add_distrib, ← sum_mul, ← sum_mul, ← sum_mul, ← sum_mul, ← hs tc0 hcl0,
      ← hs tc1 hcl1, hc0, hc1, hs _ (by simp), hs _ (by simp)]
    rw [sum_congr rfl fun l hl' => (hin l (mem_range.1 hl') tz0).symm, sum_congr rfl fun l hl' => (hin l (mem_range.1 hl') tz1).symm]
  rw [hclaim, hd.nv, r3]
  simp only [unwrapRes, bind_ok']
  rw [evalVec_ok nvars tz0 _ (h0.trans hn) hrl, bind_ok', evalVec_ok nvars tz1 _ (h1.trans hn) hrl, bind_ok',
    eqEval_ok _ _ (by rw [List.length_map, hd.rlen, hrl])]
  simp only [bind_ok']
  rw [mapRes_zipIdx _ _ (fun l => eqPoly (dcom.out.r.map (algebraMap F R)) (sc.point.map (algebraMap F R))
      * quadSum M.length (algebraMap F R rc) l
        (fun i j => mle (rowFn M i ((quadAt (insts.map (quadOf d nvars sp)) l).comp j)) (sc.point.map (algebraMap F R)))
      + mle (rowFn M 0 ((quadAt (insts.map (quadOf d nvars sp)) l).comp 0)) (sc.point.map (algebraMap F R))
        * mle (fun i => tz0.getD i 0) (sc.point.map (algebraMap F R)) * (algebraMap F R rc) ^ (insts.length * (4 + 4 * M.length))
      + mle (rowFn M 0 ((quadAt (insts.map (quadOf d nvars sp)) l).comp 0)) (sc.point.map (algebraMap F R))
        * mle (fun i => tz1.getD i 0) (sc.point.map (algebraMap F R)) * (algebraMap F R rc) ^ (insts.length * (4 + 4 * M.length) + 1)) (by
    intro l hll
    have hl' : l < insts.length := by simpa using hll
    rw [List.getElem_map, hqa l hl']
    exact evalOne_ok M _ _ _ _ _ _ _ _), bind_ok', sum_map_range', List.length_map, if_pos]
  rw [r4]
  unfold cmValue
  simp only [hpad]

theorem cm_sumcheck_ok (pr : PlusRing F R d) (T : Transcript F R σ) (s : σ) {nvars n k : Nat} {M : List (SpMat R)}
    {insts : List (RgInstance F R)} {dcom : Dcom F R} (hd : DcomOK pr nvars M insts dcom) (hnv : 1 ≤ nvars) (hn : n ≤ 2 ^ nvars)
    (hc : CharGt F 2) (hM : MatsOK F nvars n M) (hpow : M ≠ [] → n = 2 ^ nvars) (h : ∀ inst ∈ insts, CmShape n k d inst)
    (sp : List (List R)) (hl : sp.length = k) (hsp : ∀ r ∈ sp, r.length = d) (tz0 tz1 : List R) (h0 : tz0.length ≤ n) (h1 : tz1.length ≤ n)
    (tc0 tc1 : List R)
    (hc0 : tc0 = insts.map fun inst => inner (2 ^ nvars) (inst.tau.map (algebraMap F R)) tz0)
    (hc1 : tc1 = insts.map fun inst => inner (2 ^ nvars) (inst.tau.map (algebraMap F R)) tz1) :
    ∃ proof ro s', ro.length = nvars ∧
      sumchecker T s nvars dcom.out.r (insts.map fun inst => (quadOf d nvars sp inst).list) (tz0 ++ List.replicate (n - tz0.length) 0)
          (tz1 ++ List.replicate (n - tz1.length) 0) M
        = .ok ((proof, insts.map (fun inst => evalsQ M ro (quadOf d nvars sp inst)), ro), s') ∧
      cmVerifySumcheck T s dcom insts.length M.length ((List.range insts.length).map (uOf k sp.flatten dcom.out.e)) tc0 tc1 tz0 tz1 proof
        (insts.map (fun inst => evalsQ M ro (quadOf d nvars sp inst))) = .ok (ro, s') := by
  apply cm_sumcheck_sum_ok pr T s hd hnv hn hc hM hpow h sp hl hsp tz0 tz1 h0 h1 tc0 tc1
  · rw [hc0, List.length_map]
  · rw [hc1, List.length_map]
  · rw [hc0]
  · rw [hc1]

/-! ### The folded witness -/

theorem map_alg_getD (tau : List F) (x : Nat) : (tau.map (algebraMap F R)).getD x 0 = algebraMap F R (tau.getD x 0) := by
  by_cases hx : x < tau.length
  · rw [getD_map_lt _ _ 0 0 hx]
  · rw [getD_out _ (by rw [List.length_map]; omega), getD_out _ (by omega), map_zero]

theorem zip_self_map {α β : Type} (f : α → β) (l : List α) : l.zip (l.map f) = l.map fun a => (a, f a) := by
  induction l with
  | nil => rfl
  | cons a l ih => simp [ih]

theorem zip4_map {α β γ δ ε : Type} (f : α → β → γ → δ → ε) (a : List α) (b : List β) (c : List γ) (h : List δ) (n : Nat)
    (ha : a.length = n) (hb : b.length = n) (hc : c.length = n) (hh : n ≤ h.length) (da : α) (db : β) (dc : γ) (dh : δ) :
    ((((a.zip b).zip c).zip h).map fun p => f p.1.1.1 p.1.1.2 p.1.2 p.2)
      = (List.range n).map fun x => f (a.getD x da) (b.getD x db) (c.getD x dc) (h.getD x dh) := by
  apply List.ext_getElem
  · simp [ha, hb, hc, hh]
  · intro i h1 h2
    have hi : i < n := by simpa using h2
    have e1 : i < a.length := by omega
    have e2 : i < b.length := by omega
    have e3 : i < c.length := by omega
    have e4 : i < h.length := by omega
    simp [List.getD_eq_getElem?_getD, e1, e2, e3, e4]

theorem foldG_eq {n k nvars : Nat} {inst : RgInstance F R} (h : CmShape n k d inst) (hn : n ≤ 2 ^ nvars) (sp : List (List R))
    (hl : sp.length = k) (hsp : ∀ r ∈ sp, r.length = d) (s0 s1 s2 : R) :
    foldG s0 s1 s2 inst (hList d nvars sp inst) = (List.range n).map (foldedEntry d s0 s1 s2 sp inst) := by
  unfold foldG
  rw [zip4_map (fun a b c h => s0 * algebraMap F R a + s1 * b + s2 * c + h) inst.tau inst.mTau inst.f (hList d nvars sp inst) n
    h.taulen h.mTaulen h.flen (by simpa [hList] using hn) 0 0 0 0]
  apply List.map_congr_left
  intro x _
  rw [hList_getD h hn sp hl hsp]
  rfl

theorem folded_out {n k : Nat} {inst : RgInstance F R} (h : CmShape n k d inst) (sp : List (List R))
    (hl : sp.length = k) (hsp : ∀ r ∈ sp, r.length = d) (s0 s1 s2 : R) (x : Nat) (hx : n ≤ x) :
    foldedEntry d s0 s1 s2 sp inst x = 0 := by
  unfold foldedEntry
  have := (combineMats_ok (N := n) h.shape le_rfl (by rw [hl, h.count]) hsp).2 x hx
  unfold combFn at this
  rw [getD_out inst.tau (by rw [h.taulen]; exact hx), getD_out inst.mTau (by rw [h.mTaulen]; exact hx),
    getD_out inst.f (by rw [h.flen]; exact hx)]
  unfold digitMat
  rw [this]
  simp

/-- Evaluations of the folded witness. -/
theorem foldQuad_eq {n k nvars : Nat} {M : List (SpMat R)} {inst : RgInstance F R} (h : CmShape n k d inst) (hn : n ≤ 2 ^ nvars) (sp : List (List R))
    (hl : sp.length = k) (hsp : ∀ r ∈ sp, r.length = d) (s0 s1 s2 : R) (i : Nat) (p : List R) :
    foldQuad s0 s1 s2 (evalQ M p i (quadOf d nvars sp inst))
      = mle (rowFn M i ((List.range n).map (foldedEntry d s0 s1 s2 sp inst))) p := by
  have hg : ∀ x, ((List.range n).map (foldedEntry d s0 s1 s2 sp inst)).getD x 0
      = s0 * (inst.tau.map (algebraMap F R)).getD x 0 + s1 * inst.mTau.getD x 0 + s2 * inst.f.getD x 0 + (hList d nvars sp inst).getD x 0 := by
    intro x
    have : ((List.range n).map (foldedEntry d s0 s1 s2 sp inst)).getD x 0 = foldedEntry d s0 s1 s2 sp inst x := by
      by_cases hx : x < n
      · exact getD_map_range _ _ hx
      · rw [getD_out _ (by simpa using not_lt.1 hx), folded_out h sp hl hsp s0 s1 s2 x (not_lt.1 hx)]
    rw [this, map_alg_getD, hList_getD h hn sp hl hsp]
    rfl
  have hrow : ∀ x, rowFn M i ((List.range n).map (foldedEntry d s0 s1 s2 sp inst)) x
      = s0 * rowFn M i (inst.tau.map (algebraMap F R)) x + s1 * rowFn M i inst.mTau x + s2 * rowFn M i inst.f x
        + rowFn M i (hList d nvars sp inst) x := by
    intro x
    cases i with
    | zero => exact hg x
    | succ i =>
      unfold rowFn mulVec
      simp only [mul_sum, ← sum_add_distrib]
      apply sum_congr rfl
      intro j _
      rw [hg]
      ring
  rw [mle_congr (fun x _ => hrow x), mle_add, mle_add, mle_add, mle_smul, mle_smul, mle_smul]
  rfl

/-- The commitment to the folded witness. -/
theorem foldCm_eq (pr : PlusRing F R d) {n k l : Nat} {A : Mat R} {inst : RgInstance F R} (h : CmShape n k d inst)
    (hc : RgCommitted pr A k l inst) (hf : inst.fcoms.cmF = commit A inst.f) (hA : A.ncols = n) (sp : List (List R))
    (s0 s1 s2 : R) :
    foldCm s0 s1 s2 inst.fcoms ((List.range A.nrows).map (combFn d inst.comMf sp))
      = commit A ((List.range n).map (foldedEntry d s0 s1 s2 sp inst)) := by
  unfold foldCm
  rw [hc.tauComs.1, hc.tauComs.2, hf,
    zip4_map (fun a b c h => s0 * a + s1 * b + s2 * c + h) _ _ _ _ A.nrows (by simp [commit]) (by simp [commit]) (by simp [commit])
      (by simp) 0 0 0 0]
  unfold commit
  apply List.map_congr_left
  intro i hi
  have hi' := List.mem_range.1 hi
  rw [getD_map_range _ _ hi', getD_map_range _ _ hi', getD_map_range _ _ hi', getD_map_range _ _ hi']
  have hcomb : combFn d inst.comMf sp i = ∑ x ∈ range A.ncols, matEntry A i x * combFn d inst.Mf sp x := by
    unfold combFn
    rw [hc.count, h.count]
    simp only [mul_sum]
    symm
    rw [sum_comm]
    apply sum_congr rfl
    intro κ hκ
    rw [sum_comm]
    apply sum_congr rfl
    intro j hj
    have := hc.product κ (mem_range.1 hκ) i hi' j (mem_range.1 hj)
    unfold comMat at this
    rw [this, sum_mul]
    apply sum_congr rfl
    intro x _
    unfold digitMat
    ring
  rw [hcomb, mul_sum, mul_sum, mul_sum, ← sum_add_distrib, ← sum_add_distrib, ← sum_add_distrib]
  apply sum_congr rfl
  intro x hx
  rw [getD_map_range _ _ (by rw [← hA]; exact mem_range.1 hx), map_alg_getD]
  unfold foldedEntry combFn digitMat
  ring

/-! ### Everything -/

/-- The instances, matrices and parameters of a run of the commitment transformation. -/
structure CmInput (pr : PlusRing F R d) (T : Transcript F R σ) (A : Mat R) (n : Nat) (rg : Rg F R) (M : List (SpMat R)) : Prop where
  deg : 3 ≤ d
  bytes : BytesOK T
  nv : 1 ≤ rg.nvars
  nle : n ≤ 2 ^ rg.nvars
  char : CharGt F 2
  k : 1 ≤ rg.dparams.k
  l : 1 ≤ rg.dparams.l
  ne : rg.instances ≠ []
  shape : ∀ inst ∈ rg.instances, CmShape n rg.dparams.k d inst
  com : ∀ inst ∈ rg.instances, RgCommitted pr A rg.dparams.k rg.dparams.l inst
  cmF : ∀ inst ∈ rg.instances, inst.fcoms.cmF = commit A inst.f
  Acols : A.ncols = n
  mats : MatsOK F rg.nvars n M
  pow : M ≠ [] → n = 2 ^ rg.nvars
  size : 2 ^ Nat.clog 2 A.nrows * rg.dparams.k * d * rg.dparams.l * d ≤ n

/-- The challenges of the fold are drawn from the transcript in state `st`: first the three factors, then the `k` rows. -/
def ChallengesFrom (pr : PlusRing F R d) (T : Transcript F R σ) (k : Nat) (st : σ) (s0 s1 s2 : R) (sp : List (List R)) : Prop :=
  ∃ st1 st2, shortChallenges pr T 3 st = .ok ([s0, s1, s2], st1) ∧ sPrime pr T k st1 = .ok (sp, st2)

/-- The instances, matrices and parameters of a run in which every instance has its own commitment matrix `Af inst`, with `κ` rows. -/
structure CmInputs (pr : PlusRing F R d) (T : Transcript F R σ) (Af : RgInstance F R → Mat R) (κ n : Nat) (rg : Rg F R) (M : List (SpMat R)) : Prop where
  deg : 3 ≤ d
  bytes : BytesOK T
  nv : 1 ≤ rg.nvars
  nle : n ≤ 2 ^ rg.nvars
  char : CharGt F 2
  k : 1 ≤ rg.dparams.k
  l : 1 ≤ rg.dparams.l
  ne : rg.instances ≠ []
  shape : ∀ inst ∈ rg.instances, CmShape n rg.dparams.k d inst
  com : ∀ inst ∈ rg.instances, RgCommitted pr (Af inst) rg.dparams.k rg.dparams.l inst
  cmF : ∀ inst ∈ rg.instances, inst.fcoms.cmF = commit (Af inst) inst.f
  Arows : ∀ inst ∈ rg.instances, (Af inst).nrows = κ
  Acols : ∀ inst ∈ rg.instances, (Af inst).ncols = n
  mats : MatsOK F rg.nvars n M
  pow : M ≠ [] → n = 2 ^ rg.nvars
  size : 2 ^ Nat.clog 2 κ * rg.dparams.k * d * rg.dparams.l * d ≤ n

theorem CmInput.inputs {pr : PlusRing F R d} {T : Transcript F R σ} {A : Mat R} {n : Nat} {rg : Rg F R} {M : List (SpMat R)} (h : CmInput pr T A n rg M) :
    CmInputs pr T (fun _ => A) A.nrows n rg M :=
  ⟨h.deg, h.bytes, h.nv, h.nle, h.char, h.k, h.l, h.ne, h.shape, h.com, h.cmF, fun _ _ => rfl, fun _ _ => h.Acols, h.mats, h.pow, h.size⟩

theorem cmTails_run (pr : PlusRing F R d) (T : Transcript F R σ) (s : σ) {Af : RgInstance F R → Mat R} {κ n : Nat} {rg : Rg F R} {M : List (SpMat R)} {dcom : Dcom F R}
    (hi : CmInputs pr T Af κ n rg M) (hd : DcomOK pr rg.nvars M rg.instances dcom) (hdp : dcom.dparams = rg.dparams) :
    ∃ com proof s', cmProveTail pr T s rg M dcom = .ok ((com, proof), s') ∧ proof.dcom = dcom ∧
      (∀ st, dcomVerify pr T st dcom = .ok s → cmVerify pr T st M proof = .ok (com.x, s')) ∧
      (∃ s0 s1 s2 sp, ShortChallenges pr s0 s1 s2 sp ∧ ChallengesFrom pr T rg.dparams.k s s0 s1 s2 sp ∧
        com.g = (rg.instances.map fun inst => (List.range n).map (foldedEntry d s0 s1 s2 sp inst)) ∧
        com.x.cmG = rg.instances.map fun inst => commit (Af inst) ((List.range n).map (foldedEntry d s0 s1 s2 sp inst))) ∧
      com.x.ro.length = rg.nvars ∧ com.x.vo = com.g.map (evalPairs M com.x.ro) := by
  obtain ⟨hdeg, hT, hnv, hn, hchar, hk, hl, hne, hsh, hcom, hcmF, hrows, hA, hM, hpow, hsize⟩ := hi
  obtain ⟨ss, t1, hss, hssl, hsss⟩ := shortChallenges_ok pr T hdeg hT 3 s
  obtain ⟨sp, t2, hsp, hspl, hspr, hsps⟩ := sPrime_ok pr T hdeg hT rg.dparams.k t1
  have hL : 0 < rg.instances.length := List.length_pos_iff.2 hne
  set comhF : RgInstance F R → List R := fun inst => (List.range κ).map (combFn d inst.comMf sp) with hcomhF
  have hh : mapRes (fun inst : RgInstance F R => combineMats (2 ^ rg.nvars) inst.Mf sp) rg.instances
      = .ok (rg.instances.map (hList d rg.nvars sp)) := by
    apply mapRes_ok
    intro inst hin
    exact (combineMats_ok (hsh inst hin).shape hn (by rw [hspl, (hsh inst hin).count]) hspr).1
  have hcomh : mapRes (comhOf sp) rg.instances = .ok (rg.instances.map comhF) := by
    apply mapRes_ok
    intro inst hin
    have hc := hcom inst hin
    unfold comhOf
    rw [idx_getD ⟨0, 0, []⟩ (by rw [hc.count]; omega), bind_ok']
    have h0 : 0 < inst.comMf.length := by rw [hc.count]; omega
    rw [show inst.comMf.getD 0 ⟨0, 0, []⟩ = inst.comMf[0] by simp [List.getD_eq_getElem?_getD, h0],
      (hc.shape _ (List.getElem_mem h0)).2.1, hrows inst hin]
    have hcs := hc.shape
    rw [hrows inst hin] at hcs
    exact (combineMats_ok hcs le_rfl (by rw [hspl, hc.count]) hspr).1
  have hcomh0 : ∀ site, idx site (rg.instances.map comhF) 0 = .ok (comhF rg.instances[0]) := by
    intro site
    rw [idx_getD [] (by simpa using hL)]
    simp [List.getD_eq_getElem?_getD, hL]
  have hcl : (comhF rg.instances[0]).length = κ := by simp [hcomhF]
  -- the challenges
  rcases hch0 : T.challenges (Nat.clog 2 κ) (absorbComh T t2 (rg.instances.map comhF)) with ⟨c0, t3⟩
  have hc0l : c0.length = Nat.clog 2 κ := by
    have := challenges_length T (Nat.clog 2 κ) (absorbComh T t2 (rg.instances.map comhF))
    rw [hch0] at this
    exact this
  rcases hch1 : T.challenges (Nat.clog 2 κ) t3 with ⟨c1, t4⟩
  have hc1l : c1.length = Nat.clog 2 κ := by
    have := challenges_length T (Nat.clog 2 κ) t3
    rw [hch1] at this
    exact this
  have hfl : sp.flatten.length = rg.dparams.k * d := by rw [flatten_length sp hspr, hspl]
  have n1 : sp.flatten ≠ [] := by
    rw [← List.length_pos_iff, hfl]
    exact Nat.mul_pos hk (by omega)
  have hdl : (dPowers (F := F) R d rg.dparams.l).length = rg.dparams.l := by simp [dPowers]
  have n2 : dPowers (F := F) R d rg.dparams.l ≠ [] := by rw [← List.length_pos_iff, hdl]; omega
  have hxl : (xPowers pr).length = d := by simp [xPowers]
  have n3 : xPowers pr ≠ [] := by rw [← List.length_pos_iff, hxl]; omega
  have hlen : ∀ c : List F, c.length = Nat.clog 2 κ →
      (calculateTz (c.map (algebraMap F R)) sp.flatten (dPowers (F := F) R d rg.dparams.l) (xPowers pr)).length ≤ n := by
    intro c hc
    rw [calculateTz_length _ _ _ _ n1 n2 n3, hfl, hdl, hxl, List.length_map, hc, ← mul_assoc]
    exact hsize
  have htz : ∀ c : List F, c.length = Nat.clog 2 κ →
      ((rg.instances.map comhF).map fun com => dot (tensor (c.map (algebraMap F R))) com)
      = rg.instances.map fun inst => inner (2 ^ rg.nvars) (inst.tau.map (algebraMap F R))
        (calculateTz (c.map (algebraMap F R)) sp.flatten (dPowers (F := F) R d rg.dparams.l) (xPowers pr)) := by
    intro c hc
    rw [List.map_map]
    apply List.map_congr_left
    intro inst hin
    rw [inner_tz pr (hcom inst hin) (c.map (algebraMap F R)) sp hk hl (by omega) hspl hspr _ (by
      rw [List.length_map, hc]; exact hsize.trans hn), hrows inst hin]
    rfl
  obtain ⟨proofA, roA, t5, hroA, hA1, hA2⟩ := cm_sumcheck_ok pr T t4 hd hnv hn hchar hM hpow hsh sp hspl hspr
    (calculateTz (c0.map (algebraMap F R)) sp.flatten (dPowers (F := F) R d rg.dparams.l) (xPowers pr))
    (calculateTz (c1.map (algebraMap F R)) sp.flatten (dPowers (F := F) R d rg.dparams.l) (xPowers pr))
    (hlen c0 hc0l) (hlen c1 hc1l) _ _ (htz c0 hc0l) (htz c1 hc1l)
  obtain ⟨proofB, roB, t6, hroB, hB1, hB2⟩ := cm_sumcheck_ok pr T t5 hd hnv hn hchar hM hpow hsh sp hspl hspr
    (calculateTz (c0.map (algebraMap F R)) sp.flatten (dPowers (F := F) R d rg.dparams.l) (xPowers pr))
    (calculateTz (c1.map (algebraMap F R)) sp.flatten (dPowers (F := F) R d rg.dparams.l) (xPowers pr))
    (hlen c0 hc0l) (hlen c1 hc1l) _ _ (htz c0 hc0l) (htz c1 hc1l)
  obtain ⟨s0, s1, s2, rfl⟩ : ∃ s0 s1 s2, ss = [s0, s1, s2] := by
    match ss, hssl with
    | [a, b, c], _ => exact ⟨a, b, c, rfl⟩
  set gF : RgInstance F R → List R := fun inst => (List.range n).map (foldedEntry d s0 s1 s2 sp inst) with hgF
  set evA := rg.instances.map (fun inst => evalsQ M roA (quadOf d rg.nvars sp inst)) with hevA
  set evB := rg.instances.map (fun inst => evalsQ M roB (quadOf d rg.nvars sp inst)) with hevB
  -- the statement
  have hx : (⟨dcom, rg.instances.map comhF, (proofA, proofB), (evA, evB)⟩ : CmProof F R).x [s0, s1, s2] (roA.zip roB)
      = .ok ⟨rg.instances.map (fun inst => commit (Af inst) (gF inst)), roA.zip roB, (rg.instances.map gF).map (evalPairs M (roA.zip roB))⟩ := by
    unfold CmProof.x
    change (do
      let cmG ← mapRes (fun q : FComs R × Nat => do
        let ch ← idx "comh[l]" (rg.instances.map comhF) q.2
        .ok (foldCm s0 s1 s2 q.1 ch)) dcom.fcoms.zipIdx
      let vo ← mapRes (fun l => do
        let e0 ← idx "evals.0[l]" evA l
        let e1 ← idx "evals.1[l]" evB l
        .ok ((e0.zip e1).map fun q => (foldQuad s0 s1 s2 q.1, foldQuad s0 s1 s2 q.2)))
        (List.range dcom.fcoms.length)
      .ok (⟨cmG, roA.zip roB, vo⟩ : ComX R) : Res (ComX R)) = _
    have hfl' : dcom.fcoms.length = rg.instances.length := by rw [hd.fcoms, List.length_map]
    rw [mapRes_zipIdx _ _ (fun l => (rg.instances.map (fun inst => commit (Af inst) (gF inst))).getD l []) (by
      intro l hll
      have hl' : l < rg.instances.length := by rw [← hfl']; exact hll
      have hin := List.getElem_mem hl'
      simp only
      rw [idx_getD [] (by simpa using hl'), bind_ok']
      have e1 : (rg.instances.map comhF).getD l [] = comhF rg.instances[l] := by simp [List.getD_eq_getElem?_getD, hl']
      have e2 : (rg.instances.map (fun inst => commit (Af inst) (gF inst))).getD l [] = commit (Af rg.instances[l]) (gF rg.instances[l]) := by
        simp [List.getD_eq_getElem?_getD, hl']
      have e3 : dcom.fcoms[l] = rg.instances[l].fcoms := by simp [hd.fcoms]
      rw [e1, e2, e3, ← foldCm_eq pr (hsh _ hin) (hcom _ hin) (hcmF _ hin) (hA _ hin) sp s0 s1 s2, hrows _ hin]), bind_ok',
      mapRes_ok (g := fun l => (rg.instances.map (fun inst => evalPairs M (roA.zip roB) (gF inst))).getD l []) (by
      intro l hll
      have hl' : l < rg.instances.length := by rw [← hfl']; exact List.mem_range.1 hll
      have hin := List.getElem_mem hl'
      rw [idx_getD [] (by simpa [hevA] using hl'), bind_ok', idx_getD [] (by simpa [hevB] using hl'), bind_ok']
      have e1 : evA.getD l [] = evalsQ M roA (quadOf d rg.nvars sp rg.instances[l]) := by simp [hevA, List.getD_eq_getElem?_getD, hl']
      have e2 : evB.getD l [] = evalsQ M roB (quadOf d rg.nvars sp rg.instances[l]) := by simp [hevB, List.getD_eq_getElem?_getD, hl']
      have e3 : (rg.instances.map (fun inst => evalPairs M (roA.zip roB) (gF inst))).getD l [] = evalPairs M (roA.zip roB) (gF rg.instances[l]) := by
        simp [List.getD_eq_getElem?_getD, hl']
      rw [e1, e2, e3]
      congr 1
      unfold evalsQ evalPairs
      rw [List.zip_map', List.map_map, add_comm 1 M.length, List.range_succ_eq_map, List.map_cons, List.map_map]
      have f1 : (roA.zip roB).map (·.1) = roA := List.map_fst_zip (by omega)
      have f2 : (roA.zip roB).map (·.2) = roB := List.map_snd_zip (by omega)
      rw [f1, f2]
      have hq := fun i p => foldQuad_eq (M := M) (hsh _ hin) hn sp hspl hspr s0 s1 s2 i p
      congr 1
      · simp only [Function.comp, hq]
        rfl
      · apply List.ext_getElem
        · simp
        · intro i h1 h2
          have hi' : i < M.length := by simpa using h1
          have : M.getD i ⟨0, 0, []⟩ = M[i] := by simp [List.getD_eq_getElem?_getD, hi']
          simp only [List.getElem_map, List.getElem_range, Function.comp, hq, rowFn, this]
          rfl), bind_ok']
    congr 2
    · apply List.ext_getElem
      · simp [hfl']
      · intro i h1 h2
        have hi' : i < rg.instances.length := by simpa using h2
        simp [List.getD_eq_getElem?_getD, hi']
    · apply List.ext_getElem
      · simp [hfl']
      · intro i h1 h2
        have hi' : i < rg.instances.length := by simpa using h2
        simp [List.getD_eq_getElem?_getD, hi']
  refine ⟨⟨rg.instances.map gF, ⟨rg.instances.map (fun inst => commit (Af inst) (gF inst)), roA.zip roB, (rg.instances.map gF).map (evalPairs M (roA.zip roB))⟩⟩, ⟨dcom, rg.instances.map comhF, (proofA, proofB), (evA, evB)⟩, t6, ?_, rfl, ?_, ⟨s0, s1, s2, sp, ⟨hsss s0 (by simp), hsss s1 (by simp), hsss s2 (by simp), hsps⟩, ⟨t1, t2, hss, hsp⟩, rfl, rfl⟩,
    ?_, rfl⟩
  · unfold cmProveTail
    rw [idx_getD ⟨[], [], [], [], [], ⟨[], [], []⟩⟩ hL, bind_ok']
    rw [show rg.instances.getD 0 ⟨[], [], [], [], [], ⟨[], [], []⟩⟩ = rg.instances[0] by simp [List.getD_eq_getElem?_getD, hL],
      (hsh _ (List.getElem_mem hL)).taulen, hss, bind_ok']
    simp only
    rw [hsp, bind_ok']
    simp only
    rw [hh, bind_ok', hcomh, bind_ok', hcomh0, bind_ok', hcl, hch0]
    simp only
    rw [hch1]
    simp only
    rw [show padT n _ = .ok _ from if_pos (hlen c0 hc0l), bind_ok', show padT n _ = .ok _ from if_pos (hlen c1 hc1l), bind_ok']
    have hvss : (rg.instances.zip (rg.instances.map (hList d rg.nvars sp))).map instVecs
        = rg.instances.map fun inst => (quadOf d rg.nvars sp inst).list := by
      rw [zip_self_map, List.map_map]
      rfl
    have hgs : ((rg.instances.zip (rg.instances.map (hList d rg.nvars sp))).map fun p => foldG s0 s1 s2 p.1 p.2) = rg.instances.map gF := by
      rw [zip_self_map, List.map_map]
      apply List.map_congr_left
      intro inst hin
      exact foldG_eq (hsh inst hin) hn sp hspl hspr s0 s1 s2
    rw [hvss, hA1, bind_ok']
    simp only
    rw [hB1, bind_ok']
    simp only
    change (do
      let x ← (⟨dcom, rg.instances.map comhF, (proofA, proofB), (evA, evB)⟩ : CmProof F R).x [s0, s1, s2] (roA.zip roB)
      .ok (((⟨(rg.instances.zip (rg.instances.map (hList d rg.nvars sp))).map fun p => foldG s0 s1 s2 p.1 p.2, x⟩ : Com R),
        (⟨dcom, rg.instances.map comhF, (proofA, proofB), (evA, evB)⟩ : CmProof F R)), t6) : Res _) = _
    rw [hx, bind_ok', hgs]
  · intro st hst
    unfold cmVerify
    simp only [hst, unwrapRes, bind_ok', hdp, hss, hsp, hcomh0, hcl, hch0, hch1]
    have hel : evA.length = rg.instances.length := by simp [hevA]
    rw [hel, hA2, bind_ok']
    simp only
    rw [hB2, bind_ok']
    simp only
    rw [hx, bind_ok']
  · change (roA.zip roB).length = _
    rw [List.length_zip, hroA, hroB, min_self]

theorem cmTail_run (pr : PlusRing F R d) (T : Transcript F R σ) (s : σ) {A : Mat R} {n : Nat} {rg : Rg F R} {M : List (SpMat R)} {dcom : Dcom F R}
    (hi : CmInput pr T A n rg M) (hd : DcomOK pr rg.nvars M rg.instances dcom) (hdp : dcom.dparams = rg.dparams) :
    ∃ com proof s', cmProveTail pr T s rg M dcom = .ok ((com, proof), s') ∧ proof.dcom = dcom ∧
      (∀ st, dcomVerify pr T st dcom = .ok s → cmVerify pr T st M proof = .ok (com.x, s')) ∧
      (∃ s0 s1 s2 sp, ShortChallenges pr s0 s1 s2 sp ∧ ChallengesFrom pr T rg.dparams.k s s0 s1 s2 sp ∧ com.g = rg.instances.map fun inst => (List.range n).map (foldedEntry d s0 s1 s2 sp inst)) ∧
      com.x.cmG = com.g.map (commit A) ∧ com.x.ro.length = rg.nvars ∧ com.x.vo = com.g.map (evalPairs M com.x.ro) := by
  obtain ⟨com, proof, s', h1, h2, h3, ⟨s0, s1, s2, sp, h4, h5, h6, h7⟩, h8, h9⟩ := cmTails_run pr T s hi.inputs hd hdp
  refine ⟨com, proof, s', h1, h2, h3, ⟨s0, s1, s2, sp, h4, h5, h6⟩, ?_, h8, h9⟩
  rw [h7, h6, List.map_map]
  rfl

end Verif.Plus
