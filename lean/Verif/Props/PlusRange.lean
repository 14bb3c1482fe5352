import Verif.Lemmas.PlusFromF

/-!
# Property theorems: the range check of `latticefold-plus` (C55 - C57)
-/

set_option linter.unusedSectionVars false
set_option linter.unusedSimpArgs false

namespace Verif.Props

open Finset Verif Verif.Spec Verif.Plus

variable {F R σ : Type} {d : Nat}
variable [Field F] [CommRing R] [Algebra F R] [DecidableEq F] [DecidableEq R]

/-! ## C55 -/

/-- **C55**: `RgInstance::from_f`. For a vector `f` whose coefficients lie in the range of `k` balanced digits to base
`d / 2`, and whose length exceeds the number of digits of the commitments, the instance is built without abort: its matrices of
monomials encode exactly `f`, `m_tau` encodes `tau`, `tau` are the balanced digits of the commitments to the matrices
of monomials, and the three commitments are the products of `A` with `f`, `tau` and `m_tau`. -/
theorem C55_from_f (pr : PlusRing F R d) {f : List R} {A : Mat R} {dp : DParams} (hA : A.WF) (hAn : A.ncols = f.length)
    (hb : dp.b = d / 2) (hb2 : 2 ≤ dp.b) (he : Even dp.b) (hk : 1 ≤ dp.k) (hl : 1 ≤ dp.l)
    (hf : ∀ x ∈ f, ∀ i, Short (dp.b ^ dp.k) (pr.coeff x i)) (hs : ∀ a : F, Short (dp.b ^ dp.l) a)
    (hn : A.nrows * dp.k * d * dp.l * d < f.length) :
    ∃ inst, fromF pr f A dp = .ok inst ∧ inst.f = f ∧ RgValid pr f.length dp.k inst f ∧
      RgCommitted pr A dp.k dp.l inst ∧ inst.fcoms.cmF = commit A f ∧ ∀ x ∈ inst.tau, Short dp.b x :=
  Plus.fromF_ok pr hA hAn hb hb2 he hk hl hf hs hn

/-- **C55**: `split` aborts when the vector is too short for the digits of the commitments, also when they would fit exactly. -/
theorem C55_small_n (pr : PlusRing F R d) (com : Mat R) {n b l : Nat} (hb : 2 ≤ b) (he : Even b) (hl : 1 ≤ l)
    (hs : ∀ a : F, Short (b ^ l) a) (hn : n ≤ com.vals.flatten.length * l * d) :
    (split pr com n b l).isPanic := by
  have h1 : gadgetRows pr b l com = .ok (com.vals.map fun row => (row.map (dgR pr b l)).flatten) := by
    unfold gadgetRows
    apply mapRes_ok
    intro row _
    rw [mapRes_ok (g := dgR pr b l) fun x _ => (dgR_ok pr hb he hl (a := x) fun i => hs _).1, bind_ok']
  have h2 : ∀ vals : List (List R), (((vals.map fun row => (row.map (dgR pr b l)).flatten).flatten).map pr.coeffs).flatten.length
      = vals.flatten.length * l * d := by
    intro vals
    induction vals with
    | nil => simp
    | cons r rs ih =>
      have h3 : ((r.map (dgR pr b l)).flatten.map pr.coeffs).flatten.length = r.length * l * d := by
        rw [flatten_length (L := d) _ (by
            intro x hx
            obtain ⟨y, _, rfl⟩ := List.mem_map.1 hx
            exact coeffs_length pr y), List.length_map, flatten_length (L := l) _ (by
            intro x hx
            obtain ⟨y, _, rfl⟩ := List.mem_map.1 hx
            exact (dgR_ok pr hb he hl (a := y) fun i => hs _).2.1), List.length_map]
      simp only [List.map_cons, List.flatten_cons, List.map_append, List.flatten_append, List.length_append, h3, ih]
      ring
  unfold split
  rw [h1, bind_ok']
  simp only
  rw [if_neg (by rw [h2]; omega)]
  rfl

/-! The example: vectors of length 65 over the ring of dimension four. -/

/-- One digit to base two, four digits for the commitments. -/
def dp17 : DParams := ⟨2, 1, 4⟩

/-- A commitment matrix with one row. -/
def A17 : Mat Example.R17 := ⟨1, 65, [(List.range 65).map fun i => (i : Example.R17) + Example.plus17.X]⟩

/-- The vector `x, 0, 0, ..`. -/
def vec17 (x : Example.R17) : List Example.R17 := x :: List.replicate 64 0

theorem A17_wf : A17.WF := by
  refine ⟨rfl, ?_⟩
  intro r hr
  simp only [A17, List.mem_cons, List.not_mem_nil, or_false] at hr
  rw [hr]
  simp [A17]

theorem short17 : ∀ a : ZMod 17, Short (2 ^ 4) a := by
  intro a
  rw [Example.shortZ]
  revert a
  decide

theorem vec17_short : ∀ x ∈ vec17 (1 - Example.plus17.X ^ 3), ∀ i, Short (dp17.b ^ dp17.k) (Example.plus17.coeff x i) := by
  intro x hx i
  rw [Example.shortZ]
  simp only [vec17, List.mem_cons, List.mem_replicate] at hx
  rcases hx with rfl | ⟨_, rfl⟩ <;> revert i <;> decide

theorem inst17 : ∃ inst, fromF Example.plus17 (vec17 (1 - Example.plus17.X ^ 3)) A17 dp17 = .ok inst ∧
    inst.f = vec17 (1 - Example.plus17.X ^ 3) ∧ RgValid Example.plus17 65 1 inst (vec17 (1 - Example.plus17.X ^ 3)) ∧
    RgCommitted Example.plus17 A17 1 4 inst ∧ inst.fcoms.cmF = commit A17 (vec17 (1 - Example.plus17.X ^ 3)) := by
  obtain ⟨inst, h1, h2, h3, h4, h5, -⟩ := C55_from_f Example.plus17 A17_wf (by simp [A17, vec17]) rfl (by decide) (by decide) (by decide)
    (by decide) vec17_short short17 (by simp [A17, vec17, dp17])
  exact ⟨inst, h1, h2, h3, h4, h5⟩

example : ∃ inst, fromF Example.plus17 (vec17 (1 - Example.plus17.X ^ 3)) A17 dp17 = .ok inst ∧
    RgValid Example.plus17 65 1 inst (vec17 (1 - Example.plus17.X ^ 3)) := by
  obtain ⟨inst, h1, _, h2, _⟩ := inst17
  exact ⟨inst, h1, h2⟩

/-- With 64 entries, as many as there are digits, `split` aborts. -/
example : (split Example.plus17 ⟨1, 4, [[1, 2, 3, 4]]⟩ 64 2 4).isPanic :=
  C55_small_n Example.plus17 _ (by decide) (by decide) (by decide) short17 (by decide)

/-! ## C56 -/

/-- **C56** (partial): completeness of the range check. For valid instances and matrices with entries in the base field, the prover
succeeds, the verifier accepts and both end in the same transcript state; the proof contains the evaluations, at the point of the set check,
of the coefficients of `f`, and of `tau`, `m_tau`, `f` and their products with the matrices. Left out is the case of one instance
with one matrix of monomials, which fails: `C56_rejected`. -/
theorem C56_complete_partial (pr : PlusRing F R d) (T : Transcript F R σ) (s : σ) (n : Nat) (rg : Rg F R) (M : List (SpMat R))
    (hn : 2 ≤ n) (hnv : rg.nvars = Nat.clog 2 n) (hc : CharGt F 3) (hcount : 2 ≤ rg.dparams.k * rg.instances.length)
    (h : ∀ inst ∈ rg.instances, RgValid pr n rg.dparams.k inst inst.f) (hM : MatsOK F rg.nvars n M) :
    ∃ dcom s', rangeCheck pr T s rg M = .ok (dcom, s') ∧ dcomVerify pr T s dcom = .ok s' ∧
      dcom.evals = rg.instances.map (evalsAt pr M dcom.out.r) ∧ dcom.fcoms = rg.instances.map (·.fcoms) ∧
      dcom.dparams = rg.dparams ∧ dcom.out.nvars = rg.nvars ∧ dcom.out.r.length = rg.nvars ∧
      dcom.out.e = columnsAt M (dcom.out.r.map (algebraMap F R)) d rg.instances := by
  obtain ⟨out, s', _, h2, h3, h4, h5, _, h7⟩ := rangeCheck_run pr T s n rg M hn hnv hc hcount h hM
  refine ⟨_, _, h7, ?_, rfl, rfl, rfl, h3, h4, h5⟩
  exact dcomVerify_ok pr T s s' (fun inst => inst.f) rg.dparams (rg.instances.map (·.fcoms)) out hM h
    (fun _ _ _ _ _ => rfl) h5 h2

/-- A matrix with entries in the base field. -/
def M17 : SpMat Example.R17 := ⟨2, 65, [[(1, 0), (3, 5)], [(2, 7)]]⟩

theorem M17_ok : MatsOK (ZMod 17) 7 65 [M17] := by
  intro Mi hMi
  obtain rfl := List.mem_singleton.1 hMi
  refine ⟨by unfold SpMat.WF; decide, rfl, by decide, ?_⟩
  intro row hr t ht
  simp only [M17, List.mem_cons, List.not_mem_nil, or_false] at hr
  rcases hr with rfl | rfl <;> simp only [List.mem_cons, List.not_mem_nil, or_false] at ht
  · rcases ht with rfl | rfl
    · exact ⟨1, by simp⟩
    · exact ⟨3, by decide⟩
  · subst ht
    exact ⟨2, by decide⟩

theorem charGt17 : CharGt (ZMod 17) 3 := by
  intro n h1 h2
  have : n = 1 ∨ n = 2 ∨ n = 3 := by omega
  rcases this with rfl | rfl | rfl <;> decide

/-- Two instances built by `from_f` with one digit each. -/
example (T : Transcript (ZMod 17) Example.R17 σ) (s : σ) : ∃ inst dcom s',
    fromF Example.plus17 (vec17 (1 - Example.plus17.X ^ 3)) A17 dp17 = .ok inst ∧
    rangeCheck Example.plus17 T s ⟨7, [inst, inst], dp17⟩ [M17] = .ok (dcom, s') ∧
    dcomVerify Example.plus17 T s dcom = .ok s' := by
  obtain ⟨inst, h1, hf, h2, _⟩ := inst17
  obtain ⟨dcom, s', h3, h4, _⟩ := C56_complete_partial Example.plus17 T s 65 ⟨7, [inst, inst], dp17⟩ [M17] (by decide) (by change 7 = Nat.clog 2 65; decide) charGt17
    (by simp [dp17]) (by
      intro i hi
      simp only [List.mem_cons, List.not_mem_nil, or_false, or_self] at hi
      subst hi
      rw [hf]
      exact h2) M17_ok
  exact ⟨inst, dcom, s', h1, h3, h4⟩

/-- A valid instance of size two with one matrix of monomials. -/
def small17 : RgInstance (ZMod 17) Example.R17 :=
  ⟨[⟨2, 4, [[1, 1, 1, 1], [Example.plus17.X, 1, 1, 1]]⟩], [1, -1], [Example.plus17.X, Example.plus17.X ^ 3], [0, 1], [], ⟨[], [], []⟩⟩

theorem small17_valid : RgValid Example.plus17 2 1 small17 small17.f := by
  have h0 : ∀ i, IsMonomial Example.plus17 (Example.plus17.X ^ (Fin.val (i : Fin 4))) := fun i => Or.inr ⟨i, rfl⟩
  have h1 : IsMonomial Example.plus17 1 := by simpa using h0 0
  have h2 : IsMonomial Example.plus17 Example.plus17.X := by simpa using h0 1
  have h3 : IsMonomial Example.plus17 (Example.plus17.X ^ 3) := h0 3
  have h4 : IsMonomial Example.plus17 0 := Or.inl rfl
  refine ⟨rfl, rfl, rfl, rfl, rfl, ?_, ?_, ?_, ?_, ?_⟩
  · intro D hD
    obtain rfl := List.mem_singleton.1 hD
    exact ⟨by unfold Mat.WF; decide, rfl, rfl⟩
  · intro D hD i j
    obtain rfl := List.mem_singleton.1 hD
    rcases i with _ | _ | i <;> rcases j with _ | _ | _ | _ | j <;> simp [matEntry, h1, h2, h4]
  · intro x hx
    simp only [small17, List.mem_cons, List.not_mem_nil, or_false] at hx
    rcases hx with rfl | rfl
    · exact h2
    · exact h3
  · decide
  · decide

/-- The result of the verifier on the honest range check of `small17`. -/
def small17Result : Option (Res Nat) :=
  match rangeCheck Example.plus17 tr17 0 ⟨1, [small17], ⟨2, 1, 1⟩⟩ [] with
  | .ok (dcom, _) => some (dcomVerify Example.plus17 tr17 0 dcom)
  | .error _ => none

/-- **C56** is false for a single matrix of monomials: the verifier aborts on the honest proof for a valid instance. -/
theorem C56_rejected : ∃ dcom s', RgValid Example.plus17 2 1 small17 small17.f ∧
    rangeCheck Example.plus17 tr17 0 ⟨1, [small17], ⟨2, 1, 1⟩⟩ [] = .ok (dcom, s') ∧
    (dcomVerify Example.plus17 tr17 0 dcom).isPanic := by
  have h : small17Result = some (.error (.panic "out.verify.unwrap()")) := by decide +kernel
  unfold small17Result at h
  rcases hc : rangeCheck Example.plus17 tr17 0 ⟨1, [small17], ⟨2, 1, 1⟩⟩ [] with e | ⟨dcom, s'⟩
  · rw [hc] at h; simp at h
  · rw [hc] at h
    refine ⟨dcom, s', small17_valid, rfl, ?_⟩
    simp only [Option.some.injEq] at h
    rw [h]
    rfl

/-- The result of the verifier on the honest range check of two copies of `small17` with a matrix whose entry is `X`. -/
def nonScalarResult : Option (Res Nat) :=
  match rangeCheck Example.plus17 tr17 0 ⟨1, [small17, small17], ⟨2, 1, 1⟩⟩ [⟨1, 2, [[(Example.plus17.X, 1)]]⟩] with
  | .ok (dcom, _) => some (dcomVerify Example.plus17 tr17 0 dcom)
  | .error _ => none

/-- **C56** is false for matrices over the ring: with the matrix `(0 X)` the honest proof for valid instances is rejected. -/
theorem C56_nonscalar_rejected : ∃ dcom s', RgValid Example.plus17 2 1 small17 small17.f ∧
    rangeCheck Example.plus17 tr17 0 ⟨1, [small17, small17], ⟨2, 1, 1⟩⟩ [⟨1, 2, [[(Example.plus17.X, 1)]]⟩] = .ok (dcom, s') ∧
    dcomVerify Example.plus17 tr17 0 dcom = .error .recomposedError := by
  have h : nonScalarResult = some (.error .recomposedError) := by decide +kernel
  unfold nonScalarResult at h
  rcases hc : rangeCheck Example.plus17 tr17 0 ⟨1, [small17, small17], ⟨2, 1, 1⟩⟩ [⟨1, 2, [[(Example.plus17.X, 1)]]⟩] with e | ⟨dcom, s'⟩
  · rw [hc] at h; simp at h
  · rw [hc] at h
    refine ⟨dcom, s', small17_valid, rfl, ?_⟩
    simpa using h

/-! ## C57 -/

/-- The recombination, to base `d / 2`, of the columns number `j` of instance `l` in `e`. -/
def recombined (pr : PlusRing F R d) (k l : Nat) (e : List (List R)) (j : Nat) : F :=
  ∑ i ∈ range k, ((d / 2 : Nat) : F) ^ i * pr.ct (pr.psi * (e.getD (k * l + i) []).getD j 0)

theorem recAt_take (pr : PlusRing F R d) (k l : Nat) (e : List (List R)) (j : Nat) :
    recAt pr ((e.drop (k * l)).take k) j = recombined pr k l e j := by
  unfold recAt recombined
  have hz : pr.ct (0 : R) = 0 := map_zero (ctLin pr)
  have hlen : ((e.drop (k * l)).take k).length ≤ k := by simp
  rw [← sum_subset (range_subset_range.2 hlen)]
  · apply sum_congr rfl
    intro i hi
    have hi' := mem_range.1 hi
    congr 4
    have h1 : i < k := lt_of_lt_of_le hi' hlen
    rw [List.getD_eq_getElem?_getD, List.getD_eq_getElem?_getD, List.getElem?_take, if_pos h1, List.getElem?_drop]
  · intro i hi hi2
    have h1 := mem_range.1 hi
    have h2 : ¬ i < ((e.drop (k * l)).take k).length := fun h => hi2 (mem_range.2 h)
    have h3 : e.length ≤ k * l + i := by
      simp only [List.length_take, List.length_drop] at h2
      omega
    rw [List.getD_eq_getElem?_getD (l := e), List.getElem?_eq_none h3]
    simp [hz]

/-- **C57**: exactly when `Dcom::verify` accepts. The set check accepts; for every instance and every pair of entries of `a` and `b`
the constant term of `psi * b_i` is `a_i`; `v` is the recombination of the columns in `e[0]`, and for every further matrix the coefficients of
`c[ni]` are the recombination of the columns in `e[ni]`. Nothing else is compared: not `c[0]` with `v`, not `b` with the evaluations of
the vector sets in the set check, not the number of instances, and no commitment. -/
theorem C57_verify_iff (pr : PlusRing F R d) (T : Transcript F R σ) (s s' : σ) (dcom : Dcom F R) :
    dcomVerify pr T s dcom = .ok s' ↔ ∃ s1, setVerify pr T s dcom.out = .ok s1 ∧ s' = absorbDcom T s1 dcom.evals ∧
      ∀ (l : Nat) (ev : DcomEvals F R), dcom.evals[l]? = some ev →
        (∀ (i : Nat) (a : F) (b : R), ev.a[i]? = some a → ev.b[i]? = some b → pr.ct (pr.psi * b) = a) ∧
        ∀ (ni : Nat) (e : List (List R)), dcom.out.e[ni]? = some e →
          if ni = 0 then ev.v = (List.range d).map (recombined pr dcom.dparams.k l e)
          else ∃ c, ev.c[ni]? = some c ∧ pr.coeffs c = (List.range d).map (recombined pr dcom.dparams.k l e) := by
  rw [dcomVerify_iff]
  apply exists_congr
  intro s1
  apply and_congr_right
  intro _
  apply and_congr_right
  intro _
  have hab : ∀ ev : DcomEvals F R, psiCheckAB pr ev = .ok () ↔
      ∀ (i : Nat) (a : F) (b : R), ev.a[i]? = some a → ev.b[i]? = some b → pr.ct (pr.psi * b) = a := by
    intro ev
    rw [psiCheckAB_iff]
    constructor
    · intro h i a b ha hb
      exact h (a, b) (List.mem_iff_getElem?.2 ⟨i, by rw [List.getElem?_zip_eq_some]; exact ⟨ha, hb⟩⟩)
    · rintro h ⟨a, b⟩ hp
      obtain ⟨i, hi⟩ := List.mem_iff_getElem?.1 hp
      rw [List.getElem?_zip_eq_some] at hi
      exact h i a b hi.1 hi.2
  have hz : ∀ {α : Type} (l : List α) (P : α × Nat → Prop), (∀ p ∈ l.zipIdx, P p) ↔ ∀ (i : Nat) (a : α), l[i]? = some a → P (a, i) := by
    intro α l P
    constructor
    · intro h i a ha
      apply h
      rw [List.mem_iff_getElem?]
      exact ⟨i, by rw [List.getElem?_zipIdx, ha]; simp⟩
    · rintro h ⟨a, i⟩ hp
      rw [List.mem_iff_getElem?] at hp
      obtain ⟨j, hj⟩ := hp
      rw [List.getElem?_zipIdx] at hj
      cases hl : l[j]? with
      | none => rw [hl] at hj; simp at hj
      | some x =>
        rw [hl] at hj
        simp at hj
        obtain ⟨rfl, rfl⟩ := hj
        exact h _ _ hl
  rw [hz]
  apply forall_congr'
  intro l
  apply forall_congr'
  intro ev
  apply imp_congr_right
  intro _
  rw [hab, hz]
  apply and_congr_right
  intro _
  apply forall_congr'
  intro ni
  apply forall_congr'
  intro e
  apply imp_congr_right
  intro _
  rw [psiCheckU_iff]
  simp only [funext (recAt_take pr dcom.dparams.k l e)]

/-- A proof with other first entries of `c`, other commitments and any number of the instances dropped at the end. -/
def tamper (dcom : Dcom F R) (c0 : Nat → R) (fcoms : List (FComs R)) (m : Nat) : Dcom F R :=
  { dcom with
    evals := (dcom.evals.zipIdx.take m).map fun p => { p.1 with c := p.1.c.set 0 (c0 p.2) }
    fcoms := fcoms }

/-- **C57**: the evaluation of `f` itself is not checked. From every accepted proof one gets accepted proofs with arbitrary values
in the place of the evaluations of the vectors `f` and arbitrary commitments, also with fewer instances. -/
theorem C57_c0_unchecked (pr : PlusRing F R d) (T : Transcript F R σ) (s s' : σ) (dcom : Dcom F R)
    (h : dcomVerify pr T s dcom = .ok s') (c0 : Nat → R) (fcoms : List (FComs R)) (m : Nat) :
    ∃ s'', dcomVerify pr T s (tamper dcom c0 fcoms m) = .ok s'' := by
  rw [C57_verify_iff] at h
  obtain ⟨s1, h1, _, h2⟩ := h
  refine ⟨_, (C57_verify_iff pr T s _ _).2 ⟨s1, h1, rfl, ?_⟩⟩
  intro l ev hev
  simp only [tamper, List.getElem?_map, List.getElem?_take, List.getElem?_zipIdx] at hev
  split at hev
  · cases hl : dcom.evals[l]? with
    | none => rw [hl] at hev; simp at hev
    | some ev0 =>
      rw [hl] at hev
      simp at hev
      subst hev
      obtain ⟨h3, h4⟩ := h2 l ev0 hl
      refine ⟨h3, ?_⟩
      intro ni e he
      have := h4 ni e he
      by_cases h0 : ni = 0
      · rw [if_pos h0] at this ⊢
        exact this
      · rw [if_neg h0] at this ⊢
        rw [List.getElem?_set_ne (Ne.symm h0)]
        exact this
  · simp at hev

/-- **C57**: the range of `f` is not established. Let the matrices of monomials of the instances encode vectors `f'` that have
the same products with all matrices as the vectors `f` of the instances. Then the prover that runs the set check and sends the coefficients
of `f'` as `v`, but everything else honestly for `f` - the evaluations of `f` and of its products, and the commitments - is accepted, whatever the
coefficients of `f` are. -/
theorem C57_range_not_established (pr : PlusRing F R d) (T : Transcript F R σ) (s : σ) (n : Nat) (rg : Rg F R) (M : List (SpMat R))
    (hn : 2 ≤ n) (hnv : rg.nvars = Nat.clog 2 n) (hc : CharGt F 3) (hcount : 2 ≤ rg.dparams.k * rg.instances.length)
    (fs : RgInstance F R → List R) (h : ∀ inst ∈ rg.instances, RgValid pr n rg.dparams.k inst (fs inst))
    (hf : ∀ inst ∈ rg.instances, ∀ m ∈ M, ∀ i, mulVec m inst.f i = mulVec m (fs inst) i) (hM : MatsOK F rg.nvars n M) :
    ∃ dcom s', dcomVerify pr T s dcom = .ok s' ∧ dcom.fcoms = rg.instances.map (·.fcoms) ∧
      dcom.dparams = rg.dparams ∧ dcom.out.nvars = rg.nvars ∧ dcom.out.r.length = rg.nvars ∧
      dcom.out.e = columnsAt M (dcom.out.r.map (algebraMap F R)) d rg.instances ∧
      dcom.evals.map (fun ev => (ev.a, ev.b, ev.c)) = rg.instances.map fun inst =>
        ((evalsAt pr M dcom.out.r inst).a, (evalsAt pr M dcom.out.r inst).b, (evalsAt pr M dcom.out.r inst).c) := by
  obtain ⟨out, s', _, h2, h3, h4, h5, _, _⟩ := rangeCheck_run pr T s n
    ⟨rg.nvars, rg.instances.map fun inst => { inst with f := fs inst }, rg.dparams⟩ M hn hnv hc (by simpa using hcount) (by
      intro inst hi
      obtain ⟨i0, hi0, rfl⟩ := List.mem_map.1 hi
      have := h i0 hi0
      exact ⟨this.flen', this.flen', this.taulen, this.mTaulen, this.count, this.shape, this.mono, this.tauMono, this.tauVal, this.digits⟩) hM
  have h5' : out.e = columnsAt M (out.r.map (algebraMap F R)) d rg.instances := by
    rw [h5]
    unfold columnsAt
    simp only [List.flatMap_map]
  refine ⟨_, _, dcomVerify_ok pr T s s' fs rg.dparams (rg.instances.map (·.fcoms)) out hM h hf h5' h2, rfl, rfl, h3, h4, h5', ?_⟩
  rw [List.map_map]
  rfl

/-- The vector with entry `5` at position `1`, which is not in the range of one digit to base two; `M17` does not touch this position. -/
example (T : Transcript (ZMod 17) Example.R17 σ) (s : σ) : ∃ dcom s' f, dcomVerify Example.plus17 T s dcom = .ok s' ∧
    ¬ (∀ x ∈ f, ∀ i, Short (dp17.b ^ dp17.k) (Example.plus17.coeff x i)) ∧
    dcom.evals.map (fun ev => ev.c) = List.replicate 2 [mle (fun i => f.getD i 0) (dcom.out.r.map (algebraMap (ZMod 17) Example.R17)),
      mle (mulVec M17 f) (dcom.out.r.map (algebraMap (ZMod 17) Example.R17))] ∧
    dcom.fcoms.map (·.cmF) = List.replicate 2 (commit A17 f) := by
  obtain ⟨inst, -, hf, h2, -⟩ := inst17
  let f : List Example.R17 := (vec17 (1 - Example.plus17.X ^ 3)).set 1 5
  let bad : RgInstance (ZMod 17) Example.R17 := { inst with f := f, fcoms := { inst.fcoms with cmF := commit A17 f } }
  have hv : RgValid Example.plus17 65 1 bad (vec17 (1 - Example.plus17.X ^ 3)) :=
    ⟨by simp [bad, f, vec17], h2.flen', h2.taulen, h2.mTaulen, h2.count, h2.shape, h2.mono, h2.tauMono, h2.tauVal, h2.digits⟩
  obtain ⟨dcom, s', h3, h4, -, -, -, -, h5⟩ := C57_range_not_established Example.plus17 T s 65 ⟨7, [bad, bad], dp17⟩ [M17] (by decide)
    (by change 7 = Nat.clog 2 65; decide) charGt17 (by simp [dp17]) (fun _ => vec17 (1 - Example.plus17.X ^ 3)) (by
      intro i hi
      simp only [List.mem_cons, List.not_mem_nil, or_false, or_self] at hi
      subst hi
      exact hv) (by
      intro i hi m hm x
      simp only [List.mem_cons, List.not_mem_nil, or_false, or_self] at hi hm
      subst hi hm
      unfold mulVec
      apply sum_congr rfl
      intro j _
      by_cases hj : j = 1
      · subst hj
        have : entry M17 x 1 = 0 := by
          unfold entry M17
          rcases x with _ | _ | x <;> simp
        rw [this, zero_mul, zero_mul]
      · congr 1
        change ((vec17 (1 - Example.plus17.X ^ 3)).set 1 5).getD j 0 = _
        rw [List.getD_eq_getElem?_getD, List.getElem?_set_ne (Ne.symm hj), ← List.getD_eq_getElem?_getD]) M17_ok
  refine ⟨dcom, s', f, h3, ?_, ?_, ?_⟩
  · intro h
    have := h 5 (by simp [f, vec17]) 0
    rw [Example.shortZ] at this
    revert this
    decide
  · have := congrArg (List.map fun p : List (ZMod 17) × List Example.R17 × List Example.R17 => p.2.2) h5
    simpa [List.map_map, Function.comp_def, evalsAt] using this
  · rw [h4]
    simp [bad]

end Verif.Props
