import Verif.Lemmas.Decomposition
import Verif.Props.ExampleData

/-!
# Property theorems: commitment variants and witness construction (C02, C46)
-/

set_option linter.unusedSectionVars false
set_option linter.unusedSimpArgs false

namespace Verif.Props

open Finset Verif Verif.Spec

variable {Fp F C σ : Type} {N τ : Nat} [Field Fp] [Field F] [DecidableEq F] [Algebra Fp F] [CommRing C]
  [Algebra Fp C]

theorem fromWCcs_ok (rd : RingData Fp F C N τ) (P : Params) (hP : ParamsOK Fp P) (w : List (Fin N → F)) :
    ∃ wit, Witness.fromWCcs rd P w = .ok wit ∧ WitOK rd P w.length wit ∧ wit.wCcs = w ∧
      WitShort rd P.B wit ∧ wit.fCoeff = ((w.map rd.crt.symm).map (dg rd P.B P.L)).flatten := by
  unfold Witness.fromWCcs
  rw [gadgetDecompose_ok rd hP.B2 hP.BEven hP.Lpos _ fun c _ => fits_all rd hP c]
  simp only [bind_ok']
  set ls := (w.map rd.crt.symm).map (dg rd P.B P.L) with hls
  have hd : ∀ c, _ := fun c => dg_ok rd hP.B2 hP.BEven hP.Lpos (fits_all rd hP c)
  have hlens : ∀ l ∈ ls, l.length = P.L := by
    intro l hl
    obtain ⟨c, _, rfl⟩ := List.mem_map.1 hl
    exact (hd c).2.1
  have hlsl : ls.length = w.length := by simp [hls]
  have hfl : ls.flatten.length = w.length * P.L := by rw [flatten_length ls hlens, hlsl]
  refine ⟨_, rfl, ?_, rfl, ?_, rfl⟩
  · apply witOK_mk rd P _ hfl _ rfl
    intro i hi
    have hgetD : ∀ (l : List C) (j : Nat), (l.map rd.crt).getD j 0 = rd.crt (l.getD j 0) := by
      intro l j
      rw [List.getD_eq_getElem?_getD, List.getElem?_map, List.getD_eq_getElem?_getD]
      rcases l[j]? with _ | x <;> simp
    have hli : ls.getD i [] = dg rd P.B P.L (rd.crt.symm (w.getD i 0)) := by
      rw [hls, List.map_map, List.getD_eq_getElem?_getD, List.getElem?_map,
        List.getElem?_eq_getElem hi, List.getD_eq_getElem?_getD, List.getElem?_eq_getElem hi]
      rfl
    have : ∀ k ∈ range P.L, (P.B : Fin N → F) ^ k * (ls.flatten.map rd.crt).getD (i * P.L + k) 0
        = rd.crt ((P.B : C) ^ k * (dg rd P.B P.L (rd.crt.symm (w.getD i 0))).getD k 0) := by
      intro k hk
      rw [hgetD, flatten_getD 0 ls hlens i (mem_range.1 hk), hli, map_mul, map_pow, crt_natCast]
    rw [sum_congr rfl this, ← map_sum, (hd _).2.2.1]
    simp
  · intro c hc
    obtain ⟨l, hl, hcl⟩ := List.mem_flatten.1 hc
    obtain ⟨c', _, rfl⟩ := List.mem_map.1 hl
    exact (hd c').2.2.2 c hcl

/-- **C02** (1): committing to coefficient-form data has the same outcome as committing to any NTT-form
vector that transforms back to it. -/
theorem C02_commit_coeff (rd : RingData Fp F C N τ) (s : Ajtai (Fin N → F)) (f : List C)
    (g : List (Fin N → F)) (h : g.map rd.crt.symm = f) : s.commitCoeff rd f = s.commit g := by
  subst h
  unfold Ajtai.commitCoeff
  rw [map_crt_symm]

/-- **C02** (2): decompose-and-commit has exactly the outcome (value, error or abort) of constructing the
witness and committing to it. -/
theorem C02_decompose_commit_eq_witness (rd : RingData Fp F C N τ) (P : Params) (s : Ajtai (Fin N → F))
    (w : List (Fin N → F)) :
    s.decomposeAndCommitNtt rd P w = (do
      let wit ← Witness.fromWCcs rd P w
      wit.commit s) := by
  unfold Ajtai.decomposeAndCommitNtt Ajtai.decomposeAndCommitCoeff Witness.fromWCcs gadgetDecompose
  rcases mapRes (rd.dec P.B P.L) (w.map rd.crt.symm) with e | ds
  · rfl
  · rfl

/-- **C02** (3): with admissible parameters decompose-and-commit succeeds iff `|w| * L` is the width of
the matrix, and then it commits to a vector of digits bounded by `B / 2` that recomposes to `w`. -/
theorem C02_decompose_commit_spec (rd : RingData Fp F C N τ) (P : Params) (hP : ParamsOK Fp P)
    (s : Ajtai (Fin N → F)) (w : List (Fin N → F)) :
    (∀ c, s.decomposeAndCommitNtt rd P w = .ok c → w.length * P.L = s.matrix.ncols) ∧
    (w.length * P.L = s.matrix.ncols → ∃ f : List C, f.length = w.length * P.L ∧
      (∀ a ∈ f, ∀ i, Short P.B (rd.coeff a i)) ∧
      (∀ i < w.length, w.getD i 0
        = ∑ k ∈ range P.L, (P.B : Fin N → F) ^ k * rd.crt (f.getD (i * P.L + k) 0)) ∧
      s.decomposeAndCommitNtt rd P w = .ok ⟨s.matrix.vals.map fun row => dot row (f.map rd.crt)⟩) := by
  obtain ⟨wit, h1, h2, h3, h4, -⟩ := fromWCcs_ok rd P hP w
  rw [C02_decompose_commit_eq_witness, h1]
  simp only [bind_ok']
  have hfl : wit.f.length = w.length * P.L := by rw [h2.f, List.length_map, h2.flen]
  constructor
  · intro c hc
    by_contra hne
    unfold Witness.commit Ajtai.commit at hc
    rw [if_pos (by rw [hfl]; exact hne)] at hc
    cases hc
  · intro hw
    refine ⟨wit.fCoeff, h2.flen, h4, ?_, ?_⟩
    · intro i hi
      have := h2.w i hi
      rw [h3] at this
      rw [this, h2.f]
      apply sum_congr rfl
      intro k _
      rw [List.getD_eq_getElem?_getD, List.getElem?_map, List.getD_eq_getElem?_getD]
      rcases wit.fCoeff[i * P.L + k]? with _ | x <;> simp
    · unfold Witness.commit
      rw [commit_ok s _ (by rw [hfl, hw]), h2.f]

open Verif.Example in
example : ∃ c, scheme5.decomposeAndCommitNtt ring5 par5 [![1, 4], ![2, 2]] = .ok c ∧
    c.val = [![0, 0]] := by
  have h := C02_decompose_commit_spec ring5 par5 par5_ok scheme5 [![1, 4], ![2, 2]]
  obtain ⟨f, hf, -, hw, hc⟩ := h.2 rfl
  have hf2 : f.length = 2 := hf
  obtain ⟨a, b, rfl⟩ := List.length_eq_two.1 hf2
  have e0 := hw 0 (by decide)
  have e1 := hw 1 (by decide)
  simp only [par5, sum_range_succ, sum_range_zero, pow_zero, one_mul, zero_add, List.getD_cons_zero,
    List.getD_cons_succ, mul_one] at e0 e1
  have ha : a = ![1, 4] := e0.symm
  have hb : b = ![2, 2] := e1.symm
  refine ⟨_, hc, ?_⟩
  rw [ha, hb]
  decide

open Verif.Example in
example : scheme5.commitCoeff ring5 [![1, 4], ![2, 2]] = scheme5.commit [![1, 4], ![2, 2]] :=
  C02_commit_coeff ring5 scheme5 _ _ rfl

/-- **C46**: a witness constructed from a CCS witness `w` keeps `w`; recomposing its Ajtai witness gives
`w`; its NTT form, coefficient form and `f`-hat tables agree; its digits are bounded by `B / 2`; and
rebuilding it from either form of its Ajtai witness gives the same witness. -/
theorem C46_witness_consistent (rd : RingData Fp F C N τ) (P : Params) (hP : ParamsOK Fp P)
    (w : List (Fin N → F)) :
    ∃ wit, Witness.fromWCcs rd P w = .ok wit ∧ wit.wCcs = w ∧ WitOK rd P w.length wit ∧
      WitShort rd P.B wit ∧ gadgetRecompose P.B P.L wit.f = .ok w ∧
      Witness.fromF rd P wit.f = .ok wit ∧ Witness.fromFCoeff rd P wit.fCoeff = .ok wit := by
  obtain ⟨wit, h1, h2, h3, h4, h5⟩ := fromWCcs_ok rd P hP w
  have hfl : wit.f.length = w.length * P.L := by rw [h2.f, List.length_map, h2.flen]
  have hrec : gadgetRecompose P.B P.L wit.f = .ok w := by
    rw [gadgetRecompose_ok hP.Lpos wit.f hfl]
    congr 1
    apply ext_getD (n := w.length) (by simp) rfl
    intro i hi
    rw [getD_map_range _ _ hi, ← h2.w i hi, h3]
  have hfe : wit.f = wit.fCoeff.map rd.crt := h2.f
  have hhat : wit.fHat = getFhat rd wit.fCoeff := by
    unfold Witness.fromWCcs at h1
    rw [bind_eq_ok] at h1
    obtain ⟨fc, _, h⟩ := h1
    rw [← Except.ok.inj h]
  have hic : wit.f.map rd.crt.symm = wit.fCoeff := by
    rw [hfe, List.map_map]
    conv_rhs => rw [← List.map_id wit.fCoeff]
    apply List.map_congr_left
    intro x _
    simp
  refine ⟨wit, h1, h3, h2, h4, hrec, ?_, ?_⟩
  · unfold Witness.fromF
    simp only
    rw [hrec, hic]
    simp only [bind_ok']
    rw [← hhat, ← h3]
  · unfold Witness.fromFCoeff
    simp only
    rw [← hfe, hrec]
    simp only [bind_ok']
    rw [← hhat, ← h3]

/-- **C46**, for witnesses built from an Ajtai witness of length `wl * L`: all views agree. -/
theorem C46_from_f_consistent (rd : RingData Fp F C N τ) (P : Params) (hL : 1 ≤ P.L) {wl : Nat}
    (f : List (Fin N → F)) (hf : f.length = wl * P.L) :
    ∃ wit, Witness.fromF rd P f = .ok wit ∧ WitOK rd P wl wit ∧ wit.f = f := by
  obtain ⟨wit, h1, h2, h3, _⟩ := fromF_ok rd P hL f hf
  exact ⟨wit, h1, h2, h3⟩

open Verif.Example in
example : ∃ wit, Witness.fromWCcs ring5 ⟨2, 3, 2, 2⟩ [![1, 4], ![2, 3]] = .ok wit ∧
    gadgetRecompose 2 3 wit.f = .ok [![1, 4], ![2, 3]] ∧
    Witness.fromF ring5 ⟨2, 3, 2, 2⟩ wit.f = .ok wit := by
  obtain ⟨wit, h1, -, -, -, h2, h3, -⟩ := C46_witness_consistent ring5 ⟨2, 3, 2, 2⟩
    ⟨by decide, by decide, by decide, by decide, by decide, by decide, by decide,
      fun x => short5.2 (by revert x; decide), by decide⟩ [![1, 4], ![2, 3]]
  exact ⟨wit, h1, h2, h3⟩

end Verif.Props
