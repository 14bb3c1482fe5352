import Verif.Lemmas.PlusCmTail
import Verif.Props.PlusRange

/-!
# Property theorems: the commitment transformation of `latticefold-plus` (C58, C59)
-/

set_option linter.unusedSectionVars false
set_option linter.unusedSimpArgs false

namespace Verif.Props

open Finset Verif Verif.Spec Verif.Plus

variable {F R σ : Type} {d : Nat}
variable [Field F] [CommRing R] [Algebra F R] [DecidableEq F] [DecidableEq R]

/-! ## C58 -/

/-- The instances and matrices of a run: instances with their commitments, built for the commitment matrix `A`, such that the vectors `t(z)`
fit into the `n` entries. `fs` are the vectors encoded by the matrices of monomials. -/
structure CmHyps (pr : PlusRing F R d) (T : Transcript F R σ) (A : Mat R) (n : Nat) (rg : Rg F R) (M : List (SpMat R))
    (fs : RgInstance F R → List R) : Prop where
  deg : 3 ≤ d
  bytes : BytesOK T
  n2 : 2 ≤ n
  nv : rg.nvars = Nat.clog 2 n
  char : CharGt F 3
  k : 1 ≤ rg.dparams.k
  l : 1 ≤ rg.dparams.l
  count : 2 ≤ rg.dparams.k * rg.instances.length
  valid : ∀ inst ∈ rg.instances, RgValid pr n rg.dparams.k inst (fs inst)
  com : ∀ inst ∈ rg.instances, RgCommitted pr A rg.dparams.k rg.dparams.l inst
  cmF : ∀ inst ∈ rg.instances, inst.fcoms.cmF = commit A inst.f
  Acols : A.ncols = n
  mats : MatsOK F rg.nvars n M
  pow : M ≠ [] → n = 2 ^ rg.nvars
  size : 2 ^ Nat.clog 2 A.nrows * rg.dparams.k * d * rg.dparams.l * d ≤ n

theorem CmHyps.input {pr : PlusRing F R d} {T : Transcript F R σ} {A : Mat R} {n : Nat} {rg : Rg F R} {M : List (SpMat R)}
    {fs : RgInstance F R → List R} (h : CmHyps pr T A n rg M fs) : CmInput pr T A n rg M where
  deg := h.deg
  bytes := h.bytes
  nv := by rw [h.nv]; exact Nat.clog_pos (by norm_num) h.n2
  nle := by rw [h.nv]; exact Nat.le_pow_clog (by norm_num) n
  char := fun m h1 h2 => h.char m h1 (by omega)
  k := h.k
  l := h.l
  ne := by
    intro he
    have := h.count
    rw [he] at this
    simp at this
  shape := fun inst hi => ⟨(h.valid inst hi).flen, (h.valid inst hi).taulen, (h.valid inst hi).mTaulen, (h.valid inst hi).count,
    (h.valid inst hi).shape⟩
  com := h.com
  cmF := h.cmF
  Acols := h.Acols
  mats := h.mats
  pow := h.pow
  size := h.size

/-- **C58** (partial): completeness of the commitment transformation. For valid instances with their commitments the prover succeeds, and
the verifier accepts with the same statement and the same transcript state. The folded witness of every instance is
`s0 tau + s1 m_tau + s2 f + ∑ M_κ s'_κ` with short challenges, drawn in the state in which the verifier is after the range check; the statement contains its commitment and the evaluations, at both points, of the folded witness and
of its products with the matrices. The commitments of the instances are part of the proof. Left out, because it fails: a single matrix of monomials and matrices with entries outside the base field
(`C56_rejected`, `C56_nonscalar_rejected`), and matrices together with vectors whose length is not a power of two
(`C58_not_power_of_two`). -/
theorem C58_complete_partial (pr : PlusRing F R d) (T : Transcript F R σ) (s : σ) (A : Mat R) (n : Nat) (rg : Rg F R) (M : List (SpMat R))
    (h : CmHyps pr T A n rg M (·.f)) :
    ∃ com proof s', cmProve pr T s rg M = .ok ((com, proof), s') ∧ cmVerify pr T s M proof = .ok (com.x, s') ∧
      (∃ s0 s1 s2 sp, ShortChallenges pr s0 s1 s2 sp ∧ (∃ st, dcomVerify pr T s proof.dcom = .ok st ∧ ChallengesFrom pr T rg.dparams.k st s0 s1 s2 sp) ∧
        com.g = rg.instances.map fun inst => (List.range n).map (foldedEntry d s0 s1 s2 sp inst)) ∧
      com.x.cmG = com.g.map (commit A) ∧ com.x.ro.length = rg.nvars ∧ com.x.vo = com.g.map (evalPairs M com.x.ro) ∧
      proof.dcom.fcoms = rg.instances.map (·.fcoms) := by
  obtain ⟨dcom, s1, h1, h2, h3, h4, h5, h6, h7, h8⟩ := C56_complete_partial pr T s n rg M h.n2 h.nv h.char h.count h.valid h.mats
  obtain ⟨com, proof, s', g1, g2, g3, g4, g5, g6, g7⟩ := cmTail_run pr T s1 h.input (dcom := dcom) ⟨h6, h7, h8, by rw [h3, List.length_map],
    by
      intro l hl hl'
      have : dcom.evals[l] = evalsAt pr M dcom.out.r rg.instances[l] := by
        have e : dcom.evals[l] = dcom.evals.getD l ⟨[], [], [], []⟩ := by simp [List.getD_eq_getElem?_getD, hl']
        rw [e, h3]
        simp [List.getD_eq_getElem?_getD, hl]
      rw [this]
      exact ⟨rfl, rfl, rfl⟩, h4⟩ h5
  obtain ⟨a, b, c, sp, e1, e2, e3⟩ := g4
  refine ⟨com, proof, s', ?_, g3 s h2, ⟨a, b, c, sp, e1, ⟨s1, by rw [g2]; exact h2, e2⟩, e3⟩, g5, g6, g7, by rw [g2, h4]⟩
  unfold cmProve
  rw [h1, bind_ok']
  exact g1

/-- The hypotheses of `CmHyps` for instances with commitment matrices of their own, of the same shape. -/
structure CmHypsOwn (pr : PlusRing F R d) (T : Transcript F R σ) (Af : RgInstance F R → Mat R) (κ n : Nat) (rg : Rg F R) (M : List (SpMat R)) : Prop where
  deg : 3 ≤ d
  bytes : BytesOK T
  n2 : 2 ≤ n
  nv : rg.nvars = Nat.clog 2 n
  char : CharGt F 3
  k : 1 ≤ rg.dparams.k
  l : 1 ≤ rg.dparams.l
  count : 2 ≤ rg.dparams.k * rg.instances.length
  valid : ∀ inst ∈ rg.instances, RgValid pr n rg.dparams.k inst inst.f
  com : ∀ inst ∈ rg.instances, RgCommitted pr (Af inst) rg.dparams.k rg.dparams.l inst
  cmF : ∀ inst ∈ rg.instances, inst.fcoms.cmF = commit (Af inst) inst.f
  Arows : ∀ inst ∈ rg.instances, (Af inst).nrows = κ
  Acols : ∀ inst ∈ rg.instances, (Af inst).ncols = n
  mats : MatsOK F rg.nvars n M
  pow : M ≠ [] → n = 2 ^ rg.nvars
  size : 2 ^ Nat.clog 2 κ * rg.dparams.k * d * rg.dparams.l * d ≤ n

theorem CmHypsOwn.inputs {pr : PlusRing F R d} {T : Transcript F R σ} {Af : RgInstance F R → Mat R} {κ n : Nat} {rg : Rg F R} {M : List (SpMat R)}
    (h : CmHypsOwn pr T Af κ n rg M) : CmInputs pr T Af κ n rg M where
  deg := h.deg
  bytes := h.bytes
  nv := by rw [h.nv]; exact Nat.clog_pos (by norm_num) h.n2
  nle := by rw [h.nv]; exact Nat.le_pow_clog (by norm_num) n
  char := fun m h1 h2 => h.char m h1 (by omega)
  k := h.k
  l := h.l
  ne := by
    intro he
    have := h.count
    rw [he] at this
    simp at this
  shape := fun inst hi => ⟨(h.valid inst hi).flen, (h.valid inst hi).taulen, (h.valid inst hi).mTaulen, (h.valid inst hi).count,
    (h.valid inst hi).shape⟩
  com := h.com
  cmF := h.cmF
  Arows := h.Arows
  Acols := h.Acols
  mats := h.mats
  pow := h.pow
  size := h.size

/-- **C58** (partial): the same for instances with commitment matrices of their own: the statement contains, for every instance, the commitment under its own
matrix to its folded witness. -/
theorem C58_own_matrices_partial (pr : PlusRing F R d) (T : Transcript F R σ) (s : σ) (Af : RgInstance F R → Mat R) (κ n : Nat) (rg : Rg F R)
    (M : List (SpMat R)) (h : CmHypsOwn pr T Af κ n rg M) :
    ∃ com proof s', cmProve pr T s rg M = .ok ((com, proof), s') ∧ cmVerify pr T s M proof = .ok (com.x, s') ∧
      (∃ s0 s1 s2 sp, ShortChallenges pr s0 s1 s2 sp ∧ (∃ st, dcomVerify pr T s proof.dcom = .ok st ∧ ChallengesFrom pr T rg.dparams.k st s0 s1 s2 sp) ∧
        com.g = (rg.instances.map fun inst => (List.range n).map (foldedEntry d s0 s1 s2 sp inst)) ∧
        com.x.cmG = rg.instances.map fun inst => commit (Af inst) ((List.range n).map (foldedEntry d s0 s1 s2 sp inst))) ∧
      com.x.ro.length = rg.nvars ∧ com.x.vo = com.g.map (evalPairs M com.x.ro) ∧
      proof.dcom.fcoms = rg.instances.map (·.fcoms) := by
  obtain ⟨dcom, s1, h1, h2, h3, h4, h5, h6, h7, h8⟩ := C56_complete_partial pr T s n rg M h.n2 h.nv h.char h.count h.valid h.mats
  obtain ⟨com, proof, s', g1, g2, g3, g4, g6, g7⟩ := cmTails_run pr T s1 h.inputs (dcom := dcom) ⟨h6, h7, h8, by rw [h3, List.length_map],
    by
      intro l hl hl'
      have : dcom.evals[l] = evalsAt pr M dcom.out.r rg.instances[l] := by
        have e : dcom.evals[l] = dcom.evals.getD l ⟨[], [], [], []⟩ := by simp [List.getD_eq_getElem?_getD, hl']
        rw [e, h3]
        simp [List.getD_eq_getElem?_getD, hl]
      rw [this]
      exact ⟨rfl, rfl, rfl⟩, h4⟩ h5
  obtain ⟨a, b, c, sp, e1, e2, e3, e4⟩ := g4
  refine ⟨com, proof, s', ?_, g3 s h2, ⟨a, b, c, sp, e1, ⟨s1, by rw [g2]; exact h2, e2⟩, e3, e4⟩, g6, g7, by rw [g2, h4]⟩
  unfold cmProve
  rw [h1, bind_ok']
  exact g1

theorem mapRes_mem {α β : Type} {f : α → Res β} {l : List α} {bs : List β} (h : mapRes f l = .ok bs) {a : α} (ha : a ∈ l) :
    ∃ b, f a = .ok b := by
  rw [mapRes_eq_ok_iff] at h
  induction h with
  | nil => simp at ha
  | cons h1 _ ih =>
    rcases List.mem_cons.1 ha with rfl | ha
    · exact ⟨_, h1⟩
    · exact ih ha

theorem combineMats_length {N : Nat} {ms : List (Mat R)} {sp : List (List R)} {w : List R} (h : combineMats N ms sp = .ok w) : w.length = N := by
  have key : ∀ (vs : List (List R)) (h0 w : List R), foldRes addInto h0 vs = .ok w → w.length = h0.length := by
    intro vs
    induction vs with
    | nil =>
      intro h0 w hw
      simp only [foldRes, Except.ok.injEq] at hw
      rw [hw]
    | cons v vs ih =>
      intro h0 w hw
      unfold foldRes addInto at hw
      split_ifs at hw with hc
      rw [ih _ _ hw, Plus.zipAssign_length]
  obtain ⟨vs, -, h⟩ := bind_eq_ok.1 h
  rw [key _ _ _ h, List.length_replicate]

/-- **C58** is false for matrices together with a length that is not a power of two: the prover never finishes, since `h` is
padded to the next power of two before it is multiplied with the matrices. -/
theorem C58_not_power_of_two (pr : PlusRing F R d) (T : Transcript F R σ) (s : σ) (n : Nat) (rg : Rg F R) (M : List (SpMat R))
    (hne : rg.instances ≠ []) (hMne : M ≠ []) (hM : ∀ m ∈ M, m.ncols = n) (hn : n ≠ 2 ^ rg.nvars) :
    ∀ res, cmProve pr T s rg M ≠ .ok res := by
  intro res hres
  unfold cmProve at hres
  obtain ⟨⟨dcom, s1⟩, -, hres⟩ := bind_eq_ok.1 hres
  unfold cmProveTail at hres
  obtain ⟨_, -, hres⟩ := bind_eq_ok.1 hres
  obtain ⟨_, -, hres⟩ := bind_eq_ok.1 hres
  obtain ⟨_, -, hres⟩ := bind_eq_ok.1 hres
  obtain ⟨hs, hh, hres⟩ := bind_eq_ok.1 hres
  obtain ⟨_, -, hres⟩ := bind_eq_ok.1 hres
  obtain ⟨_, -, hres⟩ := bind_eq_ok.1 hres
  obtain ⟨_, -, hres⟩ := bind_eq_ok.1 hres
  obtain ⟨_, -, hres⟩ := bind_eq_ok.1 hres
  obtain ⟨_, hsc, -⟩ := bind_eq_ok.1 hres
  unfold sumchecker at hsc
  obtain ⟨_, -, hsc⟩ := bind_eq_ok.1 hsc
  obtain ⟨_, hts, -⟩ := bind_eq_ok.1 hsc
  obtain ⟨inst, insts, hi⟩ := List.exists_cons_of_ne_nil hne
  obtain ⟨m, ms, hm⟩ := List.exists_cons_of_ne_nil hMne
  have hlen := mapRes_length hh
  rw [hi] at hh hts hlen
  obtain ⟨h0, hs', rfl⟩ : ∃ h0 hs', hs = h0 :: hs' := by
    cases hs with
    | nil => simp at hlen
    | cons a l => exact ⟨a, l, rfl⟩
  rw [mapRes_eq_ok_iff, List.forall₂_cons] at hh
  have hl0 := combineMats_length hh.1
  obtain ⟨ts, hts⟩ := mapRes_mem hts (a := instVecs (inst, h0)) (by simp)
  unfold instTables at hts
  obtain ⟨_, -, hts⟩ := bind_eq_ok.1 hts
  obtain ⟨_, hts, -⟩ := bind_eq_ok.1 hts
  have hmm : m ∈ M := by rw [hm]; simp
  obtain ⟨_, hts⟩ := mapRes_mem hts hmm
  obtain ⟨_, hts⟩ := mapRes_mem hts (a := h0) (by simp [instVecs])
  obtain ⟨_, hts, -⟩ := bind_eq_ok.1 hts
  unfold SpMat.tryMulVec at hts
  split_ifs at hts with hc
  rw [hl0, hM m hmm] at hc
  exact hn hc.symm

/-! The example: two instances with vectors of length 128. -/

/-- A commitment matrix with one row and 128 columns. -/
def B17 : Mat Example.R17 := ⟨1, 128, [(List.range 128).map fun i => (i : Example.R17) + Example.plus17.X]⟩

/-- The vector `x, 0, 0, ..` of length 128. -/
def long17 (x : Example.R17) : List Example.R17 := x :: List.replicate 127 0

/-- A matrix with 128 columns over the base field. -/
def N17 : SpMat Example.R17 := ⟨2, 128, [[(1, 0), (3, 5)], [(2, 7)]]⟩

theorem B17_wf : B17.WF := by
  refine ⟨rfl, ?_⟩
  intro r hr
  simp only [B17, List.mem_cons, List.not_mem_nil, or_false] at hr
  rw [hr]
  simp [B17]

theorem N17_ok : MatsOK (ZMod 17) 7 128 [N17] := by
  intro Mi hMi
  obtain rfl := List.mem_singleton.1 hMi
  refine ⟨by unfold SpMat.WF; decide, rfl, by decide, ?_⟩
  intro row hr t ht
  simp only [N17, List.mem_cons, List.not_mem_nil, or_false] at hr
  rcases hr with rfl | rfl <;> simp only [List.mem_cons, List.not_mem_nil, or_false] at ht
  · rcases ht with rfl | rfl
    · exact ⟨1, by simp⟩
    · exact ⟨3, by decide⟩
  · subst ht
    exact ⟨2, by decide⟩

theorem long17_short : ∀ x ∈ long17 (1 - Example.plus17.X ^ 3), ∀ i, Short (dp17.b ^ dp17.k) (Example.plus17.coeff x i) := by
  intro x hx i
  rw [Example.shortZ]
  simp only [long17, List.mem_cons, List.mem_replicate] at hx
  rcases hx with rfl | ⟨_, rfl⟩ <;> revert i <;> decide

theorem inst128 : ∃ inst, fromF Example.plus17 (long17 (1 - Example.plus17.X ^ 3)) B17 dp17 = .ok inst ∧
    inst.f = long17 (1 - Example.plus17.X ^ 3) ∧ RgValid Example.plus17 128 1 inst (long17 (1 - Example.plus17.X ^ 3)) ∧
    RgCommitted Example.plus17 B17 1 4 inst ∧ inst.fcoms.cmF = commit B17 (long17 (1 - Example.plus17.X ^ 3)) := by
  obtain ⟨inst, h1, h2, h3, h4, h5, -⟩ := C55_from_f Example.plus17 B17_wf (by simp [B17, long17]) rfl (by decide) (by decide) (by decide)
    (by decide) long17_short short17 (by simp [B17, long17, dp17])
  exact ⟨inst, h1, h2, h3, h4, h5⟩

theorem hyps128 (T : Transcript (ZMod 17) Example.R17 σ) (hT : BytesOK T) (inst : RgInstance (ZMod 17) Example.R17) (f' : List Example.R17)
    (h2 : RgValid Example.plus17 128 1 inst f') (h3 : RgCommitted Example.plus17 B17 1 4 inst) (h4 : inst.fcoms.cmF = commit B17 inst.f)
    (fs : RgInstance (ZMod 17) Example.R17 → List Example.R17) (hfs : fs inst = f') :
    CmHyps Example.plus17 T B17 128 ⟨7, [inst, inst], dp17⟩ [N17] fs where
  deg := by decide
  bytes := hT
  n2 := by decide
  nv := by change 7 = Nat.clog 2 128; decide
  char := charGt17
  k := by change 1 ≤ dp17.k; decide
  l := by change 1 ≤ dp17.l; decide
  count := by simp [dp17]
  valid := by
    intro i hi
    simp only [List.mem_cons, List.not_mem_nil, or_false, or_self] at hi
    subst hi
    rw [hfs]
    exact h2
  com := by
    intro i hi
    simp only [List.mem_cons, List.not_mem_nil, or_false, or_self] at hi
    subst hi
    exact h3
  cmF := by
    intro i hi
    simp only [List.mem_cons, List.not_mem_nil, or_false, or_self] at hi
    subst hi
    exact h4
  Acols := rfl
  mats := N17_ok
  pow := fun _ => rfl
  size := by simp [B17, dp17]

example (T : Transcript (ZMod 17) Example.R17 σ) (hT : BytesOK T) (s : σ) : ∃ inst com proof s',
    fromF Example.plus17 (long17 (1 - Example.plus17.X ^ 3)) B17 dp17 = .ok inst ∧
    cmProve Example.plus17 T s ⟨7, [inst, inst], dp17⟩ [N17] = .ok ((com, proof), s') ∧
    cmVerify Example.plus17 T s [N17] proof = .ok (com.x, s') ∧ com.x.cmG = com.g.map (commit B17) := by
  obtain ⟨inst, h1, hf, h2, h3, h4⟩ := inst128
  obtain ⟨com, proof, s', g1, g2, -, g3, -⟩ := C58_complete_partial Example.plus17 T s B17 128 ⟨7, [inst, inst], dp17⟩ [N17]
    (hyps128 T hT inst _ h2 h3 (by rw [hf]; exact h4) (·.f) hf)
  exact ⟨inst, com, proof, s', h1, g1, g2, g3⟩

/-- Two instances with commitment matrices of their own (`Classical` picks them: here every instance is committed to with `B17`). -/
example (T : Transcript (ZMod 17) Example.R17 σ) (hT : BytesOK T) (s : σ) : ∃ inst com proof s',
    cmProve Example.plus17 T s ⟨7, [inst, inst], dp17⟩ [N17] = .ok ((com, proof), s') ∧ cmVerify Example.plus17 T s [N17] proof = .ok (com.x, s') := by
  obtain ⟨inst, h1, hf, h2, h3, h4⟩ := inst128
  have hh := hyps128 T hT inst _ h2 h3 (by rw [hf]; exact h4) (·.f) hf
  obtain ⟨com, proof, s', g1, g2, -⟩ := C58_own_matrices_partial Example.plus17 T s (fun _ => B17) B17.nrows 128 ⟨7, [inst, inst], dp17⟩ [N17]
    ⟨hh.deg, hh.bytes, hh.n2, hh.nv, hh.char, hh.k, hh.l, hh.count, hh.valid, hh.com, hh.cmF, fun _ _ => rfl, fun _ _ => hh.Acols, hh.mats, hh.pow, hh.size⟩
  exact ⟨inst, com, proof, s', g1, g2⟩

/-- With vectors of length 65 the prover aborts. -/
example (T : Transcript (ZMod 17) Example.R17 σ) (s : σ) (inst : RgInstance (ZMod 17) Example.R17) :
    ∀ res, cmProve Example.plus17 T s ⟨7, [inst, inst], dp17⟩ [M17] ≠ .ok res :=
  C58_not_power_of_two Example.plus17 T s 65 _ _ (by simp) (by simp) (by simp [M17]) (by change 65 ≠ 2 ^ 7; decide)

/-! ## C59 -/

/-- **C59**: the missing check of C57 carries over to the commitment transformation. Let the matrices of monomials encode vectors
`fs inst` that have the same products with all matrices as the vectors `f` of the instances. Then there is an accepted proof, with the commitments to the
vectors `f` whatever their coefficients, and the resulting statement is true of the witness folded from the vectors `f`. -/
theorem C59_range_lost (pr : PlusRing F R d) (T : Transcript F R σ) (s : σ) (A : Mat R) (n : Nat) (rg : Rg F R) (M : List (SpMat R))
    (fs : RgInstance F R → List R) (h : CmHyps pr T A n rg M fs)
    (hf : ∀ inst ∈ rg.instances, ∀ m ∈ M, ∀ i, mulVec m inst.f i = mulVec m (fs inst) i) :
    ∃ proof x s', cmVerify pr T s M proof = .ok (x, s') ∧ proof.dcom.fcoms.map (·.cmF) = rg.instances.map (fun inst => commit A inst.f) ∧
      ∃ s0 s1 s2 sp, ∃ g : List (List R), g = (rg.instances.map fun inst => (List.range n).map (foldedEntry d s0 s1 s2 sp inst)) ∧
        x.cmG = g.map (commit A) ∧ x.vo = g.map (evalPairs M x.ro) := by
  obtain ⟨dcom, s1, h2, h4, h5, h6, h7, h8, h3⟩ := C57_range_not_established pr T s n rg M h.n2 h.nv h.char h.count fs h.valid hf h.mats
  have hlen : dcom.evals.length = rg.instances.length := by
    have := congrArg List.length h3
    simpa using this
  obtain ⟨com, proof, s', -, g2, g3, ⟨a, b, c, sp, -, -, g4⟩, g5, -, g7⟩ := cmTail_run pr T s1 h.input (dcom := dcom) ⟨h6, h7, h8, hlen,
    by
      intro l hl hl'
      have := congrArg (fun x => x[l]?) h3
      simpa [hl, hl'] using this, h4⟩ h5
  refine ⟨proof, com.x, s', g3 s h2, ?_, a, b, c, sp, com.g, g4, g5, g7⟩
  rw [g2, h4, List.map_map]
  apply List.map_congr_left
  intro inst hi
  exact h.cmF inst hi

/-- The vector with entry `5` at position `1`, which `N17` does not touch. -/
example (T : Transcript (ZMod 17) Example.R17 σ) (hT : BytesOK T) (s : σ) : ∃ f proof x s',
    ¬ (∀ x ∈ f, ∀ i, Short (dp17.b ^ dp17.k) (Example.plus17.coeff x i)) ∧
    cmVerify Example.plus17 T s [N17] proof = .ok (x, s') ∧ proof.dcom.fcoms.map (·.cmF) = List.replicate 2 (commit B17 f) := by
  obtain ⟨inst, -, hf, h2, h3, -⟩ := inst128
  let f : List Example.R17 := (long17 (1 - Example.plus17.X ^ 3)).set 1 5
  let bad : RgInstance (ZMod 17) Example.R17 := { inst with f := f, fcoms := { inst.fcoms with cmF := commit B17 f } }
  have hv : RgValid Example.plus17 128 1 bad (long17 (1 - Example.plus17.X ^ 3)) :=
    ⟨by simp [bad, f, long17], h2.flen', h2.taulen, h2.mTaulen, h2.count, h2.shape, h2.mono, h2.tauMono, h2.tauVal, h2.digits⟩
  have hc : RgCommitted Example.plus17 B17 1 4 bad := ⟨h3.count, h3.shape, h3.product, h3.tauDigits, h3.tauZero, h3.tauComs⟩
  obtain ⟨proof, x, s', g1, g2, -⟩ := C59_range_lost Example.plus17 T s B17 128 ⟨7, [bad, bad], dp17⟩ [N17]
    (fun _ => long17 (1 - Example.plus17.X ^ 3)) (hyps128 T hT bad _ hv hc rfl _ rfl) (by
      intro i hi m hm x
      simp only [List.mem_cons, List.not_mem_nil, or_false, or_self] at hi hm
      subst hi hm
      unfold mulVec
      apply sum_congr rfl
      intro j _
      by_cases hj : j = 1
      · subst hj
        have : entry N17 x 1 = 0 := by
          unfold entry N17
          rcases x with _ | _ | x <;> simp
        rw [this, zero_mul, zero_mul]
      · congr 1
        change ((long17 (1 - Example.plus17.X ^ 3)).set 1 5).getD j 0 = _
        rw [List.getD_eq_getElem?_getD, List.getElem?_set_ne (Ne.symm hj), ← List.getD_eq_getElem?_getD])
  refine ⟨f, proof, x, s', ?_, g1, ?_⟩
  · intro h
    have := h 5 (by simp [f, long17]) 0
    rw [Example.shortZ] at this
    revert this
    decide
  · rw [g2]
    simp [bad]

end Verif.Props
