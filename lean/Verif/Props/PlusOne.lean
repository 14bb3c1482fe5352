import Verif.Props.PlusFold

/-!
# C63 for one instance with one matrix of monomials (`LinB::lin` with one digit)
-/

set_option linter.unusedSectionVars false
set_option linter.unusedSimpArgs false

namespace Verif.Props

open Finset Spec Verif Verif.Plus

variable {F R σ : Type} {d : Nat} [Field F] [CommRing R] [Algebra F R] [DecidableEq F] [DecidableEq R]

/-- The range check of one instance with one matrix of monomials: the prover succeeds, and the verifier accepts exactly if the
contribution of `m_tau` to the value that it recomputes vanishes. -/
theorem rangeCheck_one (pr : PlusRing F R d) (T : Transcript F R σ) (s : σ) (n : Nat) (rg : Rg F R) (M : List (SpMat R))
    (hn : 2 ≤ n) (hnv : rg.nvars = Nat.clog 2 n) (hc : CharGt F 3) (hcount : rg.dparams.k * rg.instances.length = 1)
    (h : ∀ inst ∈ rg.instances, RgValid pr n rg.dparams.k inst inst.f) (hM : MatsOK F rg.nvars n M) :
    ∃ dcom s', rangeCheck pr T s rg M = .ok (dcom, s') ∧
      (dcomVerify pr T s dcom = .ok s' ↔ vectorTerms pr T s dcom.out = 0) ∧
      (vectorTerms pr T s dcom.out ≠ 0 → (dcomVerify pr T s dcom).isPanic) ∧
      dcom.evals = rg.instances.map (evalsAt pr M dcom.out.r) ∧ dcom.fcoms = rg.instances.map (·.fcoms) ∧
      dcom.dparams = rg.dparams ∧ dcom.out.nvars = rg.nvars ∧ dcom.out.r.length = rg.nvars ∧
      dcom.out.e = columnsAt M (dcom.out.r.map (algebraMap F R)) d rg.instances ∧
      dcom.out.b = rg.instances.map (fun inst => mle (fun i => inst.mTau.getD i 0) (dcom.out.r.map (algebraMap F R))) ∧
      ∃ t sc s2, verifyAsSubprotocol T t rg.nvars 3 0 dcom.out.sumcheck = .ok (sc, s2) ∧ sc.point = dcom.out.r := by
  have hin := rangeSets_input pr n rg M hn hnv h hM
  have hmono := rangeSets_mono pr n rg h
  have hnum := rangeSets_num pr n rg h
  obtain ⟨out, s', h1, h2, h3⟩ := C51_one_matrix_iff pr T s rg.nvars n d (rangeSets rg.instances) M hin hmono hc (by rw [hnum, hcount])
  obtain ⟨out', sc, s2, k1, k2, k3, k4, k5, k6, k7, -⟩ :=
    setCheck_run pr T s rg.nvars n d (rangeSets rg.instances) M (hin.shape (by rw [hnum, hcount]; exact one_pos)) hc
  rw [h1] at k1
  simp only [Except.ok.injEq, Prod.mk.injEq] at k1
  obtain ⟨rfl, -⟩ := k1
  rw [setE_range rg.instances M _ (fun inst hi D hD => ((h inst hi).shape D hD).1)] at k6
  have h6' : out.b = rg.instances.map (fun inst => mle (fun i => inst.mTau.getD i 0) (out.r.map (algebraMap F R))) := by
    rw [k7, vecSets_range]
    unfold setB
    rw [List.map_map]
    rfl
  have hrc := rangeCheck_of_set pr T s n rg M hn hnv h hM out s' h1 k5 h6'
  refine ⟨_, _, hrc, ⟨?_, ?_⟩, ?_, rfl, rfl, rfl, k3, k5, k6, h6', _, sc, s2, k2, k4⟩
  · intro hv
    obtain ⟨s1, hs, -⟩ := (dcomVerify_iff _ _ _ _ _).1 hv
    by_contra hne
    exact h3 hne _ hs
  · intro hv
    exact dcomVerify_ok pr T s s' (fun inst => inst.f) rg.dparams (rg.instances.map (·.fcoms)) out hM h
      (fun _ _ _ _ _ => rfl) k6 (h2.2 hv)
  · intro hne
    unfold dcomVerify
    cases hs : setVerify pr T s out with
    | ok s'' => exact absurd hs (h3 hne s'')
    | error e =>
      simp only [hs, unwrapRes]
      rfl

/-- One instance and one digit: the fold, its verification, and the point of the set check. -/
theorem lin_one (pr : PlusRing F R d) (T : Transcript F R σ) (s : σ) {A : Mat R} {n : Nat} {params : LinParams} {M : List (SpMat R)}
    (hp : MlinParams pr T A n params M) (l : LinB R) (hw : WitOK pr n params l.f) (hk : params.decomp.k = 1) :
    ∃ lb proof s' inst, lin pr T s params l A M = .ok ((lb, proof), s') ∧
      LinValid A M (Nat.clog 2 n) n lb.g lb.x.cmG lb.x.ro lb.x.vo ∧
      ((∃ x, cmVerify pr T s M proof = .ok (x, s')) ↔ vectorTerms pr T s proof.dcom.out = 0) ∧
      (vectorTerms pr T s proof.dcom.out ≠ 0 → (cmVerify pr T s M proof).isPanic) ∧
      fromF pr l.f A params.decomp = .ok inst ∧ proof.dcom.out.nvars = Nat.clog 2 n ∧
      proof.dcom.out.r.length = Nat.clog 2 n ∧
      proof.dcom.out.b = [mle (fun i => inst.mTau.getD i 0) (proof.dcom.out.r.map (algebraMap F R))] ∧
      ∃ t sc s2, verifyAsSubprotocol T t (Nat.clog 2 n) 3 0 proof.dcom.out.sumcheck = .ok (sc, s2) ∧ sc.point = proof.dcom.out.r := by
  have hd : 4 ≤ d := by have := hp.b; have := hp.b2; omega
  obtain ⟨hlen, hsh⟩ := hw
  obtain ⟨inst, i1, i2, i3, i4, i5, i6⟩ := C55_from_f pr hp.wf (by rw [hp.cols, hlen]) hp.b hp.b2 hp.even hp.k hp.l hsh hp.digits
    (by rw [hlen]; exact hp.size)
  rw [hlen] at i3
  set rg : Rg F R := ⟨Nat.clog 2 n, [inst], params.decomp⟩ with hrg
  have hval : ∀ i ∈ rg.instances, RgValid pr n rg.dparams.k i i.f := by
    intro i hi
    obtain rfl := List.mem_singleton.1 hi
    rw [i2]
    exact i3
  obtain ⟨dcom, s1, h1, h2, h2', h3, h4, h5, h6, h7, h8, h9, h10⟩ := rangeCheck_one pr T s n rg M hp.n2 rfl hp.char
    (by simp [hrg, hk]) hval hp.mats
  have hinp : CmInput pr T A n rg M :=
    { deg := by omega
      bytes := hp.bytes
      nv := Nat.clog_pos (by norm_num) hp.n2
      nle := Nat.le_pow_clog (by norm_num) n
      char := fun m h1 h2 => hp.char m h1 (by omega)
      k := hp.k
      l := hp.l
      ne := by simp [hrg]
      shape := fun i hi => ⟨(hval i hi).flen, (hval i hi).taulen, (hval i hi).mTaulen, (hval i hi).count, (hval i hi).shape⟩
      com := by
        intro i hi
        obtain rfl := List.mem_singleton.1 hi
        exact i4
      cmF := by
        intro i hi
        obtain rfl := List.mem_singleton.1 hi
        rw [i2]
        exact i5
      Acols := hp.cols
      mats := hp.mats
      pow := hp.pow
      size := hp.size2 }
  obtain ⟨com, proof, s', g1, g2, g3, g4, g5, g6, g7⟩ := cmTail_run pr T s1 hinp (dcom := dcom) ⟨h6, h7, h8, by rw [h3, List.length_map],
    by
      intro l hl hl'
      have : dcom.evals[l] = evalsAt pr M dcom.out.r rg.instances[l] := by
        have e : dcom.evals[l] = dcom.evals.getD l ⟨[], [], [], []⟩ := by simp [List.getD_eq_getElem?_getD, hl']
        rw [e, h3]
        simp [List.getD_eq_getElem?_getD, hl]
      rw [this]
      exact ⟨rfl, rfl, rfl⟩, h4⟩ h5
  obtain ⟨a, b, c, sp, e1, e2, e3⟩ := g4
  have hgl : ∀ v ∈ com.g, v.length = n := by
    intro v hv
    rw [e3] at hv
    obtain ⟨inst, _, rfl⟩ := List.mem_map.1 hv
    simp
  have hcm : cmProve pr T s rg M = .ok ((com, proof), s') := by
    unfold cmProve
    rw [h1, bind_ok']
    exact g1
  refine ⟨⟨sumVecs n com.g, ⟨sumVecs A.nrows com.x.cmG, com.x.ro, evalPairs M com.x.ro (sumVecs n com.g)⟩⟩, proof, s', inst, ?_, ?_, ?_, ?_,
    i1, by rw [g2]; exact h6, by rw [g2]; exact h7, by rw [g2, h9]; rfl, by rw [g2]; exact h10⟩
  · unfold lin mlin
    rw [idx_ok (by simp)]
    simp only [bind_ok', List.getElem_cons_zero]
    have hmap : mapRes (fun lin : LinB R => fromF pr lin.f A params.decomp) [l] = .ok [inst] := by
      simp only [mapRes, i1]
    rw [hmap]
    simp only [bind_ok']
    rw [hlen, ← hrg, hcm]
    simp only [bind_ok']
    have hvo : 0 < com.x.vo.length := by
      rw [g7, e3]
      simp [hrg]
    rw [idx_ok hvo]
    simp only [bind_ok']
    have hvl : com.x.vo[0].length = M.length + 1 := by
      have hall : ∀ v ∈ com.x.vo, v.length = M.length + 1 := by
        rw [g7]
        intro v hv
        obtain ⟨g, _, rfl⟩ := List.mem_map.1 hv
        exact evalPairs_length _ _ _
      exact hall _ (List.getElem_mem hvo)
    rw [hvl]
    conv_lhs => rw [g7]
    rw [sumPairs_ok M com.x.ro com.g hgl]
    simp only [bind_ok']
    rw [hp.kappa]
  · refine ⟨sumVecs_length com.g hgl, ?_, g6, rfl⟩
    simp only
    rw [g5, commit_sum A com.g hgl]
  · rw [g2]
    constructor
    · rintro ⟨x, hx⟩
      by_contra hne
      have hpanic := h2' hne
      unfold cmVerify at hx
      simp only [bind_eq_ok] at hx
      obtain ⟨st, hst, -⟩ := hx
      rw [g2] at hst
      cases hdv : dcomVerify pr T s dcom with
      | ok y => rw [hdv] at hpanic; cases hpanic
      | error e => rw [hdv] at hst; cases hst
    · intro hv
      exact ⟨com.x, g3 s (h2.2 hv)⟩
  · rw [g2]
    intro hne
    have hpanic := h2' hne
    unfold cmVerify
    simp only [g2]
    cases hdv : dcomVerify pr T s dcom with
    | ok y => rw [hdv] at hpanic; cases hpanic
    | error e => rfl

/-- **C63** for one instance and one digit (so `LinB::lin` with `k = 1`): the fold is computed and its result is true, but the
verifier accepts the proof exactly if the contribution of `m_tau` to the value that the set check recomputes vanishes (the
prover leaves it out of the sum-check, see C51), and aborts otherwise. -/
theorem C63_one_iff (pr : PlusRing F R d) (T : Transcript F R σ) (s : σ) {A : Mat R} {n : Nat} {params : LinParams} {M : List (SpMat R)}
    (hp : MlinParams pr T A n params M) (l : LinB R) (hw : WitOK pr n params l.f) (hk : params.decomp.k = 1) :
    ∃ lb proof s' inst, lin pr T s params l A M = .ok ((lb, proof), s') ∧
      LinValid A M (Nat.clog 2 n) n lb.g lb.x.cmG lb.x.ro lb.x.vo ∧
      ((∃ x, cmVerify pr T s M proof = .ok (x, s')) ↔ vectorTerms pr T s proof.dcom.out = 0) ∧
      (vectorTerms pr T s proof.dcom.out ≠ 0 → (cmVerify pr T s M proof).isPanic) ∧
      fromF pr l.f A params.decomp = .ok inst ∧ proof.dcom.out.nvars = Nat.clog 2 n ∧
      proof.dcom.out.r.length = Nat.clog 2 n ∧
      proof.dcom.out.b = [mle (fun i => inst.mTau.getD i 0) (proof.dcom.out.r.map (algebraMap F R))] := by
  obtain ⟨lb, proof, s', inst, h1, h2, h3, h4, h5, h6, h7, h8, -⟩ := lin_one pr T s hp l hw hk
  exact ⟨lb, proof, s', inst, h1, h2, h3, h4, h5, h6, h7, h8⟩

/-! ### The verifier aborts on an honest proof -/

theorem drawRun_const (T : Transcript F R σ) (c : F) (hT : ∀ s, (T.challenge s).1 = c) (ms : List (List R)) (s : σ) :
    (drawRun T s ms).1 = List.replicate ms.length c := by
  induction ms generalizing s with
  | nil => rfl
  | cons m ms ih =>
    simp only [drawRun, List.length_cons, List.replicate_succ, ih, hT]

theorem verify_point_const (T : Transcript F R σ) (c0 : F) (hT : ∀ s, (T.challenge s).1 = c0) (s s2 : σ) (n deg : Nat) (c : R)
    (proof : List (List R)) (sc : SubClaim F R) (h1 : verifyAsSubprotocol T s n deg c proof = .ok (sc, s2)) :
    sc.point = List.replicate n c0 := by
  by_cases hn : n = 0
  · rw [hn, verify_zero] at h1; simp at h1
  by_cases hl : n ≤ proof.length
  · rw [verify_eq _ _ _ _ hn _ _ hl, bind_eq_ok] at h1
    obtain ⟨e, _, h1⟩ := h1
    simp only [Except.ok.injEq, Prod.mk.injEq] at h1
    rw [← h1.1]
    simp only [drawRun_const T c0 hT, List.length_take]
    rw [Nat.min_eq_left hl]
  · rw [verify_short _ _ _ _ _ _ (by omega)] at h1; simp at h1

/-- A transcript whose challenges are all `3`. -/
def three : Transcript (ZMod 17) Example.R17 Unit where
  absorb _ _ := ()
  challenge _ := (3, ())
  bytes _ n := (List.replicate n 1, ())

/-- A commitment matrix with the row `0, 1, -1, 0, 0, ..`. -/
def Aone : Mat Example.R17 := ⟨1, 65, [[0, 1, -1] ++ List.replicate 62 0]⟩

/-- One digit. -/
def paramsOne : LinParams := ⟨1, dp17⟩

theorem mlinOne : MlinParams Example.plus17 three Aone 65 paramsOne [] where
  bytes := fun _ _ => by simp [three]
  n2 := by decide
  char := charGt17
  wf := ⟨rfl, by intro r hr; simp only [Aone, List.mem_cons, List.not_mem_nil, or_false] at hr; rw [hr]; simp [Aone]⟩
  cols := rfl
  kappa := rfl
  b := rfl
  b2 := by decide
  even := by decide
  k := by decide
  l := by decide
  digits := short17
  mats := by simp [MatsOK]
  pow := by simp
  size := by decide
  size2 := by decide

theorem mTau_one : (match fromF Example.plus17 (vec17 (1 - Example.plus17.X ^ 3)) Aone dp17 with
    | .ok inst => decide (inst.mTau = List.replicate 65 1)
    | .error _ => false) = true := by decide +kernel

theorem terms_one : verVec Example.plus17 (mle (fun i => (List.replicate 65 (1 : Example.R17)).getD i 0)
      ((List.replicate 7 (3 : ZMod 17)).map (algebraMap (ZMod 17) Example.R17)))
    ((drawAll three 7 1 1 ()).1.1.getD 1 noCba) ((List.replicate 7 (3 : ZMod 17)).map (algebraMap (ZMod 17) Example.R17)) ≠ 0 := by
  decide +kernel

/-- **C63** fails for one instance with one digit: the fold of the vector `1 - X^3, 0, 0, ..` is computed and its result is true,
but the verifier aborts on the proof. -/
theorem C63_one_rejected (x : LinBX Example.R17) :
    ∃ lb proof s', lin Example.plus17 three () paramsOne ⟨vec17 (1 - Example.plus17.X ^ 3), x⟩ Aone [] = .ok ((lb, proof), s') ∧
      LinValid Aone [] 7 65 lb.g lb.x.cmG lb.x.ro lb.x.vo ∧
      (cmVerify Example.plus17 three () [] proof).isPanic := by
  have hclog : Nat.clog 2 65 = 7 := by decide
  obtain ⟨lb, proof, s', inst, h1, h2, -, h4, h5, h6, h7, h8, t, sc, s2, h9, h10⟩ :=
    lin_one Example.plus17 three () mlinOne ⟨vec17 (1 - Example.plus17.X ^ 3), x⟩ ⟨by simp [vec17], vec17_short⟩ rfl
  rw [hclog] at h2 h6 h9
  refine ⟨lb, proof, s', h1, h2, h4 ?_⟩
  have hr : proof.dcom.out.r = List.replicate 7 3 := by
    rw [← h10]
    exact verify_point_const three 3 (fun _ => rfl) _ _ _ _ _ _ _ h9
  have hm : inst.mTau = List.replicate 65 1 := by
    have := mTau_one
    rw [show fromF Example.plus17 (vec17 (1 - Example.plus17.X ^ 3)) Aone dp17 = .ok inst from h5] at this
    exact of_decide_eq_true this
  unfold vectorTerms
  rw [h8, h6, hr, hm]
  simp only [List.length_cons, List.length_nil, Nat.zero_add, Finset.sum_range_one, Nat.add_zero]
  exact terms_one

/-- The same matrix with 128 columns. -/
def Apow : Mat Example.R17 := ⟨1, 128, [[0, 1, -1] ++ List.replicate 125 0]⟩

theorem mTau_pow : (match fromF Example.plus17 ((1 - Example.plus17.X ^ 3) :: List.replicate 127 0) Apow dp17 with
    | .ok inst => decide (inst.mTau = List.replicate 128 1)
    | .error _ => false) = true := by decide +kernel

theorem terms_pow : verVec Example.plus17 (mle (fun i => (List.replicate 128 (1 : Example.R17)).getD i 0)
      ((List.replicate 7 (3 : ZMod 17)).map (algebraMap (ZMod 17) Example.R17)))
    ((drawAll three 7 1 1 ()).1.1.getD 1 noCba) ((List.replicate 7 (3 : ZMod 17)).map (algebraMap (ZMod 17) Example.R17)) = 0 := by
  decide +kernel

/-- With 128 entries no entry of `m_tau` is filled up with zero, and the same fold is accepted. -/
example (x : LinBX Example.R17) :
    ∃ lb proof s' y, lin Example.plus17 three () paramsOne ⟨(1 - Example.plus17.X ^ 3) :: List.replicate 127 0, x⟩ Apow []
        = .ok ((lb, proof), s') ∧ cmVerify Example.plus17 three () [] proof = .ok (y, s') := by
  have hclog : Nat.clog 2 128 = 7 := by decide
  have hp : MlinParams Example.plus17 three Apow 128 paramsOne [] :=
    { bytes := fun _ _ => by simp [three]
      n2 := by decide
      char := charGt17
      wf := ⟨rfl, by intro r hr; simp only [Apow, List.mem_cons, List.not_mem_nil, or_false] at hr; rw [hr]; simp [Apow]⟩
      cols := rfl
      kappa := rfl
      b := rfl
      b2 := by decide
      even := by decide
      k := by decide
      l := by decide
      digits := short17
      mats := by simp [MatsOK]
      pow := by simp
      size := by decide
      size2 := by decide }
  obtain ⟨lb, proof, s', inst, h1, -, h3, -, h5, h6, h7, h8, t, sc, s2, h9, h10⟩ :=
    lin_one Example.plus17 three () hp ⟨(1 - Example.plus17.X ^ 3) :: List.replicate 127 0, x⟩ ⟨by simp, by
      intro y hy i
      rw [List.mem_cons, List.mem_replicate] at hy
      exact vec17_short y (by rw [vec17, List.mem_cons, List.mem_replicate]; exact hy.imp id fun h => ⟨by decide, h.2⟩) i⟩ rfl
  rw [hclog] at h6 h9
  have hr : proof.dcom.out.r = List.replicate 7 3 := by
    rw [← h10]
    exact verify_point_const three 3 (fun _ => rfl) _ _ _ _ _ _ _ h9
  have hm : inst.mTau = List.replicate 128 1 := by
    have := mTau_pow
    rw [show fromF Example.plus17 ((1 - Example.plus17.X ^ 3) :: List.replicate 127 0) Apow dp17 = .ok inst from h5] at this
    exact of_decide_eq_true this
  obtain ⟨y, hy⟩ := h3.2 (by
    unfold vectorTerms
    rw [h8, h6, hr, hm]
    simp only [List.length_cons, List.length_nil, Nat.zero_add, Finset.sum_range_one, Nat.add_zero]
    exact terms_pow)
  exact ⟨lb, proof, s', y, h1, hy⟩

end Verif.Props
