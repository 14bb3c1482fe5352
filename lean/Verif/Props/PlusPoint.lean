import Verif.Props.PlusCm

/-!
# Property theorems: the point at which the commitment transformation checks the evaluations (C109)
-/

set_option linter.unusedSectionVars false
set_option linter.unusedSimpArgs false

namespace Verif.Props

open Finset Verif Verif.Spec Verif.Plus

variable {F R σ : Type} {d : Nat}
variable [Field F] [CommRing R] [Algebra F R] [DecidableEq F] [DecidableEq R]

/-- `p` is the point that the verifier of the set check obtains from its sum-check, run on `out` in state `s`. -/
def SetPoint (T : Transcript F R σ) (s : σ) (out : SetOut F R) (p : List F) : Prop :=
  ∃ e0 sc s2, out.e[0]? = some e0 ∧
    verifyAsSubprotocol T (drawAll T out.nvars e0.length out.b.length s).2 out.nvars 3 (0 : R) out.sumcheck = .ok (sc, s2) ∧ sc.point = p

theorem SetPoint.unique {T : Transcript F R σ} {s : σ} {out : SetOut F R} {p q : List F} (hp : SetPoint T s out p) (hq : SetPoint T s out q) :
    p = q := by
  obtain ⟨e0, sc, s2, h1, h2, rfl⟩ := hp
  obtain ⟨e0', sc', s2', h1', h2', rfl⟩ := hq
  obtain rfl : e0 = e0' := Option.some.inj (h1.symm.trans h1')
  rw [h2] at h2'
  simp only [Except.ok.injEq, Prod.mk.injEq] at h2'
  rw [h2'.1]

/-- **C109** (partial): the honest prover of the set check puts the point of the verifier's sum-check into the proof. -/
theorem C109_honest_partial (pr : PlusRing F R d) (T : Transcript F R σ) (s : σ) (nvars n m : Nat) (sets : List (MonomialSet R))
    (M : List (SpMat R)) (hs : SetInput nvars n m sets M) (h0 : 0 < numMat sets) (hc : CharGt F 3) :
    ∃ out s', setCheck pr T s nvars sets M = .ok (out, s') ∧ ∀ p, SetPoint T s out p ↔ p = out.r := by
  obtain ⟨out, sc, s2, h1, h2, h3, h4, h5, h6, h7, h8⟩ := setCheck_run pr T s nvars n m sets M (hs.shape h0) hc
  have hp : SetPoint T s out out.r := by
    refine ⟨(matSets sets).map fun A => (List.range m).map fun j =>
      mle (fun i => (colL A j).getD i 0) (out.r.map (algebraMap F R)), sc, s2, by rw [h6]; rfl, ?_, h4⟩
    rw [List.length_map, h7, setB, List.length_map, h3]
    exact h2
  exact ⟨out, _, h1, fun p => ⟨fun h => h.unique hp, fun h => h ▸ hp⟩⟩

example (T : Transcript (ZMod 17) Example.R17 σ) (s : σ) : ∃ out s',
    setCheck Example.plus17 T s 1 [.matrix ⟨2, 1, [[(1, 0)], [(Example.plus17.X, 0)]]⟩] [] = .ok (out, s') ∧ ∀ p, SetPoint T s out p ↔ p = out.r :=
  C109_honest_partial Example.plus17 T s 1 2 1 _ []
    ⟨by decide, by decide, by
      intro A hA
      simp only [List.mem_cons, MonomialSet.matrix.injEq, List.not_mem_nil, or_false] at hA
      subst hA
      exact ⟨by unfold SpMat.WF; decide, rfl, rfl⟩, by simp, by simp⟩ (by decide) charGt17

/-- **C109**: an accepted range check stays accepted, with the same transcript, for every other point in the proof. -/
theorem C109_point_free (pr : PlusRing F R d) (T : Transcript F R σ) (s : σ) (dcom : Dcom F R) (r : List F) :
    dcomVerify pr T s { dcom with out := { dcom.out with r := r } } = dcomVerify pr T s dcom := rfl

/-- **C109**: the set check and the fold can be done for different instances at different points. Let the set check be run honestly for the instances
`ck`, at its point `out.r`. Then for every point `r` and all instances `rg` whose evaluations at `r` are those of `ck` at `out.r`
(of the columns of the matrices of monomials, and of the products of `f` with the matrices) there is an accepted proof of the commitment transformation with the
commitments of `rg`, and its statement is true of the witness folded from `rg`. Neither the range of `f` nor that the matrices of `rg` consist of monomials is asked for. -/
theorem C109_other_point (pr : PlusRing F R d) (T : Transcript F R σ) (s : σ) (A : Mat R) (n : Nat) (ck rg : Rg F R) (M : List (SpMat R))
    (hn : 2 ≤ n) (hnv : ck.nvars = Nat.clog 2 n) (hc : CharGt F 3) (hcount : 2 ≤ ck.dparams.k * ck.instances.length)
    (h : ∀ inst ∈ ck.instances, RgValid pr n ck.dparams.k inst inst.f)
    (hin : CmInput pr T A n rg M) (hnv' : rg.nvars = ck.nvars) (hdp : rg.dparams = ck.dparams) (hL : rg.instances.length = ck.instances.length)
    (hval : ∀ inst ∈ rg.instances, ∀ i < n, pr.ct (pr.psi * inst.mTau.getD i 0) = inst.tau.getD i 0) :
    ∃ out s', setCheck pr T s ck.nvars (rangeSets ck.instances) M = .ok (out, s') ∧ setVerify pr T s out = .ok s' ∧ out.r.length = ck.nvars ∧
      ∀ r : List F, r.length = ck.nvars →
        columnsAt M (r.map (algebraMap F R)) d rg.instances = columnsAt M (out.r.map (algebraMap F R)) d ck.instances →
        (∀ l (h1 : l < rg.instances.length) (h2 : l < ck.instances.length), ∀ m ∈ M,
          mle (mulVec m rg.instances[l].f) (r.map (algebraMap F R)) = mle (mulVec m ck.instances[l].f) (out.r.map (algebraMap F R))) →
        ∃ proof x s'', cmVerify pr T s M proof = .ok (x, s'') ∧ proof.dcom.out = { out with r := r } ∧
          proof.dcom.fcoms = rg.instances.map (·.fcoms) ∧
          ∃ s0 s1 s2 sp, ∃ g : List (List R), g = (rg.instances.map fun inst => (List.range n).map (foldedEntry d s0 s1 s2 sp inst)) ∧
            x.cmG = g.map (commit A) ∧ x.vo = g.map (evalPairs M x.ro) := by
  have hM : MatsOK F ck.nvars n M := hnv' ▸ hin.mats
  obtain ⟨out, s', h1, h2, h3, h4, h5, -, -⟩ := rangeCheck_run pr T s n ck M hn hnv hc hcount h hM
  refine ⟨out, s', h1, h2, h4, ?_⟩
  intro r hr he hf
  let evs : List (DcomEvals F R) := (rg.instances.zip ck.instances).map fun p =>
    { evalsAt pr M r p.1 with v := (evalsAt pr M out.r p.2).v }
  let dcom : Dcom F R := ⟨evs, rg.instances.map (·.fcoms), { out with r := r }, rg.dparams⟩
  have hlen : evs.length = rg.instances.length := by simp [evs, hL]
  have hv : dcomVerify pr T s dcom = .ok (absorbDcom T s' evs) := by
    rw [dcomVerify_iff]
    refine ⟨s', h2, rfl, ?_⟩
    intro p hp
    obtain ⟨hp1, hp2⟩ := List.mem_zipIdx' hp
    have hl : p.2 < rg.instances.length := by rw [← hlen]; exact hp1
    have hl' : p.2 < ck.instances.length := by rw [← hL]; exact hl
    have e : p.1 = { evalsAt pr M r rg.instances[p.2] with v := (evalsAt pr M out.r ck.instances[p.2]).v } := by
      rw [hp2]
      simp [dcom, evs]
    have hm := List.getElem_mem hl
    constructor
    · exact psiAB_ok pr (hin.shape _ hm).taulen (hin.shape _ hm).mTaulen (hval _ hm) hin.mats r p.1 (by rw [e]) (by rw [e])
    · intro q hq
      have hq' : q ∈ (columnsAt M (out.r.map (algebraMap F R)) d ck.instances).zipIdx := by
        rw [← h5]
        exact hq
      have k1 := psiU_ok pr hM (fun inst hi => (h inst hi).count) p.2 hl' (h _ (List.getElem_mem hl')) (fun _ _ _ => rfl) out.r q hq'
      rw [psiCheckU_iff] at k1 ⊢
      change if q.2 = 0 then p.1.v = (List.range d).map (recAt pr ((q.1.drop (rg.dparams.k * p.2)).take rg.dparams.k))
        else ∃ c, p.1.c[q.2]? = some c ∧ pr.coeffs c = (List.range d).map (recAt pr ((q.1.drop (rg.dparams.k * p.2)).take rg.dparams.k))
      rw [hdp, e]
      split_ifs at k1 ⊢ with hq0
      · exact k1
      · obtain ⟨c, k2, k3⟩ := k1
        refine ⟨c, ?_, k3⟩
        rw [← k2]
        obtain ⟨i, hi⟩ : ∃ i, q.2 = i + 1 := ⟨q.2 - 1, by omega⟩
        rw [hi]
        simp only [evalsOf, evalsAt, List.getElem?_cons_succ, List.getElem?_map]
        cases hMi : M[i]? with
        | none => rfl
        | some m => exact congrArg some (hf p.2 hl hl' m (List.mem_of_getElem? hMi))
  obtain ⟨com, proof, s'', -, g2, g3, ⟨a, b, c, sp, -, -, g4⟩, g5, -, g7⟩ := cmTail_run pr T (absorbDcom T s' evs) hin (dcom := dcom)
    ⟨by rw [hnv', ← h3], by rw [hnv']; exact hr, by
      change out.e = _
      rw [h5]
      exact he.symm, hlen, by
      intro l hl hl'
      have e : dcom.evals[l] = { evalsAt pr M r rg.instances[l] with v := (evalsAt pr M out.r (ck.instances[l]'(hL ▸ hl))).v } := by
        simp [dcom, evs]
      rw [e]
      exact ⟨rfl, rfl, rfl⟩, rfl⟩ rfl
  refine ⟨proof, com.x, s'', g3 s hv, by rw [g2], by rw [g2], a, b, c, sp, com.g, g4, g5, g7⟩

/-! ### Vectors with one short entry -/

theorem mapRes_replicate {α β : Type} {f : α → Res β} {n : Nat} {x : α} {l : List β} (hn : 0 < n)
    (h : mapRes f (List.replicate n x) = .ok l) : ∃ y, l = List.replicate n y := by
  rw [mapRes_eq_ok_iff] at h
  obtain ⟨n, rfl⟩ : ∃ m, n = m + 1 := ⟨n - 1, by omega⟩
  cases l with
  | nil => cases h
  | cons y l =>
    rw [List.replicate_succ, List.forall₂_cons] at h
    refine ⟨y, List.eq_replicate_iff.2 ⟨by rw [List.length_cons, ← h.2.length_eq, List.length_replicate], ?_⟩⟩
    intro z hz
    rcases List.mem_cons.1 hz with rfl | hz
    · rfl
    · obtain ⟨k, hk, rfl⟩ := List.mem_iff_getElem.1 hz
      have h3 := (List.forall₂_iff_get.1 h.2).2 k (by rw [h.2.length_eq]; exact hk) hk
      simp only [List.get_eq_getElem, List.getElem_replicate] at h3
      rw [h.1] at h3
      exact (Except.ok.inj h3).symm

/-- In the instance built for a constant vector the rows of every matrix of monomials are equal. -/
theorem fromF_const (pr : PlusRing F R d) {n : Nat} (hn : 0 < n) {x : R} {A : Mat R} {dp : DParams} {inst : RgInstance F R}
    (h : fromF pr (List.replicate n x) A dp = .ok inst) : ∀ D ∈ inst.Mf, ∀ i < n, ∀ j, matEntry D i j = matEntry D 0 j := by
  unfold fromF at h
  simp only [bind_eq_ok] at h
  obtain ⟨dec, h1, Mf, h2, _, -, _, -, _, -, _, -, _, -, _, -, _, -, h3⟩ := h
  obtain ⟨row, rfl⟩ := mapRes_replicate hn h1
  cases h3
  intro D hD i hi j
  rw [mapRes_eq_ok_iff] at h2
  obtain ⟨k, hk, rfl⟩ := List.mem_iff_getElem.1 hD
  have h4 := (List.forall₂_iff_get.1 h2).2 k (by rw [h2.length_eq]; exact hk) hk
  unfold monoMat at h4
  obtain ⟨rows, h5, h6⟩ := bind_eq_ok.1 h4
  obtain ⟨r, rfl⟩ := mapRes_replicate hn h5
  simp only [List.get_eq_getElem] at h6
  rw [← Except.ok.inj h6]
  unfold matEntry Mat.ofRows
  simp [List.getD_eq_getElem?_getD, hi, hn]

theorem mle_const (c : R) (p : List R) : mle (fun _ => c) p = c := by
  induction p with
  | nil => rw [mle_nil]
  | cons r p ih =>
    rw [mle_cons]
    simpa using ih

theorem boolPoint_map (n j : Nat) : (boolPoint n j : List F).map (algebraMap F R) = boolPoint n j := by
  unfold boolPoint
  rw [List.map_map]
  apply List.map_congr_left
  intro k _
  simp only [Function.comp]
  split <;> simp

/-- What the attack below needs of the parameters: the conditions under which `from_f` and the commitment transformation work (C55, C58) for vectors of
length `2^nv`, and that all matrices are the identity. -/
structure PointHyps (pr : PlusRing F R d) (T : Transcript F R σ) (A : Mat R) (nv L : Nat) (dp : DParams) (M : List (SpMat R)) : Prop where
  deg : 3 ≤ d
  bytes : BytesOK T
  pos : 1 ≤ nv
  char : CharGt F 3
  Awf : A.WF
  Acols : A.ncols = 2 ^ nv
  b : dp.b = d / 2
  b2 : 2 ≤ dp.b
  even : Even dp.b
  k : 1 ≤ dp.k
  l : 1 ≤ dp.l
  count : 2 ≤ dp.k * L
  short : ∀ a : F, Short (dp.b ^ dp.l) a
  size : 2 ^ Nat.clog 2 A.nrows * dp.k * d * dp.l * d < 2 ^ nv
  mats : MatsOK F nv (2 ^ nv) M
  one : ∀ m ∈ M, ∀ v : List R, ∀ i < 2 ^ nv, mulVec m v i = v.getD i 0

/-- The set check is run for the constant vector `x`. Its output serves for every vector with an entry `x` at some position `j`, with the point `j` of the cube in the place of
the point of the set check. -/
theorem point_attack (pr : PlusRing F R d) (T : Transcript F R σ) (s : σ) (A : Mat R) (nv L : Nat) (dp : DParams) (M : List (SpMat R))
    (h : PointHyps pr T A nv L dp M) (x : R) (hx : ∀ i, Short (dp.b ^ dp.k) (pr.coeff x i)) :
    ∃ out : SetOut F R, (∃ p, SetPoint T s out p) ∧ ∀ (f : List R) (j : Nat), f.length = 2 ^ nv → j < 2 ^ nv → f.getD j 0 = x →
      ∃ proof y s'', cmVerify pr T s M proof = .ok (y, s'') ∧ proof.dcom.out = { out with r := boolPoint nv j } ∧
        proof.dcom.fcoms.map (·.cmF) = List.replicate L (commit A f) ∧
        ∃ inst : RgInstance F R, inst.f = f ∧ ∃ s0 s1 s2 sp, ∃ g : List (List R), g = List.replicate L ((List.range (2 ^ nv)).map (foldedEntry d s0 s1 s2 sp inst)) ∧
          y.cmG = g.map (commit A) ∧ y.vo = g.map (evalPairs M y.ro) := by
  have hn : 0 < 2 ^ nv := by positivity
  have hn2 : 2 ≤ 2 ^ nv := by calc 2 = 2 ^ 1 := rfl
    _ ≤ 2 ^ nv := Nat.pow_le_pow_right (by norm_num) h.pos
  have hclog : nv = Nat.clog 2 (2 ^ nv) := (Nat.clog_pow 2 nv (by norm_num)).symm
  have hsz : A.nrows * dp.k * d * dp.l * d < 2 ^ nv := by
    refine lt_of_le_of_lt ?_ h.size
    gcongr
    exact Nat.le_pow_clog (by norm_num) _
  obtain ⟨inst, i1, i2, i3, i4, i5, -⟩ := C55_from_f pr (f := List.replicate (2 ^ nv) x) h.Awf (by rw [List.length_replicate, h.Acols]) h.b h.b2 h.even
    h.k h.l (by
      intro y hy
      rw [List.eq_of_mem_replicate hy]
      exact hx) h.short (by rw [List.length_replicate]; exact hsz)
  have hrows := fromF_const pr hn i1
  rw [List.length_replicate] at i3
  let ck : Rg F R := ⟨nv, List.replicate L inst, dp⟩
  have hL : L ≠ 0 := by
    rintro rfl
    have := h.count
    simp at this
  have hmem : ∀ {i : RgInstance F R} {y : RgInstance F R}, i ∈ List.replicate L y → i = y := fun hi => List.eq_of_mem_replicate hi
  -- the instances with another `f`
  let other : List R → RgInstance F R := fun f => { inst with f := f, fcoms := { inst.fcoms with cmF := commit A f } }
  have hin : ∀ f : List R, f.length = 2 ^ nv → CmInput pr T A (2 ^ nv) ⟨nv, List.replicate L (other f), dp⟩ M := by
    intro f hf
    refine ⟨h.deg, h.bytes, h.pos, le_rfl, fun m h1 h2 => h.char m h1 (by omega), h.k, h.l, by simp [hL], ?_, ?_, ?_, h.Acols, h.mats, fun _ => rfl,
      le_of_lt h.size⟩
    · intro i hi
      rw [hmem hi]
      exact ⟨hf, i3.taulen, i3.mTaulen, i3.count, i3.shape⟩
    · intro i hi
      rw [hmem hi]
      exact ⟨i4.count, i4.shape, i4.product, i4.tauDigits, i4.tauZero, i4.tauComs⟩
    · intro i hi
      rw [hmem hi]
  have main : ∀ f : List R, f.length = 2 ^ nv → _ := fun f hf => C109_other_point pr T s A (2 ^ nv) ck ⟨nv, List.replicate L (other f), dp⟩ M hn2 hclog h.char
    (by simpa [ck] using h.count) (by
      intro i hi
      rw [hmem hi, i2]
      exact i3) (hin f hf) rfl rfl (by simp [ck]) (by
      intro i hi
      rw [hmem hi]
      exact i3.tauVal)
  obtain ⟨out, s', h1, h2, h3, -⟩ := main (List.replicate (2 ^ nv) 0) (by simp)
  refine ⟨out, ?_, ?_⟩
  · obtain ⟨e0, sc, s2, k1, k2, -⟩ := (setVerify_iff pr T s s' out).1 h2
    exact ⟨sc.point, e0, sc, s2, k1, k2, rfl⟩
  intro f j hf hj hfj
  obtain ⟨out', s'', h1', -, -, hall⟩ := main f hf
  obtain rfl : out = out' := by
    have := h1.symm.trans h1'
    simp only [Except.ok.injEq, Prod.mk.injEq] at this
    exact this.1
  have hcol : ∀ p : List R, p.length = nv → ∀ D ∈ inst.Mf, ∀ j, mle (fun i => matEntry D i j) p = matEntry D 0 j := by
    intro p hp D hD j
    rw [mle_congr (g := fun _ => matEntry D 0 j) (by
      intro i hi
      rw [hp] at hi
      exact hrows D hD i hi j), mle_const]
  have hcol2 : ∀ p : List R, p.length = nv → ∀ m ∈ M, ∀ D ∈ inst.Mf, ∀ j,
      mle (mulVec m ((List.range D.nrows).map fun i => matEntry D i j)) p = matEntry D 0 j := by
    intro p hp m hm D hD j
    rw [mle_congr (g := fun _ => matEntry D 0 j) (by
      intro i hi
      rw [hp] at hi
      rw [h.one m hm _ i hi, (i3.shape D hD).2.1]
      simp only [List.getD_eq_getElem?_getD, List.getElem?_map, List.getElem?_range hi, Option.map_some, Option.getD_some]
      exact hrows D hD i hi j), mle_const]
  have hcols : ∀ p : List R, p.length = nv → ∀ i : RgInstance F R, i.Mf = inst.Mf → columnsAt M p d (List.replicate L i)
      = (List.replicate L inst.Mf).flatMap (fun Mf => Mf.map fun D => (List.range d).map fun j => matEntry D 0 j)
        :: M.map fun _ => (List.replicate L inst.Mf).flatMap (fun Mf => Mf.map fun D => (List.range d).map fun j => matEntry D 0 j) := by
    intro p hp i hi
    have e : ∀ g : Mat R → List R, (List.replicate L i).flatMap (fun i => i.Mf.map g) = (List.replicate L inst.Mf).flatMap fun Mf => Mf.map g := by
      intro g
      rw [← hi, ← List.map_replicate (f := fun i : RgInstance F R => i.Mf), List.flatMap_map]
    unfold columnsAt
    rw [e]
    congr 1
    · rw [List.flatMap_congr]
      intro Mf hMf
      rw [List.eq_of_mem_replicate hMf]
      apply List.map_congr_left
      intro D hD
      apply List.map_congr_left
      intro j _
      exact hcol p hp D hD j
    · apply List.map_congr_left
      intro m hm
      rw [e]
      rw [List.flatMap_congr]
      intro Mf hMf
      rw [List.eq_of_mem_replicate hMf]
      apply List.map_congr_left
      intro D hD
      apply List.map_congr_left
      intro j _
      exact hcol2 p hp m hm D hD j
  have hbl : ((boolPoint nv j : List F).map (algebraMap F R)).length = nv := by simp [boolPoint]
  obtain ⟨proof, y, s3, g1, g2, g3, s0, s1, s2, sp, g, g4, g5, g6⟩ := hall (boolPoint nv j) (by simp [boolPoint, ck]) (by
      exact (hcols _ hbl (other f) rfl).trans (hcols _ (by rw [List.length_map]; exact h3) inst rfl).symm) (by
      intro l l1 l2 m hm
      simp only [ck, List.getElem_replicate]
      rw [boolPoint_map, mle_boolPoint _ hj, h.one m hm _ j hj, i2]
      change f.getD j 0 = _
      rw [hfj, mle_congr (g := fun _ => x) (by
        intro i hi
        rw [List.length_map, h3] at hi
        rw [h.one m hm _ i hi]
        change i < 2 ^ nv at hi
        simp [List.getD_eq_getElem?_getD, hi]), mle_const])
  refine ⟨proof, y, s3, g1, g2, ?_, other f, rfl, s0, s1, s2, sp, g, ?_, g5, g6⟩
  · rw [g3]
    simp [other]
  · rw [g4, List.map_replicate]

/-- **C109** is false: there is an accepted proof in which the point is not the one of the set check. -/
theorem C109_point_not_checked (pr : PlusRing F R d) (T : Transcript F R σ) (s : σ) (A : Mat R) (nv L : Nat) (dp : DParams) (M : List (SpMat R))
    (h : PointHyps pr T A nv L dp M) (x : R) (hx : ∀ i, Short (dp.b ^ dp.k) (pr.coeff x i)) :
    ∃ proof y s' p, cmVerify pr T s M proof = .ok (y, s') ∧ SetPoint T s proof.dcom.out p ∧ proof.dcom.out.r ≠ p := by
  obtain ⟨out, ⟨p, hp⟩, hall⟩ := point_attack pr T s A nv L dp M h x hx
  have hn2 : 2 ≤ 2 ^ nv := by calc 2 = 2 ^ 1 := rfl
    _ ≤ 2 ^ nv := Nat.pow_le_pow_right (by norm_num) h.pos
  have key : ∀ j < 2, ∃ proof y s', cmVerify pr T s M proof = .ok (y, s') ∧ proof.dcom.out = { out with r := boolPoint nv j } := by
    intro j hj
    obtain ⟨proof, y, s', h1, h2, -⟩ := hall (List.replicate (2 ^ nv) x) j (by simp) (by omega)
      (by
        have : j < 2 ^ nv := by omega
        simp [List.getD_eq_getElem?_getD, this])
    exact ⟨proof, y, s', h1, h2⟩
  have hne : (boolPoint nv 0 : List F) ≠ boolPoint nv 1 := by
    intro he
    have := congrArg (fun l => l[0]?) he
    have h0 : 0 < nv := h.pos
    simp [boolPoint, h0] at this
  have pick : ∃ j < 2, (boolPoint nv j : List F) ≠ p := by
    by_cases h0 : (boolPoint nv 0 : List F) = p
    · exact ⟨1, by norm_num, fun h1 => hne (h0.trans h1.symm)⟩
    · exact ⟨0, by norm_num, h0⟩
  obtain ⟨j, hj, hjp⟩ := pick
  obtain ⟨proof, y, s', h1, h2⟩ := key j hj
  refine ⟨proof, y, s', p, h1, ?_, ?_⟩
  · rw [h2]
    exact hp
  · rw [h2]
    exact hjp

/-- **C109**: since the point is free, the range of `f` is not established even if all matrices are the identity (where the gap of C59 does not
exist: there `f` has to agree with a short vector under all matrices). For every vector `f` with one entry in the range, all other entries being arbitrary, there is an accepted proof with the
commitment to `f`, and the statement it leads to is true of the witness folded from `f`. -/
theorem C109_range_lost (pr : PlusRing F R d) (T : Transcript F R σ) (s : σ) (A : Mat R) (nv L : Nat) (dp : DParams) (M : List (SpMat R))
    (h : PointHyps pr T A nv L dp M) (f : List R) (hf : f.length = 2 ^ nv) (j : Nat) (hj : j < 2 ^ nv)
    (hx : ∀ i, Short (dp.b ^ dp.k) (pr.coeff (f.getD j 0) i)) :
    ∃ proof y s', cmVerify pr T s M proof = .ok (y, s') ∧ proof.dcom.fcoms.map (·.cmF) = List.replicate L (commit A f) ∧
      ∃ inst : RgInstance F R, inst.f = f ∧ ∃ s0 s1 s2 sp, ∃ g : List (List R), g = List.replicate L ((List.range (2 ^ nv)).map (foldedEntry d s0 s1 s2 sp inst)) ∧
        y.cmG = g.map (commit A) ∧ y.vo = g.map (evalPairs M y.ro) := by
  obtain ⟨out, -, hall⟩ := point_attack pr T s A nv L dp M h (f.getD j 0) hx
  obtain ⟨proof, y, s', h1, -, h2⟩ := hall f j hf hj rfl
  exact ⟨proof, y, s', h1, h2⟩

/-! The example: vectors of length 128 and the identity matrix. -/

/-- The identity matrix with 128 rows. -/
def I17 : SpMat Example.R17 := ⟨128, 128, (List.range 128).map fun i => [(1, i)]⟩

theorem hypsI (T : Transcript (ZMod 17) Example.R17 σ) (hT : BytesOK T) : PointHyps Example.plus17 T B17 7 2 dp17 [I17] where
  deg := by decide
  bytes := hT
  pos := by decide
  char := charGt17
  Awf := B17_wf
  Acols := rfl
  b := rfl
  b2 := by decide
  even := by decide
  k := by decide
  l := by decide
  count := by decide
  short := short17
  size := by simp [B17, dp17]
  mats := by
    intro m hm
    obtain rfl := List.mem_singleton.1 hm
    refine ⟨⟨by simp [I17], ?_⟩, rfl, by decide, ?_⟩
    · intro row hr t ht
      obtain ⟨i, hi, rfl⟩ := List.mem_map.1 hr
      obtain rfl := List.mem_singleton.1 ht
      exact List.mem_range.1 hi
    · intro row hr t ht
      obtain ⟨i, hi, rfl⟩ := List.mem_map.1 hr
      obtain rfl := List.mem_singleton.1 ht
      exact ⟨1, by simp⟩
  one := by
    intro m hm v i hi
    obtain rfl := List.mem_singleton.1 hm
    unfold mulVec
    have e : ∀ j, entry I17 i j = if i = j then 1 else 0 := by
      intro j
      have hi' : i < 128 := hi
      unfold entry I17
      simp only [List.getD_eq_getElem?_getD, List.getElem?_map, List.getElem?_range hi', Option.map_some, Option.getD_some]
      by_cases hij : i = j <;> simp [hij]
    rw [sum_congr rfl fun j _ => by rw [e j]]
    simp [I17]
    omega

/-- All entries of `f` except the first are `5`, out of the range of one digit to base two. -/
example (T : Transcript (ZMod 17) Example.R17 σ) (hT : BytesOK T) (s : σ) : ∃ proof y s',
    cmVerify Example.plus17 T s [I17] proof = .ok (y, s') ∧
    proof.dcom.fcoms.map (·.cmF) = List.replicate 2 (commit B17 (1 :: List.replicate 127 5)) := by
  obtain ⟨proof, y, s', h1, h2, -⟩ := C109_range_lost Example.plus17 T s B17 7 2 dp17 [I17] (hypsI T hT) (1 :: List.replicate 127 5) (by simp) 0
    (by decide) (by
      intro i
      rw [Example.shortZ]
      revert i
      decide)
  exact ⟨proof, y, s', h1, h2⟩

example (T : Transcript (ZMod 17) Example.R17 σ) (hT : BytesOK T) (s : σ) : ∃ proof y s' p,
    cmVerify Example.plus17 T s [I17] proof = .ok (y, s') ∧ SetPoint T s proof.dcom.out p ∧ proof.dcom.out.r ≠ p :=
  C109_point_not_checked Example.plus17 T s B17 7 2 dp17 [I17] (hypsI T hT) 1 (by
      intro i
      rw [Example.shortZ]
      revert i
      decide)

end Verif.Props
