import Verif.Lemmas.Decomposition
import Verif.Props.ConstraintSystem
import Verif.Props.ExampleData

/-!
# Property theorems: decomposition (C30 - C33)
-/

set_option linter.unusedSectionVars false
set_option linter.unusedSimpArgs false

namespace Verif.Props

open Finset Verif Verif.Spec

section Ring
variable {Fp F C σ : Type} {N τ : Nat} [Field Fp] [Field F] [DecidableEq F] [Algebra Fp F] [CommRing C]
  [Algebra Fp C]

/-- **C30**: completeness of decomposition. A statement of the linearized relation with a witness of
coefficients of at most `K` digits is split by the prover in `K` pieces; the verifier accepts, ends in the
same transcript state and computes the same `K` statements; each of them satisfies the linearized
relation at the same point with its piece of the witness, which has coefficients at most `b / 2`. -/
theorem C30_decomposition_complete (rd : RingData Fp F C N τ) (P : Params)
    (T : Transcript F (Fin N → F) σ) (s : σ) (st : LCCCS (Fin N → F)) (wit : Witness (Fin N → F) C)
    (ccs : CCS (Fin N → F)) (scheme : Ajtai (Fin N → F)) (hP : ParamsOK Fp P) (hS : SizesOK P ccs scheme)
    (hst : LcccsHolds rd P ccs scheme st wit) (hsh : WitShort rd (reach P.bSmall P.K) wit) :
    ∃ mz lcccs wits proof s', decProve rd P T s st wit ccs scheme = .ok ((mz, lcccs, wits, proof), s') ∧
      decVerify P T s st proof = .ok (lcccs, s') ∧
      lcccs.length = P.K ∧ wits.length = P.K ∧ mz.length = P.K ∧
      (proof.uS.length = P.K ∧ proof.vS.length = P.K ∧ proof.xS.length = P.K ∧ proof.yS.length = P.K) ∧
      ∀ k < P.K, ∃ stk witk, lcccs[k]? = some stk ∧ wits[k]? = some witk ∧
        LcccsHolds rd P ccs scheme stk witk ∧ stk.r = st.r ∧ WitShort rd P.bSmall witk ∧
        mz[k]? = some (ccs.M.map fun M => ⟨ccs.s, (List.range M.nrows).map fun i =>
          mulVec M ((stk.x_w ++ [stk.h]) ++ witk.wCcs) i⟩) := by
  obtain ⟨wok, hcm, hxl, hev⟩ := hst
  set wl := ccs.n - ccs.l - 1 with hwl
  have hnl := hS.nl
  have hwl1 : 1 ≤ wl := by omega
  have hKp := hP.Kpos
  -- the size guard
  have hsan : sanityCheck ccs P.L = .ok () := by
    rw [(C14_guard_exact ccs P.L).1]
    refine ⟨by omega, ⟨ccs.s, hS.sh.pow⟩, ?_⟩
    rw [hS.sh.pow, ← hS.hat]
    exact Nat.le_pow_clog (by omega) _
  have hfne : wit.fCoeff ≠ [] := by
    intro h
    have := wok.flen
    rw [h, List.length_nil] at this
    have h2 : 0 < wl * P.L := Nat.mul_pos hwl1 hP.Lpos
    omega
  have hfs := decomposeBVec_ok rd P hP.b2 hP.bEven hP.Kpos wit.fCoeff hfne hsh
  change _ = Except.ok ((List.range P.K).map fun k => wit.fCoeff.map (pc rd P k)) at hfs
  set fc : Nat → List C := fun k => wit.fCoeff.map (pc rd P k) with hfc
  have hfcl : ∀ k, (fc k).length = wl * P.L := fun k => by rw [hfc]; simp only [List.length_map, wok.flen]
  have hcombf : IsComb P.K (fun k => ((P.bSmall ^ k : Nat) : C)) fc wit.fCoeff (wl * P.L) := by
    have := pieces_comb rd hP wit.fCoeff hsh
    rw [wok.flen] at this
    exact this
  have hbcast : (fun k => rd.crt ((P.bSmall ^ k : Nat) : C)) = fun k => (P.bSmall : Fin N → F) ^ k := by
    funext k
    rw [crt_natCast, Nat.cast_pow]
  have hcombn := map_crt_comb rd hcombf
  rw [hbcast] at hcombn
  set W : Nat → Witness (Fin N → F) C := fun k => mkWit rd P wl (fc k) with hW
  have hwits : mapRes (Witness.fromFCoeff rd P) ((List.range P.K).map fc) = .ok ((List.range P.K).map W) :=
    mapRes_map_ok fc W _ fun k _ => fromFCoeff_ok rd P hP.Lpos (fc k) (hfcl k)
  set x := st.x_w ++ [st.h] with hx
  have hxlen : x.length = ccs.l + 1 := by rw [hx, List.length_append, hxl]; rfl
  have hxs := decomposeBigVec_ok rd hP x (by simp [hx])
  have hcombx := bigRow_comb rd hP x
  set X : Nat → List (Fin N → F) := bigRow rd P x with hX
  have hXl : ∀ k, (X k).length = ccs.l + 1 := fun k => by simp [hX, bigRow, hxlen]
  have hXne : ∀ k, X k ≠ [] := fun k h => by have := hXl k; rw [h] at this; simp at this
  have hXsplit : ∀ k, (X k).dropLast ++ [(X k).getLastD 0] = X k := by
    intro k
    rw [List.getLastD_eq_getLast?, List.getLast?_eq_getLast_of_ne_nil (hXne k), Option.getD_some]
    exact List.dropLast_append_getLast (hXne k)
  -- commitments
  set Y : Nat → Commitment (Fin N → F) := fun k =>
    ⟨scheme.matrix.vals.map fun row => dot row ((fc k).map rd.crt)⟩ with hY
  have hcommit : ∀ k, scheme.commit ((fc k).map rd.crt) = .ok (Y k) := fun k =>
    commit_ok scheme _ (by rw [List.length_map, hfcl, hS.width])
  have hcmv : st.cm.val = scheme.matrix.vals.map fun row => dot row wit.f := by
    rw [commit_ok scheme _ (by rw [wok.f, List.length_map, wok.flen, hS.width])] at hcm
    rw [← Except.ok.inj hcm]
  have hcombY : IsComb P.K (fun k => (P.bSmall : Fin N → F) ^ k) (fun k => (Y k).val) st.cm.val
      scheme.kappa := by
    rw [hcmv, wok.f]
    have := commit_comb hcombn scheme
    rw [hS.mat.1] at this
    exact this
  have hys := commitWitnesses_ok P hP.Kpos W scheme rfl st Y (fun k _ => hcommit k) hcombY
  -- v
  have hrl : st.r.length = Nat.clog 2 (wl * P.L) := by rw [hev.rlen, hS.hat]
  set V : Nat → List (Fin N → F) := fun k => (List.range τ).map (vEval rd (fc k) st.r) with hV
  have hvs : mapRes (fun w : Witness (Fin N → F) C => evaluateMles w.fHat st.r) ((List.range P.K).map W)
      = .ok ((List.range P.K).map V) :=
    mapRes_map_ok W V _ fun k _ => mkWit_vEval rd P (fc k) (hfcl k) st.r hrl
  have hcombV : IsComb P.K (fun k => (P.bSmall : Fin N → F) ^ k) V st.v τ := by
    have hv : st.v = (List.range τ).map (vEval rd wit.fCoeff st.r) := by rw [hev.v, wok.vEval]
    refine ⟨by simp [hv], by simp [hV], fun j hj => ?_⟩
    rw [hv, getD_map_range _ _ hj, vEval_comb rd hcombf]
    apply sum_congr rfl
    intro k _
    rw [hV, getD_map_range _ _ hj, Nat.cast_pow]
  -- Mz and u
  have hcombw : IsComb P.K (fun k => (P.bSmall : Fin N → F) ^ k) (fun k => (W k).wCcs) wit.wCcs wl := by
    rw [wok.w_eq]
    exact gadget_comb hcombn _
  have hcombz := hcombx.append hcombw
  rw [hxlen] at hcombz
  have hzl : ∀ k, (X k ++ (W k).wCcs).length = ccs.n := by
    intro k
    rw [List.length_append, hXl, (mkWit_ok rd P (fc k) (hfcl k)).wlen]
    omega
  set MZ : Nat → List (Mle (Fin N → F)) := fun k => mzTables ccs (X k ++ (W k).wCcs) with hMZ
  have hmz : computeMzMles ((List.range P.K).map W) ccs.M ((List.range P.K).map X) ccs.s
      = .ok ((List.range P.K).map MZ) := by
    unfold computeMzMles
    rw [zipIdx_eq_range _ (W 0), List.length_map, List.length_range]
    rw [show (List.range P.K).map (fun k => (((List.range P.K).map W).getD k (W 0), k))
        = (List.range P.K).map fun k => (W k, k) from
      List.map_congr_left fun k hk => by simp [List.getD_eq_getElem?_getD, List.mem_range.1 hk]]
    apply mapRes_map_ok
    intro k hk
    have hk' := List.mem_range.1 hk
    simp only
    rw [idx_ok (by simpa using hk')]
    simp only [bind_ok', List.getElem_map, List.getElem_range]
    exact calculateMzMles_ok hS.sh.wf (hzl k) hS.sh.rows
  have hut : ∀ z : List (Fin N → F), (mzTables ccs z).map (fun m => mle m.get st.r)
      = ccs.M.map fun M => mle (mulVec M z) st.r := by
    intro z
    unfold mzTables
    rw [List.map_map]
    apply List.map_congr_left
    intro M hM
    exact congrArg (fun f => mle f st.r) (funext fun i => mzTables_get hS.sh.wf z hM i)
  set U : Nat → List (Fin N → F) := fun k => ccs.M.map fun M => mle (mulVec M (X k ++ (W k).wCcs)) st.r
    with hU
  have hus : mapRes (fun ms => evaluateMles ms st.r) ((List.range P.K).map MZ)
      = .ok ((List.range P.K).map U) := by
    apply mapRes_map_ok
    intro k _
    rw [evaluateMles_ok _ st.r, hMZ]
    · simp only
      rw [hut]
    · intro m hm
      obtain ⟨M, _, rfl⟩ := List.mem_map.1 hm
      exact hev.rlen
  have hcombU : IsComb P.K (fun k => (P.bSmall : Fin N → F) ^ k) U st.u ccs.M.length := by
    refine ⟨by simp [hev.u], by simp [hU], fun j hj => ?_⟩
    have key : ∀ g : SpMat (Fin N → F) → (Fin N → F), (ccs.M.map g).getD j 0 = g ccs.M[j] := by
      intro g
      simp [List.getD_eq_getElem?_getD, hj]
    rw [hev.u, key, mle_comb fun i => mulVec_comb hcombz ccs.M[j] i]
    apply sum_congr rfl
    intro k _
    rw [hU]
    simp only
    rw [key]
  -- transcript
  have hp := decPieces_ok T s st.r U V X Y (K := P.K) fun k _ => hXne k
  set L : Nat → LCCCS (Fin N → F) := fun k =>
    ⟨st.r, V k, Y k, U k, (X k).dropLast, (X k).getLastD 0⟩ with hL
  set s' := ((List.range P.K).map fun k => (((X k, Y k), U k), V k)).foldl (absorb4 T) s with hs'
  refine ⟨(List.range P.K).map MZ, (List.range P.K).map L, (List.range P.K).map W,
    ⟨(List.range P.K).map U, (List.range P.K).map V, (List.range P.K).map X, (List.range P.K).map Y⟩, s',
    ?_, ?_, by simp, by simp, by simp, by simp, ?_⟩
  · unfold decProve
    simp only [hsan, hfs, hwits, ← hx, hxs, hys, hvs, hmz, hus, bind_ok', hp]
  · unfold decVerify
    have e1 := recomposeCommitment_ok hP.Kpos Y (fun k => (P.bSmall : Fin N → F) ^ k) (κ := scheme.kappa)
      hcombY.lens
    have e2 := recomposeVecs_ok hP.Kpos V (fun k => (P.bSmall : Fin N → F) ^ k) hcombV.lens
    have e3 := recomposeVecs_ok hP.Kpos U (fun k => (P.bSmall : Fin N → F) ^ k) hcombU.lens
    have e4 := recomposeVecs_ok hP.Kpos X (fun k => (P.bSmall : Fin N → F) ^ k) hcombx.lens
    rw [show (List.range scheme.kappa).map (fun j => ∑ k ∈ range P.K, (P.bSmall : Fin N → F) ^ k
        * (Y k).val.getD j 0) = st.cm.val from (IsComb.mk' hcombY.lens).unique hcombY] at e1
    rw [(IsComb.mk' hcombV.lens).unique hcombV] at e2
    rw [(IsComb.mk' hcombU.lens).unique hcombU] at e3
    rw [(IsComb.mk' hcombx.lens).unique hcombx] at e4
    simp only [hp, calculateBs_ok P hP.nooverflow hP.b2, bind_ok', e1, e2, e3, e4]
    rw [if_neg (by simp), if_neg (by simp), if_neg (by simp)]
    have : popLast x = .ok (st.x_w, st.h) := by
      unfold popLast
      rw [hx]
      simp
    rw [this]
    simp only [bind_ok']
    rw [if_neg (by simp), if_neg (by simp)]
  · intro k hk
    have hok := mkWit_ok rd P (fc k) (hfcl k)
    refine ⟨L k, W k, by simp [hk], by simp [hk], ⟨hok, hcommit k, ?_, ⟨hev.rlen, ?_, ?_⟩⟩, rfl, ?_, ?_⟩
    · simp [hL, hXl]
    · exact (hok.vEval st.r).symm
    · simp only [hL]
      rw [hXsplit]
    · intro c hc i
      obtain ⟨a, ha, rfl⟩ := List.mem_map.1 hc
      exact getD_short rd (dg_ok rd hP.b2 hP.bEven hP.Kpos (hsh a ha)).2.2.2 k i
    · simp only [hL]
      rw [hXsplit]
      simp [hk, hMZ, mzTables]

open Verif.Example in
example (T : Transcript (ZMod 5) C5 σ) (s : σ) :
    ∃ mz lcccs wits proof s', decProve ring5 par5 T s (acc5 ![3, 3] ![1, 4] ![2, 0] (wit5 ![1, 2] ![4, 0]))
        (wit5 ![1, 2] ![4, 0]) ccs5 scheme5 = .ok ((mz, lcccs, wits, proof), s') ∧
      decVerify par5 T s (acc5 ![3, 3] ![1, 4] ![2, 0] (wit5 ![1, 2] ![4, 0])) proof = .ok (lcccs, s') ∧
      lcccs.length = 2 := by
  obtain ⟨mz, lcccs, wits, proof, s', h1, h2, h3, -⟩ := C30_decomposition_complete ring5 par5 T s
    _ _ ccs5 scheme5 par5_ok sizes5 (acc5_holds ![3, 3] ![1, 4] ![2, 0] ![1, 2] ![4, 0])
    (wit5_short ![1, 2] ![4, 0])
  exact ⟨mz, lcccs, wits, proof, s', h1, h2, h3⟩

end Ring

section Generic
variable {F R C σ : Type} [Field F] [CommRing R] [DecidableEq R] [Algebra F R]

/-- **C31**: exact characterisation of acceptance, for proofs of every shape: commitment, `v`, `u`
and `x || h` are the base-`b` combinations of the (first `K`) pieces, no listed public input is empty and
the powers of the base fit in 128 bits. The output is the list of pieces at the point of the input. -/
theorem C31_verify_iff (P : Params) (T : Transcript F R σ) (s s' : σ) (cmi : LCCCS R) (proof : DecProof R)
    (l : List (LCCCS R)) :
    decVerify P T s cmi proof = .ok (l, s') ↔
      (∀ k < P.K, P.bSmall ^ k < 2 ^ 128) ∧
      RecomposesCm (P.bSmall : R) P.K proof.yS cmi.cm ∧
      Recomposes (P.bSmall : R) P.K proof.vS cmi.v ∧
      Recomposes (P.bSmall : R) P.K proof.uS cmi.u ∧
      Recomposes (P.bSmall : R) P.K proof.xS (cmi.x_w ++ [cmi.h]) ∧
      (∀ p ∈ ((proof.xS.zip proof.yS).zip proof.uS).zip proof.vS, p.1.1.1 ≠ []) ∧
      l = (((proof.xS.zip proof.yS).zip proof.uS).zip proof.vS).map (fun p =>
        ⟨cmi.r, p.2, p.1.1.2, p.1.2, p.1.1.1.dropLast, p.1.1.1.getLastD 0⟩) ∧
      s' = (((proof.xS.zip proof.yS).zip proof.uS).zip proof.vS).foldl (fun s p =>
        T.absorbSlice (T.absorbSlice (T.absorbSlice (T.absorbSlice s p.1.1.1) p.1.1.2.val) p.1.2) p.2) s := by
  have hpop : ∀ x : List R, ∀ a b, popLast x = .ok (a, b) ↔ x = a ++ [b] := by
    intro x a b
    unfold popLast
    rcases List.eq_nil_or_concat x with rfl | ⟨y, c, rfl⟩
    · simp
    · simp
  unfold decVerify
  simp only [bind_eq_ok, Prod.exists, calculateBs_iff, decPieces_iff]
  constructor
  · rintro ⟨l1, s1, ⟨h1, h2, h3⟩, bs, ⟨h4, rfl⟩, y, hy, h5⟩
    split at h5
    · cases h5
    rename_i hy2
    rw [not_not] at hy2
    subst hy2
    rw [bind_eq_ok] at h5
    obtain ⟨v, hv, h5⟩ := h5
    split at h5
    · cases h5
    rename_i hv2
    rw [not_not] at hv2
    subst hv2
    rw [bind_eq_ok] at h5
    obtain ⟨u, hu, h5⟩ := h5
    split at h5
    · cases h5
    rename_i hu2
    rw [not_not] at hu2
    subst hu2
    rw [bind_eq_ok] at h5
    obtain ⟨x, hx, h5⟩ := h5
    rw [bind_eq_ok] at h5
    obtain ⟨⟨xw, h⟩, hxh, h5⟩ := h5
    simp only at h5
    split at h5
    · cases h5
    rename_i hx2
    split at h5
    · cases h5
    rename_i hh2
    rw [not_not] at hx2 hh2
    subst hx2 hh2
    simp only [Except.ok.injEq, Prod.mk.injEq] at h5
    rw [hpop] at hxh
    subst hxh
    obtain ⟨rfl, rfl⟩ := h5
    exact ⟨h4, (recomposeCommitment_iff _ _ _ _).1 hy, (recomposeVecs_iff _ _ _ _).1 hv,
      (recomposeVecs_iff _ _ _ _).1 hu, (recomposeVecs_iff _ _ _ _).1 hx, h1, h2, h3⟩
  · rintro ⟨h4, hy, hv, hu, hx, h1, h2, h3⟩
    refine ⟨l, s', ⟨h1, h2, h3⟩, _, ⟨h4, rfl⟩, cmi.cm, (recomposeCommitment_iff _ _ _ _).2 hy, ?_⟩
    rw [(recomposeVecs_iff _ _ _ _).2 hv, (recomposeVecs_iff _ _ _ _).2 hu,
      (recomposeVecs_iff _ _ _ _).2 hx]
    simp only [bind_ok']
    rw [(hpop _ _ _).2 rfl]
    simp

/-- **C31**, the intended use: a proof with exactly `K` pieces of the lengths of the accumulator is
accepted iff all four components recompose to the accumulator. -/
theorem C31_exact_pieces (P : Params) (T : Transcript F R σ) (s : σ) (cmi : LCCCS R)
    (us vs xs : Nat → List R) (ys : Nat → Commitment R) (hK : 1 ≤ P.K)
    (hb : ∀ k < P.K, P.bSmall ^ k < 2 ^ 128)
    (hu : ∀ k < P.K, (us k).length = cmi.u.length) (hv : ∀ k < P.K, (vs k).length = cmi.v.length)
    (hx : ∀ k < P.K, (xs k).length = cmi.x_w.length + 1)
    (hy : ∀ k < P.K, (ys k).val.length = cmi.cm.val.length) :
    (∃ l s', decVerify P T s cmi ⟨(List.range P.K).map us, (List.range P.K).map vs,
        (List.range P.K).map xs, (List.range P.K).map ys⟩ = .ok (l, s')) ↔
      (∀ j < cmi.cm.val.length, cmi.cm.val.getD j 0
        = ∑ k ∈ range P.K, (P.bSmall : R) ^ k * (ys k).val.getD j 0) ∧
      (∀ j < cmi.v.length, cmi.v.getD j 0 = ∑ k ∈ range P.K, (P.bSmall : R) ^ k * (vs k).getD j 0) ∧
      (∀ j < cmi.u.length, cmi.u.getD j 0 = ∑ k ∈ range P.K, (P.bSmall : R) ^ k * (us k).getD j 0) ∧
      (∀ j < cmi.x_w.length, cmi.x_w.getD j 0
        = ∑ k ∈ range P.K, (P.bSmall : R) ^ k * (xs k).getD j 0) ∧
      cmi.h = ∑ k ∈ range P.K, (P.bSmall : R) ^ k * (xs k).getD cmi.x_w.length 0 := by
  have hne : ∀ {α : Type} (f : Nat → α), (List.range P.K).map f ≠ [] := by
    intro α f h
    have := congrArg List.length h
    simp at this
    omega
  have hg : ∀ {α : Type} (f : Nat → α) (d : α) {k : Nat}, k < P.K → ((List.range P.K).map f).getD k d = f k := by
    intro α f d k hk
    simp [List.getD_eq_getElem?_getD, hk]
  have hrec : ∀ (f : Nat → List R) (w : List R), (∀ k < P.K, (f k).length = w.length) →
      (Recomposes (P.bSmall : R) P.K ((List.range P.K).map f) w ↔
        ∀ j < w.length, w.getD j 0 = ∑ k ∈ range P.K, (P.bSmall : R) ^ k * (f k).getD j 0) := by
    intro f w hf
    unfold Recomposes
    simp only [List.length_map, List.length_range, min_self]
    have hs : ∀ j, ∑ k ∈ range P.K, (P.bSmall : R) ^ k * (((List.range P.K).map f).getD k []).getD j 0
        = ∑ k ∈ range P.K, (P.bSmall : R) ^ k * (f k).getD j 0 := fun j =>
      sum_congr rfl fun k hk => by rw [hg f [] (mem_range.1 hk)]
    simp only [hs]
    constructor
    · rintro ⟨_, _, _, h⟩; exact h
    · intro h
      exact ⟨hne f, by rw [hg f [] (by omega), hf 0 (by omega)],
        fun k hk => by rw [hg f [] hk, hf k hk], h⟩
  have hrecc : RecomposesCm (P.bSmall : R) P.K ((List.range P.K).map ys) cmi.cm ↔
      ∀ j < cmi.cm.val.length, cmi.cm.val.getD j 0
        = ∑ k ∈ range P.K, (P.bSmall : R) ^ k * (ys k).val.getD j 0 := by
    unfold RecomposesCm
    simp only [List.length_map, List.length_range, min_self]
    have hs : ∀ j, ∑ k ∈ range P.K, (P.bSmall : R) ^ k
        * (((List.range P.K).map ys).getD k ⟨[]⟩).val.getD j 0
        = ∑ k ∈ range P.K, (P.bSmall : R) ^ k * (ys k).val.getD j 0 := fun j =>
      sum_congr rfl fun k hk => by rw [hg ys ⟨[]⟩ (mem_range.1 hk)]
    simp only [hs]
    constructor
    · rintro ⟨_, _, _, h⟩; exact h
    · intro h
      exact ⟨hK, hne ys, by rw [hg ys ⟨[]⟩ (by omega), hy 0 (by omega)], h⟩
  simp only [C31_verify_iff, hrecc, hrec vs _ hv, hrec us _ hu,
    hrec xs (cmi.x_w ++ [cmi.h]) (fun k hk => by rw [hx k hk]; simp)]
  have hxx : (∀ j < (cmi.x_w ++ [cmi.h]).length, (cmi.x_w ++ [cmi.h]).getD j 0
      = ∑ k ∈ range P.K, (P.bSmall : R) ^ k * (xs k).getD j 0) ↔
      (∀ j < cmi.x_w.length, cmi.x_w.getD j 0
        = ∑ k ∈ range P.K, (P.bSmall : R) ^ k * (xs k).getD j 0) ∧
      cmi.h = ∑ k ∈ range P.K, (P.bSmall : R) ^ k * (xs k).getD cmi.x_w.length 0 := by
    constructor
    · intro h
      refine ⟨fun j hj => ?_, ?_⟩
      · rw [← h j (by simp; omega), List.getD_append _ _ _ _ hj]
      · rw [← h cmi.x_w.length (by simp)]
        simp [List.getD_eq_getElem?_getD]
    · rintro ⟨h1, h2⟩ j hj
      rw [List.length_append, List.length_singleton] at hj
      by_cases hj' : j < cmi.x_w.length
      · rw [List.getD_append _ _ _ _ hj', h1 j hj']
      · obtain rfl : j = cmi.x_w.length := by omega
        rw [← h2]
        simp [List.getD_eq_getElem?_getD]
  rw [hxx]
  constructor
  · rintro ⟨l, s', _, h1, h2, h3, h4, _⟩
    exact ⟨h1, h2, h3, h4⟩
  · rintro ⟨h1, h2, h3, h4⟩
    refine ⟨_, _, hb, h1, h2, h3, h4, ?_, rfl, rfl⟩
    rw [zip_range_map, zip_range_map, zip_range_map]
    intro p hp
    obtain ⟨k, hk, rfl⟩ := List.mem_map.1 hp
    intro h
    have := hx k (List.mem_range.1 hk)
    rw [show xs k = [] from h] at this
    simp at this

theorem exDec_accepted (T : Transcript ℚ ℚ σ) (s : σ) : ∃ l s', decVerify ⟨4, 1, 2, 2⟩ T s
    ⟨[3], [5], ⟨[10]⟩, [7], [9], 1⟩ ⟨[[1], [3]], [[1], [2]], [[1, 1], [4, 0]], [⟨[2]⟩, ⟨[4]⟩]⟩
      = .ok (l, s') := by
  have := C31_exact_pieces ⟨4, 1, 2, 2⟩ T s ⟨[3], [5], ⟨[10]⟩, [7], [9], 1⟩
    ([[1], [3]].getD · []) ([[1], [2]].getD · []) ([[1, 1], [4, 0]].getD · []) ([⟨[2]⟩, ⟨[4]⟩].getD · ⟨[]⟩)
    (by decide) (by decide) (by decide) (by decide) (by decide) (by decide)
  exact this.2 (by norm_num [sum_range_succ])

example (T : Transcript ℚ ℚ σ) (s : σ) : ∃ l s', decVerify ⟨4, 1, 2, 2⟩ T s
    ⟨[3], [5], ⟨[10]⟩, [7], [9], 1⟩ ⟨[[1], [3]], [[1], [2]], [[1, 1], [4, 0]], [⟨[2]⟩, ⟨[4]⟩]⟩
      = .ok (l, s') := exDec_accepted T s

/-- **C32**: the derived first commitment is the commitment to the lowest piece whenever the
accumulator commitment opens to the recomposed vector. -/
theorem C32_first_commitment (P : Params) (wits : Nat → Witness R C) (scheme : Ajtai R) (cmi : LCCCS R)
    (hK : 1 ≤ P.K) (hmat : scheme.matrix.WF) (f : List R) (hf : f.length = scheme.matrix.ncols)
    (hlen : ∀ k < P.K, (wits k).f.length = f.length)
    (hrec : ∀ i < f.length, f.getD i 0 = ∑ k ∈ range P.K, (P.bSmall : R) ^ k * (wits k).f.getD i 0)
    (hcm : scheme.commit f = .ok cmi.cm) :
    ∃ ys, commitWitnesses P ((List.range P.K).map wits) scheme cmi = .ok ys ∧ ys.length = P.K ∧
      ∀ k < P.K, ∃ y, ys[k]? = some y ∧ scheme.commit (wits k).f = .ok y := by
  have hcomb : IsComb P.K (fun k => (P.bSmall : R) ^ k) (fun k => (wits k).f) f f.length :=
    ⟨rfl, hlen, hrec⟩
  have hc : ∀ k < P.K, scheme.commit (wits k).f
      = .ok ⟨scheme.matrix.vals.map fun row => dot row (wits k).f⟩ := fun k hk =>
    commit_ok scheme _ (by rw [hlen k hk, hf])
  have hcc := commit_comb hcomb scheme
  rw [hmat.1] at hcc
  have hcmv : cmi.cm.val = scheme.matrix.vals.map fun row => dot row f := by
    rw [commit_ok scheme _ hf] at hcm
    rw [← Except.ok.inj hcm]
  rw [← hcmv] at hcc
  have := commitWitnesses_ok P hK wits scheme rfl cmi
    (fun k => ⟨scheme.matrix.vals.map fun row => dot row (wits k).f⟩) hc hcc
  exact ⟨_, this, by simp, fun k hk => ⟨_, by simp [hk], hc k hk⟩⟩

/-- **C32**, converse aspect: the derived commitments always recompose to the accumulator commitment,
even when it does not open to the witness: the recomposition check by the verifier holds by construction
(so a wrong witness is not noticed by it). -/
theorem C32_always_recomposes (P : Params) (wits : List (Witness R C)) (scheme : Ajtai R) (cmi : LCCCS R)
    (hmat : scheme.matrix.WF) (hκ : cmi.cm.val.length = scheme.kappa) (ys : List (Commitment R))
    (h : commitWitnesses P wits scheme cmi = .ok ys) (hl : wits.length = P.K) :
    RecomposesCm (P.bSmall : R) P.K ys cmi.cm := by
  unfold commitWitnesses at h
  split at h
  · cases h
  rename_i hne
  rw [bind_eq_ok] at h
  obtain ⟨ys', h1, h2⟩ := h
  rw [← Except.ok.inj h2]
  have hwl : 1 ≤ wits.length := by
    rcases wits with _ | ⟨w, ws⟩
    · exact absurd rfl hne
    · simp
  have hl' : ys'.length + 1 = P.K := by
    have := mapRes_length h1
    rw [List.length_tail] at this
    omega
  have hyl : ∀ y ∈ ys', y.val.length = scheme.kappa := by
    intro y hy
    rw [mapRes_eq_ok_iff] at h1
    obtain ⟨i, hi, rfl⟩ := List.mem_iff_getElem.1 hy
    have := (List.forall₂_iff_get.1 h1).2 i (by rw [(List.forall₂_iff_get.1 h1).1]; exact hi) hi
    simp only [List.get_eq_getElem] at this
    have hit : i < wits.tail.length := by rw [(List.forall₂_iff_get.1 h1).1]; exact hi
    have hfl : wits.tail[i].f.length = scheme.matrix.ncols := by
      by_contra hne
      unfold Witness.commit Ajtai.commit at this
      rw [if_pos hne] at this
      cases this
    rw [show wits.tail[i].commit scheme = _ from commit_ok scheme _ hfl] at this
    rw [← Except.ok.inj this, List.length_map]
    exact hmat.1
  refine ⟨by omega, by simp, by simp [sub_val_length], fun j hj => ?_⟩
  rw [List.length_cons, hl', min_self, ← hl', sum_range_succ']
  simp only [List.getD_cons_succ, List.getD_cons_zero, pow_zero, one_mul]
  rw [List.foldl_reverse, sub_val_getD _ _ (by rw [bsum_length, hκ]), bsum_getD _ _ hyl]
  ring

example : ∃ ys, commitWitnesses ⟨4, 1, 2, 2⟩ [(⟨[], [1, 0], [()], []⟩ : Witness ℚ Unit), ⟨[], [0, 1], [()], []⟩]
    ⟨⟨1, 2, [[3, 5]]⟩⟩ ⟨[], [], ⟨[13]⟩, [], [], 0⟩ = .ok ys ∧ ys.map (·.val) = [[3], [5]] := by
  refine ⟨[⟨[3]⟩, ⟨[5]⟩], by decide +kernel, rfl⟩

/-! ## C33 -/

/-- **C33** is false (1): whatever the accumulator, the proof consisting of the accumulator itself as the
single piece is accepted, for every `K`. -/
theorem C33_single_piece_accepted (P : Params) (T : Transcript F R σ) (s : σ) (cmi : LCCCS R)
    (hK : 1 ≤ P.K) (hb : ∀ k < P.K, P.bSmall ^ k < 2 ^ 128) :
    ∃ s', decVerify P T s cmi ⟨[cmi.u], [cmi.v], [cmi.x_w ++ [cmi.h]], [cmi.cm]⟩ = .ok ([cmi], s') := by
  have hm : min P.K 1 = 1 := by omega
  refine ⟨_, (C31_verify_iff P T s _ cmi _ [cmi]).2 ⟨hb, ⟨hK, by simp, rfl, fun j hj => ?_⟩,
    ⟨by simp, rfl, fun k hk => ?_, fun j hj => ?_⟩, ⟨by simp, rfl, fun k hk => ?_, fun j hj => ?_⟩,
    ⟨by simp, rfl, fun k hk => ?_, fun j hj => ?_⟩, ?_, ?_, rfl⟩⟩
  · simp [hm]
  · rw [List.length_singleton, hm] at hk
    obtain rfl : k = 0 := by omega
    simp
  · simp [hm]
  · rw [List.length_singleton, hm] at hk
    obtain rfl : k = 0 := by omega
    simp
  · simp [hm]
  · rw [List.length_singleton, hm] at hk
    obtain rfl : k = 0 := by omega
    simp
  · simp [hm]
  · simp
  · simp

/-- **C33** is false (2): pieces after the first `K` are not constrained by the accumulator: any list of
extra pieces (with non-empty public input) can be appended to an accepted proof with `K` pieces per
component and is output as statements. -/
theorem C33_extra_pieces_accepted (P : Params) (T : Transcript F R σ) (s s' : σ) (cmi : LCCCS R)
    (proof : DecProof R) (l : List (LCCCS R)) (h : decVerify P T s cmi proof = .ok (l, s'))
    (hu : proof.uS.length = P.K) (hv : proof.vS.length = P.K) (hx : proof.xS.length = P.K)
    (hy : proof.yS.length = P.K) (extra : List (LCCCS R)) :
    ∃ s'', decVerify P T s cmi ⟨proof.uS ++ extra.map (·.u), proof.vS ++ extra.map (·.v),
      proof.xS ++ extra.map (fun e => e.x_w ++ [e.h]), proof.yS ++ extra.map (·.cm)⟩
      = .ok (l ++ extra.map (fun e => { e with r := cmi.r }), s'') := by
  obtain ⟨h1, h2, h3, h4, h5, h6, h7, h8⟩ := (C31_verify_iff P T s s' cmi proof l).1 h
  have hrec : ∀ (vs ex : List (List R)) (w : List R), vs.length = P.K →
      Recomposes (P.bSmall : R) P.K vs w → Recomposes (P.bSmall : R) P.K (vs ++ ex) w := by
    rintro vs ex w hl ⟨a, b, c, d⟩
    have hm : min P.K (vs ++ ex).length = min P.K vs.length := by
      rw [List.length_append]; omega
    have hg : ∀ k < min P.K vs.length, (vs ++ ex).getD k [] = vs.getD k [] := fun k hk =>
      List.getD_append _ _ _ _ (by omega)
    have hp : 0 < vs.length := List.length_pos_iff.2 a
    refine ⟨by simp [a], ?_, ?_, ?_⟩
    · rw [List.getD_append _ _ _ _ hp, b]
    · rw [hm]; intro k hk; rw [hg k hk]; exact c k hk
    · rw [hm]
      intro j hj
      rw [d j hj]
      exact sum_congr rfl fun k hk => by rw [hg k (mem_range.1 hk)]
  have hcm : RecomposesCm (P.bSmall : R) P.K (proof.yS ++ extra.map (·.cm)) cmi.cm := by
    obtain ⟨a0, a, b, d⟩ := h2
    have hm : min P.K (proof.yS ++ extra.map (·.cm)).length = min P.K proof.yS.length := by
      rw [List.length_append]; omega
    have hp : 0 < proof.yS.length := List.length_pos_iff.2 a
    refine ⟨a0, by simp [a], ?_, ?_⟩
    · rw [List.getD_append _ _ _ _ hp, b]
    · rw [hm]
      intro j hj
      rw [d j hj]
      exact sum_congr rfl fun k hk => by
        rw [List.getD_append _ _ _ _ (by have := mem_range.1 hk; omega)]
  have hz : (((proof.xS ++ extra.map (fun e => e.x_w ++ [e.h])).zip
      (proof.yS ++ extra.map (·.cm))).zip (proof.uS ++ extra.map (·.u))).zip
      (proof.vS ++ extra.map (·.v))
      = (((proof.xS.zip proof.yS).zip proof.uS).zip proof.vS)
        ++ extra.map fun e => (((e.x_w ++ [e.h], e.cm), e.u), e.v) := by
    rw [List.zip_append (by omega), List.zip_append (by simp; omega), List.zip_append (by simp; omega)]
    congr 1
    rw [zip_map_self, zip_map_self, zip_map_self]
  refine ⟨_, (C31_verify_iff P T s _ cmi _ _).2 ⟨h1, hcm, hrec _ _ _ hv h3, hrec _ _ _ hu h4,
    hrec _ _ _ hx h5, ?_, ?_, rfl⟩⟩
  · simp only
    rw [hz]
    intro p hp
    rcases List.mem_append.1 hp with hp | hp
    · exact h6 p hp
    · obtain ⟨e, _, rfl⟩ := List.mem_map.1 hp
      simp
  · simp only
    rw [hz, List.map_append, ← h7, List.map_map]
    congr 1
    apply List.map_congr_left
    intro e _
    simp [Function.comp]

/-- **C33**, the part that holds: with exactly `K` entries per component, the output has exactly `K`
statements at the input point and their base-`b` combination is the accumulator. Missing: proofs with
other numbers of entries are not rejected (`C33_single_piece_accepted`, `C33_extra_pieces_accepted`). -/
theorem C33_pieces_constrained_partial (P : Params) (T : Transcript F R σ) (s s' : σ) (cmi : LCCCS R)
    (proof : DecProof R) (l : List (LCCCS R)) (h : decVerify P T s cmi proof = .ok (l, s'))
    (hu : proof.uS.length = P.K) (hv : proof.vS.length = P.K) (hx : proof.xS.length = P.K)
    (hy : proof.yS.length = P.K) :
    l.length = P.K ∧ (∀ st ∈ l, st.r = cmi.r) ∧
    Recomposes (P.bSmall : R) P.K (l.map (·.v)) cmi.v ∧ Recomposes (P.bSmall : R) P.K (l.map (·.u)) cmi.u ∧
    Recomposes (P.bSmall : R) P.K (l.map fun st => st.x_w ++ [st.h]) (cmi.x_w ++ [cmi.h]) ∧
    RecomposesCm (P.bSmall : R) P.K (l.map (·.cm)) cmi.cm := by
  obtain ⟨h1, h2, h3, h4, h5, h6, h7, h8⟩ := (C31_verify_iff P T s s' cmi proof l).1 h
  have hl : l.length = P.K := by
    rw [h7]; simp [hu, hv, hx, hy]
  have hget : ∀ (k : Nat) (hk : k < l.length), l[k] = ⟨cmi.r, proof.vS[k], proof.yS[k], proof.uS[k],
      proof.xS[k].dropLast, proof.xS[k].getLastD 0⟩ := by
    intro k hk
    simp only [h7, List.getElem_map, List.getElem_zip]
  have ev : l.map (·.v) = proof.vS := by
    apply List.ext_getElem (by simp; omega)
    intro i a b
    rw [List.getElem_map, hget]
  have eu : l.map (·.u) = proof.uS := by
    apply List.ext_getElem (by simp; omega)
    intro i a b
    rw [List.getElem_map, hget]
  have ey : l.map (·.cm) = proof.yS := by
    apply List.ext_getElem (by simp; omega)
    intro i a b
    rw [List.getElem_map, hget]
  have ex : (l.map fun st => st.x_w ++ [st.h]) = proof.xS := by
    apply List.ext_getElem (by simp; omega)
    intro i a b
    have hi : i < l.length := by simpa using a
    have hne : proof.xS[i] ≠ [] := by
      refine h6 (((proof.xS[i], proof.yS[i]), proof.uS[i]), proof.vS[i]) ?_
      refine List.mem_iff_getElem.2 ⟨i, by simp; omega, ?_⟩
      simp
    rw [List.getElem_map, hget i hi]
    simp only
    rw [List.getLastD_eq_getLast?, List.getLast?_eq_getLast_of_ne_nil hne, Option.getD_some]
    exact List.dropLast_append_getLast hne
  refine ⟨hl, ?_, ev ▸ h3, eu ▸ h4, ex ▸ h5, ey ▸ h2⟩
  intro st hst
  obtain ⟨i, hi, rfl⟩ := List.mem_iff_getElem.1 hst
  rw [hget i hi]

/-- Three pieces although `K = 2`; the third is arbitrary. -/
example (T : Transcript ℚ ℚ σ) (s : σ) (e : LCCCS ℚ) : ∃ l s', decVerify ⟨4, 1, 2, 2⟩ T s
    ⟨[3], [5], ⟨[10]⟩, [7], [9], 1⟩ ⟨[[1], [3], e.u], [[1], [2], e.v], [[1, 1], [4, 0], e.x_w ++ [e.h]],
      [⟨[2]⟩, ⟨[4]⟩, e.cm]⟩ = .ok (l, s') ∧ { e with r := [3] } ∈ l := by
  obtain ⟨l, s', h⟩ := exDec_accepted T s
  obtain ⟨s'', h2⟩ := C33_extra_pieces_accepted ⟨4, 1, 2, 2⟩ T s s' _ _ l h rfl rfl rfl rfl [e]
  exact ⟨_, _, h2, by simp⟩

end Generic

end Verif.Props
