import Verif.Lemmas.Folding
import Verif.Lemmas.ChallengeSet
import Verif.Props.Sumcheck
import Verif.Props.ConstraintSystem

/-! Completeness of the folding subprotocol. -/

set_option linter.unusedSectionVars false
set_option linter.unusedSimpArgs false

namespace Verif

open Finset Spec Props

variable {Fp F C σ : Type} {N τ : Nat} [Field Fp] [Field F] [DecidableEq F] [Algebra Fp F] [CommRing C]
  [Algebra Fp C]

theorem list_eq_range {α : Type} (l : List α) (d : α) {n : Nat} (h : l.length = n) :
    l = (List.range n).map fun k => l.getD k d := by
  apply List.ext_getElem
  · simp [h]
  · intro i h1 h2
    simp [List.getD_eq_getElem?_getD, h1]

theorem getRhos_ok (rd : RingData Fp F C N τ) (P : Params) (hK : 1 ≤ P.K) (cs : ChallengeSet C)
    (T : Transcript F (Fin N → F) σ) (hT : ∀ s n, (T.bytes s n).1.length = n)
    (hcs : ∀ bs, bs.length = cs.bytesNeeded → ∃ c, cs.decode bs = .ok c) (s : σ) :
    ∃ (rho : Nat → C) (s' : σ), getRhos rd P cs T s = .ok (((List.range (2 * P.K)).map rho,
        (List.range (2 * P.K)).map fun k => rd.crt (rho k)), s') ∧ rho (2 * P.K - 1) = 1 ∧
      ∀ k < 2 * P.K - 1, ∃ bs, bs.length = cs.bytesNeeded ∧ cs.decode bs = .ok (rho k) := by
  obtain ⟨l, s', h1, h2, h3⟩ := shortChallenges_ok T cs hT hcs (2 * P.K - 1) (absorbLabel T s "rho_s")
  have hu : usub "2 * P::K - 1" (2 * P.K) 1 = .ok (2 * P.K - 1) := by
    unfold usub
    rw [if_pos (by omega)]
  have hl : (l ++ [1]).length = 2 * P.K := by
    rw [List.length_append, h2, List.length_singleton]
    omega
  refine ⟨fun k => (l ++ [1]).getD k 0, s', ?_, ?_, ?_⟩
  · unfold getRhos
    simp only [hu, bind_ok', h1]
    have e := list_eq_range (l ++ [1]) (0 : C) hl
    conv_lhs => rw [e]
    rw [List.map_map]
    rfl
  · simp [List.getD_eq_getElem?_getD, h2]
  · intro k hk
    have hk' : k < l.length := by omega
    beta_reduce
    rw [List.getD_append _ _ _ _ hk', List.getD_eq_getElem?_getD, List.getElem?_eq_getElem hk']
    exact h3 _ (List.getElem_mem hk')

theorem fHat_map_get {rd : RingData Fp F C N τ} {P : Params} {wl : Nat} {wit : Witness (Fin N → F) C}
    (h : WitOK rd P wl wit) {j : Nat} (hj : j < τ) (e : Mle (Fin N → F) → Fin N → F) :
    (wit.fHat.map e).getD j 0 = e (wit.fHat.getD j ⟨0, []⟩) := by
  have : j < wit.fHat.length := by rw [h.hatlen]; exact hj
  simp [List.getD_eq_getElem?_getD, this]

theorem mz_map_mle {ccs : CCS (Fin N → F)} (wf : CCSWF ccs) (z r : List (Fin N → F)) :
    ((mzTables ccs z).map fun m => mle m.get r) = ccs.M.map fun M => mle (mulVec M z) r := by
  unfold mzTables
  rw [List.map_map]
  apply List.map_congr_left
  intro M hM
  exact congrArg (fun f => mle f r) (funext fun i => mzTables_get wf z hM i)

theorem foldOutput_ok {R : Type} [CommRing R] (r v u x : List R) (cm : Commitment R) (hx : x ≠ []) :
    foldOutput r (v, cm, u, x) = .ok ⟨r, v, cm, u, x.dropLast, x.getLastD 0⟩ := by
  unfold foldOutput
  simp only
  rw [List.getLast?_eq_some_getLast hx]
  simp [List.getLastD_eq_getLast?, List.getLast?_eq_some_getLast hx]

/-- Everything about a folding step of statements whose evaluations are right, whatever their commitments, the
range checks of whose witnesses cancel. -/
theorem fold_complete_open (rd : RingData Fp F C N τ) (P : Params) (cs : ChallengeSet C)
    (T : Transcript F (Fin N → F) σ) (s : σ) (ccs : CCS (Fin N → F)) (scheme : Ajtai (Fin N → F))
    (cms : List (LCCCS (Fin N → F))) (ws : List (Witness (Fin N → F) C)) (mz : List (List (Mle (Fin N → F))))
    (hP : ParamsOK Fp P) (hS : SizesOK P ccs scheme) (ht : ccs.t = ccs.M.length)
    (hin : FoldInputE rd P ccs scheme cms ws mz)
    (hvan : ∀ mu : Nat → Fin N → F, mu (2 * P.K - 1) = 1 → ∀ y, ∑ i ∈ range (2 * P.K), ∑ j ∈ range τ, mu i ^ (j + 1)
      * rangePoly P.bSmall (fhatEntry rd ((ws.getD i ⟨[], [], [], []⟩).fCoeff.getD y 0) j) = 0) (hc : CharGt F (2 * P.bSmall))
    (hT : ∀ s n, (T.bytes s n).1.length = n)
    (hcs : ∀ bs, bs.length = cs.bytesNeeded → ∃ c, cs.decode bs = .ok c) :
    ∃ (st : LCCCS (Fin N → F)) (w : Witness (Fin N → F) C) (proof : FoldProof (Fin N → F)) (s' : σ) (rho : Nat → C)
      (p : List F), foldProve rd P cs T s cms ws ccs mz = .ok ((st, w, proof), s') ∧
      foldVerify rd P cs T s cms proof ccs = .ok (st, s') ∧
      LcccsUpToCm rd P ccs scheme st w ∧ st.r = p.map (algebraMap F (Fin N → F)) ∧
      rho (2 * P.K - 1) = 1 ∧
      (∀ k < 2 * P.K - 1, ∃ bs, bs.length = cs.bytesNeeded ∧ cs.decode bs = .ok (rho k)) ∧
      IsComb (2 * P.K) rho (fun k => (ws.getD k ⟨[], [], [], []⟩).fCoeff) w.fCoeff
        ((ccs.n - ccs.l - 1) * P.L) ∧
      IsComb (2 * P.K) (fun k => rd.crt (rho k)) (fun k => (cms.getD k ⟨[], [], ⟨[]⟩, [], [], 0⟩).cm.val) st.cm.val
        scheme.matrix.vals.length ∧
      IsComb (2 * P.K) (fun k => rd.crt (rho k)) (fun k => (cms.getD k ⟨[], [], ⟨[]⟩, [], [], 0⟩).x_w
        ++ [(cms.getD k ⟨[], [], ⟨[]⟩, [], [], 0⟩).h]) (st.x_w ++ [st.h]) (ccs.l + 1) := by
  set wl := ccs.n - ccs.l - 1 with hwl
  have hK := hP.Kpos
  have hb2 := hP.b2
  have hn := hS.sh.spos
  have wf := hS.sh.wf
  set ST : Nat → LCCCS (Fin N → F) := fun k => cms.getD k ⟨[], [], ⟨[]⟩, [], [], 0⟩ with hST
  set W : Nat → Witness (Fin N → F) C := fun k => ws.getD k ⟨[], [], [], []⟩ with hW
  set Z : Nat → List (Fin N → F) := fun k => ((ST k).x_w ++ [(ST k).h]) ++ (W k).wCcs with hZ
  have hcms : cms = (List.range (2 * P.K)).map ST := list_eq_range cms _ hin.cmLen
  have hws : ws = (List.range (2 * P.K)).map W := list_eq_range ws _ hin.wLen
  have hk : ∀ k < 2 * P.K, LcccsUpToCm rd P ccs scheme (ST k) (W k) ∧
      mz[k]? = some (mzTables ccs (Z k)) := by
    intro k hk
    obtain ⟨st, wit, h1, h2, h3, h5⟩ := hin.holds k hk
    have e1 : ST k = st := by simp [hST, List.getD_eq_getElem?_getD, h1]
    have e2 : W k = wit := by simp [hW, List.getD_eq_getElem?_getD, h2]
    rw [hZ]
    simp only [e1, e2]
    exact ⟨h3, h5⟩
  have hmz : mz = (List.range (2 * P.K)).map fun k => mzTables ccs (Z k) := by
    apply List.ext_getElem?
    intro k
    by_cases hkk : k < 2 * P.K
    · rw [(hk k hkk).2]
      simp [hkk]
    · rw [List.getElem?_eq_none (by rw [hin.mzLen]; omega), List.getElem?_eq_none (by simp; omega)]
  obtain ⟨r1, r2, hpts⟩ := hin.points
  have hr : ∀ k < 2 * P.K, (ST k).r = if k < P.K then r1 else r2 := by
    intro k hk'
    apply hpts
    simp [hST, List.getD_eq_getElem?_getD, hin.cmLen, hk']
  have hrl : ∀ k < 2 * P.K, (ST k).r.length = ccs.s := fun k hk' => (hk k hk').1.evals.rlen
  -- the size guard
  have hsan : sanityCheck ccs P.L = .ok () := by
    rw [(C14_guard_exact ccs P.L).1]
    refine ⟨by have := hS.nl; omega, ⟨ccs.s, hS.sh.pow⟩, ?_⟩
    rw [hS.sh.pow, ← hS.hat]
    exact Nat.le_pow_clog (by omega) _
  obtain ⟨al, ze, mu, beta, s1, hsq, hmul, hbl, hmu1⟩ := squeezeFold_ok P hK T s ccs.s
  set fh : Nat → List (Mle (Fin N → F)) := fun k => (W k).fHat with hfh
  set mzf : Nat → List (Mle (Fin N → F)) := fun k => mzTables ccs (Z k) with hmzf
  have hfl : ∀ k < 2 * P.K, (fh k).length = τ := fun k hk' => (hk k hk').1.witOK.hatlen
  have hfv : ∀ k < 2 * P.K, ∀ m ∈ fh k, m.numVars = ccs.s := fun k hk' m hm => by
    rw [(hk k hk').1.witOK.hatvars m hm, hS.hat]
  have hmzv : ∀ k < 2 * P.K, ∀ m ∈ mzf k, m.numVars = ccs.s := fun k _ m hm => by
    obtain ⟨M, _, rfl⟩ := List.mem_map.1 hm
    rfl
  have hfne : ∀ k < 2 * P.K, fh k ≠ [] := fun k hk' h => by
    have := hfl k hk'
    rw [h] at this
    have := tau_pos rd
    simp at *
    omega
  obtain ⟨ch1, ch2, c1, c2, hch1, hch2, hcreate, hc1v, hc2v, hc1, hc2⟩ := createFoldPoly_ok P hK hn fh mzf al ze beta mu
    (fun k => (ST k).r) hbl hmul hrl hfv hmzv hfne
  set gm := [eqTable (ST 0).r, c1, eqTable (ST P.K).r, c2, eqTable beta]
    ++ ((List.range (2 * P.K)).map fh).flatten with hgm
  have hfll : ((List.range (2 * P.K)).map fh).flatten.length = 2 * P.K * τ := by
    rw [flatten_length (L := τ)]
    · simp
    · intro l hl
      obtain ⟨k, hk', rfl⟩ := List.mem_map.1 hl
      exact hfl k (List.mem_range.1 hk')
  have hgml : gm.length = 5 + 2 * P.K * τ := by
    rw [hgm, List.length_append, hfll]
    rfl
  have hnum : ∀ m ∈ gm, m.numVars = ccs.s := by
    intro m hm
    rw [hgm, List.mem_append] at hm
    rcases hm with hm | hm
    · simp only [List.mem_cons, List.not_mem_nil, or_false] at hm
      rcases hm with rfl | rfl | rfl | rfl | rfl
      · exact hrl 0 (by omega)
      · exact hc1v
      · exact hrl P.K (by omega)
      · exact hc2v
      · exact hbl
    · obtain ⟨l, hl, hml⟩ := List.mem_flatten.1 hm
      obtain ⟨k, hk', rfl⟩ := List.mem_map.1 hl
      exact hfv k (List.mem_range.1 hk') m hml
  let g : List (Fin N → F) → Fin N → F := fun v =>
    foldG P.bSmall (2 * P.K) τ (fun i => mu.getD i 0) (fun i => v.getD i 0)
  have hcomb : ∀ v : List (Fin N → F), v.length = gm.length → foldCombFn P τ mu v = .ok (g v) := by
    intro v hv
    rw [foldCombFn_ok P (by omega) τ mu v (by rw [hv, hgml, hmul]), hmul]
  have hdeg : LineDeg gm.length (2 * P.bSmall) g := foldG_deg (by omega) _ _ _ _
  obtain ⟨proof, pst, s2, sc, vals, hp, hv, -, -, hpt, hptl, hev, hfin⟩ :=
    C20_completeness T s1 gm ccs.s (2 * P.bSmall) (foldCombFn P τ mu) g hn (by omega) hc hnum hcomb hdeg
  have hr1 : ∀ k < P.K, (ST k).r = (ST 0).r := fun k hk' => by
    rw [hr k (by omega), hr 0 (by omega), if_pos hk', if_pos (by omega)]
  have hr2 : ∀ k < P.K, (ST (P.K + k)).r = (ST P.K).r := fun k hk' => by
    rw [hr _ (by omega), hr P.K (by omega), if_neg (by omega), if_neg (by omega)]
  -- the claimed sum
  have hclaim : ∑ b ∈ range (2 ^ ccs.s), g (gm.map fun m => m.get b)
      = foldClaims ((List.range (2 * P.K)).map al) ((List.range (2 * P.K)).map ze) cms := by
    have h1 : ∀ b ∈ range (2 ^ ccs.s), g (gm.map fun m => m.get b)
        = (eqTable (ST 0).r).get b * c1.get b + (eqTable (ST P.K).r).get b * c2.get b := by
      intro b _
      simp only [g, hgm]
      rw [foldG_val _ _ _ _ _ _ _ _ _ _ hfl]
      have : ∑ i ∈ range (2 * P.K), ∑ j ∈ range τ, mu.getD i 0 ^ (j + 1)
          * rangePoly P.bSmall (((fh i).map fun m => m.get b).getD j 0) = 0 := by
        refine Eq.trans ?_ (hvan (fun i => mu.getD i 0) hmu1 b)
        apply sum_congr rfl
        intro i hi
        apply sum_congr rfl
        intro j hj
        obtain ⟨hh, -⟩ := hk i (mem_range.1 hi)
        rw [fHat_map_get hh.witOK (mem_range.1 hj), hh.witOK.get (mem_range.1 hj)]
      rw [this, mul_zero, add_zero]
    rw [sum_congr rfl h1, sum_add_distrib]
    have e1 := sum_eqTable (ST 0).r c1.get
    have e2 := sum_eqTable (ST P.K).r c2.get
    rw [hrl 0 (by omega)] at e1
    rw [hrl P.K (by omega)] at e2
    rw [e1, e2, funext hc1, funext hc2, groupVal_mle, groupVal_mle, hcms, foldClaims_ok, sum_two_mul]
    unfold groupVal
    rw [← sum_add_distrib, ← sum_add_distrib]
    have key : ∀ k < 2 * P.K, (ST k).v = (fh k).map (fun m => mle m.get (ST k).r) ∧
        (ST k).u = (mzf k).map (fun m => mle m.get (ST k).r) := by
      intro k hk'
      exact ⟨(hk k hk').1.evals.v, by rw [(hk k hk').1.evals.u, hmzf, mz_map_mle wf]⟩
    congr 1
    · apply sum_congr rfl
      intro k hk'
      have := mem_range.1 hk'
      obtain ⟨a, b⟩ := key (0 + k) (by omega)
      rw [a, b, zero_add, hr1 k this]
    · apply sum_congr rfl
      intro k hk'
      have := mem_range.1 hk'
      obtain ⟨a, b⟩ := key (P.K + k) (by omega)
      rw [a, b, hr2 k this]
  rw [hclaim] at hv
  set r0 := pst.randomness.map (algebraMap F (Fin N → F)) with hr0
  have hr0l : r0.length = ccs.s := by rw [hr0, List.length_map, ← hpt, hptl]
  rw [hpt, ← hr0] at hev
  -- evaluations
  have htheta : mapRes (fun ms => evaluateMles ms r0) (ws.map Witness.fHat)
      = .ok ((List.range (2 * P.K)).map fun k => (fh k).map fun m => mle m.get r0) := by
    rw [hws, List.map_map]
    apply mapRes_map_ok
    intro k hk'
    exact evaluateMles_ok _ _ fun m hm => by rw [hr0l, hfv k (List.mem_range.1 hk') m hm]
  have heta : mapRes (fun ms => evaluateMles ms r0) mz
      = .ok ((List.range (2 * P.K)).map fun k => (mzf k).map fun m => mle m.get r0) := by
    rw [hmz]
    apply mapRes_map_ok
    intro k hk'
    exact evaluateMles_ok _ _ fun m hm => by rw [hr0l, hmzv k (List.mem_range.1 hk') m hm]
  set TH : List (List (Fin N → F)) := (List.range (2 * P.K)).map fun k => (fh k).map fun m => mle m.get r0 with hTH
  set ET : List (List (Fin N → F)) := (List.range (2 * P.K)).map fun k => (mzf k).map fun m => mle m.get r0 with hET
  set s3 := ET.foldl T.absorbSlice (TH.foldl T.absorbSlice s2) with hs3
  obtain ⟨rho, s4, hrho, hrho1, hrho2⟩ := getRhos_ok rd P hK cs T hT hcs s3
  -- the folded witness
  have hWf : ∀ k < 2 * P.K, (W k).f.length = wl * P.L := fun k hk' => by
    rw [(hk k hk').1.witOK.f, List.length_map, (hk k hk').1.witOK.flen]
  obtain ⟨f0, hf0, hf0c⟩ := f0_comb (2 * P.K) (by omega) (fun k => rd.crt (rho k)) W hWf
  have hfc : IsComb (2 * P.K) rho (fun k => (W k).fCoeff) (f0.map rd.crt.symm) (wl * P.L) := by
    have h1 : IsComb (2 * P.K) rho (fun k => (W k).fCoeff) _ (wl * P.L) :=
      IsComb.mk' fun k hk' => (hk k hk').1.witOK.flen
    have h2 := map_crt_comb rd h1
    have h3 : IsComb (2 * P.K) (fun k => rd.crt (rho k)) (fun k => (W k).fCoeff.map rd.crt) f0 (wl * P.L) := by
      refine ⟨hf0c.len, fun k hk' => by rw [List.length_map, (hk k hk').1.witOK.flen], fun i hi => ?_⟩
      rw [hf0c.eq i hi]
      apply sum_congr rfl
      intro k hk'
      rw [(hk k (mem_range.1 hk')).1.witOK.f]
    have h4 := h3.unique h2
    rw [h4, List.map_map]
    convert h1 using 1
    conv_rhs => rw [← List.map_id (List.map _ _)]
    apply List.map_congr_left
    intro x _
    simp
  obtain ⟨w, hw1, hw2, hw3, hw4⟩ := fromF_ok rd P hP.Lpos f0 hf0c.len
  -- the folded statement
  have hthv : ∀ k < 2 * P.K, (fh k).map (fun m => mle m.get r0)
      = (List.range τ).map (vEval rd (W k).fCoeff r0) := fun k hk' => (hk k hk').1.witOK.vEval r0
  have hv0 : rotLinComb rd ((List.range (2 * P.K)).map rho) TH = .ok (w.fHat.map fun m => mle m.get r0) := by
    have := rotLinComb_vEval rd (by omega : 1 ≤ 2 * P.K) rho (fun k => (W k).fCoeff) _ hfc pst.randomness
    rw [← hr0] at this
    rw [hw2.vEval r0, hw4, ← this, hTH]
    congr 1
    apply List.map_congr_left
    intro k hk'
    exact hthv k (List.mem_range.1 hk')
  have hcml : ∀ k < 2 * P.K, (ST k).cm.val.length = scheme.matrix.vals.length := fun k hk' => (hk k hk').1.cmLen
  have hcm0 := cm_comb (2 * P.K) (fun k => rd.crt (rho k)) (fun k => (ST k).cm) hcml
  set cm0 := ((List.range (2 * P.K)).map fun k => (ST k).cm.smul (rd.crt (rho k))).foldl Commitment.add
      (Commitment.zeroed scheme.matrix.vals.length) with hcm0d
  have hxl : ∀ k < 2 * P.K, ((ST k).x_w ++ [(ST k).h]).length = ccs.l + 1 := fun k hk' => by
    rw [List.length_append, (hk k hk').1.xlen]
    rfl
  have hx0 := fold_comb (2 * P.K) (fun k => rd.crt (rho k)) (fun k => (ST k).x_w ++ [(ST k).h]) hxl
  set x0 := (List.zipWith (fun r (e : List (Fin N → F)) => e.map fun x => r * x)
      ((List.range (2 * P.K)).map fun k => rd.crt (rho k))
      ((List.range (2 * P.K)).map fun k => (ST k).x_w ++ [(ST k).h])).foldl (zipAssign (· + ·))
      (List.replicate (ccs.l + 1) 0) with hx0d
  have hel : ∀ k < 2 * P.K, ((mzf k).map fun m => mle m.get r0).length = ccs.t := fun k _ => by
    simp [hmzf, mzTables, ht]
  have hu0 := fold_comb (2 * P.K) (fun k => rd.crt (rho k)) (fun k => (mzf k).map fun m => mle m.get r0) hel
  set u0 := (List.zipWith (fun r (e : List (Fin N → F)) => e.map fun x => r * x)
      ((List.range (2 * P.K)).map fun k => rd.crt (rho k))
      ((List.range (2 * P.K)).map fun k => (mzf k).map fun m => mle m.get r0)).foldl (zipAssign (· + ·))
      (List.replicate ccs.t 0) with hu0d
  have hx0ne : x0 ≠ [] := by
    intro h
    have := hx0.len
    rw [h] at this
    simp at this
  have hx0s : x0.dropLast ++ [x0.getLastD 0] = x0 := by
    rw [List.getLastD_eq_getLast?, List.getLast?_eq_some_getLast hx0ne]
    exact List.dropLast_append_getLast hx0ne
  have hout : computeFolded rd ((List.range (2 * P.K)).map rho) ((List.range (2 * P.K)).map fun k => rd.crt (rho k))
      TH cms ET ccs = .ok (w.fHat.map (fun m => mle m.get r0), cm0, u0, x0) := by
    unfold computeFolded
    rw [hv0]
    simp only [bind_ok']
    have e1 : headCmLen cms = scheme.matrix.vals.length := by
      obtain ⟨q, hq⟩ : ∃ q, 2 * P.K = q + 1 := ⟨2 * P.K - 1, by omega⟩
      have := hcml 0 (by omega)
      rw [hcms, hq, List.range_succ_eq_map]
      exact this
    rw [e1, hcms, zipWith_map_self, ← hcm0d, hET, ← hu0d]
    have e2 : List.zipWith (fun r (c : LCCCS (Fin N → F)) => (c.x_w ++ [c.h]).map fun x => r * x)
        ((List.range (2 * P.K)).map fun k => rd.crt (rho k)) ((List.range (2 * P.K)).map ST)
        = List.zipWith (fun r (e : List (Fin N → F)) => e.map fun x => r * x)
      ((List.range (2 * P.K)).map fun k => rd.crt (rho k))
      ((List.range (2 * P.K)).map fun k => (ST k).x_w ++ [(ST k).h]) := by
      rw [zipWith_map_self, zipWith_map_self]
    rw [e2, ← hx0d]
  have hlc := foldOutput_ok r0 (w.fHat.map fun m => mle m.get r0) u0 x0 cm0 hx0ne
  have hwc : IsComb (2 * P.K) (fun k => rd.crt (rho k)) (fun k => (W k).wCcs) w.wCcs wl := by
    have h1 := gadget_comb hf0c (fun l => (P.B : Fin N → F) ^ l)
    refine ⟨hw2.wlen, fun k hk' => (hk k hk').1.witOK.wlen, fun i hi => ?_⟩
    have h2 := h1.eq i hi
    rw [getD_map_range _ _ hi] at h2
    rw [hw2.w i hi, hw3, h2]
    apply sum_congr rfl
    intro k hk'
    rw [getD_map_range _ _ hi, (hk k (mem_range.1 hk')).1.witOK.w i hi]
  have hz0 : IsComb (2 * P.K) (fun k => rd.crt (rho k)) Z (x0 ++ w.wCcs) (ccs.l + 1 + wl) := hx0.append hwc
  have hu0e : u0 = ccs.M.map fun M => mle (mulVec M (x0 ++ w.wCcs)) r0 := by
    apply ext_getD hu0.len (by simp [ht])
    intro i hi
    have hi' : i < ccs.M.length := by omega
    rw [hu0.eq i hi]
    simp only [List.getD_eq_getElem?_getD, List.getElem?_map, List.getElem?_eq_getElem hi', Option.map_some,
      Option.getD_some]
    rw [mle_comb (fun j => mulVec_comb hz0 ccs.M[i] j)]
    apply sum_congr rfl
    intro k _
    congr 1
    rw [← List.getElem?_map, mz_map_mle wf]
    simp [hi']
  have hfold : LcccsUpToCm rd P ccs scheme ⟨r0, w.fHat.map fun m => mle m.get r0, cm0, u0, x0.dropLast,
      x0.getLastD 0⟩ w := by
    refine ⟨hw2, hcm0.len, ?_, ⟨hr0l, rfl, ?_⟩⟩
    · simp [hx0.len]
    · simp only [hx0s]
      exact hu0e
  -- the final check
  have heq : eqEval beta r0 = .ok (eqPoly beta r0) := eqEval_ok _ _ (by rw [hbl, hr0l])
  have hes : mapRes (fun r => eqEval r r0) (cms.map LCCCS.r)
      = .ok ((List.range (2 * P.K)).map fun k => eqPoly (ST k).r r0) := by
    rw [hcms, List.map_map]
    apply mapRes_map_ok
    intro k hk'
    exact eqEval_ok _ _ (by rw [hr0l]; exact hrl k (List.mem_range.1 hk'))
  have hexp : expectedValue P ((List.range (2 * P.K)).map al) mu TH (eqPoly beta r0)
      ((List.range (2 * P.K)).map fun k => eqPoly (ST k).r r0) ((List.range (2 * P.K)).map ze) ET
      = .ok sc.expectedEvaluation := by
    rw [hTH, hET, expectedValue_ok P (by omega) al ze _ mu hmul]
    rw [← hfin]
    have hvals : vals = gm.map fun m => mle m.get r0 := by
      rw [evaluateMles_ok gm r0 (fun m hm => by rw [hr0l, hnum m hm])] at hev
      exact (Except.ok.inj hev).symm
    rw [hvals, hcomb _ (by simp)]
    simp only [g, hgm]
    rw [foldG_val _ _ _ _ _ _ _ _ _ _ hfl, eqTable_mle (ST 0).r _ (by rw [hr0l]; exact hrl 0 (by omega)),
      eqTable_mle (ST P.K).r _ (by rw [hr0l]; exact hrl P.K (by omega)), eqTable_mle beta _ (by rw [hbl, hr0l]), funext hc1, funext hc2, groupVal_mle, groupVal_mle]
    rw [expected_eq P.bSmall P.K τ fh mzf al ze (fun i => mu.getD i 0) (eqPoly (ST 0).r r0) (eqPoly (ST P.K).r r0)
      (eqPoly beta r0) hfl _ (fun k => eqPoly (ST k).r r0) (fun k hk' => by rw [hr1 k hk'])
      (fun k hk' => by rw [hr2 k hk'])]
  refine ⟨_, w, ⟨proof, TH, ET⟩, s4, rho, pst.randomness, ?_, ?_, hfold, hr0, hrho1, hrho2, ?_, hcm0, ?_⟩
  · unfold foldProve
    rw [hsan]
    simp only [bind_ok']
    rw [if_neg (by simpa using hin.cmLen), hsq]
    simp only [bind_ok']
    rw [hmz, slice_left, slice_left, slice_right, slice_right]
    simp only [bind_ok']
    rw [hch1, hch2]
    simp only [bind_ok']
    have e1 : ws.map Witness.fHat = (List.range (2 * P.K)).map fh := by rw [hws, List.map_map]; rfl
    have e2 : cms.map LCCCS.r = (List.range (2 * P.K)).map fun k => (ST k).r := by rw [hcms, List.map_map]; rfl
    rw [e2]
    rw [e1, hcreate]
    simp only [bind_ok', hp]
    rw [← e1, ← hmz, ← hr0, htheta]
    simp only [bind_ok', heta]
    rw [← hs3, hrho]
    simp only [bind_ok']
    have e3 : computeF0 ((List.range (2 * P.K)).map fun k => rd.crt (rho k)) ws = .ok f0 := by
      rw [hws]; exact hf0
    rw [e3, hout]
    simp only [bind_ok', hlc, hw1]
  · unfold foldVerify
    rw [hsan]
    simp only [bind_ok', hsq, hv, hpt]
    rw [← hr0, heq]
    simp only [bind_ok', hes, hexp]
    rw [if_neg (by simp), ← hs3, hrho]
    simp only [bind_ok', hout, hlc]
  · rw [hw4]; exact hfc
  · simp only [hx0s]
    exact hx0

theorem lcccs_upToCm {rd : RingData Fp F C N τ} {P : Params} {ccs : CCS (Fin N → F)}
    {scheme : Ajtai (Fin N → F)} (hS : SizesOK P ccs scheme) {st : LCCCS (Fin N → F)} {w : Witness (Fin N → F) C}
    (h : LcccsHolds rd P ccs scheme st w) : LcccsUpToCm rd P ccs scheme st w := by
  refine ⟨h.witOK, ?_, h.xlen, h.evals⟩
  have h1 := h.cm
  rw [commit_ok scheme _ (by rw [h.witOK.f, List.length_map, h.witOK.flen, hS.width])] at h1
  rw [← Except.ok.inj h1]
  simp

/-- Everything about a folding step of statements that hold, the range checks of whose witnesses cancel. -/
theorem fold_complete_of (rd : RingData Fp F C N τ) (P : Params) (cs : ChallengeSet C)
    (T : Transcript F (Fin N → F) σ) (s : σ) (ccs : CCS (Fin N → F)) (scheme : Ajtai (Fin N → F))
    (cms : List (LCCCS (Fin N → F))) (ws : List (Witness (Fin N → F) C)) (mz : List (List (Mle (Fin N → F))))
    (hP : ParamsOK Fp P) (hS : SizesOK P ccs scheme) (ht : ccs.t = ccs.M.length)
    (hin : FoldInputW rd P ccs scheme cms ws mz)
    (hvan : ∀ mu : Nat → Fin N → F, mu (2 * P.K - 1) = 1 → ∀ y, ∑ i ∈ range (2 * P.K), ∑ j ∈ range τ, mu i ^ (j + 1)
      * rangePoly P.bSmall (fhatEntry rd ((ws.getD i ⟨[], [], [], []⟩).fCoeff.getD y 0) j) = 0) (hc : CharGt F (2 * P.bSmall))
    (hT : ∀ s n, (T.bytes s n).1.length = n)
    (hcs : ∀ bs, bs.length = cs.bytesNeeded → ∃ c, cs.decode bs = .ok c) :
    ∃ (st : LCCCS (Fin N → F)) (w : Witness (Fin N → F) C) (proof : FoldProof (Fin N → F)) (s' : σ) (rho : Nat → C)
      (p : List F), foldProve rd P cs T s cms ws ccs mz = .ok ((st, w, proof), s') ∧
      foldVerify rd P cs T s cms proof ccs = .ok (st, s') ∧
      LcccsHolds rd P ccs scheme st w ∧ st.r = p.map (algebraMap F (Fin N → F)) ∧
      rho (2 * P.K - 1) = 1 ∧
      (∀ k < 2 * P.K - 1, ∃ bs, bs.length = cs.bytesNeeded ∧ cs.decode bs = .ok (rho k)) ∧
      IsComb (2 * P.K) rho (fun k => (ws.getD k ⟨[], [], [], []⟩).fCoeff) w.fCoeff
        ((ccs.n - ccs.l - 1) * P.L) ∧
      IsComb (2 * P.K) (fun k => rd.crt (rho k)) (fun k => (cms.getD k ⟨[], [], ⟨[]⟩, [], [], 0⟩).cm.val) st.cm.val
        scheme.matrix.vals.length ∧
      IsComb (2 * P.K) (fun k => rd.crt (rho k)) (fun k => (cms.getD k ⟨[], [], ⟨[]⟩, [], [], 0⟩).x_w
        ++ [(cms.getD k ⟨[], [], ⟨[]⟩, [], [], 0⟩).h]) (st.x_w ++ [st.h]) (ccs.l + 1) := by
  have hE : FoldInputE rd P ccs scheme cms ws mz :=
    ⟨hin.cmLen, hin.wLen, hin.mzLen, fun k hk => by
      obtain ⟨st, wit, h1, h2, h3, h4⟩ := hin.holds k hk
      exact ⟨st, wit, h1, h2, lcccs_upToCm hS h3, h4⟩, hin.points⟩
  obtain ⟨st, w, proof, s', rho, p, h1, h2, h3, h4, h5, h6, h7, h8, h9⟩ :=
    fold_complete_open rd P cs T s ccs scheme cms ws mz hP hS ht hE hvan hc hT hcs
  refine ⟨st, w, proof, s', rho, p, h1, h2, ⟨h3.witOK, ?_, h3.xlen, h3.evals⟩, h4, h5, h6, h7, h8, h9⟩
  have hf := map_crt_comb rd h7
  rw [← h3.witOK.f] at hf
  have hc1 := commit_comb hf scheme
  have hc2 : IsComb (2 * P.K) (fun k => rd.crt (rho k)) (fun k => scheme.matrix.vals.map fun row =>
      dot row ((ws.getD k ⟨[], [], [], []⟩).fCoeff.map rd.crt)) st.cm.val scheme.matrix.vals.length := by
    refine ⟨h8.len, by simp, fun i hi => ?_⟩
    rw [h8.eq i hi]
    apply sum_congr rfl
    intro k hk
    obtain ⟨sk, wk, e1, e2, e3, -⟩ := hin.holds k (mem_range.1 hk)
    have h := e3.cm
    rw [commit_ok scheme _ (by rw [e3.witOK.f, List.length_map, e3.witOK.flen, hS.width])] at h
    simp only [List.getD_eq_getElem?_getD, e1, e2, Option.getD_some]
    rw [← Except.ok.inj h, e3.witOK.f]
  rw [commit_ok scheme _ (by rw [h3.witOK.f, List.length_map, h3.witOK.flen, hS.width]), hc1.unique hc2]

/-- Everything about an honest folding step. -/
theorem fold_complete (rd : RingData Fp F C N τ) (P : Params) (cs : ChallengeSet C)
    (T : Transcript F (Fin N → F) σ) (s : σ) (ccs : CCS (Fin N → F)) (scheme : Ajtai (Fin N → F))
    (cms : List (LCCCS (Fin N → F))) (ws : List (Witness (Fin N → F) C)) (mz : List (List (Mle (Fin N → F))))
    (hP : ParamsOK Fp P) (hS : SizesOK P ccs scheme) (ht : ccs.t = ccs.M.length)
    (hin : FoldInput rd P ccs scheme cms ws mz) (hc : CharGt F (2 * P.bSmall))
    (hT : ∀ s n, (T.bytes s n).1.length = n)
    (hcs : ∀ bs, bs.length = cs.bytesNeeded → ∃ c, cs.decode bs = .ok c) :
    ∃ (st : LCCCS (Fin N → F)) (w : Witness (Fin N → F) C) (proof : FoldProof (Fin N → F)) (s' : σ) (rho : Nat → C)
      (p : List F), foldProve rd P cs T s cms ws ccs mz = .ok ((st, w, proof), s') ∧
      foldVerify rd P cs T s cms proof ccs = .ok (st, s') ∧
      LcccsHolds rd P ccs scheme st w ∧ st.r = p.map (algebraMap F (Fin N → F)) ∧
      rho (2 * P.K - 1) = 1 ∧
      (∀ k < 2 * P.K - 1, ∃ bs, bs.length = cs.bytesNeeded ∧ cs.decode bs = .ok (rho k)) ∧
      IsComb (2 * P.K) rho (fun k => (ws.getD k ⟨[], [], [], []⟩).fCoeff) w.fCoeff
        ((ccs.n - ccs.l - 1) * P.L) ∧
      IsComb (2 * P.K) (fun k => rd.crt (rho k)) (fun k => (cms.getD k ⟨[], [], ⟨[]⟩, [], [], 0⟩).cm.val) st.cm.val
        scheme.matrix.vals.length ∧
      IsComb (2 * P.K) (fun k => rd.crt (rho k)) (fun k => (cms.getD k ⟨[], [], ⟨[]⟩, [], [], 0⟩).x_w
        ++ [(cms.getD k ⟨[], [], ⟨[]⟩, [], [], 0⟩).h]) (st.x_w ++ [st.h]) (ccs.l + 1) := by
  refine fold_complete_of rd P cs T s ccs scheme cms ws mz hP hS ht hin.weak ?_ hc hT hcs
  intro mu _ y
  apply sum_eq_zero
  intro i hi
  apply sum_eq_zero
  intro j hj
  obtain ⟨st, wit, h1, h2, h3, h4, h5⟩ := hin.holds i (mem_range.1 hi)
  have e2 : ws.getD i ⟨[], [], [], []⟩ = wit := by simp [List.getD_eq_getElem?_getD, h2]
  rw [e2, range_vanish rd hP.b2 (getD_short rd h4 y), mul_zero]

end Verif
