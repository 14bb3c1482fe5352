import Verif.Props.FoldingSound
import Verif.Props.Nifs
import Verif.Model.ParamSets
import Mathlib.LinearAlgebra.Dimension.Constructions
import Mathlib.LinearAlgebra.Dimension.FreeAndStrongRankCondition
import Mathlib.LinearAlgebra.FiniteDimensional.Basic

/-!
# A whole folding step with a witness out of range (C54)

The range of the last piece of the new witness is checked only in sum over the `τ` coefficients of a slot. Here a prover
makes use of it in a whole step, and the consequence for the commitment is drawn: the openings which the verifier cannot
tell from short ones contain a large linear space, in which the commitment matrix has a kernel.
-/

set_option linter.unusedSectionVars false
set_option linter.unusedSimpArgs false

namespace Verif.Props

open Finset Verif Verif.Spec

variable {σ : Type}

section Ring
variable {Fp F C : Type} {N τ : Nat} [Field Fp] [Field F] [DecidableEq F] [Algebra Fp F] [CommRing C]
  [Algebra Fp C]

/-- The pieces of two decompositions, without any bound on the witnesses. -/
theorem foldInputW_append (rd : RingData Fp F C N τ) (P : Params) (ccs : CCS (Fin N → F)) (scheme : Ajtai (Fin N → F))
    {l1 l2 : List (LCCCS (Fin N → F))} {w1 w2 : List (Witness (Fin N → F) C)}
    {mz1 mz2 : List (List (Mle (Fin N → F)))} {r1 r2 : List (Fin N → F)}
    (hl1 : l1.length = P.K) (hw1 : w1.length = P.K) (hm1 : mz1.length = P.K)
    (hl2 : l2.length = P.K) (hw2 : w2.length = P.K) (hm2 : mz2.length = P.K)
    (h1 : ∀ k < P.K, ∃ stk witk, l1[k]? = some stk ∧ w1[k]? = some witk ∧
        LcccsHolds rd P ccs scheme stk witk ∧ stk.r = r1 ∧
        mz1[k]? = some (ccs.M.map fun M => ⟨ccs.s, (List.range M.nrows).map fun i =>
          mulVec M ((stk.x_w ++ [stk.h]) ++ witk.wCcs) i⟩))
    (h2 : ∀ k < P.K, ∃ stk witk, l2[k]? = some stk ∧ w2[k]? = some witk ∧
        LcccsHolds rd P ccs scheme stk witk ∧ stk.r = r2 ∧
        mz2[k]? = some (ccs.M.map fun M => ⟨ccs.s, (List.range M.nrows).map fun i =>
          mulVec M ((stk.x_w ++ [stk.h]) ++ witk.wCcs) i⟩)) :
    FoldInputW rd P ccs scheme (l1 ++ l2) (w1 ++ w2) (mz1 ++ mz2) where
  cmLen := by rw [List.length_append]; omega
  wLen := by rw [List.length_append]; omega
  mzLen := by rw [List.length_append]; omega
  holds := by
    intro k hk
    by_cases hkk : k < P.K
    · obtain ⟨st, w, a, b, c, -, e⟩ := h1 k hkk
      refine ⟨st, w, ?_, ?_, c, ?_⟩
      · rw [List.getElem?_append_left (by omega), a]
      · rw [List.getElem?_append_left (by omega), b]
      · rw [List.getElem?_append_left (by omega), e]
    · obtain ⟨st, w, a, b, c, -, e⟩ := h2 (k - P.K) (by omega)
      refine ⟨st, w, ?_, ?_, c, ?_⟩
      · rw [List.getElem?_append_right (by omega), hl1, a]
      · rw [List.getElem?_append_right (by omega), hw1, b]
      · rw [List.getElem?_append_right (by omega), hm1, e]
  points := by
    refine ⟨r1, r2, fun k st h => ?_⟩
    by_cases hkk : k < P.K
    · rw [if_pos hkk]
      rw [List.getElem?_append_left (by omega)] at h
      obtain ⟨st', w, a, -, -, d, -⟩ := h1 k hkk
      rw [a] at h
      cases h
      exact d
    · rw [if_neg hkk]
      rw [List.getElem?_append_right (by omega), hl1] at h
      have hk2 := (List.getElem?_eq_some_iff.1 h).1
      obtain ⟨st', w, a, -, -, d, -⟩ := h2 (k - P.K) (by omega)
      rw [a] at h
      cases h
      exact d

/-- Any pieces that recompose the witness are accepted as a decomposition, whatever their size. -/
theorem pieces_run (rd : RingData Fp F C N τ) (P : Params)
    (T : Transcript F (Fin N → F) σ) (s : σ) (st : LCCCS (Fin N → F)) (wit : Witness (Fin N → F) C)
    (ccs : CCS (Fin N → F)) (scheme : Ajtai (Fin N → F)) (hP : ParamsOK Fp P) (hS : SizesOK P ccs scheme)
    (hst : LcccsHolds rd P ccs scheme st wit) (fc : Nat → List C) (hfcl : ∀ k, (fc k).length = (ccs.n - ccs.l - 1) * P.L)
    (hcombf : IsComb P.K (fun k => ((P.bSmall ^ k : Nat) : C)) fc wit.fCoeff ((ccs.n - ccs.l - 1) * P.L)) :
    ∃ (mz : List (List (Mle (Fin N → F)))) (lcccs : List (LCCCS (Fin N → F))) (wits : List (Witness (Fin N → F) C))
        (proof : DecProof (Fin N → F)) (s' : σ), decVerify P T s st proof = .ok (lcccs, s') ∧
      lcccs.length = P.K ∧ wits.length = P.K ∧ mz.length = P.K ∧
      (proof.uS.length = P.K ∧ proof.vS.length = P.K ∧ proof.xS.length = P.K ∧ proof.yS.length = P.K) ∧
      (∀ k < P.K, proof.yS[k]? = some ⟨scheme.matrix.vals.map fun row => dot row ((fc k).map rd.crt)⟩) ∧
      ∀ k < P.K, ∃ stk witk, lcccs[k]? = some stk ∧ wits[k]? = some witk ∧
        LcccsHolds rd P ccs scheme stk witk ∧ stk.r = st.r ∧ witk.fCoeff = fc k ∧
        mz[k]? = some (ccs.M.map fun M => ⟨ccs.s, (List.range M.nrows).map fun i =>
          mulVec M ((stk.x_w ++ [stk.h]) ++ witk.wCcs) i⟩) := by
  obtain ⟨wok, hcm, hxl, hev⟩ := hst
  set wl := ccs.n - ccs.l - 1 with hwl
  have hnl := hS.nl
  have hwl1 : 1 ≤ wl := by omega
  have hKp := hP.Kpos
  have hbcast : (fun k => rd.crt ((P.bSmall ^ k : Nat) : C)) = fun k => (P.bSmall : Fin N → F) ^ k := by
    funext k
    rw [crt_natCast, Nat.cast_pow]
  have hcombn := map_crt_comb rd hcombf
  rw [hbcast] at hcombn
  set W : Nat → Witness (Fin N → F) C := fun k => mkWit rd P wl (fc k) with hW
  set x := st.x_w ++ [st.h] with hx
  have hxlen : x.length = ccs.l + 1 := by rw [hx, List.length_append, hxl]; rfl
  have hcombx := bigRow_comb rd hP x
  set X : Nat → List (Fin N → F) := bigRow rd P x with hX
  have hXl : ∀ k, (X k).length = ccs.l + 1 := fun k => by simp [hX, bigRow, hxlen]
  have hXne : ∀ k, X k ≠ [] := fun k h => by have := hXl k; rw [h] at this; simp at this
  have hXsplit : ∀ k, (X k).dropLast ++ [(X k).getLastD 0] = X k := by
    intro k
    rw [List.getLastD_eq_getLast?, List.getLast?_eq_getLast_of_ne_nil (hXne k), Option.getD_some]
    exact List.dropLast_append_getLast (hXne k)
  -- commitments
  set Y : Nat → Commitment (Fin N → F) := fun k =>
    ⟨scheme.matrix.vals.map fun row => dot row ((fc k).map rd.crt)⟩ with hY
  have hcommit : ∀ k, scheme.commit ((fc k).map rd.crt) = .ok (Y k) := fun k =>
    commit_ok scheme _ (by rw [List.length_map, hfcl, hS.width])
  have hcmv : st.cm.val = scheme.matrix.vals.map fun row => dot row wit.f := by
    rw [commit_ok scheme _ (by rw [wok.f, List.length_map, wok.flen, hS.width])] at hcm
    rw [← Except.ok.inj hcm]
  have hcombY : IsComb P.K (fun k => (P.bSmall : Fin N → F) ^ k) (fun k => (Y k).val) st.cm.val
      scheme.kappa := by
    rw [hcmv, wok.f]
    have := commit_comb hcombn scheme
    rw [hS.mat.1] at this
    exact this
  -- v
  have hrl : st.r.length = Nat.clog 2 (wl * P.L) := by rw [hev.rlen, hS.hat]
  set V : Nat → List (Fin N → F) := fun k => (List.range τ).map (vEval rd (fc k) st.r) with hV
  have hcombV : IsComb P.K (fun k => (P.bSmall : Fin N → F) ^ k) V st.v τ := by
    have hv : st.v = (List.range τ).map (vEval rd wit.fCoeff st.r) := by rw [hev.v, wok.vEval]
    refine ⟨by simp [hv], by simp [hV], fun j hj => ?_⟩
    rw [hv, getD_map_range _ _ hj, vEval_comb rd hcombf]
    apply sum_congr rfl
    intro k _
    rw [hV, getD_map_range _ _ hj, Nat.cast_pow]
  -- Mz and u
  have hcombw : IsComb P.K (fun k => (P.bSmall : Fin N → F) ^ k) (fun k => (W k).wCcs) wit.wCcs wl := by
    rw [wok.w_eq]
    exact gadget_comb hcombn _
  have hcombz := hcombx.append hcombw
  rw [hxlen] at hcombz
  have hzl : ∀ k, (X k ++ (W k).wCcs).length = ccs.n := by
    intro k
    rw [List.length_append, hXl, (mkWit_ok rd P (fc k) (hfcl k)).wlen]
    omega
  set MZ : Nat → List (Mle (Fin N → F)) := fun k => mzTables ccs (X k ++ (W k).wCcs) with hMZ
  set U : Nat → List (Fin N → F) := fun k => ccs.M.map fun M => mle (mulVec M (X k ++ (W k).wCcs)) st.r
    with hU
  have hcombU : IsComb P.K (fun k => (P.bSmall : Fin N → F) ^ k) U st.u ccs.M.length := by
    refine ⟨by simp [hev.u], by simp [hU], fun j hj => ?_⟩
    have key : ∀ g : SpMat (Fin N → F) → (Fin N → F), (ccs.M.map g).getD j 0 = g ccs.M[j] := by
      intro g
      simp [List.getD_eq_getElem?_getD, hj]
    rw [hev.u, key, mle_comb fun i => mulVec_comb hcombz ccs.M[j] i]
    apply sum_congr rfl
    intro k _
    rw [hU]
    simp only
    rw [key]
  -- transcript
  have hp := decPieces_ok T s st.r U V X Y (K := P.K) fun k _ => hXne k
  set L : Nat → LCCCS (Fin N → F) := fun k =>
    ⟨st.r, V k, Y k, U k, (X k).dropLast, (X k).getLastD 0⟩ with hL
  set s' := ((List.range P.K).map fun k => (((X k, Y k), U k), V k)).foldl (absorb4 T) s with hs'
  refine ⟨(List.range P.K).map MZ, (List.range P.K).map L, (List.range P.K).map W,
    ⟨(List.range P.K).map U, (List.range P.K).map V, (List.range P.K).map X, (List.range P.K).map Y⟩, s',
    ?_, by simp, by simp, by simp, by simp, fun k hk => by rw [List.getElem?_map, List.getElem?_range hk]; rfl, ?_⟩
  · unfold decVerify
    have e1 := recomposeCommitment_ok hP.Kpos Y (fun k => (P.bSmall : Fin N → F) ^ k) (κ := scheme.kappa)
      hcombY.lens
    have e2 := recomposeVecs_ok hP.Kpos V (fun k => (P.bSmall : Fin N → F) ^ k) hcombV.lens
    have e3 := recomposeVecs_ok hP.Kpos U (fun k => (P.bSmall : Fin N → F) ^ k) hcombU.lens
    have e4 := recomposeVecs_ok hP.Kpos X (fun k => (P.bSmall : Fin N → F) ^ k) hcombx.lens
    rw [show (List.range scheme.kappa).map (fun j => ∑ k ∈ range P.K, (P.bSmall : Fin N → F) ^ k
        * (Y k).val.getD j 0) = st.cm.val from (IsComb.mk' hcombY.lens).unique hcombY] at e1
    rw [(IsComb.mk' hcombV.lens).unique hcombV] at e2
    rw [(IsComb.mk' hcombU.lens).unique hcombU] at e3
    rw [(IsComb.mk' hcombx.lens).unique hcombx] at e4
    simp only [hp, calculateBs_ok P hP.nooverflow hP.b2, bind_ok', e1, e2, e3, e4]
    rw [if_neg (by simp), if_neg (by simp), if_neg (by simp)]
    have : popLast x = .ok (st.x_w, st.h) := by
      unfold popLast
      rw [hx]
      simp
    rw [this]
    simp only [bind_ok']
    rw [if_neg (by simp), if_neg (by simp)]
  · intro k hk
    have hok := mkWit_ok rd P (fc k) (hfcl k)
    refine ⟨L k, W k, by simp [hk], by simp [hk], ⟨hok, hcommit k, ?_, ⟨hev.rlen, ?_, ?_⟩⟩, rfl, rfl, ?_⟩
    · simp [hL, hXl]
    · exact (hok.vEval st.r).symm
    · simp only [hL]
      rw [hXsplit]
    · simp only [hL]
      rw [hXsplit]
      simp [hk, hMZ, mzTables]

/-- A whole step with a last piece out of range, with the combination that forms the folded witness. -/
theorem step_long_comb (rd : RingData Fp F C N τ) (P : Params) (cs : ChallengeSet C)
    (T : Transcript F (Fin N → F) σ) (s : σ) (ccs : CCS (Fin N → F)) (scheme : Ajtai (Fin N → F))
    (acc : LCCCS (Fin N → F)) (wAcc : Witness (Fin N → F) C) (cm : CCCS (Fin N → F)) (w : Witness (Fin N → F) C)
    (hP : ParamsOK Fp P) (hS : SizesOK P ccs scheme) (ht : ccs.t = ccs.M.length) (al : Aligned ccs)
    (hc : CharGt F (2 * P.bSmall)) (hd : CharGt F (ccs.d + 1))
    (hT : ∀ s n, (T.bytes s n).1.length = n)
    (hcs : ∀ bs, bs.length = cs.bytesNeeded → ∃ c, cs.decode bs = .ok c)
    (hacc : LcccsHolds rd P ccs scheme acc wAcc) (hsh : WitShort rd (reach P.bSmall P.K) wAcc)
    (hw : WitOK rd P (ccs.n - ccs.l - 1) w) (hopen : scheme.commit w.f = .ok cm.cm) (hx : cm.x_ccs.length = ccs.l)
    (hsat : CCSHolds ccs ((cm.x_ccs ++ [1]) ++ w.wCcs))
    (fc : Nat → List C) (hfcl : ∀ k, (fc k).length = (ccs.n - ccs.l - 1) * P.L)
    (hcomb : IsComb P.K (fun k => ((P.bSmall ^ k : Nat) : C)) fc w.fCoeff ((ccs.n - ccs.l - 1) * P.L))
    (hfs : ∀ k < P.K - 1, ∀ c ∈ fc k, ∀ i, Short P.bSmall (rd.coeff c i))
    (hfl : ∀ c ∈ fc (P.K - 1), ∀ a : Fin N, ∑ j : Fin τ, rangePoly P.bSmall (rd.coeff c (finProdFinEquiv (j, a))) = 0) :
    ∃ proof st w' s', nifsVerify rd P cs T s acc cm proof ccs = .ok (st, s') ∧ LcccsHolds rd P ccs scheme st w' ∧
      (∀ d ∈ [proof.decL, proof.decR], d.uS.length = P.K ∧ d.vS.length = P.K ∧ d.xS.length = P.K ∧ d.yS.length = P.K) ∧
      (∀ k < P.K, proof.decR.yS[k]? = some ⟨scheme.matrix.vals.map fun row => dot row ((fc k).map rd.crt)⟩) ∧
      ∃ (rho : Nat → C) (f : Nat → List C), rho (2 * P.K - 1) = 1 ∧
        (∀ k < 2 * P.K - 1, ∃ bs, bs.length = cs.bytesNeeded ∧ cs.decode bs = .ok (rho k)) ∧
        (∀ k < 2 * P.K - 1, ∀ c ∈ f k, ∀ i, Short P.bSmall (rd.coeff c i)) ∧ f (2 * P.K - 1) = fc (P.K - 1) ∧
        IsComb (2 * P.K) rho f w'.fCoeff ((ccs.n - ccs.l - 1) * P.L) := by
  have hsan := sanity_ok hS
  have hnl := hS.nl
  have hK := hP.Kpos
  have hnum : ∀ k, k < 2 * P.K - 1 → ¬ k < P.K → k - P.K < P.K - 1 ∧ k - P.K < P.K := by
    intro k h1 h2
    omega
  have hnum3 : ∀ k, k < 2 * P.K - 1 → k < 2 * P.K := by
    intro k h
    omega
  have hnum4 : 2 * P.K - 1 < 2 * P.K := by omega
  have hnum5 : P.K + P.K = 2 * P.K := by omega
  have hnum2 : P.K ≤ 2 * P.K - 1 ∧ P.K - 1 < P.K ∧ 2 * P.K - 1 - P.K = P.K - 1 := by omega
  obtain ⟨lin, linp, s1, hl1, hl2, hlcm, hlx, hlh, -, hle⟩ := C27_linearization_complete T
    (absorbPublicInput T s acc cm) cm w ccs hS.sh al hd (by rw [hx, hw.wlen]; omega) hsat
    (fun m hm => by rw [hw.hatvars m hm, hS.hat])
  have hlin : LcccsHolds rd P ccs scheme lin w :=
    ⟨hw, by rw [hlcm]; exact hopen, by rw [hlx]; exact hx, hle⟩
  obtain ⟨mz1, l1, w1, p1, s2, -, ha2, ha3, ha4, ha5, ha7, ha6⟩ :=
    C30_decomposition_complete rd P T s1 acc wAcc ccs scheme hP hS hacc hsh
  obtain ⟨mz2, l2, w2, p2, s3, hb2, hb3, hb4, hb5, hb7, hb8, hb6⟩ :=
    pieces_run rd P T s2 lin w ccs scheme hP hS hlin fc hfcl hcomb
  have hin := foldInputW_append rd P ccs scheme ha3 ha4 ha5 hb3 hb4 hb5
    (fun k hk => by obtain ⟨a, b, c, d, e, f, -, g⟩ := ha6 k hk; exact ⟨a, b, c, d, e, f, g⟩)
    (fun k hk => by obtain ⟨a, b, c, d, e, f, -, g⟩ := hb6 k hk; exact ⟨a, b, c, d, e, f, g⟩)
  have hshort : ∀ k < 2 * P.K - 1, ∀ wit, (w1 ++ w2)[k]? = some wit → WitShort rd P.bSmall wit := by
    intro k hk wit hwit
    by_cases hkk : k < P.K
    · rw [List.getElem?_append_left (by rw [ha4]; exact hkk)] at hwit
      obtain ⟨a, b, -, e, -, -, g, -⟩ := ha6 k hkk
      rw [e] at hwit
      cases hwit
      exact g
    · rw [List.getElem?_append_right (by rw [ha4]; exact Nat.not_lt.1 hkk), ha4] at hwit
      have hk1 : k - P.K < P.K - 1 := (hnum k hk hkk).1
      obtain ⟨a, b, -, e, -, -, g, -⟩ := hb6 (k - P.K) (hnum k hk hkk).2
      rw [e] at hwit
      cases hwit
      intro c hcm
      rw [g] at hcm
      exact hfs (k - P.K) hk1 c hcm
  have hlast : ∀ wit, (w1 ++ w2)[2 * P.K - 1]? = some wit → wit.fCoeff = fc (P.K - 1) := by
    intro wit hwit
    rw [List.getElem?_append_right (by rw [ha4]; exact hnum2.1), ha4] at hwit
    obtain ⟨a, b, -, e, -, -, g, -⟩ := hb6 (P.K - 1) hnum2.2.1
    rw [hnum2.2.2, e] at hwit
    cases hwit
    exact g
  obtain ⟨st, w', proof, s4, rho, h1, h2, h3, h4, h5, h6⟩ := last_unchecked_comb rd P cs T s3 ccs scheme _ _ _ hP hS ht hin hc
    hshort (fun wit hwit c hcm => hfl c (by rw [← hlast wit hwit]; exact hcm)) hT hcs
  have hget : ∀ k < 2 * P.K, (w1 ++ w2)[k]? = some ((w1 ++ w2).getD k ⟨[], [], [], []⟩) := by
    intro k hk
    have hk' : k < (w1 ++ w2).length := by rw [List.length_append, ha4, hb4, hnum5]; exact hk
    rw [List.getD_eq_getElem?_getD, List.getElem?_eq_getElem hk', Option.getD_some]
  refine ⟨⟨linp, p1, p2, proof⟩, st, w', s4, ?_, h3, ?_, hb8, rho, _, h4, h5, fun k hk => hshort k hk _ (hget k (hnum3 k hk)),
    hlast _ (hget _ hnum4), h6⟩
  · unfold nifsVerify
    simp only [hsan, bind_ok', hl2, ha2, hb2, h2]
  · intro d hd
    simp only [List.mem_cons, List.not_mem_nil, or_false] at hd
    rcases hd with rfl | rfl
    · exact ha7
    · exact hb7

/-- **C54**, a whole step: an accumulator that holds, and a new statement with a witness that satisfies the constraints and
opens the commitment, but need not be short: it is the sum of `K` pieces of which all but the last are short, and the last
has vanishing slot sums. For every transcript the verifier accepts a proof with exactly `K` pieces in either decomposition,
the right ones being these, and the new accumulator holds. -/
theorem C54_step_long (rd : RingData Fp F C N τ) (P : Params) (cs : ChallengeSet C)
    (T : Transcript F (Fin N → F) σ) (s : σ) (ccs : CCS (Fin N → F)) (scheme : Ajtai (Fin N → F))
    (acc : LCCCS (Fin N → F)) (wAcc : Witness (Fin N → F) C) (cm : CCCS (Fin N → F)) (w : Witness (Fin N → F) C)
    (hP : ParamsOK Fp P) (hS : SizesOK P ccs scheme) (ht : ccs.t = ccs.M.length) (al : Aligned ccs)
    (hc : CharGt F (2 * P.bSmall)) (hd : CharGt F (ccs.d + 1))
    (hT : ∀ s n, (T.bytes s n).1.length = n)
    (hcs : ∀ bs, bs.length = cs.bytesNeeded → ∃ c, cs.decode bs = .ok c)
    (hacc : LcccsHolds rd P ccs scheme acc wAcc) (hsh : WitShort rd (reach P.bSmall P.K) wAcc)
    (hw : WitOK rd P (ccs.n - ccs.l - 1) w) (hopen : scheme.commit w.f = .ok cm.cm) (hx : cm.x_ccs.length = ccs.l)
    (hsat : CCSHolds ccs ((cm.x_ccs ++ [1]) ++ w.wCcs))
    (fc : Nat → List C) (hfcl : ∀ k, (fc k).length = (ccs.n - ccs.l - 1) * P.L)
    (hcomb : IsComb P.K (fun k => ((P.bSmall ^ k : Nat) : C)) fc w.fCoeff ((ccs.n - ccs.l - 1) * P.L))
    (hfs : ∀ k < P.K - 1, ∀ c ∈ fc k, ∀ i, Short P.bSmall (rd.coeff c i))
    (hfl : ∀ c ∈ fc (P.K - 1), ∀ a : Fin N, ∑ j : Fin τ, rangePoly P.bSmall (rd.coeff c (finProdFinEquiv (j, a))) = 0) :
    ∃ proof st w' s', nifsVerify rd P cs T s acc cm proof ccs = .ok (st, s') ∧ LcccsHolds rd P ccs scheme st w' ∧
      (∀ d ∈ [proof.decL, proof.decR], d.uS.length = P.K ∧ d.vS.length = P.K ∧ d.xS.length = P.K ∧ d.yS.length = P.K) ∧
      ∀ k < P.K, proof.decR.yS[k]? = some ⟨scheme.matrix.vals.map fun row => dot row ((fc k).map rd.crt)⟩ := by
  obtain ⟨proof, st, w', s', h1, h2, h3, h4, -⟩ := step_long_comb rd P cs T s ccs scheme acc wAcc cm w hP hS ht al hc hd hT hcs
    hacc hsh hw hopen hx hsat fc hfcl hcomb hfs hfl
  exact ⟨proof, st, w', s', h1, h2, h3, h4⟩

/-! ## The kernel of the commitment in the openings that pass -/

theorem pair_sum {M : Type} [AddCommGroup M] (g : Nat → M) (m : Nat) (h : ∀ i < m, g (2 * i + 1) = -g (2 * i)) :
    ∑ j ∈ range (2 * m), g j = 0 := by
  induction m with
  | zero => simp
  | succ m ih =>
    rw [show 2 * (m + 1) = 2 * m + 1 + 1 by ring, sum_range_succ, sum_range_succ, ih fun i hi => h i (by omega), h m (by omega)]
    abel

/-- Coefficients in opposite pairs: `e_i` at the positions `2 i` of a slot, `-e_i` at the positions `2 i + 1`. -/
def pairCoeffs (Fp : Type) [Field Fp] (N τ : Nat) : (Fin (τ / 2) → Fin N → Fp) →ₗ[Fp] (Fin (τ * N) → Fp) where
  toFun e q := if h : (finProdFinEquiv.symm q).1.val / 2 < τ / 2 then
      (if (finProdFinEquiv.symm q).1.val % 2 = 0 then e ⟨_, h⟩ (finProdFinEquiv.symm q).2
        else -e ⟨_, h⟩ (finProdFinEquiv.symm q).2) else 0
  map_add' e e' := by
    funext q
    simp only [Pi.add_apply]
    split <;> [split; skip] <;> simp [add_comm]
  map_smul' a e := by
    funext q
    simp only [Pi.smul_apply, RingHom.id_apply, smul_eq_mul]
    split <;> [split; skip] <;> simp

theorem pairCoeffs_even {Fp : Type} [Field Fp] {N τ : Nat} (e : Fin (τ / 2) → Fin N → Fp) (p : Fin (τ / 2)) (a : Fin N)
    (h : 2 * p.val < τ) : pairCoeffs Fp N τ e (finProdFinEquiv (⟨2 * p.val, h⟩, a)) = e p a := by
  have h1 : 2 * p.val / 2 = p.val := by omega
  simp only [pairCoeffs, LinearMap.coe_mk, AddHom.coe_mk, Equiv.symm_apply_apply, h1, Fin.is_lt, dif_pos, Fin.eta]
  rw [if_pos (by omega)]

/-- The element with these coefficients. -/
def pairElem (rd : RingData Fp F C N τ) : (Fin (τ / 2) → Fin N → Fp) →ₗ[Fp] C :=
  rd.coeff.symm.toLinearMap ∘ₗ pairCoeffs Fp N τ

theorem pairElem_coeff (rd : RingData Fp F C N τ) (e : Fin (τ / 2) → Fin N → Fp) :
    rd.coeff (pairElem rd e) = pairCoeffs Fp N τ e := by
  simp [pairElem]

/-- Its slot sums vanish. -/
theorem pairElem_slots (rd : RingData Fp F C N τ) (b : Nat) (hb : 1 ≤ b) (e : Fin (τ / 2) → Fin N → Fp) (a : Fin N) :
    ∑ j : Fin τ, rangePoly b (rd.coeff (pairElem rd e) (finProdFinEquiv (j, a))) = 0 := by
  have hz : rangePoly b (0 : Fp) = 0 := by
    unfold rangePoly
    exact prod_eq_zero (i := 0) (by rw [mem_Ioo]; omega) (by simp)
  rw [pairElem_coeff]
  set g : Nat → Fp := fun j => if h : j / 2 < τ / 2 then
      (if j % 2 = 0 then rangePoly b (e ⟨_, h⟩ a) else -rangePoly b (e ⟨_, h⟩ a)) else 0 with hg
  have h1 : ∀ j : Fin τ, rangePoly b (pairCoeffs Fp N τ e (finProdFinEquiv (j, a))) = g j := by
    intro j
    simp only [pairCoeffs, LinearMap.coe_mk, AddHom.coe_mk, Equiv.symm_apply_apply, hg]
    split <;> [split; skip]
    · rfl
    · rw [rangePoly_neg hb]
    · exact hz
  rw [Finset.sum_congr rfl fun j _ => h1 j, Fin.sum_univ_eq_sum_range g τ]
  have h2 : ∑ j ∈ range (2 * (τ / 2)), g j = 0 := by
    apply pair_sum
    intro i hi
    have e1 : (2 * i + 1) / 2 = i := by omega
    have e2 : 2 * i / 2 = i := by omega
    simp only [hg, e1, e2, dif_pos hi]
    rw [if_neg (by omega), if_pos (by omega)]
  rcases Nat.mod_two_eq_zero_or_one τ with h | h
  · rw [show 2 * (τ / 2) = τ by omega] at h2
    exact h2
  · have h3 : τ = 2 * (τ / 2) + 1 := by omega
    have h4 : ∑ j ∈ range τ, g j = ∑ j ∈ range (2 * (τ / 2) + 1), g j := congrArg (fun n => ∑ j ∈ range n, g j) h3
    rw [h4, sum_range_succ, h2, zero_add]
    simp only [hg]
    rw [dif_neg (by omega)]

/-- Entry `j` of a list of `n` coefficient vectors, zero past the end. -/
def pairSel (Fp : Type) [Field Fp] (E : Type) [AddCommGroup E] [Module Fp E] (n j : Nat) : (Fin n → E) →ₗ[Fp] E :=
  if h : j < n then LinearMap.proj ⟨j, h⟩ else 0

/-- Entry `j` of the list of `n` such elements. -/
def pairAt (rd : RingData Fp F C N τ) (n j : Nat) : (Fin n → Fin (τ / 2) → Fin N → Fp) →ₗ[Fp] C :=
  pairElem rd ∘ₗ pairSel Fp _ n j

/-- What the list changes: the commitment (first part), and the recomposed witness (second part), which is again made of such
elements since the recomposition has integer factors. -/
def pairMap (rd : RingData Fp F C N τ) (rows : List (List (Fin N → F))) (n wl L B : Nat) :
    (Fin n → Fin (τ / 2) → Fin N → Fp) →ₗ[Fp] (Fin rows.length → Fin (τ * N) → Fp) × (Fin wl → Fin (τ / 2) → Fin N → Fp) :=
  LinearMap.prod
    (LinearMap.pi fun i => rd.coeff.toLinearMap ∘ₗ rd.crt.symm.toLinearMap ∘ₗ
        ∑ j ∈ range n, LinearMap.mulLeft Fp ((rows.getD i []).getD j 0) ∘ₗ rd.crt.toLinearMap ∘ₗ pairAt rd n j)
    (LinearMap.pi fun i => ∑ k ∈ range L, (B : Fp) ^ k • pairSel Fp _ n (i * L + k))

theorem pairMap_ker (rd : RingData Fp F C N τ) (rows : List (List (Fin N → F))) (n wl L B : Nat)
    (h : rows.length * τ + wl * (τ / 2) < n * (τ / 2)) : ∃ v, v ≠ 0 ∧ pairMap rd rows n wl L B v = 0 := by
  have hlt : Module.finrank Fp ((Fin rows.length → Fin (τ * N) → Fp) × (Fin wl → Fin (τ / 2) → Fin N → Fp))
      < Module.finrank Fp (Fin n → Fin (τ / 2) → Fin N → Fp) := by
    rw [Module.finrank_prod]
    simp only [Module.finrank_pi_fintype, Module.finrank_self, sum_const, card_univ, Fintype.card_fin, smul_eq_mul,
      mul_one]
    have := Nat.mul_lt_mul_of_pos_right h rd.npos
    calc _ = (rows.length * τ + wl * (τ / 2)) * N := by ring
      _ < n * (τ / 2) * N := this
      _ = _ := by ring
  have hk := LinearMap.ker_ne_bot_of_finrank_lt (f := pairMap rd rows n wl L B) hlt
  obtain ⟨v, hv, hne⟩ := (Submodule.ne_bot_iff _).1 hk
  exact ⟨v, hne, LinearMap.mem_ker.1 hv⟩

/-- The list of the elements. -/
def pairList (rd : RingData Fp F C N τ) (n : Nat) (v : Fin n → Fin (τ / 2) → Fin N → Fp) : List C :=
  (List.range n).map fun j => pairAt rd n j v

theorem pairList_slots (rd : RingData Fp F C N τ) (b : Nat) (hb : 1 ≤ b) (n : Nat) (v : Fin n → Fin (τ / 2) → Fin N → Fp) :
    ∀ c ∈ pairList rd n v, ∀ a : Fin N, ∑ j : Fin τ, rangePoly b (rd.coeff c (finProdFinEquiv (j, a))) = 0 := by
  intro c hc a
  obtain ⟨j, hj, rfl⟩ := List.mem_map.1 hc
  simp only [pairAt, LinearMap.comp_apply]
  exact pairElem_slots rd b hb _ a

/-- The commitment to the list, and its recomposition if the second part vanishes. -/
theorem pairList_val (rd : RingData Fp F C N τ) (rows : List (List (Fin N → F))) (n wl L B : Nat)
    (v : Fin n → Fin (τ / 2) → Fin N → Fp) (h : (pairMap rd rows n wl L B v).2 = 0) :
    (∀ i (hi : i < rows.length), dot rows[i] ((pairList rd n v).map rd.crt) = rd.crt (rd.coeff.symm ((pairMap rd rows n wl L B v).1 ⟨i, hi⟩))) ∧
    ∀ i < wl, ∑ k ∈ range L, (B : Fin N → F) ^ k * ((pairList rd n v).map rd.crt).getD (i * L + k) 0 = 0 := by
  have key : ∀ j, ((pairList rd n v).map rd.crt).getD j 0 = rd.crt (pairAt rd n j v) := by
    intro j
    by_cases hj : j < n
    · simp [pairList, List.getD_eq_getElem?_getD, hj]
    · have : pairAt rd n j = 0 := by simp [pairAt, pairSel, hj]
      rw [this, getD_out _ (by simp [pairList]; omega)]
      simp
  constructor
  · intro i hi
    simp only [pairMap, LinearMap.prod_apply, Function.prod_apply, LinearMap.pi_apply, LinearMap.comp_apply, LinearMap.sum_apply, LinearMap.mulLeft_apply,
      LinearEquiv.coe_coe, AlgEquiv.toLinearMap_apply, LinearEquiv.symm_apply_apply, AlgEquiv.apply_symm_apply]
    rw [dot_eq_sum _ _ n (Or.inr (by simp [pairList]))]
    refine sum_congr rfl fun j _ => ?_
    rw [key]
    congr 2
    simp [List.getD_eq_getElem?_getD, hi]
  · intro i hi
    have h1 := congrFun h ⟨i, hi⟩
    simp only [pairMap, LinearMap.prod_apply, Function.prod_apply, LinearMap.pi_apply, LinearMap.sum_apply, LinearMap.smul_apply, Pi.zero_apply] at h1
    have h2 := congrArg (fun e => rd.crt (pairElem rd e)) h1
    simp only [map_sum, map_zero, map_smul] at h2
    refine Eq.trans (sum_congr rfl fun k _ => ?_) h2
    rw [key, pairAt, LinearMap.comp_apply, Algebra.smul_def, map_pow, map_natCast]

/-- A witness made of `K - 1` pieces is given a last piece of opposite pairs. -/
theorem pair_shift (rd : RingData Fp F C N τ) (P : Params) (hK : 1 ≤ P.K) (scheme : Ajtai (Fin N → F)) {wl : Nat} {w : Witness (Fin N → F) C}
    (hw : WitOK rd P wl w) (fc0 : Nat → List C) (hcomb0 : IsComb (P.K - 1) (fun k => ((P.bSmall ^ k : Nat) : C)) fc0 w.fCoeff (wl * P.L))
    (v : Fin (wl * P.L) → Fin (τ / 2) → Fin N → Fp) (hv : (pairMap rd scheme.matrix.vals (wl * P.L) wl P.L P.B v).2 = 0) :
    ∃ (fc : Nat → List C) (w' : Witness (Fin N → F) C), WitOK rd P wl w' ∧ (∀ k, (fc k).length = wl * P.L) ∧
      (∀ k < P.K - 1, fc k = fc0 k) ∧ fc (P.K - 1) = pairList rd (wl * P.L) v ∧
      IsComb P.K (fun k => ((P.bSmall ^ k : Nat) : C)) fc w'.fCoeff (wl * P.L) ∧
      (∀ j < wl * P.L, w'.fCoeff.getD j 0 = w.fCoeff.getD j 0 + ((P.bSmall ^ (P.K - 1) : Nat) : C) * (pairList rd (wl * P.L) v).getD j 0) ∧
      (∀ i (hi : i < scheme.matrix.vals.length), dot scheme.matrix.vals[i] w'.f = dot scheme.matrix.vals[i] w.f
        + ((P.bSmall ^ (P.K - 1) : Nat) : Fin N → F) * rd.crt (rd.coeff.symm ((pairMap rd scheme.matrix.vals (wl * P.L) wl P.L P.B v).1 ⟨i, hi⟩))) ∧
      w'.wCcs = w.wCcs := by
  obtain ⟨n, hn⟩ : ∃ n, n = wl * P.L := ⟨_, rfl⟩
  rw [← hn] at hcomb0
  revert hv
  revert v
  rw [← hn]
  intro v hv
  set D : List C := pairList rd n v with hD
  have hfl : w.fCoeff.length = n := hw.flen.trans hn.symm
  have hDl : D.length = n := by simp [hD, pairList]
  obtain ⟨hD1, hD2⟩ := pairList_val rd scheme.matrix.vals n wl P.L P.B v hv
  set fc : Nat → List C := fun k => if k < P.K - 1 then fc0 k else D with hfc
  have hfcl : ∀ k, (fc k).length = n := by
    intro k
    simp only [hfc]
    split
    · exact hcomb0.lens k (by assumption)
    · exact hDl
  have hcomb := IsComb.mk' (K := P.K) (c := fun k => ((P.bSmall ^ k : Nat) : C)) (vs := fc) (n := n) (fun k _ => hfcl k)
  set g : List C := (List.range n).map fun i => ∑ k ∈ range P.K, ((P.bSmall ^ k : Nat) : C) * (fc k).getD i 0 with hg
  have hgi : ∀ j < n, g.getD j 0 = w.fCoeff.getD j 0 + ((P.bSmall ^ (P.K - 1) : Nat) : C) * D.getD j 0 := by
    intro j hj
    rw [hcomb.eq j hj, show P.K = (P.K - 1) + 1 by omega, sum_range_succ, hcomb0.eq j hj]
    simp only [Nat.add_sub_cancel]
    congr 1
    · refine sum_congr rfl fun k hk => ?_
      simp only [hfc, if_pos (mem_range.1 hk)]
    · simp [hfc]
  have htwo : IsComb 2 (fun k => if k = 0 then (1 : C) else ((P.bSmall ^ (P.K - 1) : Nat) : C)) (fun k => if k = 0 then w.fCoeff else D) g n := by
    refine ⟨by simp [hg], ?_, ?_⟩
    · intro k _
      split
      · exact hfl
      · exact hDl
    · intro j hj
      rw [hgi j hj, sum_range_succ, sum_range_one]
      simp
  have htwon := map_crt_comb rd htwo
  refine ⟨fc, mkWit rd P wl g, mkWit_ok rd P g (by simp [hg, hn]), hfcl, fun k hk => by simp [hfc, hk], by simp [hfc], hcomb, hgi, ?_, ?_⟩
  · intro i hi
    change dot _ (g.map rd.crt) = _
    rw [dot_comb htwon, sum_range_succ, sum_range_one]
    simp only [if_pos, one_ne_zero, if_false, map_one, one_mul, map_natCast]
    rw [hD1 i hi, hw.f]
  · rw [hw.w_eq]
    apply ext_getD (n := wl) (by simp [mkWit]) (by simp [mkWit])
    intro j hj
    have h1 := (gadget_comb (wl := wl) (L := P.L) (hn ▸ htwon) (fun k => (P.B : Fin N → F) ^ k)).eq j hj
    rw [sum_range_succ, sum_range_one] at h1
    simp only [if_pos, one_ne_zero, if_false, map_one, one_mul] at h1
    rw [getD_map_range (i := j) wl _ hj] at h1
    simp only [mkWit]
    rw [getD_map_range (i := j) wl _ hj, h1, getD_map_range (i := j) wl _ hj, getD_map_range (i := j) wl _ hj, hD2 j hj, mul_zero,
      add_zero]

/-- **C54**, the consequence for the commitment. Let a valid new statement be given whose witness fits in `K - 1` digits,
and let the witness be longer than the commitment in the sense that `κ τ + |w| ⌊τ / 2⌋ < |w| L ⌊τ / 2⌋`. Then there is a
coefficient of the decomposed witness such that for every value `c` of the base field some witness with the same commitment and
the same recomposed witness has the value `c` there, and the verifier accepts a step that folds this witness (for every
transcript and every valid accumulator): `K` pieces that recompose it are committed to in the proof. -/
theorem C54_any_coefficient (rd : RingData Fp F C N τ) (P : Params) (cs : ChallengeSet C)
    (ccs : CCS (Fin N → F)) (scheme : Ajtai (Fin N → F)) (cm : CCCS (Fin N → F)) (w : Witness (Fin N → F) C)
    (hP : ParamsOK Fp P) (hS : SizesOK P ccs scheme) (ht : ccs.t = ccs.M.length) (al : Aligned ccs)
    (hc : CharGt F (2 * P.bSmall)) (hd : CharGt F (ccs.d + 1))
    (hcs : ∀ bs, bs.length = cs.bytesNeeded → ∃ c, cs.decode bs = .ok c)
    (hfresh : FreshHolds rd P ccs scheme cm w) (hK : 2 ≤ P.K) (hsmall : WitShort rd (reach P.bSmall (P.K - 1)) w)
    (hdim : scheme.matrix.vals.length * τ + (ccs.n - ccs.l - 1) * (τ / 2) < (ccs.n - ccs.l - 1) * P.L * (τ / 2)) :
    ∃ i < (ccs.n - ccs.l - 1) * P.L, ∃ q, ∀ c : Fp, ∃ w' : Witness (Fin N → F) C,
      WitOK rd P (ccs.n - ccs.l - 1) w' ∧ scheme.commit w'.f = .ok cm.cm ∧ w'.wCcs = w.wCcs ∧
      rd.coeff (w'.fCoeff.getD i 0) q = c ∧
      ∀ (T : Transcript F (Fin N → F) σ) (s : σ) (acc : LCCCS (Fin N → F)) (wAcc : Witness (Fin N → F) C),
        (∀ s n, (T.bytes s n).1.length = n) → LcccsHolds rd P ccs scheme acc wAcc → WitShort rd (reach P.bSmall P.K) wAcc →
        ∃ proof st w'' s' fc, nifsVerify rd P cs T s acc cm proof ccs = .ok (st, s') ∧ LcccsHolds rd P ccs scheme st w'' ∧
          (∀ d ∈ [proof.decL, proof.decR], d.uS.length = P.K ∧ d.vS.length = P.K ∧ d.xS.length = P.K ∧ d.yS.length = P.K) ∧
          IsComb P.K (fun k => ((P.bSmall ^ k : Nat) : C)) fc w'.fCoeff ((ccs.n - ccs.l - 1) * P.L) ∧
          ∀ k < P.K, proof.decR.yS[k]? = some ⟨scheme.matrix.vals.map fun row => dot row ((fc k).map rd.crt)⟩ := by
  have hb2 := hP.b2
  obtain ⟨v, hv, hker⟩ := pairMap_ker rd scheme.matrix.vals ((ccs.n - ccs.l - 1) * P.L) (ccs.n - ccs.l - 1) P.L P.B hdim
  obtain ⟨i, hi⟩ := Function.ne_iff.1 hv
  obtain ⟨p, hp⟩ := Function.ne_iff.1 hi
  obtain ⟨a, ha⟩ := Function.ne_iff.1 hp
  have hpt : 2 * p.val < τ := by have := p.2; omega
  set q : Fin (τ * N) := finProdFinEquiv (⟨2 * p.val, hpt⟩, a) with hq
  have hfl : w.fCoeff.length = (ccs.n - ccs.l - 1) * P.L := hfresh.witOK.flen
  have hbne : ((P.bSmall : Nat) : Fp) ≠ 0 := by
    intro h
    apply hc P.bSmall (by omega) (by omega)
    have := congrArg (algebraMap Fp F) h
    simpa using this
  have hbK : ((P.bSmall ^ (P.K - 1) : Nat) : Fp) ≠ 0 := by
    rw [Nat.cast_pow]
    exact pow_ne_zero _ hbne
  have hcomb0 : IsComb (P.K - 1) (fun k => ((P.bSmall ^ k : Nat) : C)) (fun k => w.fCoeff.map fun c => (dg rd P.bSmall (P.K - 1) c).getD k 0)
      w.fCoeff ((ccs.n - ccs.l - 1) * P.L) := by
    refine ⟨hfl, fun k _ => by rw [List.length_map, hfl], fun j hj => ?_⟩
    have hj' : j < w.fCoeff.length := by rw [hfl]; exact hj
    have hfits : Fits rd P.bSmall (P.K - 1) (w.fCoeff.getD j 0) := getD_short rd hsmall j
    refine Eq.trans (dg_ok rd hP.b2 hP.bEven (by omega) hfits).2.2.1.symm (sum_congr rfl fun k hk => ?_)
    rw [Nat.cast_pow]
    congr 1
    simp [List.getD_eq_getElem?_getD, hj']
  refine ⟨i, i.2, q, fun c => ?_⟩
  set x : Fp := (c - rd.coeff (w.fCoeff.getD i 0) q) / (((P.bSmall ^ (P.K - 1) : Nat) : Fp) * v i p a) with hx
  have hker' : pairMap rd scheme.matrix.vals ((ccs.n - ccs.l - 1) * P.L) (ccs.n - ccs.l - 1) P.L P.B (x • v) = 0 := by
    rw [map_smul, hker, smul_zero]
  obtain ⟨fc, w', hok, hfcl, hf0, hf1, hcomb, hgi, hdot, hwc⟩ := pair_shift rd P hP.Kpos scheme hfresh.witOK _ hcomb0 (x • v) (by rw [hker']; rfl)
  have hcomm : scheme.commit w'.f = .ok cm.cm := by
    have hold := hfresh.opens
    rw [commit_ok scheme _ (by rw [hfresh.witOK.f, List.length_map, hfl, hS.width])] at hold
    rw [commit_ok scheme _ (by rw [hok.f, List.length_map, hok.flen, hS.width]), ← Except.ok.inj hold]
    congr 2
    apply List.map_congr_left
    intro row hrow
    obtain ⟨k, hk, rfl⟩ := List.mem_iff_getElem.1 hrow
    rw [hdot k hk, hker']
    simp
  refine ⟨w', hok, hcomm, hwc, ?_, ?_⟩
  · rw [hgi i i.2, map_add, Pi.add_apply, ← nsmul_eq_mul, map_nsmul, Pi.smul_apply, nsmul_eq_mul]
    have h1 : rd.coeff ((pairList rd ((ccs.n - ccs.l - 1) * P.L) (x • v)).getD i 0) q = x * v i p a := by
      rw [pairList, getD_map_range _ _ i.2, pairAt, pairSel, dif_pos i.2, LinearMap.comp_apply, LinearMap.proj_apply, pairElem_coeff, hq,
        pairCoeffs_even _ p a hpt]
      rfl
    rw [h1, hx]
    have hva : v i p a ≠ 0 := ha
    field_simp
    ring
  · intro T s acc wAcc hT hacc hsh
    obtain ⟨proof, st, w'', s', h1, h2, h3, h4⟩ := C54_step_long rd P cs T s ccs scheme acc wAcc cm w' hP hS ht al hc hd hT hcs hacc hsh
      hok hcomm hfresh.xlen (by rw [hwc]; exact hfresh.sat) fc hfcl hcomb
      (by
        intro k hk c' hc'
        rw [hf0 k hk] at hc'
        obtain ⟨y, hy, rfl⟩ := List.mem_map.1 hc'
        exact getD_short rd (dg_ok rd hP.b2 hP.bEven (by omega) (hsmall y hy)).2.2.2 k)
      (by
        rw [hf1]
        exact pairList_slots rd P.bSmall (by omega) _ _)
    exact ⟨proof, st, w'', s', fc, h1, h2, h3, hcomb, h4⟩

/-- **C54**, any commitment at all. Let `w` be a vector of `K - 1` short pieces whose recomposition satisfies the constraint system with the
public input `x` (its commitment does not matter), and let the lists of opposite pairs that recompose to zero reach every
commitment. Then for every commitment `y` the verifier accepts a step from the statement `(y, x)`, whether or not there
is a short opening of `y` that satisfies the constraints, for every transcript and every valid accumulator. The
prover has to solve a system of linear equations. -/
theorem C54_any_commitment (rd : RingData Fp F C N τ) (P : Params) (cs : ChallengeSet C)
    (ccs : CCS (Fin N → F)) (scheme : Ajtai (Fin N → F)) (x : List (Fin N → F)) (w : Witness (Fin N → F) C)
    (hP : ParamsOK Fp P) (hS : SizesOK P ccs scheme) (ht : ccs.t = ccs.M.length) (al : Aligned ccs)
    (hc : CharGt F (2 * P.bSmall)) (hd : CharGt F (ccs.d + 1))
    (hcs : ∀ bs, bs.length = cs.bytesNeeded → ∃ c, cs.decode bs = .ok c)
    (hw : WitOK rd P (ccs.n - ccs.l - 1) w) (hx : x.length = ccs.l) (hsat : CCSHolds ccs ((x ++ [1]) ++ w.wCcs))
    (fc0 : Nat → List C) (hcomb0 : IsComb (P.K - 1) (fun k => ((P.bSmall ^ k : Nat) : C)) fc0 w.fCoeff ((ccs.n - ccs.l - 1) * P.L))
    (hfs : ∀ k < P.K - 1, ∀ c ∈ fc0 k, ∀ i, Short P.bSmall (rd.coeff c i))
    (hspan : ∀ t, ∃ v, pairMap rd scheme.matrix.vals ((ccs.n - ccs.l - 1) * P.L) (ccs.n - ccs.l - 1) P.L P.B v = (t, 0))
    (y : Commitment (Fin N → F)) (hy : y.val.length = scheme.matrix.vals.length)
    (T : Transcript F (Fin N → F) σ) (s : σ) (acc : LCCCS (Fin N → F)) (wAcc : Witness (Fin N → F) C)
    (hT : ∀ s n, (T.bytes s n).1.length = n) (hacc : LcccsHolds rd P ccs scheme acc wAcc) (hsh : WitShort rd (reach P.bSmall P.K) wAcc) :
    ∃ proof st w'' s', nifsVerify rd P cs T s acc ⟨y, x⟩ proof ccs = .ok (st, s') ∧ LcccsHolds rd P ccs scheme st w'' ∧
      (∀ d ∈ [proof.decL, proof.decR], d.uS.length = P.K ∧ d.vS.length = P.K ∧ d.xS.length = P.K ∧ d.yS.length = P.K) := by
  have hb2 := hP.b2
  have hbne : ((P.bSmall : Nat) : F) ≠ 0 := hc P.bSmall (by omega) (by omega)
  have hbK : ((P.bSmall ^ (P.K - 1) : Nat) : F) ≠ 0 := by
    rw [Nat.cast_pow]
    exact pow_ne_zero _ hbne
  obtain ⟨v, hv⟩ := hspan fun i => rd.coeff (rd.crt.symm fun a => ((P.bSmall ^ (P.K - 1) : Nat) : F)⁻¹ *
    (y.val.getD i 0 a - dot (scheme.matrix.vals.getD i []) w.f a))
  obtain ⟨fc, w', hok, hfcl, hf0, hf1, hcomb, -, hdot, hwc⟩ := pair_shift rd P hP.Kpos scheme hw fc0 hcomb0 v (by rw [hv])
  have hcomm : scheme.commit w'.f = .ok y := by
    rw [commit_ok scheme _ (by rw [hok.f, List.length_map, hok.flen, hS.width])]
    obtain ⟨yv⟩ := y
    congr 2
    apply List.ext_getElem (by rw [List.length_map]; exact hy.symm)
    intro k hk hk'
    have hk1 : k < scheme.matrix.vals.length := by rw [List.length_map] at hk; exact hk
    rw [List.getElem_map, hdot k hk1, hv]
    simp only [LinearEquiv.symm_apply_apply, AlgEquiv.apply_symm_apply]
    funext a
    have e1 : yv.getD k 0 = yv[k] := by simp [List.getD_eq_getElem?_getD, hk']
    have e2 : scheme.matrix.vals.getD k [] = scheme.matrix.vals[k] := by simp [List.getD_eq_getElem?_getD, hk1]
    rw [e1, e2, Pi.add_apply, Pi.mul_apply, Pi.natCast_apply, ← mul_assoc, mul_inv_cancel₀ hbK]
    ring
  obtain ⟨proof, st, w'', s', h1, h2, h3, -⟩ := C54_step_long rd P cs T s ccs scheme acc wAcc ⟨y, x⟩ w' hP hS ht al hc hd hT hcs hacc hsh
    hok hcomm hx (by rw [hwc]; exact hsat) fc hfcl hcomb
    (fun k hk => by rw [hf0 k hk]; exact hfs k hk)
    (by
      rw [hf1]
      exact pairList_slots rd P.bSmall (by omega) _ _)
  exact ⟨proof, st, w'', s', h1, h2, h3⟩

end Ring

/-- **C54**: the condition on the sizes in `C54_any_coefficient` holds for Goldilocks (`τ = 3`), BabyBear (`τ = 9`) and Frog (`τ = 4`)
from `L = 2` on, if the witness has more than `3 κ` entries. This is so for all sets of these rings in `benches/config.toml`. -/
theorem C54_sizes_shipped {κ wl L : Nat} (h : 3 * κ < wl) (hL : 2 ≤ L) :
    ∀ τ ∈ [3, 9, 4], κ * τ + wl * (τ / 2) < wl * L * (τ / 2) := by
  have h2 := Nat.mul_le_mul_left wl hL
  intro τ hτ
  simp only [List.mem_cons, List.not_mem_nil, or_false] at hτ
  rcases hτ with rfl | rfl | rfl <;> omega

example : ∀ P ∈ benchGoldilocks, 99 * 3 + 512 * (3 / 2) < 512 * P.L * (3 / 2) := by
  intro P hP
  refine C54_sizes_shipped (by norm_num) ?_ 3 (by simp)
  revert P
  decide

/-! ## Concrete cases -/

section Examples
open Verif.Example

/-- The pieces `(1, 6X)` and `(3 + 4X, 5 + 2X)` of the witness `(X, 3 + 3X)`. -/
def lsPieces : Nat → List C49
  | 0 => [![⟨1, 0⟩], ![⟨0, 6⟩]]
  | _ => [![⟨3, 4⟩], ![⟨5, 2⟩]]

/-- The fresh instance `x = 1` with commitment to `(X, 3 + 3X)`. -/
def lsFresh : CCCS C49 := ⟨⟨scheme49.matrix.vals.map fun row => dot row (wit49 ![⟨0, 1⟩] ![⟨3, 3⟩]).f⟩, [1]⟩

theorem lsAligned49 : Aligned ccs49 := by
  unfold Aligned
  decide +kernel

theorem lsCs49_total : ∀ bs, bs.length = cs49.bytesNeeded → ∃ c, cs49.decode bs = .ok c := by
  intro bs h
  match bs, h with
  | [b], _ => exact ⟨_, rfl⟩

theorem lsCharGt49 : CharGt F49 (ccs49.d + 1) := by
  intro k h1 h2
  have : k ≤ 3 := h2
  interval_cases k <;> decide

/-- A whole step over `F_7[X]/(X^2+1)` with `b = 2`, `K = 2`, whose new witness is sent in the pieces `(1, 6X)` and
`(3 - 3X, -2 + 2X)`, of which the second is out of range. -/
example {σ : Type} (T : Transcript F49 C49 σ) (s : σ) (hT : ∀ s n, (T.bytes s n).1.length = n) :
    (¬ WitBelow ring49 par49.bSmall (wit49 ![⟨3, 4⟩] ![⟨5, 2⟩])) ∧
    ∃ proof st w' s', nifsVerify ring49 par49 cs49 T s (acc49 ![⟨3, 1⟩] ![⟨1, 4⟩] ![⟨2, 0⟩] (wit49 ![⟨1, 0⟩] ![⟨0, 6⟩])) lsFresh proof ccs49
        = .ok (st, s') ∧ LcccsHolds ring49 par49 ccs49 scheme49 st w' ∧
      proof.decR.yS[1]? = some ⟨scheme49.matrix.vals.map fun row => dot row ((lsPieces 1).map ring49.crt)⟩ := by
  refine ⟨unNotBelow, ?_⟩
  have hcov : ∀ x : ZMod 7, 2 * x.valMinAbs.natAbs ≤ reach 2 2 := by decide
  obtain ⟨proof, st, w', s', h1, h2, -, h4⟩ := C54_step_long ring49 par49 cs49 T s ccs49 scheme49
    (acc49 ![⟨3, 1⟩] ![⟨1, 4⟩] ![⟨2, 0⟩] (wit49 ![⟨1, 0⟩] ![⟨0, 6⟩])) (wit49 ![⟨1, 0⟩] ![⟨0, 6⟩]) lsFresh (wit49 ![⟨0, 1⟩] ![⟨3, 3⟩])
    par49_ok sizes49 rfl lsAligned49 charGt49 lsCharGt49 hT lsCs49_total (acc49_holds _ _ _ _ _)
    (fun c _ i => short7.2 (hcov _)) (mkWit_ok ring49 par49 (wl := 1) _ rfl) (commit_ok scheme49 _ (by simp [wit49, mkWit, scheme49])) rfl
    (by
      have : ∀ i < 2, ccsRow ccs49 ((lsFresh.x_ccs ++ [1]) ++ (wit49 ![⟨0, 1⟩] ![⟨3, 3⟩]).wCcs) i = 0 := by decide +kernel
      exact this) lsPieces (fun k => by cases k <;> rfl)
    (by
      refine ⟨rfl, fun k _ => by cases k <;> rfl, ?_⟩
      decide +kernel)
    (by
      intro k hk c hc i
      have hk : k < 1 := hk
      interval_cases k
      simp only [lsPieces, List.mem_cons, List.not_mem_nil, or_false] at hc
      refine short7.2 ?_
      rcases hc with rfl | rfl <;> revert i <;> decide)
    (fun c hc a => unLast c hc a)
  exact ⟨proof, st, w', s', h1, h2, h4 1 (by decide)⟩

/-- `B = 4`, `L = 8`, `b = 2`, `K = 2`. -/
def parLs : Params := ⟨4, 8, 2, 2⟩

theorem parLs_ok : ParamsOK (ZMod 7) parLs where
  bEven := by decide
  b2 := by decide
  BEven := by decide
  B2 := by decide
  Lpos := by decide
  Kpos := by decide
  BK := by decide
  cover := fun x => short7.2 (by revert x; decide)
  nooverflow := by decide

/-- `z_0 * z_2 = z_2` and `z_1 * z_1 = z_1` over eight rows. -/
def ccsLs : CCS C49 := { ccs49 with m := 8, s := 3 }

theorem ccsLs_shape : LinShape ccsLs := by
  refine ⟨⟨?_, rfl, rfl, ?_⟩, by decide, rfl, ?_, ?_⟩
  · intro M hM
    simp only [ccsLs, ccs49, List.mem_cons, List.not_mem_nil, or_false] at hM
    rcases hM with rfl | rfl | rfl <;> exact ⟨⟨rfl, by simp⟩, rfl⟩
  · simp [ccsLs, ccs49]
  · intro M hM
    simp only [ccsLs, ccs49, List.mem_cons, List.not_mem_nil, or_false] at hM
    rcases hM with rfl | rfl | rfl <;> decide
  · intro k hk _
    have : k < 2 := hk
    have h : ∀ k < 2, (ccsLs.S.getD k []).length ≤ ccsLs.d := by decide
    exact h k this

theorem alignedLs : Aligned ccsLs := by
  unfold Aligned
  decide +kernel

/-- A commitment matrix with one row and eight columns. -/
def schemeLs : Ajtai C49 := ⟨⟨1, 8, [[![⟨1, 2⟩], ![⟨3, 1⟩], ![⟨0, 5⟩], ![⟨4, 4⟩], ![⟨2, 6⟩], ![⟨1, 1⟩], ![⟨6, 3⟩], ![⟨5, 0⟩]]]⟩⟩

theorem sizesLs : SizesOK parLs ccsLs schemeLs where
  sh := ccsLs_shape
  nl := by decide
  hat := by decide
  mat := ⟨rfl, by simp [schemeLs]⟩
  width := rfl

/-- A short witness. -/
def witLs : Witness C49 C49 := mkWit ring49 parLs 1 [![⟨1, 0⟩], ![⟨0, 6⟩], ![⟨0, 0⟩], ![⟨1, 1⟩], ![⟨0, 1⟩], ![⟨6, 6⟩], ![⟨0, 0⟩], ![⟨1, 6⟩]]

/-- The fresh instance with public input `1` and this witness. -/
def freshLs : CCCS C49 := ⟨⟨schemeLs.matrix.vals.map fun row => dot row witLs.f⟩, [1]⟩

theorem witLs_short : WitShort ring49 (reach parLs.bSmall 1) witLs := by
  intro c hc i
  simp only [witLs, mkWit, List.mem_cons, List.not_mem_nil, or_false] at hc
  refine short7.2 ?_
  rcases hc with rfl | rfl | rfl | rfl | rfl | rfl | rfl | rfl <;> revert i <;> decide

theorem freshLs_holds : FreshHolds ring49 parLs ccsLs schemeLs freshLs witLs where
  witOK := mkWit_ok ring49 parLs (wl := 1) _ rfl
  opens := commit_ok schemeLs _ (by simp [witLs, mkWit, schemeLs])
  xlen := rfl
  sat := by
    have : ∀ i < 8, ccsRow ccsLs ((freshLs.x_ccs ++ [1]) ++ witLs.wCcs) i = 0 := by decide +kernel
    exact this
  short := fun c hc i => Verif.short_mono (by decide) (witLs_short c hc i)

/-- The commitment to the short witness is opened, at some position, to every one of the seven coefficients, by witnesses
of the same `w_ccs` which an accepted step folds. -/
example : ∃ i < 8, ∃ q, ∀ c : ZMod 7, ∃ w' : Witness C49 C49, schemeLs.commit w'.f = .ok freshLs.cm ∧ w'.wCcs = witLs.wCcs ∧
    ring49.coeff (w'.fCoeff.getD i 0) q = c := by
  obtain ⟨i, hi, q, h⟩ := C54_any_coefficient (σ := Unit) ring49 parLs cs49 ccsLs schemeLs freshLs witLs parLs_ok sizesLs rfl
    alignedLs charGt49 lsCharGt49 lsCs49_total freshLs_holds (by decide) witLs_short (by decide)
  refine ⟨i, hi, q, fun c => ?_⟩
  obtain ⟨w', -, h2, h3, h4, -⟩ := h c
  exact ⟨w', h2, h3, h4⟩

/-- `B = 2`, `L = 4`, `b = 2`, `K = 1`. -/
def parFs : Params := ⟨2, 4, 2, 1⟩

theorem parFs_ok : ParamsOK (ZMod 7) parFs where
  bEven := by decide
  b2 := by decide
  BEven := by decide
  B2 := by decide
  Lpos := by decide
  Kpos := by decide
  BK := by decide
  cover := fun x => short7.2 (by revert x; decide)
  nooverflow := by decide

/-- `z_0 * z_2 = z_2` and `z_1 * z_1 = z_1` over four rows. -/
def ccsFs : CCS C49 := { ccs49 with m := 4, s := 2 }

theorem ccsFs_shape : LinShape ccsFs := by
  refine ⟨⟨?_, rfl, rfl, ?_⟩, by decide, rfl, ?_, ?_⟩
  · intro M hM
    simp only [ccsFs, ccs49, List.mem_cons, List.not_mem_nil, or_false] at hM
    rcases hM with rfl | rfl | rfl <;> exact ⟨⟨rfl, by simp⟩, rfl⟩
  · simp [ccsFs, ccs49]
  · intro M hM
    simp only [ccsFs, ccs49, List.mem_cons, List.not_mem_nil, or_false] at hM
    rcases hM with rfl | rfl | rfl <;> decide
  · intro k hk _
    have : k < 2 := hk
    have h : ∀ k < 2, (ccsFs.S.getD k []).length ≤ ccsFs.d := by decide
    exact h k this

theorem alignedFs : Aligned ccsFs := by
  unfold Aligned
  decide +kernel

/-- The commitment matrix `(1, 0, 0, X)`. -/
def schemeFs : Ajtai C49 := ⟨⟨1, 4, [[![⟨1, 0⟩], 0, 0, ![⟨0, 1⟩]]]⟩⟩

theorem sizesFs : SizesOK parFs ccsFs schemeFs where
  sh := ccsFs_shape
  nl := by decide
  hat := by decide
  mat := ⟨rfl, by simp [schemeFs]⟩
  width := rfl

/-- The statement with the commitment `3` and the public input `0`. -/
def falseFs : CCCS C49 := ⟨⟨[![⟨3, 0⟩]]⟩, [0]⟩

/-- The pairs that commit to `t_0 + t_1 X`. -/
def pairsFs (t0 t1 : ZMod 7) : Fin 4 → Fin (2 / 2) → Fin 1 → ZMod 7 :=
  ![fun _ _ => 4 * (t0 - t1), fun _ _ => 3 * t0, 0, fun _ _ => 4 * (t0 + t1)]

theorem pairsFs_span : ∀ t, ∃ v, pairMap ring49 schemeFs.matrix.vals 4 1 4 2 v = (t, 0) := by
  intro t
  have z : Fin schemeFs.matrix.vals.length := ⟨0, by decide⟩
  refine ⟨pairsFs (t z 0) (t z 1), ?_⟩
  have h : ∀ t0 t1 : ZMod 7, (∀ i j, (pairMap ring49 schemeFs.matrix.vals 4 1 4 2 (pairsFs t0 t1)).1 i j = ![t0, t1] j) ∧
      (pairMap ring49 schemeFs.matrix.vals 4 1 4 2 (pairsFs t0 t1)).2 = 0 := by
    decide +kernel
  refine Prod.ext ?_ (h _ _).2
  funext i j
  rw [(h _ _).1 i j]
  obtain rfl : i = z := Fin.ext (by
    have h1 : i.val < 1 := i.2
    have h2 : z.val < 1 := z.2
    omega)
  fin_cases j <;> rfl

/-- An accumulator for the witness `w`. -/
def accFs (r0 r1 x h : C49) (w : Witness C49 C49) : LCCCS C49 :=
  ⟨[r0, r1], w.fHat.map fun m => mle m.get [r0, r1], ⟨schemeFs.matrix.vals.map fun row => dot row w.f⟩,
    ccsFs.M.map fun M => mle (mulVec M (([x] ++ [h]) ++ w.wCcs)) [r0, r1], [x], h⟩

theorem accFs_holds (r0 r1 x h c0 c1 c2 c3 : C49) :
    LcccsHolds ring49 parFs ccsFs schemeFs (accFs r0 r1 x h (mkWit ring49 parFs 1 [c0, c1, c2, c3])) (mkWit ring49 parFs 1 [c0, c1, c2, c3]) where
  witOK := mkWit_ok ring49 parFs (wl := 1) _ rfl
  cm := commit_ok schemeFs _ (by simp [mkWit, schemeFs])
  xlen := rfl
  evals := ⟨rfl, rfl, rfl⟩

/-- **C54** fails: a statement without a witness is accepted. Over `F_7[X]/(X^2+1)` with the commitment matrix `(1, 0, 0, X)` no witness in
range has the commitment `3`. Whatever the transcript is, and whatever valid accumulator it is folded into, the verifier accepts
a proof for it, and the accumulator it returns is valid. -/
theorem C54_false_statement {σ : Type} (T : Transcript F49 C49 σ) (s : σ) (hT : ∀ s n, (T.bytes s n).1.length = n) :
    (¬ ∃ w, FreshHolds ring49 parFs ccsFs schemeFs falseFs w) ∧
    ∀ acc wAcc, LcccsHolds ring49 parFs ccsFs schemeFs acc wAcc → WitShort ring49 (reach parFs.bSmall parFs.K) wAcc →
      ∃ proof st w' s', nifsVerify ring49 parFs cs49 T s acc falseFs proof ccsFs = .ok (st, s') ∧
        LcccsHolds ring49 parFs ccsFs schemeFs st w' := by
  constructor
  · rintro ⟨w, hw⟩
    have ho := hw.opens
    have hl : w.fCoeff.length = 4 := hw.witOK.flen
    rw [commit_ok schemeFs _ (by rw [hw.witOK.f, List.length_map, hl]; rfl), hw.witOK.f] at ho
    match hf : w.fCoeff, hl with
    | [c0, c1, c2, c3], _ =>
      rw [hf] at ho
      have h0 := hw.short c0 (by rw [hf]; simp)
      have h3 := hw.short c3 (by rw [hf]; simp)
      have e := congrArg (fun y : Commitment C49 => (y.val.getD 0 0 0).re) (Except.ok.inj ho)
      have e' : (c0 0).re - (c3 0).im = 3 := by
        rw [show ((falseFs.cm.val.getD 0 0 0).re : ZMod 7) = 3 from rfl] at e
        rw [← e]
        simp [schemeFs, dot, ring49, sub_eq_add_neg]
      have b0 := short7.1 (h0 (0 : Fin (2 * 1)))
      have b3 := short7.1 (h3 (1 : Fin (2 * 1)))
      have key : ∀ x y : ZMod 7, 2 * x.valMinAbs.natAbs ≤ 2 → 2 * y.valMinAbs.natAbs ≤ 2 → x - y ≠ 3 := by decide
      exact key _ _ b0 b3 e'
  · intro acc wAcc hacc hsh
    obtain ⟨proof, st, w', s', h1, h2, -⟩ := C54_any_commitment ring49 parFs cs49 ccsFs schemeFs [0] (mkWit ring49 parFs 1 [0, 0, 0, 0])
      parFs_ok sizesFs rfl alignedFs charGt49 lsCharGt49 lsCs49_total (mkWit_ok ring49 parFs (wl := 1) _ rfl) rfl
      (by
        have : ∀ i < 4, ccsRow ccsFs (([0] ++ [1]) ++ (mkWit ring49 parFs 1 [0, 0, 0, 0]).wCcs) i = 0 := by decide +kernel
        exact this) (fun _ => []) 
      (by
        refine ⟨rfl, fun k hk => absurd hk (Nat.not_lt_zero k), ?_⟩
        decide +kernel)
      (fun k hk => absurd hk (Nat.not_lt_zero k)) pairsFs_span falseFs.cm rfl T s acc wAcc hT hacc hsh
    exact ⟨proof, st, w', s', h1, h2⟩

/-- The false statement is folded into an accumulator for the witness `(1, 6X, 1 + X, 0)`. -/
example {σ : Type} (T : Transcript F49 C49 σ) (s : σ) (hT : ∀ s n, (T.bytes s n).1.length = n) :
    ∃ proof st w' s', nifsVerify ring49 parFs cs49 T s
        (accFs ![⟨3, 1⟩] ![⟨2, 5⟩] ![⟨1, 4⟩] ![⟨2, 0⟩] (mkWit ring49 parFs 1 [![⟨1, 0⟩], ![⟨0, 6⟩], ![⟨1, 1⟩], 0])) falseFs proof ccsFs = .ok (st, s') ∧
      LcccsHolds ring49 parFs ccsFs schemeFs st w' := by
  refine (C54_false_statement T s hT).2 _ _ (accFs_holds _ _ _ _ _ _ _ _) ?_
  intro c hc i
  simp only [mkWit, List.mem_cons, List.not_mem_nil, or_false] at hc
  refine short7.2 ?_
  rcases hc with rfl | rfl | rfl | rfl <;> revert i <;> decide

end Examples

end Verif.Props
