import Verif.Lemmas.RoundByRoundFold
import Verif.Props.FoldingSound

/-!
# C94: folding with the challenges of a random oracle
-/

set_option linter.unusedSectionVars false
set_option linter.unusedSimpArgs false

namespace Verif.Props

open Finset Spec Verif

variable {Fp F C : Type} {N τ : Nat} [Field Fp] [Field F] [DecidableEq F] [Algebra Fp F] [CommRing C]
  [Algebra Fp C]

/-- With the oracle `O`, the adversary `A` outputs a history `h0` of length `L0` (the transcript at the start, with the statements) and
a proof which the folding verifier started at `h0` accepts, although the statements and witnesses `S h0` fixed by `h0` violate what
folding checks. The evaluations `theta`, `eta` are those of the witnesses at the sum-check point. -/
def FoldForged (rd : RingData Fp F C N τ) (P : Params) (cs : ChallengeSet C) (ccs : CCS (Fin N → F)) (L0 : Nat)
    (S : History F (Fin N → F) → List (LCCCS (Fin N → F)) × List (Witness (Fin N → F) C))
    (B : History F (Fin N → F) → Nat → List UInt8)
    (A : Alg (History F (Fin N → F)) F (History F (Fin N → F) × FoldProof (Fin N → F))) (O : History F (Fin N → F) → F) : Prop :=
  ∃ h0 proof st s', A.run O = (h0, proof) ∧ h0.length = L0 ∧ FoldSizes rd P ccs (S h0).1 (S h0).2 ∧
    FoldViolated rd P ccs (S h0).1 (S h0).2 ∧ foldVerify rd P cs (oracleT O B) h0 (S h0).1 proof ccs = .ok (st, s') ∧
    proof.thetaS = ((S h0).2.map fun wit => wit.fHat.map fun m => mle m.get st.r) ∧
    proof.etaS = List.zipWith (fun (s : LCCCS (Fin N → F)) (wit : Witness (Fin N → F) C) => ccs.M.map fun M =>
      mle (mulVec M ((s.x_w ++ [s.h]) ++ wit.wCcs)) st.r) (S h0).1 (S h0).2

/-- What `FoldViolated` means for the claims. -/
theorem foldWrong_of_violated (rd : RingData Fp F C N τ) (P : Params) (hK : 1 ≤ P.K) (ccs : CCS (Fin N → F)) (sh : LinShape ccs)
    (cms : List (LCCCS (Fin N → F))) (ws : List (Witness (Fin N → F) C)) (hsz : FoldSizes rd P ccs cms ws)
    (hbad : FoldViolated rd P ccs cms ws) (ST : Nat → LCCCS (Fin N → F)) (W : Nat → Witness (Fin N → F) C)
    (hsg : ∀ k, k < 2 * P.K → cms[k]? = some (ST k)) (hwg : ∀ k, k < 2 * P.K → ws[k]? = some (W k)) :
    FoldWrong P.bSmall P.K (max τ ccs.M.length) ccs.s (fun k => (ST k).v) (fun k => (ST k).u) (fun k => (W k).fHat)
      (fun k => mzTables ccs (((ST k).x_w ++ [(ST k).h]) ++ (W k).wCcs)) (fun k => (ST k).r) := by
  have hstm : ∀ k < 2 * P.K, ST k ∈ cms := fun k hk => List.mem_of_getElem? (hsg k hk)
  have hwm : ∀ k < 2 * P.K, W k ∈ ws := fun k hk => List.mem_of_getElem? (hwg k hk)
  have hwo : ∀ k < 2 * P.K, WitOK rd P (ccs.n - ccs.l - 1) (W k) := fun k hk => hsz.wit _ (hwm k hk)
  have hlen2 : ∀ k < 2 * P.K, ∀ wit, W k = wit → ∀ i < wit.fCoeff.length, i < 2 ^ ccs.s := by
    rintro k hk wit rfl i hi
    rw [(hwo k hk).flen] at hi
    rw [← hsz.hat]
    exact lt_of_lt_of_le hi (Nat.le_pow_clog (by omega) _)
  rcases hbad with ⟨k, st, wit, h1, h2, h3⟩ | ⟨k, wit, hk, h2, h3⟩ | ⟨wit, h2, h3⟩
  · have hk : k < 2 * P.K := by
      rw [← hsz.cmLen]
      exact (List.getElem?_eq_some_iff.1 h1).1
    rw [hsg k hk] at h1
    rw [hwg k hk] at h2
    cases h1
    cases h2
    by_cases hvv : (ST k).v = (W k).fHat.map fun t => mle t.get (ST k).r
    · by_cases huu : (ST k).u = (mzTables ccs (((ST k).x_w ++ [(ST k).h]) ++ (W k).wCcs)).map fun t => mle t.get (ST k).r
      · exact absurd ⟨hsz.r _ (hstm k hk), hvv, by rw [huu, mz_map_mle sh.wf]⟩ h3
      · obtain ⟨j, hj, h⟩ := list_ne_getD _ _ (by
          rw [hsz.u _ (hstm k hk), List.length_map]
          simp [mzTables]) huu
        rw [hsz.u _ (hstm k hk)] at hj
        exact Or.inr (Or.inl ⟨k, hk, j, lt_of_lt_of_le hj (le_max_right _ _), h⟩)
    · obtain ⟨j, hj, h⟩ := list_ne_getD _ _ (by
        rw [hsz.v _ (hstm k hk), List.length_map, (hwo k hk).hatlen]) hvv
      rw [hsz.v _ (hstm k hk)] at hj
      exact Or.inl ⟨k, hk, j, lt_of_lt_of_le hj (le_max_left _ _), h⟩
  · have hk' : k < 2 * P.K := by omega
    rw [hwg k hk'] at h2
    have hW2 : W k = wit := by simpa using h2
    unfold WitBelow at h3
    push Not at h3
    obtain ⟨c, hcm, i, hi⟩ := h3
    obtain ⟨y, hy, rfl⟩ := mem_getD hcm 0
    obtain ⟨⟨j, a⟩, rfl⟩ := finProdFinEquiv.surjective i
    refine Or.inr (Or.inr (Or.inl ⟨k, hk, j, lt_of_lt_of_le j.2 (le_max_left _ _), y, hlen2 k hk' wit hW2 y hy, ?_⟩))
    intro h0
    have := congrFun h0 a
    beta_reduce at this
    rw [hW2, rangeAt_slot (hW2 ▸ hwo k hk')] at this
    have h4 : rangePoly P.bSmall (rd.coeff (wit.fCoeff.getD y 0) (finProdFinEquiv (j, a))) = 0 := by
      apply (algebraMap Fp F).injective
      rw [this, map_zero]
      rfl
    exact rangePoly_ne_zero _ _ hi h4
  · have hk' : 2 * P.K - 1 < 2 * P.K := by omega
    rw [hwg _ hk'] at h2
    have hW2 : W (2 * P.K - 1) = wit := by simpa using h2
    unfold SlotSumsVanish at h3
    push Not at h3
    obtain ⟨c, hcm, a, ha⟩ := h3
    obtain ⟨y, hy, rfl⟩ := mem_getD hcm 0
    refine Or.inr (Or.inr (Or.inr ⟨y, hlen2 _ hk' wit hW2 y hy, ?_⟩))
    intro h0
    apply ha
    have h5 := congrFun h0 a
    rw [Finset.sum_apply] at h5
    beta_reduce at h5
    rw [hW2] at h5
    have h6 : ∑ j ∈ range (max τ ccs.M.length), rangeAt P.bSmall wit.fHat j y a = ∑ j : Fin τ, rangeAt P.bSmall wit.fHat j y a := by
      rw [Fin.sum_univ_eq_sum_range (fun j => rangeAt P.bSmall wit.fHat j y a) τ]
      symm
      refine sum_subset (range_subset_range.2 (le_max_left _ _)) fun j _ hj => ?_
      unfold rangeAt
      rw [if_neg (by rw [← hW2, (hwo _ hk').hatlen]; simpa using hj)]
      rfl
    rw [h6, sum_congr rfl fun j _ => rangeAt_slot (hW2 ▸ hwo _ hk') P.bSmall j y a, ← map_sum] at h5
    apply (algebraMap Fp F).injective
    rw [h5, map_zero]
    rfl

/-- Statement `k`. -/
def stAt (cms : List (LCCCS (Fin N → F))) (k : Nat) : LCCCS (Fin N → F) := cms.getD k ⟨[], [], ⟨[]⟩, [], [], 0⟩

/-- Witness `k`. -/
def witAt (ws : List (Witness (Fin N → F) C)) (k : Nat) : Witness (Fin N → F) C := ws.getD k ⟨[], [], [], []⟩

/-- The tables of `M_j z_k`. -/
def mzAt (ccs : CCS (Fin N → F)) (cms : List (LCCCS (Fin N → F))) (ws : List (Witness (Fin N → F) C)) (k : Nat) :
    List (Mle (Fin N → F)) := mzTables ccs (((stAt cms k).x_w ++ [(stAt cms k).h]) ++ (witAt ws k).wCcs)

/-- The defect of statements and witnesses, as a function of the challenges. -/
def foldG0 (P : Params) (ccs : CCS (Fin N → F)) (cw : List (LCCCS (Fin N → F)) × List (Witness (Fin N → F) C)) (p : List F) : Fin N → F :=
  foldDefect P.bSmall P.K ccs.s (fun k => (stAt cw.1 k).v) (fun k => (stAt cw.1 k).u) (fun k => (witAt cw.2 k).fHat)
    (mzAt ccs cw.1 cw.2) (fun k => (stAt cw.1 k).r) p

/-- The polynomial of the sum-check for statements and witnesses, with the challenges `p`. -/
def foldF0 (P : Params) (ccs : CCS (Fin N → F)) (cw : List (LCCCS (Fin N → F)) × List (Witness (Fin N → F) C)) (p : List F)
    (x : List (Fin N → F)) : Fin N → F :=
  if p.length = 6 * P.K - 1 + ccs.s ∧ ∀ k < 2 * P.K, (stAt cw.1 k).r.length = ccs.s then
    foldFn P.bSmall (2 * P.K) (fun i => algebraMap F (Fin N → F) (p.getD i 0))
      (fun i => algebraMap F (Fin N → F) (p.getD (2 * P.K + i) 0))
      (fun i => algebraMap F (Fin N → F) (if i < 2 * P.K - 1 then p.getD (4 * P.K + i) 0 else 1)) (fun k => (witAt cw.2 k).fHat)
      (mzAt ccs cw.1 cw.2) (fun k => (stAt cw.1 k).r) ((p.drop (6 * P.K - 1)).map (algebraMap F (Fin N → F))) x
  else 0

/-- The challenges of the folding verifier up to the end of its sum-check. -/
def foldA (P : Params) (ccs : CCS (Fin N → F)) (h0 : History F (Fin N → F)) (proof : FoldProof (Fin N → F)) :
    Alg (History F (Fin N → F)) F (List F × History F (Fin N → F)) :=
  Alg'.bind (sqA P ccs.s h0) fun r =>
    drA (.elem ((2 * P.bSmall : Nat) : Fin N → F) :: .elem (ccs.s : Fin N → F) :: r.2) (proof.sumcheck.take ccs.s)

/-- An accepted forgery shows a bad answer. -/
theorem fold_bad [Fintype F] (rd : RingData Fp F C N τ) (P : Params) (hK : 1 ≤ P.K) (hb : 1 ≤ P.bSmall) (cs : ChallengeSet C)
    (ccs : CCS (Fin N → F)) (sh : LinShape ccs) (hc : CharGt F (2 * P.bSmall)) (hF : ccs.s + max τ ccs.M.length < Fintype.card F)
    (S : History F (Fin N → F) → List (LCCCS (Fin N → F)) × List (Witness (Fin N → F) C))
    (B : History F (Fin N → F) → Nat → List UInt8) (O : History F (Fin N → F) → F) (h0 s' : History F (Fin N → F))
    (proof : FoldProof (Fin N → F)) (st : LCCCS (Fin N → F)) (hsz : FoldSizes rd P ccs (S h0).1 (S h0).2)
    (hbad : FoldViolated rd P ccs (S h0).1 (S h0).2) (hver : foldVerify rd P cs (oracleT O B) h0 (S h0).1 proof ccs = .ok (st, s'))
    (hth : proof.thetaS = ((S h0).2.map fun wit => wit.fHat.map fun m => mle m.get st.r))
    (het : proof.etaS = List.zipWith (fun (s : LCCCS (Fin N → F)) (wit : Witness (Fin N → F) C) => ccs.M.map fun M =>
      mle (mulVec M ((s.x_w ++ [s.h]) ++ wit.wCcs)) st.r) (S h0).1 (S h0).2) :
    ∃ x ∈ Alg'.asked O (foldA P ccs h0 proof), O x ∈ rbrBad h0.length (6 * P.K - 1 + ccs.s) ccs.s (2 * P.bSmall)
      (max (max τ ccs.M.length) (2 * P.bSmall)) (fun b => foldG0 P ccs (S b)) (fun b => foldF0 P ccs (S b)) x := by
  classical
  have hn := sh.spos
  set δ := max (max τ ccs.M.length) (2 * P.bSmall) with hδ
  set G : History F (Fin N → F) → List F → Fin N → F := fun b => foldG0 P ccs (S b) with hG
  set f : History F (Fin N → F) → List F → List (Fin N → F) → Fin N → F := fun b => foldF0 P ccs (S b) with hf
  set cms := (S h0).1 with hcms0
  set ws := (S h0).2 with hws0
  set ST := stAt cms with hST
  set W := witAt ws with hW
  have hcms : cms = (List.range (2 * P.K)).map ST := list_eq_range cms _ hsz.cmLen
  have hws : ws = (List.range (2 * P.K)).map W := list_eq_range ws _ hsz.wLen
  have hsg : ∀ k, k < 2 * P.K → cms[k]? = some (ST k) := fun k hk => by
    simp [hST, stAt, List.getD_eq_getElem?_getD, hsz.cmLen, hk]
  have hwg : ∀ k, k < 2 * P.K → ws[k]? = some (W k) := fun k hk => by
    simp [hW, witAt, List.getD_eq_getElem?_getD, hsz.wLen, hk]
  have hstm : ∀ k < 2 * P.K, ST k ∈ cms := fun k hk => List.mem_of_getElem? (hsg k hk)
  have hwm : ∀ k < 2 * P.K, W k ∈ ws := fun k hk => List.mem_of_getElem? (hwg k hk)
  have hwo : ∀ k < 2 * P.K, WitOK rd P (ccs.n - ccs.l - 1) (W k) := fun k hk => hsz.wit _ (hwm k hk)
  have hr : ∀ k < 2 * P.K, (ST k).r.length = ccs.s := fun k hk => hsz.r _ (hstm k hk)
  have hv : ∀ k < 2 * P.K, (ST k).v.length ≤ max τ ccs.M.length := fun k hk => by
    rw [hsz.v _ (hstm k hk)]; exact le_max_left _ _
  have hu : ∀ k < 2 * P.K, (ST k).u.length ≤ max τ ccs.M.length := fun k hk => by
    rw [hsz.u _ (hstm k hk)]; exact le_max_right _ _
  have hfl : ∀ k < 2 * P.K, (W k).fHat.length ≤ max τ ccs.M.length := fun k hk => by
    rw [(hwo k hk).hatlen]; exact le_max_left _ _
  have hml : ∀ k < 2 * P.K, (mzAt ccs cms ws k).length ≤ max τ ccs.M.length := fun k hk => by
    simp [mzAt, mzTables]
  have hwrong : FoldWrong P.bSmall P.K (max τ ccs.M.length) ccs.s (fun k => (ST k).v) (fun k => (ST k).u) (fun k => (W k).fHat)
      (mzAt ccs cms ws) (fun k => (ST k).r) := foldWrong_of_violated rd P hK ccs sh cms ws hsz hbad ST W hsg hwg
  have hδm : max τ ccs.M.length ≤ δ := le_max_left _ _
  have hdegG : ScalarDeg (6 * P.K - 1 + ccs.s) δ (G h0) :=
    foldDefect_deg (by have := le_max_right (max τ ccs.M.length) (2 * P.bSmall); omega) _ _ _ _ _ hr
      (fun k hk => (hv k hk).trans hδm) (fun k hk => (hu k hk).trans hδm) (fun k hk => (hfl k hk).trans hδm)
      (fun k hk => (hml k hk).trans hδm)
  have hlive : Live (6 * P.K - 1 + ccs.s) (G h0) [] := foldDefect_live hK hn hF _ _ _ _ _ hr hv hu hfl hml hwrong
  unfold foldA
  rw [Alg'.asked_bind]
  by_cases hno : ∀ x ∈ Alg'.asked O (sqA P ccs.s h0), O x ∉ rbrBad h0.length (6 * P.K - 1 + ccs.s) ccs.s (2 * P.bSmall) δ G f x
  swap
  · push Not at hno
    obtain ⟨x, hx, hb⟩ := hno
    exact ⟨x, List.mem_append_left _ hx, hb⟩
  have hlive2 := sq_live P hK ccs.s hdegG O (At.start h0) hlive hno
  set u := ((sqA P ccs.s h0).run O).1 with hudef
  have hul : u.length = 6 * P.K - 1 + ccs.s := sqA_length P hK ccs.s h0 O
  have H1 : At h0.length ((sqA P ccs.s h0).run O).2 h0 u := (At.start h0).sq P ccs.s O
  obtain ⟨w, hw, hne⟩ := hlive2
  have hw0 : w = [] := List.length_eq_zero_iff.1 (by omega)
  subst hw0
  rw [List.append_nil] at hne
  have hfp : f h0 u = foldFn P.bSmall (2 * P.K) (fun i => algebraMap F (Fin N → F) (u.getD i 0))
      (fun i => algebraMap F (Fin N → F) (u.getD (2 * P.K + i) 0))
      (fun i => algebraMap F (Fin N → F) (if i < 2 * P.K - 1 then u.getD (4 * P.K + i) 0 else 1)) (fun k => (W k).fHat)
      (mzAt ccs cms ws) (fun k => (ST k).r) ((u.drop (6 * P.K - 1)).map (algebraMap F (Fin N → F))) := by
    funext x
    exact if_pos ⟨hul, hr⟩
  have hfb : ∀ q, PartialDeg ccs.s (2 * P.bSmall) (f h0 q) := by
    intro q
    by_cases hq : q.length = 6 * P.K - 1 + ccs.s ∧ ∀ k < 2 * P.K, (stAt (S h0).1 k).r.length = ccs.s
    · have e : f h0 q = _ := funext fun x => if_pos hq
      rw [e]
      exact foldFn_deg hb (2 * P.K) ccs.s _ _ _ _ _ _ _ hr (by simp [hq.1])
    · have e : f h0 q = _ := funext fun x => if_neg hq
      rw [e]
      exact partialDeg_const ccs.s (2 * P.bSmall) (0 : Fin N → F)
  rw [foldVerify_iff] at hver
  obtain ⟨-, ch, s1, sc, s2, eS, es, rhoC, rho, out, k1, k2, k3, k4, k5, -, -, k6⟩ := hver
  have hst : st.r = sc.point.map (algebraMap F (Fin N → F)) := by
    unfold foldOutput at k6
    split at k6
    · cases k6
    · cases k6
      rfl
  rw [sqA_run P hK ccs.s h0 O B, ← hudef] at k1
  simp only [Except.ok.injEq, Prod.mk.injEq] at k1
  obtain ⟨rfl, rfl⟩ := k1
  simp only at k2 k3 k4 k5
  have hclaim : foldClaims ((List.range (2 * P.K)).map fun k => algebraMap F (Fin N → F) (u.getD k 0))
      ((List.range (2 * P.K)).map fun k => algebraMap F (Fin N → F) (u.getD (2 * P.K + k) 0)) cms
      = ∑ i ∈ range (2 * P.K), (powComb (algebraMap F (Fin N → F) (u.getD i 0)) (ST i).v
        + powComb (algebraMap F (Fin N → F) (u.getD (2 * P.K + i) 0)) (ST i).u) := by
    rw [hcms, foldClaims_ok]
  rw [hclaim] at k2
  have hpt : sc.point.length = ccs.s := by
    by_cases hl2 : ccs.s ≤ proof.sumcheck.length
    · rw [verify_eq _ _ _ _ (by omega) _ _ hl2, bind_eq_ok] at k2
      obtain ⟨e, -, h⟩ := k2
      simp only [Except.ok.injEq, Prod.mk.injEq] at h
      rw [← h.1, drawRun_length]
      simp [hl2]
    · rw [verify_short _ _ _ _ _ _ (by omega)] at k2
      simp at k2
  set x := sc.point.map (algebraMap F (Fin N → F)) with hx
  have hxl : x.length = ccs.s := by rw [hx, List.length_map, hpt]
  have hbl : ((u.drop (6 * P.K - 1)).map (algebraMap F (Fin N → F))).length = ccs.s := by simp [hul]
  rw [eqEval_ok _ _ (by rw [hxl]; exact hbl)] at k3
  have hes : mapRes (fun r => eqEval r x) (cms.map LCCCS.r)
      = .ok ((List.range (2 * P.K)).map fun k => eqPoly (ST k).r x) := by
    rw [mapRes_ok (g := fun r => eqPoly r x), hcms, List.map_map, List.map_map]
    · rfl
    · intro r hrm
      obtain ⟨st', hst', rfl⟩ := List.mem_map.1 hrm
      exact eqEval_ok _ _ (by rw [hxl, hsz.r _ hst'])
  rw [hes] at k4
  cases k3
  cases k4
  have hth' : proof.thetaS = (List.range (2 * P.K)).map fun k => (W k).fHat.map fun m => mle m.get x := by
    rw [hth, hws, List.map_map, hst]
    rfl
  have het' : proof.etaS = (List.range (2 * P.K)).map fun k => (mzAt ccs cms ws k).map fun m => mle m.get x := by
    have : ∀ k, ((mzAt ccs cms ws k).map fun m => mle m.get x)
        = ccs.M.map fun M => mle (mulVec M (((ST k).x_w ++ [(ST k).h]) ++ (W k).wCcs)) x := fun k => mz_map_mle sh.wf _ _
    simp only [this]
    rw [het, hst]
    conv_lhs => rw [hws, hcms, zipWith_map_self]
  rw [hth', het', expectedValue_ok P hb _ _ _ _ (by simp; omega)] at k5
  simp only [Except.ok.injEq] at k5
  have hval : sc.expectedEvaluation = f h0 u x := by
    rw [hfp, ← k5]
    unfold foldFn
    apply sum_congr rfl
    intro i hi
    have hi' := mem_range.1 hi
    have hmuv : (((List.range (2 * P.K - 1)).map fun k => algebraMap F (Fin N → F) (u.getD (4 * P.K + k) 0)) ++ [1]).getD i 0
        = algebraMap F (Fin N → F) (if i < 2 * P.K - 1 then u.getD (4 * P.K + i) 0 else 1) := by
      by_cases hlast : i < 2 * P.K - 1
      · rw [if_pos hlast, List.getD_append _ _ _ _ (by simpa using hlast), getD_map_range _ _ hlast]
      · have : i = 2 * P.K - 1 := by omega
        rw [if_neg hlast, map_one, this]
        simp [List.getD_eq_getElem?_getD]
    rw [hmuv]
    simp only [List.length_map]
    congr 2
    congr 1
    apply sum_congr rfl
    intro j hj
    rw [map_getD_mle _ _ (mem_range.1 hj)]
  have hclaim2 : ∑ i ∈ range (2 * P.K), (powComb (algebraMap F (Fin N → F) (u.getD i 0)) (ST i).v
        + powComb (algebraMap F (Fin N → F) (u.getD (2 * P.K + i) 0)) (ST i).u) ≠ restSum (f h0 u) [] ccs.s := by
    intro h
    apply hne
    change foldDefect _ _ _ _ _ _ _ _ _ = 0
    unfold foldDefect
    refine sub_eq_zero.2 (h.trans ?_)
    rw [hfp]
    rfl
  obtain ⟨y, hy, hyb⟩ := sc_verify B hfb (le_max_right _ _) hc (by omega) O H1 hul _ hclaim2 proof.sumcheck sc k2 hval
  exact ⟨y, List.mem_append_right _ hy, hyb⟩

/-- **C94**: soundness of folding with Fiat–Shamir challenges, the transcript being a random oracle. An adversary with at most `Q`
queries chooses statements and proof. Suppose the statements and witnesses fixed by the transcript at the start claim a wrong
evaluation, or a coefficient of one of the first `2K - 1` witnesses is not below `b`, or some slot sum of the last witness does not
vanish. Then the verifier accepts evaluations of these witnesses with at most a fraction
`(Q + 6 K - 1 + 2 s) max(τ, |M|, 2 b) / |F|` of all oracles. -/
theorem C94_folding [Fintype F] (rd : RingData Fp F C N τ) (P : Params) (hK : 1 ≤ P.K) (hb : 1 ≤ P.bSmall) (cs : ChallengeSet C)
    (ccs : CCS (Fin N → F)) (sh : LinShape ccs) (hc : CharGt F (2 * P.bSmall)) (L0 : Nat)
    (S : History F (Fin N → F) → List (LCCCS (Fin N → F)) × List (Witness (Fin N → F) C))
    (B : History F (Fin N → F) → Nat → List UInt8)
    (A : Alg (History F (Fin N → F)) F (History F (Fin N → F) × FoldProof (Fin N → F))) (Q : Nat) (hA : A.AtMost Q) :
    ∃ X0 : Finset (History F (Fin N → F)), ∀ X, X0 ⊆ X → ∀ E : History F (Fin N → F) → F,
      oracleCount X E (FoldForged rd P cs ccs L0 S B A)
        ≤ (Q + (6 * P.K - 1 + 2 * ccs.s)) * max (max τ ccs.M.length) (2 * P.bSmall) * Fintype.card F ^ (X.card - 1) := by
  classical
  by_cases hF : ccs.s + max τ ccs.M.length < Fintype.card F
  · refine forgery_count A (fun out => foldA P ccs out.1 out.2) Q (6 * P.K - 1 + 2 * ccs.s) _ hA ?_
      (rbrBad L0 (6 * P.K - 1 + ccs.s) ccs.s (2 * P.bSmall) (max (max τ ccs.M.length) (2 * P.bSmall))
        (fun b => foldG0 P ccs (S b)) (fun b => foldF0 P ccs (S b)))
      (rbrBad_card _ _ _ _ _ _ _) (FoldForged rd P cs ccs L0 S B A) ?_
    · intro out
      rw [two_mul, ← Nat.add_assoc]
      exact Alg'.atMost_bind _ _ _ _ (sqA_atMost P hK _ _) fun r => drA_atMost _ _ _ (by simp)
    · rintro O ⟨h0, proof, st, s', h1, rfl, h3, h4, h5, h6, h7⟩
      rw [h1]
      exact fold_bad rd P hK hb cs ccs sh hc hF S B O h0 s' proof st h3 h4 h5 h6 h7
  · refine ⟨∅, fun X _ E => ?_⟩
    unfold oracleCount
    refine (card_le_univ _).trans ?_
    rw [Fintype.card_fun, Fintype.card_coe]
    set δ := max (max τ ccs.M.length) (2 * P.bSmall) with hδ
    have h1 : max τ ccs.M.length ≤ δ := le_max_left _ _
    have h2 : 2 * P.bSmall ≤ δ := le_max_right _ _
    have h3 : Fintype.card F ≤ (Q + (6 * P.K - 1 + 2 * ccs.s)) * δ := by
      have : (1 + ccs.s) * δ ≤ (Q + (6 * P.K - 1 + 2 * ccs.s)) * δ := Nat.mul_le_mul_right _ (by omega)
      have h4 : ccs.s * 1 ≤ ccs.s * δ := Nat.mul_le_mul_left _ (by omega)
      rw [Nat.add_mul, Nat.one_mul] at this
      omega
    have hpos : 1 ≤ Fintype.card F := Fintype.card_pos
    calc Fintype.card F ^ X.card ≤ Fintype.card F ^ (1 + (X.card - 1)) := Nat.pow_le_pow_right hpos (by omega)
      _ = Fintype.card F * Fintype.card F ^ (X.card - 1) := by rw [pow_add, pow_one]
      _ ≤ _ := Nat.mul_le_mul_right _ h3

/-! ## A concrete case -/

section Examples
open Verif.Example

/-- One digit: two statements are folded. -/
def par49one : Params := { par49 with K := 1 }

/-- Two statements. -/
def roAccs : List (LCCCS C49) :=
  [acc49 ![⟨3, 1⟩] ![⟨1, 4⟩] ![⟨2, 0⟩] (wit49 ![⟨1, 0⟩] ![⟨0, 6⟩]), acc49 ![⟨3, 1⟩] ![⟨0, 1⟩] ![⟨1, 1⟩] (wit49 ![⟨0, 1⟩] ![⟨6, 6⟩])]

/-- Two witnesses, `3 + 5X` of the first is out of range. -/
def roWits : List (Witness C49 C49) := [wit49 ![⟨3, 5⟩] ![⟨0, 6⟩], wit49 ![⟨0, 1⟩] ![⟨6, 6⟩]]

/-- The first witness is out of range: an adversary with 3 queries succeeds with at most 40 of 49 oracles on every large enough domain. -/
example (L0 : Nat) (A : Alg (History F49 C49) F49 (History F49 C49 × FoldProof C49)) (hA : A.AtMost 3)
    (B : History F49 C49 → Nat → List UInt8) :
    ∃ X0 : Finset (History F49 C49), ∀ X, X0 ⊆ X → ∀ E : History F49 C49 → F49,
      oracleCount X E (FoldForged ring49 par49one cs49 ccs49 L0 (fun _ => (roAccs, roWits)) B A) ≤ 40 * 49 ^ (X.card - 1) := by
  have h := C94_folding ring49 par49one (by decide) (by decide) cs49 ccs49 ccs49_shape charGt49 L0 (fun _ => (roAccs, roWits)) B A 3 hA
  rw [card49] at h
  exact h

/-- The statements and witnesses of the example have the right sizes and violate what is checked. -/
example : FoldSizes ring49 par49one ccs49 roAccs roWits ∧ FoldViolated ring49 par49one ccs49 roAccs roWits := by
  refine ⟨{ cmLen := rfl, wLen := rfl, hat := by decide, wit := ?_, r := ?_, v := ?_, u := ?_ }, ?_⟩
  · intro w hw
    simp only [roWits, List.mem_cons, List.not_mem_nil, or_false] at hw
    rcases hw with rfl | rfl <;> exact mkWit_ok ring49 par49one (wl := 1) _ rfl
  · intro st hst
    simp only [roAccs, List.mem_cons, List.not_mem_nil, or_false] at hst
    rcases hst with rfl | rfl <;> rfl
  · intro st hst
    simp only [roAccs, List.mem_cons, List.not_mem_nil, or_false] at hst
    rcases hst with rfl | rfl <;> rfl
  · intro st hst
    simp only [roAccs, List.mem_cons, List.not_mem_nil, or_false] at hst
    rcases hst with rfl | rfl <;> rfl
  · refine Or.inr (Or.inl ⟨0, _, by decide, rfl, ?_⟩)
    intro h
    obtain ⟨n, h1, h2⟩ := h ![⟨3, 5⟩] (by simp [wit49, mkWit]) (0 : Fin (2 * 1))
    have h3 : -1 ≤ n ∧ n ≤ 1 := by
      have : n.natAbs < 2 := h1
      omega
    have h4 : ring49.coeff ![⟨3, 5⟩] (0 : Fin (2 * 1)) = 3 := by decide
    rw [h4] at h2
    obtain ⟨h5, h6⟩ := h3
    interval_cases n <;> revert h2 <;> decide

end Examples

end Verif.Props
