import Verif.Props.SurplusEta
import Verif.Lemmas.NifsTape
import Verif.Props.Linearization

/-!
# C112 for a whole step: surplus evaluations make the step accept any openings
-/

set_option linter.unusedSectionVars false
set_option linter.unusedSimpArgs false

namespace Verif.Props

open Finset Spec Verif

variable {Fp F C σ : Type} {N τ : Nat} [Field Fp] [Field F] [DecidableEq F] [Algebra Fp F] [CommRing C]
  [Algebra Fp C]

/-- Linearization of a statement nothing is known about: the sum-check of the zero table, and the evaluations `0`. -/
def forgeLin (T : Transcript F (Fin N → F) σ) (s : σ) (ccs : CCS (Fin N → F)) (tau : Nat) : Res (LinProof (Fin N → F)) := do
  let ((msgs, _), _) ← proveAsSubprotocol T (squeezeBeta T s ccs.s).2 [(⟨ccs.s, []⟩ : Mle (Fin N → F))] ccs.s (ccs.d + 1)
    (fun v => .ok (v.getD 0 0))
  .ok ⟨msgs, List.replicate tau 0, List.replicate ccs.M.length 0⟩

/-- The `k`-th piece of a vector of which the first piece is the vector itself. -/
def padPiece {R : Type} [Zero R] (v : List R) (k : Nat) : List R := if k = 0 then v else List.replicate v.length 0

/-- Decomposition of a statement into itself and `K - 1` statements about zero: as many pieces as there should be. -/
def padPieces {R : Type} [Zero R] (P : Params) (st : LCCCS R) : DecProof R :=
  ⟨(List.range P.K).map (padPiece st.u), (List.range P.K).map (padPiece st.v),
   (List.range P.K).map (padPiece (st.x_w ++ [st.h])), (List.range P.K).map fun k => ⟨padPiece st.cm.val k⟩⟩

/-- The witnesses belonging to `padPieces`. -/
def padWits (rd : RingData Fp F C N τ) (P : Params) (wl : Nat) (w : Witness (Fin N → F) C) : List (Witness (Fin N → F) C) :=
  (List.range P.K).map fun k => if k = 0 then w else mkWit rd P wl (List.replicate (wl * P.L) 0)

/-- A prover of a step that knows only witnesses to which the two commitments open. It computes the verifier's
challenges as the verifier does. -/
def forgeNifs (rd : RingData Fp F C N τ) (P : Params) (T : Transcript F (Fin N → F) σ) (s : σ)
    (acc : LCCCS (Fin N → F)) (wAcc : Witness (Fin N → F) C) (cm : CCCS (Fin N → F)) (w : Witness (Fin N → F) C)
    (ccs : CCS (Fin N → F)) : Res (LFProof (Fin N → F)) := do
  let s := absorbPublicInput T s acc cm
  let lp ← forgeLin T s ccs τ
  let (lin, s) ← linVerify T s cm lp ccs
  let (l, s) ← decVerify P T s acc (padPieces P acc)
  let (r, s) ← decVerify P T s lin (padPieces P lin)
  let wl := ccs.n - ccs.l - 1
  let (fold, _) ← forgeFold P T s ccs (l ++ r) (padWits rd P wl wAcc ++ padWits rd P wl w)
  .ok ⟨lp, padPieces P acc, padPieces P lin, fold⟩

theorem padPiece_length {R : Type} [Zero R] (v : List R) (k : Nat) : (padPiece v k).length = v.length := by
  unfold padPiece
  split <;> simp

theorem padPiece_sum {R : Type} [CommRing R] (b : R) (K : Nat) (hK : 1 ≤ K) (v : List R) (j : Nat) :
    v.getD j 0 = ∑ k ∈ range K, b ^ k * (padPiece v k).getD j 0 := by
  rw [sum_eq_single 0]
  · simp [padPiece]
  · intro k _ hk
    have : (List.replicate v.length (0 : R)).getD j 0 = 0 := by
      rw [List.getD_eq_getElem?_getD, List.getElem?_replicate]
      split <;> rfl
    simp only [padPiece, if_neg hk, this, mul_zero]
  · intro h
    exact absurd (mem_range.2 (by omega)) h

/-- The pieces are accepted, and are the statement followed by statements about zero. -/
theorem padPieces_run (P : Params) (hK : 1 ≤ P.K) (hb : ∀ k < P.K, P.bSmall ^ k < 2 ^ 128)
    {R : Type} [CommRing R] [DecidableEq R] [Algebra F R] (T : Transcript F R σ) (s : σ) (st : LCCCS R) :
    ∃ s', decVerify P T s st (padPieces P st) = .ok ((List.range P.K).map (fun k =>
      (⟨st.r, padPiece st.v k, ⟨padPiece st.cm.val k⟩, padPiece st.u k, padPiece st.x_w k, if k = 0 then st.h else 0⟩ : LCCCS R)), s') := by
  have h := (C31_exact_pieces P T s st (padPiece st.u) (padPiece st.v) (padPiece (st.x_w ++ [st.h]))
    (fun k => ⟨padPiece st.cm.val k⟩) hK hb (fun k _ => padPiece_length _ _) (fun k _ => padPiece_length _ _)
    (fun k _ => by rw [padPiece_length]; simp) (fun k _ => padPiece_length _ _)).2
    ⟨fun j _ => padPiece_sum _ _ hK _ _, fun j _ => padPiece_sum _ _ hK _ _, fun j _ => padPiece_sum _ _ hK _ _,
      fun j hj => by
        rw [← padPiece_sum _ _ hK (st.x_w ++ [st.h]) j]
        simp [List.getD_eq_getElem?_getD, List.getElem?_append_left hj], by
        rw [← padPiece_sum _ _ hK (st.x_w ++ [st.h])]
        simp [List.getD_eq_getElem?_getD]⟩
  obtain ⟨l, s', h⟩ := h
  refine ⟨s', ?_⟩
  change decVerify P T s st (padPieces P st) = _ at h
  rw [h]
  obtain ⟨-, -, -, -, -, -, h1, -⟩ := (C31_verify_iff _ _ _ _ _ _ _).1 h
  rw [h1]
  congr 2
  simp only [padPieces, List.zip, zipWith_map_self, List.map_map]
  apply List.map_congr_left
  intro k _
  simp only [Function.comp, padPiece]
  split
  · simp
  · simp [List.replicate_succ']

theorem dot_replicate_zero {R : Type} [CommRing R] (row : List R) (n : Nat) : dot row (List.replicate n 0) = 0 := by
  unfold dot
  induction row generalizing n with
  | nil => simp
  | cons a row ih =>
    cases n with
    | zero => simp
    | succ n => simp [List.replicate_succ, ih]

/-- The witnesses open the commitments of the pieces. -/
theorem padWits_open (rd : RingData Fp F C N τ) (P : Params) (wl : Nat) (scheme : Ajtai (Fin N → F))
    (hwid : wl * P.L = scheme.matrix.ncols) (c : Commitment (Fin N → F)) (w : Witness (Fin N → F) C) (hw : WitOK rd P wl w)
    (hc : scheme.commit w.f = .ok c) (k : Nat) :
    WitOK rd P wl (if k = 0 then w else mkWit rd P wl (List.replicate (wl * P.L) 0)) ∧
    scheme.commit (if k = 0 then w else mkWit rd P wl (List.replicate (wl * P.L) 0)).f = .ok ⟨padPiece c.val k⟩ := by
  by_cases hk : k = 0
  · simp only [if_pos hk, padPiece]
    exact ⟨hw, hc⟩
  · simp only [if_neg hk, padPiece]
    refine ⟨mkWit_ok rd P _ (by simp), ?_⟩
    rw [commit_ok scheme _ (by rw [hw.f, List.length_map, hw.flen, hwid])] at hc
    rw [commit_ok scheme _ (by simp [mkWit, hwid]), ← Except.ok.inj hc]
    congr 2
    simp only [mkWit, List.map_replicate, map_zero, List.length_map]
    rw [List.eq_replicate_iff]
    refine ⟨by simp, fun b hb => ?_⟩
    obtain ⟨row, -, rfl⟩ := List.mem_map.1 hb
    exact dot_replicate_zero _ _

/-- Linearization accepts the zero table. -/
theorem forgeLin_run (T : Transcript F (Fin N → F) σ) (s : σ) (ccs : CCS (Fin N → F)) (tau : Nat) (cm : CCCS (Fin N → F))
    (wf : CCSWF ccs) (hn : 1 ≤ ccs.s) (hne : ∀ S ∈ ccs.S, S ≠ []) (hc : CharGt F (ccs.d + 1)) :
    ∃ lp lin s', forgeLin T s ccs tau = .ok lp ∧ linVerify T s cm lp ccs = .ok (lin, s') ∧
      lin.r.length = ccs.s ∧ lin.cm = cm.cm ∧ lin.x_w = cm.x_ccs := by
  obtain ⟨msgs, pst, s2, sc, vals, hp, hv, -, hml, hpt, hptl, hev, hfin⟩ :=
    C20_completeness T (squeezeBeta T s ccs.s).2 [(⟨ccs.s, []⟩ : Mle (Fin N → F))] ccs.s (ccs.d + 1) (fun v => .ok (v.getD 0 0))
      (fun v => v.getD 0 0) hn (by omega) hc (by simp) (fun _ _ => rfl) ((lineDeg_coord 1 0).mono (by omega))
  have hget : ∀ b, (⟨ccs.s, []⟩ : Mle (Fin N → F)).get b = 0 := fun b => rfl
  have hsum : ∑ b ∈ range (2 ^ ccs.s), ([(⟨ccs.s, []⟩ : Mle (Fin N → F))].map fun m => m.get b).getD 0 0 = 0 :=
    sum_eq_zero fun b _ => hget b
  rw [hsum] at hv
  rw [evaluateMles_ok _ _ (by simp [hptl])] at hev
  have hee : sc.expectedEvaluation = 0 := by
    rw [← Except.ok.inj hev] at hfin
    rw [← Except.ok.inj hfin]
    change mle (⟨ccs.s, []⟩ : Mle (Fin N → F)).get _ = 0
    exact mle_zero _
  refine ⟨⟨msgs, List.replicate tau 0, List.replicate ccs.M.length 0⟩, _, _, ?_,
    (C29_verify_iff T s _ cm _ ccs wf (by simp) _).2 ⟨sc, s2, hv, ?_, rfl, rfl⟩, by simp [hptl], rfl, rfl⟩
  · unfold forgeLin
    rw [hp]
    rfl
  · rw [hee]
    symm
    apply mul_eq_zero_of_right
    unfold ccsEval
    apply sum_eq_zero
    intro k hk
    have hk' : k < ccs.S.length := by rw [wf.lenS]; exact mem_range.1 hk
    have h1 : ccs.S.getD k [] ≠ [] := by
      rw [List.getD_eq_getElem?_getD, List.getElem?_eq_getElem hk', Option.getD_some]
      exact hne _ (List.getElem_mem _)
    obtain ⟨a, S, h2⟩ := List.exists_cons_of_ne_nil h1
    rw [h2, List.map_cons, List.prod_cons]
    have : (List.replicate ccs.M.length (0 : Fin N → F)).getD a 0 = 0 := by
      rw [List.getD_eq_getElem?_getD, List.getElem?_replicate]
      split <;> rfl
    simp only [this, zero_mul, mul_zero]

/-- What is known of the two statements of a step: their sizes, and that the commitments open. -/
structure SurplusOpens (rd : RingData Fp F C N τ) (P : Params) (ccs : CCS (Fin N → F)) (scheme : Ajtai (Fin N → F))
    (acc : LCCCS (Fin N → F)) (wAcc : Witness (Fin N → F) C) (cm : CCCS (Fin N → F)) (w : Witness (Fin N → F) C) : Prop where
  r : acc.r.length = ccs.s
  x : acc.x_w.length = ccs.l
  okAcc : WitOK rd P (ccs.n - ccs.l - 1) wAcc
  cmAcc : scheme.commit wAcc.f = .ok acc.cm
  xNew : cm.x_ccs.length = ccs.l
  okNew : WitOK rd P (ccs.n - ccs.l - 1) w
  cmNew : scheme.commit w.f = .ok cm.cm

/-- Up to the folding the step is accepted, and what is to be folded opens. -/
theorem forged_step_run (rd : RingData Fp F C N τ) (P : Params) (hK : 1 ≤ P.K) (hbK : ∀ k < P.K, P.bSmall ^ k < 2 ^ 128)
    (T : Transcript F (Fin N → F) σ) (s : σ) (ccs : CCS (Fin N → F)) (scheme : Ajtai (Fin N → F))
    (acc : LCCCS (Fin N → F)) (wAcc : Witness (Fin N → F) C) (cm : CCCS (Fin N → F)) (w : Witness (Fin N → F) C)
    (hS : SizesOK P ccs scheme) (wf : CCSWF ccs) (hne : ∀ S ∈ ccs.S, S ≠ []) (hc : CharGt F (ccs.d + 1))
    (ho : SurplusOpens rd P ccs scheme acc wAcc cm w) :
    ∃ lp lin s1 l s2 r s3, forgeLin T s ccs τ = .ok lp ∧ linVerify T s cm lp ccs = .ok (lin, s1) ∧
      decVerify P T s1 acc (padPieces P acc) = .ok (l, s2) ∧ decVerify P T s2 lin (padPieces P lin) = .ok (r, s3) ∧
      (l ++ r).length = 2 * P.K ∧ ((l ++ r).getD 0 ⟨[], [], ⟨[]⟩, [], [], 0⟩).r = acc.r ∧
      ∀ (k : Nat) (st : LCCCS (Fin N → F)) (wit : Witness (Fin N → F) C), (l ++ r)[k]? = some st →
        (padWits rd P (ccs.n - ccs.l - 1) wAcc ++ padWits rd P (ccs.n - ccs.l - 1) w)[k]? = some wit →
        st.r.length = ccs.s ∧ st.x_w.length = ccs.l ∧ WitOK rd P (ccs.n - ccs.l - 1) wit ∧ scheme.commit wit.f = .ok st.cm := by
  obtain ⟨lp, lin, s1, h1, h2, h3, h4, h5⟩ := forgeLin_run T s ccs τ cm wf hS.sh.spos hne hc
  obtain ⟨s2, h6⟩ := padPieces_run P hK hbK T s1 acc
  obtain ⟨s3, h7⟩ := padPieces_run P hK hbK T s2 lin
  refine ⟨lp, lin, s1, _, s2, _, s3, h1, h2, h6, h7, by simp; omega, ?_, ?_⟩
  · have : 0 < P.K := hK
    simp [List.getD_eq_getElem?_getD, List.getElem?_append_left, this]
  · intro k st wit hst hwit
    rw [padWits, padWits] at hwit
    by_cases hk : k < P.K
    · rw [List.getElem?_append_left (by simpa using hk)] at hst hwit
      rw [List.getElem?_map, List.getElem?_range hk, Option.map_some, Option.some.injEq] at hst hwit
      subst hst
      subst hwit
      exact ⟨ho.r, by rw [padPiece_length, ho.x], padWits_open rd P _ scheme hS.width.symm acc.cm wAcc ho.okAcc ho.cmAcc k⟩
    · rw [List.getElem?_append_right (by simpa using Nat.not_lt.1 hk)] at hst hwit
      simp only [List.length_map, List.length_range] at hst hwit
      have hk2 : k - P.K < P.K := by
        by_contra h
        rw [List.getElem?_eq_none (by simp; omega)] at hst
        cases hst
      rw [List.getElem?_map, List.getElem?_range hk2, Option.map_some, Option.some.injEq] at hst hwit
      subst hst
      subst hwit
      refine ⟨h3, by rw [padPiece_length, h5, ho.xNew], ?_⟩
      rw [h4]
      exact padWits_open rd P _ scheme hS.width.symm cm.cm w ho.okNew ho.cmNew (k - P.K)

/-- The step with the tape `t` of challenges (and the bytes `B`) accepts what `forgeNifs` sends, in which there are as
many pieces as there should be, and obtains a statement that holds. -/
def SurplusAccepted (rd : RingData Fp F C N τ) (P : Params) (cs : ChallengeSet C) (ccs : CCS (Fin N → F))
    (scheme : Ajtai (Fin N → F)) (acc : LCCCS (Fin N → F)) (wAcc : Witness (Fin N → F) C) (cm : CCCS (Fin N → F))
    (w : Witness (Fin N → F) C) (B : Nat → Nat → List UInt8) (t : List F) : Prop :=
  ∃ proof st wit s', forgeNifs rd P (scripted (coinT F (Fin N → F)) B) (t, 0) acc wAcc cm w ccs = .ok proof ∧
    (∀ dec ∈ [proof.decL, proof.decR],
      dec.uS.length = P.K ∧ dec.vS.length = P.K ∧ dec.xS.length = P.K ∧ dec.yS.length = P.K) ∧
    nifsVerify rd P cs (scripted (coinT F (Fin N → F)) B) (t, 0) acc cm proof ccs = .ok (st, s') ∧
    LcccsHolds rd P ccs scheme st wit

open Classical in
/-- **C112**, a whole step: for an accumulator and a new statement of which nothing is known except that their
commitments open (so that neither need be true), the step is accepted for all but a fraction `(s + 1) / |F|` of the
tapes of challenges, and its result is true. -/
theorem C112_step_count [Fintype F] (rd : RingData Fp F C N τ) (P : Params) (hK : 1 ≤ P.K) (hb : 1 ≤ P.bSmall)
    (hbK : ∀ k < P.K, P.bSmall ^ k < 2 ^ 128) (cs : ChallengeSet C) (ccs : CCS (Fin N → F)) (scheme : Ajtai (Fin N → F))
    (acc : LCCCS (Fin N → F)) (wAcc : Witness (Fin N → F) C) (cm : CCCS (Fin N → F)) (w : Witness (Fin N → F) C)
    (hS : SizesOK P ccs scheme) (wf : CCSWF ccs) (ht : ccs.t = ccs.M.length) (hne : ∀ S ∈ ccs.S, S ≠ [])
    (ho : SurplusOpens rd P ccs scheme acc wAcc cm w) (q : List F) (hq : acc.r = q.map (algebraMap F (Fin N → F)))
    (hc1 : CharGt F (ccs.d + 1)) (hc2 : CharGt F (2 * P.bSmall))
    (B : Nat → Nat → List UInt8) (hB : ∀ k n, (B k n).length = n)
    (hcs : ∀ bs, bs.length = cs.bytesNeeded → ∃ c, cs.decode bs = .ok c) :
    (univ.filter fun t : Fin (ccs.s + ccs.s + (6 * P.K - 1 + ccs.s + ccs.s)) → F =>
        ¬ SurplusAccepted rd P cs ccs scheme acc wAcc cm w B (List.ofFn t)).card
      ≤ (1 + ccs.s) * Fintype.card F ^ (ccs.s + ccs.s + (6 * P.K - 1 + ccs.s + ccs.s) - 1) := by
  have hn := hS.sh.spos
  have hcnt : (univ.filter fun t : Fin (ccs.s + ccs.s + (6 * P.K - 1 + ccs.s + ccs.s)) → F =>
        ¬ SurplusAccepted rd P cs ccs scheme acc wAcc cm w B (List.ofFn t)).card
      = cnt (ccs.s + ccs.s + (6 * P.K - 1 + ccs.s + ccs.s)) (fun t => ¬ SurplusAccepted rd P cs ccs scheme acc wAcc cm w B t) := by
    unfold cnt
    congr
  rw [hcnt, cnt_split]
  refine (sum_le_sum (g := fun _ => (1 + ccs.s) * Fintype.card F ^ (6 * P.K - 1 + ccs.s + ccs.s - 1)) fun u _ => ?_).trans ?_
  · have hul : (List.ofFn u).length = ccs.s + ccs.s := by simp
    generalize hU : List.ofFn u = U at hul
    have habs : ∀ v : List F, absorbPublicInput (scripted (coinT F (Fin N → F)) B) (U ++ v, 0) acc cm = (U ++ v, 0) := by
      intro v
      unfold absorbPublicInput
      have h1 : ∀ (s : List F × Nat) l, absorbLabel (scripted (coinT F (Fin N → F)) B) s l = s := fun _ _ => rfl
      have h2 : ∀ (s : List F × Nat) x, (scripted (coinT F (Fin N → F)) B).absorb s x = s := fun _ _ => rfl
      simp only [h1, h2, scripted_absorbSlice, coin_absorbSlice]
    have hsan : sanityCheck ccs P.L = .ok () := by
      rw [(C14_guard_exact ccs P.L).1]
      refine ⟨by have := hS.nl; omega, ⟨ccs.s, hS.sh.pow⟩, ?_⟩
      rw [hS.sh.pow, ← hS.hat]
      exact Nat.le_pow_clog (by omega) _
    -- the run up to the folding on the tape `U`
    have hco : scripted (coinT F (Fin N → F)) B = coinBT (fun i n => (B i n, i + 1)) := rfl
    obtain ⟨lp, lin, s1, l, s2, r, s3, h1, h2, h3, h4, h5, h6, h7⟩ :=
      forged_step_run rd P hK hbK (scripted (coinT F (Fin N → F)) B) (U ++ [], 0) ccs scheme acc wAcc cm w hS wf hne hc1 ho
    have hsq : ∀ v : List F, squeezeBeta (scripted (coinT F (Fin N → F)) B) (U ++ v, 0) ccs.s
        = ((U.take ccs.s).map (algebraMap F (Fin N → F)), (U.drop ccs.s ++ v, 0)) := by
      intro v
      unfold squeezeBeta
      simp only [scripted_label, scripted_challenges]
      have : absorbLabel (coinT F (Fin N → F)) (U ++ v) "beta_s" = U ++ v := rfl
      rw [this, challenges_coin _ _ (by simp; omega), List.take_append_of_le_length (by omega),
        List.drop_append_of_le_length (by omega)]
    have hlp : ∀ v : List F, forgeLin (scripted (coinT F (Fin N → F)) B) (U ++ v, 0) ccs τ = .ok lp := by
      intro v
      obtain ⟨lp', -, -, k1, -⟩ := forgeLin_run (scripted (coinT F (Fin N → F)) B) (U ++ v, 0) ccs τ cm wf hn hne hc1
      rw [k1]
      unfold forgeLin at h1 k1
      rw [hsq] at h1 k1
      simp only [bind_eq_ok, Prod.exists] at h1 k1
      obtain ⟨m, p, t, n, a1, a2⟩ := h1
      obtain ⟨m', p', t', n', b1, b2⟩ := k1
      cases a2
      cases b2
      rw [hco] at a1 b1
      have hd : (U.drop ccs.s).length = ccs.s := by simp; omega
      have hcau := prove_causal _ _ _ _ ccs.s _ _ 0 _ _ (by
        rw [List.take_append_of_le_length (by omega), List.take_append_of_le_length (by omega)]) a1 b1
      have hcau' := prove_causal _ _ _ _ ccs.s _ _ 0 _ _ (by
        rw [List.take_append_of_le_length (by omega), List.take_append_of_le_length (by omega)]) b1 a1
      obtain ⟨c1, c2⟩ := hcau
      obtain ⟨-, c3⟩ := hcau'
      dsimp only at c1 c2 c3
      rw [List.take_of_length_le (by omega), List.take_of_length_le (by omega)] at c1
      rw [c1]
    rw [lin_tape B U [] 0 cm lp ccs hul, map_ok_iff] at h2
    obtain ⟨⟨lin', v'⟩, h2, h2'⟩ := h2
    cases h2'
    obtain ⟨h3a, rfl⟩ := (dec_tape _ _ _ _ _ _ _ _).1 h3
    obtain ⟨h4a, -⟩ := (dec_tape _ _ _ _ _ _ _ _).1 h4
    have hrun : ∀ v : List F, linVerify (scripted (coinT F (Fin N → F)) B) (U ++ v, 0) cm lp ccs = .ok (lin', (v, 0)) ∧
        decVerify P (scripted (coinT F (Fin N → F)) B) (v, 0) acc (padPieces P acc) = .ok (l, (v, 0)) ∧
        decVerify P (scripted (coinT F (Fin N → F)) B) (v, 0) lin' (padPieces P lin') = .ok (r, (v, 0)) := by
      intro v
      refine ⟨?_, (dec_tape _ _ _ _ _ _ _ _).2 ⟨h3a, rfl⟩, (dec_tape _ _ _ _ _ _ _ _).2 ⟨h4a, rfl⟩⟩
      rw [lin_tape B U v 0 cm lp ccs hul, h2]
      rfl
    have hF := C112_forged_count rd P hK hb cs ccs scheme (l ++ r) _ hS ht h5
      (by simp [padWits]; omega) h7 q (by rw [h6, hq]) hc2 (fun i n => (B i n, i + 1)) 0 hB hcs
    refine le_trans ?_ hF
    have hcnt' : (univ.filter fun t : Fin (6 * P.K - 1 + ccs.s + ccs.s) → F =>
        ¬ ForgeAccepted rd P cs ccs scheme (l ++ r)
          (padWits rd P (ccs.n - ccs.l - 1) wAcc ++ padWits rd P (ccs.n - ccs.l - 1) w)
          (fun i n => (B i n, i + 1)) 0 (List.ofFn t)).card
      = cnt (6 * P.K - 1 + ccs.s + ccs.s) (fun t => ¬ ForgeAccepted rd P cs ccs scheme (l ++ r)
          (padWits rd P (ccs.n - ccs.l - 1) wAcc ++ padWits rd P (ccs.n - ccs.l - 1) w) (fun i n => (B i n, i + 1)) 0 t) := by
      unfold cnt
      congr
    rw [hcnt']
    refine cnt_mono fun v hv => ?_
    contrapose
    rintro ⟨fold, p, st, wit, s', k1, k2, k3⟩
    obtain ⟨r1, r2, r3⟩ := hrun v
    refine ⟨⟨lp, padPieces P acc, padPieces P lin', fold⟩, st, wit, s', ?_, ?_, ?_, k3⟩
    · unfold forgeNifs
      simp only [habs, hlp, r1, r2, r3, bind_ok']
      rw [hco, k1]
      rfl
    · simp [padPieces]
    · unfold nifsVerify
      simp only [habs, hsan, r1, r2, r3, bind_ok']
      exact k2
  · rw [sum_const, card_univ, Fintype.card_fun, Fintype.card_fin, smul_eq_mul, mul_left_comm, ← pow_add]
    refine le_of_eq ?_
    congr 2
    omega

/-! ## Concrete cases -/

section Examples
open Verif.Example

/-- An accumulator that no witness satisfies. -/
def surAcc : LCCCS C49 := { acc49 ![⟨3, 1⟩] ![⟨1, 4⟩] ![⟨2, 0⟩] (wit49 ![⟨1, 0⟩] ![⟨0, 6⟩]) with v := [0, 0], u := [0, 1, 0] }

/-- A witness out of range that does not satisfy the constraints with the public input `0`. -/
def surWit : Witness C49 C49 := wit49 ![⟨3, 4⟩] ![⟨5, 2⟩]

/-- The statement that it does. -/
def surCm : CCCS C49 := ⟨⟨scheme49.matrix.vals.map fun row => dot row surWit.f⟩, [0]⟩

theorem surOpens : SurplusOpens ring49 par49 ccs49 scheme49 surAcc (wit49 ![⟨1, 0⟩] ![⟨0, 6⟩]) surCm surWit where
  r := rfl
  x := rfl
  okAcc := (acc49_holds 0 0 0 _ _).witOK
  cmAcc := (acc49_holds ![⟨3, 1⟩] 0 0 _ _).cm
  xNew := rfl
  okNew := (acc49_holds 0 0 0 _ _).witOK
  cmNew := (acc49_holds ![⟨3, 1⟩] 0 0 _ _).cm

theorem surCharGt : CharGt F49 (ccs49.d + 1) := by
  intro k h1 h2
  have : k ≤ 3 := h2
  interval_cases k <;> decide

theorem surAcc_false (w : Witness C49 C49) : ¬ LcccsHolds ring49 par49 ccs49 scheme49 surAcc w := by
  intro h
  have h1 := h.evals.u
  simp only [surAcc, ccs49, List.map_cons, List.map_nil, List.cons.injEq] at h1
  obtain ⟨-, h2, h3, -⟩ := h1
  rw [← h2] at h3
  exact zero_ne_one h3

theorem surWit_false : ¬ CCSHolds ccs49 ((surCm.x_ccs ++ [1]) ++ surWit.wCcs) := by
  intro h
  have h0 := h 0 (by decide)
  revert h0
  decide +kernel

open Classical in
/-- **C112**, a step with a concrete witness: the accumulator is false whatever the witness, the new statement does not
hold with the witness used, and all but 2 of 49 tapes of challenges are accepted with a true result. -/
theorem C112_step_witness (B : Nat → Nat → List UInt8) (hB : ∀ k n, (B k n).length = n) :
    (∀ w, ¬ LcccsHolds ring49 par49 ccs49 scheme49 surAcc w) ∧
    ¬ CCSHolds ccs49 ((surCm.x_ccs ++ [1]) ++ surWit.wCcs) ∧
    (univ.filter fun t : Fin 15 → F49 => ¬ SurplusAccepted ring49 par49 cs49 ccs49 scheme49 surAcc
      (wit49 ![⟨1, 0⟩] ![⟨0, 6⟩]) surCm surWit B (List.ofFn t)).card ≤ 2 * 49 ^ 14 := by
  refine ⟨surAcc_false, surWit_false, ?_⟩
  have h := C112_step_count ring49 par49 (by decide) (by decide) (by decide) cs49 ccs49 scheme49 surAcc
    (wit49 ![⟨1, 0⟩] ![⟨0, 6⟩]) surCm surWit sizes49 sizes49.sh.wf rfl (by decide) surOpens [⟨3, 1⟩] (by
      simp only [surAcc, acc49, List.map_cons, List.map_nil, List.cons.injEq, and_true]
      funext a
      fin_cases a
      rfl) surCharGt charGt49 B hB cs49_total
  rw [card49] at h
  exact h

end Examples

end Verif.Props
