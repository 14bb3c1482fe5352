import Verif.Lemmas.Logged
import Verif.Props.RandomOracleNifs

/-!
# C95 for repeated folding: a chain of folding steps with the challenges of a random oracle
-/

set_option linter.unusedSectionVars false
set_option linter.unusedSimpArgs false

namespace Verif.Props

open Finset Spec Verif

variable {Fp F C : Type} {N τ : Nat} [Field Fp] [Field F] [DecidableEq F] [Algebra Fp F] [CommRing C]
  [Algebra Fp C]

/-- The openings `op` of the commitments in the proof of a folding step open them, the last evaluations of the proof are those of these
openings at the point of the output `st`, and the openings of the right pieces recombine to that of the fresh commitment. -/
structure StepOpened (rd : RingData Fp F C N τ) (P : Params) (ccs : CCS (Fin N → F)) (scheme : Ajtai (Fin N → F)) (κ : Nat)
    (op : Commitment (Fin N → F) → Witness (Fin N → F) C) (acc : LCCCS (Fin N → F)) (cm : CCCS (Fin N → F))
    (proof : LFProof (Fin N → F)) (st : LCCCS (Fin N → F)) : Prop where
  fits : StepFits P ccs κ τ acc cm proof
  opens : ∀ y ∈ proof.decL.yS ++ proof.decR.yS, scheme.commit (op y).f = .ok y
  theta : proof.fold.thetaS = ((proof.decL.yS ++ proof.decR.yS).map fun y => (op y).fHat.map fun m => mle m.get st.r)
  eta : proof.fold.etaS = List.zipWith (fun x y => ccs.M.map fun M => mle (mulVec M (x ++ (op y).wCcs)) st.r)
      (proof.decL.xS ++ proof.decR.xS) (proof.decL.yS ++ proof.decR.yS)
  recombined : Recombined P (proof.decR.yS.map op) (op cm.cm)

/-- With the oracle `O`, the adversary `A` outputs a history `h0` of length `L0`, an accumulator and at most `n` pairs of a fresh
statement and a proof, which the verifier accepts one after the other, always continuing with the transcript and the accumulator of the
step before. In every step the openings `op` are as in `StepOpened`, yet some step is not valid. -/
def ChainForged (rd : RingData Fp F C N τ) (P : Params) (cs : ChallengeSet C) (ccs : CCS (Fin N → F)) (scheme : Ajtai (Fin N → F))
    (κ L0 n : Nat) (op : Commitment (Fin N → F) → Witness (Fin N → F) C) (B : History F (Fin N → F) → Nat → List UInt8)
    (A : Alg (History F (Fin N → F)) F
      (History F (Fin N → F) × LCCCS (Fin N → F) × List (CCCS (Fin N → F) × LFProof (Fin N → F))))
    (O : History F (Fin N → F) → F) : Prop :=
  ∃ h0 acc steps accs last s', A.run O = (h0, acc, steps) ∧ h0.length = L0 ∧ steps.length ≤ n ∧
    ivcVerify rd P cs (oracleT O B) ccs steps h0 acc = .ok ((accs, last), s') ∧
    (∀ (k : Nat) (a st : LCCCS (Fin N → F)) (p : CCCS (Fin N → F) × LFProof (Fin N → F)),
      (acc :: accs)[k]? = some a → accs[k]? = some st → steps[k]? = some p → StepOpened rd P ccs scheme κ op a p.1 p.2 st) ∧
    ∃ (k : Nat) (a : LCCCS (Fin N → F)) (p : CCCS (Fin N → F) × LFProof (Fin N → F)),
      (acc :: accs)[k]? = some a ∧ steps[k]? = some p ∧ ¬ StepValid rd P ccs scheme op a p.1 p.2

/-! ### Lengths of histories -/

theorem absorbAll_length {R : Type} (O : History F R → F) (B : History F R → Nat → List UInt8) (t : Nat) (l : List (List R))
    (hl : ∀ a ∈ l, a.length = t) (h : History F R) : (l.foldl (oracleT O B).absorbSlice h).length = h.length + l.length * t := by
  induction l generalizing h with
  | nil => simp
  | cons a l ih =>
    rw [List.foldl_cons, ih (fun q hq => hl q (by simp [hq])), absorbSlice_oracle]
    simp [hl a (by simp), Nat.add_mul]
    omega

theorem sqA_history_length {R : Type} [CommRing R] [Algebra F R] (P : Params) (hK : 1 ≤ P.K) (n : Nat) (O : History F R → F)
    (h : History F R) : ((sqA P n h).run O).2.length = h.length + (4 + (6 * P.K - 1 + n)) := by
  unfold sqA
  simp only [Alg'.run_bind, Alg.run, chA_history_length, labelled, List.length_cons]
  omega

/-- Queries of the folding verifier and the length of its history at the end. -/
theorem fold_run (rd : RingData Fp F C N τ) (P : Params) (hK : 1 ≤ P.K) (cs : ChallengeSet C) (ccs : CCS (Fin N → F)) (hs : ccs.s ≠ 0)
    (B : History F (Fin N → F) → Nat → List UInt8) (O : History F (Fin N → F) → F) (h s' : History F (Fin N → F))
    (cms : List (LCCCS (Fin N → F))) (proof : FoldProof (Fin N → F)) (st : LCCCS (Fin N → F)) (t m : Nat)
    (ht : proof.thetaS.length = 2 * P.K ∧ ∀ a ∈ proof.thetaS, a.length = t)
    (hm : proof.etaS.length = 2 * P.K ∧ ∀ a ∈ proof.etaS, a.length = m)
    (hver : foldVerify rd P cs (oracleT O B) h cms proof ccs = .ok (st, s')) :
    s'.length = h.length + (4 + (6 * P.K - 1 + ccs.s) + 2 + ccs.s * (2 * P.bSmall + 3) + 2 * P.K * t + 2 * P.K * m + 1 + (2 * P.K - 1)) ∧
    ∀ x ∈ Alg'.asked O (foldA P ccs h proof), h.length ≤ x.length ∧ x.length < s'.length := by
  rw [foldVerify_iff] at hver
  obtain ⟨-, ch, s1, sc, s2, eStar, es, rhoC, rho, out, h1, h2, -, -, -, h3, -, -⟩ := hver
  rw [sqA_run P hK] at h1
  simp only [Except.ok.injEq, Prod.mk.injEq] at h1
  obtain ⟨-, rfl⟩ := h1
  by_cases hl : ccs.s ≤ proof.sumcheck.length
  swap
  · rw [verify_short _ _ _ _ _ _ (by omega)] at h2
    simp at h2
  rw [verify_eq _ _ _ _ hs _ _ hl, bind_eq_ok] at h2
  obtain ⟨e, hck, hout⟩ := h2
  simp only [Except.ok.injEq, Prod.mk.injEq] at hout
  obtain ⟨-, rfl⟩ := hout
  set r := (sqA P ccs.s h).run O with hr
  have habs : (oracleT O B).absorb ((oracleT O B).absorb r.2 (ccs.s : Fin N → F)) ((2 * P.bSmall : Nat) : Fin N → F)
      = .elem ((2 * P.bSmall : Nat) : Fin N → F) :: .elem (ccs.s : Fin N → F) :: r.2 := rfl
  rw [habs, ← drA_run] at hck h3
  set hd : History F (Fin N → F) := .elem ((2 * P.bSmall : Nat) : Fin N → F) :: .elem (ccs.s : Fin N → F) :: r.2 with hhd
  have hdl : ((drA hd (proof.sumcheck.take ccs.s)).run O).1.length = ccs.s := by
    rw [drA_run O B, drawRun_length]
    simp [hl]
  have htl : (proof.sumcheck.take ccs.s).length = ccs.s := by simp [hl]
  have hms := checkRec_length _ _ _ _ _ hck (by rw [hdl, htl])
  have hend := drA_history_length O (2 * P.bSmall + 1) (proof.sumcheck.take ccs.s) hms hd
  have hrl : r.2.length = h.length + (4 + (6 * P.K - 1 + ccs.s)) := sqA_history_length P hK ccs.s O h
  rw [htl, hhd, List.length_cons, List.length_cons, hrl] at hend
  unfold getRhos at h3
  simp only [bind_eq_ok, Prod.exists] at h3
  obtain ⟨n, hn, l, s3, h4, h5⟩ := h3
  have hn' : n = 2 * P.K - 1 := by
    unfold usub at hn
    rw [if_pos (by omega)] at hn
    simpa using hn.symm
  simp only [Except.ok.injEq, Prod.mk.injEq] at h5
  obtain ⟨-, rfl⟩ := h5
  have h6 := shortChallenges_length O B cs n _ _ l h4
  have h7 : ∀ s : History F (Fin N → F), List.length (absorbLabel (oracleT O B) s "rho_s") = s.length + 1 := fun _ => rfl
  rw [h7, absorbAll_length O B m _ hm.2, absorbAll_length O B t _ ht.2, hend, ht.1, hm.1, hn'] at h6
  have hfin : s3.length = h.length + (4 + (6 * P.K - 1 + ccs.s) + 2 + ccs.s * (2 * P.bSmall + 3) + 2 * P.K * t + 2 * P.K * m + 1
      + (2 * P.K - 1)) := by
    rw [h6]
    ring
  refine ⟨hfin, ?_⟩
  intro x hx
  unfold foldA at hx
  rw [Alg'.asked_bind] at hx
  rcases List.mem_append.1 hx with hx | hx
  · refine ⟨(sqA_asked_length P ccs.s O h).1 x hx, ?_⟩
    have := sqA_asked_lt P ccs.s O h x hx
    rw [← hr, hrl] at this
    omega
  · rw [← hr, ← hhd] at hx
    have := drA_asked_length O _ _ x hx
    rw [hend, hhd, List.length_cons, List.length_cons, hrl] at this
    constructor
    · omega
    · have h8 : ccs.s * (2 * P.bSmall + 1 + 2) = ccs.s * (2 * P.bSmall + 3) := by ring
      omega

/-- What a folding step adds to the length of the history. -/
def stepLen (P : Params) (ccs : CCS (Fin N → F)) (κ t : Nat) : Nat :=
  stepL2 P ccs κ t 0 + (4 + (6 * P.K - 1 + ccs.s) + 2 + ccs.s * (2 * P.bSmall + 3) + 2 * P.K * t + 2 * P.K * ccs.M.length + 1
    + (2 * P.K - 1))

theorem stepL2_eq (P : Params) (ccs : CCS (Fin N → F)) (κ t L0 : Nat) : stepL2 P ccs κ t L0 = L0 + stepL2 P ccs κ t 0 := by
  unfold stepL2 stepL1
  ring

/-- Queries of the verifier of a folding step and the length of its history at the end. -/
theorem step_run (rd : RingData Fp F C N τ) (P : Params) (hK : 1 ≤ P.K) (cs : ChallengeSet C) (ccs : CCS (Fin N → F))
    (scheme : Ajtai (Fin N → F)) (sh : LinShape ccs) (κ : Nat) (op : Commitment (Fin N → F) → Witness (Fin N → F) C)
    (hop : ∀ y, WitOK rd P (ccs.n - ccs.l - 1) (op y))
    (B : History F (Fin N → F) → Nat → List UInt8) (O : History F (Fin N → F) → F) (h0 s' : History F (Fin N → F))
    (acc : LCCCS (Fin N → F)) (cm : CCCS (Fin N → F)) (proof : LFProof (Fin N → F)) (st : LCCCS (Fin N → F))
    (ho : StepOpened rd P ccs scheme κ op acc cm proof st)
    (hver : nifsVerify rd P cs (oracleT O B) h0 acc cm proof ccs = .ok (st, s')) :
    s'.length = h0.length + stepLen P ccs κ τ ∧
    (∀ x ∈ Alg'.asked O (stepA P ccs (h0, acc, cm, proof)), h0.length ≤ x.length ∧ x.length < s'.length) ∧
    ∀ O', (∀ x ∈ Alg'.asked O (stepA P ccs (h0, acc, cm, proof)), O' x = O x) →
      nifsVerify rd P cs (oracleT O' B) h0 acc cm proof ccs = .ok (st, s') := by
  have hfit := ho.fits
  have hver' := hver
  unfold nifsVerify at hver
  simp only [bind_eq_ok] at hver
  obtain ⟨u, hsan, ⟨lin, s1⟩, hlin, ⟨l, s2⟩, hdl, ⟨r, s3⟩, hdr, hfold⟩ := hver
  simp only at hlin hdl hdr hfold
  have hdl0 := hdl
  have hdr0 := hdr
  have hlin0 := hlin
  rw [stepH1_eq] at hlin
  obtain ⟨aκ, av, au, ax⟩ := dec_lengths hK hfit.decL hdl
  obtain ⟨-, lv, lu, -⟩ := dec_lengths hK hfit.decR hdr
  obtain ⟨ov, oc, ou, ox, oh⟩ := linVerify_out _ _ _ _ _ _ _ hlin
  rw [ov] at lv
  rw [ou] at lu
  set h1 := stepH1 h0 acc cm with hh1
  have hL1 : h1.length = stepL1 ccs κ τ h0.length := by
    simp only [hh1, stepH1, stepL1, labelled, List.length_append, List.length_map, List.length_reverse, List.length_cons, aκ, av, au, ax,
      hfit.r, hfit.cm, hfit.x]
    omega
  obtain ⟨-, -, q3, q4, q5, q6, -⟩ := lin_run ccs sh B O h1 s1 cm proof.lin lin (by omega) hlin
  obtain ⟨rfl, rfl⟩ := dec_run hdl
  obtain ⟨rfl, rfl⟩ := dec_run hdr
  set h2 := (piecesOf proof.decR).foldl pieceH ((piecesOf proof.decL).foldl pieceH s1) with hh2
  have fL := piecesOf_fits hfit.decL
  have fR := piecesOf_fits hfit.decR
  have nL := piecesOf_length hfit.decL
  have nR := piecesOf_length hfit.decR
  have hL2 : h2.length = stepL2 P ccs κ τ h0.length := by
    rw [hh2, pieces_length _ fR, pieces_length _ fL, nL, nR, q3]
    simp only [List.length_append, List.length_map, List.length_reverse, q4, lv, lu, hL1, stepL2]
    ring
  have hs1 : s1.length ≤ h2.length := by
    rw [hh2, pieces_length _ fR, pieces_length _ fL]
    omega
  have hyl : (proof.decL.yS ++ proof.decR.yS).length = 2 * P.K := by
    rw [List.length_append, hfit.decL.y.1, hfit.decR.y.1]
    ring
  have hxl : (proof.decL.xS ++ proof.decR.xS).length = 2 * P.K := by
    rw [List.length_append, hfit.decL.x.1, hfit.decR.x.1]
    ring
  have ht : proof.fold.thetaS.length = 2 * P.K ∧ ∀ a ∈ proof.fold.thetaS, a.length = τ := by
    rw [ho.theta]
    refine ⟨by rw [List.length_map, hyl], ?_⟩
    intro a ha
    obtain ⟨y, -, rfl⟩ := List.mem_map.1 ha
    rw [List.length_map, (hop y).hatlen]
  have hm : proof.fold.etaS.length = 2 * P.K ∧ ∀ a ∈ proof.fold.etaS, a.length = ccs.M.length := by
    rw [ho.eta]
    refine ⟨by rw [List.length_zipWith, hyl, hxl, min_self], ?_⟩
    intro a ha
    rw [← List.map_uncurry_zip_eq_zipWith] at ha
    obtain ⟨q, -, rfl⟩ := List.mem_map.1 ha
    simp [Function.uncurry]
  obtain ⟨e1, e2⟩ := fold_run rd P hK cs ccs (Nat.pos_iff_ne_zero.1 sh.spos) B O h2 s' _ proof.fold st τ ccs.M.length ht hm hfold
  have hstep : stepA P ccs (h0, acc, cm, proof) = Alg'.bind (linA ccs h1 proof.lin) fun r =>
    foldA P ccs ((piecesOf proof.decR).foldl pieceH ((piecesOf proof.decL).foldl pieceH
      (proof.lin.u.reverse.map .elem ++ (proof.lin.v.reverse.map .elem ++ r.2)))) proof.fold := rfl
  have hasked : Alg'.asked O (stepA P ccs (h0, acc, cm, proof)) = Alg'.asked O (linA ccs h1 proof.lin) ++ Alg'.asked O (foldA P ccs h2 proof.fold) := by
    rw [hstep, Alg'.asked_bind, ← q3]
  have hle : h0.length ≤ h1.length := by
    rw [hL1]
    unfold stepL1
    omega
  refine ⟨?_, ?_, ?_⟩
  · rw [e1, hL2, stepL2_eq]
    unfold stepLen
    omega
  · intro x hx
    rw [hasked] at hx
    rcases List.mem_append.1 hx with hx | hx
    · have h3 := q6 x hx
      refine ⟨hle.trans (linA_asked_length O ccs h1 proof.lin x hx), ?_⟩
      omega
    · have := e2 x hx
      have h4 := q5.length_le
      omega
  · intro O' hO'
    rw [hasked] at hO'
    unfold nifsVerify
    simp only [bind_eq_ok]
    refine ⟨u, hsan, (lin, s1), ?_, (_, _), (decVerify_congr O O' B P _ _ _).trans hdl0, (_, _),
      (decVerify_congr O O' B P _ _ _).trans hdr0, ?_⟩
    · rw [stepH1_eq, linVerify_congr (O := O) B ccs (Nat.pos_iff_ne_zero.1 sh.spos) _ cm proof.lin fun x hx => hO' x (List.mem_append_left _ hx)]
      exact hlin
    · simp only
      rw [foldVerify_congr (O := O) B rd P hK cs ccs (Nat.pos_iff_ne_zero.1 sh.spos) _ _ proof.fold fun x hx => hO' x (List.mem_append_right _ hx)]
      exact hfold

/-! ### The chain -/

/-- The challenges of the verifiers of a chain of folding steps. After a step the verifier continues with its output for the recorded
answers. -/
noncomputable def chainA (rd : RingData Fp F C N τ) (P : Params) (cs : ChallengeSet C) (B : History F (Fin N → F) → Nat → List UInt8)
    (ccs : CCS (Fin N → F)) : List (CCCS (Fin N → F) × LFProof (Fin N → F)) → History F (Fin N → F) → LCCCS (Fin N → F) →
      Alg (History F (Fin N → F)) F Unit
  | [], _, _ => .done ()
  | p :: rest, h, acc => Alg'.bind (Alg'.logged (stepA P ccs (h, acc, p.1, p.2))) fun r =>
      match nifsVerify rd P cs (oracleT (Alg'.tableO 0 r.2) B) h acc p.1 p.2 ccs with
      | .ok (st, s') => chainA rd P cs B ccs rest s' st
      | .error _ => .done ()

theorem stepA_atMost (P : Params) (hK : 1 ≤ P.K) (ccs : CCS (Fin N → F))
    (out : History F (Fin N → F) × LCCCS (Fin N → F) × CCCS (Fin N → F) × LFProof (Fin N → F)) :
    (stepA P ccs out).AtMost (6 * P.K - 1 + 4 * ccs.s) := by
  rw [show 6 * P.K - 1 + 4 * ccs.s = (ccs.s + ccs.s) + ((6 * P.K - 1 + ccs.s) + ccs.s) by omega]
  refine Alg'.atMost_bind _ _ _ _ ?_ fun r => ?_
  · exact Alg'.atMost_bind _ _ _ _ (chA_atMost _ _) fun r => drA_atMost _ _ _ (by simp)
  · exact Alg'.atMost_bind _ _ _ _ (sqA_atMost P hK _ _) fun r => drA_atMost _ _ _ (by simp)

theorem chainA_atMost (rd : RingData Fp F C N τ) (P : Params) (hK : 1 ≤ P.K) (cs : ChallengeSet C)
    (B : History F (Fin N → F) → Nat → List UInt8) (ccs : CCS (Fin N → F)) (n : Nat)
    (steps : List (CCCS (Fin N → F) × LFProof (Fin N → F))) (hn : steps.length ≤ n) (h : History F (Fin N → F)) (acc : LCCCS (Fin N → F)) :
    (chainA rd P cs B ccs steps h acc).AtMost (n * (6 * P.K - 1 + 4 * ccs.s)) := by
  induction steps generalizing n h acc with
  | nil => unfold chainA; generalize n * _ = k; cases k <;> trivial
  | cons p rest ih =>
    obtain ⟨n, rfl⟩ : ∃ m, n = m + 1 := ⟨n - 1, by simp at hn; omega⟩
    unfold chainA
    rw [show (n + 1) * (6 * P.K - 1 + 4 * ccs.s) = (6 * P.K - 1 + 4 * ccs.s) + n * (6 * P.K - 1 + 4 * ccs.s) by ring]
    refine Alg'.atMost_bind _ _ _ _ (Alg'.logged_atMost _ _ (stepA_atMost P hK ccs _)) fun r => ?_
    split
    · exact ih n (by simpa using hn) _ _
    · generalize n * _ = k
      cases k <;> trivial

/-- The bad answers for a chain started at a history of length `L0`. -/
noncomputable def chainBad [Fintype F] (P : Params) (ccs : CCS (Fin N → F)) (κ t L0 : Nat)
    (op : Commitment (Fin N → F) → Witness (Fin N → F) C) (h : History F (Fin N → F)) : Finset F :=
  stepBad P ccs κ t (L0 + (h.length - L0) / stepLen P ccs κ t * stepLen P ccs κ t) op h

theorem stepBad_card [Fintype F] (P : Params) (ccs : CCS (Fin N → F)) (κ L0 : Nat)
    (op : Commitment (Fin N → F) → Witness (Fin N → F) C) (h : History F (Fin N → F)) :
    (stepBad P ccs κ τ L0 op h).card ≤ max (ccs.d + 1) (max (max τ ccs.M.length) (2 * P.bSmall)) := by
  unfold stepBad
  split
  · exact (rbrBad_card _ _ _ _ _ _ _ _).trans (le_max_left _ _)
  · exact (rbrBad_card _ _ _ _ _ _ _ _).trans (le_max_right _ _)

/-- An invalid step in an accepted chain shows a bad answer. -/
theorem chain_bad [Fintype F] (rd : RingData Fp F C N τ) (P : Params) (hK : 1 ≤ P.K) (hb : 1 ≤ P.bSmall) (cs : ChallengeSet C)
    (ccs : CCS (Fin N → F)) (scheme : Ajtai (Fin N → F)) (hS : SizesOK P ccs scheme) (hc : CharGt F (2 * P.bSmall))
    (hcd : CharGt F (ccs.d + 1)) (hF : ccs.s + max τ ccs.M.length < Fintype.card F) (κ L0 : Nat)
    (op : Commitment (Fin N → F) → Witness (Fin N → F) C) (hop : ∀ y, WitOK rd P (ccs.n - ccs.l - 1) (op y))
    (B : History F (Fin N → F) → Nat → List UInt8) (O : History F (Fin N → F) → F)
    (steps : List (CCCS (Fin N → F) × LFProof (Fin N → F))) (i : Nat) (h0 s' : History F (Fin N → F)) (acc last : LCCCS (Fin N → F))
    (accs : List (LCCCS (Fin N → F))) (hL : h0.length = L0 + i * stepLen P ccs κ τ)
    (hver : ivcVerify rd P cs (oracleT O B) ccs steps h0 acc = .ok ((accs, last), s'))
    (ho : ∀ (k : Nat) (a st : LCCCS (Fin N → F)) (p : CCCS (Fin N → F) × LFProof (Fin N → F)),
      (acc :: accs)[k]? = some a → accs[k]? = some st → steps[k]? = some p → StepOpened rd P ccs scheme κ op a p.1 p.2 st)
    (k : Nat) (a : LCCCS (Fin N → F)) (p : CCCS (Fin N → F) × LFProof (Fin N → F)) (hka : (acc :: accs)[k]? = some a)
    (hkp : steps[k]? = some p) (hbad : ¬ StepValid rd P ccs scheme op a p.1 p.2) :
    ∃ x ∈ Alg'.asked O (chainA rd P cs B ccs steps h0 acc), O x ∈ chainBad P ccs κ τ L0 op x := by
  induction steps generalizing i h0 acc accs k with
  | nil => simp at hkp
  | cons q rest ih =>
    obtain ⟨cm, proof⟩ := q
    unfold ivcVerify at hver
    simp only [bind_eq_ok, Prod.exists] at hver
    obtain ⟨st, s1, h1, accs1, last1, s2, h2, h3⟩ := hver
    simp only [Except.ok.injEq, Prod.mk.injEq] at h3
    obtain ⟨⟨rfl, rfl⟩, rfl⟩ := h3
    have ho0 := ho 0 acc st (cm, proof) rfl rfl rfl
    obtain ⟨e1, e2, e3⟩ := step_run rd P hK cs ccs scheme hS.sh κ op hop B O h0 s1 acc cm proof st ho0 h1
    have hasked : Alg'.asked O (chainA rd P cs B ccs ((cm, proof) :: rest) h0 acc)
        = Alg'.asked O (stepA P ccs (h0, acc, cm, proof)) ++ Alg'.asked O (chainA rd P cs B ccs rest s1 st) := by
      conv_lhs => unfold chainA
      rw [Alg'.asked_bind, Alg'.logged_asked, Alg'.logged_run]
      simp only
      rw [e3 _ fun x hx => Alg'.tableO_asked O 0 _ x hx]
    rw [hasked]
    cases k with
    | zero =>
      simp only [List.getElem?_cons_zero, Option.some.injEq] at hka hkp
      subst hka hkp
      obtain ⟨x, hx, hxb⟩ := step_bad rd P hK hb cs ccs scheme hS hc hcd hF κ op hop B O h0 s1 acc cm proof st ho0.fits h1 ho0.opens
        ho0.theta ho0.eta ho0.recombined hbad
      have hxl := e2 x hx
      refine ⟨x, List.mem_append_left _ hx, ?_⟩
      have hpos : 0 < stepLen P ccs κ τ := by unfold stepLen; omega
      have hdiv : (x.length - L0) / stepLen P ccs κ τ = i := by
        rw [Nat.div_eq_iff hpos]
        constructor
        · omega
        · omega
      unfold chainBad
      rw [hdiv, ← hL]
      unfold stepBad
      rcases hxb with ⟨hl, hxb⟩ | ⟨hl, hxb⟩
      · rw [if_pos hl]
        exact hxb
      · rw [if_neg (by omega)]
        exact hxb
    | succ k =>
      obtain ⟨x, hx, hxb⟩ := ih (i + 1) s1 st accs1 (by rw [e1, hL, Nat.add_mul]; omega) h2
        (fun j a b p ha hb hp => ho (j + 1) a b p ha hb hp) k hka hkp
      exact ⟨x, List.mem_append_right _ hx, hxb⟩

/-- **C95** for repeated folding: soundness of at most `n` folding steps with Fiat–Shamir challenges, the transcript being a random oracle.
An adversary with at most `Q` queries chooses the accumulator, the fresh statements and the proofs. With at most a fraction
`(Q + n (6 K - 1 + 4 s)) max(d + 1, τ, |M|, 2 b) / |F|` of all oracles all steps are accepted one after the other, with `op` opening the
commitments of the proofs consistently, but some step is not valid. -/
theorem C95_chain [Fintype F] (rd : RingData Fp F C N τ) (P : Params) (hK : 1 ≤ P.K) (hb : 1 ≤ P.bSmall) (cs : ChallengeSet C)
    (ccs : CCS (Fin N → F)) (scheme : Ajtai (Fin N → F)) (hS : SizesOK P ccs scheme) (hc : CharGt F (2 * P.bSmall))
    (hcd : CharGt F (ccs.d + 1)) (κ L0 n : Nat) (op : Commitment (Fin N → F) → Witness (Fin N → F) C)
    (hop : ∀ y, WitOK rd P (ccs.n - ccs.l - 1) (op y)) (B : History F (Fin N → F) → Nat → List UInt8)
    (A : Alg (History F (Fin N → F)) F
      (History F (Fin N → F) × LCCCS (Fin N → F) × List (CCCS (Fin N → F) × LFProof (Fin N → F)))) (Q : Nat) (hA : A.AtMost Q) :
    ∃ X0 : Finset (History F (Fin N → F)), ∀ X, X0 ⊆ X → ∀ E : History F (Fin N → F) → F,
      oracleCount X E (ChainForged rd P cs ccs scheme κ L0 n op B A)
        ≤ (Q + n * (6 * P.K - 1 + 4 * ccs.s)) * max (ccs.d + 1) (max (max τ ccs.M.length) (2 * P.bSmall))
          * Fintype.card F ^ (X.card - 1) := by
  classical
  rcases Nat.eq_zero_or_pos n with rfl | hn
  · refine ⟨∅, fun X _ E => ?_⟩
    unfold oracleCount
    rw [filter_eq_empty_iff.2]
    · simp
    · rintro o - ⟨h0, acc, steps, accs, last, s', -, -, hl, -, -, k, a, p, -, hp, -⟩
      have h1 : steps = [] := List.length_eq_zero_iff.1 (Nat.le_zero.1 hl)
      rw [h1] at hp
      simp at hp
  by_cases hF : ccs.s + max τ ccs.M.length < Fintype.card F
  · refine forgery_count A (fun out => chainA rd P cs B ccs (out.2.2.take n) out.1 out.2.1) Q (n * (6 * P.K - 1 + 4 * ccs.s)) _ hA
      (fun out => chainA_atMost rd P hK cs B ccs n _ (by simp) _ _) (chainBad P ccs κ τ L0 op) (fun h => stepBad_card P ccs κ _ op h) _ ?_
    rintro O ⟨h0, acc, steps, accs, last, s', h1, h2, h3, h4, h5, k, a, p, h6, h7, h8⟩
    rw [h1]
    simp only
    rw [List.take_of_length_le h3]
    exact chain_bad rd P hK hb cs ccs scheme hS hc hcd hF κ L0 op hop B O steps 0 h0 s' acc last accs (by omega) h4 h5 k a p h6 h7 h8
  · refine ⟨∅, fun X _ E => ?_⟩
    unfold oracleCount
    refine (card_le_univ _).trans ?_
    rw [Fintype.card_fun, Fintype.card_coe]
    set δ := max (ccs.d + 1) (max (max τ ccs.M.length) (2 * P.bSmall)) with hδ
    have h1 : max τ ccs.M.length ≤ δ := (le_max_left _ _).trans (le_max_right _ _)
    have h2 : 2 * P.bSmall ≤ δ := (le_max_right _ _).trans (le_max_right _ _)
    have h3 : Fintype.card F ≤ (Q + n * (6 * P.K - 1 + 4 * ccs.s)) * δ := by
      have h5 : 1 * (6 * P.K - 1 + 4 * ccs.s) ≤ n * (6 * P.K - 1 + 4 * ccs.s) := Nat.mul_le_mul_right _ hn
      have : (1 + ccs.s) * δ ≤ (Q + n * (6 * P.K - 1 + 4 * ccs.s)) * δ := Nat.mul_le_mul_right _ (by omega)
      have h4 : ccs.s * 1 ≤ ccs.s * δ := Nat.mul_le_mul_left _ (by omega)
      rw [Nat.add_mul, Nat.one_mul] at this
      omega
    have hpos : 1 ≤ Fintype.card F := Fintype.card_pos
    calc Fintype.card F ^ X.card ≤ Fintype.card F ^ (1 + (X.card - 1)) := Nat.pow_le_pow_right hpos (by omega)
      _ = Fintype.card F * Fintype.card F ^ (X.card - 1) := by rw [pow_add, pow_one]
      _ ≤ _ := Nat.mul_le_mul_right _ h3

/-! ## A concrete case -/

section Examples
open Verif.Example

/-- Over the field of 257 elements: an adversary with 20 queries forges one of up to three folding steps with at most 188 of 257 oracles on
every large enough domain. -/
example (L0 : Nat) (B : History (ZMod 257) C257 → Nat → List UInt8)
    (A : Alg (History (ZMod 257) C257) (ZMod 257) (History (ZMod 257) C257 × LCCCS C257 × List (CCCS C257 × LFProof C257)))
    (hA : A.AtMost 20) :
    ∃ X0 : Finset (History (ZMod 257) C257), ∀ X, X0 ⊆ X → ∀ E : History (ZMod 257) C257 → ZMod 257,
      oracleCount X E (ChainForged ring257 par257one cs257 ccs257 scheme257 2 L0 3 open257 B A) ≤ 188 * 257 ^ (X.card - 1) := by
  have h := C95_chain ring257 par257one (by decide) (by decide) cs257 ccs257 scheme257 sizes257one (charGt257 _ (by decide))
    (charGt257 _ (by decide)) 2 L0 3 open257 (fun _ => mkWit_ok ring257 par257one (wl := 1) _ rfl) B A 20 hA
  rw [ZMod.card] at h
  exact h

end Examples

end Verif.Props
