import Verif.Spec.ProofShape
import Verif.Lemmas.Parse
import Verif.Props.Nifs
import Verif.Props.Rotation
import Verif.Props.Sumcheck
import Verif.Props.ConstraintSystem
import Verif.Props.ExampleRing257

/-!
# C96: which proofs abort the verifier of the folding scheme
-/

set_option linter.unusedSectionVars false
set_option linter.unusedSimpArgs false

namespace Verif.Props

open Finset Spec Verif

/-! ## Results that are not aborts -/

theorem np_bind {α β : Type} {x : Res α} {f : α → Res β} (hx : x.isPanic = false) (hf : ∀ a, x = .ok a → (f a).isPanic = false) :
    (x >>= f).isPanic = false := by
  cases x with
  | ok a => exact hf a rfl
  | error e =>
    cases e <;> first | rfl | exact hx

theorem np_mapRes {α β : Type} {f : α → Res β} {l : List α} (h : ∀ a ∈ l, (f a).isPanic = false) : (mapRes f l).isPanic = false := by
  induction l with
  | nil => rfl
  | cons a l ih =>
    have h1 := h a (by simp)
    have h2 := ih fun b hb => h b (by simp [hb])
    simp only [mapRes]
    cases hf : f a with
    | error e =>
      rw [hf] at h1
      cases e <;> first | rfl | exact h1
    | ok b =>
      cases hm : mapRes f l with
      | error e =>
        rw [hm] at h2
        cases e <;> first | rfl | exact h2
      | ok bs => rfl

theorem np_foldRes {α β : Type} {f : β → α → Res β} {l : List α} {b : β} (h : ∀ b, ∀ a ∈ l, (f b a).isPanic = false) :
    (foldRes f b l).isPanic = false := by
  induction l generalizing b with
  | nil => rfl
  | cons a l ih =>
    have h1 := h b a (by simp)
    simp only [foldRes]
    cases hf : f b a with
    | error e =>
      rw [hf] at h1
      cases e <;> first | rfl | exact h1
    | ok b' => exact ih fun b a ha => h b a (by simp [ha])

theorem np_of_or {α : Type} {x : Res α} (h : (∃ a, x = .ok a) ∨ x = .error .sumCheckFailed) : x.isPanic = false := by
  rcases h with ⟨a, rfl⟩ | rfl <;> rfl

theorem panic_bind {α β : Type} {x : Res α} {f : α → Res β} (hx : x.isPanic = true) : (x >>= f).isPanic = true := by
  cases x with
  | ok a => cases hx
  | error e =>
    cases e <;> first | rfl | cases hx

variable {Fp F C R : Type} {N τ : Nat} [Field Fp] [Field F] [DecidableEq F] [Algebra Fp F] [CommRing C]
  [Algebra Fp C] {σ : Type}

section Generic
variable [CommRing R] [DecidableEq R] [Algebra F R]

theorem np_eqEval (x y : List R) : (eqEval x y).isPanic = false := by
  unfold eqEval
  split <;> rfl

/-- Accepted sum-checks have the right lengths. -/
theorem verify_fits (T : Transcript F R σ) (s s' : σ) (n d : Nat) (c : R) (proof : List (List R)) (sc : SubClaim F R)
    (h : verifyAsSubprotocol T s n d c proof = .ok (sc, s')) : MsgsFit n d proof := by
  by_cases hn : n = 0
  · subst hn
    exact ⟨Nat.zero_le _, by simp⟩
  by_cases hl : n ≤ proof.length
  · refine ⟨hl, ?_⟩
    rw [verify_eq T s n d hn c proof hl, bind_eq_ok] at h
    obtain ⟨e, he, -⟩ := h
    exact checkRec_length _ _ _ _ _ he (drawRun_length T _ _)
  · rw [verify_short T s n d c proof (by omega)] at h
    cases h

/-- Decompositions: no abort if the lengths fit. -/
theorem np_decVerify (P : Params) (T : Transcript F R σ) (s : σ) (cmi : LCCCS R) (d : DecProof R)
    (hb : ∀ k < P.K, P.bSmall ^ k < 2 ^ 128) (h : DecLens P.K d) : (decVerify P T s cmi d).isPanic = false := by
  have hrec : ∀ (vs : List (List R)) (bs : List R), RowsFit P.K vs → bs.length = P.K → (recomposeVecs vs bs).isPanic = false := by
    intro vs bs hv hbs
    unfold recomposeVecs
    cases vs with
    | nil => rfl
    | cons v0 vs =>
      refine np_mapRes fun j hj => np_foldRes fun acc p hp => np_bind ?_ fun _ _ => rfl
      obtain ⟨k, hk, rfl⟩ := List.mem_iff_getElem.1 hp
      have hj := List.mem_range.1 hj
      rw [List.length_zip, hbs] at hk
      have h1 := hv k (by omega)
      rw [List.getD_eq_getElem?_getD, List.getD_eq_getElem?_getD, List.getElem?_eq_getElem (i := k) (by omega)] at h1
      rw [List.getElem_zip]
      rw [idx_ok (lt_of_lt_of_le hj (by simpa using h1))]
      rfl
  unfold decVerify
  refine np_bind ?_ fun _ _ => ?_
  · unfold decPieces
    refine np_foldRes fun acc p _ => ?_
    unfold decPiece
    simp only
    split <;> rfl
  rw [(calculateBs_iff P _).2 ⟨hb, rfl⟩]
  simp only [bind_ok']
  refine np_bind ?_ fun _ _ => ?_
  · unfold recomposeCommitment
    split <;> rfl
  split
  · rfl
  refine np_bind (hrec _ _ h.v (by simp)) fun _ _ => ?_
  split
  · rfl
  refine np_bind (hrec _ _ h.u (by simp)) fun _ _ => ?_
  split
  · rfl
  refine np_bind (hrec _ _ h.x (by simp)) fun _ _ => ?_
  refine np_bind ?_ fun _ _ => ?_
  · unfold popLast
    split <;> rfl
  split
  · rfl
  split <;> rfl

/-- Accepted decompositions have fitting lengths, and as many pieces are returned as there are in the proof. -/
theorem dec_fits (P : Params) (T : Transcript F R σ) (s s' : σ) (cmi : LCCCS R) (d : DecProof R) (l : List (LCCCS R))
    (h : decVerify P T s cmi d = .ok (l, s')) : DecLens P.K d ∧ l.length = pieceCount d := by
  obtain ⟨-, -, h1, h2, h3, -, rfl, -⟩ := (C31_verify_iff P T s s' cmi d l).1 h
  refine ⟨⟨?_, ?_, ?_⟩, ?_⟩
  · intro k hk
    rw [← h1.2.1]
    exact h1.2.2.1 k hk
  · intro k hk
    rw [← h2.2.1]
    exact h2.2.2.1 k hk
  · intro k hk
    rw [← h3.2.1]
    exact h3.2.2.1 k hk
  · simp [pieceCount]

/-- Linearization: no abort if the lengths fit. -/
theorem np_linVerify (T : Transcript F R σ) (s : σ) (cm : CCCS R) (proof : LinProof R) (ccs : CCS R) (hs : ccs.s ≠ 0)
    (hc : CharGt F (ccs.d + 1)) (hCS : ccs.c.length ≤ ccs.S.length) (hm : MsgsFit ccs.s (ccs.d + 1) proof.sumcheck)
    (hu : ∀ k < ccs.c.length, ∀ j ∈ ccs.S.getD k [], j < proof.u.length) : (linVerify T s cm proof ccs).isPanic = false := by
  unfold linVerify
  simp only
  refine np_bind (np_of_or ?_) fun _ _ => ?_
  · rcases C25_total_on_shaped_proofs_partial T (squeezeBeta T s ccs.s).2 ccs.s (ccs.d + 1) hs (by omega) hc 0 proof.sumcheck hm.1 hm.2
      with ⟨sc, s', h⟩ | h
    · exact .inl ⟨_, h⟩
    · exact .inr h
  refine np_bind (np_eqEval _ _) fun _ _ => np_bind ?_ fun _ _ => ?_
  · unfold linClaim
    refine np_bind (np_mapRes fun ci hci => ?_) fun _ _ => rfl
    have hk : ci.2 < ccs.c.length := by
      have := List.snd_lt_of_mem_zipIdx hci
      simpa using this
    rw [idx_ok (lt_of_lt_of_le hk hCS)]
    simp only [bind_ok']
    refine np_bind (np_mapRes fun j hj => ?_) fun _ _ => rfl
    rw [idx_ok (hu ci.2 hk j (by rwa [List.getD_eq_getElem?_getD, List.getElem?_eq_getElem (lt_of_lt_of_le hk hCS)]))]
    rfl
  · split <;> rfl

/-- Accepted linearization proofs have fitting lengths. -/
theorem lin_fits (T : Transcript F R σ) (s s' : σ) (cm : CCCS R) (proof : LinProof R) (ccs : CCS R) (st : LCCCS R)
    (h : linVerify T s cm proof ccs = .ok (st, s')) : MsgsFit ccs.s (ccs.d + 1) proof.sumcheck ∧
      ∀ k < ccs.c.length, ∀ j ∈ ccs.S.getD k [], j < proof.u.length := by
  unfold linVerify at h
  simp only [bind_eq_ok] at h
  obtain ⟨⟨sc, s2⟩, h1, e, -, claim, h2, -⟩ := h
  refine ⟨verify_fits _ _ _ _ _ _ _ _ h1, ?_⟩
  unfold linClaim at h2
  rw [bind_eq_ok] at h2
  obtain ⟨ts, h2, -⟩ := h2
  rw [mapRes_eq_ok_iff] at h2
  intro k hk j hj
  have hk' : k < ccs.c.zipIdx.length := by simpa using hk
  have h3 := (List.forall₂_iff_get.1 h2).2 k hk' (by rw [← h2.length_eq]; exact hk')
  simp only [List.get_eq_getElem, List.getElem_zipIdx, Nat.zero_add, bind_eq_ok, idx_eq_ok] at h3
  obtain ⟨Si, h4, us, h5, -⟩ := h3
  rw [List.getD_eq_getElem?_getD, h4, Option.getD_some] at hj
  rw [mapRes_eq_ok_iff] at h5
  obtain ⟨i, hi, rfl⟩ := List.mem_iff_getElem.1 hj
  have h6 := (List.forall₂_iff_get.1 h5).2 i hi (by rw [← h5.length_eq]; exact hi)
  rw [idx_eq_ok, List.get_eq_getElem] at h6
  exact (List.getElem?_eq_some_iff.1 h6).1

/-- The expected value of the folding verifier is defined if there are enough entries. -/
theorem expectedValue_defined (P : Params) (alpha mu : List R) (theta : List (List R)) (eStar : R) (es zeta : List R) (eta : List (List R))
    (h1 : 2 * P.K ≤ alpha.length) (h2 : 2 * P.K ≤ mu.length) (h3 : 2 * P.K ≤ theta.length) (h4 : 2 * P.K ≤ es.length)
    (h5 : 2 * P.K ≤ zeta.length) (h6 : 2 * P.K ≤ eta.length) : (expectedValue P alpha mu theta eStar es zeta eta).isPanic = false := by
  unfold expectedValue
  refine np_bind (np_mapRes fun i hi => ?_) fun _ _ => rfl
  have hi := List.mem_range.1 hi
  unfold expectedSummand
  rw [idx_ok (by omega), idx_ok (by omega), idx_ok (by omega), idx_ok (by omega), idx_ok (by omega), idx_ok (by omega)]
  rfl

/-- If the expected value is defined, there are enough entries. -/
theorem expectedValue_fits (P : Params) (hK : 1 ≤ P.K) (alpha mu : List R) (theta : List (List R)) (eStar : R) (es zeta : List R)
    (eta : List (List R)) (x : R) (h : expectedValue P alpha mu theta eStar es zeta eta = .ok x) :
    2 * P.K ≤ theta.length ∧ 2 * P.K ≤ es.length ∧ 2 * P.K ≤ eta.length := by
  unfold expectedValue at h
  rw [bind_eq_ok] at h
  obtain ⟨ts, h, -⟩ := h
  rw [mapRes_eq_ok_iff] at h
  have hl : 2 * P.K - 1 < (List.range (2 * P.K)).length := by rw [List.length_range]; omega
  have h3 := (List.forall₂_iff_get.1 h).2 (2 * P.K - 1) hl (by rw [← h.length_eq]; exact hl)
  unfold expectedSummand at h3
  simp only [List.get_eq_getElem, List.getElem_range, bind_eq_ok, idx_eq_ok] at h3
  obtain ⟨a, -, th, q1, e, q2, m, -, z, -, et, q3, -⟩ := h3
  have := (List.getElem?_eq_some_iff.1 q1).1
  have := (List.getElem?_eq_some_iff.1 q2).1
  have := (List.getElem?_eq_some_iff.1 q3).1
  omega

end Generic

/-- Folding: no abort if the lengths fit. -/
theorem np_foldVerify (rd : RingData Fp F C N τ) (P : Params) (cs : ChallengeSet C) (T : Transcript F (Fin N → F) σ)
    (s : σ) (cms : List (LCCCS (Fin N → F))) (proof : FoldProof (Fin N → F)) (ccs : CCS (Fin N → F)) (hK : 1 ≤ P.K) (hb : 1 ≤ P.bSmall)
    (hn : ccs.l + 1 ≤ ccs.n) (hs : ccs.s ≠ 0) (hc : CharGt F (2 * P.bSmall)) (hT : ∀ s n, (T.bytes s n).1.length = n)
    (hcs : ∀ bs, bs.length = cs.bytesNeeded → ∃ c, cs.decode bs = .ok c) (hcms : 2 * P.K ≤ cms.length)
    (hm : MsgsFit ccs.s (2 * P.bSmall) proof.sumcheck) (hth : proof.thetaS.length = 2 * P.K) (ht : ∀ t ∈ proof.thetaS, t.length = τ)
    (het : 2 * P.K ≤ proof.etaS.length) : (foldVerify rd P cs T s cms proof ccs).isPanic = false := by
  unfold foldVerify
  refine np_bind ?_ fun _ _ => ?_
  · have := (C14_guard_exact ccs P.L).2.1
    rw [← Bool.not_eq_true, this]
    omega
  obtain ⟨al, ze, mu, beta, s1, hsq, hmu, -, -⟩ := squeezeFold_ok P hK T s ccs.s
  rw [hsq]
  simp only [bind_ok']
  refine np_bind (np_of_or ?_) fun sc _ => ?_
  · rcases C25_total_on_shaped_proofs_partial T s1 ccs.s (2 * P.bSmall) hs (by omega) hc
      (foldClaims ((List.range (2 * P.K)).map al) ((List.range (2 * P.K)).map ze) cms) proof.sumcheck hm.1 hm.2 with ⟨sc, s', h⟩ | h
    · exact .inl ⟨_, h⟩
    · exact .inr h
  refine np_bind (np_eqEval _ _) fun _ _ => ?_
  refine np_bind (np_mapRes fun _ _ => np_eqEval _ _) fun es hes => ?_
  have hel := mapRes_length hes
  rw [List.length_map] at hel
  refine np_bind (expectedValue_defined P _ _ _ _ _ _ _ (by simp) (by omega) (by omega) (by omega) (by simp) het) fun _ _ => ?_
  split
  · rfl
  obtain ⟨rho, s', hrho, -⟩ := getRhos_ok rd P hK cs T hT hcs (proof.etaS.foldl T.absorbSlice (proof.thetaS.foldl T.absorbSlice sc.2))
  rw [hrho]
  simp only [bind_ok']
  refine np_bind ?_ fun _ _ => np_bind ?_ fun _ _ => rfl
  · unfold computeFolded
    obtain ⟨v, hv⟩ := (C43_defined_iff rd ((List.range (2 * P.K)).map rho) proof.thetaS).1.2
      ⟨by simp [hth], fun h => by rw [h] at hth; simp at hth; omega, ht⟩
    rw [hv]
    rfl
  · unfold foldOutput
    split <;> rfl

/-- Accepted folding proofs have fitting lengths. -/
theorem fold_fits (rd : RingData Fp F C N τ) (P : Params) (cs : ChallengeSet C) (T : Transcript F (Fin N → F) σ)
    (s s' : σ) (cms : List (LCCCS (Fin N → F))) (proof : FoldProof (Fin N → F)) (ccs : CCS (Fin N → F)) (st : LCCCS (Fin N → F))
    (hK : 1 ≤ P.K) (hT : ∀ s n, (T.bytes s n).1.length = n)
    (hcs : ∀ bs, bs.length = cs.bytesNeeded → ∃ c, cs.decode bs = .ok c)
    (h : foldVerify rd P cs T s cms proof ccs = .ok (st, s')) :
    2 * P.K ≤ cms.length ∧ MsgsFit ccs.s (2 * P.bSmall) proof.sumcheck ∧ proof.thetaS.length = 2 * P.K ∧
      (∀ t ∈ proof.thetaS, t.length = τ) ∧ 2 * P.K ≤ proof.etaS.length := by
  unfold foldVerify at h
  simp only [bind_eq_ok] at h
  obtain ⟨-, -, ⟨ch, s1⟩, -, ⟨sc, s2⟩, h1, eStar, -, es, h2, x, h3, h⟩ := h
  have hel := mapRes_length h2
  rw [List.length_map] at hel
  obtain ⟨-, q2, q3⟩ := expectedValue_fits P hK _ _ _ _ _ _ _ _ h3
  split at h
  · cases h
  obtain ⟨rho, s3, hrho, -⟩ := getRhos_ok rd P hK cs T hT hcs (proof.etaS.foldl T.absorbSlice (proof.thetaS.foldl T.absorbSlice s2))
  rw [hrho] at h
  simp only [bind_ok', bind_eq_ok] at h
  obtain ⟨out, h4, -⟩ := h
  unfold computeFolded at h4
  rw [bind_eq_ok] at h4
  obtain ⟨v, h5, -⟩ := h4
  obtain ⟨q4, -, q5⟩ := (C43_defined_iff rd ((List.range (2 * P.K)).map rho) proof.thetaS).1.1 ⟨v, h5⟩
  exact ⟨by omega, verify_fits _ _ _ _ _ _ _ _ h1, by rw [← q4]; simp, q5, q3⟩

/-- **C96** (partial): lengths alone decide. If the lengths of the vectors in a proof fit, the verifier of the folding scheme does not abort:
it accepts or returns an error, for all accumulators, fresh statements and transcripts. Missing for the full property: proofs of other
lengths, for which it is false (`C96_aborts`). -/
theorem C96_no_abort_partial (rd : RingData Fp F C N τ) (P : Params) (cs : ChallengeSet C) (T : Transcript F (Fin N → F) σ)
    (s : σ) (acc : LCCCS (Fin N → F)) (cm : CCCS (Fin N → F)) (proof : LFProof (Fin N → F)) (ccs : CCS (Fin N → F))
    (hK : 1 ≤ P.K) (hb : 1 ≤ P.bSmall) (hb128 : ∀ k < P.K, P.bSmall ^ k < 2 ^ 128)
    (hn : ccs.l + 1 ≤ ccs.n) (hs : ccs.s ≠ 0) (hCS : ccs.c.length ≤ ccs.S.length)
    (hc : CharGt F (2 * P.bSmall)) (hd : CharGt F (ccs.d + 1)) (hT : ∀ s n, (T.bytes s n).1.length = n)
    (hcs : ∀ bs, bs.length = cs.bytesNeeded → ∃ c, cs.decode bs = .ok c) (h : ProofLens P ccs τ proof) :
    (nifsVerify rd P cs T s acc cm proof ccs).isPanic = false := by
  unfold nifsVerify
  refine np_bind ?_ fun _ _ => ?_
  · have := (C14_guard_exact ccs P.L).2.1
    rw [← Bool.not_eq_true, this]
    omega
  refine np_bind (np_linVerify T _ cm proof.lin ccs hs hd hCS h.linMsgs h.linU) fun lin _ => ?_
  refine np_bind (np_decVerify P T _ acc proof.decL hb128 h.decL) fun l hl => ?_
  refine np_bind (np_decVerify P T _ lin.1 proof.decR hb128 h.decR) fun r hr => ?_
  have h1 := (dec_fits P T _ l.2 acc proof.decL l.1 hl).2
  have h2 := (dec_fits P T _ r.2 lin.1 proof.decR r.1 hr).2
  exact np_foldVerify rd P cs T _ _ proof.fold ccs hK hb hn hs hc hT hcs (by rw [List.length_append, h1, h2]; exact h.pieces) h.foldMsgs
    h.thetas h.theta h.etas

/-- **C96**: every accepted proof has fitting lengths, so a check of the lengths before verification excludes all aborts and no
acceptable proof. -/
theorem C96_accepted_fits (rd : RingData Fp F C N τ) (P : Params) (cs : ChallengeSet C) (T : Transcript F (Fin N → F) σ)
    (s s' : σ) (acc st : LCCCS (Fin N → F)) (cm : CCCS (Fin N → F)) (proof : LFProof (Fin N → F)) (ccs : CCS (Fin N → F))
    (hK : 1 ≤ P.K) (hT : ∀ s n, (T.bytes s n).1.length = n)
    (hcs : ∀ bs, bs.length = cs.bytesNeeded → ∃ c, cs.decode bs = .ok c)
    (h : nifsVerify rd P cs T s acc cm proof ccs = .ok (st, s')) : ProofLens P ccs τ proof := by
  obtain ⟨-, lin, s1, l, s2, r, s3, h1, h2, h3, h4⟩ := (nifsVerify_iff rd P cs T s s' acc st cm proof ccs).1 h
  obtain ⟨a1, a2⟩ := lin_fits _ _ _ _ _ _ _ h1
  obtain ⟨b1, b2⟩ := dec_fits _ _ _ _ _ _ _ h2
  obtain ⟨c1, c2⟩ := dec_fits _ _ _ _ _ _ _ h3
  obtain ⟨d1, d2, d3, d4, d5⟩ := fold_fits rd P cs T _ _ _ _ ccs st hK hT hcs h4
  exact ⟨a1, a2, b1, c1, by rw [← b2, ← c2, ← List.length_append]; exact d1, d2, d3, d4, d5⟩

/-! ## Aborts -/

theorem mapRes_panic {α β : Type} {f : α → Res β} {l : List α} (h : ∀ a ∈ l, (∃ b, f a = .ok b) ∨ (f a).isPanic = true)
    (hp : ∃ a ∈ l, (f a).isPanic = true) : (mapRes f l).isPanic = true := by
  induction l with
  | nil => obtain ⟨a, ha, -⟩ := hp; cases ha
  | cons a l ih =>
    simp only [mapRes]
    rcases h a (by simp) with ⟨b, hb⟩ | hb
    · obtain ⟨a', ha', hp⟩ := hp
      rcases List.mem_cons.1 ha' with rfl | ha'
      · rw [hb] at hp; cases hp
      · have h2 := ih (fun b hb => h b (by simp [hb])) ⟨a', ha', hp⟩
        rw [hb]
        cases hm : mapRes f l with
        | error e =>
          rw [hm] at h2
          cases e <;> first | rfl | cases h2
        | ok bs => rw [hm] at h2; cases h2
    · cases hf : f a with
      | error e =>
        rw [hf] at hb
        cases e <;> first | rfl | cases hb
      | ok b => rw [hf] at hb; cases hb

theorem foldRes_panic {α β : Type} {f : β → α → Res β} {l : List α} {b : β}
    (h : ∀ b, ∀ a ∈ l, (∃ b', f b a = .ok b') ∨ (f b a).isPanic = true)
    (hp : ∃ a ∈ l, ∀ b, (f b a).isPanic = true) : (foldRes f b l).isPanic = true := by
  induction l generalizing b with
  | nil => obtain ⟨a, ha, -⟩ := hp; cases ha
  | cons a l ih =>
    simp only [foldRes]
    rcases h b a (by simp) with ⟨b', hb⟩ | hb
    · obtain ⟨a', ha', hp⟩ := hp
      rcases List.mem_cons.1 ha' with rfl | ha'
      · have := hp b
        rw [hb] at this; cases this
      · rw [hb]
        exact ih (fun b a ha => h b a (by simp [ha])) ⟨a', ha', hp⟩
    · cases hf : f b a with
      | error e =>
        rw [hf] at hb
        cases e <;> first | rfl | cases hb
      | ok b => rw [hf] at hb; cases hb

theorem mapRes_congr' {α β : Type} {f g : α → Res β} {l : List α} (h : ∀ a ∈ l, f a = g a) : mapRes f l = mapRes g l := by
  induction l with
  | nil => rfl
  | cons a l ih =>
    simp only [mapRes]
    rw [h a (by simp), ih fun b hb => h b (by simp [hb])]

theorem idx_or {α : Type} (site : String) (l : List α) (i : Nat) : (∃ a, idx site l i = .ok a) ∨ (idx site l i).isPanic = true := by
  unfold idx
  cases l[i]? with
  | some a => exact .inl ⟨a, rfl⟩
  | none => exact .inr rfl

theorem or_bind {α β : Type} {x : Res α} {f : α → Res β} (hx : (∃ a, x = .ok a) ∨ x.isPanic = true)
    (hf : ∀ a, (∃ b, f a = .ok b) ∨ (f a).isPanic = true) : (∃ b, (x >>= f) = .ok b) ∨ (x >>= f).isPanic = true := by
  rcases hx with ⟨a, rfl⟩ | hx
  · exact hf a
  · exact .inr (panic_bind hx)

section Generic
variable [CommRing R] [DecidableEq R] [Algebra F R]

/-- The recomposition aborts if a vector among the first `K` is too short. -/
theorem recomposeVecs_panic (vs : List (List R)) (bs : List R) (h : ¬ RowsFit bs.length vs) : (recomposeVecs vs bs).isPanic = true := by
  unfold RowsFit at h
  push Not at h
  obtain ⟨k, hk, h⟩ := h
  cases vs with
  | nil => simp at hk
  | cons v0 vs =>
    unfold recomposeVecs
    simp only
    refine mapRes_panic (fun j _ => ?_) ⟨((v0 :: vs).getD k []).length, List.mem_range.2 h, ?_⟩
    · have key : ∀ (l : List (List R × R)) (b : R), (∃ b', foldRes (fun acc (p : List R × R) => do
          let x ← idx "s_i[j]" p.1 j
          .ok (acc + x * p.2)) b l = .ok b') ∨ (foldRes (fun acc (p : List R × R) => do
          let x ← idx "s_i[j]" p.1 j
          .ok (acc + x * p.2)) b l).isPanic = true := by
        intro l
        induction l with
        | nil => exact fun b => .inl ⟨b, rfl⟩
        | cons p l ih =>
          intro b
          simp only [foldRes]
          rcases idx_or "s_i[j]" p.1 j with ⟨x, hx⟩ | hx
          · rw [hx]
            exact ih _
          · have := panic_bind (f := fun x => (.ok (b + x * p.2) : Res R)) hx
            cases hf : (idx "s_i[j]" p.1 j >>= fun x => (.ok (b + x * p.2) : Res R)) with
            | ok y => rw [hf] at this; cases this
            | error e =>
              rw [hf] at this
              refine .inr ?_
              cases e <;> first | rfl | cases this
      exact key _ _
    · refine foldRes_panic (fun b p _ => or_bind (idx_or _ _ _) fun x => .inl ⟨_, rfl⟩)
        ⟨((v0 :: vs).getD k [], bs.getD k 0), ?_, fun b => panic_bind ?_⟩
      · have h1 : k < (v0 :: vs).length := by omega
        have h2 : k < bs.length := by omega
        rw [List.mem_iff_getElem]
        refine ⟨k, by rw [List.length_zip]; omega, ?_⟩
        rw [List.getElem_zip, List.getD_eq_getElem?_getD, List.getD_eq_getElem?_getD, List.getElem?_eq_getElem h1,
          List.getElem?_eq_getElem h2]
        rfl
      · rw [idx_error le_rfl]
        rfl

/-- The final check of the folding verifier aborts if entries are missing. -/
theorem expectedValue_panic (P : Params) (alpha mu : List R) (theta : List (List R)) (eStar : R) (es zeta : List R) (eta : List (List R))
    (h : theta.length < 2 * P.K ∨ eta.length < 2 * P.K) : (expectedValue P alpha mu theta eStar es zeta eta).isPanic = true := by
  unfold expectedValue
  refine panic_bind (mapRes_panic (fun i _ => ?_) ?_)
  · unfold expectedSummand
    exact or_bind (idx_or _ _ _) fun _ => or_bind (idx_or _ _ _) fun _ => or_bind (idx_or _ _ _) fun _ => or_bind (idx_or _ _ _) fun _ =>
      or_bind (idx_or _ _ _) fun _ => or_bind (idx_or _ _ _) fun _ => .inl ⟨_, rfl⟩
  · refine ⟨2 * P.K - 1, List.mem_range.2 (by omega), ?_⟩
    rcases or_bind (idx_or "alpha_s[i]" alpha (2 * P.K - 1)) (f := fun _ => expectedSummand P alpha mu theta eStar es zeta eta (2 * P.K - 1))
      (fun _ => by
        unfold expectedSummand
        exact or_bind (idx_or _ _ _) fun _ => or_bind (idx_or _ _ _) fun _ => or_bind (idx_or _ _ _) fun _ => or_bind (idx_or _ _ _) fun _ =>
          or_bind (idx_or _ _ _) fun _ => or_bind (idx_or _ _ _) fun _ => .inl ⟨_, rfl⟩) with ⟨b, hb⟩ | hb
    · rw [bind_eq_ok] at hb
      obtain ⟨-, -, hb⟩ := hb
      exfalso
      unfold expectedSummand at hb
      simp only [bind_eq_ok, idx_eq_ok] at hb
      obtain ⟨a, -, th, q1, e, -, m, -, z, -, et, q3, -⟩ := hb
      have := (List.getElem?_eq_some_iff.1 q1).1
      have := (List.getElem?_eq_some_iff.1 q3).1
      omega
    · rcases idx_or "alpha_s[i]" alpha (2 * P.K - 1) with ⟨a, ha⟩ | ha
      · rw [ha] at hb
        exact hb
      · unfold expectedSummand
        exact panic_bind ha

theorem expectedValue_extra (P : Params) (alpha mu : List R) (theta : List (List R)) (eStar : R) (es zeta : List R) (eta : List (List R))
    (t : List R) (h : theta.length = 2 * P.K) :
    expectedValue P alpha mu (theta ++ [t]) eStar es zeta eta = expectedValue P alpha mu theta eStar es zeta eta := by
  unfold expectedValue
  rw [mapRes_congr' (g := expectedSummand P alpha mu theta eStar es zeta eta)]
  intro i hi
  have hi := List.mem_range.1 hi
  unfold expectedSummand
  have : idx "theta_s[i]" (theta ++ [t]) i = idx "theta_s[i]" theta i := by
    unfold idx
    rw [List.getElem?_append_left (by omega)]
  rw [this]

end Generic

/-- **C96 is false**: an accepted proof with the lengths of one component changed aborts the verifier, with the same transcript,
accumulator and fresh statement. It aborts if one of the sum-check proofs has too few messages, if `u` of the linearization is too short for
the constraint system, if a vector of the left decomposition is shorter than the first one, and if the folding proof has too few or too many
`theta` or too few `eta`. -/
theorem C96_aborts (rd : RingData Fp F C N τ) (P : Params) (cs : ChallengeSet C) (T : Transcript F (Fin N → F) σ)
    (s s' : σ) (acc st : LCCCS (Fin N → F)) (cm : CCCS (Fin N → F)) (proof : LFProof (Fin N → F)) (ccs : CCS (Fin N → F))
    (hK : 1 ≤ P.K) (hT : ∀ s n, (T.bytes s n).1.length = n)
    (hcs : ∀ bs, bs.length = cs.bytesNeeded → ∃ c, cs.decode bs = .ok c)
    (h : nifsVerify rd P cs T s acc cm proof ccs = .ok (st, s')) :
    (∀ msgs : List (List (Fin N → F)), msgs.length < ccs.s →
      (nifsVerify rd P cs T s acc cm { proof with lin := { proof.lin with sumcheck := msgs } } ccs).isPanic = true) ∧
    (∀ u : List (Fin N → F), (∃ k < ccs.c.length, ∃ j ∈ ccs.S.getD k [], u.length ≤ j) →
      (nifsVerify rd P cs T s acc cm { proof with lin := { proof.lin with u := u } } ccs).isPanic = true) ∧
    (∀ vs : List (List (Fin N → F)), vs.length = proof.decL.vS.length →
      (∃ k < min P.K vs.length, (vs.getD k []).length < (vs.getD 0 []).length) →
      (nifsVerify rd P cs T s acc cm { proof with decL := { proof.decL with vS := vs } } ccs).isPanic = true) ∧
    (∀ msgs : List (List (Fin N → F)), msgs.length < ccs.s →
      (nifsVerify rd P cs T s acc cm { proof with fold := { proof.fold with sumcheck := msgs } } ccs).isPanic = true) ∧
    (∀ theta : List (List (Fin N → F)), theta.length < 2 * P.K →
      (nifsVerify rd P cs T s acc cm { proof with fold := { proof.fold with thetaS := theta } } ccs).isPanic = true) ∧
    (∀ t : List (Fin N → F),
      (nifsVerify rd P cs T s acc cm { proof with fold := { proof.fold with thetaS := proof.fold.thetaS ++ [t] } } ccs).isPanic = true) ∧
    (∀ eta : List (List (Fin N → F)), eta.length < 2 * P.K →
      (nifsVerify rd P cs T s acc cm { proof with fold := { proof.fold with etaS := eta } } ccs).isPanic = true) := by
  have hlens := C96_accepted_fits rd P cs T s s' acc st cm proof ccs hK hT hcs h
  obtain ⟨hsan, lin, s1, l, s2, r, s3, h1, h2, h3, h4⟩ := (nifsVerify_iff rd P cs T s s' acc st cm proof ccs).1 h
  have hfold : ∀ f : FoldProof (Fin N → F), (foldVerify rd P cs T s3 (l ++ r) f ccs).isPanic = true →
      (nifsVerify rd P cs T s acc cm { proof with fold := f } ccs).isPanic = true := by
    intro f hf
    unfold nifsVerify
    simp only [hsan, bind_ok', h1, h2, h3]
    exact hf
  unfold foldVerify at h4
  simp only [bind_eq_ok, hsan] at h4
  obtain ⟨-, -, ⟨ch, t1⟩, g1, ⟨sc, t2⟩, g2, eStar, g3, es, g4, x, g5, g6⟩ := h4
  refine ⟨?_, ?_, ?_, ?_, ?_, ?_, ?_⟩
  · intro msgs hm
    unfold nifsVerify
    simp only [hsan, bind_ok']
    refine panic_bind ?_
    unfold linVerify
    simp only
    rw [verify_short _ _ _ _ _ _ hm]
    rfl
  · rintro u ⟨k, hk, j, hj, hu⟩
    unfold nifsVerify
    simp only [hsan, bind_ok']
    refine panic_bind ?_
    unfold linVerify at h1 ⊢
    simp only [bind_eq_ok] at h1
    obtain ⟨⟨sc', t'⟩, q1, e, q2, -⟩ := h1
    simp only [q1, bind_ok', q2]
    refine panic_bind ?_
    unfold linClaim
    refine panic_bind (mapRes_panic (fun ci _ => or_bind (idx_or _ _ _) fun Si => or_bind ?_ fun _ => .inl ⟨_, rfl⟩) ?_)
    · by_cases hp : ∃ j ∈ Si, (idx "proof.u[j]" u j).isPanic = true
      · exact .inr (mapRes_panic (fun j _ => idx_or _ _ _) hp)
      · push Not at hp
        refine .inl ⟨Si.map fun j => u.getD j 0, mapRes_ok fun j hj => ?_⟩
        rcases idx_or "proof.u[j]" u j with ⟨a, ha⟩ | ha
        · rw [ha, List.getD_eq_getElem?_getD, idx_eq_ok.1 ha]
          rfl
        · exact absurd ha (hp j hj)
    · refine ⟨(ccs.c[k], k), ?_, ?_⟩
      · rw [List.mem_iff_getElem]
        exact ⟨k, by simpa using hk, by simp⟩
      · have hS : k < ccs.S.length := by
          by_contra hn
          rw [List.getD_eq_default _ _ (by omega)] at hj
          cases hj
        rw [idx_ok hS]
        simp only [bind_ok']
        refine panic_bind (mapRes_panic (fun j _ => idx_or _ _ _) ⟨j, ?_, ?_⟩)
        · rwa [List.getD_eq_getElem?_getD, List.getElem?_eq_getElem hS] at hj
        · rw [idx_error hu]
          rfl
  · rintro vs hvs ⟨k, hk, hlt⟩
    unfold nifsVerify
    simp only [hsan, bind_ok', h1]
    refine panic_bind ?_
    unfold decVerify at h2 ⊢
    simp only [bind_eq_ok] at h2
    obtain ⟨⟨l', t'⟩, q1, bs, q2, y, q3, h2⟩ := h2
    split at h2
    · cases h2
    rename_i hy
    obtain ⟨p1, -, -⟩ := (decPieces_iff T s1 acc.r proof.decL l' t').1 q1
    have p2 := (decPieces_iff T s1 acc.r { proof.decL with vS := vs } _ _).2 ⟨by
      intro p hp
      simp only at hp
      obtain ⟨i, hi, rfl⟩ := List.mem_iff_getElem.1 hp
      rw [List.length_zip] at hi
      have := p1 ((((proof.decL.xS.zip proof.decL.yS).zip proof.decL.uS).zip proof.decL.vS)[i]'(by
        rw [List.length_zip, ← hvs]; exact hi)) (List.getElem_mem _)
      simpa only [List.getElem_zip] using this, rfl, rfl⟩
    simp only [p2, bind_ok', q2, q3]
    rw [if_neg hy]
    have hbs : bs.length = P.K := by
      rw [((calculateBs_iff P bs).1 q2).2]
      simp
    refine panic_bind (recomposeVecs_panic _ _ ?_)
    intro hr
    have := hr k (by rw [hbs]; exact hk)
    omega
  · intro msgs hm
    refine hfold _ ?_
    unfold foldVerify
    simp only [hsan, bind_ok', g1]
    rw [verify_short _ _ _ _ _ _ hm]
    rfl
  · intro theta ht
    refine hfold _ ?_
    unfold foldVerify
    simp only [hsan, bind_ok', g1, g2, g3, g4]
    exact panic_bind (expectedValue_panic P _ _ _ _ _ _ _ (.inl ht))
  · intro t
    refine hfold _ ?_
    unfold foldVerify
    simp only [hsan, bind_ok', g1, g2, g3, g4]
    rw [expectedValue_extra P _ _ _ _ _ _ _ t hlens.thetas, g5]
    simp only [bind_ok']
    split at g6
    · cases g6
    · rename_i hx
      rw [if_neg hx]
      obtain ⟨rho, s4, hrho, -⟩ := getRhos_ok rd P hK cs T hT hcs
        (proof.fold.etaS.foldl T.absorbSlice ((proof.fold.thetaS ++ [t]).foldl T.absorbSlice t2))
      rw [hrho]
      simp only [bind_ok']
      refine panic_bind ?_
      unfold computeFolded
      refine panic_bind ((C43_defined_iff rd _ _).2 fun hv => ?_)
      have := ((C43_defined_iff rd _ _).1.1 hv).1
      simp [hlens.thetas] at this
  · intro eta ht
    refine hfold _ ?_
    unfold foldVerify
    simp only [hsan, bind_ok', g1, g2, g3, g4]
    exact panic_bind (expectedValue_panic P _ _ _ _ _ _ _ (.inr ht))

/-! ## A concrete case -/

section Examples
open Verif.Example

/-- Over the field of 257 elements, with every transcript whose byte requests have the right length: there is an accepted proof, its lengths
fit, without its last `theta` it aborts the verifier, and so it does with an empty vector among the evaluations of the left
decomposition. -/
example (T : Transcript (ZMod 257) C257 σ) (s : σ) (hT : ∀ s n, (T.bytes s n).1.length = n) :
    ∃ st proof s', nifsVerify ring257 par257 cs257 T s (acc257 ![7] ![4] ![9] (wit257 ![100] ![33])) fresh257 proof ccs257 = .ok (st, s') ∧
      ProofLens par257 ccs257 1 proof ∧
      (nifsVerify ring257 par257 cs257 T s (acc257 ![7] ![4] ![9] (wit257 ![100] ![33])) fresh257
        { proof with fold := { proof.fold with thetaS := proof.fold.thetaS.dropLast } } ccs257).isPanic = true ∧
      (nifsVerify ring257 par257 cs257 T s (acc257 ![7] ![4] ![9] (wit257 ![100] ![33])) fresh257
        { proof with decL := { proof.decL with vS := [[![1]], []] } } ccs257).isPanic = true := by
  obtain ⟨st, w', proof, s', -, h1, -, h2, -⟩ := C39_nifs_complete ring257 par257 cs257 T s ccs257 scheme257
    (acc257 ![7] ![4] ![9] (wit257 ![100] ![33])) _ fresh257 _
    par257_ok sizes257 rfl aligned257 (charGt257 _ (by decide)) (charGt257 _ (by decide)) hT cs257_ok
    (acc257_holds _ _ _ _ _) (fun _ _ _ => reach257 _) fresh257_holds
  have hl := C96_accepted_fits ring257 par257 cs257 T s s' _ st fresh257 proof ccs257 (by decide) hT cs257_ok h1
  obtain ⟨-, -, a1, -, a2, -, -⟩ := C96_aborts ring257 par257 cs257 T s s' _ st fresh257 proof ccs257 (by decide) hT cs257_ok h1
  refine ⟨st, proof, s', h1, hl, a2 _ ?_, a1 _ ?_ ⟨1, by decide, by decide⟩⟩
  · rw [List.length_dropLast, hl.thetas]
    decide
  · exact ((h2 proof.decL (by simp)).2.1).symm

/-- The same proof with wrong values in the right number does not abort. -/
example (T : Transcript (ZMod 257) C257 σ) (s : σ) (hT : ∀ s n, (T.bytes s n).1.length = n) (acc : LCCCS C257) (cm : CCCS C257)
    (proof : LFProof C257) (h : ProofLens par257 ccs257 1 proof) :
    (nifsVerify ring257 par257 cs257 T s acc cm proof ccs257).isPanic = false :=
  C96_no_abort_partial ring257 par257 cs257 T s acc cm proof ccs257 (by decide) (by decide) (by decide) (by decide) (by decide) (by decide)
    (charGt257 _ (by decide)) (charGt257 _ (by decide)) hT cs257_ok h

end Examples

end Verif.Props
