import Verif.Lemmas.Causal
import Verif.Model.Nifs
import Verif.Props.Decomposition

/-!
# The folding scheme on a tape: linearization reads its challenges, then folding reads its own
-/

set_option linter.unusedSectionVars false
set_option linter.unusedSimpArgs false
set_option linter.constructorNameAsVariable false

namespace Verif

open Finset Spec Props

section Heavy
open Classical

/-- If many pairs succeed, many first components succeed with many second components. -/
theorem heavy_rows {A B : Type} [Fintype A] [Fintype B] (S : A → B → Prop) (E1 E2 : Nat)
    (h : E1 * Fintype.card B + Fintype.card A * E2 < (univ.filter fun p : A × B => S p.1 p.2).card) :
    E1 < (univ.filter fun a : A => E2 < (univ.filter fun b : B => S a b).card).card := by
  by_contra hcon
  push Not at hcon
  set H := univ.filter fun a : A => E2 < (univ.filter fun b : B => S a b).card with hH
  have e : (univ.filter fun p : A × B => S p.1 p.2).card = ∑ a : A, (univ.filter fun b : B => S a b).card := by
    rw [card_eq_sum_card_fiberwise (f := fun p : A × B => p.1) (t := univ) (fun _ _ => mem_univ _)]
    apply sum_congr rfl
    intro a _
    apply card_bij (fun p _ => p.2)
    · intro p hp
      simp only [mem_filter, mem_univ, true_and] at hp ⊢
      rw [← hp.2]
      exact hp.1
    · intro p hp q hq he
      simp only [mem_filter, mem_univ, true_and] at hp hq
      exact Prod.ext (hp.2.trans hq.2.symm) he
    · intro b hb
      exact ⟨(a, b), by simpa using hb, rfl⟩
  have hle : ∀ a : A, (univ.filter fun b : B => S a b).card ≤ (if a ∈ H then Fintype.card B else 0) + E2 := by
    intro a
    by_cases ha : a ∈ H
    · rw [if_pos ha]
      exact le_trans (card_le_univ _) (Nat.le_add_right _ _)
    · rw [if_neg ha, zero_add]
      rw [hH, mem_filter] at ha
      push Not at ha
      exact ha (mem_univ _)
  have h2 := sum_le_sum fun a (_ : a ∈ univ) => hle a
  rw [← e, sum_add_distrib, sum_ite_mem, univ_inter, sum_const, sum_const, smul_eq_mul, smul_eq_mul, card_univ] at h2
  have h3 := Nat.mul_le_mul_right (Fintype.card B) hcon
  omega

end Heavy

section Coin
variable {F R : Type} [Field F] [DecidableEq F] [CommRing R] [DecidableEq R] [Algebra F R]

theorem coin_absorbSlice (s : List F) (v : List R) : (coinT F R).absorbSlice s v = s := by
  unfold Transcript.absorbSlice
  induction v with
  | nil => rfl
  | cons a m ih => exact ih

theorem coin_verifyLoop (proof : List (List R)) (w : List F) : ∀ (is : List Nat) (st : VerifierState F R) (v : List F),
    v.length = is.length → verifyLoop (coinT F R) proof is st (v ++ w) = (verifyLoop (coinT F R) proof is st v).map fun r => (r.1, w)
  | [], st, v, h => by
    rw [List.length_nil, List.length_eq_zero_iff] at h
    subst h
    rfl
  | i :: is, st, [], h => by simp at h
  | i :: is, st, x :: v, h => by
    have ih := fun st => coin_verifyLoop proof w is st v (by simpa using h)
    unfold verifyLoop
    cases idx "proof is incomplete" proof i with
    | error e => rfl
    | ok msg =>
      simp only [bind_ok', coin_absorbSlice]
      have e1 : ∀ v' : List F, verifyRound (coinT F R) msg st (x :: v') = (verifyRound (coinT F R) msg st [x]).map
          fun r => (r.1, r.2.1, v') := by
        intro v'
        unfold verifyRound
        split
        · rfl
        · simp only
          split <;> rfl
      rw [List.cons_append, e1 (v ++ w), e1 v]
      cases verifyRound (coinT F R) msg st [x] with
      | error e => rfl
      | ok r => exact ih _

theorem coin_verify (v w : List F) (n deg : Nat) (claim : R) (proof : List (List R)) (hv : v.length = n) :
    verifyAsSubprotocol (coinT F R) (v ++ w) n deg claim proof
      = (verifyAsSubprotocol (coinT F R) v n deg claim proof).map fun r => (r.1, w) := by
  unfold verifyAsSubprotocol
  have habs : ∀ (s : List F) (x : R), (coinT F R).absorb s x = s := fun _ _ => rfl
  simp only [habs]
  rw [coin_verifyLoop proof w (List.range n) (verifierInit n deg) v (by simpa using hv)]
  cases verifyLoop (coinT F R) proof (List.range n) (verifierInit n deg) v with
  | error e => rfl
  | ok r =>
    change (checkAndGenerateSubclaim r.1 claim >>= fun sc => .ok (sc, w))
      = (checkAndGenerateSubclaim r.1 claim >>= fun sc => .ok (sc, r.2)).map _
    cases checkAndGenerateSubclaim r.1 claim <;> rfl

/-- Linearization reads the first `2s` challenges. -/
theorem lin_tape (B : Nat → Nat → List UInt8) (u w : List F) (n : Nat) (cm : CCCS R) (proof : LinProof R) (ccs : CCS R)
    (hu : u.length = ccs.s + ccs.s) :
    linVerify (scripted (coinT F R) B) (u ++ w, n) cm proof ccs
      = (linVerify (coinT F R) u cm proof ccs).map fun r => (r.1, (w, n)) := by
  have e1 : ∀ v : List F, squeezeBeta (coinT F R) (u ++ v) ccs.s = ((u.take ccs.s).map (algebraMap F R), u.drop ccs.s ++ v) := by
    intro v
    unfold squeezeBeta
    simp only
    have : absorbLabel (coinT F R) (u ++ v) "beta_s" = u ++ v := rfl
    rw [this, challenges_coin _ _ (by simp; omega), List.take_append_of_le_length (by omega),
      List.drop_append_of_le_length (by omega)]
  have e2 : squeezeBeta (scripted (coinT F R) B) (u ++ w, n) ccs.s
      = ((u.take ccs.s).map (algebraMap F R), (u.drop ccs.s ++ w, n)) := by
    have h := e1 w
    unfold squeezeBeta at h ⊢
    simp only [scripted_label, scripted_challenges] at h ⊢
    simp only [Prod.mk.injEq] at h ⊢
    exact ⟨h.1, h.2, trivial⟩
  have e3 := e1 []
  rw [List.append_nil, List.append_nil] at e3
  unfold linVerify
  rw [e2, e3]
  simp only
  rw [scripted_verify, coin_verify _ _ _ _ _ _ (by simp; omega)]
  cases verifyAsSubprotocol (coinT F R) (u.drop ccs.s) ccs.s (ccs.d + 1) 0 proof.sumcheck with
  | error e => rfl
  | ok r =>
    change (do
        let e ← eqEval (r.1.point.map (algebraMap F R)) ((u.take ccs.s).map (algebraMap F R))
        let claim ← linClaim ccs proof.u
        if e * claim ≠ r.1.expectedEvaluation then (.error .sumCheckFailed : Res (LCCCS R × (List F × Nat)))
        else .ok (⟨r.1.point.map (algebraMap F R), proof.v, cm.cm, proof.u, cm.x_ccs, 1⟩,
          (scripted (coinT F R) B).absorbSlice ((scripted (coinT F R) B).absorbSlice (w, n) proof.v) proof.u))
      = (do
        let e ← eqEval (r.1.point.map (algebraMap F R)) ((u.take ccs.s).map (algebraMap F R))
        let claim ← linClaim ccs proof.u
        if e * claim ≠ r.1.expectedEvaluation then (.error .sumCheckFailed : Res (LCCCS R × List F))
        else .ok (⟨r.1.point.map (algebraMap F R), proof.v, cm.cm, proof.u, cm.x_ccs, 1⟩,
          (coinT F R).absorbSlice ((coinT F R).absorbSlice r.2 proof.v) proof.u)).map _
    cases eqEval (r.1.point.map (algebraMap F R)) ((u.take ccs.s).map (algebraMap F R)) with
    | error e => rfl
    | ok e =>
      cases linClaim ccs proof.u with
      | error e => rfl
      | ok c =>
        simp only [bind_ok', scripted_absorbSlice, coin_absorbSlice]
        split <;> rfl

/-- Message `j` of the linearization prover depends on the challenges before the sum-check and its first `j` ones. -/
theorem lin_causal {C : Type} (B : Nat → Nat → List UInt8) (u u' : List F) (cm : CCCS R) (wit : Witness R C) (ccs : CCS R)
    (st st' : LCCCS R) (pr pr' : LinProof R) (t t' : List F × Nat) (j : Nat) (hu : ccs.s ≤ u.length)
    (he : u.take (ccs.s + j) = u'.take (ccs.s + j))
    (h : linProve (scripted (coinT F R) B) (u, 0) cm wit ccs = .ok ((st, pr), t))
    (h' : linProve (scripted (coinT F R) B) (u', 0) cm wit ccs = .ok ((st', pr'), t')) :
    pr.sumcheck.take (j + 1) = pr'.sumcheck.take (j + 1) ∧ pr.sumcheck.length = ccs.s := by
  have e1 : u.take ccs.s = u'.take ccs.s := by
    have := congrArg (List.take ccs.s) he
    rwa [List.take_take, List.take_take, Nat.min_eq_left (by omega)] at this
  have e2 : (u.drop ccs.s).take j = (u'.drop ccs.s).take j := by
    have := congrArg (List.drop ccs.s) he
    rwa [List.drop_take, List.drop_take, Nat.add_sub_cancel_left] at this
  have hu' : ccs.s ≤ u'.length := by
    have := congrArg List.length e1
    rw [List.length_take, List.length_take] at this
    omega
  have hsq : ∀ v : List F, ccs.s ≤ v.length → squeezeBeta (scripted (coinT F R) B) (v, 0) ccs.s
      = ((v.take ccs.s).map (algebraMap F R), (v.drop ccs.s, 0)) := by
    intro v hv
    unfold squeezeBeta
    simp only [scripted_label, scripted_challenges]
    have : absorbLabel (coinT F R) v "beta_s" = v := rfl
    rw [this, challenges_coin _ _ hv]
  unfold linProve at h h'
  rw [hsq u hu] at h
  rw [hsq u' hu', ← e1] at h'
  simp only [bind_eq_ok, Prod.exists] at h h'
  obtain ⟨mz, a1, g, deg, a2, p, pst, t1, t2, a3, v, a4, uu, a5, a6⟩ := h
  obtain ⟨mz', a1', g', deg', a2', p', pst', t1', t2', a3', v', a4', uu', a5', a6'⟩ := h'
  rw [a1] at a1'; cases a1'
  rw [a2] at a2'; cases a2'
  have hco : scripted (coinT F R) B = coinBT (fun i n => (B i n, i + 1)) := rfl
  rw [hco] at a3 a3'
  have hq := prove_causal _ _ _ _ j _ _ 0 _ _ e2 a3 a3'
  cases a6
  cases a6'
  exact hq

/-- Decomposition reads no challenges. -/
theorem dec_tape (B : Nat → Nat → List UInt8) (P : Params) (w : List F) (n : Nat) (cmi : LCCCS R) (proof : DecProof R)
    (l : List (LCCCS R)) (t : List F × Nat) :
    decVerify P (scripted (coinT F R) B) (w, n) cmi proof = .ok (l, t)
      ↔ decVerify P (coinT F R) [] cmi proof = .ok (l, []) ∧ t = (w, n) := by
  rw [C31_verify_iff, C31_verify_iff]
  have h1 : ∀ (L : List (((List R × Commitment R) × List R) × List R)), L.foldl (fun s p =>
      (scripted (coinT F R) B).absorbSlice ((scripted (coinT F R) B).absorbSlice ((scripted (coinT F R) B).absorbSlice
        ((scripted (coinT F R) B).absorbSlice s p.1.1.1) p.1.1.2.val) p.1.2) p.2) (w, n) = (w, n) := by
    intro L
    induction L with
    | nil => rfl
    | cons p L ih =>
      rw [List.foldl_cons]
      simp only [scripted_absorbSlice, coin_absorbSlice] at ih ⊢
      exact ih
  have h2 : ∀ (L : List (((List R × Commitment R) × List R) × List R)), L.foldl (fun s p =>
      (coinT F R).absorbSlice ((coinT F R).absorbSlice ((coinT F R).absorbSlice
        ((coinT F R).absorbSlice s p.1.1.1) p.1.1.2.val) p.1.2) p.2) ([] : List F) = [] := by
    intro L
    induction L with
    | nil => rfl
    | cons p L ih =>
      rw [List.foldl_cons]
      simp only [coin_absorbSlice] at ih ⊢
      exact ih
  rw [h1, h2]
  simp only [and_true]
  tauto

end Coin

variable {Fp F C : Type} {N τ : Nat} [Field Fp] [Field F] [DecidableEq F] [Algebra Fp F] [CommRing C] [Algebra Fp C]

/-- The verifier of the folding scheme on a tape. -/
theorem nifs_tape (rd : RingData Fp F C N τ) (P : Params) (cs : ChallengeSet C) (B : Nat → Nat → List UInt8) (u w : List F)
    (acc : LCCCS (Fin N → F)) (cm : CCCS (Fin N → F)) (proof : LFProof (Fin N → F)) (ccs : CCS (Fin N → F))
    (hu : u.length = ccs.s + ccs.s) (st : LCCCS (Fin N → F)) (t : List F × Nat) :
    nifsVerify rd P cs (scripted (coinT F (Fin N → F)) B) (u ++ w, 0) acc cm proof ccs = .ok (st, t) ↔
      (∃ x, sanityCheck ccs P.L = .ok x) ∧ ∃ lin v l r, linVerify (coinT F (Fin N → F)) u cm proof.lin ccs = .ok (lin, v) ∧
        decVerify P (coinT F (Fin N → F)) [] acc proof.decL = .ok (l, []) ∧
        decVerify P (coinT F (Fin N → F)) [] lin proof.decR = .ok (r, []) ∧
        foldVerify rd P cs (scripted (coinT F (Fin N → F)) B) (w, 0) (l ++ r) proof.fold ccs = .ok (st, t) := by
  have habs : absorbPublicInput (scripted (coinT F (Fin N → F)) B) (u ++ w, 0) acc cm = (u ++ w, 0) := by
    unfold absorbPublicInput
    have h1 : ∀ (s : List F × Nat) l, absorbLabel (scripted (coinT F (Fin N → F)) B) s l = s := fun _ _ => rfl
    have h2 : ∀ (s : List F × Nat) x, (scripted (coinT F (Fin N → F)) B).absorb s x = s := fun _ _ => rfl
    simp only [h1, h2, scripted_absorbSlice, coin_absorbSlice]
  unfold nifsVerify
  simp only [habs, lin_tape B u w 0 cm proof.lin ccs hu, bind_eq_ok, map_ok_iff, Prod.exists, dec_tape]
  constructor
  · rintro ⟨x, hx, lin, w1, n1, ⟨lin', v, h1, h2⟩, l, w2, n2, ⟨h3, h4⟩, r, w3, n3, ⟨h5, h6⟩, h7⟩
    cases h2; cases h4; cases h6
    exact ⟨⟨x, hx⟩, _, v, l, r, h1, h3, h5, h7⟩
  · rintro ⟨⟨x, hx⟩, lin, v, l, r, h1, h3, h5, h7⟩
    exact ⟨x, hx, lin, w, 0, ⟨lin, v, h1, rfl⟩, l, w, 0, ⟨h3, rfl⟩, r, w, 0, ⟨h5, rfl⟩, h7⟩

end Verif
