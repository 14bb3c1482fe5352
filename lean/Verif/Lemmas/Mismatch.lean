import Verif.Props.Nifs

/-!
# Folding statements whose commitments are not opened by their witnesses
-/

set_option linter.unusedSectionVars false
set_option linter.unusedSimpArgs false

namespace Verif

open Finset Verif.Spec Verif.Props

variable {Fp F C σ : Type} {N τ : Nat} [Field Fp] [Field F] [DecidableEq F] [Algebra Fp F] [CommRing C]
  [Algebra Fp C]

/-- The true commitment to a witness. -/
def trueCm (scheme : Ajtai (Fin N → F)) (w : Witness (Fin N → F) C) : Commitment (Fin N → F) :=
  ⟨scheme.matrix.vals.map fun row => dot row w.f⟩

theorem commit_trueCm {rd : RingData Fp F C N τ} {P : Params} {ccs : CCS (Fin N → F)}
    {scheme : Ajtai (Fin N → F)} (hS : SizesOK P ccs scheme) {w : Witness (Fin N → F) C}
    (h : WitOK rd P (ccs.n - ccs.l - 1) w) : scheme.commit w.f = .ok (trueCm scheme w) :=
  commit_ok scheme _ (by rw [h.f, List.length_map, h.flen, hS.width])

/-- A folding prover's input with one error of commitment in each half. -/
structure PieceOK (rd : RingData Fp F C N τ) (P : Params) (ccs : CCS (Fin N → F)) (scheme : Ajtai (Fin N → F))
    (r : List (Fin N → F)) (delta : Nat → Fin N → F) (k : Nat)
    (lcccs : List (LCCCS (Fin N → F))) (wits : List (Witness (Fin N → F) C))
    (mz : List (List (Mle (Fin N → F)))) (stk : LCCCS (Fin N → F)) (witk : Witness (Fin N → F) C) : Prop where
  st : lcccs[k]? = some stk
  wit : wits[k]? = some witk
  ok : LcccsUpToCm rd P ccs scheme stk witk
  r : stk.r = r
  short : WitShort rd P.bSmall witk
  mz : mz[k]? = some (ccs.M.map fun M => ⟨ccs.s, (List.range M.nrows).map fun i =>
          mulVec M ((stk.x_w ++ [stk.h]) ++ witk.wCcs) i⟩)
  err : ∀ j < scheme.matrix.vals.length,
    stk.cm.val.getD j 0 = (trueCm scheme witk).val.getD j 0 + if k = 0 then delta j else 0

/-- Decomposition of a statement whose evaluations are right but whose commitment is off: everything as for
a valid statement, except that the first piece has the whole error. -/
theorem dec_open (rd : RingData Fp F C N τ) (P : Params)
    (T : Transcript F (Fin N → F) σ) (s : σ) (st : LCCCS (Fin N → F)) (wit : Witness (Fin N → F) C)
    (ccs : CCS (Fin N → F)) (scheme : Ajtai (Fin N → F)) (hP : ParamsOK Fp P) (hS : SizesOK P ccs scheme)
    (hst : LcccsUpToCm rd P ccs scheme st wit) (hsh : WitShort rd (reach P.bSmall P.K) wit) :
    ∃ mz lcccs wits proof s', decProve rd P T s st wit ccs scheme = .ok ((mz, lcccs, wits, proof), s') ∧
      decVerify P T s st proof = .ok (lcccs, s') ∧
      lcccs.length = P.K ∧ wits.length = P.K ∧ mz.length = P.K ∧
      ∀ k < P.K, ∃ stk witk, PieceOK rd P ccs scheme st.r
        (fun j => st.cm.val.getD j 0 - (trueCm scheme wit).val.getD j 0) k lcccs wits mz stk witk := by
  have h0 : LcccsHolds rd P ccs scheme { st with cm := trueCm scheme wit } wit :=
    ⟨hst.witOK, commit_trueCm hS hst.witOK, hst.xlen, ⟨hst.evals.rlen, hst.evals.v, hst.evals.u⟩⟩
  obtain ⟨mz, lcccs, wits, proof, s', h1, h2, h3, h4, h5, ⟨hu, hv, hx, hy⟩, h7⟩ :=
    C30_decomposition_complete rd P T s _ wit ccs scheme hP hS h0 hsh
  have hKp := hP.Kpos
  unfold decProve at h1
  simp only [bind_eq_ok, Prod.exists] at h1
  obtain ⟨u, e0, fs, e1, wits', e2, xs, e3, ys, e4, vs, e5, mz', e6, us, e7, l', s'', e8, e9⟩ := h1
  simp only [Except.ok.injEq, Prod.mk.injEq] at e9
  obtain ⟨⟨rfl, rfl, rfl, rfl⟩, rfl⟩ := e9
  simp only at hu hv hx hy
  -- the commitments
  have e4' := e4
  unfold commitWitnesses at e4'
  split at e4'
  · cases e4'
  rename_i hne
  rw [bind_eq_ok] at e4'
  obtain ⟨yt, e41, e42⟩ := e4'
  simp only [Except.ok.injEq] at e42
  set bsum := yt.reverse.foldl (fun acc y => (acc.add y).smul ((P.bSmall : Fin N → F)))
    (Commitment.zeroed scheme.kappa) with hbsum
  have e4n : commitWitnesses P wits' scheme st = .ok (st.cm.sub bsum :: yt) := by
    unfold commitWitnesses
    rw [if_neg hne, e41]
    rfl
  have hbl : bsum.val.length = scheme.kappa := by
    rw [hbsum, List.foldl_reverse]
    clear * -
    induction yt with
    | nil => simp [Commitment.zeroed]
    | cons y ys ih => rw [List.foldr_cons, smul_val_length, add_val_length, ih]
  -- the pieces
  subst e42
  obtain ⟨x0, xt, rfl⟩ : ∃ a l, xs = a :: l := List.exists_cons_of_ne_nil (by rintro rfl; simp at hx; omega)
  obtain ⟨u0, ut, rfl⟩ : ∃ a l, us = a :: l := List.exists_cons_of_ne_nil (by rintro rfl; simp at hu; omega)
  obtain ⟨v0, vt, rfl⟩ : ∃ a l, vs = a :: l := List.exists_cons_of_ne_nil (by rintro rfl; simp at hv; omega)
  have e8' := (decPieces_iff T s _ _ _ _).1 e8
  obtain ⟨q1, q2, q3⟩ := e8'
  simp only [List.zip_cons_cons, List.map_cons] at q1 q2
  set rest := (((xt.zip yt).zip ut).zip vt).map (pieceSt st.r) with hrest
  set l0 : LCCCS (Fin N → F) := ⟨st.r, v0, st.cm.sub bsum, u0, x0.dropLast, x0.getLastD 0⟩ with hl0
  have q2' : l' = { l0 with cm := (trueCm scheme wit).sub bsum } :: rest := q2
  set proof : DecProof (Fin N → F) := ⟨u0 :: ut, v0 :: vt, x0 :: xt, st.cm.sub bsum :: yt⟩ with hproof
  have hzne : ∀ p ∈ ((proof.xS.zip proof.yS).zip proof.uS).zip proof.vS, p.1.1.1 ≠ [] := by
    intro p hp
    simp only [hproof, List.zip_cons_cons, List.mem_cons] at hp
    rcases hp with rfl | hp
    · exact q1 (((x0, (trueCm scheme wit).sub bsum), u0), v0) (by simp)
    · exact q1 p (by simp [hp])
  have e8n : decPieces T s st.r proof = .ok (l0 :: rest,
      (((proof.xS.zip proof.yS).zip proof.uS).zip proof.vS).foldl (absorb4 T) s) := by
    rw [decPieces_iff]
    refine ⟨hzne, ?_, rfl⟩
    simp only [hproof, List.zip_cons_cons, List.map_cons]
    rfl
  have hv2 := (C31_verify_iff P T s _ _ _ _).1 h2
  obtain ⟨v1, v2, v3, v4, v5, v6, v7, v8⟩ := hv2
  have hcmr := C32_always_recomposes P wits' scheme st hS.mat (by rw [hst.cmLen, hS.mat.1]; rfl) _ e4n h4
  refine ⟨mz', l0 :: rest, wits', proof,
    (((proof.xS.zip proof.yS).zip proof.uS).zip proof.vS).foldl (absorb4 T) s, ?_, ?_, ?_, h4, h5, ?_⟩
  · unfold decProve
    simp only [e0, bind_ok', e1, e2]
    rw [e3]
    simp only [bind_ok', e4n]
    rw [e5]
    simp only [bind_ok', e6]
    rw [e7]
    simp only [bind_ok']
    rw [← hproof, e8n]
    rfl
  · rw [C31_verify_iff]
    refine ⟨v1, hcmr, v3, v4, v5, hzne, ?_, rfl⟩
    simp only [hproof, List.zip_cons_cons, List.map_cons]
    rfl
  · rw [← h3, q2']
    simp
  · intro k hk
    obtain ⟨stk, witk, f1, f2, f3, f4, f5, f6⟩ := h7 k hk
    have hup := lcccs_upToCm hS f3
    have ht : stk.cm = trueCm scheme witk := by
      have := f3.cm
      rw [commit_trueCm hS f3.witOK] at this
      exact (Except.ok.inj this).symm
    rcases k with _ | k
    · rw [q2', List.getElem?_cons_zero, Option.some.injEq] at f1
      subst f1
      refine ⟨l0, witk, rfl, f2, ⟨f3.witOK, ?_, f3.xlen, f3.evals.rlen, f3.evals.v, f3.evals.u⟩, rfl, f5, f6, ?_⟩
      · simp only [hl0]
        rw [sub_val_length, hst.cmLen]
      · intro j hj
        rw [if_pos rfl]
        have hk1 : scheme.kappa = scheme.matrix.vals.length := hS.mat.1.symm
        have a1 := sub_val_getD st.cm bsum (by rw [hbl, hst.cmLen, hk1]) j
        have a2 := sub_val_getD (trueCm scheme wit) bsum (by rw [hbl, hk1]; simp [trueCm]) j
        simp only at ht
        rw [ht] at a2
        simp only [hl0]
        rw [a1, a2]
        ring
    · rw [q2', List.getElem?_cons_succ] at f1
      refine ⟨stk, witk, by rw [List.getElem?_cons_succ]; exact f1, f2, hup, f4, f5, f6, fun j _ => ?_⟩
      rw [if_neg (by omega), add_zero, ht]

/-- One step of the folding scheme on statements whose evaluations are right but whose commitments may be off.
-/
theorem nifs_open (rd : RingData Fp F C N τ) (P : Params) (cs : ChallengeSet C)
    (T : Transcript F (Fin N → F) σ) (s : σ) (ccs : CCS (Fin N → F)) (scheme : Ajtai (Fin N → F))
    (acc : LCCCS (Fin N → F)) (wAcc : Witness (Fin N → F) C) (cm : CCCS (Fin N → F)) (w : Witness (Fin N → F) C)
    (hP : ParamsOK Fp P) (hS : SizesOK P ccs scheme) (ht : ccs.t = ccs.M.length) (al : Aligned ccs)
    (hc : CharGt F (2 * P.bSmall)) (hd : CharGt F (ccs.d + 1))
    (hT : ∀ s n, (T.bytes s n).1.length = n)
    (hcs : ∀ bs, bs.length = cs.bytesNeeded → ∃ c, cs.decode bs = .ok c)
    (hacc : LcccsUpToCm rd P ccs scheme acc wAcc) (hsh : WitShort rd (reach P.bSmall P.K) wAcc)
    (hw : WitOK rd P (ccs.n - ccs.l - 1) w) (hcml : cm.cm.val.length = scheme.matrix.vals.length)
    (hxl : cm.x_ccs.length = ccs.l) (hsat : CCSHolds ccs ((cm.x_ccs ++ [1]) ++ w.wCcs))
    (hwsh : WitShort rd (reach P.bSmall P.K) w) :
    ∃ st w' proof s', nifsProve rd P cs T s acc wAcc cm w ccs scheme = .ok ((st, w', proof), s') ∧
      nifsVerify rd P cs T s acc cm proof ccs = .ok (st, s') ∧
      LcccsUpToCm rd P ccs scheme st w' ∧
      ∃ rho : Nat → C, rho (2 * P.K - 1) = 1 ∧
        (∀ k < 2 * P.K - 1, ∃ bs, bs.length = cs.bytesNeeded ∧ cs.decode bs = .ok (rho k)) ∧
        ∀ j < scheme.matrix.vals.length, st.cm.val.getD j 0 - (trueCm scheme w').val.getD j 0
          = rd.crt (rho 0) * (acc.cm.val.getD j 0 - (trueCm scheme wAcc).val.getD j 0)
            + rd.crt (rho P.K) * (cm.cm.val.getD j 0 - (trueCm scheme w).val.getD j 0) := by
  have hsan := sanity_ok hS
  have hnl := hS.nl
  have hK := hP.Kpos
  obtain ⟨lin, linp, s1, hl1, hl2, hlcm, hlx, hlh, -, hle⟩ := C27_linearization_complete T
    (absorbPublicInput T s acc cm) cm w ccs hS.sh al hd
    (by rw [hxl, hw.wlen]; omega) hsat
    (fun m hm => by rw [hw.hatvars m hm, hS.hat])
  have hlin : LcccsUpToCm rd P ccs scheme lin w :=
    ⟨hw, by rw [hlcm]; exact hcml, by rw [hlx]; exact hxl, hle⟩
  obtain ⟨mz1, l1, w1, p1, s2, ha1, ha2, ha3, ha4, ha5, ha6⟩ := dec_open rd P T s1 acc wAcc ccs scheme hP hS hacc hsh
  obtain ⟨mz2, l2, w2, p2, s3, hb1, hb2, hb3, hb4, hb5, hb6⟩ := dec_open rd P T s2 lin w ccs scheme hP hS hlin hwsh
  -- all pieces
  have hall : ∀ k < 2 * P.K, ∃ stk witk, (l1 ++ l2)[k]? = some stk ∧ (w1 ++ w2)[k]? = some witk ∧
      LcccsUpToCm rd P ccs scheme stk witk ∧ stk.r = (if k < P.K then acc.r else lin.r) ∧
      WitShort rd P.bSmall witk ∧
      (mz1 ++ mz2)[k]? = some (ccs.M.map fun M => ⟨ccs.s, (List.range M.nrows).map fun i =>
          mulVec M ((stk.x_w ++ [stk.h]) ++ witk.wCcs) i⟩) ∧
      ∀ j < scheme.matrix.vals.length, stk.cm.val.getD j 0 = (trueCm scheme witk).val.getD j 0
        + ((if k = 0 then acc.cm.val.getD j 0 - (trueCm scheme wAcc).val.getD j 0 else 0)
          + (if k = P.K then cm.cm.val.getD j 0 - (trueCm scheme w).val.getD j 0 else 0)) := by
    intro k hk
    by_cases hkk : k < P.K
    · obtain ⟨stk, witk, h⟩ := ha6 k hkk
      refine ⟨stk, witk, ?_, ?_, h.ok, by rw [if_pos hkk]; exact h.r, h.short, ?_, fun j hj => ?_⟩
      · rw [List.getElem?_append_left (by omega), h.st]
      · rw [List.getElem?_append_left (by omega), h.wit]
      · rw [List.getElem?_append_left (by omega), h.mz]
      · rw [h.err j hj, if_neg (by omega : ¬ k = P.K), add_zero]
    · obtain ⟨stk, witk, h⟩ := hb6 (k - P.K) (by omega)
      refine ⟨stk, witk, ?_, ?_, h.ok, by rw [if_neg hkk]; exact h.r, h.short, ?_, fun j hj => ?_⟩
      · rw [List.getElem?_append_right (by omega), ha3, h.st]
      · rw [List.getElem?_append_right (by omega), ha4, h.wit]
      · rw [List.getElem?_append_right (by omega), ha5, h.mz]
      · rw [h.err j hj, if_neg (by omega : ¬ k = 0), zero_add, hlcm]
        congr 1
        by_cases e : k = P.K
        · rw [if_pos (by omega), if_pos e]
        · rw [if_neg (by omega), if_neg e]
  have hin : FoldInputE rd P ccs scheme (l1 ++ l2) (w1 ++ w2) (mz1 ++ mz2) :=
    ⟨by rw [List.length_append]; omega, by rw [List.length_append]; omega, by rw [List.length_append]; omega,
      fun k hk => by
        obtain ⟨a, b, c1, c2, c3, -, -, c6, -⟩ := hall k hk
        exact ⟨a, b, c1, c2, c3, c6⟩,
      acc.r, lin.r, fun k st h => by
        have hk := (List.getElem?_eq_some_iff.1 h).1
        rw [List.length_append] at hk
        obtain ⟨a, b, c1, -, -, c4, -⟩ := hall k (by omega)
        rw [c1] at h
        cases h
        exact c4⟩
  obtain ⟨st, w', proof, s4, rho, p, h1, h2, h3, -, h5, h6, h7, h8, -⟩ := fold_complete_open rd P cs T s3 ccs scheme _ _ _
    hP hS ht hin (by
      intro mu _ y
      apply sum_eq_zero
      intro i hi
      apply sum_eq_zero
      intro j hj
      obtain ⟨st, wit, -, e1, -, -, e4, -⟩ := hall i (mem_range.1 hi)
      have e2 : (w1 ++ w2).getD i ⟨[], [], [], []⟩ = wit := by simp only [List.getD_eq_getElem?_getD, e1, Option.getD_some]
      rw [e2, range_vanish rd hP.b2 (getD_short rd e4 y), mul_zero]) hc hT hcs
  refine ⟨st, w', ⟨linp, p1, p2, proof⟩, s4, ?_, ?_, h3, rho, h5, h6, fun j hj => ?_⟩
  · unfold nifsProve
    simp only [hsan, bind_ok', hl1, ha1, hb1, h1]
  · unfold nifsVerify
    simp only [hsan, bind_ok', hl2, ha2, hb2, h2]
  · have hf := map_crt_comb rd h7
    rw [← h3.witOK.f] at hf
    have hc1 := commit_comb hf scheme
    have e1 := hc1.eq j hj
    rw [h8.eq j hj]
    unfold trueCm
    simp only
    rw [e1, ← sum_sub_distrib]
    have key : ∀ k ∈ range (2 * P.K), rd.crt (rho k) * ((l1 ++ l2).getD k ⟨[], [], ⟨[]⟩, [], [], 0⟩).cm.val.getD j 0
        - rd.crt (rho k) * (scheme.matrix.vals.map fun row => dot row
            (((w1 ++ w2).getD k ⟨[], [], [], []⟩).fCoeff.map rd.crt)).getD j 0
        = (if k = 0 then rd.crt (rho 0) * (acc.cm.val.getD j 0 - (trueCm scheme wAcc).val.getD j 0) else 0)
          + (if k = P.K then rd.crt (rho P.K) * (cm.cm.val.getD j 0 - (trueCm scheme w).val.getD j 0) else 0) := by
      intro k hk
      obtain ⟨stk, witk, c1, c2, c3, -, -, -, c7⟩ := hall k (mem_range.1 hk)
      simp only [List.getD_eq_getElem?_getD (l := l1 ++ l2), List.getD_eq_getElem?_getD (l := w1 ++ w2), c1, c2,
        Option.getD_some]
      rw [c7 j hj, ← c3.witOK.f]
      have : (trueCm scheme witk).val = scheme.matrix.vals.map fun row => dot row witk.f := rfl
      rw [this]
      split_ifs with a b b
      · omega
      · subst a; ring
      · subst b; ring
      · ring
    rw [sum_congr rfl key, sum_add_distrib, sum_ite_eq' (range (2 * P.K)) 0, sum_ite_eq' (range (2 * P.K)) P.K,
      if_pos (mem_range.2 (by omega)), if_pos (mem_range.2 (by omega))]
    rfl

end Verif
