import Verif.Model.Nifs
import Verif.Spec.Nifs
import Verif.Props.Linearization
import Verif.Props.Decomposition
import Verif.Props.Folding

/-!
# Property theorems: the folding scheme (C39 - C41, C47)
-/

set_option linter.unusedSectionVars false
set_option linter.unusedSimpArgs false

namespace Verif.Props

open Finset Verif Verif.Spec

variable {σ : Type}

section Ring
variable {Fp F C : Type} {N τ : Nat} [Field Fp] [Field F] [DecidableEq F] [Algebra Fp F] [CommRing C]
  [Algebra Fp C]

theorem sanity_ok {P : Params} {ccs : CCS (Fin N → F)} {scheme : Ajtai (Fin N → F)} (hS : SizesOK P ccs scheme) :
    sanityCheck ccs P.L = .ok () := by
  rw [(C14_guard_exact ccs P.L).1]
  refine ⟨by have := hS.nl; omega, ⟨ccs.s, hS.sh.pow⟩, ?_⟩
  rw [hS.sh.pow, ← hS.hat]
  exact Nat.le_pow_clog (by omega) _

/-- The pieces of two decompositions as input of the folding prover. -/
theorem foldInput_append (rd : RingData Fp F C N τ) (P : Params) (ccs : CCS (Fin N → F)) (scheme : Ajtai (Fin N → F))
    {l1 l2 : List (LCCCS (Fin N → F))} {w1 w2 : List (Witness (Fin N → F) C)}
    {mz1 mz2 : List (List (Mle (Fin N → F)))} {r1 r2 : List (Fin N → F)}
    (hl1 : l1.length = P.K) (hw1 : w1.length = P.K) (hm1 : mz1.length = P.K)
    (hl2 : l2.length = P.K) (hw2 : w2.length = P.K) (hm2 : mz2.length = P.K)
    (h1 : ∀ k < P.K, ∃ stk witk, l1[k]? = some stk ∧ w1[k]? = some witk ∧
        LcccsHolds rd P ccs scheme stk witk ∧ stk.r = r1 ∧ WitShort rd P.bSmall witk ∧
        mz1[k]? = some (ccs.M.map fun M => ⟨ccs.s, (List.range M.nrows).map fun i =>
          mulVec M ((stk.x_w ++ [stk.h]) ++ witk.wCcs) i⟩))
    (h2 : ∀ k < P.K, ∃ stk witk, l2[k]? = some stk ∧ w2[k]? = some witk ∧
        LcccsHolds rd P ccs scheme stk witk ∧ stk.r = r2 ∧ WitShort rd P.bSmall witk ∧
        mz2[k]? = some (ccs.M.map fun M => ⟨ccs.s, (List.range M.nrows).map fun i =>
          mulVec M ((stk.x_w ++ [stk.h]) ++ witk.wCcs) i⟩)) :
    FoldInput rd P ccs scheme (l1 ++ l2) (w1 ++ w2) (mz1 ++ mz2) where
  cmLen := by rw [List.length_append]; omega
  wLen := by rw [List.length_append]; omega
  mzLen := by rw [List.length_append]; omega
  holds := by
    intro k hk
    by_cases hkk : k < P.K
    · obtain ⟨st, w, a, b, c, -, d, e⟩ := h1 k hkk
      refine ⟨st, w, ?_, ?_, c, d, ?_⟩
      · rw [List.getElem?_append_left (by omega), a]
      · rw [List.getElem?_append_left (by omega), b]
      · rw [List.getElem?_append_left (by omega), e]
    · obtain ⟨st, w, a, b, c, -, d, e⟩ := h2 (k - P.K) (by omega)
      refine ⟨st, w, ?_, ?_, c, d, ?_⟩
      · rw [List.getElem?_append_right (by omega), hl1, a]
      · rw [List.getElem?_append_right (by omega), hw1, b]
      · rw [List.getElem?_append_right (by omega), hm1, e]
  points := by
    refine ⟨r1, r2, fun k st h => ?_⟩
    by_cases hkk : k < P.K
    · rw [if_pos hkk]
      rw [List.getElem?_append_left (by omega)] at h
      obtain ⟨st', w, a, -, -, d, -⟩ := h1 k hkk
      rw [a] at h
      cases h
      exact d
    · rw [if_neg hkk]
      rw [List.getElem?_append_right (by omega), hl1] at h
      have hk2 := (List.getElem?_eq_some_iff.1 h).1
      obtain ⟨st', w, a, -, -, d, -⟩ := h2 (k - P.K) (by omega)
      rw [a] at h
      cases h
      exact d

/-! ## C39 -/

theorem linVerify_u {R : Type} [CommRing R] [DecidableEq R] [Algebra F R] (T : Transcript F R σ) (s s' : σ) (cm : CCCS R)
    (proof : LinProof R) (ccs : CCS R) (st : LCCCS R) (h : linVerify T s cm proof ccs = .ok (st, s')) :
    st.u = proof.u := by
  unfold linVerify at h
  simp only [bind_eq_ok] at h
  obtain ⟨sc, -, e, -, c, -, h⟩ := h
  split at h
  · cases h
  · simp only [Except.ok.injEq, Prod.mk.injEq] at h
    rw [← h.1]

/-- **C39**: completeness of the folding scheme. For a valid accumulator and a valid fresh statement, both
whose coefficients fit in `K` digits, the prover succeeds, the verifier accepts with the same accumulator and
the same transcript state, and the new accumulator is valid for the new witness, which is a combination by
challenges of `2K` lists with coefficients at most `b / 2`. -/
theorem C39_nifs_complete (rd : RingData Fp F C N τ) (P : Params) (cs : ChallengeSet C)
    (T : Transcript F (Fin N → F) σ) (s : σ) (ccs : CCS (Fin N → F)) (scheme : Ajtai (Fin N → F))
    (acc : LCCCS (Fin N → F)) (wAcc : Witness (Fin N → F) C) (cm : CCCS (Fin N → F)) (w : Witness (Fin N → F) C)
    (hP : ParamsOK Fp P) (hS : SizesOK P ccs scheme) (ht : ccs.t = ccs.M.length) (al : Aligned ccs)
    (hc : CharGt F (2 * P.bSmall)) (hd : CharGt F (ccs.d + 1))
    (hT : ∀ s n, (T.bytes s n).1.length = n)
    (hcs : ∀ bs, bs.length = cs.bytesNeeded → ∃ c, cs.decode bs = .ok c)
    (hacc : LcccsHolds rd P ccs scheme acc wAcc) (hsh : WitShort rd (reach P.bSmall P.K) wAcc)
    (hfresh : FreshHolds rd P ccs scheme cm w) :
    ∃ st w' proof s', nifsProve rd P cs T s acc wAcc cm w ccs scheme = .ok ((st, w', proof), s') ∧
      nifsVerify rd P cs T s acc cm proof ccs = .ok (st, s') ∧
      LcccsHolds rd P ccs scheme st w' ∧
      (∀ d ∈ [proof.decL, proof.decR], d.uS.length = P.K ∧ d.vS.length = P.K ∧ d.xS.length = P.K ∧ d.yS.length = P.K) ∧
      proof.lin.u.length = ccs.M.length ∧
      ∃ (rho : Nat → C) (f : Nat → List C), rho (2 * P.K - 1) = 1 ∧
        (∀ k < 2 * P.K - 1, ∃ bs, bs.length = cs.bytesNeeded ∧ cs.decode bs = .ok (rho k)) ∧
        (∀ k < 2 * P.K, ∀ c ∈ f k, ∀ i, Short P.bSmall (rd.coeff c i)) ∧
        IsComb (2 * P.K) rho f w'.fCoeff ((ccs.n - ccs.l - 1) * P.L) := by
  have hsan := sanity_ok hS
  have hnl := hS.nl
  obtain ⟨lin, linp, s1, hl1, hl2, hlcm, hlx, hlh, -, hle⟩ := C27_linearization_complete T
    (absorbPublicInput T s acc cm) cm w ccs hS.sh al hd
    (by rw [hfresh.xlen, hfresh.witOK.wlen]; omega) hfresh.sat
    (fun m hm => by rw [hfresh.witOK.hatvars m hm, hS.hat])
  have hlin : LcccsHolds rd P ccs scheme lin w :=
    ⟨hfresh.witOK, by rw [hlcm]; exact hfresh.opens, by rw [hlx]; exact hfresh.xlen, hle⟩
  obtain ⟨mz1, l1, w1, p1, s2, ha1, ha2, ha3, ha4, ha5, ha7, ha6⟩ :=
    C30_decomposition_complete rd P T s1 acc wAcc ccs scheme hP hS hacc hsh
  obtain ⟨mz2, l2, w2, p2, s3, hb1, hb2, hb3, hb4, hb5, hb7, hb6⟩ :=
    C30_decomposition_complete rd P T s2 lin w ccs scheme hP hS hlin hfresh.short
  have hin := foldInput_append rd P ccs scheme ha3 ha4 ha5 hb3 hb4 hb5 ha6 hb6
  obtain ⟨st, w', proof, s4, rho, p, h1, h2, h3, -, h5, h6, h7, -⟩ := fold_complete rd P cs T s3 ccs scheme _ _ _ hP hS ht
    hin hc hT hcs
  refine ⟨st, w', ⟨linp, p1, p2, proof⟩, s4, ?_, ?_, h3, ?_, ?_, rho, _, h5, h6, ?_, h7⟩
  · unfold nifsProve
    simp only [hsan, bind_ok', hl1, ha1, hb1, h1]
  · unfold nifsVerify
    simp only [hsan, bind_ok', hl2, ha2, hb2, h2]
  · intro d hd
    simp only [List.mem_cons, List.not_mem_nil, or_false] at hd
    rcases hd with rfl | rfl
    · exact ha7
    · exact hb7
  · rw [← linVerify_u T _ _ _ _ _ _ hl2, hle.u, List.length_map]
  · intro k hk
    obtain ⟨-, wk, -, e2, -, e4, -⟩ := hin.holds k hk
    simp only [List.getD_eq_getElem?_getD, e2, Option.getD_some]
    exact e4

/-! ## C40 -/

/-- Messages of zeros are accepted by the sum-check verifier for the claim `0`. -/
theorem zero_sumcheck {R : Type} [CommRing R] [DecidableEq R] [Algebra F R] (T : Transcript F R σ) (s : σ) (n d : Nat)
    (hn : 1 ≤ n) (hd : 1 ≤ d) (hc : CharGt F d) :
    ∃ proof sc s', verifyAsSubprotocol T s n d (0 : R) proof = .ok (sc, s') ∧ sc.expectedEvaluation = 0 ∧
      sc.point.length = n := by
  obtain ⟨proof, pst, s', sc, vals, -, h2, -, -, -, h3, -, h4⟩ := C20_completeness T s ([] : List (Mle R)) n d
    (fun _ => .ok 0) (fun _ => 0) hn hd hc (by simp) (fun _ _ => rfl) (lineDeg_const 0 d 0)
  rw [sum_const_zero] at h2
  exact ⟨proof, sc, s', h2, (Except.ok.inj h4).symm, h3⟩

theorem ccsEval_zero {R : Type} [CommRing R] (ccs : CCS R) (h : ∀ k < ccs.q, ccs.S.getD k [] ≠ []) (u : Nat → R)
    (hu : ∀ j, u j = 0) : ccsEval ccs u = 0 := by
  unfold ccsEval
  apply sum_eq_zero
  intro k hk
  have := h k (mem_range.1 hk)
  obtain ⟨a, l, e⟩ := List.exists_cons_of_ne_nil this
  rw [e, List.map_cons, List.prod_cons, hu a, zero_mul, mul_zero]

/-- **C40** is false: the verifier can be made to accept every fresh statement, true or not. From any valid
accumulator whose witness is known, for every transcript and every commitment and public input there is an
accepted proof, and the resulting accumulator is valid, with a known witness. -/
theorem C40_forgery (rd : RingData Fp F C N τ) (P : Params) (cs : ChallengeSet C)
    (T : Transcript F (Fin N → F) σ) (s : σ) (ccs : CCS (Fin N → F)) (scheme : Ajtai (Fin N → F))
    (acc : LCCCS (Fin N → F)) (wAcc : Witness (Fin N → F) C)
    (hP : ParamsOK Fp P) (hS : SizesOK P ccs scheme) (ht : ccs.t = ccs.M.length)
    (hne : ∀ k < ccs.q, ccs.S.getD k [] ≠ [])
    (hc : CharGt F (2 * P.bSmall)) (hd : CharGt F (ccs.d + 1))
    (hT : ∀ s n, (T.bytes s n).1.length = n)
    (hcs : ∀ bs, bs.length = cs.bytesNeeded → ∃ c, cs.decode bs = .ok c)
    (hacc : LcccsHolds rd P ccs scheme acc wAcc) (hsh : WitShort rd (reach P.bSmall P.K) wAcc)
    (cm : CCCS (Fin N → F)) :
    ∃ proof st s' w', nifsVerify rd P cs T s acc cm proof ccs = .ok (st, s') ∧
      LcccsHolds rd P ccs scheme st w' := by
  have hsan := sanity_ok hS
  have hK := hP.Kpos
  set s0 := absorbPublicInput T s acc cm
  obtain ⟨zp, sc, s1, hz1, hz2, hz3⟩ := zero_sumcheck (R := Fin N → F) T (squeezeBeta T s0 ccs.s).2 ccs.s (ccs.d + 1)
    hS.sh.spos (by omega) hd
  set lp : LinProof (Fin N → F) := ⟨zp, [], List.replicate ccs.M.length 0⟩ with hlp
  have hu0 : ∀ j, (List.replicate ccs.M.length (0 : Fin N → F)).getD j 0 = 0 := by
    intro j
    rw [List.getD_eq_getElem?_getD, List.getElem?_replicate]
    split <;> rfl
  set lin : LCCCS (Fin N → F) := ⟨sc.point.map (algebraMap F (Fin N → F)), lp.v, cm.cm, lp.u, cm.x_ccs, 1⟩ with hlin
  have hlin1 : linVerify T s0 cm lp ccs = .ok (lin, T.absorbSlice (T.absorbSlice s1 lp.v) lp.u) := by
    rw [C29_verify_iff T s0 _ cm lp ccs hS.sh.wf (by simp [hlp]) lin]
    exact ⟨sc, s1, hz1, by rw [hz2, ccsEval_zero ccs hne _ hu0, mul_zero], rfl, rfl⟩
  set s2 := T.absorbSlice (T.absorbSlice s1 lp.v) lp.u
  obtain ⟨mz, l, ws, pL, s3, ha1, ha2, ha3, ha4, ha5, ⟨hp1, hp2, hp3, hp4⟩, ha6⟩ :=
    C30_decomposition_complete rd P T s2 acc wAcc ccs scheme hP hS hacc hsh
  obtain ⟨s4, hb⟩ := C33_extra_pieces_accepted P T s2 s3 acc pL l ha2 hp1 hp2 hp3 hp4 l
  have hlr : l.map (fun e => { e with r := acc.r }) = l := by
    conv_rhs => rw [← List.map_id l]
    apply List.map_congr_left
    intro e he
    obtain ⟨k, hk, rfl⟩ := List.mem_iff_getElem.1 he
    obtain ⟨st, w, a, -, -, d, -⟩ := ha6 k (by omega)
    rw [List.getElem?_eq_getElem hk] at a
    cases a
    rw [← d]
    rfl
  rw [hlr] at hb
  obtain ⟨s5, hcR⟩ := C33_single_piece_accepted P T s4 lin hK
    (fun k hk => lt_of_le_of_lt (Nat.pow_le_pow_right (by have := hP.b2; omega) (by omega)) hP.nooverflow)
  have hin := foldInput_append rd P ccs scheme ha3 ha4 ha5 ha3 ha4 ha5 ha6 ha6
  obtain ⟨st, w', proof, s6, rho, p, -, h2, h3, -⟩ := fold_complete rd P cs T s5 ccs scheme _ _ _ hP hS ht
    hin hc hT hcs
  have h4 := C38_extra_statements_ignored rd P hK cs T s5 s6 _ [lin] proof ccs st hin.cmLen h2
    (by intro e he; rw [List.mem_singleton.1 he, hlin]; simpa using hz3)
  refine ⟨⟨lp, ⟨pL.uS ++ l.map (·.u), pL.vS ++ l.map (·.v), pL.xS ++ l.map (fun e => e.x_w ++ [e.h]),
    pL.yS ++ l.map (·.cm)⟩, ⟨[lin.u], [lin.v], [lin.x_w ++ [lin.h]], [lin.cm]⟩, proof⟩, st, s6, w', ?_, h3⟩
  unfold nifsVerify
  simp only [hsan, bind_ok']
  rw [hlin1]
  simp only [bind_ok', hb, hcR, h4]

theorem nifsVerify_iff (rd : RingData Fp F C N τ) (P : Params) (cs : ChallengeSet C)
    (T : Transcript F (Fin N → F) σ) (s s' : σ) (acc st : LCCCS (Fin N → F)) (cm : CCCS (Fin N → F))
    (proof : LFProof (Fin N → F)) (ccs : CCS (Fin N → F)) :
    nifsVerify rd P cs T s acc cm proof ccs = .ok (st, s') ↔ sanityCheck ccs P.L = .ok () ∧
      ∃ lin s1 l s2 r s3, linVerify T (absorbPublicInput T s acc cm) cm proof.lin ccs = .ok (lin, s1) ∧
        decVerify P T s1 acc proof.decL = .ok (l, s2) ∧ decVerify P T s2 lin proof.decR = .ok (r, s3) ∧
        foldVerify rd P cs T s3 (l ++ r) proof.fold ccs = .ok (st, s') := by
  unfold nifsVerify
  simp only [bind_eq_ok, Prod.exists]
  constructor
  · rintro ⟨_, h0, lin, s1, h1, l, s2, h2, r, s3, h3, h4⟩
    exact ⟨h0, lin, s1, l, s2, r, s3, h1, h2, h3, h4⟩
  · rintro ⟨h0, lin, s1, l, s2, r, s3, h1, h2, h3, h4⟩
    exact ⟨_, h0, lin, s1, h1, l, s2, h2, r, s3, h3, h4⟩

theorem zipAssign_add_getD {R : Type} [CommRing R] (a b : List R) (i : Nat) (hi : i < a.length) :
    (zipAssign (· + ·) a b).getD i 0 = a.getD i 0 + b.getD i 0 := by
  induction a generalizing b i with
  | nil => simp at hi
  | cons x a ih =>
    cases b with
    | nil => simp [zipAssign]
    | cons y b =>
      cases i with
      | zero => simp [zipAssign]
      | succ i =>
        simp only [zipAssign, List.getD_cons_succ]
        exact ih b i (by simpa using hi)

theorem foldl_zipAssign_ragged {R : Type} [CommRing R] (K : Nat) (g : Nat → List R) (z : List R) :
    (((List.range K).map g).foldl (zipAssign (· + ·)) z).length = z.length ∧ ∀ i < z.length,
      (((List.range K).map g).foldl (zipAssign (· + ·)) z).getD i 0 = z.getD i 0 + ∑ k ∈ range K, (g k).getD i 0 := by
  induction K with
  | zero => simp
  | succ K ih =>
    obtain ⟨h1, h2⟩ := ih
    rw [List.range_succ, List.map_append, List.foldl_append]
    simp only [List.map_cons, List.map_nil, List.foldl_cons, List.foldl_nil]
    refine ⟨by rw [zipAssign_length, h1], fun i hi => ?_⟩
    rw [zipAssign_add_getD _ _ _ (by rw [h1]; exact hi), h2 i hi, sum_range_succ, add_assoc]

theorem foldl_add_val {R : Type} [CommRing R] (cs : List (Commitment R)) (z : Commitment R) :
    (cs.foldl Commitment.add z).val = (cs.map (·.val)).foldl (zipAssign (· + ·)) z.val := by
  induction cs generalizing z with
  | nil => rfl
  | cons c cs ih =>
    rw [List.foldl_cons, ih]
    rfl

/-- **C40** (partial): if both decomposition proofs have exactly `K` pieces, which the verifier does not
check, then the accumulator and the fresh statement are used: the folded commitment and public input are
combinations of `2K` pieces of which the first `K` recompose the accumulator and the last `K` the fresh
commitment and public input. -/
theorem C40_statement_folded_partial (rd : RingData Fp F C N τ) (P : Params) (cs : ChallengeSet C)
    (T : Transcript F (Fin N → F) σ) (s s' : σ) (acc st : LCCCS (Fin N → F)) (cm : CCCS (Fin N → F))
    (proof : LFProof (Fin N → F)) (ccs : CCS (Fin N → F)) (wf : CCSWF ccs) (hK : 1 ≤ P.K)
    (hT : ∀ s n, (T.bytes s n).1.length = n)
    (hcs : ∀ bs, bs.length = cs.bytesNeeded → ∃ c, cs.decode bs = .ok c)
    (hl : proof.decL.uS.length = P.K ∧ proof.decL.vS.length = P.K ∧ proof.decL.xS.length = P.K ∧
      proof.decL.yS.length = P.K)
    (hr : proof.decR.uS.length = P.K ∧ proof.decR.vS.length = P.K ∧ proof.decR.xS.length = P.K ∧
      proof.decR.yS.length = P.K)
    (hu : ccs.M.length ≤ proof.lin.u.length)
    (h : nifsVerify rd P cs T s acc cm proof ccs = .ok (st, s')) :
    ∃ (l r : List (LCCCS (Fin N → F))) (rho : Nat → C), l.length = P.K ∧ r.length = P.K ∧
      RecomposesCm (P.bSmall : Fin N → F) P.K (l.map (·.cm)) acc.cm ∧
      RecomposesCm (P.bSmall : Fin N → F) P.K (r.map (·.cm)) cm.cm ∧
      Recomposes (P.bSmall : Fin N → F) P.K (l.map fun st => st.x_w ++ [st.h]) (acc.x_w ++ [acc.h]) ∧
      Recomposes (P.bSmall : Fin N → F) P.K (r.map fun st => st.x_w ++ [st.h]) (cm.x_ccs ++ [1]) ∧
      rho (2 * P.K - 1) = 1 ∧
      (∀ k < 2 * P.K - 1, ∃ bs, bs.length = cs.bytesNeeded ∧ cs.decode bs = .ok (rho k)) ∧
      (∀ j < st.cm.val.length, st.cm.val.getD j 0 = ∑ k ∈ range (2 * P.K), rd.crt (rho k)
        * ((l ++ r).getD k ⟨[], [], ⟨[]⟩, [], [], 0⟩).cm.val.getD j 0) ∧
      st.cm.val.length = acc.cm.val.length ∧ (st.x_w ++ [st.h]).length = ccs.l + 1 ∧
      (∀ j < ccs.l + 1, (st.x_w ++ [st.h]).getD j 0 = ∑ k ∈ range (2 * P.K), rd.crt (rho k)
        * (((l ++ r).getD k ⟨[], [], ⟨[]⟩, [], [], 0⟩).x_w
          ++ [((l ++ r).getD k ⟨[], [], ⟨[]⟩, [], [], 0⟩).h]).getD j 0) := by
  obtain ⟨h0, lin, s1, l, s2, r, s3, h1, h2, h3, h4⟩ := (nifsVerify_iff rd P cs T s s' acc st cm proof ccs).1 h
  obtain ⟨a1, -, -, -, a5, a6⟩ := C33_pieces_constrained_partial P T _ _ _ _ _ h2 hl.1 hl.2.1 hl.2.2.1 hl.2.2.2
  obtain ⟨b1, -, -, -, b5, b6⟩ := C33_pieces_constrained_partial P T _ _ _ _ _ h3 hr.1 hr.2.1 hr.2.2.1 hr.2.2.2
  obtain ⟨sc, t2, -, -, e, -⟩ := (C29_verify_iff T _ s1 cm proof.lin ccs wf hu lin).1 h1
  obtain ⟨-, ch, t1, sc, t2, eS, es, rhoC, rho, out, -, -, -, -, -, c1, c2, c3⟩ :=
    (foldVerify_iff rd P cs T s3 s' _ _ ccs st).1 h4
  obtain ⟨rho', t3, d1, d2, d3⟩ := getRhos_ok rd P hK cs T hT hcs
    (proof.fold.etaS.foldl T.absorbSlice (proof.fold.thetaS.foldl T.absorbSlice t2))
  rw [d1] at c1
  simp only [Except.ok.injEq, Prod.mk.injEq] at c1
  obtain ⟨⟨rfl, rfl⟩, rfl⟩ := c1
  subst e
  unfold computeFolded at c2
  rw [bind_eq_ok] at c2
  obtain ⟨v0, -, c2⟩ := c2
  set st0 : LCCCS (Fin N → F) := ⟨[], [], ⟨[]⟩, [], [], 0⟩ with hst0
  have hlr : l ++ r = (List.range (2 * P.K)).map fun k => (l ++ r).getD k st0 :=
    list_eq_range _ _ (by rw [List.length_append]; omega)
  rw [hlr, zipWith_map_self, zipWith_map_self, ← hlr] at c2
  have hlen : headCmLen (l ++ r) = acc.cm.val.length := by
    obtain ⟨-, -, h5, -⟩ := a6
    cases l with
    | nil => simp at a1; omega
    | cons c l => simpa [headCmLen, Commitment.len] using h5.symm
  have hcm := foldl_zipAssign_ragged (2 * P.K) (fun k => ((l ++ r).getD k st0).cm.val.map (· * rd.crt (rho' k)))
    (List.replicate (headCmLen (l ++ r)) (0 : Fin N → F))
  have hx := foldl_zipAssign_ragged (2 * P.K) (fun k => (((l ++ r).getD k st0).x_w ++ [((l ++ r).getD k st0).h]).map
    fun x => rd.crt (rho' k) * x) (List.replicate (ccs.l + 1) (0 : Fin N → F))
  rw [List.length_replicate] at hcm hx
  have hz : ∀ n i, (List.replicate n (0 : Fin N → F)).getD i 0 = 0 := by
    intro n i
    rw [List.getD_eq_getElem?_getD, List.getElem?_replicate]
    split <;> rfl
  have hx0ne : (((List.range (2 * P.K)).map fun k => (((l ++ r).getD k st0).x_w ++ [((l ++ r).getD k st0).h]).map
    fun x => rd.crt (rho' k) * x).foldl (zipAssign (· + ·)) (List.replicate (ccs.l + 1) (0 : Fin N → F))) ≠ [] := by
    intro h
    have := hx.1
    rw [h] at this
    simp at this
  rw [← Except.ok.inj c2, foldOutput_ok _ _ _ _ _ hx0ne] at c3
  have hst := (Except.ok.inj c3).symm
  have hxs : st.x_w ++ [st.h] = ((List.range (2 * P.K)).map fun k => (((l ++ r).getD k st0).x_w
      ++ [((l ++ r).getD k st0).h]).map fun x => rd.crt (rho' k) * x).foldl (zipAssign (· + ·))
        (List.replicate (ccs.l + 1) (0 : Fin N → F)) := by
    rw [hst]
    simp only
    rw [List.getLastD_eq_getLast?, List.getLast?_eq_some_getLast hx0ne]
    exact List.dropLast_append_getLast hx0ne
  have hcs' : st.cm.val = ((List.range (2 * P.K)).map fun k => ((l ++ r).getD k st0).cm.val.map
      (· * rd.crt (rho' k))).foldl (zipAssign (· + ·)) (List.replicate (headCmLen (l ++ r)) (0 : Fin N → F)) := by
    rw [hst]
    simp only
    rw [foldl_add_val, List.map_map]
    rfl
  have hmap : ∀ (v : List (Fin N → F)) (a : Fin N → F) (j : Nat), (v.map (· * a)).getD j 0 = a * v.getD j 0 := by
    intro v a j
    simp only [List.getD_eq_getElem?_getD, List.getElem?_map]
    cases v[j]? <;> simp [mul_comm]
  have hmap' : ∀ (v : List (Fin N → F)) (a : Fin N → F) (j : Nat), (v.map fun x => a * x).getD j 0 = a * v.getD j 0 := by
    intro v a j
    simp only [List.getD_eq_getElem?_getD, List.getElem?_map]
    cases v[j]? <;> simp
  refine ⟨l, r, rho', a1, b1, a6, b6, a5, b5, d2, d3, ?_, ?_, ?_, ?_⟩
  · intro j hj
    rw [hcs', hcm.1] at hj
    rw [hcs', hcm.2 j hj, hz, zero_add]
    exact sum_congr rfl fun k _ => hmap _ _ _
  · rw [hcs', hcm.1, hlen]
  · rw [hxs, hx.1]
  · intro j hj
    rw [hxs, hx.2 j hj, hz, zero_add]
    exact sum_congr rfl fun k _ => hmap' _ _ _

/-! ## C47 -/

theorem comb_short (rd : RingData Fp F C N τ) (P : Params) (cs : ChallengeSet C) (hN : NormOK rd P cs)
    {rho : Nat → C} {f : Nat → List C} {g : List C} {n : Nat} (h1 : rho (2 * P.K - 1) = 1)
    (h2 : ∀ k < 2 * P.K - 1, ∃ bs, bs.length = cs.bytesNeeded ∧ cs.decode bs = .ok (rho k))
    (h3 : ∀ k < 2 * P.K, ∀ c ∈ f k, ∀ i, Short P.bSmall (rd.coeff c i)) (h : IsComb (2 * P.K) rho f g n) :
    ∀ c ∈ g, ∀ i, Short (reach P.bSmall P.K) (rd.coeff c i) := by
  intro c hc i
  obtain ⟨j, hj, rfl⟩ := List.mem_iff_getElem.1 hc
  have e := h.eq j (by rw [← h.len]; exact hj)
  rw [List.getD_eq_getElem?_getD, List.getElem?_eq_getElem hj, Option.getD_some] at e
  rw [e]
  refine hN rho (fun k => (f k).getD j 0) h1 h2 (fun k hk i => ?_) i
  have hjk : j < (f k).length := by rw [h.lens k hk, ← h.len]; exact hj
  rw [List.getD_eq_getElem?_getD, List.getElem?_eq_getElem hjk, Option.getD_some]
  exact h3 k hk _ (List.getElem_mem hjk) i

/-- **C47**: accumulation stays in sync. For every list of valid fresh statements, if combinations by
challenges of lists of digits fit in `K` digits, the prover's steps all succeed, the verifier accepts all proofs, and
both have the same accumulator after every step and the same final transcript state; the last accumulator is
valid and short for the last witness, so that accumulation can go on. -/
theorem C47_ivc_sync (rd : RingData Fp F C N τ) (P : Params) (cs : ChallengeSet C)
    (T : Transcript F (Fin N → F) σ) (ccs : CCS (Fin N → F)) (scheme : Ajtai (Fin N → F))
    (hP : ParamsOK Fp P) (hS : SizesOK P ccs scheme) (ht : ccs.t = ccs.M.length) (al : Aligned ccs)
    (hc : CharGt F (2 * P.bSmall)) (hd : CharGt F (ccs.d + 1))
    (hT : ∀ s n, (T.bytes s n).1.length = n)
    (hcs : ∀ bs, bs.length = cs.bytesNeeded → ∃ c, cs.decode bs = .ok c) (hN : NormOK rd P cs)
    (steps : List (CCCS (Fin N → F) × Witness (Fin N → F) C))
    (hsteps : ∀ p ∈ steps, FreshHolds rd P ccs scheme p.1 p.2) (s : σ)
    (acc : LCCCS (Fin N → F)) (wAcc : Witness (Fin N → F) C) 
    (hacc : LcccsHolds rd P ccs scheme acc wAcc) (hsh : WitShort rd (reach P.bSmall P.K) wAcc) :
    ∃ accs proofs acc' w' s', ivcProve rd P cs T ccs scheme steps s acc wAcc = .ok ((accs, proofs, acc', w'), s') ∧
      ivcVerify rd P cs T ccs ((steps.map (·.1)).zip proofs) s acc = .ok ((accs, acc'), s') ∧
      accs.length = steps.length ∧ proofs.length = steps.length ∧
      LcccsHolds rd P ccs scheme acc' w' ∧ WitShort rd (reach P.bSmall P.K) w' := by
  induction steps generalizing s acc wAcc with
  | nil => exact ⟨[], [], acc, wAcc, s, rfl, rfl, rfl, rfl, hacc, hsh⟩
  | cons p steps ih =>
    obtain ⟨cm, w⟩ := p
    obtain ⟨st, w1, proof, s1, h1, h2, h3, -, -, rho, f, h4, h5, h6, h7⟩ := C39_nifs_complete rd P cs T s ccs scheme acc
      wAcc cm w hP hS ht al hc hd hT hcs hacc hsh (hsteps (cm, w) (by simp))
    obtain ⟨accs, proofs, acc', w', s', g1, g2, g3, g4, g5, g6⟩ := ih (fun p hp => hsteps p (by simp [hp])) s1 st w1 h3
      (comb_short rd P cs hN h4 h5 h6 h7)
    refine ⟨st :: accs, proof :: proofs, acc', w', s', ?_, ?_, by simp [g3], by simp [g4], g5, g6⟩
    · simp only [ivcProve, h1, bind_ok', g1]
    · simp only [List.map_cons, List.zip_cons_cons, ivcVerify, h2, bind_ok', g2]

end Ring

/-! ## C41 -/

section
variable {F R : Type} [Field F] [CommRing R] [Algebra F R]

/-- The sequence absorbed for an accumulator and a statement. -/
def publicLog (F : Type) {R : Type} [Field F] [CommRing R] [Algebra F R] (acc : LCCCS R) (cm : CCCS R) : List R :=
  algebraMap F R (labelNat "acc" : F) :: acc.r ++ acc.v ++ acc.cm.val ++ acc.u ++ acc.x_w ++ [acc.h]
    ++ [algebraMap F R (labelNat "cm_i" : F)] ++ cm.cm.val ++ cm.x_ccs

/-- The transcript state depends on the public input through `publicLog` only. -/
theorem C41_absorbed_sequence (T : Transcript F R σ) (s : σ) (acc : LCCCS R) (cm : CCCS R) :
    absorbPublicInput T s acc cm = T.absorbSlice s (publicLog F acc cm) := by
  simp only [absorbPublicInput, publicLog, Transcript.absorbSlice, List.foldl_append, List.foldl_cons, List.foldl_nil,
    absorbLabel, Transcript.absorbField]

/-- **C41** is false: moving an element from one field to the next does not change what is absorbed, for any
transcript. -/
theorem C41_collisions (T : Transcript F R σ) (s : σ) (acc : LCCCS R) (c x r v : List R) (a : R) :
    absorbPublicInput T s acc ⟨⟨c ++ [a]⟩, x⟩ = absorbPublicInput T s acc ⟨⟨c⟩, a :: x⟩ ∧
    absorbPublicInput T s { acc with r := r ++ [a], v := v } ⟨⟨c⟩, x⟩
      = absorbPublicInput T s { acc with r := r, v := a :: v } ⟨⟨c⟩, x⟩ := by
  constructor <;> simp [C41_absorbed_sequence, publicLog]

/-- **C41** (partial): public inputs whose fields have equal lengths are determined by the absorbed sequence.
Missing: the lengths are not absorbed (`C41_collisions`), nor is the constraint system. -/
theorem C41_fixed_lengths_partial (acc acc' : LCCCS R) (cm cm' : CCCS R)
    (h : publicLog F acc cm = publicLog F acc' cm')
    (h1 : acc.r.length = acc'.r.length) (h2 : acc.v.length = acc'.v.length)
    (h3 : acc.cm.val.length = acc'.cm.val.length) (h4 : acc.u.length = acc'.u.length)
    (h5 : acc.x_w.length = acc'.x_w.length) (h6 : cm.cm.val.length = cm'.cm.val.length) :
    acc = acc' ∧ cm = cm' := by
  obtain ⟨r, v, ⟨c⟩, u, x, hh⟩ := acc
  obtain ⟨r', v', ⟨c'⟩, u', x', hh'⟩ := acc'
  obtain ⟨⟨d⟩, y⟩ := cm
  obtain ⟨⟨d'⟩, y'⟩ := cm'
  simp only at h1 h2 h3 h4 h5 h6
  simp only [publicLog, List.append_assoc, List.cons_append] at h
  have g0 := (List.cons.inj h).2
  obtain ⟨rfl, g1⟩ := List.append_inj g0 h1
  obtain ⟨rfl, g2⟩ := List.append_inj g1 h2
  obtain ⟨rfl, g3⟩ := List.append_inj g2 h3
  obtain ⟨rfl, g4⟩ := List.append_inj g3 h4
  obtain ⟨rfl, g5⟩ := List.append_inj g4 h5
  obtain ⟨e, g6⟩ := List.append_inj (s₁ := [hh]) (s₂ := [hh']) g5 rfl
  have g7 := (List.cons.inj g6).2
  obtain ⟨rfl, rfl⟩ := List.append_inj (s₁ := d) (s₂ := d') g7 h6
  simp only [List.cons.injEq, and_true] at e
  subst e
  exact ⟨rfl, rfl⟩

end

open Verif.Example

/-! ## Concrete cases -/

/-- A true statement: `x = (1,4)`, `w = ((2,3), (2,2))` with `x * w_0 = w_1`. -/
def fresh5 : CCCS C5 := ⟨⟨scheme5.matrix.vals.map fun row => dot row [![2, 3], ![2, 2]]⟩, [![1, 4]]⟩

theorem fresh5_holds : FreshHolds ring5 par5 ccs5 scheme5 fresh5 (wit5 ![2, 3] ![2, 2]) where
  witOK := mkWit_ok ring5 par5 (wl := 2) _ rfl
  opens := commit_ok scheme5 _ (by simp [wit5, mkWit, scheme5])
  xlen := rfl
  sat := by
    intro i hi
    have hi : i < 2 := hi
    interval_cases i <;> decide +kernel
  short := wit5_short _ _

theorem norm5 : NormOK ring5 par5 cs5 := fun _ _ _ _ _ _ => Short.reach (b := 2) (k := 2) (by decide) (par5_ok.cover _)

theorem aligned5 : Aligned ccs5 := by
  unfold Aligned
  decide +kernel

theorem charGt5d : CharGt (ZMod 5) (ccs5.d + 1) := by
  intro k h1 h2
  have : k ≤ 3 := h2
  interval_cases k <;> decide

example : ∃ st w' proof s', nifsProve ring5 par5 cs5 tr5 3 (acc5 ![3, 3] ![1, 4] ![2, 0] (wit5 ![1, 2] ![4, 0]))
      (wit5 ![1, 2] ![4, 0]) fresh5 (wit5 ![2, 3] ![2, 2]) ccs5 scheme5 = .ok ((st, w', proof), s') ∧
    nifsVerify ring5 par5 cs5 tr5 3 (acc5 ![3, 3] ![1, 4] ![2, 0] (wit5 ![1, 2] ![4, 0])) fresh5 proof ccs5
      = .ok (st, s') := by
  obtain ⟨st, w', proof, s', h1, h2, -⟩ := C39_nifs_complete ring5 par5 cs5 tr5 3 ccs5 scheme5 _ _ fresh5 _ par5_ok
    sizes5 rfl aligned5 charGt5 charGt5d tr5_bytes cs5_ok (acc5_holds ![3, 3] ![1, 4] ![2, 0] ![1, 2] ![4, 0])
    (wit5_short _ _) fresh5_holds
  exact ⟨st, w', proof, s', h1, h2⟩

example : ∃ proof st s', ∃ (l r : List (LCCCS C5)) (rho : Nat → C5), l.length = 2 ∧ r.length = 2 ∧
    nifsVerify ring5 par5 cs5 tr5 3 (acc5 ![3, 3] ![1, 4] ![2, 0] (wit5 ![1, 2] ![4, 0])) fresh5 proof ccs5
      = .ok (st, s') ∧
    RecomposesCm (par5.bSmall : C5) 2 (r.map (·.cm)) fresh5.cm ∧
    ∀ j < st.cm.val.length, st.cm.val.getD j 0 = ∑ k ∈ range 4, ring5.crt (rho k)
        * ((l ++ r).getD k ⟨[], [], ⟨[]⟩, [], [], 0⟩).cm.val.getD j 0 := by
  obtain ⟨st, w', proof, s', h1, h2, -, h4, h5, -⟩ := C39_nifs_complete ring5 par5 cs5 tr5 3 ccs5 scheme5 _ _ fresh5 _
    par5_ok sizes5 rfl aligned5 charGt5 charGt5d tr5_bytes cs5_ok (acc5_holds ![3, 3] ![1, 4] ![2, 0] ![1, 2] ![4, 0])
    (wit5_short _ _) fresh5_holds
  obtain ⟨l, r, rho, g1, g2, -, g4, -, -, -, -, g5, -⟩ := C40_statement_folded_partial ring5 par5 cs5 tr5 3 s' _ st fresh5
    proof ccs5 sizes5.sh.wf (by decide) tr5_bytes cs5_ok (h4 _ (by simp)) (h4 _ (by simp)) h5.ge h2
  exact ⟨proof, st, s', l, r, rho, g1, g2, h2, g4, g5⟩

example (n : Nat) : ∃ accs proofs acc' w' s', ivcProve ring5 par5 cs5 tr5 ccs5 scheme5
      (List.replicate n (fresh5, wit5 ![2, 3] ![2, 2])) 0
      (acc5 ![3, 3] ![1, 4] ![2, 0] (wit5 ![1, 2] ![4, 0])) (wit5 ![1, 2] ![4, 0])
        = .ok ((accs, proofs, acc', w'), s') ∧ accs.length = n := by
  obtain ⟨accs, proofs, acc', w', s', h1, -, h3, -⟩ := C47_ivc_sync ring5 par5 cs5 tr5 ccs5 scheme5 par5_ok sizes5 rfl
    aligned5 charGt5 charGt5d tr5_bytes cs5_ok norm5 (List.replicate n (fresh5, wit5 ![2, 3] ![2, 2]))
    (fun p hp => by rw [List.eq_of_mem_replicate hp]; exact fresh5_holds) 0 _ _
    (acc5_holds ![3, 3] ![1, 4] ![2, 0] ![1, 2] ![4, 0]) (wit5_short _ _)
  exact ⟨accs, proofs, acc', w', s', h1, by simpa using h3⟩

/-- A CCS with the constraint `z_0 * z_1 = 0` on the public input: unsatisfiable with `x = 1`. -/
def ccs5u : CCS C5 :=
  { m := 2, n := 4, l := 1, t := 3, q := 2, d := 2, s := 1, s_prime := 2
    M := [⟨2, 4, [[(1, 0)], [(1, 1)]]⟩, ⟨2, 4, [[(1, 1)], [(1, 1)]]⟩, ⟨2, 4, [[], [(1, 1)]]⟩]
    S := [[0, 1], [2]]
    c := [1, -1] }

theorem sizes5u : SizesOK par5 ccs5u scheme5 where
  sh := by
    refine ⟨⟨?_, rfl, rfl, ?_⟩, by decide, rfl, ?_, ?_⟩
    · intro M hM
      simp only [ccs5u, List.mem_cons, List.not_mem_nil, or_false] at hM
      rcases hM with rfl | rfl | rfl <;> exact ⟨⟨rfl, by simp⟩, rfl⟩
    · simp [ccs5u]
    · intro M hM
      simp only [ccs5u, List.mem_cons, List.not_mem_nil, or_false] at hM
      rcases hM with rfl | rfl | rfl <;> decide
    · intro k hk _
      have : k < 2 := hk
      have h : ∀ k < 2, (ccs5u.S.getD k []).length ≤ ccs5u.d := by decide
      exact h k this
  nl := by decide
  hat := by decide
  mat := ⟨rfl, by simp [scheme5]⟩
  width := rfl

/-- No witness satisfies the CCS with public input `1`. -/
theorem ccs5u_unsat (w : List C5) : ¬ CCSHolds ccs5u (([1] ++ [1]) ++ w) := by
  intro h
  have := h 0 (by decide)
  simp [ccsRow, ccs5u, mulVec, entry, sum_range_succ] at this

/-- **C40**, concrete negation: a statement that no witness satisfies is accepted. -/
theorem C40_false_statement_accepted (cm : Commitment C5) :
    (∀ w : List C5, ¬ CCSHolds ccs5u (([1] ++ [1]) ++ w)) ∧
    ∃ acc proof st s' w', nifsVerify ring5 par5 cs5 tr5 0 acc ⟨cm, [1]⟩ proof ccs5u = .ok (st, s') ∧
      LcccsHolds ring5 par5 ccs5u scheme5 st w' := by
  refine ⟨ccs5u_unsat, ?_⟩
  set w := wit5 ![1, 2] ![4, 0]
  set acc : LCCCS C5 := ⟨[![3, 3]], w.fHat.map fun m => mle m.get [![3, 3]], ⟨scheme5.matrix.vals.map fun row => dot row w.f⟩,
    ccs5u.M.map fun M => mle (mulVec M (([![1, 4]] ++ [![2, 0]]) ++ w.wCcs)) [![3, 3]], [![1, 4]], ![2, 0]⟩
  have hacc : LcccsHolds ring5 par5 ccs5u scheme5 acc w :=
    ⟨mkWit_ok ring5 par5 (wl := 2) _ rfl, commit_ok scheme5 _ (by simp [w, wit5, mkWit, scheme5]), rfl, ⟨rfl, rfl, rfl⟩⟩
  obtain ⟨proof, st, s', w', h1, h2⟩ := C40_forgery ring5 par5 cs5 tr5 0 ccs5u scheme5 acc w par5_ok sizes5u rfl
    (by decide) charGt5 charGt5d tr5_bytes cs5_ok hacc (wit5_short _ _) ⟨cm, [1]⟩
  exact ⟨acc, proof, st, s', w', h1, h2⟩

example (T : Transcript ℚ ℚ σ) (s : σ) : absorbPublicInput T s ⟨[1], [2], ⟨[3]⟩, [4], [5], 6⟩ ⟨⟨[7]⟩, [8]⟩
    = absorbPublicInput T s ⟨[1], [2], ⟨[3]⟩, [4], [5], 6⟩ ⟨⟨[]⟩, [7, 8]⟩ :=
  (C41_collisions T s ⟨[1], [2], ⟨[3]⟩, [4], [5], 6⟩ [] [8] [] [] 7).1

example (acc : LCCCS ℚ) (h : publicLog ℚ acc ⟨⟨[7]⟩, [8]⟩ = publicLog ℚ ⟨[1], [2], ⟨[3]⟩, [4], [5], 6⟩ ⟨⟨[7]⟩, [8]⟩)
    (h1 : acc.r.length = 1) (h2 : acc.v.length = 1) (h3 : acc.cm.val.length = 1) (h4 : acc.u.length = 1)
    (h5 : acc.x_w.length = 1) : acc.h = 6 := by
  rw [(C41_fixed_lengths_partial acc ⟨[1], [2], ⟨[3]⟩, [4], [5], 6⟩ ⟨⟨[7]⟩, [8]⟩ ⟨⟨[7]⟩, [8]⟩ h h1 h2 h3 h4 h5 rfl).1]

end Verif.Props
