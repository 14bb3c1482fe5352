import Verif.Props.RandomOracleChain
import Verif.Props.NifsKnowledge

/-!
# C95: the honest prover with the challenges of a random oracle
-/

set_option linter.unusedSectionVars false
set_option linter.unusedSimpArgs false

namespace Verif.Props

open Finset Spec Verif

variable {Fp F C : Type} {N τ : Nat} [Field Fp] [Field F] [DecidableEq F] [Algebra Fp F] [CommRing C]
  [Algebra Fp C] {σ : Type}

/-- The last evaluations of the folding prover are those of the given tables. -/
theorem foldProve_evals (rd : RingData Fp F C N τ) (P : Params) (cs : ChallengeSet C) (T : Transcript F (Fin N → F) σ) (s s' : σ)
    (cms : List (LCCCS (Fin N → F))) (ws : List (Witness (Fin N → F) C)) (ccs : CCS (Fin N → F)) (mz : List (List (Mle (Fin N → F))))
    (st : LCCCS (Fin N → F)) (w : Witness (Fin N → F) C) (proof : FoldProof (Fin N → F))
    (h : foldProve rd P cs T s cms ws ccs mz = .ok ((st, w, proof), s'))
    (hw : ∀ x ∈ ws, ∀ m ∈ x.fHat, st.r.length = m.numVars) (hm : ∀ x ∈ mz, ∀ m ∈ x, st.r.length = m.numVars) :
    proof.thetaS = ws.map (fun x => x.fHat.map fun m => mle m.get st.r) ∧ proof.etaS = mz.map (fun x => x.map fun m => mle m.get st.r) := by
  unfold foldProve at h
  rw [bind_eq_ok] at h
  obtain ⟨-, -, h⟩ := h
  split at h
  · cases h
  simp only [bind_eq_ok, Prod.exists] at h
  obtain ⟨ch, s1, -, mz1, -, z1, -, c1, -, mz2, -, z2, -, c2, -, g, deg, -, pr, pst, s2, -, theta, hth, eta, het, rhoC, rho, s3, -, f0, -,
    o1, o2, o3, o4, -, lc, hlc, w0, -, h⟩ := h
  simp only [Except.ok.injEq, Prod.mk.injEq] at h
  obtain ⟨⟨rfl, rfl, rfl⟩, rfl⟩ := h
  have hr : lc.r = pst.randomness.map (algebraMap F (Fin N → F)) := by
    unfold foldOutput at hlc
    split at hlc
    · cases hlc
    · rw [← Except.ok.inj hlc]
  rw [← hr] at hth het
  change mapRes (fun x => evaluateMles x lc.r) _ = _ at hth
  change mapRes (fun x => evaluateMles x lc.r) _ = _ at het
  rw [mapRes_map_ok (f := fun x => evaluateMles x lc.r) Witness.fHat (fun x : Witness (Fin N → F) C => x.fHat.map fun m => mle m.get lc.r) ws
    fun x hx => evaluateMles_ok _ _ (hw x hx)] at hth
  rw [mapRes_ok (g := fun x : List (Mle (Fin N → F)) => x.map fun m => mle m.get lc.r)
    fun x hx => evaluateMles_ok _ _ (hm x hx)] at het
  exact ⟨(Except.ok.inj hth).symm, (Except.ok.inj het).symm⟩

/-- The witnesses of the pieces recombine to the witness decomposed. -/
theorem decProve_recombined (rd : RingData Fp F C N τ) (P : Params) (T : Transcript F (Fin N → F) σ) (s s' : σ) (hP : ParamsOK Fp P)
    (cmi : LCCCS (Fin N → F)) (w : Witness (Fin N → F) C) (ccs : CCS (Fin N → F)) (scheme : Ajtai (Fin N → F)) {wl : Nat}
    (hlen : w.fCoeff.length = wl * P.L) (hne : w.fCoeff ≠ [])
    (hsh : WitShort rd (reach P.bSmall P.K) w) (mz : List (List (Mle (Fin N → F)))) (l : List (LCCCS (Fin N → F)))
    (ws : List (Witness (Fin N → F) C)) (p : DecProof (Fin N → F))
    (h : decProve rd P T s cmi w ccs scheme = .ok ((mz, l, ws, p), s')) : Recombined P ws w := by
  unfold decProve at h
  simp only [bind_eq_ok, Prod.exists] at h
  obtain ⟨-, -, fs, hfs, wits, hwits, xs, -, ys, -, vs, -, mz', -, us, -, l', s1, -, h⟩ := h
  simp only [Except.ok.injEq, Prod.mk.injEq] at h
  obtain ⟨⟨-, -, rfl, -⟩, -⟩ := h
  have hd := decomposeBVec_ok rd P hP.b2 hP.bEven hP.Kpos w.fCoeff hne hsh
  change _ = Except.ok ((List.range P.K).map fun k => w.fCoeff.map (pc rd P k)) at hd
  rw [hd] at hfs
  rw [← Except.ok.inj hfs] at hwits
  rw [mapRes_map_ok (fun k => w.fCoeff.map (pc rd P k)) (fun k => mkWit rd P wl (w.fCoeff.map (pc rd P k))) _
    fun k _ => fromFCoeff_ok rd P hP.Lpos _ (by rw [List.length_map, hlen])] at hwits
  rw [← Except.ok.inj hwits]
  have hcomb := pieces_comb rd hP w.fCoeff hsh
  intro j
  by_cases hj : j < w.fCoeff.length
  · rw [hcomb.eq j hj]
    refine sum_congr rfl fun k hk => ?_
    rw [Nat.cast_pow]
    congr 1
    simp [List.getD_eq_getElem?_getD, mem_range.1 hk, mkWit]
  · rw [List.getD_eq_default _ _ (by omega)]
    refine (sum_eq_zero fun k hk => ?_).symm
    have : (((List.range P.K).map fun k => mkWit rd P wl (w.fCoeff.map (pc rd P k))).getD k ⟨[], [], [], []⟩).fCoeff
        = w.fCoeff.map (pc rd P k) := by
      simp [List.getD_eq_getElem?_getD, mem_range.1 hk, mkWit]
    rw [this, List.getD_eq_default _ _ (by simp; omega), mul_zero]

/-- What the map `op` finds for the commitments of an honest decomposition. -/
theorem dec_honest_op (rd : RingData Fp F C N τ) (P : Params) (ccs : CCS (Fin N → F)) (scheme : Ajtai (Fin N → F))
    (hP : ParamsOK Fp P) (hS : SizesOK P ccs scheme)
    (op : Commitment (Fin N → F) → Witness (Fin N → F) C) (hop : ∀ y, WitOK rd P (ccs.n - ccs.l - 1) (op y))
    (hinv : ∀ (c : List C) (y : Commitment (Fin N → F)), (∀ x ∈ c, ∀ i, Short (reach P.bSmall P.K) (rd.coeff x i)) →
      scheme.commit (c.map rd.crt) = .ok y → (op y).fCoeff = c)
    (T : Transcript F (Fin N → F) σ) (cmi : LCCCS (Fin N → F)) (s s' : σ) (d : DecProof (Fin N → F))
    (l : List (LCCCS (Fin N → F))) (ws : List (Witness (Fin N → F) C)) (mz : List (List (Mle (Fin N → F))))
    (hf : DecFits P ccs scheme.matrix.vals.length τ d) (hver : decVerify P T s cmi d = .ok (l, s')) (hws : ws.length = P.K)
    (hmz : mz.length = P.K)
    (hk : ∀ k < P.K, ∃ stk witk, l[k]? = some stk ∧ ws[k]? = some witk ∧
      LcccsHolds rd P ccs scheme stk witk ∧ stk.r = cmi.r ∧ WitShort rd P.bSmall witk ∧
      mz[k]? = some (ccs.M.map fun M => ⟨ccs.s, (List.range M.nrows).map fun i =>
        mulVec M ((stk.x_w ++ [stk.h]) ++ witk.wCcs) i⟩)) :
    (∀ y ∈ d.yS, scheme.commit (op y).f = .ok y ∧ WitShort rd P.bSmall (op y)) ∧
    (∀ r, ws.map (fun x => x.fHat.map fun m => mle m.get r) = d.yS.map fun y => (op y).fHat.map fun m => mle m.get r) ∧
    (∀ r, mz.map (fun x => x.map fun m => mle m.get r)
      = List.zipWith (fun x y => ccs.M.map fun M => mle (mulVec M (x ++ (op y).wCcs)) r) d.xS d.yS) ∧
    ∀ k, (((d.yS.map op).getD k ⟨[], [], [], []⟩).fCoeff = (ws.getD k ⟨[], [], [], []⟩).fCoeff) := by
  have hKp := hP.Kpos
  have hb2b : ∀ {x : Fp}, Short P.bSmall x → Short (reach P.bSmall P.K) x := by
    rintro x ⟨n, hn, rfl⟩
    refine ⟨n, hn.trans ?_, rfl⟩
    exact (Nat.le_self_pow (by omega) _).trans (pow_le_reach _ hKp)
  have key : ∀ k < P.K, ∃ y witk x, d.yS[k]? = some y ∧ ws[k]? = some witk ∧ d.xS[k]? = some x ∧ scheme.commit witk.f = .ok y ∧
      WitOK rd P (ccs.n - ccs.l - 1) witk ∧ (op y).fCoeff = witk.fCoeff ∧ WitShort rd P.bSmall witk ∧
      mz[k]? = some (ccs.M.map fun M => ⟨ccs.s, (List.range M.nrows).map fun i => mulVec M (x ++ witk.wCcs) i⟩) := by
    intro k hk'
    obtain ⟨stk, witk, g1, g2, g3, -, g5, g6⟩ := hk k hk'
    obtain ⟨-, -, -, e1, -, e2⟩ := (dec_piece P _ _ _ cmi d l hver hf.x.1 hf.y.1 hf.u.1 hf.v.1).2 k stk g1
    refine ⟨stk.cm, witk, stk.x_w ++ [stk.h], ?_, g2, ?_, g3.cm, g3.witOK, ?_, g5, g6⟩
    · rw [e1, List.getD_eq_getElem?_getD, List.getElem?_eq_getElem (by rw [hf.y.1]; exact hk')]
      rfl
    · rw [e2, List.getD_eq_getElem?_getD, List.getElem?_eq_getElem (by rw [hf.x.1]; exact hk')]
      rfl
    · exact hinv _ _ (fun x hx i => hb2b (g5 x hx i)) (by rw [← g3.witOK.f]; exact g3.cm)
  refine ⟨?_, ?_, ?_, ?_⟩
  · intro y hy
    obtain ⟨k, hk', rfl⟩ := List.mem_iff_getElem.1 hy
    obtain ⟨y, witk, x, g1, -, -, g2, g3, g4, g5, -⟩ := key k (by rw [← hf.y.1]; exact hk')
    rw [List.getElem?_eq_getElem hk'] at g1
    cases g1
    refine ⟨?_, ?_⟩
    · rw [(hop _).f, g4, ← g3.f]
      exact g2
    · intro c hc
      rw [g4] at hc
      exact g5 c hc
  · intro r
    apply List.ext_getElem?
    intro k
    by_cases hk' : k < P.K
    · obtain ⟨y, witk, x, g1, g2, -, -, g3, g4, -, -⟩ := key k hk'
      rw [List.getElem?_map, List.getElem?_map, g1, g2, Option.map_some, Option.map_some, g3.vEval, (hop y).vEval, g4]
    · rw [List.getElem?_eq_none (by simp [hws]; omega), List.getElem?_eq_none (by simp [hf.y.1]; omega)]
  · intro r
    apply List.ext_getElem?
    intro k
    by_cases hk' : k < P.K
    · obtain ⟨y, witk, x, g1, g2, g6, -, g3, g4, -, g5⟩ := key k hk'
      have hw : (op y).wCcs = witk.wCcs := (witOK_wCcs (hop y) g3 fun j => by rw [g4]).2
      rw [List.getElem?_map, List.getElem?_zipWith, g1, g6, g5]
      simp only [Option.map_some]
      rw [hw]
      exact congrArg some (mz_map_mle hS.sh.wf _ _)
    · rw [List.getElem?_eq_none (by simp [hmz]; omega), List.getElem?_eq_none (by simp [hf.y.1, hf.x.1]; omega)]
  · intro k
    by_cases hk' : k < P.K
    · obtain ⟨y, witk, x, g1, g2, -, -, -, g4, -, -⟩ := key k hk'
      rw [List.getD_eq_getElem?_getD, List.getD_eq_getElem?_getD, List.getElem?_map, g1, g2]
      exact g4
    · rw [List.getD_eq_default _ _ (by simp [hf.y.1]; omega), List.getD_eq_default _ _ (by omega)]

/-- **C95**: the conditions on openings in `C95_step` and `C95_chain` are those of the honest prover. For a valid accumulator and a valid
fresh statement, every oracle and every map `op` which finds the opening of every commitment to a short vector, the honest prover's proof
is accepted, the openings `op` of its commitments are consistent with it, and the step is valid. -/
theorem C95_honest (rd : RingData Fp F C N τ) (P : Params) (cs : ChallengeSet C)
    (ccs : CCS (Fin N → F)) (scheme : Ajtai (Fin N → F))
    (acc : LCCCS (Fin N → F)) (wAcc : Witness (Fin N → F) C) (cm : CCCS (Fin N → F)) (w : Witness (Fin N → F) C)
    (hP : ParamsOK Fp P) (hS : SizesOK P ccs scheme) (ht : ccs.t = ccs.M.length) (al : Aligned ccs)
    (hc : CharGt F (2 * P.bSmall)) (hd : CharGt F (ccs.d + 1))
    (hcs : ∀ bs, bs.length = cs.bytesNeeded → ∃ c, cs.decode bs = .ok c)
    (hacc : LcccsHolds rd P ccs scheme acc wAcc) (hsh : WitShort rd (reach P.bSmall P.K) wAcc)
    (hfresh : FreshHolds rd P ccs scheme cm w)
    (op : Commitment (Fin N → F) → Witness (Fin N → F) C) (hop : ∀ y, WitOK rd P (ccs.n - ccs.l - 1) (op y))
    (hinv : ∀ (c : List C) (y : Commitment (Fin N → F)), (∀ x ∈ c, ∀ i, Short (reach P.bSmall P.K) (rd.coeff x i)) →
      scheme.commit (c.map rd.crt) = .ok y → (op y).fCoeff = c)
    (O : History F (Fin N → F) → F) (B : History F (Fin N → F) → Nat → List UInt8) (hB : ∀ h n, (B h n).length = n)
    (h0 : History F (Fin N → F)) :
    ∃ st w' proof s', nifsProve rd P cs (oracleT O B) h0 acc wAcc cm w ccs scheme = .ok ((st, w', proof), s') ∧
      nifsVerify rd P cs (oracleT O B) h0 acc cm proof ccs = .ok (st, s') ∧
      StepOpened rd P ccs scheme scheme.matrix.vals.length op acc cm proof st ∧ StepValid rd P ccs scheme op acc cm proof := by
  have hsan := sanity_ok hS
  have hnl := hS.nl
  have hKp := hP.Kpos
  obtain ⟨lin, linp, s1, hl1, hl2, hlcm, hlx, hlh, -, hle⟩ := C27_linearization_complete (oracleT O B)
    (absorbPublicInput (oracleT O B) h0 acc cm) cm w ccs hS.sh al hd
    (by rw [hfresh.xlen, hfresh.witOK.wlen]; omega) hfresh.sat
    (fun m hm => by rw [hfresh.witOK.hatvars m hm, hS.hat])
  have hlin : LcccsHolds rd P ccs scheme lin w :=
    ⟨hfresh.witOK, by rw [hlcm]; exact hfresh.opens, by rw [hlx]; exact hfresh.xlen, hle⟩
  obtain ⟨mz1, l1, w1, p1, s2, ha1, ha2, ha3, ha4, ha5, ha7, ha6⟩ :=
    C30_decomposition_complete rd P (oracleT O B) s1 acc wAcc ccs scheme hP hS hacc hsh
  obtain ⟨mz2, l2, w2, p2, s3, hb1, hb2, hb3, hb4, hb5, hb7, hb6⟩ :=
    C30_decomposition_complete rd P (oracleT O B) s2 lin w ccs scheme hP hS hlin hfresh.short
  have hin := foldInput_append rd P ccs scheme ha3 ha4 ha5 hb3 hb4 hb5 ha6 hb6
  obtain ⟨st, w', proof, s4, rho, p, h1, h2, h3, -, -⟩ := fold_complete rd P cs (oracleT O B) s3 ccs scheme _ _ _ hP hS ht
    hin hc (fun h n => hB h n) hcs
  -- shapes
  have dL : DecShape P ccs scheme τ p1 := dec_honest_shape rd P ccs scheme hS acc p1 l1 w1 ha2 ha7 fun k hk => by
    obtain ⟨st, wk, g1, g2, g3, -⟩ := ha6 k hk
    exact ⟨st, wk, g1, g2, g3⟩
  have dR : DecShape P ccs scheme τ p2 := dec_honest_shape rd P ccs scheme hS lin p2 l2 w2 hb2 hb7 fun k hk => by
    obtain ⟨st, wk, g1, g2, g3, -⟩ := hb6 k hk
    exact ⟨st, wk, g1, g2, g3⟩
  have fL : DecFits P ccs scheme.matrix.vals.length τ p1 := ⟨⟨dL.xs, dL.x⟩, ⟨dL.ys, dL.y⟩, ⟨dL.us, dL.u⟩, ⟨dL.vs, dL.v⟩⟩
  have fR : DecFits P ccs scheme.matrix.vals.length τ p2 := ⟨⟨dR.xs, dR.x⟩, ⟨dR.ys, dR.y⟩, ⟨dR.us, dR.u⟩, ⟨dR.vs, dR.v⟩⟩
  have hcml : cm.cm.val.length = scheme.matrix.vals.length := by
    have := hfresh.opens
    rw [commit_ok scheme _ (by rw [hfresh.witOK.f, List.length_map, hfresh.witOK.flen, hS.width])] at this
    rw [← Except.ok.inj this]
    simp
  have hfits : StepFits P ccs scheme.matrix.vals.length τ acc cm ⟨linp, p1, p2, proof⟩ :=
    ⟨hacc.evals.rlen, hfresh.xlen, hcml, fL, fR⟩
  obtain ⟨aL, bL, cL, eL⟩ := dec_honest_op rd P ccs scheme hP hS op hop hinv _ acc s1 s2 p1 l1 w1 mz1 fL ha2 ha4 ha5 ha6
  obtain ⟨aR, bR, cR, eR⟩ := dec_honest_op rd P ccs scheme hP hS op hop hinv _ lin s2 s3 p2 l2 w2 mz2 fR hb2 hb4 hb5 hb6
  have hfl : ∀ {x : Witness (Fin N → F) C}, WitOK rd P (ccs.n - ccs.l - 1) x → x.fCoeff ≠ [] := by
    intro x hx h
    have h5 := hx.flen
    rw [h, List.length_nil] at h5
    have h4 : 0 < (ccs.n - ccs.l - 1) * P.L := Nat.mul_pos (by omega) hP.Lpos
    omega
  have rL : Recombined P (p1.yS.map op) wAcc := by
    intro j
    rw [decProve_recombined rd P _ _ _ hP acc wAcc ccs scheme hacc.witOK.flen (hfl hacc.witOK) hsh _ _ _ _ ha1 j]
    exact sum_congr rfl fun k _ => by rw [eL k]
  have hwc : (op cm.cm).fCoeff = w.fCoeff := hinv _ _ hfresh.short (by rw [← hfresh.witOK.f]; exact hfresh.opens)
  have rR : Recombined P (p2.yS.map op) (op cm.cm) := by
    intro j
    rw [hwc, decProve_recombined rd P _ _ _ hP lin w ccs scheme hfresh.witOK.flen (hfl hfresh.witOK) hfresh.short _ _ _ _ hb1 j]
    exact sum_congr rfl fun k _ => by rw [eR k]
  obtain ⟨eth, eet⟩ := foldProve_evals rd P cs _ _ _ _ _ ccs _ st w' proof h1
    (by
      intro x hx m hm
      obtain ⟨k, hk, rfl⟩ := List.mem_iff_getElem.1 hx
      obtain ⟨stk, witk, -, g2, g3, -⟩ := hin.holds k (by rw [← hin.wLen]; exact hk)
      rw [List.getElem?_eq_getElem hk] at g2
      cases g2
      rw [g3.witOK.hatvars m hm, hS.hat]
      exact h3.evals.rlen)
    (by
      intro x hx m hm
      obtain ⟨k, hk, rfl⟩ := List.mem_iff_getElem.1 hx
      obtain ⟨stk, witk, -, -, -, -, g2⟩ := hin.holds k (by rw [← hin.mzLen]; exact hk)
      rw [List.getElem?_eq_getElem hk] at g2
      rw [Option.some.inj g2] at hm
      obtain ⟨M, -, rfl⟩ := List.mem_map.1 hm
      exact h3.evals.rlen)
  have hall : ∀ y ∈ p1.yS ++ p2.yS, scheme.commit (op y).f = .ok y ∧ WitShort rd P.bSmall (op y) := by
    intro y hy
    rcases List.mem_append.1 hy with hy | hy
    · exact aL y hy
    · exact aR y hy
  have hbel : ∀ y ∈ p1.yS ++ p2.yS, WitBelow rd P.bSmall (op y) := by
    intro y hy c hc i
    obtain ⟨n, hn, e⟩ := (hall y hy).2 c hc i
    have := hP.b2
    exact ⟨n, by omega, e⟩
  refine ⟨st, w', ⟨linp, p1, p2, proof⟩, s4, ?_, ?_, ⟨hfits, fun y hy => (hall y hy).1, ?_, ?_, rR⟩, ⟨?_, ?_, ⟨wAcc, rL, hacc, ?_⟩, ?_, ?_⟩⟩
  · unfold nifsProve
    simp only [hsan, bind_ok', hl1, ha1, hb1, h1]
  · unfold nifsVerify
    simp only [hsan, bind_ok', hl2, ha2, hb2, h2]
  · simp only
    rw [eth, List.map_append, List.map_append, bL, bR]
  · simp only
    rw [eet, List.map_append, cL, cR, List.zipWith_append (by rw [fL.x.1, fL.y.1])]
  · rw [(hop _).f, hwc, ← hfresh.witOK.f]
    exact hfresh.opens
  · have := (witOK_wCcs (hop cm.cm) hfresh.witOK fun j => by rw [hwc]).2
    rw [this]
    exact hfresh.sat
  · have hb1' : 1 ≤ P.bSmall := by have := hP.b2; omega
    have hp : ∀ (k : Nat) (x : Witness (Fin N → F) C), (p1.yS.map op)[k]? = some x → WitBelow rd P.bSmall x := by
      intro k x hx
      rw [List.getElem?_map] at hx
      cases hy : p1.yS[k]? with
      | none => rw [hy] at hx; cases hx
      | some y =>
        rw [hy] at hx
        cases hx
        exact hbel y (List.mem_append_left _ (List.mem_of_getElem? hy))
    have := C89_norm rd P hKp hb1' P.bSmall (p1.yS.map op) (by simp [fL.y.1]) (fun k x _ hx => hp k x hx) (fun x hx => hp _ x hx) hb1' wAcc rL
    rwa [← pow_succ, Nat.sub_add_cancel hKp] at this
  · intro k y _ hy
    exact hbel y (List.mem_of_getElem? hy)
  · intro y hy
    exact slotSums_of_below rd P.bSmall _ (hbel y (List.mem_of_getElem? hy))

/-! ## A concrete case -/

section Examples
open Verif.Example

/-- The opening of a commitment by the invertible matrix `(1 2; 0 1)`, for the parameters `par257`. -/
def open257' (y : Commitment C257) : Witness C257 C257 :=
  mkWit ring257 par257 1 [y.val.getD 0 0 - 2 * y.val.getD 1 0, y.val.getD 1 0]

/-- `open257'` finds all openings. -/
theorem open257'_inv (c : List C257) (y : Commitment C257) (h : scheme257.commit (c.map ring257.crt) = .ok y) : (open257' y).fCoeff = c := by
  have h1 : ∀ x : C257, ring257.crt x = x := fun _ => rfl
  by_cases hc : c.length = 2
  · obtain ⟨a, b, rfl⟩ := List.length_eq_two.1 hc
    rw [commit_ok scheme257 _ (by simp [scheme257])] at h
    rw [← Except.ok.inj h]
    simp [open257', mkWit, scheme257, dot, h1]
  · unfold Ajtai.commit at h
    rw [if_pos (by simpa [scheme257] using hc)] at h
    cases h

/-- Over the field of 257 elements, for an accumulator and the fresh statement of `fresh257`: with every oracle the honest prover's step is
accepted, its openings are consistent, and it is valid. -/
example (O : History (ZMod 257) C257 → ZMod 257) (h0 : History (ZMod 257) C257) :
    ∃ st w' proof s', nifsProve ring257 par257 cs257 (oracleT O fun _ n => List.replicate n 3) h0
        (acc257 ![7] ![4] ![9] (wit257 ![100] ![33])) (wit257 ![100] ![33]) fresh257 (wit257 ![3] ![2]) ccs257 scheme257
        = .ok ((st, w', proof), s') ∧
      nifsVerify ring257 par257 cs257 (oracleT O fun _ n => List.replicate n 3) h0
        (acc257 ![7] ![4] ![9] (wit257 ![100] ![33])) fresh257 proof ccs257 = .ok (st, s') ∧
      StepOpened ring257 par257 ccs257 scheme257 2 open257' (acc257 ![7] ![4] ![9] (wit257 ![100] ![33])) fresh257 proof st ∧
      StepValid ring257 par257 ccs257 scheme257 open257' (acc257 ![7] ![4] ![9] (wit257 ![100] ![33])) fresh257 proof :=
  C95_honest ring257 par257 cs257 ccs257 scheme257 (acc257 ![7] ![4] ![9] (wit257 ![100] ![33])) _ fresh257 _
    par257_ok sizes257 rfl aligned257 (charGt257 _ (by decide)) (charGt257 _ (by decide)) cs257_ok
    (acc257_holds _ _ _ _ _) (fun _ _ _ => reach257 _) fresh257_holds open257'
    (fun _ => mkWit_ok ring257 par257 (wl := 1) _ rfl) (fun c y _ h => open257'_inv c y h) O (fun _ n => List.replicate n 3)
    (fun _ _ => List.length_replicate ..) h0

end Examples

end Verif.Props
