import Verif.Lemmas.FoldingSound
import Verif.Lemmas.FoldingComplete
import Verif.Props.Folding
import Verif.Props.ExampleRing49
import Verif.Props.ExampleData

/-!
# C54: soundness of folding as an interactive protocol, and its gap
-/

set_option linter.unusedSectionVars false
set_option linter.unusedSimpArgs false

namespace Verif.Props

open Finset Spec Verif

variable {Fp F C β : Type} {N τ : Nat} [Field Fp] [Field F] [DecidableEq F] [Algebra Fp F] [CommRing C]
  [Algebra Fp C]

/-- The interactive folding verifier, with the tape `w` of its challenges (and an arbitrary source of bytes for the
folding coefficients), accepts the prover with strategy `strat`: every sum-check message may depend on all
challenges up to then. The claimed evaluations `theta`, `eta` are those of the witnesses at the sum-check point. -/
def FoldAccepted (rd : RingData Fp F C N τ) (P : Params) (cs : ChallengeSet C) (ccs : CCS (Fin N → F))
    (cms : List (LCCCS (Fin N → F))) (ws : List (Witness (Fin N → F) C)) (g : β → Nat → List UInt8 × β) (b : β)
    (strat : List F → List (Fin N → F)) (w : List F) : Prop :=
  ∃ proof st s', foldVerify rd P cs (coinBT g) (w, b) cms proof ccs = .ok (st, s') ∧
    proof.sumcheck = strategyProof (fun v => strat (w.take (6 * P.K - 1 + ccs.s) ++ v)) (w.drop (6 * P.K - 1 + ccs.s)) ∧
    proof.thetaS = (ws.map fun wit => wit.fHat.map fun m =>
      mle m.get ((w.drop (6 * P.K - 1 + ccs.s)).map (algebraMap F (Fin N → F)))) ∧
    proof.etaS = List.zipWith (fun (st : LCCCS (Fin N → F)) (wit : Witness (Fin N → F) C) => ccs.M.map fun M =>
      mle (mulVec M ((st.x_w ++ [st.h]) ++ wit.wCcs))
        ((w.drop (6 * P.K - 1 + ccs.s)).map (algebraMap F (Fin N → F)))) cms ws

theorem rangePoly_algebraMap (b : Nat) (x : Fp) : rangePoly b (algebraMap Fp F x) = algebraMap Fp F (rangePoly b x) := by
  unfold rangePoly
  rw [map_prod]
  apply prod_congr rfl
  intro c _
  rw [map_sub, map_intCast]

theorem rangePoly_apply (b : Nat) (x : Fin N → F) (a : Fin N) : rangePoly b x a = rangePoly b (x a) := by
  unfold rangePoly
  rw [Finset.prod_apply]
  apply prod_congr rfl
  intro c _
  rfl

theorem rangePoly_ne_zero {K : Type} [Field K] (b : Nat) (x : K) (h : ∀ n : ℤ, n.natAbs < b → x ≠ n) : rangePoly b x ≠ 0 := by
  unfold rangePoly
  rw [prod_ne_zero_iff]
  intro c hc
  rw [mem_Ioo] at hc
  exact sub_ne_zero.2 (h c (by omega))

/-- Entry `i` of table `j`, slot `a`. -/
theorem rangeAt_slot {rd : RingData Fp F C N τ} {P : Params} {wl : Nat} {wit : Witness (Fin N → F) C}
    (h : WitOK rd P wl wit) (b : Nat) (j : Fin τ) (i : Nat) (a : Fin N) :
    rangeAt b wit.fHat j i a = algebraMap Fp F (rangePoly b (rd.coeff (wit.fCoeff.getD i 0) (finProdFinEquiv (j, a)))) := by
  unfold rangeAt
  rw [if_pos (by rw [h.hatlen]; exact j.2), rangePoly_apply]
  have hlt : j * N + a < τ * N := by
    have h1 := j.2
    have h2 := a.2
    calc j * N + a < j * N + N := by omega
      _ = (j + 1) * N := by ring
      _ ≤ τ * N := Nat.mul_le_mul_right _ h1
  rw [h.hat j j.2 i a hlt, rangePoly_algebraMap]
  have : (⟨j * N + a, hlt⟩ : Fin (τ * N)) = finProdFinEquiv (j, a) := by
    apply Fin.ext
    simp [finProdFinEquiv]
    ring
  rw [this]

theorem mem_getD {α : Type} {c : α} {l : List α} (hc : c ∈ l) (d : α) : ∃ i < l.length, l.getD i d = c := by
  obtain ⟨i, hi, h⟩ := List.mem_iff_getElem.1 hc
  exact ⟨i, hi, by simp [List.getD_eq_getElem?_getD, hi, h]⟩

theorem list_ne_getD {R : Type} [CommRing R] (l l' : List R) (hlen : l.length = l'.length) (h : l ≠ l') :
    ∃ j < l.length, listDiff l l' j ≠ 0 := by
  by_contra hcon
  push Not at hcon
  apply h
  apply List.ext_getElem hlen
  intro i h1 h2
  have := hcon i h1
  unfold listDiff at this
  simpa [List.getD_eq_getElem?_getD, h1, h2, sub_eq_zero] using this

open Classical in
/-- **C54** (partial: the range of the last witness is only checked in sum over the `τ` coefficients of a slot, see
`C54_last_witness_unchecked`): soundness of folding as an interactive protocol. If some statement claims wrong
evaluations, or a coefficient of one of the first `2K - 1` witnesses is not below `b`, or some slot sum of the last
witness does not vanish, then for every prover strategy the verifier accepts with at most a fraction
`(s + max(τ, |M|) + 2 b s) / |F|` of all challenge tapes. -/
theorem C54_soundness_partial [Fintype F] (rd : RingData Fp F C N τ) (P : Params) (hK : 1 ≤ P.K) (hb : 1 ≤ P.bSmall)
    (cs : ChallengeSet C) (ccs : CCS (Fin N → F)) (sh : LinShape ccs)
    (cms : List (LCCCS (Fin N → F))) (ws : List (Witness (Fin N → F) C)) (hsz : FoldSizes rd P ccs cms ws)
    (hc : CharGt F (2 * P.bSmall)) (hbad : FoldViolated rd P ccs cms ws)
    (g : β → Nat → List UInt8 × β) (b : β) (strat : List F → List (Fin N → F)) :
    (univ.filter fun w : Fin (6 * P.K - 1 + ccs.s + ccs.s) → F =>
        FoldAccepted rd P cs ccs cms ws g b strat (List.ofFn w)).card
      ≤ (ccs.s + max τ ccs.M.length + ccs.s * (2 * P.bSmall)) * Fintype.card F ^ (6 * P.K - 1 + ccs.s + ccs.s - 1) := by
  have hn := sh.spos
  set ST : Nat → LCCCS (Fin N → F) := fun k => cms.getD k ⟨[], [], ⟨[]⟩, [], [], 0⟩ with hST
  set W : Nat → Witness (Fin N → F) C := fun k => ws.getD k ⟨[], [], [], []⟩ with hW
  have hcms : cms = (List.range (2 * P.K)).map ST := list_eq_range cms _ hsz.cmLen
  have hws : ws = (List.range (2 * P.K)).map W := list_eq_range ws _ hsz.wLen
  set Z : Nat → List (Fin N → F) := fun k => ((ST k).x_w ++ [(ST k).h]) ++ (W k).wCcs with hZ
  set fh : Nat → List (Mle (Fin N → F)) := fun k => (W k).fHat with hfh
  set mzf : Nat → List (Mle (Fin N → F)) := fun k => mzTables ccs (Z k) with hmzf
  have hstm : ∀ k < 2 * P.K, ST k ∈ cms := fun k hk => by rw [hcms]; exact List.mem_map.2 ⟨k, List.mem_range.2 hk, rfl⟩
  have hwm : ∀ k < 2 * P.K, W k ∈ ws := fun k hk => by rw [hws]; exact List.mem_map.2 ⟨k, List.mem_range.2 hk, rfl⟩
  have hwo : ∀ k < 2 * P.K, WitOK rd P (ccs.n - ccs.l - 1) (W k) := fun k hk => hsz.wit _ (hwm k hk)
  have hsg : ∀ k, k < 2 * P.K → cms[k]? = some (ST k) := fun k hk => by
    simp [hST, List.getD_eq_getElem?_getD, hsz.cmLen, hk]
  have hwg : ∀ k, k < 2 * P.K → ws[k]? = some (W k) := fun k hk => by
    simp [hW, List.getD_eq_getElem?_getD, hsz.wLen, hk]
  have hr : ∀ k < 2 * P.K, (ST k).r.length = ccs.s := fun k hk => hsz.r _ (hstm k hk)
  have hv : ∀ k < 2 * P.K, (ST k).v.length ≤ max τ ccs.M.length := fun k hk => by
    rw [hsz.v _ (hstm k hk)]; exact le_max_left _ _
  have hu : ∀ k < 2 * P.K, (ST k).u.length ≤ max τ ccs.M.length := fun k hk => by
    rw [hsz.u _ (hstm k hk)]; exact le_max_right _ _
  have hfl : ∀ k < 2 * P.K, (fh k).length ≤ max τ ccs.M.length := fun k hk => by
    rw [(hwo k hk).hatlen]; exact le_max_left _ _
  have hml : ∀ k < 2 * P.K, (mzf k).length ≤ max τ ccs.M.length := fun k hk => by
    rw [hmzf]
    simp [mzTables]
  have hlen2 : ∀ k < 2 * P.K, ∀ wit, W k = wit → ∀ i < wit.fCoeff.length, i < 2 ^ ccs.s := by
    rintro k hk wit rfl i hi
    rw [(hwo k hk).flen] at hi
    rw [← hsz.hat]
    exact lt_of_lt_of_le hi (Nat.le_pow_clog (by omega) _)
  have hwrong : FoldWrong P.bSmall P.K (max τ ccs.M.length) ccs.s (fun k => (ST k).v) (fun k => (ST k).u) fh mzf
      (fun k => (ST k).r) := by
    rcases hbad with ⟨k, st, wit, h1, h2, h3⟩ | ⟨k, wit, hk, h2, h3⟩ | ⟨wit, h2, h3⟩
    · have hk : k < 2 * P.K := by
        rw [← hsz.cmLen]
        exact (List.getElem?_eq_some_iff.1 h1).1
      rw [hsg k hk] at h1
      rw [hwg k hk] at h2
      cases h1
      cases h2
      by_cases hvv : (ST k).v = (fh k).map fun t => mle t.get (ST k).r
      · by_cases huu : (ST k).u = (mzf k).map fun t => mle t.get (ST k).r
        · exact absurd ⟨hr k hk, hvv, by rw [huu, mz_map_mle sh.wf]⟩ h3
        · obtain ⟨j, hj, h⟩ := list_ne_getD _ _ (by
            rw [hsz.u _ (hstm k hk), List.length_map, hmzf]
            simp [mzTables]) huu
          exact Or.inr (Or.inl ⟨k, hk, j, lt_of_lt_of_le hj (hu k hk), h⟩)
      · obtain ⟨j, hj, h⟩ := list_ne_getD _ _ (by
          rw [hsz.v _ (hstm k hk), List.length_map, (hwo k hk).hatlen]) hvv
        exact Or.inl ⟨k, hk, j, lt_of_lt_of_le hj (hv k hk), h⟩
    · have hk' : k < 2 * P.K := by omega
      rw [hwg k hk'] at h2
      have hW2 : W k = wit := by simpa using h2
      unfold WitBelow at h3
      push Not at h3
      obtain ⟨c, hcm, i, hi⟩ := h3
      obtain ⟨y, hy, rfl⟩ := mem_getD hcm 0
      obtain ⟨⟨j, a⟩, rfl⟩ := finProdFinEquiv.surjective i
      refine Or.inr (Or.inr (Or.inl ⟨k, hk, j, lt_of_lt_of_le j.2 (le_max_left _ _), y, hlen2 k hk' wit hW2 y hy, ?_⟩))
      intro h0
      have := congrFun h0 a
      rw [show fh k = wit.fHat from congrArg Witness.fHat hW2] at this
      rw [rangeAt_slot (hW2 ▸ hwo k hk')] at this
      have h4 : rangePoly P.bSmall (rd.coeff (wit.fCoeff.getD y 0) (finProdFinEquiv (j, a))) = 0 := by
        apply (algebraMap Fp F).injective
        rw [this, map_zero]
        rfl
      exact rangePoly_ne_zero _ _ hi h4
    · have hk' : 2 * P.K - 1 < 2 * P.K := by omega
      rw [hwg _ hk'] at h2
      have hW2 : W (2 * P.K - 1) = wit := by simpa using h2
      unfold SlotSumsVanish at h3
      push Not at h3
      obtain ⟨c, hcm, a, ha⟩ := h3
      obtain ⟨y, hy, rfl⟩ := mem_getD hcm 0
      refine Or.inr (Or.inr (Or.inr ⟨y, hlen2 _ hk' wit hW2 y hy, ?_⟩))
      intro h0
      apply ha
      have h5 := congrFun h0 a
      rw [Finset.sum_apply] at h5
      have h6 : ∑ j ∈ range (max τ ccs.M.length), rangeAt P.bSmall (fh (2 * P.K - 1)) j y a
          = ∑ j : Fin τ, rangeAt P.bSmall (fh (2 * P.K - 1)) j y a := by
        rw [Fin.sum_univ_eq_sum_range (fun j => rangeAt P.bSmall (fh (2 * P.K - 1)) j y a) τ]
        symm
        refine sum_subset (range_subset_range.2 (le_max_left _ _)) fun j _ hj => ?_
        unfold rangeAt
        rw [if_neg (by rw [(hwo _ hk').hatlen]; simpa using hj)]
        rfl
      rw [h6, show fh (2 * P.K - 1) = wit.fHat from congrArg Witness.fHat hW2,
        sum_congr rfl fun j _ => rangeAt_slot (hW2 ▸ hwo _ hk') P.bSmall j y a, ← map_sum] at h5
      apply (algebraMap Fp F).injective
      rw [h5, map_zero]
      rfl
  have hcount := fold_count (F := F) (R := Fin N → F) hK hn (fun k => (ST k).v) (fun k => (ST k).u) fh mzf
    (fun k => (ST k).r) hr hv hu hfl hml hwrong
  refine cnt_append_le (F := F) (6 * P.K - 1 + ccs.s) ccs.s (ccs.s + max τ ccs.M.length) (ccs.s * (2 * P.bSmall))
    (by omega) hn (FoldAccepted rd P cs ccs cms ws g b strat) _ hcount ?_
  intro u hul hgood
  set al : Nat → Fin N → F := fun k => algebraMap F (Fin N → F) (u.getD k 0) with hal
  set ze : Nat → Fin N → F := fun k => algebraMap F (Fin N → F) (u.getD (2 * P.K + k) 0) with hze
  set mu : Nat → Fin N → F := fun i => algebraMap F (Fin N → F) (if i < 2 * P.K - 1 then u.getD (4 * P.K + i) 0 else 1)
    with hmu
  set beta := (u.drop (6 * P.K - 1)).map (algebraMap F (Fin N → F)) with hbeta
  have hbl : beta.length = ccs.s := by simp [hbeta, hul]
  have hdeg := foldFn_deg hb (2 * P.K) ccs.s al ze mu fh mzf (fun k => (ST k).r) beta hr hbl
  have hsound := C21_soundness (F := F) (R := Fin N → F) ccs.s (2 * P.bSmall) hn hc _ hdeg
    (∑ i ∈ range (2 * P.K), (powComb (al i) (ST i).v + powComb (ze i) (ST i).u)) hgood (fun v => strat (u ++ v))
  have hsound' : cnt ccs.s (fun v : List F => ∃ sc s', verifyAsSubprotocol (coinT F (Fin N → F)) v ccs.s (2 * P.bSmall)
        (∑ i ∈ range (2 * P.K), (powComb (al i) (ST i).v + powComb (ze i) (ST i).u))
        (strategyProof (fun v => strat (u ++ v)) v) = .ok (sc, s') ∧ sc.expectedEvaluation
        = foldFn P.bSmall (2 * P.K) al ze mu fh mzf (fun k => (ST k).r) beta (sc.point.map (algebraMap F (Fin N → F))))
        ≤ ccs.s * (2 * P.bSmall) * Fintype.card F ^ (ccs.s - 1) := hsound
  refine le_trans (cnt_mono fun v hvl h => ?_) hsound'
  obtain ⟨proof, st, s', h1, h2, h3, h4⟩ := h
  rw [List.drop_left' hul, List.take_left' hul] at h2
  rw [List.drop_left' hul] at h3 h4
  rw [foldVerify_iff] at h1
  obtain ⟨-, ch, s1, sc, s2, eS, es, rhoC, rho, out, k1, k2, k3, k4, k5, -, -, -⟩ := h1
  rw [squeezeFold_coin g P hK ccs.s u v b (by omega)] at k1
  simp only [Except.ok.injEq, Prod.mk.injEq] at k1
  obtain ⟨rfl, rfl⟩ := k1
  simp only at k2 k3 k4 k5
  obtain ⟨-, k2⟩ := verify_coinBT g _ _ _ _ _ _ _ _ k2
  rw [h2] at k2
  have hclaim : foldClaims ((List.range (2 * P.K)).map al) ((List.range (2 * P.K)).map ze) cms
      = ∑ i ∈ range (2 * P.K), (powComb (al i) (ST i).v + powComb (ze i) (ST i).u) := by
    rw [hcms, foldClaims_ok]
  rw [hclaim] at k2
  have hpt := verify_coin_point hn _ _ v hvl sc s2.1 k2
  refine ⟨sc, s2.1, k2, ?_⟩
  set x := sc.point.map (algebraMap F (Fin N → F)) with hx
  have hxl : x.length = ccs.s := by rw [hx, hpt, List.length_map, hvl]
  rw [eqEval_ok _ _ (by rw [hxl]; exact hbl)] at k3
  have hes : mapRes (fun r => eqEval r x) (cms.map LCCCS.r)
      = .ok ((List.range (2 * P.K)).map fun k => eqPoly (ST k).r x) := by
    rw [mapRes_ok (g := fun r => eqPoly r x), hcms, List.map_map, List.map_map]
    · rfl
    · intro r hrm
      obtain ⟨st', hst', rfl⟩ := List.mem_map.1 hrm
      exact eqEval_ok _ _ (by rw [hxl, hsz.r _ hst'])
  rw [hes] at k4
  cases k3
  cases k4
  have hth : proof.thetaS = (List.range (2 * P.K)).map fun k => (fh k).map fun m => mle m.get x := by
    rw [h3, hws, List.map_map, hx, hpt]
    rfl
  have het : proof.etaS = (List.range (2 * P.K)).map fun k => (mzf k).map fun m => mle m.get x := by
    rw [h4, hws, hcms, zipWith_map_self, hx, hpt]
    apply List.map_congr_left
    intro k _
    rw [mz_map_mle sh.wf]
  rw [hth, het, expectedValue_ok P hb _ _ _ _ (by simp; omega)] at k5
  simp only [Except.ok.injEq] at k5
  rw [← k5]
  unfold foldFn
  apply sum_congr rfl
  intro i hi
  have hi' := mem_range.1 hi
  have hmuv : (((List.range (2 * P.K - 1)).map fun k => algebraMap F (Fin N → F) (u.getD (4 * P.K + k) 0)) ++ [1]).getD i 0
      = mu i := by
    rw [hmu]
    simp only
    by_cases hlast : i < 2 * P.K - 1
    · rw [if_pos hlast, List.getD_append _ _ _ _ (by simpa using hlast), getD_map_range _ _ hlast]
    · have : i = 2 * P.K - 1 := by omega
      rw [if_neg hlast, map_one, this]
      simp [List.getD_eq_getElem?_getD]
  rw [hmuv]
  simp only [List.length_map]
  congr 2
  congr 1
  apply sum_congr rfl
  intro j hj
  rw [map_getD_mle _ _ (mem_range.1 hj)]

/-- Witnesses below `b` have vanishing slot sums. -/
theorem slotSums_of_below (rd : RingData Fp F C N τ) (b : Nat) (wit : Witness (Fin N → F) C) (h : WitBelow rd b wit) :
    SlotSumsVanish rd b wit := by
  intro c hc a
  apply sum_eq_zero
  intro j _
  obtain ⟨n, h1, h2⟩ := h c hc (finProdFinEquiv (j, a))
  rw [h2]
  unfold rangePoly
  exact prod_eq_zero (i := n) (by rw [mem_Ioo]; omega) (sub_self _)

open Classical in
/-- **C54** for extension degree one (no CRT components above the base field): full soundness, all `2K` witnesses are
range checked. -/
theorem C54_soundness_degree_one [Fintype F] (rd : RingData Fp F C N 1) (P : Params) (hK : 1 ≤ P.K) (hb : 1 ≤ P.bSmall)
    (cs : ChallengeSet C) (ccs : CCS (Fin N → F)) (sh : LinShape ccs)
    (cms : List (LCCCS (Fin N → F))) (ws : List (Witness (Fin N → F) C)) (hsz : FoldSizes rd P ccs cms ws)
    (hc : CharGt F (2 * P.bSmall)) (hbad : (∃ (k : Nat) (st : LCCCS (Fin N → F)) (wit : Witness (Fin N → F) C),
        cms[k]? = some st ∧ ws[k]? = some wit ∧ ¬ EvalsCorrect ccs wit.fHat wit.wCcs st) ∨
      ∃ wit ∈ ws, ¬ WitBelow rd P.bSmall wit)
    (g : β → Nat → List UInt8 × β) (b : β) (strat : List F → List (Fin N → F)) :
    (univ.filter fun w : Fin (6 * P.K - 1 + ccs.s + ccs.s) → F =>
        FoldAccepted rd P cs ccs cms ws g b strat (List.ofFn w)).card
      ≤ (ccs.s + max 1 ccs.M.length + ccs.s * (2 * P.bSmall)) * Fintype.card F ^ (6 * P.K - 1 + ccs.s + ccs.s - 1) := by
  refine C54_soundness_partial rd P hK hb cs ccs sh cms ws hsz hc ?_ g b strat
  rcases hbad with h | ⟨wit, hm, h⟩
  · exact Or.inl h
  · obtain ⟨k, hk, rfl⟩ := List.mem_iff_getElem.1 hm
    rw [hsz.wLen] at hk
    by_cases hlast : k < 2 * P.K - 1
    · exact Or.inr (Or.inl ⟨k, _, hlast, List.getElem?_eq_getElem _, h⟩)
    · have hk' : k = 2 * P.K - 1 := by omega
      subst hk'
      refine Or.inr (Or.inr ⟨_, List.getElem?_eq_getElem (by rw [hsz.wLen]; exact hk), ?_⟩)
      intro hv
      apply h
      intro c hcm i
      obtain ⟨⟨j, a⟩, rfl⟩ := finProdFinEquiv.surjective i
      have h0 := hv c hcm a
      rw [Fin.sum_univ_one] at h0
      have hj : j = 0 := Subsingleton.elim _ _
      subst hj
      by_contra hcon
      push Not at hcon
      exact rangePoly_ne_zero _ _ hcon h0

/-- Slot sums of the last witness are all the range check sees, with the combination that forms the folded witness. -/
theorem last_unchecked_comb {σ : Type} (rd : RingData Fp F C N τ) (P : Params) (cs : ChallengeSet C)
    (T : Transcript F (Fin N → F) σ) (s : σ) (ccs : CCS (Fin N → F)) (scheme : Ajtai (Fin N → F))
    (cms : List (LCCCS (Fin N → F))) (ws : List (Witness (Fin N → F) C)) (mz : List (List (Mle (Fin N → F))))
    (hP : ParamsOK Fp P) (hS : SizesOK P ccs scheme) (ht : ccs.t = ccs.M.length)
    (hin : FoldInputW rd P ccs scheme cms ws mz) (hc : CharGt F (2 * P.bSmall))
    (hshort : ∀ k < 2 * P.K - 1, ∀ wit, ws[k]? = some wit → WitShort rd P.bSmall wit)
    (hlast : ∀ wit, ws[2 * P.K - 1]? = some wit → SlotSumsVanish rd P.bSmall wit)
    (hT : ∀ s n, (T.bytes s n).1.length = n)
    (hcs : ∀ bs, bs.length = cs.bytesNeeded → ∃ c, cs.decode bs = .ok c) :
    ∃ st w proof s' rho, foldProve rd P cs T s cms ws ccs mz = .ok ((st, w, proof), s') ∧
      foldVerify rd P cs T s cms proof ccs = .ok (st, s') ∧ LcccsHolds rd P ccs scheme st w ∧
      rho (2 * P.K - 1) = 1 ∧ (∀ k < 2 * P.K - 1, ∃ bs, bs.length = cs.bytesNeeded ∧ cs.decode bs = .ok (rho k)) ∧
      IsComb (2 * P.K) rho (fun k => (ws.getD k ⟨[], [], [], []⟩).fCoeff) w.fCoeff ((ccs.n - ccs.l - 1) * P.L) := by
  have hvan : ∀ mu : Nat → Fin N → F, mu (2 * P.K - 1) = 1 → ∀ y, ∑ i ∈ range (2 * P.K), ∑ j ∈ range τ, mu i ^ (j + 1)
      * rangePoly P.bSmall (fhatEntry rd ((ws.getD i ⟨[], [], [], []⟩).fCoeff.getD y 0) j) = 0 := by
    intro mu hmu y
    have hK := hP.Kpos
    obtain ⟨t, ht'⟩ : ∃ t, 2 * P.K = t + 1 := ⟨2 * P.K - 1, by omega⟩
    have ht2 : 2 * P.K - 1 = t := by omega
    rw [ht2] at hshort hlast hmu
    rw [ht', sum_range_succ, sum_eq_zero, zero_add]
    · obtain ⟨_, wit, -, h2, -⟩ := hin.holds t (by omega)
      have e2 : ws.getD t ⟨[], [], [], []⟩ = wit := by simp [List.getD_eq_getElem?_getD, h2]
      rw [e2, hmu]
      funext a
      rw [Finset.sum_apply, ← Fin.sum_univ_eq_sum_range (fun j => (1 ^ (j + 1)
        * rangePoly P.bSmall (fhatEntry rd (wit.fCoeff.getD y 0) j)) a) τ]
      have e3 : ∀ j : Fin τ, (1 ^ (j.1 + 1) * rangePoly P.bSmall (fhatEntry rd (wit.fCoeff.getD y 0) j)) a
          = algebraMap Fp F (rangePoly P.bSmall (rd.coeff (wit.fCoeff.getD y 0) (finProdFinEquiv (j, a)))) := by
        intro j
        rw [one_pow, one_mul, rangePoly_apply, ← rangePoly_algebraMap]
        congr 1
        have hlt : j * N + a < τ * N := by
          have h1 := j.2
          have h2 := a.2
          calc j * N + a < j * N + N := by omega
            _ = (j + 1) * N := by ring
            _ ≤ τ * N := Nat.mul_le_mul_right _ h1
        rw [fhatEntry_apply rd _ _ hlt]
        have : (⟨j * N + a, hlt⟩ : Fin (τ * N)) = finProdFinEquiv (j, a) := by
          apply Fin.ext
          simp [finProdFinEquiv]
          ring
        rw [this]
      rw [sum_congr rfl fun j _ => e3 j, ← map_sum]
      by_cases hy : y < wit.fCoeff.length
      · have hm : wit.fCoeff.getD y 0 ∈ wit.fCoeff := by
          rw [List.getD_eq_getElem?_getD, List.getElem?_eq_getElem hy, Option.getD_some]
          exact List.getElem_mem hy
        rw [hlast wit h2 _ hm a, map_zero]
        rfl
      · have : wit.fCoeff.getD y 0 = 0 := by simp [List.getD_eq_getElem?_getD, not_lt.1 hy]
        rw [this, sum_eq_zero, map_zero]
        · rfl
        · intro j _
          rw [map_zero]
          unfold rangePoly
          have := hP.b2
          exact prod_eq_zero (i := 0) (by rw [mem_Ioo]; omega) (by simp)
    · intro i hi
      have hi' := mem_range.1 hi
      apply sum_eq_zero
      intro j _
      obtain ⟨_, wit, -, h2, -⟩ := hin.holds i (by omega)
      have e2 : ws.getD i ⟨[], [], [], []⟩ = wit := by simp [List.getD_eq_getElem?_getD, h2]
      rw [e2, range_vanish rd hP.b2 (getD_short rd (hshort i hi' wit h2) y), mul_zero]
  obtain ⟨st, w, proof, s', rho, -, h1, h2, h3, -, h4, h5, h6, -⟩ := fold_complete_of rd P cs T s ccs scheme cms ws mz hP
    hS ht hin hvan hc hT hcs
  exact ⟨st, w, proof, s', rho, h1, h2, h3, h4, h5, h6⟩

/-- **C54**, negation in general form: the range check of the last witness of a folding step only sees the sum of the
range polynomials over the `τ` coefficients of a slot. With statements that hold for the given witnesses, the first
`2K - 1` of them within the bound, and vanishing slot sums of the last, prover and verifier succeed with every
transcript, and the result holds for the folded witness, however large the last witness is. -/
theorem C54_last_witness_unchecked {σ : Type} (rd : RingData Fp F C N τ) (P : Params) (cs : ChallengeSet C)
    (T : Transcript F (Fin N → F) σ) (s : σ) (ccs : CCS (Fin N → F)) (scheme : Ajtai (Fin N → F))
    (cms : List (LCCCS (Fin N → F))) (ws : List (Witness (Fin N → F) C)) (mz : List (List (Mle (Fin N → F))))
    (hP : ParamsOK Fp P) (hS : SizesOK P ccs scheme) (ht : ccs.t = ccs.M.length)
    (hin : FoldInputW rd P ccs scheme cms ws mz) (hc : CharGt F (2 * P.bSmall))
    (hshort : ∀ k < 2 * P.K - 1, ∀ wit, ws[k]? = some wit → WitShort rd P.bSmall wit)
    (hlast : ∀ wit, ws[2 * P.K - 1]? = some wit → SlotSumsVanish rd P.bSmall wit)
    (hT : ∀ s n, (T.bytes s n).1.length = n)
    (hcs : ∀ bs, bs.length = cs.bytesNeeded → ∃ c, cs.decode bs = .ok c) :
    ∃ st w proof s', foldProve rd P cs T s cms ws ccs mz = .ok ((st, w, proof), s') ∧
      foldVerify rd P cs T s cms proof ccs = .ok (st, s') ∧ LcccsHolds rd P ccs scheme st w := by
  obtain ⟨st, w, proof, s', -, h1, h2, h3, -⟩ := last_unchecked_comb rd P cs T s ccs scheme cms ws mz hP hS ht hin hc hshort
    hlast hT hcs
  exact ⟨st, w, proof, s', h1, h2, h3⟩

theorem rangePoly_neg {K : Type} [CommRing K] {b : Nat} (hb : 1 ≤ b) (x : K) : rangePoly b (-x) = -rangePoly b x := by
  induction b with
  | zero => omega
  | succ b ih =>
    by_cases h : b = 0
    · subst h
      simp [rangePoly_one]
    · rw [rangePoly_succ (by omega), rangePoly_succ (by omega), ih (by omega)]
      ring

/-- For extension degree at least two, the slot sums vanish whenever the coefficients of the first two of the `τ`
blocks are opposite and the others are zero, whatever their size. -/
theorem C54_opposite_blocks_cancel (rd : RingData Fp F C N (τ + 2)) (b : Nat) (hb : 1 ≤ b) (wit : Witness (Fin N → F) C)
    (h : ∀ c ∈ wit.fCoeff, ∀ a : Fin N, rd.coeff c (finProdFinEquiv (1, a)) = -rd.coeff c (finProdFinEquiv (0, a)) ∧
      ∀ j : Fin τ, rd.coeff c (finProdFinEquiv (j.succ.succ, a)) = 0) : SlotSumsVanish rd b wit := by
  intro c hc a
  obtain ⟨h1, h2⟩ := h c hc a
  rw [Fin.sum_univ_succ, Fin.sum_univ_succ]
  have h3 : ∑ j : Fin τ, rangePoly b (rd.coeff c (finProdFinEquiv (j.succ.succ, a))) = 0 := by
    apply sum_eq_zero
    intro j _
    rw [h2 j]
    unfold rangePoly
    exact prod_eq_zero (i := 0) (by rw [mem_Ioo]; omega) (by simp)
  have h4 : ((0 : Fin (τ + 1)).succ) = (1 : Fin (τ + 2)) := rfl
  rw [h3, h4, h1, rangePoly_neg hb]
  ring

/-! ## Concrete cases -/

section Examples
open Verif.Example

/-- Witnesses `1`, `X`, `1 + X`, and `3 - 3X`, each followed by a second element. -/
def unWits : List (Witness C49 C49) :=
  [wit49 ![⟨1, 0⟩] ![⟨0, 6⟩], wit49 ![⟨0, 1⟩] ![⟨6, 6⟩], wit49 ![⟨1, 1⟩] ![⟨0, 0⟩], wit49 ![⟨3, 4⟩] ![⟨5, 2⟩]]

/-- Their statements. -/
def unAccs : List (LCCCS C49) :=
  [acc49 ![⟨3, 1⟩] ![⟨1, 4⟩] ![⟨2, 0⟩] (wit49 ![⟨1, 0⟩] ![⟨0, 6⟩]), acc49 ![⟨3, 1⟩] ![⟨0, 1⟩] ![⟨1, 1⟩] (wit49 ![⟨0, 1⟩] ![⟨6, 6⟩]),
    acc49 ![⟨2, 2⟩] ![⟨4, 4⟩] ![⟨1, 1⟩] (wit49 ![⟨1, 1⟩] ![⟨0, 0⟩]), acc49 ![⟨2, 2⟩] ![⟨1, 0⟩] ![⟨0, 3⟩] (wit49 ![⟨3, 4⟩] ![⟨5, 2⟩])]

/-- Tables of `M_j z`. -/
def tabs49 (x h : C49) (w : Witness C49 C49) : List (Mle C49) :=
  ccs49.M.map fun M => ⟨ccs49.s, (List.range M.nrows).map fun i => mulVec M (([x] ++ [h]) ++ w.wCcs) i⟩

/-- The tables of `M_j z_k`. -/
def unMz : List (List (Mle C49)) :=
  [tabs49 ![⟨1, 4⟩] ![⟨2, 0⟩] (wit49 ![⟨1, 0⟩] ![⟨0, 6⟩]), tabs49 ![⟨0, 1⟩] ![⟨1, 1⟩] (wit49 ![⟨0, 1⟩] ![⟨6, 6⟩]),
    tabs49 ![⟨4, 4⟩] ![⟨1, 1⟩] (wit49 ![⟨1, 1⟩] ![⟨0, 0⟩]), tabs49 ![⟨1, 0⟩] ![⟨0, 3⟩] (wit49 ![⟨3, 4⟩] ![⟨5, 2⟩])]

theorem unIn : FoldInputW ring49 par49 ccs49 scheme49 unAccs unWits unMz where
  cmLen := rfl
  wLen := rfl
  mzLen := rfl
  holds := by
    intro k hk
    have hk : k < 4 := hk
    interval_cases k
    · exact ⟨_, _, rfl, rfl, acc49_holds _ _ _ _ _, rfl⟩
    · exact ⟨_, _, rfl, rfl, acc49_holds _ _ _ _ _, rfl⟩
    · exact ⟨_, _, rfl, rfl, acc49_holds _ _ _ _ _, rfl⟩
    · exact ⟨_, _, rfl, rfl, acc49_holds _ _ _ _ _, rfl⟩
  points := by
    refine ⟨[![⟨3, 1⟩]], [![⟨2, 2⟩]], ?_⟩
    intro k st h
    match k with
    | 0 | 1 | 2 | 3 => cases h; rfl
    | k + 4 => simp [unAccs] at h

/-- A challenge set of two elements: `1` and `X`. -/
def cs49 : ChallengeSet C49 := ⟨1, fun bs => match bs with
  | [b] => .ok (if b < 128 then 1 else ![⟨0, 1⟩])
  | _ => .error (.tooFewBytes bs.length 1)⟩

theorem unLast : SlotSumsVanish ring49 par49.bSmall (wit49 ![⟨3, 4⟩] ![⟨5, 2⟩]) := by
  refine C54_opposite_blocks_cancel (τ := 0) ring49 2 (by decide) _ ?_
  intro c hc a
  simp only [wit49, mkWit, List.mem_cons, List.not_mem_nil, or_false] at hc
  refine ⟨?_, fun j => j.elim0⟩
  rcases hc with rfl | rfl
  · revert a; decide
  · revert a; decide

theorem unNotBelow : ¬ WitBelow ring49 par49.bSmall (wit49 ![⟨3, 4⟩] ![⟨5, 2⟩]) := by
  intro h
  obtain ⟨n, h1, h2⟩ := h ![⟨3, 4⟩] (by simp [wit49, mkWit]) (0 : Fin (2 * 1))
  have h3 : -1 ≤ n ∧ n ≤ 1 := by
    have : n.natAbs < 2 := h1
    omega
  have h4 : ring49.coeff ![⟨3, 4⟩] (0 : Fin (2 * 1)) = 3 := by decide
  rw [h4] at h2
  obtain ⟨h5, h6⟩ := h3
  interval_cases n <;> revert h2 <;> decide

/-- **C54**, negation with a concrete witness: over `F_7[X]/(X^2+1)` with `b = 2`, the last witness `(3 - 3X, -2 + 2X)`
is not below the bound, and yet for every transcript there is a proof the folding verifier accepts (that of the honest
prover). -/
theorem C54_range_violated {σ : Type} (T : Transcript F49 C49 σ) (s : σ) (hT : ∀ s n, (T.bytes s n).1.length = n) :
    (∃ wit ∈ unWits, ¬ WitBelow ring49 par49.bSmall wit) ∧
    ∃ st w proof s', foldProve ring49 par49 cs49 T s unAccs unWits ccs49 unMz = .ok ((st, w, proof), s') ∧
      foldVerify ring49 par49 cs49 T s unAccs proof ccs49 = .ok (st, s') := by
  refine ⟨⟨_, by simp [unWits], unNotBelow⟩, ?_⟩
  obtain ⟨st, w, proof, s', h1, h2, -⟩ := C54_last_witness_unchecked ring49 par49 cs49 T s ccs49 scheme49 unAccs unWits unMz
    par49_ok sizes49 rfl unIn charGt49 (by
      intro k hk wit h
      have hk : k < 3 := hk
      interval_cases k
      · cases h; exact wit49_small _ _ (by decide)
      · cases h; exact wit49_small _ _ (by decide)
      · cases h; exact wit49_small _ _ (by decide))
    (by
      intro wit h
      cases h
      exact unLast) hT (by
      intro bs h
      match bs, h with
      | [b], _ => exact ⟨_, rfl⟩)
  exact ⟨st, w, proof, s', h1, h2⟩

/-- The same statements for the witnesses with the second one replaced by `3 + 5X`, which is out of range. -/
def unWits2 : List (Witness C49 C49) :=
  [wit49 ![⟨1, 0⟩] ![⟨0, 6⟩], wit49 ![⟨3, 5⟩] ![⟨6, 6⟩], wit49 ![⟨1, 1⟩] ![⟨0, 0⟩], wit49 ![⟨3, 4⟩] ![⟨5, 2⟩]]

theorem card49 : Fintype.card F49 = 49 := by decide

open Classical in
/-- At most 8 of 49 tapes are accepted for a second witness out of range, whatever the prover sends. -/
example (strat : List F49 → List C49) (g : Unit → Nat → List UInt8 × Unit) :
    (univ.filter fun w : Fin 13 → F49 =>
      FoldAccepted ring49 par49 cs49 ccs49 unAccs unWits2 g () strat (List.ofFn w)).card ≤ 8 * 49 ^ 12 := by
  have h := C54_soundness_partial ring49 par49 (by decide) (by decide) cs49 ccs49 ccs49_shape unAccs unWits2
    { cmLen := rfl, wLen := rfl, hat := by decide
      wit := by
        intro w hw
        simp only [unWits2, List.mem_cons, List.not_mem_nil, or_false] at hw
        rcases hw with rfl | rfl | rfl | rfl <;> exact mkWit_ok ring49 par49 (wl := 1) _ rfl
      r := by
        intro st hst
        simp only [unAccs, List.mem_cons, List.not_mem_nil, or_false] at hst
        rcases hst with rfl | rfl | rfl | rfl <;> rfl
      v := by
        intro st hst
        simp only [unAccs, List.mem_cons, List.not_mem_nil, or_false] at hst
        rcases hst with rfl | rfl | rfl | rfl <;> rfl
      u := by
        intro st hst
        simp only [unAccs, List.mem_cons, List.not_mem_nil, or_false] at hst
        rcases hst with rfl | rfl | rfl | rfl <;> rfl } charGt49
    (Or.inr (Or.inl ⟨1, _, by decide, rfl, by
      intro h
      obtain ⟨n, h1, h2⟩ := h ![⟨3, 5⟩] (by simp [wit49, mkWit]) (0 : Fin (2 * 1))
      have h3 : -1 ≤ n ∧ n ≤ 1 := by
        have : n.natAbs < 2 := h1
        omega
      have h4 : ring49.coeff ![⟨3, 5⟩] (0 : Fin (2 * 1)) = 3 := by decide
      rw [h4] at h2
      obtain ⟨h5, h6⟩ := h3
      interval_cases n <;> revert h2 <;> decide⟩)) g () strat
  rw [card49] at h
  exact h

/-- Four witnesses over `F_5[X]/(X^2+1)`, the last one out of range (`2`). -/
def outWits5 : List (Witness C5 C5) :=
  [wit5 ![1, 1] ![2, 3], wit5 ![3, 4] ![3, 2], wit5 ![0, 0] ![1, 1], wit5 ![2, 2] ![4, 3]]

open Classical in
/-- The degree one case on concrete data: the last witness is out of range. (The field is so small that the bound
exceeds the number of tapes; the point is that the hypotheses can be met.) -/
example (strat : List (ZMod 5) → List C5) (g : Unit → Nat → List UInt8 × Unit) :
    (univ.filter fun w : Fin 13 → ZMod 5 =>
      FoldAccepted ring5 par5 cs5 ccs5 foldAccs5 outWits5 g () strat (List.ofFn w)).card ≤ 8 * 5 ^ 12 := by
  have h := C54_soundness_degree_one ring5 par5 (by decide) (by decide) cs5 ccs5 ccs5_shape foldAccs5 outWits5
    { cmLen := rfl, wLen := rfl, hat := by decide
      wit := by
        intro w hw
        simp only [outWits5, List.mem_cons, List.not_mem_nil, or_false] at hw
        rcases hw with rfl | rfl | rfl | rfl <;> exact mkWit_ok ring5 par5 (wl := 2) _ rfl
      r := by
        intro st hst
        simp only [foldAccs5, List.mem_cons, List.not_mem_nil, or_false] at hst
        rcases hst with rfl | rfl | rfl | rfl <;> rfl
      v := by
        intro st hst
        simp only [foldAccs5, List.mem_cons, List.not_mem_nil, or_false] at hst
        rcases hst with rfl | rfl | rfl | rfl <;> rfl
      u := by
        intro st hst
        simp only [foldAccs5, List.mem_cons, List.not_mem_nil, or_false] at hst
        rcases hst with rfl | rfl | rfl | rfl <;> rfl } charGt5
    (Or.inr ⟨wit5 ![2, 2] ![4, 3], by simp [outWits5], by
      intro h
      obtain ⟨n, h1, h2⟩ := h ![2, 2] (by simp [wit5, mkWit]) (0 : Fin (1 * 2))
      have h3 : -1 ≤ n ∧ n ≤ 1 := by
        have : n.natAbs < 2 := h1
        omega
      have h4 : ring5.coeff ![2, 2] (0 : Fin (1 * 2)) = 2 := by decide
      rw [h4] at h2
      obtain ⟨h5, h6⟩ := h3
      interval_cases n <;> revert h2 <;> decide⟩) g () strat
  rw [ZMod.card] at h
  exact h

end Examples

end Verif.Props
