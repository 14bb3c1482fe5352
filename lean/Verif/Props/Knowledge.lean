import Verif.Lemmas.Causal
import Verif.Lemmas.Forking
import Verif.Props.Nifs

/-!
# Property theorems for the knowledge soundness of folding: C88
-/

set_option linter.unusedSectionVars false
set_option linter.unusedSimpArgs false
set_option linter.constructorNameAsVariable false

namespace Verif.Props

open Finset Spec Verif Verif.Poseidon Verif.NormGrowth Verif.SmallNorm Verif.Example

section Gen
variable {Fp F C : Type} {N τ : Nat} [Field Fp] [Field F] [DecidableEq F] [Algebra Fp F] [CommRing C]
  [Algebra Fp C]

/-- The proof that an interactive prover ends up with on the tape `w`: the messages of the sum-check may depend on all
challenges up to then, the evaluations on the whole tape. -/
def tapeProof (P : Params) (n : Nat) (strat : List F → List (Fin N → F)) (theta eta : List F → List (List (Fin N → F)))
    (w : List F) : FoldProof (Fin N → F) :=
  ⟨strategyProof (fun v => strat (w.take (6 * P.K - 1 + n) ++ v)) (w.drop (6 * P.K - 1 + n)), theta w, eta w⟩

theorem card_bytes (n : Nat) : Fintype.card (Bytes n) = 256 ^ n := by rw [Fintype.card_fun, Fintype.card_fin, Fintype.card_fin]

open Classical in
/-- **C88**: knowledge soundness of the folding step. Let a prover be given that, for statements `cms`, answers the verifier's
random challenges, and in the end has a folded witness with coefficients at most `bound / 2`. If it succeeds with probability
more than `(s + max(τ, |M|) + 2 b s) / |F| + (2K - 1) D / 256 ^ l` (`l` bytes per folding challenge, at most `D` of their values
without invertible difference to a given one), and the commitment is binding for short vectors and for vectors which are short
after multiplication by a difference of challenges, then the statements are true: there are witnesses with the given
commitments and evaluations, the first `2K - 1` of them are below `b`, and the last is a short vector minus a combination of
these by challenges. -/
theorem C88_knowledge [Fintype F] (rd : RingData Fp F C N τ) (P : Params) (hK : 1 ≤ P.K) (hb : 1 ≤ P.bSmall)
    (cs : ChallengeSet C) (ccs : CCS (Fin N → F)) (scheme : Ajtai (Fin N → F)) (hS : SizesOK P ccs scheme)
    (ht : ccs.t = ccs.M.length) (hc : CharGt F (2 * P.bSmall)) (cms : List (LCCCS (Fin N → F)))
    (hr : ∀ st ∈ cms, st.r.length = ccs.s) (hv : ∀ st ∈ cms, st.v.length = τ) (hu : ∀ st ∈ cms, st.u.length = ccs.M.length)
    (strat : List F → List (Fin N → F)) (theta eta : List F → List (List (Fin N → F)))
    (hsh : ∀ w, FoldShape P ccs scheme cms (eta w)) (bound D : Nat)
    (hD : ∀ b : Bytes cs.bytesNeeded, (univ.filter fun b' => ¬ UnitPair cs b b').card ≤ D)
    (hb1 : Binding rd scheme (Relaxed rd cs (2 * bound))) (hb2 : Binding rd scheme (ShortVec rd bound))
    (hmany : (ccs.s + max τ ccs.M.length + ccs.s * (2 * P.bSmall)) * Fintype.card F ^ (6 * P.K - 1 + ccs.s + ccs.s - 1)
        * (256 ^ cs.bytesNeeded) ^ (2 * P.K - 1)
      + (2 * P.K - 1) * (D * (Fintype.card F ^ (6 * P.K - 1 + ccs.s + ccs.s) * (256 ^ cs.bytesNeeded) ^ (2 * P.K - 1 - 1)))
      < (univ.filter fun x : (Fin (6 * P.K - 1 + ccs.s + ccs.s) → F) × (Fin (2 * P.K - 1) → Bytes cs.bytesNeeded) =>
          Succeeds rd P cs ccs scheme cms bound (List.ofFn x.1) x.2 (tapeProof P ccs.s strat theta eta (List.ofFn x.1))).card) :
    ∃ ws : List (Witness (Fin N → F) C), ws.length = 2 * P.K ∧
      (∀ (k : Nat) (st : LCCCS (Fin N → F)) (wit : Witness (Fin N → F) C), cms[k]? = some st → ws[k]? = some wit →
        LcccsHolds rd P ccs scheme st wit ∧ SlotSumsVanish rd P.bSmall wit ∧
        (k < 2 * P.K - 1 → WitBelow rd P.bSmall wit)) ∧
      ∃ (rho : Nat → C) (g : List C), (∀ k < 2 * P.K - 1, IsChallenge cs (rho k)) ∧ ShortVec rd bound g ∧
        ∀ j, (ws.getD (2 * P.K - 1) ⟨[], [], [], []⟩).fCoeff.getD j 0 = g.getD j 0
          - ∑ k ∈ range (2 * P.K - 1), rho k * (ws.getD k ⟨[], [], [], []⟩).fCoeff.getD j 0 := by
  obtain ⟨ρ, hρ⟩ := forking (fun (w : Fin (6 * P.K - 1 + ccs.s + ccs.s) → F) ρ => Succeeds rd P cs ccs scheme cms bound (List.ofFn w) ρ
    (tapeProof P ccs.s strat theta eta (List.ofFn w))) (UnitPair cs) D
    ((ccs.s + max τ ccs.M.length + ccs.s * (2 * P.bSmall)) * Fintype.card F ^ (6 * P.K - 1 + ccs.s + ccs.s - 1)) hD (by
      rw [card_bytes, Fintype.card_fun, Fintype.card_fin]
      exact hmany)
  have hlen : ∀ w : Fin (6 * P.K - 1 + ccs.s + ccs.s) → F, (List.ofFn w).length = 6 * P.K - 1 + ccs.s + ccs.s := fun w => by simp
  -- extraction on a tape
  have hext : ∀ w : List F, w.length = 6 * P.K - 1 + ccs.s + ccs.s →
      (Succeeds rd P cs ccs scheme cms bound w ρ (tapeProof P ccs.s strat theta eta w) ∧ ∀ i, ∃ b, UnitPair cs (ρ i) b ∧
        Succeeds rd P cs ccs scheme cms bound w (Function.update ρ i b) (tapeProof P ccs.s strat theta eta w)) →
      ∃ (st : LCCCS (Fin N → F)) (t : List F × Nat) (g : Witness (Fin N → F) C) (W : Nat → Witness (Fin N → F) C) (rho : Nat → C),
        foldVerify rd P cs (scripted (coinT F (Fin N → F)) (byteScript cs ρ)) (w, 0) cms (tapeProof P ccs.s strat theta eta w) ccs
          = .ok (st, t) ∧
        (theta w).length = 2 * P.K ∧ LcccsHolds rd P ccs scheme st g ∧ WitShort rd bound g ∧
        (∀ k < 2 * P.K, LcccsHolds rd P ccs scheme
          (claimed cms (theta w) (eta w) 0 ((w.drop (6 * P.K - 1 + ccs.s)).map (algebraMap F (Fin N → F))) k) (W k)) ∧
        (∀ k < 2 * P.K - 1, Relaxed rd cs (2 * bound) (W k).fCoeff) ∧
        (∀ k < 2 * P.K - 1, cs.decode (byteScript cs ρ k cs.bytesNeeded) = .ok (rho k)) ∧
        ∀ j, (W (2 * P.K - 1)).fCoeff.getD j 0 = g.fCoeff.getD j 0
          - ∑ k ∈ range (2 * P.K - 1), rho k * (W k).fCoeff.getD j 0 := by
    intro w hw ⟨hf1, hf2⟩
    obtain ⟨st, t, g, W, rho, h1, h2, h3, h4, h5⟩ := forks_extract rd P hK cs w ccs scheme hS ht cms _ (hsh w) bound ρ hf1 hf2
    have hpt := coin_point rd P hK cs _ w t ccs hS.sh.spos hw cms _ st
      (fun v => strat (w.take (6 * P.K - 1 + ccs.s) ++ v)) rfl h1
    rw [hpt] at h4
    exact ⟨st, t, g, W, rho, h1, theta_len rd P hK cs _ _ w t ccs cms _ st h1, h2, h3, h4, h5⟩
  obtain ⟨w0, hw0⟩ := card_pos.1 (Nat.lt_of_le_of_lt (Nat.zero_le _) hρ)
  rw [mem_filter] at hw0
  obtain ⟨st0, t0, g, W, rho, h1, -, hg1, hg2, h2, h3, hrho, hL⟩ := hext _ (hlen w0) hw0.2
  set ws := (List.range (2 * P.K)).map W with hws
  have hwsl : ws.length = 2 * P.K := by simp [hws]
  have hwk : ∀ k wit, ws[k]? = some wit → k < 2 * P.K ∧ wit = W k := by
    intro k wit h
    have hk : k < 2 * P.K := by
      rw [← hwsl]
      exact (List.getElem?_eq_some_iff.1 h).1
    refine ⟨hk, ?_⟩
    rw [hws, List.getElem?_map, List.getElem?_range hk] at h
    exact (Option.some.inj h).symm
  have hwd : ∀ k < 2 * P.K, ws.getD k ⟨[], [], [], []⟩ = W k := by
    intro k hk
    rw [List.getD_eq_getElem?_getD, hws, List.getElem?_map, List.getElem?_range hk]
    rfl
  have hcl : cms.length = 2 * P.K := (hsh []).cmsLen
  have hck : ∀ k st, cms[k]? = some st → ∀ z, cms.getD k z = st := by
    intro k st h z
    rw [List.getD_eq_getElem?_getD, h]
    rfl
  have hsz : FoldSizes rd P ccs cms ws := {
    cmLen := hcl
    wLen := hwsl
    hat := hS.hat
    wit := fun wit hm => by
      obtain ⟨k, hk, rfl⟩ := List.mem_map.1 hm
      exact (h2 k (List.mem_range.1 hk)).witOK
    r := hr
    v := hv
    u := hu }
  by_contra hcon
  have hviol : FoldViolated rd P ccs cms ws := by
    by_contra hno
    unfold FoldViolated at hno
    push Not at hno
    obtain ⟨n1, n2, n3⟩ := hno
    refine hcon ⟨ws, hwsl, fun k st wit g1 g2 => ?_, rho, g.fCoeff, fun k hk => ⟨_, byteScript_length _ _ _ _, hrho k hk⟩,
      witShort_vec rd hg2, fun j => ?_⟩
    swap
    · rw [hwd _ (by omega), hL j]
      congr 1
      apply sum_congr rfl
      intro k hk
      rw [hwd k (by have := mem_range.1 hk; omega)]
    obtain ⟨hk, rfl⟩ := hwk k wit g2
    have hh := h2 k hk
    refine ⟨⟨hh.witOK, ?_, ?_, n1 k st _ g1 g2⟩, ?_, fun hk' => n2 k _ hk' g2⟩
    · have := hh.cm
      unfold claimed at this
      rw [hck k st g1] at this
      exact this
    · have := hh.xlen
      unfold claimed at this
      rw [hck k st g1] at this
      exact this
    · by_cases hk' : k < 2 * P.K - 1
      · exact slotSums_of_below rd _ _ (n2 k _ hk' g2)
      · have : k = 2 * P.K - 1 := by omega
        subst this
        exact n3 _ g2
  -- every successful tape is accepted with these witnesses
  have hsub : (univ.filter fun w : Fin (6 * P.K - 1 + ccs.s + ccs.s) → F =>
      Succeeds rd P cs ccs scheme cms bound (List.ofFn w) ρ (tapeProof P ccs.s strat theta eta (List.ofFn w)) ∧
      ∀ i, ∃ b, UnitPair cs (ρ i) b ∧ Succeeds rd P cs ccs scheme cms bound (List.ofFn w) (Function.update ρ i b)
        (tapeProof P ccs.s strat theta eta (List.ofFn w)))
      ⊆ univ.filter fun w : Fin (6 * P.K - 1 + ccs.s + ccs.s) → F =>
        FoldAccepted rd P cs ccs cms ws (fun k n => (byteScript cs ρ k n, k + 1)) 0 strat (List.ofFn w) := by
    intro w hw
    rw [mem_filter] at hw ⊢
    refine ⟨mem_univ _, ?_⟩
    obtain ⟨st, t, g', W', rho', g1, g0, gg1, gg2, g2, g3, grho, gL⟩ := hext _ (hlen w) hw.2
    have heq1 : ∀ k < 2 * P.K - 1, (W' k).fCoeff = (W k).fCoeff := by
      intro k hk
      have hk2 : k < 2 * P.K := by omega
      apply hb1 _ _ _ _ (g3 k hk) (h3 k hk)
      · have e1 := (g2 k hk2).cm
        have e2 := (h2 k hk2).cm
        rw [(g2 k hk2).witOK.f] at e1
        rw [(h2 k hk2).witOK.f] at e2
        rw [e1, e2]
        rfl
      · rw [(g2 k hk2).witOK.flen, hS.width]
      · rw [(h2 k hk2).witOK.flen, hS.width]
    -- the folded commitments agree
    have hcm : st.cm = st0.cm := by
      obtain ⟨-, -, -, -, -, -, -, f, f1, f2, f3⟩ := run_comb rd P hK cs _ _ _ _ ccs scheme ht cms _ st (hsh _) g1
      obtain ⟨-, -, -, -, -, -, -, f', f1', f2', f3'⟩ := run_comb rd P hK cs _ _ _ _ ccs scheme ht cms _ st0 (hsh _) h1
      have hff : ∀ k < 2 * P.K, f k = f' k := by
        intro k hk
        by_cases hk' : k < 2 * P.K - 1
        · have e := (f2 k hk').symm.trans (f2' k hk')
          exact Except.ok.inj e
        · have : k = 2 * P.K - 1 := by omega
          subst this
          rw [f1, f1']
      have : st.cm.val = st0.cm.val := by
        apply ext_getD f3.cm.len f3'.cm.len
        intro j hj
        rw [f3.cm.eq j hj, f3'.cm.eq j hj]
        apply sum_congr rfl
        intro k hk
        rw [hff k (mem_range.1 hk)]
        rfl
      cases hst : st.cm
      cases hst0 : st0.cm
      rw [hst, hst0] at this
      simp only at this
      rw [this]
    have hgg : g'.fCoeff = g.fCoeff := by
      apply hb2 _ _ _ _ (witShort_vec rd gg2) (witShort_vec rd hg2)
      · have e1 := gg1.cm
        have e2 := hg1.cm
        rw [gg1.witOK.f] at e1
        rw [hg1.witOK.f] at e2
        rw [e1, e2, hcm]
      · rw [gg1.witOK.flen, hS.width]
      · rw [hg1.witOK.flen, hS.width]
    have heq : ∀ k < 2 * P.K, (W' k).fCoeff = (W k).fCoeff := by
      intro k hk
      by_cases hk' : k < 2 * P.K - 1
      · exact heq1 k hk'
      · have : k = 2 * P.K - 1 := by omega
        subst this
        apply ext_getD (g2 _ hk).witOK.flen (h2 _ hk).witOK.flen
        intro j _
        rw [gL j, hL j, hgg]
        congr 1
        apply sum_congr rfl
        intro k hk
        have hk := mem_range.1 hk
        have e := (grho k hk).symm.trans (hrho k hk)
        rw [Except.ok.inj e, heq1 k hk]
    have hwe : ∀ k (hk : k < 2 * P.K) x, _ := fun k hk x =>
      witOK_evals rd P (g2 k hk).witOK (h2 k hk).witOK (heq k hk) x
    refine ⟨_, st, t, g1, rfl, ?_, ?_⟩
    · change theta (List.ofFn w) = _
      rw [list_eq_range (theta (List.ofFn w)) [] g0, hws, List.map_map]
      apply List.map_congr_left
      intro k hk
      have hk := List.mem_range.1 hk
      have := (g2 k hk).evals.v
      change (theta (List.ofFn w)).getD k [] = (W' k).fHat.map _ at this
      rw [this]
      exact (hwe k hk _).2
    · change eta (List.ofFn w) = _
      rw [list_eq_range (eta (List.ofFn w)) [] (hsh _).etasLen, hws]
      have hcms : cms = (List.range (2 * P.K)).map fun k => cms.getD k ⟨[], [], ⟨[]⟩, [], [], 0⟩ := list_eq_range cms _ hcl
      conv_rhs => rw [hcms]
      rw [zipWith_map_self]
      apply List.map_congr_left
      intro k hk
      have hk := List.mem_range.1 hk
      have := (g2 k hk).evals.u
      change (eta (List.ofFn w)).getD k [] = _ at this
      rw [this, (hwe k hk []).1]
      rfl
  exact absurd (le_trans (card_le_card hsub) (C54_soundness_partial rd P hK hb cs ccs hS.sh cms ws hsz hc hviol _ 0 strat))
    (not_le.2 hρ)

/-- For extension degree one the slot sums vanish only for witnesses below `b`. -/
theorem below_of_slotSums (rd : RingData Fp F C N 1) (b : Nat) (wit : Witness (Fin N → F) C) (h : SlotSumsVanish rd b wit) :
    WitBelow rd b wit := by
  intro c hcm i
  obtain ⟨⟨j, a⟩, rfl⟩ := finProdFinEquiv.surjective i
  have h0 := h c hcm a
  rw [Fin.sum_univ_one] at h0
  have hj : j = 0 := Subsingleton.elim _ _
  subst hj
  by_contra hcon
  push Not at hcon
  exact rangePoly_ne_zero _ _ hcon h0

/-- **C88**: the honest prover is a prover of this kind, its messages depend only on earlier challenges, and it succeeds
always if the statements have short witnesses whose combinations fit in `K` digits. -/
theorem C88_honest (rd : RingData Fp F C N τ) (P : Params) (cs : ChallengeSet C)
    (ccs : CCS (Fin N → F)) (scheme : Ajtai (Fin N → F))
    (cms : List (LCCCS (Fin N → F))) (ws : List (Witness (Fin N → F) C)) (mz : List (List (Mle (Fin N → F))))
    (hP : ParamsOK Fp P) (hS : SizesOK P ccs scheme) (ht : ccs.t = ccs.M.length)
    (hin : FoldInput rd P ccs scheme cms ws mz) (hc : CharGt F (2 * P.bSmall))
    (hcs : ∀ bs, bs.length = cs.bytesNeeded → ∃ c, cs.decode bs = .ok c) (hN : NormOK rd P cs) :
    ∃ (strat : List F → List (Fin N → F)) (theta eta : List F → List (List (Fin N → F))),
      (∀ w, FoldShape P ccs scheme cms (eta w)) ∧
      ∀ w ρ, w.length = 6 * P.K - 1 + ccs.s + ccs.s →
        Succeeds rd P cs ccs scheme cms (reach P.bSmall P.K) w ρ (tapeProof P ccs.s strat theta eta w) := by
  choose proof hsh H using fun w : List F => C86_honest_forks rd P cs (coinT F (Fin N → F)) w ccs scheme cms ws mz hP hS ht hin hc hcs
  have hcausal : ∀ w, w.length = 6 * P.K - 1 + ccs.s + ccs.s →
      tapeProof P ccs.s (fun l => (proof l).sumcheck.getD (l.length - (6 * P.K - 1 + ccs.s)) [])
        (fun w => (proof w).thetaS) (fun w => (proof w).etaS) w = proof w := by
    intro w hw
    have key : ∀ i < ccs.s, (proof (w.take (6 * P.K - 1 + ccs.s + i))).sumcheck.getD i [] = (proof w).sumcheck.getD i [] ∧
        (proof w).sumcheck.length = ccs.s := by
      intro i hi
      obtain ⟨st, wit, t, g1, -⟩ := H w (fun _ n => List.replicate n 0) (by simp)
      obtain ⟨st', wit', t', g1', -⟩ := H (w.take (6 * P.K - 1 + ccs.s + i)) (fun _ n => List.replicate n 0) (by simp)
      obtain ⟨q1, q2⟩ := fold_causal rd P hP.Kpos cs _ w (w.take (6 * P.K - 1 + ccs.s + i)) cms ws ccs mz _ _ _ _ _ _ _ _ i (by omega)
        (by rw [List.take_take, Nat.min_self]) g1 g1'
      refine ⟨?_, q2⟩
      have q3 := congrArg (fun l : List (List (Fin N → F)) => l.getD i []) q1
      simp only [List.getD_eq_getElem?_getD, List.getElem?_take, Nat.lt_succ_self, if_true] at q3 ⊢
      exact q3.symm
    have hlen : (proof w).sumcheck.length = ccs.s := (key 0 hS.sh.spos).2
    have hs : (tapeProof P ccs.s (fun l => (proof l).sumcheck.getD (l.length - (6 * P.K - 1 + ccs.s)) [])
        (fun w => (proof w).thetaS) (fun w => (proof w).etaS) w).sumcheck = (proof w).sumcheck := by
      rw [list_eq_range (proof w).sumcheck [] hlen]
      unfold tapeProof strategyProof
      rw [List.length_drop, hw, Nat.add_sub_cancel_left]
      apply List.map_congr_left
      intro i hi
      have hi := List.mem_range.1 hi
      beta_reduce
      rw [← (key i hi).1, ← List.take_add, List.length_take]
      congr 1
      omega
    calc _ = (⟨_, (proof w).thetaS, (proof w).etaS⟩ : FoldProof (Fin N → F)) := rfl
      _ = proof w := by
        have := hs
        unfold tapeProof at this
        simp only at this
        rw [this]
  refine ⟨fun l => (proof l).sumcheck.getD (l.length - (6 * P.K - 1 + ccs.s)) [], fun w => (proof w).thetaS,
    fun w => (proof w).etaS, hsh, fun w ρ hw => ?_⟩
  rw [hcausal w hw]
  obtain ⟨st, wit, t, g1, g2, g3⟩ := H w (byteScript cs ρ) (byteScript_length cs ρ)
  obtain ⟨-, -, rho, g4, g5, g6, -⟩ := C37_folded_valid rd P cs _ _ t ccs scheme cms ws mz st wit (proof w) hP hS ht hin hc
    (fun s n => byteScript_length cs ρ _ _) hcs g1
  refine ⟨st, t, wit, g2, g3, comb_short rd P cs hN g4 g5 ?_ g6⟩
  intro k hk
  obtain ⟨_, wk, -, e2, -, e3, -⟩ := hin.holds k hk
  rw [List.getD_eq_getElem?_getD, e2]
  exact e3

end Gen

section Norm
variable {p : ℕ} [Fact p.Prime] {F C : Type} {N τ : ℕ} [Field F] [DecidableEq F] [CommRing C] [Algebra (ZMod p) F] [Algebra (ZMod p) C]

theorem toList_inj {n : Nat} {b b' : Bytes n} (h : b.toList = b'.toList) : b = b' := by
  funext i
  have h1 := congrFun (List.ofFn_injective h) i
  have h2 := congrArg UInt8.toNat h1
  rw [UInt8.toNat_ofNat', UInt8.toNat_ofNat', Nat.mod_eq_of_lt (b i).2, Nat.mod_eq_of_lt (b' i).2] at h2
  exact Fin.ext h2

/-- Without short kernel vectors, short openings are unique. -/
theorem binding_short (rd : RingData (ZMod p) F C N τ) (scheme : Ajtai (Fin N → F)) (bound A : ℕ) (hA : bound ≤ A)
    (h : NoShortKernel rd scheme A) : Binding rd scheme (ShortVec rd bound) := by
  intro fc fc' hl hl' hs hs' hcm
  by_contra hne
  apply h
  set m := scheme.matrix.ncols with hm
  set vs : Nat → List C := fun k => if k = 0 then fc else fc' with hvs
  set cc : Nat → C := fun k => if k = 0 then 1 else -1 with hcc
  have hz : IsComb 2 cc vs ((List.range m).map fun i => ∑ k ∈ range 2, cc k * (vs k).getD i 0) m :=
    IsComb.mk' fun k _ => by
      rw [hvs]
      simp only
      split
      · exact hl
      · exact hl'
  set z : List C := (List.range m).map fun i => ∑ k ∈ range 2, cc k * (vs k).getD i 0 with hzd
  have hzj : ∀ j, z.getD j 0 = fc.getD j 0 - fc'.getD j 0 := by
    intro j
    rw [hz.eq_all j, sum_range_succ, sum_range_one]
    simp only [hcc, hvs, if_true, one_ne_zero, if_false]
    ring
  refine ⟨z, hz.len, ?_, ?_, ?_⟩
  · by_contra hall
    push Not at hall
    apply hne
    apply ext_getD hl hl'
    intro j hj
    have h5 : z.getD j 0 = 0 := by
      apply hall
      rw [List.getD_eq_getElem?_getD, List.getElem?_eq_getElem (by rw [hz.len]; exact hj)]
      exact List.getElem_mem _
    rw [hzj j] at h5
    exact sub_eq_zero.1 h5
  · have hc0 := commit_comb (map_crt_comb rd hz) scheme
    rw [commit_ok scheme _ (by rw [List.length_map, hz.len])]
    rw [commit_ok scheme _ (by rw [List.length_map, hl]), commit_ok scheme _ (by rw [List.length_map, hl'])] at hcm
    have hcm' : (scheme.matrix.vals.map fun row => dot row (fc.map rd.crt))
        = scheme.matrix.vals.map fun row => dot row (fc'.map rd.crt) := by
      have := Except.ok.inj hcm
      exact (Commitment.mk.injEq _ _).mp this
    congr 2
    apply ext_getD hc0.len (by simp)
    intro j hj
    rw [hc0.eq j hj, sum_range_succ, sum_range_one]
    simp only [hcc, hvs, if_true, one_ne_zero, if_false]
    rw [hcm']
    simp only [List.getD_eq_getElem?_getD, List.getElem?_replicate, hj, if_true, Option.getD_some, map_neg]
    simp
  · intro x hx i
    obtain ⟨j, hj, rfl⟩ := List.getElem_of_mem hx
    have hxj := hzj j
    rw [List.getD_eq_getElem?_getD, List.getElem?_eq_getElem hj, Option.getD_some] at hxj
    obtain ⟨n, n1, n2⟩ := hs j i
    obtain ⟨n', n1', n2'⟩ := hs' j i
    refine ⟨n - n', ?_, ?_⟩
    · have := Int.natAbs_sub_le n n'
      omega
    · rw [hxj, map_sub, Pi.sub_apply, n2, n2']
      push_cast
      ring

theorem binding_relaxed (rd : RingData (ZMod p) F C N τ) (cs : ChallengeSet C) {red : ℕ → ℕ → ℤ} {s γ β : ℕ}
    (htab : Table rd red s γ) (hbd : Bounded rd cs s β) (scheme : Ajtai (Fin N → F)) (bound : ℕ)
    (h : NoShortKernel rd scheme (4 * γ * β * bound)) : Binding rd scheme (Relaxed rd cs (2 * bound)) := by
  intro fc fc' hl hl' ⟨c1, c2, ⟨b1, l1, d1⟩, ⟨b2, l2, d2⟩, u1, s1⟩ ⟨c3, c4, ⟨b3, l3, d3⟩, ⟨b4, l4, d4⟩, u2, s2⟩ hcm
  by_contra hne
  apply h
  have := C87_kernel rd cs htab hbd scheme fc fc' hl hl' hne hcm b1 b2 b3 b4 c1 c2 c3 c4 l1 l2 l3 l4 d1 d2 d3 d4 u1 u2 (2 * bound) s1 s2
  rwa [Nat.mul_div_cancel_left _ (by norm_num)] at this

open Classical in
/-- **C88**: for a challenge set where different bytes give challenges with invertible difference, and with bounds on the
challenges and on the growth under multiplication, it suffices that the commitment matrix has no short kernel vector. The last
witness, although its range is not checked, is short as well: its coefficients are at most
`bound / 2 + (2K - 1) γ β (b - 1)`. -/
theorem C88_knowledge_norm [Fintype F] (rd : RingData (ZMod p) F C N τ) (P : Params) (hK : 1 ≤ P.K) (hb : 1 ≤ P.bSmall)
    (cs : ChallengeSet C) {red : ℕ → ℕ → ℤ} {s γ β : ℕ} (htab : Table rd red s γ) (hbd : Bounded rd cs s β)
    (hdiff : ∀ bs bs' : List UInt8, bs.length = cs.bytesNeeded → bs'.length = cs.bytesNeeded → bs ≠ bs' →
      ∀ c c', cs.decode bs = .ok c → cs.decode bs' = .ok c' → IsUnit (c - c'))
    (ccs : CCS (Fin N → F)) (scheme : Ajtai (Fin N → F)) (hS : SizesOK P ccs scheme)
    (ht : ccs.t = ccs.M.length) (hc : CharGt F (2 * P.bSmall)) (cms : List (LCCCS (Fin N → F)))
    (hr : ∀ st ∈ cms, st.r.length = ccs.s) (hv : ∀ st ∈ cms, st.v.length = τ) (hu : ∀ st ∈ cms, st.u.length = ccs.M.length)
    (strat : List F → List (Fin N → F)) (theta eta : List F → List (List (Fin N → F)))
    (hsh : ∀ w, FoldShape P ccs scheme cms (eta w)) (bound : Nat)
    (hker : NoShortKernel rd scheme (4 * γ * β * bound)) (hγ : 1 ≤ 4 * γ * β)
    (hmany : (ccs.s + max τ ccs.M.length + ccs.s * (2 * P.bSmall)) * Fintype.card F ^ (6 * P.K - 1 + ccs.s + ccs.s - 1)
        * (256 ^ cs.bytesNeeded) ^ (2 * P.K - 1)
      + (2 * P.K - 1) * (Fintype.card F ^ (6 * P.K - 1 + ccs.s + ccs.s) * (256 ^ cs.bytesNeeded) ^ (2 * P.K - 1 - 1))
      < (univ.filter fun x : (Fin (6 * P.K - 1 + ccs.s + ccs.s) → F) × (Fin (2 * P.K - 1) → Bytes cs.bytesNeeded) =>
          Succeeds rd P cs ccs scheme cms bound (List.ofFn x.1) x.2 (tapeProof P ccs.s strat theta eta (List.ofFn x.1))).card) :
    ∃ ws : List (Witness (Fin N → F) C), ws.length = 2 * P.K ∧
      ∀ (k : Nat) (st : LCCCS (Fin N → F)) (wit : Witness (Fin N → F) C), cms[k]? = some st → ws[k]? = some wit →
        LcccsHolds rd P ccs scheme st wit ∧ SlotSumsVanish rd P.bSmall wit ∧ (k < 2 * P.K - 1 → WitBelow rd P.bSmall wit) ∧
        WitShort rd (bound + 2 * ((2 * P.K - 1) * (γ * β * (P.bSmall - 1)) + (P.bSmall - 1))) wit := by
  have hD : ∀ b : Bytes cs.bytesNeeded, (univ.filter fun b' => ¬ UnitPair cs b b').card ≤ 1 := by
    intro b
    rw [card_le_one]
    have key : ∀ b', b' ∈ (univ.filter fun b' => ¬ UnitPair cs b b') → b' = b := by
      intro b' hb'
      rw [mem_filter] at hb'
      by_contra hne
      exact hb'.2 fun c c' => hdiff _ _ (toList_length _) (toList_length _) (fun h => hne (toList_inj h).symm) c c'
    intro a ha a' ha'
    rw [key a ha, key a' ha']
  obtain ⟨ws, h1, h2, rho, g, h3, h4, h5⟩ := C88_knowledge rd P hK hb cs ccs scheme hS ht hc cms hr hv hu strat theta eta hsh
    bound 1 hD (binding_relaxed rd cs htab hbd scheme bound hker)
    (binding_short rd scheme bound _ (Nat.le_mul_of_pos_left _ hγ) hker) (by rw [one_mul]; exact hmany)
  refine ⟨ws, h1, fun k st wit g1 g2 => ⟨(h2 k st wit g1 g2).1, (h2 k st wit g1 g2).2.1, (h2 k st wit g1 g2).2.2, ?_⟩⟩
  have hcl : cms.length = 2 * P.K := (hsh []).cmsLen
  by_cases hk : k < 2 * P.K - 1
  · intro c hcm i
    obtain ⟨n, n1, n2⟩ := (h2 k st wit g1 g2).2.2 hk c hcm i
    refine ⟨n, ?_, n2⟩
    have : n.natAbs ≤ P.bSmall - 1 := by omega
    have := Nat.zero_le ((2 * P.K - 1) * (γ * β * (P.bSmall - 1)))
    omega
  have hk : k = 2 * P.K - 1 := by
    have := (List.getElem?_eq_some_iff.1 g2).1
    omega
  subst hk
  intro c hcm i
  obtain ⟨j, hj, rfl⟩ := List.mem_iff_getElem.1 hcm
  have e := h5 j
  have e0 : ws.getD (2 * P.K - 1) ⟨[], [], [], []⟩ = wit := by rw [List.getD_eq_getElem?_getD, g2]; rfl
  rw [e0, List.getD_eq_getElem?_getD, List.getElem?_eq_getElem hj, Option.getD_some] at e
  rw [e]
  have hs := sub_comb_short rd cs htab hbd P.bSmall bound _ (h4 j) rho (fun k => (ws.getD k ⟨[], [], [], []⟩).fCoeff.getD j 0)
    (2 * P.K - 1) h3 (fun k hk i => by
      have hw := (h2 k _ _ (List.getElem?_eq_getElem (by omega)) (List.getElem?_eq_getElem (by omega))).2.2 hk
      rw [List.getD_eq_getElem?_getD (l := ws), List.getElem?_eq_getElem (by omega), Option.getD_some]
      by_cases hjk : j < (ws[k]'(by omega)).fCoeff.length
      · rw [List.getD_eq_getElem?_getD, List.getElem?_eq_getElem hjk, Option.getD_some]
        exact hw _ (List.getElem_mem _) i
      · rw [getD_out _ (by omega)]
        exact ⟨0, hb, by simp⟩) i
  obtain ⟨n, n1, n2⟩ := hs
  exact ⟨n, by omega, n2⟩

end Norm

section Rings
variable {F C : Type} [Field F] [DecidableEq F] [Fintype F] [CommRing C]

open Classical in
/-- **C88** (Goldilocks). -/
theorem C88_goldilocks [Algebra (ZMod pGoldilocks) F] [Algebra (ZMod pGoldilocks) C]
    (rd : RingData (ZMod pGoldilocks) F C 8 3) (hX : rd.X ^ 24 - rd.X ^ 12 + 1 = 0) (P : Params) (hK : 1 ≤ P.K) (hb : 1 ≤ P.bSmall)
    (ccs : CCS (Fin 8 → F)) (scheme : Ajtai (Fin 8 → F)) (hS : SizesOK P ccs scheme)
    (ht : ccs.t = ccs.M.length) (hc : CharGt F (2 * P.bSmall)) (cms : List (LCCCS (Fin 8 → F)))
    (hr : ∀ st ∈ cms, st.r.length = ccs.s) (hv : ∀ st ∈ cms, st.v.length = 3) (hu : ∀ st ∈ cms, st.u.length = ccs.M.length)
    (strat : List F → List (Fin 8 → F)) (theta eta : List F → List (List (Fin 8 → F)))
    (hsh : ∀ w, FoldShape P ccs scheme cms (eta w)) (bound : Nat)
    (hker : NoShortKernel rd scheme (4608 * bound))
    (hmany : (ccs.s + max 3 ccs.M.length + ccs.s * (2 * P.bSmall)) * Fintype.card F ^ (6 * P.K - 1 + ccs.s + ccs.s - 1)
        * (256 ^ 18) ^ (2 * P.K - 1)
      + (2 * P.K - 1) * (Fintype.card F ^ (6 * P.K - 1 + ccs.s + ccs.s) * (256 ^ 18) ^ (2 * P.K - 1 - 1))
      < (univ.filter fun x : (Fin (6 * P.K - 1 + ccs.s + ccs.s) → F) × (Fin (2 * P.K - 1) → Bytes 18) =>
          Succeeds rd P (packedSet rd.coeff) ccs scheme cms bound (List.ofFn x.1) x.2
            (tapeProof P ccs.s strat theta eta (List.ofFn x.1))).card) :
    ∃ ws : List (Witness (Fin 8 → F) C), ws.length = 2 * P.K ∧
      ∀ (k : Nat) (st : LCCCS (Fin 8 → F)) (wit : Witness (Fin 8 → F) C), cms[k]? = some st → ws[k]? = some wit →
        LcccsHolds rd P ccs scheme st wit ∧ (k < 2 * P.K - 1 → WitBelow rd P.bSmall wit) ∧
        WitShort rd (bound + 2 * ((2 * P.K - 1) * (1152 * (P.bSmall - 1)) + (P.bSmall - 1))) wit := by
  have hd : ∀ bs bs' : List UInt8, bs.length = 18 → bs'.length = 18 → bs ≠ bs' →
      ∀ c c', packedChallenge rd.coeff bs = .ok c → packedChallenge rd.coeff bs' = .ok c' → IsUnit (c - c') := by
    intro bs bs' h h' hne c c' e e'
    obtain ⟨d, d', h3, h4, h5, -⟩ := C83_goldilocks rd hX bs bs' h h' hne
    rw [e] at h3; rw [e'] at h4; cases h3; cases h4; exact h5
  obtain ⟨ws, h1, h2⟩ := C88_knowledge_norm rd P hK hb (packedSet rd.coeff) (table_goldilocks rd hX) (bounded_packed rd) hd ccs scheme hS ht hc cms
    hr hv hu strat theta eta hsh bound hker (by norm_num) hmany
  exact ⟨ws, h1, fun k st wit g1 g2 => ⟨(h2 k st wit g1 g2).1, (h2 k st wit g1 g2).2.2⟩⟩

open Classical in
/-- **C88** (BabyBear). -/
theorem C88_babybear [Algebra (ZMod pBabyBear) F] [Algebra (ZMod pBabyBear) C]
    (rd : RingData (ZMod pBabyBear) F C 8 9) (hX : rd.X ^ 72 - rd.X ^ 36 + 1 = 0) (P : Params) (hK : 1 ≤ P.K) (hb : 1 ≤ P.bSmall)
    (ccs : CCS (Fin 8 → F)) (scheme : Ajtai (Fin 8 → F)) (hS : SizesOK P ccs scheme)
    (ht : ccs.t = ccs.M.length) (hc : CharGt F (2 * P.bSmall)) (cms : List (LCCCS (Fin 8 → F)))
    (hr : ∀ st ∈ cms, st.r.length = ccs.s) (hv : ∀ st ∈ cms, st.v.length = 9) (hu : ∀ st ∈ cms, st.u.length = ccs.M.length)
    (strat : List F → List (Fin 8 → F)) (theta eta : List F → List (List (Fin 8 → F)))
    (hsh : ∀ w, FoldShape P ccs scheme cms (eta w)) (bound : Nat)
    (hker : NoShortKernel rd scheme (6016 * bound))
    (hmany : (ccs.s + max 9 ccs.M.length + ccs.s * (2 * P.bSmall)) * Fintype.card F ^ (6 * P.K - 1 + ccs.s + ccs.s - 1)
        * (256 ^ 18) ^ (2 * P.K - 1)
      + (2 * P.K - 1) * (Fintype.card F ^ (6 * P.K - 1 + ccs.s + ccs.s) * (256 ^ 18) ^ (2 * P.K - 1 - 1))
      < (univ.filter fun x : (Fin (6 * P.K - 1 + ccs.s + ccs.s) → F) × (Fin (2 * P.K - 1) → Bytes 18) =>
          Succeeds rd P (packedSet rd.coeff) ccs scheme cms bound (List.ofFn x.1) x.2
            (tapeProof P ccs.s strat theta eta (List.ofFn x.1))).card) :
    ∃ ws : List (Witness (Fin 8 → F) C), ws.length = 2 * P.K ∧
      ∀ (k : Nat) (st : LCCCS (Fin 8 → F)) (wit : Witness (Fin 8 → F) C), cms[k]? = some st → ws[k]? = some wit →
        LcccsHolds rd P ccs scheme st wit ∧ (k < 2 * P.K - 1 → WitBelow rd P.bSmall wit) ∧
        WitShort rd (bound + 2 * ((2 * P.K - 1) * (1504 * (P.bSmall - 1)) + (P.bSmall - 1))) wit := by
  have hd : ∀ bs bs' : List UInt8, bs.length = 18 → bs'.length = 18 → bs ≠ bs' →
      ∀ c c', packedChallenge rd.coeff bs = .ok c → packedChallenge rd.coeff bs' = .ok c' → IsUnit (c - c') := by
    intro bs bs' h h' hne c c' e e'
    obtain ⟨d, d', h3, h4, h5, -⟩ := C83_babybear rd hX bs bs' h h' hne
    rw [e] at h3; rw [e'] at h4; cases h3; cases h4; exact h5
  obtain ⟨ws, h1, h2⟩ := C88_knowledge_norm rd P hK hb (packedSet rd.coeff) (table_babybear rd hX) (bounded_packed rd) hd ccs scheme hS ht hc cms
    hr hv hu strat theta eta hsh bound hker (by norm_num) hmany
  exact ⟨ws, h1, fun k st wit g1 g2 => ⟨(h2 k st wit g1 g2).1, (h2 k st wit g1 g2).2.2⟩⟩

open Classical in
/-- **C88** (Frog). -/
theorem C88_frog [Algebra (ZMod pFrog) F] [Algebra (ZMod pFrog) C]
    (rd : RingData (ZMod pFrog) F C 4 4) (hX : rd.X ^ 16 + 1 = 0) (P : Params) (hK : 1 ≤ P.K) (hb : 1 ≤ P.bSmall)
    (ccs : CCS (Fin 4 → F)) (scheme : Ajtai (Fin 4 → F)) (hS : SizesOK P ccs scheme)
    (ht : ccs.t = ccs.M.length) (hc : CharGt F (2 * P.bSmall)) (cms : List (LCCCS (Fin 4 → F)))
    (hr : ∀ st ∈ cms, st.r.length = ccs.s) (hv : ∀ st ∈ cms, st.v.length = 4) (hu : ∀ st ∈ cms, st.u.length = ccs.M.length)
    (strat : List F → List (Fin 4 → F)) (theta eta : List F → List (List (Fin 4 → F)))
    (hsh : ∀ w, FoldShape P ccs scheme cms (eta w)) (bound : Nat)
    (hker : NoShortKernel rd scheme (8192 * bound))
    (hmany : (ccs.s + max 4 ccs.M.length + ccs.s * (2 * P.bSmall)) * Fintype.card F ^ (6 * P.K - 1 + ccs.s + ccs.s - 1)
        * (256 ^ 16) ^ (2 * P.K - 1)
      + (2 * P.K - 1) * (Fintype.card F ^ (6 * P.K - 1 + ccs.s + ccs.s) * (256 ^ 16) ^ (2 * P.K - 1 - 1))
      < (univ.filter fun x : (Fin (6 * P.K - 1 + ccs.s + ccs.s) → F) × (Fin (2 * P.K - 1) → Bytes 16) =>
          Succeeds rd P (frogSet rd.coeff) ccs scheme cms bound (List.ofFn x.1) x.2
            (tapeProof P ccs.s strat theta eta (List.ofFn x.1))).card) :
    ∃ ws : List (Witness (Fin 4 → F) C), ws.length = 2 * P.K ∧
      ∀ (k : Nat) (st : LCCCS (Fin 4 → F)) (wit : Witness (Fin 4 → F) C), cms[k]? = some st → ws[k]? = some wit →
        LcccsHolds rd P ccs scheme st wit ∧ (k < 2 * P.K - 1 → WitBelow rd P.bSmall wit) ∧
        WitShort rd (bound + 2 * ((2 * P.K - 1) * (2048 * (P.bSmall - 1)) + (P.bSmall - 1))) wit := by
  have hd : ∀ bs bs' : List UInt8, bs.length = 16 → bs'.length = 16 → bs ≠ bs' →
      ∀ c c', frogChallenge rd.coeff bs = .ok c → frogChallenge rd.coeff bs' = .ok c' → IsUnit (c - c') := by
    intro bs bs' h h' hne c c' e e'
    obtain ⟨d, d', h3, h4, h5, -⟩ := C83_frog rd hX bs bs' h h' hne
    rw [e] at h3; rw [e'] at h4; cases h3; cases h4; exact h5
  obtain ⟨ws, h1, h2⟩ := C88_knowledge_norm rd P hK hb (frogSet rd.coeff) (table_frog rd hX) (bounded_frog rd) hd ccs scheme hS ht hc cms
    hr hv hu strat theta eta hsh bound hker (by norm_num) hmany
  exact ⟨ws, h1, fun k st wit g1 g2 => ⟨(h2 k st wit g1 g2).1, (h2 k st wit g1 g2).2.2⟩⟩

open Classical in
/-- **C88** (Stark): the components are in the base field, and all `2K` witnesses are below `b`. -/
theorem C88_stark [Algebra (ZMod pStark) F] [Algebra (ZMod pStark) C]
    (rd : RingData (ZMod pStark) F C 16 1) (hX : rd.X ^ 16 + 1 = 0) (P : Params) (hK : 1 ≤ P.K) (hb : 1 ≤ P.bSmall)
    (ccs : CCS (Fin 16 → F)) (scheme : Ajtai (Fin 16 → F)) (hS : SizesOK P ccs scheme)
    (ht : ccs.t = ccs.M.length) (hc : CharGt F (2 * P.bSmall)) (cms : List (LCCCS (Fin 16 → F)))
    (hr : ∀ st ∈ cms, st.r.length = ccs.s) (hv : ∀ st ∈ cms, st.v.length = 1) (hu : ∀ st ∈ cms, st.u.length = ccs.M.length)
    (strat : List F → List (Fin 16 → F)) (theta eta : List F → List (List (Fin 16 → F)))
    (hsh : ∀ w, FoldShape P ccs scheme cms (eta w)) (bound : Nat)
    (hker : NoShortKernel rd scheme (16320 * bound))
    (hmany : (ccs.s + max 1 ccs.M.length + ccs.s * (2 * P.bSmall)) * Fintype.card F ^ (6 * P.K - 1 + ccs.s + ccs.s - 1)
        * (256 ^ 16) ^ (2 * P.K - 1)
      + (2 * P.K - 1) * (Fintype.card F ^ (6 * P.K - 1 + ccs.s + ccs.s) * (256 ^ 16) ^ (2 * P.K - 1 - 1))
      < (univ.filter fun x : (Fin (6 * P.K - 1 + ccs.s + ccs.s) → F) × (Fin (2 * P.K - 1) → Bytes 16) =>
          Succeeds rd P (starkSet rd.coeff) ccs scheme cms bound (List.ofFn x.1) x.2
            (tapeProof P ccs.s strat theta eta (List.ofFn x.1))).card) :
    ∃ ws : List (Witness (Fin 16 → F) C), ws.length = 2 * P.K ∧
      ∀ (k : Nat) (st : LCCCS (Fin 16 → F)) (wit : Witness (Fin 16 → F) C), cms[k]? = some st → ws[k]? = some wit →
        LcccsHolds rd P ccs scheme st wit ∧ WitBelow rd P.bSmall wit := by
  have hd : ∀ bs bs' : List UInt8, bs.length = 16 → bs'.length = 16 → bs ≠ bs' →
      ∀ c c', starkChallenge rd.coeff bs = .ok c → starkChallenge rd.coeff bs' = .ok c' → IsUnit (c - c') := by
    intro bs bs' h h' hne c c' e e'
    obtain ⟨d, d', h3, h4, h5, -⟩ := C83_stark rd hX bs bs' h h' hne
    rw [e] at h3; rw [e'] at h4; cases h3; cases h4; exact h5
  obtain ⟨ws, h1, h2⟩ := C88_knowledge_norm rd P hK hb (starkSet rd.coeff) (table_stark rd hX) (bounded_stark rd) hd ccs scheme hS ht hc cms
    hr hv hu strat theta eta hsh bound hker (by norm_num) hmany
  exact ⟨ws, h1, fun k st wit g1 g2 => ⟨(h2 k st wit g1 g2).1, below_of_slotSums rd _ _ (h2 k st wit g1 g2).2.1⟩⟩

end Rings

/-! ## A concrete case -/

section Examples

/-- Element number `x` of `F_49`. -/
def elem49 (x : Nat) : C49 := ![⟨(x % 7 : Nat), (x / 7 % 7 : Nat)⟩]

/-- A challenge set with all 49 elements. -/
def csAll49 : ChallengeSet C49 := ⟨1, fun bs => match bs with
  | [b] => .ok (elem49 b.toNat)
  | _ => .error (.tooFewBytes bs.length 1)⟩

/-- Commitment by the identity matrix. -/
def schemeId49 : Ajtai C49 := ⟨⟨2, 2, [[1, 0], [0, 1]]⟩⟩

theorem sizesId49 : SizesOK par49 ccs49 schemeId49 where
  sh := ccs49_shape
  nl := by decide
  hat := by decide
  mat := ⟨rfl, by simp [schemeId49]⟩
  width := rfl

/-- A statement about `w`. -/
def accId49 (r x h : C49) (w : Witness C49 C49) : LCCCS C49 :=
  ⟨[r], w.fHat.map fun m => mle m.get [r], ⟨schemeId49.matrix.vals.map fun row => dot row w.f⟩,
    ccs49.M.map fun M => mle (mulVec M (([x] ++ [h]) ++ w.wCcs)) [r], [x], h⟩

theorem accId49_holds (r x h c0 c1 : C49) :
    LcccsHolds ring49 par49 ccs49 schemeId49 (accId49 r x h (wit49 c0 c1)) (wit49 c0 c1) where
  witOK := mkWit_ok ring49 par49 (wl := 1) [c0, c1] rfl
  cm := commit_ok schemeId49 _ (by simp [wit49, mkWit, schemeId49])
  xlen := rfl
  evals := ⟨rfl, rfl, rfl⟩

def knWits : List (Witness C49 C49) :=
  [wit49 ![⟨1, 0⟩] ![⟨0, 6⟩], wit49 ![⟨0, 1⟩] ![⟨6, 6⟩], wit49 ![⟨1, 1⟩] ![⟨0, 0⟩], wit49 ![⟨6, 1⟩] ![⟨1, 0⟩]]

def knAccs : List (LCCCS C49) :=
  [accId49 ![⟨3, 1⟩] ![⟨1, 4⟩] ![⟨2, 0⟩] (wit49 ![⟨1, 0⟩] ![⟨0, 6⟩]), accId49 ![⟨3, 1⟩] ![⟨0, 1⟩] ![⟨1, 1⟩] (wit49 ![⟨0, 1⟩] ![⟨6, 6⟩]),
    accId49 ![⟨2, 2⟩] ![⟨4, 4⟩] ![⟨1, 1⟩] (wit49 ![⟨1, 1⟩] ![⟨0, 0⟩]), accId49 ![⟨2, 2⟩] ![⟨1, 0⟩] ![⟨0, 3⟩] (wit49 ![⟨6, 1⟩] ![⟨1, 0⟩])]

def knMz : List (List (Mle C49)) :=
  [tabs49 ![⟨1, 4⟩] ![⟨2, 0⟩] (wit49 ![⟨1, 0⟩] ![⟨0, 6⟩]), tabs49 ![⟨0, 1⟩] ![⟨1, 1⟩] (wit49 ![⟨0, 1⟩] ![⟨6, 6⟩]),
    tabs49 ![⟨4, 4⟩] ![⟨1, 1⟩] (wit49 ![⟨1, 1⟩] ![⟨0, 0⟩]), tabs49 ![⟨1, 0⟩] ![⟨0, 3⟩] (wit49 ![⟨6, 1⟩] ![⟨1, 0⟩])]

theorem knIn : FoldInput ring49 par49 ccs49 schemeId49 knAccs knWits knMz where
  cmLen := rfl
  wLen := rfl
  mzLen := rfl
  holds := by
    intro k hk
    have hk : k < 4 := hk
    interval_cases k
    · exact ⟨_, _, rfl, rfl, accId49_holds _ _ _ _ _, wit49_small _ _ (by decide), rfl⟩
    · exact ⟨_, _, rfl, rfl, accId49_holds _ _ _ _ _, wit49_small _ _ (by decide), rfl⟩
    · exact ⟨_, _, rfl, rfl, accId49_holds _ _ _ _ _, wit49_small _ _ (by decide), rfl⟩
    · exact ⟨_, _, rfl, rfl, accId49_holds _ _ _ _ _, wit49_small _ _ (by decide), rfl⟩
  points := by
    refine ⟨[![⟨3, 1⟩]], [![⟨2, 2⟩]], ?_⟩
    intro k st h
    match k with
    | 0 | 1 | 2 | 3 => cases h; rfl
    | k + 4 => simp [knAccs] at h

theorem csAll49_ok (bs : List UInt8) (h : bs.length = csAll49.bytesNeeded) : ∃ c, csAll49.decode bs = .ok c := by
  match bs, h with
  | [b], _ => exact ⟨_, rfl⟩

theorem elem49_inj : ∀ x y : Fin 49, x ≠ y → elem49 x 0 ≠ elem49 y 0 := by decide +kernel

theorem elem49_mod (x : Nat) : elem49 x = elem49 (x % 49) := by
  unfold elem49
  rw [show x % 49 % 7 = x % 7 by omega, show x % 49 / 7 % 7 = x / 7 % 7 by omega]

theorem count49 : ∀ x : Fin 256, (univ.filter fun y : Fin 256 => (y : Nat) % 49 = x % 49).card ≤ 6 := by decide +kernel

theorem short6_49 : ∀ x : ZMod 7, Short (reach par49.bSmall par49.K) x := by
  intro x
  exact short7.2 (by revert x; decide)

theorem bindingId49 (Q : List C49 → Prop) : Binding ring49 schemeId49 Q := by
  intro fc fc' hl hl' _ _ h
  match fc, fc', hl, hl' with
  | [a, b], [a', b'], _, _ =>
    rw [commit_ok schemeId49 _ rfl, commit_ok schemeId49 _ rfl] at h
    have h := (Commitment.mk.injEq _ _).mp (Except.ok.inj h)
    simp only [schemeId49, List.map_cons, List.map_nil, List.cons.injEq, and_true, dot, List.zipWith_cons_cons,
      List.zipWith_nil_left, List.sum_cons, List.sum_nil, one_mul, zero_mul, add_zero, zero_add] at h
    rw [ring49.crt.injective h.1, ring49.crt.injective h.2]

open Classical in
theorem hD49 (b : Bytes csAll49.bytesNeeded) : (univ.filter fun b' => ¬ UnitPair csAll49 b b').card ≤ 6 := by
  refine le_trans ?_ (count49 (b (0 : Fin 1)))
  apply card_le_card_of_injOn (fun b' : Bytes csAll49.bytesNeeded => b' (0 : Fin 1))
  · intro b' hb'
    simp only [coe_filter, mem_univ, true_and, Set.mem_ofPred_eq] at hb' ⊢
    by_contra hne
    apply hb'
    intro c c' e e'
    have h1 : elem49 (UInt8.ofNat (b (0 : Fin 1))).toNat = c := Except.ok.inj e
    have h2 : elem49 (UInt8.ofNat (b' (0 : Fin 1))).toNat = c' := Except.ok.inj e'
    rw [UInt8.toNat_ofNat', Nat.mod_eq_of_lt (Fin.is_lt _), elem49_mod] at h1 h2
    have hne : (c - c') 0 ≠ 0 := by
      rw [Pi.sub_apply, sub_ne_zero, ← h1, ← h2]
      exact elem49_inj ⟨_, Nat.mod_lt _ (by norm_num)⟩ ⟨_, Nat.mod_lt _ (by norm_num)⟩ (fun h => hne (Fin.mk.inj h).symm)
    refine IsUnit.of_mul_eq_one (fun _ => ((c - c') 0)⁻¹) (funext fun i => ?_)
    have hi : i = 0 := Subsingleton.elim _ _
    subst hi
    exact mul_inv_cancel₀ hne
  · intro x _ y _ h
    funext i
    have hi : i = (0 : Fin 1) := Subsingleton.elim (α := Fin 1) _ _
    rw [hi]
    exact h

open Classical in
/-- For four statements over `F_7[X]/(X^2+1)` with a commitment by the identity matrix, the honest prover succeeds with more than
the required probability, and the witnesses can be extracted. -/
example : ∃ (strat : List F49 → List C49) (theta eta : List F49 → List (List C49)) (bound : Nat),
    8 * 49 ^ 12 * 256 ^ 3 + 3 * (6 * (49 ^ 13 * 256 ^ 2)) <
      (univ.filter fun x : (Fin 13 → F49) × (Fin 3 → Bytes 1) => Succeeds ring49 par49 csAll49 ccs49 schemeId49 knAccs bound
        (List.ofFn x.1) x.2 (tapeProof par49 1 strat theta eta (List.ofFn x.1))).card ∧
    ∃ ws : List (Witness C49 C49), ws.length = 4 ∧ ∀ (k : Nat) (st : LCCCS C49) (wit : Witness C49 C49), knAccs[k]? = some st →
      ws[k]? = some wit → LcccsHolds ring49 par49 ccs49 schemeId49 st wit := by
  obtain ⟨strat, theta, eta, hsh, hsucc⟩ := C88_honest ring49 par49 csAll49 ccs49 schemeId49 knAccs knWits knMz par49_ok sizesId49 rfl
    knIn charGt49 csAll49_ok (fun _ _ _ _ _ _ => short6_49 _)
  have hcard : 8 * 49 ^ 12 * 256 ^ 3 + 3 * (6 * (49 ^ 13 * 256 ^ 2)) <
      (univ.filter fun x : (Fin 13 → F49) × (Fin 3 → Bytes 1) => Succeeds ring49 par49 csAll49 ccs49 schemeId49 knAccs
        (reach par49.bSmall par49.K) (List.ofFn x.1) x.2 (tapeProof par49 1 strat theta eta (List.ofFn x.1))).card := by
    rw [filter_true_of_mem (fun x _ => hsucc _ x.2 (by rw [List.length_ofFn]; rfl)), card_univ, Fintype.card_prod, Fintype.card_fun,
      Fintype.card_fun, card_bytes, card49]
    norm_num
  refine ⟨strat, theta, eta, _, hcard, ?_⟩
  obtain ⟨ws, h1, h2, -⟩ := C88_knowledge ring49 par49 (by decide) (by decide) csAll49 ccs49 schemeId49 sizesId49 rfl charGt49 knAccs
    (by
      intro st hst
      simp only [knAccs, List.mem_cons, List.not_mem_nil, or_false] at hst
      rcases hst with rfl | rfl | rfl | rfl <;> rfl)
    (by
      intro st hst
      simp only [knAccs, List.mem_cons, List.not_mem_nil, or_false] at hst
      rcases hst with rfl | rfl | rfl | rfl <;> rfl)
    (by
      intro st hst
      simp only [knAccs, List.mem_cons, List.not_mem_nil, or_false] at hst
      rcases hst with rfl | rfl | rfl | rfl <;> rfl)
    strat theta eta hsh (reach par49.bSmall par49.K) 6 (by
      exact hD49) (bindingId49 _) (bindingId49 _) (by
      rw [card49]
      exact hcard)
  exact ⟨ws, h1, fun k st wit g1 g2 => (h2 k st wit g1 g2).1⟩

end Examples

end Verif.Props
