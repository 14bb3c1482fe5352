import Verif.Lemmas.NifsTape
import Verif.Spec.NifsKnowledge
import Verif.Props.DecExtract
import Verif.Props.Soundness
import Verif.Props.ExampleRing257

/-!
# Property theorems for the knowledge soundness of the folding scheme: C90
-/

set_option linter.unusedSectionVars false
set_option linter.unusedSimpArgs false
set_option linter.constructorNameAsVariable false

namespace Verif.Props

open Finset Spec Verif Verif.Poseidon Verif.NormGrowth Verif.SmallNorm Verif.Example

section Gen
variable {Fp F C : Type} {N τ : Nat} [Field Fp] [Field F] [DecidableEq F] [Algebra Fp F] [CommRing C]
  [Algebra Fp C]

theorem kernel_mono (rd : RingData Fp F C N τ) (scheme : Ajtai (Fin N → F)) {A B : Nat} (h : A ≤ B) (hk : NoShortKernel rd scheme B) :
    NoShortKernel rd scheme A := by
  rintro ⟨z, h1, h2, h3, h4⟩
  refine hk ⟨z, h1, h2, h3, fun x hx i => ?_⟩
  obtain ⟨n, n1, n2⟩ := h4 x hx i
  exact ⟨n, by omega, n2⟩

/-- The pieces of an accepted decomposition of the right shape. -/
theorem dec_shape (P : Params) (ccs : CCS (Fin N → F)) (scheme : Ajtai (Fin N → F)) (cmi : LCCCS (Fin N → F)) (d : DecProof (Fin N → F))
    (l : List (LCCCS (Fin N → F))) (hd : DecShape P ccs scheme τ d)
    (h : decVerify P (coinT F (Fin N → F)) [] cmi d = .ok (l, [])) :
    l.length = P.K ∧ ∀ st ∈ l, st.r = cmi.r ∧ st.v.length = τ ∧ st.u.length = ccs.M.length ∧ st.x_w.length = ccs.l ∧
      st.cm.val.length = scheme.matrix.vals.length := by
  obtain ⟨h1, h2⟩ := dec_piece P _ _ _ cmi d l h hd.xs hd.ys hd.us hd.vs
  refine ⟨h1, fun st hst => ?_⟩
  obtain ⟨k, hk, rfl⟩ := List.mem_iff_getElem.1 hst
  obtain ⟨hK, g1, g2, g3, g4, g5⟩ := h2 k _ (List.getElem?_eq_getElem hk)
  have hm : ∀ {α : Type} (L : List α) (z : α) (_ : L.length = P.K), L.getD k z ∈ L := by
    intro α L z hL
    rw [List.getD_eq_getElem?_getD, List.getElem?_eq_getElem (by omega)]
    exact List.getElem_mem _
  refine ⟨g1, ?_, ?_, ?_, ?_⟩
  · rw [g2]; exact hd.v _ (hm d.vS [] hd.vs)
  · rw [g4]; exact hd.u _ (hm d.uS [] hd.us)
  · have := hd.x _ (hm d.xS [] hd.xs)
    rw [← g5, List.length_append, List.length_singleton] at this
    omega
  · rw [g3]; exact hd.y _ (hm d.yS ⟨[]⟩ hd.ys)

/-- What linearization puts into its output. -/
theorem lin_out (cm : CCCS (Fin N → F)) (ccs : CCS (Fin N → F)) (hs : 1 ≤ ccs.s) (A : NifsProver F (Fin N → F)) (u : List F)
    (hu : u.length = ccs.s + ccs.s) (lin : LCCCS (Fin N → F)) (v : List F)
    (h : linVerify (coinT F (Fin N → F)) u cm ⟨strategyProof (fun v => A.linMsg (u.take ccs.s ++ v)) (u.drop ccs.s), A.linV u, A.linU u⟩
      ccs = .ok (lin, v)) :
    lin.cm = cm.cm ∧ lin.x_w = cm.x_ccs ∧ lin.h = 1 ∧ lin.u = A.linU u ∧ lin.r = (u.drop ccs.s).map (algebraMap F (Fin N → F)) := by
  unfold linVerify at h
  have hsq : squeezeBeta (coinT F (Fin N → F)) u ccs.s = ((u.take ccs.s).map (algebraMap F (Fin N → F)), u.drop ccs.s) := by
    unfold squeezeBeta
    simp only
    have : absorbLabel (coinT F (Fin N → F)) u "beta_s" = u := rfl
    rw [this, challenges_coin _ _ (by omega)]
  rw [hsq] at h
  simp only [bind_eq_ok, Prod.exists] at h
  obtain ⟨sc, s2, h1, e, -, c, -, h2⟩ := h
  have hp := verify_coin_point hs 0 _ _ (by rw [List.length_drop, hu]; omega) sc s2 h1
  split at h2
  · cases h2
  · cases h2
    exact ⟨rfl, rfl, rfl, rfl, by rw [hp]⟩

theorem below_vec (rd : RingData Fp F C N τ) {B : Nat} {w : Witness (Fin N → F) C} (h : WitBelow rd B w) :
    ShortVec rd (2 * B) w.fCoeff := by
  intro j i
  by_cases hj : j < w.fCoeff.length
  · rw [List.getD_eq_getElem?_getD, List.getElem?_eq_getElem hj, Option.getD_some]
    obtain ⟨n, n1, n2⟩ := h _ (List.getElem_mem hj) i
    exact ⟨n, by omega, n2⟩
  · rw [getD_out _ (by omega)]
    exact ⟨0, by simp, by simp⟩

theorem dec_coin_state {R : Type} [CommRing R] [DecidableEq R] [Algebra F R] (P : Params) (cmi : LCCCS R) (d : DecProof R)
    (l : List (LCCCS R)) (s' : List F) (h : decVerify P (coinT F R) [] cmi d = .ok (l, s')) : s' = [] := by
  rw [C31_verify_iff] at h
  obtain ⟨-, -, -, -, -, -, -, rfl⟩ := h
  generalize ((d.xS.zip d.yS).zip d.uS).zip d.vS = L
  induction L with
  | nil => rfl
  | cons p L ih =>
    rw [List.foldl_cons]
    simp only [coin_absorbSlice] at ih ⊢
    exact ih

/-- The proof of an honest decomposition has the right shape. -/
theorem dec_honest_shape {σ : Type} (rd : RingData Fp F C N τ) (P : Params) (ccs : CCS (Fin N → F)) (scheme : Ajtai (Fin N → F))
    {T : Transcript F (Fin N → F) σ} {s s' : σ} (hS : SizesOK P ccs scheme) (cmi : LCCCS (Fin N → F)) (d : DecProof (Fin N → F)) (l : List (LCCCS (Fin N → F)))
    (ws : List (Witness (Fin N → F) C))
    (hd : decVerify P T s cmi d = .ok (l, s'))
    (hlen : d.uS.length = P.K ∧ d.vS.length = P.K ∧ d.xS.length = P.K ∧ d.yS.length = P.K)
    (h : ∀ k < P.K, ∃ st w, l[k]? = some st ∧ ws[k]? = some w ∧ LcccsHolds rd P ccs scheme st w) :
    DecShape P ccs scheme τ d := by
  obtain ⟨h1, h2⟩ := dec_piece P _ _ _ cmi d l hd hlen.2.2.1 hlen.2.2.2 hlen.1 hlen.2.1
  have key : ∀ k < P.K, (d.vS.getD k []).length = τ ∧ (d.yS.getD k ⟨[]⟩).val.length = scheme.matrix.vals.length ∧
      (d.uS.getD k []).length = ccs.M.length ∧ (d.xS.getD k []).length = ccs.l + 1 := by
    intro k hk
    obtain ⟨st, w, g1, -, g2⟩ := h k hk
    obtain ⟨-, -, q1, q2, q3, q4⟩ := h2 k st g1
    rw [← q1, ← q2, ← q3, ← q4]
    refine ⟨?_, ?_, ?_, ?_⟩
    · rw [g2.evals.v, List.length_map, g2.witOK.hatlen]
    · have := g2.cm
      rw [commit_ok scheme _ (by rw [g2.witOK.f, List.length_map, g2.witOK.flen, hS.width])] at this
      rw [← Except.ok.inj this]
      simp
    · rw [g2.evals.u, List.length_map]
    · rw [List.length_append, g2.xlen]
      rfl
  have hm : ∀ {α : Type} (L : List α) (z x : α), L.length = P.K → x ∈ L → ∃ k < P.K, L.getD k z = x := by
    intro α L z x hL hx
    obtain ⟨k, hk, rfl⟩ := List.mem_iff_getElem.1 hx
    refine ⟨k, by omega, ?_⟩
    rw [List.getD_eq_getElem?_getD, List.getElem?_eq_getElem hk]
    rfl
  refine ⟨hlen.1, hlen.2.1, hlen.2.2.1, hlen.2.2.2, fun x hx => ?_, fun x hx => ?_, fun x hx => ?_, fun x hx => ?_⟩
  · obtain ⟨k, hk, rfl⟩ := hm _ [] x hlen.1 hx
    exact (key k hk).2.2.1
  · obtain ⟨k, hk, rfl⟩ := hm _ [] x hlen.2.1 hx
    exact (key k hk).1
  · obtain ⟨k, hk, rfl⟩ := hm _ [] x hlen.2.2.1 hx
    exact (key k hk).2.2.2
  · obtain ⟨k, hk, rfl⟩ := hm _ ⟨[]⟩ x hlen.2.2.2 hx
    exact (key k hk).2.1

/-- **C90**: the honest prover is a prover of this kind. For a valid accumulator and a valid fresh statement, whose witnesses fit in
`K` digits, it succeeds always. -/
theorem C90_honest (rd : RingData Fp F C N τ) (P : Params) (cs : ChallengeSet C)
    (ccs : CCS (Fin N → F)) (scheme : Ajtai (Fin N → F))
    (acc : LCCCS (Fin N → F)) (wAcc : Witness (Fin N → F) C) (cm : CCCS (Fin N → F)) (w : Witness (Fin N → F) C)
    (hP : ParamsOK Fp P) (hS : SizesOK P ccs scheme) (ht : ccs.t = ccs.M.length) (al : Aligned ccs)
    (hc : CharGt F (2 * P.bSmall)) (hd : CharGt F (ccs.d + 1))
    (hcs : ∀ bs, bs.length = cs.bytesNeeded → ∃ c, cs.decode bs = .ok c) (hN : NormOK rd P cs)
    (hacc : LcccsHolds rd P ccs scheme acc wAcc) (hsh : WitShort rd (reach P.bSmall P.K) wAcc)
    (hfresh : FreshHolds rd P ccs scheme cm w) :
    ∃ A : NifsProver F (Fin N → F), ProverShape P ccs scheme τ A ∧
      ∀ u w ρ, u.length = ccs.s + ccs.s → w.length = 6 * P.K - 1 + ccs.s + ccs.s →
        NifsSucceeds rd P cs ccs scheme acc cm (reach P.bSmall P.K) u w ρ (A.proof ccs.s (6 * P.K - 1 + ccs.s) u w) := by
  have hsan := sanity_ok hS
  have hnl := hS.nl
  set B0 : Nat → Nat → List UInt8 := fun _ n => List.replicate n 0
  choose lin linp t hl1 hl2 hlcm hlx hlh hlp hle using fun u : List F =>
    C27_linearization_complete (scripted (coinT F (Fin N → F)) B0) (u, 0) cm w ccs hS.sh al hd
      (by rw [hfresh.xlen, hfresh.witOK.wlen]; omega) hfresh.sat
      (fun m hm => by rw [hfresh.witOK.hatvars m hm, hS.hat])
  have hlin : ∀ u, LcccsHolds rd P ccs scheme (lin u) w := fun u =>
    ⟨hfresh.witOK, by rw [hlcm]; exact hfresh.opens, by rw [hlx]; exact hfresh.xlen, hle u⟩
  obtain ⟨mz1, l1, w1, p1, s1, -, ha2, ha3, ha4, ha5, ha7, ha6⟩ :=
    C30_decomposition_complete rd P (coinT F (Fin N → F)) [] acc wAcc ccs scheme hP hS hacc hsh
  obtain rfl := dec_coin_state P acc p1 l1 s1 ha2
  choose mz2 l2 w2 p2 s2 hb1 hb2 hb3 hb4 hb5 hb7 hb6 using fun u : List F =>
    C30_decomposition_complete rd P (coinT F (Fin N → F)) [] (lin u) w ccs scheme hP hS (hlin u) hfresh.short
  have hs2 : ∀ u, s2 u = [] := fun u => dec_coin_state P (lin u) (p2 u) (l2 u) (s2 u) (hb2 u)
  have hin := fun u => foldInput_append rd P ccs scheme ha3 ha4 ha5 (hb3 u) (hb4 u) (hb5 u) ha6 (hb6 u)
  choose strat theta eta hfs hsucc using fun u => C88_honest rd P cs ccs scheme (l1 ++ l2 u) (w1 ++ w2 u) (mz1 ++ mz2 u)
    hP hS ht (hin u) hc hcs hN
  refine ⟨⟨fun l => (linp l).sumcheck.getD (l.length - ccs.s) [], fun u => (linp u).v, fun u => (linp u).u, fun _ => p1, p2, strat, theta,
    eta⟩, ⟨fun _ => ?_, fun u => ?_, fun u w => (hfs u w).etasLen, fun u w => (hfs u w).etaLen⟩, fun u v ρ hu hw => ?_⟩
  · refine dec_honest_shape rd P ccs scheme hS acc p1 l1 w1 ha2 ha7 fun k hk => ?_
    obtain ⟨st, wk, g1, g2, g3, -⟩ := ha6 k hk
    exact ⟨st, wk, g1, g2, g3⟩
  · refine dec_honest_shape rd P ccs scheme hS (lin u) (p2 u) (l2 u) (w2 u) (hb2 u) (hb7 u) fun k hk => ?_
    obtain ⟨st, wk, g1, g2, g3, -⟩ := hb6 u k hk
    exact ⟨st, wk, g1, g2, g3⟩
  · have hcausal : strategyProof (fun v => (linp (u.take ccs.s ++ v)).sumcheck.getD ((u.take ccs.s ++ v).length - ccs.s) [])
        (u.drop ccs.s) = (linp u).sumcheck := by
      have key : ∀ i < ccs.s, (linp (u.take (ccs.s + i))).sumcheck.getD i [] = (linp u).sumcheck.getD i [] ∧
          (linp u).sumcheck.length = ccs.s := by
        intro i hi
        obtain ⟨q1, q2⟩ := lin_causal B0 u (u.take (ccs.s + i)) cm w ccs _ _ _ _ _ _ i (by omega)
          (by rw [List.take_take, Nat.min_self]) (hl1 u) (hl1 _)
        refine ⟨?_, q2⟩
        have q3 := congrArg (fun l : List (List (Fin N → F)) => l.getD i []) q1
        simp only [List.getD_eq_getElem?_getD, List.getElem?_take, Nat.lt_succ_self, if_true] at q3 ⊢
        exact q3.symm
      have hlen : (linp u).sumcheck.length = ccs.s := (key 0 hS.sh.spos).2
      rw [list_eq_range (linp u).sumcheck [] hlen]
      unfold strategyProof
      rw [List.length_drop, hu, Nat.add_sub_cancel_left]
      apply List.map_congr_left
      intro i hi
      have hi := List.mem_range.1 hi
      beta_reduce
      rw [← (key i hi).1, ← List.take_add, List.length_take]
      congr 1
      omega
    obtain ⟨st, t', wit, g1, g2, g3⟩ := hsucc u v ρ hw
    refine ⟨st, t', wit, ?_, g2, g3⟩
    rw [nifs_tape rd P cs _ u v acc cm _ ccs hu]
    have hv := hl2 u
    have hv' := lin_tape B0 u [] 0 cm (linp u) ccs hu
    rw [List.append_nil, hv] at hv'
    obtain ⟨x, hx1, hx2⟩ := map_ok_iff.1 hv'.symm
    refine ⟨⟨_, hsan⟩, lin u, x.2, l1, l2 u, ?_, ha2, (hb2 u).trans (by rw [hs2 u]), g1⟩
    change linVerify _ u cm ⟨strategyProof _ _, _, _⟩ ccs = _
    rw [hcausal]
    have : lin u = x.1 := (congrArg Prod.fst hx2).symm
    rw [this]
    exact hx1

end Gen

section Norm
variable {p : ℕ} [Fact p.Prime] {F C : Type} {N τ : ℕ} [Field F] [DecidableEq F] [CommRing C] [Algebra (ZMod p) F] [Algebra (ZMod p) C]

/-- Bound for the coefficients of the last piece (C88). -/
def lastBound (P : Params) (γβ bound : Nat) : Nat :=
  (bound + 2 * ((2 * P.K - 1) * (γβ * (P.bSmall - 1)) + (P.bSmall - 1))) / 2 + 1

open Classical in
/-- **C90**: knowledge soundness of the folding scheme. The prover is any function of the challenges; all challenges are random.
It succeeds if the verifier accepts and the new accumulator has a witness with coefficients of absolute value at most `bound / 2`.
If the number of challenges for which it succeeds exceeds the stated error, the old accumulator has a witness which makes it hold,
with coefficients below `b^K`, and the fresh commitment opens to a witness with which the constraint system is satisfied, unless the
commitment matrix has a short nonzero vector in its kernel. -/
theorem C90_knowledge [Fintype F] (rd : RingData (ZMod p) F C N τ) (P : Params) (hK : 1 ≤ P.K) (hb : 1 ≤ P.bSmall)
    (cs : ChallengeSet C) {red : ℕ → ℕ → ℤ} {s γ β : ℕ} (htab : Table rd red s γ) (hbd : Bounded rd cs s β)
    (hdiff : ∀ bs bs' : List UInt8, bs.length = cs.bytesNeeded → bs'.length = cs.bytesNeeded → bs ≠ bs' →
      ∀ c c', cs.decode bs = .ok c → cs.decode bs' = .ok c' → IsUnit (c - c'))
    (ccs : CCS (Fin N → F)) (scheme : Ajtai (Fin N → F)) (hS : SizesOK P ccs scheme)
    (ht : ccs.t = ccs.M.length) (hc : CharGt F (2 * P.bSmall)) (hd : CharGt F (ccs.d + 1))
    (acc : LCCCS (Fin N → F)) (hr : acc.r.length = ccs.s) (cm : CCCS (Fin N → F))
    (A : NifsProver F (Fin N → F)) (hA : ProverShape P ccs scheme τ A) (bound : Nat) (hγ : 1 ≤ 4 * γ * β)
    (hker : NoShortKernel rd scheme (max (4 * γ * β * bound) (2 * (P.bSmall ^ (P.K - 1) * lastBound P (γ * β) bound))))
    (hmany : (ccs.s + ccs.s * (ccs.d + 1)) * Fintype.card F ^ (ccs.s + ccs.s - 1)
        * (Fintype.card F ^ (6 * P.K - 1 + ccs.s + ccs.s) * (256 ^ cs.bytesNeeded) ^ (2 * P.K - 1))
      + Fintype.card F ^ (ccs.s + ccs.s)
        * ((ccs.s + max τ ccs.M.length + ccs.s * (2 * P.bSmall)) * Fintype.card F ^ (6 * P.K - 1 + ccs.s + ccs.s - 1)
            * (256 ^ cs.bytesNeeded) ^ (2 * P.K - 1)
          + (2 * P.K - 1) * (Fintype.card F ^ (6 * P.K - 1 + ccs.s + ccs.s) * (256 ^ cs.bytesNeeded) ^ (2 * P.K - 1 - 1)))
      < (univ.filter fun x : (Fin (ccs.s + ccs.s) → F) ×
          ((Fin (6 * P.K - 1 + ccs.s + ccs.s) → F) × (Fin (2 * P.K - 1) → Bytes cs.bytesNeeded)) =>
          NifsSucceeds rd P cs ccs scheme acc cm bound (List.ofFn x.1) (List.ofFn x.2.1) x.2.2
            (A.proof ccs.s (6 * P.K - 1 + ccs.s) (List.ofFn x.1) (List.ofFn x.2.1))).card) :
    ∃ wAcc wit : Witness (Fin N → F) C,
      LcccsHolds rd P ccs scheme acc wAcc ∧ WitBelow rd (P.bSmall ^ P.K) wAcc ∧
      FreshBelow rd P ccs scheme cm (P.bSmall ^ (P.K - 1) * lastBound P (γ * β) bound) wit := by
  set E2 := (ccs.s + max τ ccs.M.length + ccs.s * (2 * P.bSmall)) * Fintype.card F ^ (6 * P.K - 1 + ccs.s + ccs.s - 1)
            * (256 ^ cs.bytesNeeded) ^ (2 * P.K - 1)
          + (2 * P.K - 1) * (Fintype.card F ^ (6 * P.K - 1 + ccs.s + ccs.s) * (256 ^ cs.bytesNeeded) ^ (2 * P.K - 1 - 1)) with hE2
  set M := P.bSmall ^ (P.K - 1) * lastBound P (γ * β) bound with hM
  have hheavy := heavy_rows (fun (u : Fin (ccs.s + ccs.s) → F)
      (y : (Fin (6 * P.K - 1 + ccs.s + ccs.s) → F) × (Fin (2 * P.K - 1) → Bytes cs.bytesNeeded)) =>
      NifsSucceeds rd P cs ccs scheme acc cm bound (List.ofFn u) (List.ofFn y.1) y.2
        (A.proof ccs.s (6 * P.K - 1 + ccs.s) (List.ofFn u) (List.ofFn y.1)))
    ((ccs.s + ccs.s * (ccs.d + 1)) * Fintype.card F ^ (ccs.s + ccs.s - 1)) E2 (by
      have e1 : ∀ (n : Nat), Fintype.card (Fin n → F) = Fintype.card F ^ n := fun n => by rw [Fintype.card_fun, Fintype.card_fin]
      have e2 : Fintype.card (Fin (2 * P.K - 1) → Bytes cs.bytesNeeded) = (256 ^ cs.bytesNeeded) ^ (2 * P.K - 1) := by
        rw [← card_bytes, Fintype.card_fun, Fintype.card_fin]
      rw [Fintype.card_prod, e1, e1, e2]
      exact hmany)
  set H := univ.filter fun u : Fin (ccs.s + ccs.s) → F => E2 < (univ.filter fun
      y : (Fin (6 * P.K - 1 + ccs.s + ccs.s) → F) × (Fin (2 * P.K - 1) → Bytes cs.bytesNeeded) =>
      NifsSucceeds rd P cs ccs scheme acc cm bound (List.ofFn u) (List.ofFn y.1) y.2
        (A.proof ccs.s (6 * P.K - 1 + ccs.s) (List.ofFn u) (List.ofFn y.1))).card with hH
  -- what a good choice of the challenges of linearization gives
  have hgood : ∀ u ∈ H, ∃ (lin : LCCCS (Fin N → F)) (v : List F) (wAcc wit : Witness (Fin N → F) C),
      linVerify (coinT F (Fin N → F)) (List.ofFn u) cm ⟨strategyProof (fun v => A.linMsg ((List.ofFn u).take ccs.s ++ v))
        ((List.ofFn u).drop ccs.s), A.linV (List.ofFn u), A.linU (List.ofFn u)⟩ ccs = .ok (lin, v) ∧
      LcccsHolds rd P ccs scheme acc wAcc ∧ WitBelow rd (P.bSmall ^ P.K) wAcc ∧
      LcccsHolds rd P ccs scheme lin wit ∧ WitBelow rd M wit := by
    intro u hu
    rw [hH, mem_filter] at hu
    have hu := hu.2
    obtain ⟨y0, hy0⟩ := card_pos.1 (Nat.lt_of_le_of_lt (Nat.zero_le _) hu)
    rw [mem_filter] at hy0
    have hul : (List.ofFn u).length = ccs.s + ccs.s := by simp
    obtain ⟨-, st0, t0, wit0, h0, -⟩ := hy0
    rw [nifs_tape rd P cs _ _ _ acc cm _ ccs hul] at h0
    obtain ⟨-, lin, v, l, r, h1, h2, h3, -⟩ := h0
    have hlr : lin.r.length = ccs.s := by
      rw [(lin_out cm ccs hS.sh.spos A _ hul lin v h1).2.2.2.2, List.length_map, List.length_drop, hul]
      omega
    obtain ⟨l1, l2⟩ := dec_shape P ccs scheme acc _ l (hA.l _) h2
    obtain ⟨r1, r2⟩ := dec_shape P ccs scheme lin _ r (hA.r _) h3
    have hall : ∀ st ∈ l ++ r, st.r.length = ccs.s ∧ st.v.length = τ ∧ st.u.length = ccs.M.length ∧ st.x_w.length = ccs.l ∧
        st.cm.val.length = scheme.matrix.vals.length := by
      intro st hst
      rcases List.mem_append.1 hst with h | h
      · obtain ⟨g1, g2⟩ := l2 st h
        exact ⟨by rw [g1, hr], g2⟩
      · obtain ⟨g1, g2⟩ := r2 st h
        exact ⟨by rw [g1, hlr], g2⟩
    have hsh : ∀ w, FoldShape P ccs scheme (l ++ r) (A.eta (List.ofFn u) w) := fun w =>
      ⟨by rw [List.length_append]; omega, fun st h => (hall st h).2.2.2.2, fun st h => (hall st h).2.2.2.1, hA.etas _ w, hA.eta _ w⟩
    obtain ⟨ws, w1, w2⟩ := C88_knowledge_norm rd P hK hb cs htab hbd hdiff ccs scheme hS ht hc (l ++ r) (fun st h => (hall st h).1)
      (fun st h => (hall st h).2.1) (fun st h => (hall st h).2.2.1) (A.msg (List.ofFn u)) (A.theta (List.ofFn u)) (A.eta (List.ofFn u))
      hsh bound (kernel_mono rd scheme (le_max_left _ _) hker) hγ (by
        refine lt_of_lt_of_le hu (card_le_card ?_)
        intro y hy
        rw [mem_filter] at hy ⊢
        refine ⟨mem_univ _, ?_⟩
        obtain ⟨-, st, t, wit, g1, g2⟩ := hy
        rw [nifs_tape rd P cs _ _ _ acc cm _ ccs hul] at g1
        obtain ⟨-, lin', v', l', r', k1, k2, k3, k4⟩ := g1
        have e1 := h1.symm.trans k1
        cases e1
        have e2 := h2.symm.trans k2
        cases e2
        have e3 := h3.symm.trans k3
        cases e3
        exact ⟨st, t, wit, k4, g2⟩)
    have hdl := hA.l (List.ofFn u)
    have hdr := hA.r (List.ofFn u)
    obtain ⟨-, wAcc, a1, a2⟩ := C89_recompose rd P hK _ _ _ ccs scheme hS acc _ l h2 hdl.xs hdl.ys hdl.us hdl.vs (ws.take P.K)
      (by rw [List.length_take]; omega) (by
        intro k st wit g1 g2
        rw [List.getElem?_take] at g2
        split at g2
        · rename_i hk
          exact (w2 k st wit (by rw [List.getElem?_append_left (by omega)]; exact g1) g2).1
        · cases g2)
    obtain ⟨-, wit, b1, b2⟩ := C89_recompose rd P hK _ _ _ ccs scheme hS lin _ r h3 hdr.xs hdr.ys hdr.us hdr.vs (ws.drop P.K)
      (by rw [List.length_drop]; omega) (by
        intro k st wit g1 g2
        rw [List.getElem?_drop] at g2
        exact (w2 (P.K + k) st wit (by rw [List.getElem?_append_right (by omega), l1, Nat.add_sub_cancel_left]; exact g1) g2).1)
    refine ⟨lin, v, wAcc, wit, h1, a1, ?_, b1, ?_⟩
    · have := C89_norm rd P hK hb P.bSmall (ws.take P.K) (by rw [List.length_take]; omega) (by
        intro k w hk g2
        rw [List.getElem?_take_of_lt (by omega)] at g2
        exact (w2 k _ w (List.getElem?_eq_getElem (by rw [List.length_append]; omega)) g2).2.2.1 (by omega)) (by
        intro w g2
        rw [List.getElem?_take_of_lt (by omega)] at g2
        exact (w2 _ _ w (List.getElem?_eq_getElem (by rw [List.length_append]; omega)) g2).2.2.1 (by omega)) hb wAcc a2
      rwa [← pow_succ, Nat.sub_add_cancel hK] at this
    · refine C89_norm rd P hK hb (lastBound P (γ * β) bound) (ws.drop P.K) (by rw [List.length_drop]; omega) (by
        intro k w hk g2
        rw [List.getElem?_drop] at g2
        exact (w2 _ _ w (List.getElem?_eq_getElem (by rw [List.length_append]; omega)) g2).2.2.1 (by omega)) (by
        intro w g2
        rw [List.getElem?_drop] at g2
        exact below_of_short (w2 _ _ w (List.getElem?_eq_getElem (by rw [List.length_append]; omega)) g2).2.2.2) (by
        unfold lastBound; omega) wit b2
  obtain ⟨u0, hu0⟩ := card_pos.1 (Nat.lt_of_le_of_lt (Nat.zero_le _) hheavy)
  obtain ⟨lin0, v0, wAcc, wit, g1, g2, g3, g4, g5⟩ := hgood u0 hu0
  have hxw : ∀ u ∈ H, LinAccepted cm ccs ((cm.x_ccs ++ [1]) ++ wit.wCcs) A.linMsg (List.ofFn u) := by
    intro u hu
    have hul : (List.ofFn u).length = ccs.s + ccs.s := by simp
    have hul0 : (List.ofFn u0).length = ccs.s + ccs.s := by simp
    obtain ⟨lin, v, -, w', k1, -, -, k4, k5⟩ := hgood u hu
    obtain ⟨o1, o2, o3, o4, o5⟩ := lin_out cm ccs hS.sh.spos A _ hul lin v k1
    obtain ⟨q1, q2, q3, q4, q5⟩ := lin_out cm ccs hS.sh.spos A _ hul0 lin0 v0 g1
    have heq : w'.fCoeff = wit.fCoeff := by
      apply binding_short rd scheme _ _ (le_max_right (4 * γ * β * bound) _) hker
      · rw [k4.witOK.flen, hS.width]
      · rw [g4.witOK.flen, hS.width]
      · exact below_vec rd k5
      · exact below_vec rd g5
      · have e1 := k4.cm
        have e2 := g4.cm
        rw [k4.witOK.f] at e1
        rw [g4.witOK.f] at e2
        rw [e1, e2, o1, q1]
    refine ⟨_, lin, v, k1, rfl, ?_⟩
    have e := k4.evals.u
    rw [o4, o2, o3, o5, (witOK_evals rd P k4.witOK g4.witOK heq []).1] at e
    exact e
  obtain ⟨q1, q2, q3, q4, q5⟩ := lin_out cm ccs hS.sh.spos A _ (by simp) lin0 v0 g1
  refine ⟨wAcc, wit, g2, g3, ⟨g4.witOK, by rw [← q1]; exact g4.cm, by rw [← q2]; exact g4.xlen, ?_, g5⟩⟩
  by_contra hbad
  have h53 := C53_linearization_sound cm ccs hS.sh hd _ hbad A.linMsg
  refine absurd hheavy (not_lt.2 (le_trans (card_le_card fun u hu => ?_) h53))
  rw [mem_filter]
  exact ⟨mem_univ _, hxw u hu⟩

end Norm

/-! ## The shipped rings -/

section Rings
variable {F C : Type} [Field F] [DecidableEq F] [Fintype F] [CommRing C]

open Classical in
/-- **C90** (Goldilocks). -/
theorem C90_goldilocks [Algebra (ZMod pGoldilocks) F] [Algebra (ZMod pGoldilocks) C]
    (rd : RingData (ZMod pGoldilocks) F C 8 3) (hX : rd.X ^ 24 - rd.X ^ 12 + 1 = 0) (P : Params) (hK : 1 ≤ P.K) (hb : 1 ≤ P.bSmall)
    (ccs : CCS (Fin 8 → F)) (scheme : Ajtai (Fin 8 → F)) (hS : SizesOK P ccs scheme)
    (ht : ccs.t = ccs.M.length) (hc : CharGt F (2 * P.bSmall)) (hd : CharGt F (ccs.d + 1))
    (acc : LCCCS (Fin 8 → F)) (hr : acc.r.length = ccs.s) (cm : CCCS (Fin 8 → F))
    (A : NifsProver F (Fin 8 → F)) (hA : ProverShape P ccs scheme 3 A) (bound : Nat)
    (hker : NoShortKernel rd scheme (max (4608 * bound) (2 * (P.bSmall ^ (P.K - 1) * lastBound P 1152 bound))))
    (hmany : (ccs.s + ccs.s * (ccs.d + 1)) * Fintype.card F ^ (ccs.s + ccs.s - 1)
        * (Fintype.card F ^ (6 * P.K - 1 + ccs.s + ccs.s) * (256 ^ 18) ^ (2 * P.K - 1))
      + Fintype.card F ^ (ccs.s + ccs.s)
        * ((ccs.s + max 3 ccs.M.length + ccs.s * (2 * P.bSmall)) * Fintype.card F ^ (6 * P.K - 1 + ccs.s + ccs.s - 1)
            * (256 ^ 18) ^ (2 * P.K - 1)
          + (2 * P.K - 1) * (Fintype.card F ^ (6 * P.K - 1 + ccs.s + ccs.s) * (256 ^ 18) ^ (2 * P.K - 1 - 1)))
      < (univ.filter fun x : (Fin (ccs.s + ccs.s) → F) ×
          ((Fin (6 * P.K - 1 + ccs.s + ccs.s) → F) × (Fin (2 * P.K - 1) → Bytes 18)) =>
          NifsSucceeds rd P (packedSet rd.coeff) ccs scheme acc cm bound (List.ofFn x.1) (List.ofFn x.2.1) x.2.2
            (A.proof ccs.s (6 * P.K - 1 + ccs.s) (List.ofFn x.1) (List.ofFn x.2.1))).card) :
    ∃ wAcc wit : Witness (Fin 8 → F) C,
      LcccsHolds rd P ccs scheme acc wAcc ∧ WitBelow rd (P.bSmall ^ P.K) wAcc ∧
      FreshBelow rd P ccs scheme cm (P.bSmall ^ (P.K - 1) * lastBound P 1152 bound) wit := by
  refine C90_knowledge rd P hK hb (packedSet rd.coeff) (table_goldilocks rd hX) (bounded_packed rd) ?_ ccs scheme hS ht hc hd acc hr cm A hA bound
    (by norm_num) hker hmany
  intro bs bs' h h' hne c c' e e'
  obtain ⟨d, d', h3, h4, h5, -⟩ := C83_goldilocks rd hX bs bs' h h' hne
  have e : packedChallenge rd.coeff bs = .ok c := e
  have e' : packedChallenge rd.coeff bs' = .ok c' := e'
  rw [e] at h3; rw [e'] at h4; cases h3; cases h4; exact h5

open Classical in
/-- **C90** (BabyBear). -/
theorem C90_babybear [Algebra (ZMod pBabyBear) F] [Algebra (ZMod pBabyBear) C]
    (rd : RingData (ZMod pBabyBear) F C 8 9) (hX : rd.X ^ 72 - rd.X ^ 36 + 1 = 0) (P : Params) (hK : 1 ≤ P.K) (hb : 1 ≤ P.bSmall)
    (ccs : CCS (Fin 8 → F)) (scheme : Ajtai (Fin 8 → F)) (hS : SizesOK P ccs scheme)
    (ht : ccs.t = ccs.M.length) (hc : CharGt F (2 * P.bSmall)) (hd : CharGt F (ccs.d + 1))
    (acc : LCCCS (Fin 8 → F)) (hr : acc.r.length = ccs.s) (cm : CCCS (Fin 8 → F))
    (A : NifsProver F (Fin 8 → F)) (hA : ProverShape P ccs scheme 9 A) (bound : Nat)
    (hker : NoShortKernel rd scheme (max (6016 * bound) (2 * (P.bSmall ^ (P.K - 1) * lastBound P 1504 bound))))
    (hmany : (ccs.s + ccs.s * (ccs.d + 1)) * Fintype.card F ^ (ccs.s + ccs.s - 1)
        * (Fintype.card F ^ (6 * P.K - 1 + ccs.s + ccs.s) * (256 ^ 18) ^ (2 * P.K - 1))
      + Fintype.card F ^ (ccs.s + ccs.s)
        * ((ccs.s + max 9 ccs.M.length + ccs.s * (2 * P.bSmall)) * Fintype.card F ^ (6 * P.K - 1 + ccs.s + ccs.s - 1)
            * (256 ^ 18) ^ (2 * P.K - 1)
          + (2 * P.K - 1) * (Fintype.card F ^ (6 * P.K - 1 + ccs.s + ccs.s) * (256 ^ 18) ^ (2 * P.K - 1 - 1)))
      < (univ.filter fun x : (Fin (ccs.s + ccs.s) → F) ×
          ((Fin (6 * P.K - 1 + ccs.s + ccs.s) → F) × (Fin (2 * P.K - 1) → Bytes 18)) =>
          NifsSucceeds rd P (packedSet rd.coeff) ccs scheme acc cm bound (List.ofFn x.1) (List.ofFn x.2.1) x.2.2
            (A.proof ccs.s (6 * P.K - 1 + ccs.s) (List.ofFn x.1) (List.ofFn x.2.1))).card) :
    ∃ wAcc wit : Witness (Fin 8 → F) C,
      LcccsHolds rd P ccs scheme acc wAcc ∧ WitBelow rd (P.bSmall ^ P.K) wAcc ∧
      FreshBelow rd P ccs scheme cm (P.bSmall ^ (P.K - 1) * lastBound P 1504 bound) wit := by
  refine C90_knowledge rd P hK hb (packedSet rd.coeff) (table_babybear rd hX) (bounded_packed rd) ?_ ccs scheme hS ht hc hd acc hr cm A hA bound
    (by norm_num) hker hmany
  intro bs bs' h h' hne c c' e e'
  obtain ⟨d, d', h3, h4, h5, -⟩ := C83_babybear rd hX bs bs' h h' hne
  have e : packedChallenge rd.coeff bs = .ok c := e
  have e' : packedChallenge rd.coeff bs' = .ok c' := e'
  rw [e] at h3; rw [e'] at h4; cases h3; cases h4; exact h5

open Classical in
/-- **C90** (Frog). -/
theorem C90_frog [Algebra (ZMod pFrog) F] [Algebra (ZMod pFrog) C]
    (rd : RingData (ZMod pFrog) F C 4 4) (hX : rd.X ^ 16 + 1 = 0) (P : Params) (hK : 1 ≤ P.K) (hb : 1 ≤ P.bSmall)
    (ccs : CCS (Fin 4 → F)) (scheme : Ajtai (Fin 4 → F)) (hS : SizesOK P ccs scheme)
    (ht : ccs.t = ccs.M.length) (hc : CharGt F (2 * P.bSmall)) (hd : CharGt F (ccs.d + 1))
    (acc : LCCCS (Fin 4 → F)) (hr : acc.r.length = ccs.s) (cm : CCCS (Fin 4 → F))
    (A : NifsProver F (Fin 4 → F)) (hA : ProverShape P ccs scheme 4 A) (bound : Nat)
    (hker : NoShortKernel rd scheme (max (8192 * bound) (2 * (P.bSmall ^ (P.K - 1) * lastBound P 2048 bound))))
    (hmany : (ccs.s + ccs.s * (ccs.d + 1)) * Fintype.card F ^ (ccs.s + ccs.s - 1)
        * (Fintype.card F ^ (6 * P.K - 1 + ccs.s + ccs.s) * (256 ^ 16) ^ (2 * P.K - 1))
      + Fintype.card F ^ (ccs.s + ccs.s)
        * ((ccs.s + max 4 ccs.M.length + ccs.s * (2 * P.bSmall)) * Fintype.card F ^ (6 * P.K - 1 + ccs.s + ccs.s - 1)
            * (256 ^ 16) ^ (2 * P.K - 1)
          + (2 * P.K - 1) * (Fintype.card F ^ (6 * P.K - 1 + ccs.s + ccs.s) * (256 ^ 16) ^ (2 * P.K - 1 - 1)))
      < (univ.filter fun x : (Fin (ccs.s + ccs.s) → F) ×
          ((Fin (6 * P.K - 1 + ccs.s + ccs.s) → F) × (Fin (2 * P.K - 1) → Bytes 16)) =>
          NifsSucceeds rd P (frogSet rd.coeff) ccs scheme acc cm bound (List.ofFn x.1) (List.ofFn x.2.1) x.2.2
            (A.proof ccs.s (6 * P.K - 1 + ccs.s) (List.ofFn x.1) (List.ofFn x.2.1))).card) :
    ∃ wAcc wit : Witness (Fin 4 → F) C,
      LcccsHolds rd P ccs scheme acc wAcc ∧ WitBelow rd (P.bSmall ^ P.K) wAcc ∧
      FreshBelow rd P ccs scheme cm (P.bSmall ^ (P.K - 1) * lastBound P 2048 bound) wit := by
  refine C90_knowledge rd P hK hb (frogSet rd.coeff) (table_frog rd hX) (bounded_frog rd) ?_ ccs scheme hS ht hc hd acc hr cm A hA bound
    (by norm_num) hker hmany
  intro bs bs' h h' hne c c' e e'
  obtain ⟨d, d', h3, h4, h5, -⟩ := C83_frog rd hX bs bs' h h' hne
  have e : frogChallenge rd.coeff bs = .ok c := e
  have e' : frogChallenge rd.coeff bs' = .ok c' := e'
  rw [e] at h3; rw [e'] at h4; cases h3; cases h4; exact h5

open Classical in
/-- **C90** (Stark). -/
theorem C90_stark [Algebra (ZMod pStark) F] [Algebra (ZMod pStark) C]
    (rd : RingData (ZMod pStark) F C 16 1) (hX : rd.X ^ 16 + 1 = 0) (P : Params) (hK : 1 ≤ P.K) (hb : 1 ≤ P.bSmall)
    (ccs : CCS (Fin 16 → F)) (scheme : Ajtai (Fin 16 → F)) (hS : SizesOK P ccs scheme)
    (ht : ccs.t = ccs.M.length) (hc : CharGt F (2 * P.bSmall)) (hd : CharGt F (ccs.d + 1))
    (acc : LCCCS (Fin 16 → F)) (hr : acc.r.length = ccs.s) (cm : CCCS (Fin 16 → F))
    (A : NifsProver F (Fin 16 → F)) (hA : ProverShape P ccs scheme 1 A) (bound : Nat)
    (hker : NoShortKernel rd scheme (max (16320 * bound) (2 * (P.bSmall ^ (P.K - 1) * lastBound P 4080 bound))))
    (hmany : (ccs.s + ccs.s * (ccs.d + 1)) * Fintype.card F ^ (ccs.s + ccs.s - 1)
        * (Fintype.card F ^ (6 * P.K - 1 + ccs.s + ccs.s) * (256 ^ 16) ^ (2 * P.K - 1))
      + Fintype.card F ^ (ccs.s + ccs.s)
        * ((ccs.s + max 1 ccs.M.length + ccs.s * (2 * P.bSmall)) * Fintype.card F ^ (6 * P.K - 1 + ccs.s + ccs.s - 1)
            * (256 ^ 16) ^ (2 * P.K - 1)
          + (2 * P.K - 1) * (Fintype.card F ^ (6 * P.K - 1 + ccs.s + ccs.s) * (256 ^ 16) ^ (2 * P.K - 1 - 1)))
      < (univ.filter fun x : (Fin (ccs.s + ccs.s) → F) ×
          ((Fin (6 * P.K - 1 + ccs.s + ccs.s) → F) × (Fin (2 * P.K - 1) → Bytes 16)) =>
          NifsSucceeds rd P (starkSet rd.coeff) ccs scheme acc cm bound (List.ofFn x.1) (List.ofFn x.2.1) x.2.2
            (A.proof ccs.s (6 * P.K - 1 + ccs.s) (List.ofFn x.1) (List.ofFn x.2.1))).card) :
    ∃ wAcc wit : Witness (Fin 16 → F) C,
      LcccsHolds rd P ccs scheme acc wAcc ∧ WitBelow rd (P.bSmall ^ P.K) wAcc ∧
      FreshBelow rd P ccs scheme cm (P.bSmall ^ (P.K - 1) * lastBound P 4080 bound) wit := by
  refine C90_knowledge rd P hK hb (starkSet rd.coeff) (table_stark rd hX) (bounded_stark rd) ?_ ccs scheme hS ht hc hd acc hr cm A hA bound
    (by norm_num) hker hmany
  intro bs bs' h h' hne c c' e e'
  obtain ⟨d, d', h3, h4, h5, -⟩ := C83_stark rd hX bs bs' h h' hne
  have e : starkChallenge rd.coeff bs = .ok c := e
  have e' : starkChallenge rd.coeff bs' = .ok c' := e'
  rw [e] at h3; rw [e'] at h4; cases h3; cases h4; exact h5

end Rings

/-! ## A concrete case -/

section Examples

theorem table257 : Table ring257 (fun m _ => if m = 0 then 1 else 0) 1 1 where
  le := by decide
  pow := by
    intro m hm
    have hm : m < 2 := hm
    interval_cases m <;> decide
  exp := by
    intro k hk
    have hk : k < 1 := hk
    interval_cases k
    decide

theorem bounded257 : Bounded ring257 cs257 1 255 := by
  intro bs c h e
  match bs, h with
  | [b], _ =>
    cases e
    refine ⟨fun _ => b.toNat, fun i => ?_, fun i h1 h2 => ?_, fun i _ => ?_⟩
    · have hi : i = (0 : Fin 1) := Subsingleton.elim (α := Fin 1) _ _
      subst hi
      exact (Int.cast_natCast _).symm
    · exact absurd (lt_of_lt_of_le h2 h1) (lt_irrefl _)
    · have := b.toNat_lt
      beta_reduce
      rw [abs_of_nonneg (by positivity)]
      exact_mod_cast (by omega : b.toNat ≤ 255)

open Classical in
/-- Over the field of 257 elements: the honest prover succeeds always, more often than the error of C90, and witnesses can be
extracted from it. -/
example : ∃ (A : NifsProver (ZMod 257) C257) (bound : Nat),
    4 * 257 * (257 ^ 13 * 256 ^ 3) + 257 ^ 2 * (36 * 257 ^ 12 * 256 ^ 3 + 3 * (257 ^ 13 * 256 ^ 2)) <
      (univ.filter fun x : (Fin 2 → ZMod 257) × ((Fin 13 → ZMod 257) × (Fin 3 → Bytes 1)) =>
        NifsSucceeds ring257 par257 cs257 ccs257 scheme257 (acc257 ![7] ![4] ![9] (wit257 ![100] ![33])) fresh257 bound
          (List.ofFn x.1) (List.ofFn x.2.1) x.2.2 (A.proof 1 12 (List.ofFn x.1) (List.ofFn x.2.1))).card ∧
    ∃ wAcc wit : Witness C257 C257,
      LcccsHolds ring257 par257 ccs257 scheme257 (acc257 ![7] ![4] ![9] (wit257 ![100] ![33])) wAcc ∧ WitBelow ring257 256 wAcc ∧
      FreshBelow ring257 par257 ccs257 scheme257 fresh257 186032 wit := by
  obtain ⟨A, hA, hsucc⟩ := C90_honest ring257 par257 cs257 ccs257 scheme257 (acc257 ![7] ![4] ![9] (wit257 ![100] ![33])) _ fresh257 _
    par257_ok sizes257 rfl aligned257 (charGt257 _ (by decide)) (charGt257 _ (by decide)) cs257_ok (fun _ _ _ _ _ _ => reach257 _)
    (acc257_holds _ _ _ _ _) (fun _ _ _ => reach257 _) fresh257_holds
  have hcard : 4 * 257 * (257 ^ 13 * 256 ^ 3) + 257 ^ 2 * (36 * 257 ^ 12 * 256 ^ 3 + 3 * (257 ^ 13 * 256 ^ 2)) <
      (univ.filter fun x : (Fin 2 → ZMod 257) × ((Fin 13 → ZMod 257) × (Fin 3 → Bytes 1)) =>
        NifsSucceeds ring257 par257 cs257 ccs257 scheme257 (acc257 ![7] ![4] ![9] (wit257 ![100] ![33])) fresh257
          (reach par257.bSmall par257.K)
          (List.ofFn x.1) (List.ofFn x.2.1) x.2.2 (A.proof 1 12 (List.ofFn x.1) (List.ofFn x.2.1))).card := by
    rw [filter_true_of_mem (fun x _ => hsucc _ _ x.2.2 (by rw [List.length_ofFn]; rfl) (by rw [List.length_ofFn]; rfl)), card_univ,
      Fintype.card_prod, Fintype.card_prod, Fintype.card_fun, Fintype.card_fun, Fintype.card_fun, card_bytes, ZMod.card]
    norm_num
  refine ⟨A, _, hcard, ?_⟩
  have h := C90_knowledge ring257 par257 (by decide) (by decide) cs257 table257 bounded257 cs257_diff ccs257 scheme257 sizes257 rfl
    (charGt257 _ (by decide)) (charGt257 _ (by decide)) (acc257 ![7] ![4] ![9] (wit257 ![100] ![33])) rfl fresh257 A hA
    (reach par257.bSmall par257.K) (by decide) (noKernel257 _) (by rw [ZMod.card]; exact hcard)
  exact h

end Examples

end Verif.Props
