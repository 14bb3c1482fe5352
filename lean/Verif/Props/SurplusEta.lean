import Verif.Lemmas.FoldForge
import Verif.Props.FoldingSound

/-!
# C112: evaluations that the folding verifier checks without folding them
-/

set_option linter.unusedSectionVars false
set_option linter.unusedSimpArgs false

namespace Verif.Props

open Finset Spec Verif

variable {Fp F C σ : Type} {N τ : Nat} [Field Fp] [Field F] [DecidableEq F] [Algebra Fp F] [CommRing C]
  [Algebra Fp C]

/-- A prover that folds statements nothing is known about except that their commitments open to `ws`. It proves by
the sum-check the sum of the table `[claim, 0, .., 0]`, which has the claimed sum whatever that is, gives the
evaluations of `ws` at the point of the sum-check, and appends to those of the first statement one more, by which the
final check is satisfied. -/
def forgeFold (P : Params) (T : Transcript F (Fin N → F) σ) (s : σ) (ccs : CCS (Fin N → F))
    (cms : List (LCCCS (Fin N → F))) (ws : List (Witness (Fin N → F) C)) :
    Res (FoldProof (Fin N → F) × List F) := do
  let (ch, s1) ← squeezeFold P T s ccs.s
  let m : Mle (Fin N → F) := ⟨ccs.s, [foldClaims ch.alpha ch.zeta cms]⟩
  let ((msgs, pst), _) ← proveAsSubprotocol T s1 [m] ccs.s (2 * P.bSmall) (fun v => .ok (v.getD 0 0))
  let r0 := pst.randomness.map (algebraMap F (Fin N → F))
  let theta := ws.map fun w => w.fHat.map fun m => mle m.get r0
  let eta := List.zipWith (fun (st : LCCCS (Fin N → F)) (w : Witness (Fin N → F) C) => ccs.M.map fun M =>
    mle (mulVec M ((st.x_w ++ [st.h]) ++ w.wCcs)) r0) cms ws
  let eStar ← eqEval ch.beta r0
  let es ← mapRes (fun r => eqEval r r0) (cms.map LCCCS.r)
  let v ← expectedValue P ch.alpha ch.mu theta eStar es ch.zeta eta
  let x : Fin N → F := fun a => (mle m.get r0 a - v a) * (es.getD 0 0 a * ch.zeta.getD 0 0 a ^ (ccs.t + 1))⁻¹
  .ok (⟨msgs, theta, eta.modifyHead (· ++ [x])⟩, pst.randomness)

/-- **C112**, entries of `eta_s[k]` beyond the number of matrices do not enter the folded statement. -/
theorem C112_surplus_ignored (rd : RingData Fp F C N τ) (rhoC : List C) (rho : List (Fin N → F))
    (theta : List (List (Fin N → F))) (cms : List (LCCCS (Fin N → F))) (eta : List (List (Fin N → F)))
    (ccs : CCS (Fin N → F)) (hl : eta.length = rho.length) (h : ∀ e ∈ eta, ccs.t ≤ e.length) :
    computeFolded rd rhoC rho theta cms eta ccs = computeFolded rd rhoC rho theta cms (eta.map (List.take ccs.t)) ccs := by
  have h1 := list_eq_range eta [] hl
  have h2 := list_eq_range rho 0 rfl
  have h3 := computeFolded_surplus rd rhoC rho.length (fun k => rho.getD k 0) theta cms
    (fun k => (eta.getD k []).take ccs.t) (fun k => (eta.getD k []).drop ccs.t) ccs fun k hk => by
      rw [List.length_take, Nat.le_min]
      refine ⟨le_rfl, h _ ?_⟩
      rw [List.getD_eq_getElem?_getD, List.getElem?_eq_getElem (by omega)]
      exact List.getElem_mem _
  simp only [List.take_append_drop] at h3
  rw [← h1, ← h2] at h3
  rw [h3]
  congr 1
  conv_rhs => rw [h1]
  rw [List.map_map]
  rfl

theorem modifyHead_range {α : Type} (f : α → α) (g : Nat → α) (n : Nat) :
    ((List.range n).map g).modifyHead f = (List.range n).map fun k => if k = 0 then f (g k) else g k := by
  cases n with
  | zero => rfl
  | succ n =>
    rw [List.range_succ_eq_map]
    simp [List.map_map, Function.comp_def]

theorem forge_run (rd : RingData Fp F C N τ) (P : Params) (hK : 1 ≤ P.K) (hb : 1 ≤ P.bSmall) (cs : ChallengeSet C)
    (T : Transcript F (Fin N → F) σ) (s : σ) (ccs : CCS (Fin N → F)) (scheme : Ajtai (Fin N → F))
    (cms : List (LCCCS (Fin N → F))) (ws : List (Witness (Fin N → F) C))
    (hS : SizesOK P ccs scheme) (ht : ccs.t = ccs.M.length)
    (hcl : cms.length = 2 * P.K) (hwl : ws.length = 2 * P.K)
    (hop : ∀ (k : Nat) (st : LCCCS (Fin N → F)) (w : Witness (Fin N → F) C), cms[k]? = some st → ws[k]? = some w →
      st.r.length = ccs.s ∧ st.x_w.length = ccs.l ∧ WitOK rd P (ccs.n - ccs.l - 1) w ∧ scheme.commit w.f = .ok st.cm)
    (hc : CharGt F (2 * P.bSmall)) (hT : ∀ s n, (T.bytes s n).1.length = n)
    (hcs : ∀ bs, bs.length = cs.bytesNeeded → ∃ c, cs.decode bs = .ok c) :
    ∃ ch s1 proof p, squeezeFold P T s ccs.s = .ok (ch, s1) ∧ forgeFold P T s ccs cms ws = .ok (proof, p) ∧
      p.length = ccs.s ∧ proof.sumcheck.length = ccs.s ∧
      (∃ sc s2, verifyAsSubprotocol T s1 ccs.s (2 * P.bSmall) (foldClaims ch.alpha ch.zeta cms) proof.sumcheck
        = .ok (sc, s2) ∧ sc.point = p) ∧
      ((∀ a, ch.zeta.getD 0 0 a ≠ 0) →
        (∀ a, eqPoly (cms.getD 0 ⟨[], [], ⟨[]⟩, [], [], 0⟩).r (p.map (algebraMap F (Fin N → F))) a ≠ 0) →
        ∃ st w s', foldVerify rd P cs T s cms proof ccs = .ok (st, s') ∧ LcccsHolds rd P ccs scheme st w) := by
  set wl := ccs.n - ccs.l - 1 with hwl'
  have hn := hS.sh.spos
  set ST : Nat → LCCCS (Fin N → F) := fun k => cms.getD k ⟨[], [], ⟨[]⟩, [], [], 0⟩ with hST
  set W : Nat → Witness (Fin N → F) C := fun k => ws.getD k ⟨[], [], [], []⟩ with hW
  have hcms : cms = (List.range (2 * P.K)).map ST := list_eq_range cms _ hcl
  have hws : ws = (List.range (2 * P.K)).map W := list_eq_range ws _ hwl
  have hk : ∀ k < 2 * P.K, (ST k).r.length = ccs.s ∧ (ST k).x_w.length = ccs.l ∧ WitOK rd P wl (W k) ∧
      scheme.commit (W k).f = .ok (ST k).cm := by
    intro k hk
    apply hop k
    · simp [hST, List.getD_eq_getElem?_getD, hcl, hk]
    · simp [hW, List.getD_eq_getElem?_getD, hwl, hk]
  have hsan : sanityCheck ccs P.L = .ok () := by
    rw [(C14_guard_exact ccs P.L).1]
    refine ⟨by have := hS.nl; omega, ⟨ccs.s, hS.sh.pow⟩, ?_⟩
    rw [hS.sh.pow, ← hS.hat]
    exact Nat.le_pow_clog (by omega) _
  obtain ⟨al, ze, mu, beta, s1, hsq, hmul, hbl, hmu1⟩ := squeezeFold_ok P hK T s ccs.s
  set claim := foldClaims ((List.range (2 * P.K)).map al) ((List.range (2 * P.K)).map ze) cms with hclaim
  obtain ⟨msgs, pst, s2, sc, vals, hp, hv, -, hml, hpt, hptl, hev, hfin⟩ :=
    C20_completeness T s1 [(⟨ccs.s, [claim]⟩ : Mle (Fin N → F))] ccs.s (2 * P.bSmall) (fun v => .ok (v.getD 0 0))
      (fun v => v.getD 0 0) hn (by omega) hc (by simp) (fun _ _ => rfl) ((lineDeg_coord 1 0).mono (by omega))
  have hsum : ∑ b ∈ range (2 ^ ccs.s), ([(⟨ccs.s, [claim]⟩ : Mle (Fin N → F))].map fun m => m.get b).getD 0 0 = claim := by
    rw [sum_eq_single 0]
    · rfl
    · intro b _ hb0
      obtain ⟨b, rfl⟩ := Nat.exists_eq_succ_of_ne_zero hb0
      rfl
    · intro h
      exact absurd (mem_range.2 (by positivity)) h
  rw [hsum] at hv
  set r0 := pst.randomness.map (algebraMap F (Fin N → F)) with hr0
  have hr0l : r0.length = ccs.s := by rw [hr0, List.length_map, ← hpt, hptl]
  rw [hpt, ← hr0, evaluateMles_ok _ _ (by simp [hr0l])] at hev
  have hee : sc.expectedEvaluation = mle (⟨ccs.s, [claim]⟩ : Mle (Fin N → F)).get r0 := by
    rw [← Except.ok.inj hev] at hfin
    exact (Except.ok.inj hfin).symm
  set th : Nat → List (Fin N → F) := fun k => (W k).fHat.map fun m => mle m.get r0 with hth
  set et : Nat → List (Fin N → F) := fun k => ccs.M.map fun M =>
    mle (mulVec M (((ST k).x_w ++ [(ST k).h]) ++ (W k).wCcs)) r0 with het
  have hTH : (ws.map fun w => w.fHat.map fun m => mle m.get r0) = (List.range (2 * P.K)).map th := by
    rw [hws, List.map_map]; rfl
  have hET : List.zipWith (fun (st : LCCCS (Fin N → F)) (w : Witness (Fin N → F) C) => ccs.M.map fun M =>
      mle (mulVec M ((st.x_w ++ [st.h]) ++ w.wCcs)) r0) cms ws = (List.range (2 * P.K)).map et := by
    rw [hcms, hws, zipWith_map_self]
  have heq : eqEval beta r0 = .ok (eqPoly beta r0) := eqEval_ok _ _ (by rw [hbl, hr0l])
  have hes : mapRes (fun r => eqEval r r0) (cms.map LCCCS.r)
      = .ok ((List.range (2 * P.K)).map fun k => eqPoly (ST k).r r0) := by
    rw [hcms, List.map_map]
    apply mapRes_map_ok
    intro k hk'
    exact eqEval_ok _ _ (by rw [hr0l]; exact (hk k (List.mem_range.1 hk')).1)
  have hexp := expectedValue_ok P hb al ze (fun k => eqPoly (ST k).r r0) mu hmul th et (eqPoly beta r0)
  set v : Fin N → F := ∑ i ∈ range (2 * P.K), ((eqPoly (ST i).r r0 * powComb (al i) (th i)
          + eqPoly beta r0 * ∑ j ∈ range (th i).length, mu.getD i 0 ^ (j + 1) * rangePoly P.bSmall ((th i).getD j 0))
          + eqPoly (ST i).r r0 * powComb (ze i) (et i)) with hvd
  set x : Fin N → F := fun a => (mle (⟨ccs.s, [claim]⟩ : Mle (Fin N → F)).get r0 a - v a)
    * (eqPoly (ST 0).r r0 a * ze 0 a ^ (ccs.t + 1))⁻¹ with hx
  set et' : Nat → List (Fin N → F) := fun k => et k ++ if k = 0 then [x] else [] with het'
  have hz0 : ((List.range (2 * P.K)).map ze).getD 0 0 = ze 0 := getD_map_range _ _ (by omega)
  have he0 : ((List.range (2 * P.K)).map fun k => eqPoly (ST k).r r0).getD 0 0 = eqPoly (ST 0).r r0 :=
    getD_map_range _ _ (by omega)
  have hmod : ((List.range (2 * P.K)).map et).modifyHead (· ++ [x]) = (List.range (2 * P.K)).map et' := by
    rw [modifyHead_range]
    apply List.map_congr_left
    intro k _
    simp only [het']
    split <;> simp
  have hforge : forgeFold P T s ccs cms ws
      = .ok (⟨msgs, (List.range (2 * P.K)).map th, (List.range (2 * P.K)).map et'⟩, pst.randomness) := by
    unfold forgeFold
    rw [hsq]
    simp only [bind_ok', ← hclaim, hp, ← hr0, hTH, hET, heq, hes, hexp, hz0, he0]
    rw [← hx, hmod]
  refine ⟨_, s1, _, _, hsq, hforge, by rw [← hpt, hptl], hml, ⟨sc, s2, hv, hpt⟩, fun hz he => ?_⟩
  simp only [hz0] at hz
  -- the final check
  have hetl : ∀ k, (et k).length = ccs.t := fun k => by simp [het, ht]
  have hexp' := expectedValue_ok P hb al ze (fun k => eqPoly (ST k).r r0) mu hmul th et' (eqPoly beta r0)
  have hval : ∑ i ∈ range (2 * P.K), ((eqPoly (ST i).r r0 * powComb (al i) (th i)
          + eqPoly beta r0 * ∑ j ∈ range (th i).length, mu.getD i 0 ^ (j + 1) * rangePoly P.bSmall ((th i).getD j 0))
          + eqPoly (ST i).r r0 * powComb (ze i) (et' i)) = sc.expectedEvaluation := by
    have h1 : ∀ i, powComb (ze i) (et' i) = powComb (ze i) (et i) + if i = 0 then ze 0 ^ (ccs.t + 1) * x else 0 := by
      intro i
      simp only [het']
      split
      · rename_i h
        rw [h, powComb_append, hetl]
      · simp
    simp only [h1, mul_add, ← add_assoc]
    rw [sum_add_distrib]
    have h2 : ∑ i ∈ range (2 * P.K), eqPoly (ST i).r r0 * (if i = 0 then ze 0 ^ (ccs.t + 1) * x else 0)
        = eqPoly (ST 0).r r0 * (ze 0 ^ (ccs.t + 1) * x) := by
      rw [sum_eq_single 0]
      · simp
      · intro b _ hb0
        simp [hb0]
      · intro h
        exact absurd (mem_range.2 (by omega)) h
    rw [h2, ← hvd, hee]
    funext a
    have h3 : eqPoly (ST 0).r r0 a * ze 0 a ^ (ccs.t + 1) ≠ 0 := mul_ne_zero (he a) (pow_ne_zero _ (hz a))
    simp only [Pi.add_apply, Pi.mul_apply, Pi.pow_apply, hx]
    have h4 : ∀ E Z D : F, E * Z ≠ 0 → E * (Z * (D * (E * Z)⁻¹)) = D := fun E Z D h => by
      rw [show E * (Z * (D * (E * Z)⁻¹)) = D * (E * Z * (E * Z)⁻¹) by ring, mul_inv_cancel₀ h, mul_one]
    rw [h4 _ _ _ h3]
    ring
  rw [hval] at hexp'
  set TH := (List.range (2 * P.K)).map th with hTHd
  set ET := (List.range (2 * P.K)).map et' with hETd
  obtain ⟨rho, s4, hrho, hrho1, hrho2⟩ := getRhos_ok rd P hK cs T hT hcs (ET.foldl T.absorbSlice (TH.foldl T.absorbSlice s2))
  have hthl : ∀ t ∈ TH, t.length = τ := by
    intro t h
    obtain ⟨k, hk', rfl⟩ := List.mem_map.1 h
    rw [hth]
    simp only [List.length_map]
    exact (hk k (List.mem_range.1 hk')).2.2.1.hatlen
  have hsh : FoldShape P ccs scheme cms ((List.range (2 * P.K)).map et) := by
    refine ⟨hcl, ?_, ?_, by simp, ?_⟩
    · intro st h
      rw [hcms] at h
      obtain ⟨k, hk', rfl⟩ := List.mem_map.1 h
      obtain ⟨-, -, h1, h2⟩ := hk k (List.mem_range.1 hk')
      rw [commit_ok scheme _ (by rw [h1.f, List.length_map, h1.flen, hS.width])] at h2
      rw [← Except.ok.inj h2]
      simp
    · intro st h
      rw [hcms] at h
      obtain ⟨k, hk', rfl⟩ := List.mem_map.1 h
      exact (hk k (List.mem_range.1 hk')).2.1
    · intro e h
      obtain ⟨k, hk', rfl⟩ := List.mem_map.1 h
      simp [het]
  obtain ⟨out, st, hout, hst⟩ := computeFolded_defined rd ((List.range (2 * P.K)).map rho)
    ((List.range (2 * P.K)).map fun k => rd.crt (rho k)) TH cms ((List.range (2 * P.K)).map et) ccs r0 (by simp [hTHd])
    (by
      intro h
      have := congrArg List.length h
      simp [hTHd] at this
      omega) hthl
  obtain ⟨hstr, hcomb⟩ := out_comb rd P hK ccs scheme ht cms TH _ hsh rho r0 out st hout hst
  have hfc : IsComb (2 * P.K) rho (fun k => (W k).fCoeff) _ (wl * P.L) :=
    IsComb.mk' fun k hk' => (hk k hk').2.2.1.flen
  refine ⟨st, _, s4, (foldVerify_iff _ _ _ _ _ _ _ _ _ _).2 ⟨hsan, _, s1, sc, s2, _, _, _, _, out, hsq, hv, ?_, ?_,
    hexp', hrho, ?_, ?_⟩, lcccs_comb rd P ccs scheme hS (by omega) rho _ W ?_ pst.randomness ?_ st ?_ hcomb _ hfc⟩
  · rw [hpt, ← hr0]; exact heq
  · rw [hpt, ← hr0]; exact hes
  · rw [hETd, het', computeFolded_surplus rd _ _ _ _ _ _ _ _ fun k _ => (hetl k).ge]
    exact hout
  · rw [hpt, ← hr0]; exact hst
  · intro k hk'
    obtain ⟨-, h1, h2, h3⟩ := hk k hk'
    refine ⟨h2, h3, h1, ⟨?_, ?_, ?_⟩⟩
    · change st.r.length = _
      rw [hstr, hr0l]
    · change TH.getD k [] = _
      simp [hTHd, List.getD_eq_getElem?_getD, hk', hth, claimed, hstr]
    · change ((List.range (2 * P.K)).map et).getD k [] = _
      simp only [List.getD_eq_getElem?_getD, List.getElem?_map, List.getElem?_range hk', Option.map_some,
        Option.getD_some, het]
      apply List.map_congr_left
      intro M _
      simp only [claimed, hstr]
      rfl
  · intro k _
    exact hstr
  · exact hstr

/-- **C112**, the attack: statements of which nothing is known except that their commitments open to the witnesses
`ws` (the claimed evaluations `v` and `u` may be anything, the witnesses need not be short, and no constraint need
hold) are folded by `forgeFold` into a statement that holds, whenever the first `zeta` and the value of `eq` between
the first point and the point of the sum-check have no zero slot. -/
theorem C112_forged (rd : RingData Fp F C N τ) (P : Params) (hK : 1 ≤ P.K) (hb : 1 ≤ P.bSmall) (cs : ChallengeSet C)
    (T : Transcript F (Fin N → F) σ) (s : σ) (ccs : CCS (Fin N → F)) (scheme : Ajtai (Fin N → F))
    (cms : List (LCCCS (Fin N → F))) (ws : List (Witness (Fin N → F) C))
    (hS : SizesOK P ccs scheme) (ht : ccs.t = ccs.M.length)
    (hcl : cms.length = 2 * P.K) (hwl : ws.length = 2 * P.K)
    (hop : ∀ (k : Nat) (st : LCCCS (Fin N → F)) (w : Witness (Fin N → F) C), cms[k]? = some st → ws[k]? = some w →
      st.r.length = ccs.s ∧ st.x_w.length = ccs.l ∧ WitOK rd P (ccs.n - ccs.l - 1) w ∧ scheme.commit w.f = .ok st.cm)
    (hc : CharGt F (2 * P.bSmall)) (hT : ∀ s n, (T.bytes s n).1.length = n)
    (hcs : ∀ bs, bs.length = cs.bytesNeeded → ∃ c, cs.decode bs = .ok c) :
    ∃ ch s1 proof p, squeezeFold P T s ccs.s = .ok (ch, s1) ∧ forgeFold P T s ccs cms ws = .ok (proof, p) ∧
      p.length = ccs.s ∧
      ((∀ a, ch.zeta.getD 0 0 a ≠ 0) →
        (∀ a, eqPoly (cms.getD 0 ⟨[], [], ⟨[]⟩, [], [], 0⟩).r (p.map (algebraMap F (Fin N → F))) a ≠ 0) →
        ∃ st w s', foldVerify rd P cs T s cms proof ccs = .ok (st, s') ∧ LcccsHolds rd P ccs scheme st w) := by
  obtain ⟨ch, s1, proof, p, h1, h2, h3, -, -, h4⟩ :=
    forge_run rd P hK hb cs T s ccs scheme cms ws hS ht hcl hwl hop hc hT hcs
  exact ⟨ch, s1, proof, p, h1, h2, h3, h4⟩

theorem verify_coin_point' {F R : Type} [Field F] [DecidableEq F] [CommRing R] [DecidableEq R] [Algebra F R] {n d : Nat}
    (hn : 1 ≤ n) (c : R) (proof : List (List R)) (hp : proof.length = n) (v : List F) (hv : v.length = n)
    (sc : SubClaim F R) (s' : List F)
    (h : verifyAsSubprotocol (coinT F R) v n d c proof = .ok (sc, s')) : sc.point = v := by
  rw [verify_eq _ _ _ _ (by omega) _ _ (by omega), List.take_of_length_le (by omega)] at h
  have habs : ∀ (s : List F) (x : R), (coinT F R).absorb s x = s := fun _ _ => rfl
  rw [habs, habs, drawRun_coin _ _ (by omega), hp, List.take_of_length_le (by omega), bind_eq_ok] at h
  obtain ⟨e, -, h9⟩ := h
  simp only [Except.ok.injEq, Prod.mk.injEq] at h9
  rw [← h9.1]

/-- The interactive folding verifier with the tape `w` of its challenges accepts what `forgeFold` sends, and obtains a
statement that holds. -/
def ForgeAccepted {β : Type} (rd : RingData Fp F C N τ) (P : Params) (cs : ChallengeSet C) (ccs : CCS (Fin N → F))
    (scheme : Ajtai (Fin N → F)) (cms : List (LCCCS (Fin N → F))) (ws : List (Witness (Fin N → F) C))
    (g : β → Nat → List UInt8 × β) (b : β) (w : List F) : Prop :=
  ∃ proof p st wit s', forgeFold P (coinBT g) (w, b) ccs cms ws = .ok (proof, p) ∧
    foldVerify rd P cs (coinBT g) (w, b) cms proof ccs = .ok (st, s') ∧ LcccsHolds rd P ccs scheme st wit

open Classical in
/-- **C112**, how often the attack succeeds: all but `(s + 1) / |F|` of the tapes of challenges lead to acceptance. -/
theorem C112_forged_count {β : Type} [Fintype F] (rd : RingData Fp F C N τ) (P : Params) (hK : 1 ≤ P.K) (hb : 1 ≤ P.bSmall)
    (cs : ChallengeSet C) (ccs : CCS (Fin N → F)) (scheme : Ajtai (Fin N → F))
    (cms : List (LCCCS (Fin N → F))) (ws : List (Witness (Fin N → F) C))
    (hS : SizesOK P ccs scheme) (ht : ccs.t = ccs.M.length)
    (hcl : cms.length = 2 * P.K) (hwl : ws.length = 2 * P.K)
    (hop : ∀ (k : Nat) (st : LCCCS (Fin N → F)) (w : Witness (Fin N → F) C), cms[k]? = some st → ws[k]? = some w →
      st.r.length = ccs.s ∧ st.x_w.length = ccs.l ∧ WitOK rd P (ccs.n - ccs.l - 1) w ∧ scheme.commit w.f = .ok st.cm)
    (q : List F) (hq : (cms.getD 0 ⟨[], [], ⟨[]⟩, [], [], 0⟩).r = q.map (algebraMap F (Fin N → F)))
    (hc : CharGt F (2 * P.bSmall)) (g : β → Nat → List UInt8 × β) (b : β) (hg : ∀ b n, (g b n).1.length = n)
    (hcs : ∀ bs, bs.length = cs.bytesNeeded → ∃ c, cs.decode bs = .ok c) :
    (univ.filter fun w : Fin (6 * P.K - 1 + ccs.s + ccs.s) → F =>
        ¬ ForgeAccepted rd P cs ccs scheme cms ws g b (List.ofFn w)).card
      ≤ (1 + ccs.s) * Fintype.card F ^ (6 * P.K - 1 + ccs.s + ccs.s - 1) := by
  have hn := hS.sh.spos
  have hql : q.length = ccs.s := by
    have h0 := (hop 0 (cms.getD 0 ⟨[], [], ⟨[]⟩, [], [], 0⟩) (ws.getD 0 ⟨[], [], [], []⟩)
      (by simp [List.getD_eq_getElem?_getD, hcl, show 0 < 2 * P.K by omega])
      (by simp [List.getD_eq_getElem?_getD, hwl, show 0 < 2 * P.K by omega])).1
    rw [hq, List.length_map] at h0
    exact h0
  have hcnt : (univ.filter fun w : Fin (6 * P.K - 1 + ccs.s + ccs.s) → F =>
        ¬ ForgeAccepted rd P cs ccs scheme cms ws g b (List.ofFn w)).card
      = cnt (6 * P.K - 1 + ccs.s + ccs.s) (fun w => ¬ ForgeAccepted rd P cs ccs scheme cms ws g b w) := by
    unfold cnt
    congr
  rw [hcnt]
  refine cnt_append_le _ _ 1 ccs.s (by omega) hn _ (fun u => u.getD (2 * P.K) 0 = 0) ?_ ?_
  · have h := cnt_middle (F := F) (2 * P.K) 1 (6 * P.K - 1 + ccs.s - (2 * P.K) - 1) 1 le_rfl (fun l => l.getD 0 0 = 0) (by
      rw [cnt_succ]
      simp only [List.getD_cons_zero]
      rw [sum_eq_single 0]
      · exact (cnt_le 0 _).trans (by simp)
      · intro a _ ha
        exact cnt_false _ _ fun l _ => ha
      · intro h
        exact absurd (mem_univ _) h)
    rw [show 2 * P.K + 1 + (6 * P.K - 1 + ccs.s - (2 * P.K) - 1) = 6 * P.K - 1 + ccs.s by omega] at h
    refine le_trans (cnt_mono fun l hl h0 => ?_) h
    refine Eq.trans ?_ h0
    simp [List.getD_eq_getElem?_getD, List.getElem?_take, List.getElem?_drop]
  · intro u hu hz
    refine le_trans (cnt_mono fun v hv => ?_) (cnt_mle ccs.s (fun i => eqWeight q i) ?_)
    · contrapose
      intro he
      rw [mle_eqWeight q v (by omega)] at he
      obtain ⟨ch, s1, proof, p, h1, h2, h3, h4, ⟨sc, s2, h5, h6⟩, h7⟩ :=
        forge_run rd P hK hb cs (coinBT g) (u ++ v, b) ccs scheme cms ws hS ht hcl hwl hop hc (fun s n => hg s.2 n) hcs
      rw [squeezeFold_coin g P hK ccs.s u v b hu] at h1
      simp only [Except.ok.injEq, Prod.mk.injEq] at h1
      obtain ⟨rfl, rfl⟩ := h1
      obtain ⟨-, h5⟩ := verify_coinBT _ _ _ _ _ _ _ _ _ h5
      have hpt := verify_coin_point' hn _ _ h4 _ hv _ _ h5
      have hpv : p = v := by rw [← h6, hpt]
      subst hpv
      obtain ⟨st, wit, s', h8, h9⟩ := h7 (by
        intro a
        rw [getD_map_range _ _ (by omega)]
        exact hz) (by
        intro a
        rw [hq]
        have : eqPoly (q.map (algebraMap F (Fin N → F))) (p.map (algebraMap F (Fin N → F)))
            = algebraMap F (Fin N → F) (eqPoly q p) := by
          unfold eqPoly
          rw [map_prod, List.length_map]
          apply prod_congr rfl
          intro k hk
          have hk1 : k < q.length := mem_range.1 hk
          have hk2 : k < p.length := by omega
          simp [List.getD_eq_getElem?_getD, hk1, hk2]
        rw [this]
        exact he)
      exact ⟨proof, p, st, wit, s', h2, h8, h9⟩
    · by_contra h
      push Not at h
      have h1 := sum_eqWeight q
      rw [hql, sum_eq_zero fun i hi => h i (mem_range.1 hi)] at h1
      exact zero_ne_one h1

theorem shortChallenges_count {F R : Type} (T : Transcript F R σ) (cs : ChallengeSet C) (n : Nat) (s : σ) {l : List C} {s' : σ}
    (h : shortChallenges T cs n s = .ok (l, s')) : l.length = n := by
  induction n generalizing s l s' with
  | zero =>
    cases h
    rfl
  | succ n ih =>
    unfold shortChallenges at h
    simp only [bind_eq_ok, Prod.exists] at h
    obtain ⟨c, s1, -, r, s2, h2, h3⟩ := h
    cases h3
    simp [ih _ h2]

/-- **C112**, partial: if there are as many evaluations as matrices for every statement (which the verifier does not
check), then all of them enter the folded statement, which is the combination of the claimed ones by the folding
challenges. What is missing is that the verifier rejects proofs of another shape. -/
theorem C112_exact_partial (rd : RingData Fp F C N τ) (P : Params) (hK : 1 ≤ P.K) (cs : ChallengeSet C)
    (T : Transcript F (Fin N → F) σ) (s s' : σ) (ccs : CCS (Fin N → F)) (scheme : Ajtai (Fin N → F))
    (ht : ccs.t = ccs.M.length) (cms : List (LCCCS (Fin N → F))) (proof : FoldProof (Fin N → F))
    (st : LCCCS (Fin N → F)) (hsh : FoldShape P ccs scheme cms proof.etaS)
    (h : foldVerify rd P cs T s cms proof ccs = .ok (st, s')) :
    ∃ rho : Nat → C, rho (2 * P.K - 1) = 1 ∧
      IsComb (2 * P.K) (fun k => rd.crt (rho k)) (fun k => proof.etaS.getD k []) st.u ccs.M.length := by
  obtain ⟨-, ch, s1, sc, s2, -, -, rhoC, rho, out, h1, h2, -, -, -, h3, h4, h5⟩ := (foldVerify_iff _ _ _ _ _ _ _ _ _ _).1 h
  unfold getRhos at h3
  simp only [bind_eq_ok, Prod.exists] at h3
  obtain ⟨n, hn, l, s3, hl, h6⟩ := h3
  have hn' : n = 2 * P.K - 1 := by
    unfold usub at hn
    rw [if_pos (by omega)] at hn
    exact (Except.ok.inj hn).symm
  have hll := shortChallenges_count T cs _ _ hl
  simp only [Except.ok.injEq, Prod.mk.injEq] at h6
  obtain ⟨⟨rfl, rfl⟩, rfl⟩ := h6
  have e1 := list_eq_range (l ++ [1]) 0 (n := 2 * P.K) (by simp [hll, hn']; omega)
  rw [e1, List.map_map] at h4
  obtain ⟨-, hcomb⟩ := out_comb rd P hK ccs scheme ht cms proof.thetaS proof.etaS hsh (fun k => (l ++ [1]).getD k 0) _ out st h4 h5
  refine ⟨fun k => (l ++ [1]).getD k 0, ?_, hcomb.u⟩
  beta_reduce
  rw [List.getD_eq_getElem?_getD, List.getElem?_append_right (by omega)]
  simp [hll, hn']

/-! ## Concrete cases -/

section Examples
open Verif.Example

/-- The statements of `unAccs` with other evaluations: of the second and third matrix, which are equal, different ones. -/
def badAccs : List (LCCCS C49) := unAccs.map fun st => { st with v := [0, 0], u := [0, 1, 0] }

theorem badAccs_false : ∀ st ∈ badAccs, ∀ w, ¬ LcccsHolds ring49 par49 ccs49 scheme49 st w := by
  intro st hst w h
  have hu : st.u = [0, 1, 0] := by
    obtain ⟨a, -, rfl⟩ := List.mem_map.1 hst
    rfl
  have h1 := h.evals.u
  rw [hu] at h1
  simp only [ccs49, List.map_cons, List.map_nil, List.cons.injEq] at h1
  obtain ⟨-, h2, h3, -⟩ := h1
  rw [← h2] at h3
  exact zero_ne_one h3

theorem badAccs_open : ∀ (k : Nat) (st : LCCCS C49) (w : Witness C49 C49), badAccs[k]? = some st → unWits[k]? = some w →
    st.r.length = ccs49.s ∧ st.x_w.length = ccs49.l ∧ WitOK ring49 par49 (ccs49.n - ccs49.l - 1) w ∧
      scheme49.commit w.f = .ok st.cm := by
  intro k st w h1 h2
  match k with
  | 0 | 1 | 2 | 3 =>
    cases h1
    cases h2
    exact ⟨rfl, rfl, (acc49_holds 0 0 0 _ _).witOK, (acc49_holds ![⟨3, 1⟩] 0 0 _ _).cm⟩
  | k + 4 => simp [unWits] at h2

theorem cs49_total : ∀ bs, bs.length = cs49.bytesNeeded → ∃ c, cs49.decode bs = .ok c := by
  intro bs h
  match bs, h with
  | [b], _ => exact ⟨_, rfl⟩

open Classical in
/-- **C112**, negation with a concrete witness: four statements over `F_7[X]/(X^2+1)` that no witness satisfies, one of the
commitments being to a witness out of range besides, are folded to a true statement for all but 2 of 49 tapes. -/
theorem C112_witness (g : Unit → Nat → List UInt8 × Unit) (hg : ∀ b n, (g b n).1.length = n) :
    (∀ st ∈ badAccs, ∀ w, ¬ LcccsHolds ring49 par49 ccs49 scheme49 st w) ∧
    (∃ wit ∈ unWits, ¬ WitBelow ring49 par49.bSmall wit) ∧
    (univ.filter fun w : Fin 13 → F49 =>
      ¬ ForgeAccepted ring49 par49 cs49 ccs49 scheme49 badAccs unWits g () (List.ofFn w)).card ≤ 2 * 49 ^ 12 := by
  refine ⟨badAccs_false, ⟨_, by simp [unWits], unNotBelow⟩, ?_⟩
  have h := C112_forged_count ring49 par49 (by decide) (by decide) cs49 ccs49 scheme49 badAccs unWits sizes49 rfl rfl rfl
    badAccs_open [⟨3, 1⟩] (by
      simp only [badAccs, unAccs, acc49, List.map_cons, List.getD_cons_zero, List.map_nil, List.cons.injEq, and_true]
      funext a
      fin_cases a
      rfl) charGt49 g () hg cs49_total
  rw [card49] at h
  exact h

/-- `C112_forged` for these statements and any transcript. -/
example {σ : Type} (T : Transcript F49 C49 σ) (s : σ) (hT : ∀ s n, (T.bytes s n).1.length = n) :
    ∃ ch s1 proof p, squeezeFold par49 T s 1 = .ok (ch, s1) ∧ forgeFold par49 T s ccs49 badAccs unWits = .ok (proof, p) ∧
      p.length = 1 ∧ ((∀ a, ch.zeta.getD 0 0 a ≠ 0) → (∀ a, eqPoly [![⟨3, 1⟩]] (p.map (algebraMap F49 C49)) a ≠ 0) →
        ∃ st w s', foldVerify ring49 par49 cs49 T s badAccs proof ccs49 = .ok (st, s') ∧
          LcccsHolds ring49 par49 ccs49 scheme49 st w) :=
  C112_forged ring49 par49 (by decide) (by decide) cs49 T s ccs49 scheme49 badAccs unWits sizes49 rfl rfl rfl badAccs_open
    charGt49 hT cs49_total

/-- A fourth evaluation is not folded. -/
example (e : Nat → C49) (x : C49) :
    computeFolded ring49 [1] [1] [[0, 0]] badAccs [[e 0, e 1, e 2, x]] ccs49
      = computeFolded ring49 [1] [1] [[0, 0]] badAccs [[e 0, e 1, e 2]] ccs49 :=
  C112_surplus_ignored ring49 _ _ _ _ _ _ rfl (by simp [ccs49])

/-- An honest step has a proof of the right shape. -/
example {σ : Type} (T : Transcript F49 C49 σ) (s s' : σ) (proof : FoldProof C49) (st : LCCCS C49)
    (hl : proof.etaS.length = 4) (hl' : ∀ e ∈ proof.etaS, e.length = 3)
    (h : foldVerify ring49 par49 cs49 T s unAccs proof ccs49 = .ok (st, s')) :
    ∃ rho : Nat → C49, rho 3 = 1 ∧
      IsComb 4 (fun k => ring49.crt (rho k)) (fun k => proof.etaS.getD k []) st.u 3 :=
  C112_exact_partial ring49 par49 (by decide) cs49 T s s' ccs49 scheme49 rfl unAccs proof st
    ⟨rfl, by
      intro st hst
      simp only [unAccs, List.mem_cons, List.not_mem_nil, or_false] at hst
      rcases hst with rfl | rfl | rfl | rfl <;> rfl, by
      intro st hst
      simp only [unAccs, List.mem_cons, List.not_mem_nil, or_false] at hst
      rcases hst with rfl | rfl | rfl | rfl <;> rfl, hl, hl'⟩ h

end Examples

end Verif.Props
