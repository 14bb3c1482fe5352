import Verif.Lemmas.PlusLog
import Verif.Props.PlusFold

/-!
# Property theorems: what the verifiers of `latticefold-plus` absorb, and what they leave free (C67, C71)
-/

set_option linter.unusedSectionVars false
set_option linter.unusedSimpArgs false

namespace Verif.Props

open Finset Spec Verif.Plus

section Record
variable {F R : Type} {d : Nat} (o : Oracle F R) [Field F] [CommRing R] [Algebra F R] [DecidableEq F] [DecidableEq R]

/-- **C67**, set check: all challenges are drawn before anything is absorbed; then the sum-check, then all evaluations. -/
theorem C67_set_record (pr : PlusRing F R d) (s s' : {l : List (Event F R) // Honest o l}) (out : SetOut F R)
    (h : setVerify pr (recT o) s out = .ok s') :
    ∃ (cba : List (List F × F × F)) (rc point : List F), s'.1 = s.1 ++ setLog out cba rc point ∧
      cba.length = (out.e.getD 0 []).length + out.b.length ∧ (∀ t ∈ cba, t.1.length = out.nvars) ∧
      rc.length = (if (out.e.getD 0 []).length > 1 then 1 else 0) ∧ point.length = out.nvars := by
  unfold setVerify at h
  obtain ⟨e0, he, h⟩ := bind_eq_ok.1 h
  simp only at h
  obtain ⟨⟨sc, s2⟩, h1, h⟩ := bind_eq_ok.1 h
  simp only at h
  obtain ⟨ver, -, h⟩ := bind_eq_ok.1 h
  have he0 : out.e.getD 0 [] = e0 := by
    cases hh : out.e with
    | nil => simp [idx, hh] at he
    | cons a l => simpa [idx, hh] using he
  split at h
  · simp only [Except.ok.injEq] at h
    obtain ⟨cba, rc, g1, g2, g3, g4⟩ := recT_drawAll o out.nvars e0.length out.b.length s
    obtain ⟨k1, k2⟩ := C49_sumcheck_record o _ _ _ _ _ _ _ h1
    refine ⟨cba, rc, sc.point, ?_, by rw [he0]; exact g2, g3, by rw [he0]; exact g4, k1⟩
    rw [← h, recT_absorbSet, k2, g1]
    simp [setLog]
  · cases h

/-- **C67**, range check: after the set check, `a` and `c` of every instance are absorbed (and nothing else). -/
theorem C67_range_record (pr : PlusRing F R d) (s s' : {l : List (Event F R) // Honest o l}) (dcom : Dcom F R)
    (h : dcomVerify pr (recT o) s dcom = .ok s') :
    ∃ (cba : List (List F × F × F)) (rc point : List F), s'.1 = s.1 ++ setLog dcom.out cba rc point ++ dcomEv dcom.evals ∧
      cba.length = (dcom.out.e.getD 0 []).length + dcom.out.b.length ∧ (∀ t ∈ cba, t.1.length = dcom.out.nvars) ∧
      rc.length = (if (dcom.out.e.getD 0 []).length > 1 then 1 else 0) ∧ point.length = dcom.out.nvars := by
  unfold dcomVerify at h
  obtain ⟨s1, h1, h⟩ := bind_eq_ok.1 h
  simp only at h
  obtain ⟨_, -, h⟩ := bind_eq_ok.1 h
  simp only [Except.ok.injEq] at h
  obtain ⟨cba, rc, point, g1, g2⟩ := C67_set_record o pr s s1 dcom.out (unwrapRes_ok h1)
  refine ⟨cba, rc, point, ?_, g2⟩
  rw [← h, recT_absorbDcom, g1]

theorem cmSum_record (s s' : {l : List (Event F R) // Honest o l}) (dcom : Dcom F R) (L Mlen : Nat) (us : List (List R))
    (tc0 tc1 tz0 tz1 : List R) (proof : List (List R)) (evals : List (InstanceEvals R)) (ro : List R)
    (h : cmVerifySumcheck (recT o) s dcom L Mlen us tc0 tc1 tz0 tz1 proof evals = .ok (ro, s')) :
    ∃ (rc : F) (point : List F), s'.1 = s.1 ++ cmSumLog dcom.out.nvars proof evals rc point ∧ point.length = dcom.out.nvars ∧
      ro = point.map (algebraMap F R) := by
  unfold cmVerifySumcheck at h
  simp only at h
  obtain ⟨cs, -, h⟩ := bind_eq_ok.1 h
  obtain ⟨⟨sc, s2⟩, h1, h⟩ := bind_eq_ok.1 h
  simp only at h
  obtain ⟨_, -, h⟩ := bind_eq_ok.1 h
  obtain ⟨_, -, h⟩ := bind_eq_ok.1 h
  obtain ⟨_, -, h⟩ := bind_eq_ok.1 h
  obtain ⟨_, -, h⟩ := bind_eq_ok.1 h
  split at h
  · simp only [Except.ok.injEq, Prod.mk.injEq] at h
    obtain ⟨k1, k2⟩ := C49_sumcheck_record o _ _ _ _ _ _ _ (unwrapRes_ok h1)
    refine ⟨((recT o).challenge s).1, sc.point, ?_, k1, h.1.symm⟩
    rw [← h.2, recT_absorbQuads, k2]
    simp [cmSumLog, recT]
  · cases h

/-- What `CmProof::x` computes. -/
theorem cmX_ok {p : CmProof F R} {ss : List R} {ro : List (R × R)} {x : ComX R} (h : p.x ss ro = .ok x) :
    ∃ s0 s1 s2, ss[0]? = some s0 ∧ ss[1]? = some s1 ∧ ss[2]? = some s2 ∧ x.ro = ro ∧ x.cmG.length = p.dcom.fcoms.length ∧
      ∀ l (hl : l < p.dcom.fcoms.length), ∃ hl' : l < p.comh.length, x.cmG[l]? = some (foldCm s0 s1 s2 p.dcom.fcoms[l] p.comh[l]) := by
  have hidx : ∀ {site : String} {l : List R} {i : Nat} {a : R}, idx site l i = .ok a → l[i]? = some a := by
    intro site l i a h
    unfold idx at h
    split at h
    · simp_all
    · cases h
  unfold CmProof.x at h
  obtain ⟨s0, h0, h⟩ := bind_eq_ok.1 h
  obtain ⟨s1, h1, h⟩ := bind_eq_ok.1 h
  obtain ⟨s2, h2, h⟩ := bind_eq_ok.1 h
  obtain ⟨cmG, hc, h⟩ := bind_eq_ok.1 h
  obtain ⟨vo, -, h⟩ := bind_eq_ok.1 h
  simp only [Except.ok.injEq] at h
  subst h
  have hlen := mapRes_length hc
  rw [List.length_zipIdx] at hlen
  rw [mapRes_eq_ok_iff] at hc
  refine ⟨s0, s1, s2, hidx h0, hidx h1, hidx h2, rfl, hlen, ?_⟩
  intro l hl
  have h1 := hc.get (i := l) (by rw [List.length_zipIdx]; exact hl) (by rw [hlen]; exact hl)
  simp only [List.get_eq_getElem, List.getElem_zipIdx, Nat.zero_add] at h1
  obtain ⟨ch, h2, h3⟩ := bind_eq_ok.1 h1
  simp only [Except.ok.injEq] at h3
  have hl' : l < p.comh.length := by
    by_contra hn
    simp [idx, List.getElem?_eq_none (Nat.le_of_not_lt hn)] at h2
  rw [idx_ok hl'] at h2
  simp only [Except.ok.injEq] at h2
  refine ⟨hl', ?_⟩
  simp only
  rw [List.getElem?_eq_getElem (by rw [hlen]; exact hl), ← h3, ← h2]

/-- **C67**, commitment transformation: the record of an accepted verification, in order. The three folding challenges are decoded from the
first three byte strings after the evaluations of the range check. The commitments `fcoms` do not occur. -/
theorem C67_cm_record (pr : PlusRing F R d) (s s' : {l : List (Event F R) // Honest o l}) (M : List (SpMat R)) (p : CmProof F R)
    (x : ComX R) (h : cmVerify pr (recT o) s M p = .ok (x, s')) :
    ∃ (cba : List (List F × F × F)) (rc point : List F) (bss : List (List UInt8)) (c0 c1 : List F) (rcA : F) (pA : List F) (rcB : F)
      (pB : List F) (b0 b1 b2 : List UInt8),
      s'.1 = s.1 ++ cmLog d p cba rc point bss c0 c1 rcA pA rcB pB ∧
      cba.length = (p.dcom.out.e.getD 0 []).length + p.dcom.out.b.length ∧ (∀ t ∈ cba, t.1.length = p.dcom.out.nvars) ∧
      rc.length = (if (p.dcom.out.e.getD 0 []).length > 1 then 1 else 0) ∧ point.length = p.dcom.out.nvars ∧
      bss.length = 3 + p.dcom.dparams.k * d ∧ (∀ bs ∈ bss, bs.length = d) ∧
      c0.length = Nat.clog 2 (p.comh.getD 0 []).length ∧ c1.length = Nat.clog 2 (p.comh.getD 0 []).length ∧
      pA.length = p.dcom.out.nvars ∧ pB.length = p.dcom.out.nvars ∧
      x.ro = (pA.map (algebraMap F R)).zip (pB.map (algebraMap F R)) ∧
      bss.take 3 = [b0, b1, b2] ∧ ∀ l, ∀ hl : l < p.dcom.fcoms.length,
        ∀ κ, (p.comh.getD l []).length = κ → (p.dcom.fcoms[l]).CMf.length = κ → (p.dcom.fcoms[l]).cmMtau.length = κ →
        (p.dcom.fcoms[l]).cmF.length = κ →
        x.cmG.getD l [] = (List.range κ).map fun i => shortElt pr b0 * (p.dcom.fcoms[l]).CMf.getD i 0
          + shortElt pr b1 * (p.dcom.fcoms[l]).cmMtau.getD i 0
          + shortElt pr b2 * (p.dcom.fcoms[l]).cmF.getD i 0 + (p.comh.getD l []).getD i 0 := by
  unfold cmVerify at h
  simp only at h
  obtain ⟨t1, h1, h⟩ := bind_eq_ok.1 h
  obtain ⟨⟨ss, t2⟩, h2, h⟩ := bind_eq_ok.1 h
  obtain ⟨⟨sp, t3⟩, h3, h⟩ := bind_eq_ok.1 h
  obtain ⟨comh0, h4, h⟩ := bind_eq_ok.1 h
  obtain ⟨⟨ro0, t4⟩, h5, h⟩ := bind_eq_ok.1 h
  obtain ⟨⟨ro1, t5⟩, h6, h⟩ := bind_eq_ok.1 h
  obtain ⟨x', hx, h⟩ := bind_eq_ok.1 h
  simp only [Except.ok.injEq, Prod.mk.injEq] at h
  obtain ⟨rfl, rfl⟩ := h
  obtain ⟨cba, rc, point, g1, g2, g3, g4, g5⟩ := C67_range_record o pr _ _ _ (unwrapRes_ok h1)
  obtain ⟨b1, k1, k2, k3, k4⟩ := recT_plusShorts o pr _ _ _ _ h2
  obtain ⟨b2, l1, l2, -, l4⟩ := recT_sPrime o pr _ _ _ _ h3
  obtain ⟨rcA, pA, m1, m2, m3⟩ := cmSum_record o _ _ _ _ _ _ _ _ _ _ _ _ _ h5
  obtain ⟨rcB, pB, n1, n2, n3⟩ := cmSum_record o _ _ _ _ _ _ _ _ _ _ _ _ _ h6
  obtain ⟨u0, u1, u2, e0, e1, e2, e3, e4, e5⟩ := cmX_ok hx
  have hc0 : p.comh.getD 0 [] = comh0 := by
    cases hh : p.comh with
    | nil => simp [idx, hh] at h4
    | cons a l => simpa [idx, hh] using h4
  obtain ⟨y0, y1, y2, rfl⟩ : ∃ y0 y1 y2, b1 = [y0, y1, y2] := by
    match b1, k1 with
    | [y0, y1, y2], _ => exact ⟨y0, y1, y2, rfl⟩
  rw [k3] at e0 e1 e2
  simp only [List.map_cons, List.map_nil, List.getElem?_cons_zero, List.getElem?_cons_succ, Option.some.injEq] at e0 e1 e2
  subst e0 e1 e2
  refine ⟨cba, rc, point, [y0, y1, y2] ++ b2,
    ((recT o).challenges (Nat.clog 2 comh0.length) (absorbComh (recT o) t3 p.comh)).1,
    ((recT o).challenges (Nat.clog 2 comh0.length) ((recT o).challenges (Nat.clog 2 comh0.length) (absorbComh (recT o) t3 p.comh)).2).1, rcA, pA, rcB, pB, y0, y1, y2, ?_, g2, g3, g4, g5, by simp [l1]; omega, ?_,
    ?_, ?_, m2, n2, by rw [e3, m3, n3], by simp, ?_⟩
  · rw [n1, m1, recT_challenges, recT_challenges]
    unfold absorbComh
    rw [recT_absorbSlices, l4, k4, g1]
    simp only [cmLog, List.append_assoc, List.map_append]
  · intro b hb
    rcases List.mem_append.1 hb with hb | hb
    · exact k2 b hb
    · exact l2 b hb
  · rw [challenges_length, hc0]
  · rw [challenges_length, hc0]
  · intro l hl κ h1 h2 h3 h4
    obtain ⟨hl', hk⟩ := e5 l hl
    have e1 : x'.cmG.getD l [] = foldCm (shortElt pr y0) (shortElt pr y1) (shortElt pr y2) p.dcom.fcoms[l] p.comh[l] := by
      rw [List.getD_eq_getElem?_getD, hk, Option.getD_some]
    have e2 : p.comh.getD l [] = p.comh[l] := by simp [List.getD_eq_getElem?_getD, hl']
    rw [e2] at h1 ⊢
    rw [e1]
    unfold foldCm
    apply List.ext_getElem
    · simp [h1, h2, h3, h4]
    · intro i g1 g2
      have hi : i < κ := by simpa using g2
      simp [List.getD_eq_getElem?_getD, hi, h1, h2, h3, h4]

/-- **C67**, linearization. The R1CS, the public input and the commitment do not occur. -/
theorem C67_linearization_record (s s' : {l : List (Event F R) // Honest o l}) (p : ComR1CSProof R) (b : Bool)
    (h : p.verify (recT o) s = .ok (b, s')) :
    ∃ r point : List F, s'.1 = s.1 ++ linearizeLog p r point ∧ r.length = p.nvars ∧ point.length = p.nvars := by
  unfold ComR1CSProof.verify at h
  simp only at h
  obtain ⟨⟨sc, s2⟩, h1, h⟩ := bind_eq_ok.1 h
  simp only at h
  obtain ⟨_, -, h⟩ := bind_eq_ok.1 h
  split at h
  · simp only [Except.ok.injEq, Prod.mk.injEq] at h
    obtain ⟨k1, k2⟩ := C49_sumcheck_record o _ _ _ _ _ _ _ (unwrapRes_ok h1)
    refine ⟨((recT o).challenges p.nvars s).1, sc.point, ?_, challenges_length _ _ _, k1⟩
    rw [← h.2, recT_absorbSlice, k2, recT_challenges]
    simp [linearizeLog]
  · cases h

/-- **C67**, a step of the accumulation scheme: the linearizations in order, then the commitment transformation. The folded instance, its
decomposition, the R1CS instances and the accumulated instances do not occur. -/
theorem C67_step_record (pr : PlusRing F R d) (s s' : {l : List (Event F R) // Honest o l}) (M : List (SpMat R)) (params : PlusParams)
    (p : PlusProof F R (ComR1CSProof R)) (b : Bool)
    (h : plusVerify pr (recT o) (fun s (p : ComR1CSProof R) => p.verify (recT o) s) M params s p = .ok (b, s')) :
    ∃ (rps : List (List F × List F)) (cba : List (List F × F × F)) (rc point : List F) (bss : List (List UInt8)) (c0 c1 : List F)
      (rcA : F) (pA : List F) (rcB : F) (pB : List F), rps.length = p.lproof.length ∧
      s'.1 = s.1 ++ (List.zipWith (fun lp rp => linearizeLog lp rp.1 rp.2) p.lproof rps).flatten
        ++ cmLog d p.cmproof cba rc point bss c0 c1 rcA pA rcB pB := by
  have hall : ∀ (ps : List (ComR1CSProof R)) (s s1 : {l : List (Event F R) // Honest o l}),
      verifyAll (fun s (p : ComR1CSProof R) => p.verify (recT o) s) ps s = .ok s1 →
      ∃ rps : List (List F × List F), rps.length = ps.length ∧
        s1.1 = s.1 ++ (List.zipWith (fun lp rp => linearizeLog lp rp.1 rp.2) ps rps).flatten := by
    intro ps
    induction ps with
    | nil =>
      intro s s1 h
      simp only [verifyAll, Except.ok.injEq] at h
      exact ⟨[], rfl, by simp [h]⟩
    | cons p ps ih =>
      intro s s1 h
      simp only [verifyAll] at h
      obtain ⟨⟨b, s2⟩, h1, h2⟩ := bind_eq_ok.1 h
      obtain ⟨r, pt, g1, -⟩ := C67_linearization_record o s s2 p b h1
      obtain ⟨rps, g2, g3⟩ := ih s2 s1 h2
      exact ⟨(r, pt) :: rps, by simp [g2], by rw [g3, g1]; simp⟩
  rw [C66_verify_iff_partial] at h
  obtain ⟨-, s1, x, h1, h2, -⟩ := h
  obtain ⟨rps, g1, g2⟩ := hall _ _ _ h1
  obtain ⟨cba, rc, point, bss, c0, c1, rcA, pA, rcB, pB, -, -, -, g3, -⟩ := C67_cm_record o pr s1 s' M p.cmproof x h2
  exact ⟨rps, cba, rc, point, bss, c0, c1, rcA, pA, rcB, pB, g1, by rw [g3, g2]⟩

end Record

section Binding
variable {F R : Type} {d : Nat} [Field F] [CommRing R] [Algebra F R] [DecidableEq F] [DecidableEq R]

/-- **C68** (partial): what the record determines. Two accepted proofs of the commitment transformation of the same shape that leave the
transcript with the same record agree in everything that is absorbed: the messages of all sum-checks, the evaluations `e`, `b` of the set
check, `a` and `c` of the range check, `comh` and the evaluations at both points. Missing, because it fails: agreement of the
commitments (`C68_commitments_free`), and of the evaluations `b` and `v` of the range check. -/
theorem C68_binding_partial (o o' : Oracle F R) (pr : PlusRing F R d) (s t : {l : List (Event F R) // Honest o l})
    (s' t' : {l : List (Event F R) // Honest o' l}) (hst : s.1 = s'.1) (M : List (SpMat R)) (p p' : CmProof F R) (x x' : ComX R)
    (h : cmVerify pr (recT o) s M p = .ok (x, t)) (h' : cmVerify pr (recT o') s' M p' = .ok (x', t'))
    (hs : SameShape p p') (hr : AllRounds p) (heq : t.1 = t'.1) :
    p.dcom.out.sumcheck = p'.dcom.out.sumcheck ∧ p.dcom.out.e = p'.dcom.out.e ∧ p.dcom.out.b = p'.dcom.out.b ∧
      p.dcom.evals.map (fun ev => (ev.a, ev.c)) = p'.dcom.evals.map (fun ev => (ev.a, ev.c)) ∧ p.comh = p'.comh ∧
      p.proofs = p'.proofs ∧ p.evals = p'.evals := by
  obtain ⟨cba, rc, point, bss, c0, c1, rcA, pA, rcB, pB, _, _, _, a0, a1, a2, a3, a4, a5, -, a6, a7, a8, a9, -⟩ :=
    C67_cm_record o pr s t M p x h
  obtain ⟨cba', rc', point', bss', c0', c1', rcA', pA', rcB', pB', _, _, _, b0, b1, b2, b3, b4, b5, -, b6, b7, b8, b9, -⟩ :=
    C67_cm_record o' pr s' t' M p' x' h'
  rw [a0, b0, hst] at heq
  replace heq := List.append_cancel_left heq
  have he0 : (p.dcom.out.e.getD 0 []).length = (p'.dcom.out.e.getD 0 []).length := by
    have := congrArg (fun l => (l.getD 0 []).length) hs.e
    simp only [List.getD_eq_getElem?_getD, List.getElem?_map] at this ⊢
    cases h1 : p.dcom.out.e[0]? <;> cases h2 : p'.dcom.out.e[0]? <;> simp_all
  have hc0 : (p.comh.getD 0 []).length = (p'.comh.getD 0 []).length := by
    have := congrArg (fun l => l.getD 0 0) hs.comh
    simp only [List.getD_eq_getElem?_getD, List.getElem?_map] at this ⊢
    cases h1 : p.comh[0]? <;> cases h2 : p'.comh[0]? <;> simp_all
  unfold cmLog setLog at heq
  simp only [List.append_assoc] at heq
  obtain ⟨-, heq⟩ := claims_inj p.dcom.out.nvars _ _ _ _ (by rw [a1, b1, he0, hs.b]) a2 (by rw [hs.nvars]; exact b2) heq
  obtain ⟨-, heq⟩ := squeeze_append_inj (by rw [a3, b3, he0]) heq
  rw [← hs.nvars] at heq
  obtain ⟨e1, -, heq⟩ := sumcheck_inj _ _ _ _ _ _ _ _ hs.sumcheck (by rw [a4, hr.1]) (by rw [b4, hr.1, hs.nvars]) heq
  obtain ⟨e2, heq⟩ := sent_append_inj (by
    rw [List.length_flatten, List.length_flatten, List.map_flatten, List.map_flatten, hs.e]) heq
  obtain ⟨e3, heq⟩ := sent_append_inj hs.b heq
  obtain ⟨e4, heq⟩ := dcomEv_inj pr _ _ _ _ hs.evals heq
  obtain ⟨-, heq⟩ := bytes_inj _ _ _ _ (by rw [a5, b5, hs.k]) heq
  obtain ⟨e5, heq⟩ := sent_append_inj (by rw [List.length_flatten, List.length_flatten, hs.comh]) heq
  obtain ⟨-, heq⟩ := squeeze_append_inj (by rw [a6, b6, hc0]) heq
  obtain ⟨-, heq⟩ := squeeze_append_inj (by rw [a7, b7, hc0]) heq
  obtain ⟨e6, e7, heq⟩ := cmSum_inj _ _ _ _ _ _ _ _ _ _ _ hs.proofA (by rw [a8, hr.2.1]) (by rw [b8, hr.2.1, hs.nvars]) hs.evalsA heq
  have heq2 : cmSumLog p.dcom.out.nvars p.proofs.2 p.evals.2 rcB pB ++ []
      = cmSumLog p.dcom.out.nvars p'.proofs.2 p'.evals.2 rcB' pB' ++ [] := by simpa using heq
  obtain ⟨e8, e9, -⟩ := cmSum_inj _ _ _ _ _ _ _ _ _ _ _ hs.proofB (by rw [a9, hr.2.2]) (by rw [b9, hr.2.2, hs.nvars]) hs.evalsB heq2
  exact ⟨e1, flatten2_inj _ _ hs.e e2, e3, e4, List.eq_iff_flatten_eq.2 ⟨e5, hs.comh⟩, Prod.ext e6 e8, Prod.ext e7 e9⟩

end Binding

section Free
variable {F R σ : Type} {d : Nat} [Field F] [CommRing R] [Algebra F R] [DecidableEq F] [DecidableEq R]

/-- The proof with other commitments. -/
def withComs (p : CmProof F R) (fc : List (FComs R)) : CmProof F R := { p with dcom := { p.dcom with fcoms := fc } }

/-- **C68** is false: the commitments take no part in the verification and in no challenge. An accepted proof remains accepted, with the same
challenges, points, evaluations and final state, when the commitments are replaced by any others of the same number. The folded commitments
are the same linear function of the commitments, with the same challenges. -/
theorem C68_commitments_free (pr : PlusRing F R d) (T : Transcript F R σ) (s s' : σ) (M : List (SpMat R)) (p : CmProof F R) (x : ComX R)
    (h : cmVerify pr T s M p = .ok (x, s')) : ∃ s0 s1 s2 : R,
      x.cmG = List.zipWith (foldCm s0 s1 s2) p.dcom.fcoms p.comh ∧ ∀ fc : List (FComs R), fc.length = p.dcom.fcoms.length →
      cmVerify pr T s M (withComs p fc) = .ok (⟨List.zipWith (foldCm s0 s1 s2) fc p.comh, x.ro, x.vo⟩, s') := by
  unfold cmVerify at h
  simp only at h
  obtain ⟨t1, h1, h⟩ := bind_eq_ok.1 h
  obtain ⟨⟨ss, t2⟩, h2, h⟩ := bind_eq_ok.1 h
  obtain ⟨⟨sp, t3⟩, h3, h⟩ := bind_eq_ok.1 h
  obtain ⟨comh0, h4, h⟩ := bind_eq_ok.1 h
  obtain ⟨⟨ro0, t4⟩, h5, h⟩ := bind_eq_ok.1 h
  obtain ⟨⟨ro1, t5⟩, h6, h⟩ := bind_eq_ok.1 h
  obtain ⟨x', hx, h⟩ := bind_eq_ok.1 h
  simp only [Except.ok.injEq, Prod.mk.injEq] at h
  obtain ⟨rfl, rfl⟩ := h
  unfold CmProof.x at hx
  obtain ⟨s0, k0, hx⟩ := bind_eq_ok.1 hx
  obtain ⟨s1, k1, hx⟩ := bind_eq_ok.1 hx
  obtain ⟨s2, k2, hx⟩ := bind_eq_ok.1 hx
  obtain ⟨cmG, hc, hx⟩ := bind_eq_ok.1 hx
  obtain ⟨vo, hv, hx⟩ := bind_eq_ok.1 hx
  simp only [Except.ok.injEq] at hx
  subst hx
  have hlen : p.dcom.fcoms.length ≤ p.comh.length := by
    by_contra hn
    have h9 := mapRes_length hc
    rw [List.length_zipIdx] at h9
    rw [mapRes_eq_ok_iff] at hc
    have h10 := hc.get (i := p.comh.length) (by rw [List.length_zipIdx]; omega) (by rw [h9]; omega)
    simp only [List.get_eq_getElem, List.getElem_zipIdx, Nat.zero_add] at h10
    obtain ⟨_, h11, -⟩ := bind_eq_ok.1 h10
    simp [idx] at h11
  have key : ∀ fc : List (FComs R), fc.length ≤ p.comh.length → mapRes (fun q : FComs R × Nat => do
      let ch ← idx "comh[l]" p.comh q.2
      Except.ok (foldCm s0 s1 s2 q.1 ch)) fc.zipIdx = .ok (List.zipWith (foldCm s0 s1 s2) fc p.comh) := by
    intro fc hfc
    rw [mapRes_ok (g := fun q => foldCm s0 s1 s2 q.1 (p.comh.getD q.2 []))]
    · congr 1
      apply List.ext_getElem
      · simp [hfc]
      · intro i g1 g2
        have hi : i < fc.length := by simpa using g1
        simp [List.getD_eq_getElem?_getD, (show i < p.comh.length by omega)]
    · intro q hq
      have : q.2 < p.comh.length := by
        have := List.snd_lt_of_mem_zipIdx hq
        omega
      rw [idx_getD [] this]
      rfl
  refine ⟨s0, s1, s2, ?_, ?_⟩
  · have := key p.dcom.fcoms hlen
    rw [hc] at this
    simpa using this
  · intro fc hfc
    have hd : dcomVerify pr T s (withComs p fc).dcom = dcomVerify pr T s p.dcom := rfl
    unfold cmVerify
    simp only
    rw [hd, h1, bind_ok']
    have e1 : (withComs p fc).dcom.dparams = p.dcom.dparams := rfl
    rw [h2, bind_ok']
    rw [e1]
    simp only
    rw [h3, bind_ok']
    have e2 : (withComs p fc).comh = p.comh := rfl
    simp only [e2]
    rw [h4, bind_ok']
    have e3 : ∀ (s : σ) us tc0 tc1 tz0 tz1 pf (ev : List (InstanceEvals R)), cmVerifySumcheck T s (withComs p fc).dcom p.evals.1.length M.length us tc0 tc1 tz0 tz1 pf ev
        = cmVerifySumcheck T s p.dcom p.evals.1.length M.length us tc0 tc1 tz0 tz1 pf ev := fun _ _ _ _ _ _ _ _ => rfl
    have e4 : (withComs p fc).evals = p.evals := rfl
    have e5 : (withComs p fc).proofs = p.proofs := rfl
    have e6 : (withComs p fc).dcom.out = p.dcom.out := rfl
    simp only [e4, e5, e6, e3]
    rw [h5, bind_ok']
    simp only
    rw [h6, bind_ok']
    simp only
    have e7 : (withComs p fc).x ss (ro0.zip ro1) = .ok ⟨List.zipWith (foldCm s0 s1 s2) fc p.comh, ro0.zip ro1, vo⟩ := by
      unfold CmProof.x
      rw [k0, bind_ok', k1, bind_ok', k2, bind_ok']
      have e8 : (withComs p fc).dcom.fcoms = fc := rfl
      rw [e8, e2, key fc (by omega), bind_ok', hfc, e4, hv, bind_ok']
    rw [e7, bind_ok']

theorem foldCm_getD (s0 s1 s2 : R) (fc : FComs R) (ch : List R) {κ : Nat} (h1 : fc.CMf.length = κ) (h2 : fc.cmMtau.length = κ)
    (h3 : fc.cmF.length = κ) (h4 : ch.length = κ) (i : Nat) :
    (foldCm s0 s1 s2 fc ch).getD i 0 = s0 * fc.CMf.getD i 0 + s1 * fc.cmMtau.getD i 0 + s2 * fc.cmF.getD i 0 + ch.getD i 0 := by
  by_cases hi : i < κ
  · unfold foldCm
    simp [List.getD_eq_getElem?_getD, hi, h1, h2, h3, h4]
  · rw [getD_out fc.CMf (by rw [h1]; omega), getD_out fc.cmMtau (by rw [h2]; omega), getD_out fc.cmF (by rw [h3]; omega),
      getD_out ch (by rw [h4]; omega), getD_out (foldCm s0 s1 s2 fc ch) (by unfold foldCm; simp [h1, h2, h3, h4]; omega)]
    ring

/-- **C71** is false: errors in the commitments of two instances cancel. If the commitment `cm_f` of the first instance is changed by `δ` and
that of the second by `-δ`, the proof is accepted as before, with the same points and evaluations, and the sum of the folded commitments, which is
the commitment of the instance folded by `Mlin`, is the same. -/
theorem C71_errors_cancel (pr : PlusRing F R d) (T : Transcript F R σ) (s s' : σ) (M : List (SpMat R)) (p : CmProof F R) (x : ComX R)
    (h : cmVerify pr T s M p = .ok (x, s')) (f0 f1 : FComs R) (fs : List (FComs R)) (hf : p.dcom.fcoms = f0 :: f1 :: fs)
    (ch0 ch1 : List R) (chs : List (List R)) (hh : p.comh = ch0 :: ch1 :: chs) (κ : Nat) (δ : List R) (hδ : δ.length = κ)
    (a0 : f0.CMf.length = κ ∧ f0.cmMtau.length = κ ∧ f0.cmF.length = κ ∧ ch0.length = κ)
    (a1 : f1.CMf.length = κ ∧ f1.cmMtau.length = κ ∧ f1.cmF.length = κ ∧ ch1.length = κ) :
    ∃ x', cmVerify pr T s M (withComs p ({ f0 with cmF := List.zipWith (· + ·) f0.cmF δ }
        :: { f1 with cmF := List.zipWith (· - ·) f1.cmF δ } :: fs)) = .ok (x', s') ∧
      x'.ro = x.ro ∧ x'.vo = x.vo ∧ ∀ i, (x'.cmG.map fun cm => cm.getD i 0).sum = (x.cmG.map fun cm => cm.getD i 0).sum := by
  obtain ⟨s0, s1, s2, h1, h2⟩ := C68_commitments_free pr T s s' M p x h
  refine ⟨_, h2 _ (by rw [hf]; simp), rfl, rfl, ?_⟩
  intro i
  rw [h1, hf, hh]
  simp only [List.zipWith_cons_cons, List.map_cons, List.sum_cons]
  rw [foldCm_getD s0 s1 s2 f0 ch0 a0.1 a0.2.1 a0.2.2.1 a0.2.2.2, foldCm_getD s0 s1 s2 f1 ch1 a1.1 a1.2.1 a1.2.2.1 a1.2.2.2,
    foldCm_getD (κ := κ) s0 s1 s2 ⟨List.zipWith (· + ·) f0.cmF δ, f0.CMf, f0.cmMtau⟩ ch0 a0.1 a0.2.1 (by simp [a0.2.2.1, hδ]) a0.2.2.2,
    foldCm_getD (κ := κ) s0 s1 s2 ⟨List.zipWith (· - ·) f1.cmF δ, f1.CMf, f1.cmMtau⟩ ch1 a1.1 a1.2.1 (by simp [a1.2.2.1, hδ]) a1.2.2.2]
  have e1 : (List.zipWith (· + ·) f0.cmF δ).getD i 0 = f0.cmF.getD i 0 + δ.getD i 0 := by
    by_cases hi : i < κ
    · simp [List.getD_eq_getElem?_getD, hi, a0.2.2.1, hδ]
    · rw [getD_out (List.zipWith _ _ _) (by simp [a0.2.2.1, hδ]; omega), getD_out f0.cmF (by rw [a0.2.2.1]; omega), getD_out δ (by rw [hδ]; omega)]
      ring
  have e2 : (List.zipWith (· - ·) f1.cmF δ).getD i 0 = f1.cmF.getD i 0 - δ.getD i 0 := by
    by_cases hi : i < κ
    · simp [List.getD_eq_getElem?_getD, hi, a1.2.2.1, hδ]
    · rw [getD_out (List.zipWith _ _ _) (by simp [a1.2.2.1, hδ]; omega), getD_out f1.cmF (by rw [a1.2.2.1]; omega), getD_out δ (by rw [hδ]; omega)]
      ring
  simp only
  rw [e1, e2]
  ring

/-- **C71** (partial): an error in the commitment of a single instance is not hidden. If only the commitment `cm_f` of one instance changes, by
`δ`, its folded commitment changes by `s2 * δ`, where `s2` is the third folding challenge, and the sum of the folded commitments is the same
exactly if `s2 * δ = 0`. Missing, because it fails: errors in several commitments. -/
theorem C71_single_partial (pr : PlusRing F R d) (T : Transcript F R σ) (s s' : σ) (M : List (SpMat R)) (p : CmProof F R) (x : ComX R)
    (h : cmVerify pr T s M p = .ok (x, s')) (pre post : List (FComs R)) (f0 : FComs R) (hf : p.dcom.fcoms = pre ++ f0 :: post)
    (κ : Nat) (δ : List R) (hδ : δ.length = κ) (a0 : f0.CMf.length = κ ∧ f0.cmMtau.length = κ ∧ f0.cmF.length = κ)
    (ha : (p.comh.getD pre.length []).length = κ) :
    ∃ s2 x', cmVerify pr T s M (withComs p (pre ++ { f0 with cmF := List.zipWith (· + ·) f0.cmF δ } :: post)) = .ok (x', s') ∧
      ∀ i, (x'.cmG.map fun cm => cm.getD i 0).sum = (x.cmG.map fun cm => cm.getD i 0).sum ↔ s2 * δ.getD i 0 = 0 := by
  obtain ⟨s0, s1, s2, h1, h2⟩ := C68_commitments_free pr T s s' M p x h
  have hlen : p.dcom.fcoms.length ≤ p.comh.length := by
    have h3 : x.cmG.length = p.dcom.fcoms.length := by
      unfold cmVerify at h
      simp only at h
      obtain ⟨_, -, h⟩ := bind_eq_ok.1 h
      obtain ⟨_, -, h⟩ := bind_eq_ok.1 h
      obtain ⟨_, -, h⟩ := bind_eq_ok.1 h
      obtain ⟨_, -, h⟩ := bind_eq_ok.1 h
      obtain ⟨_, -, h⟩ := bind_eq_ok.1 h
      obtain ⟨_, -, h⟩ := bind_eq_ok.1 h
      obtain ⟨x', hx, h⟩ := bind_eq_ok.1 h
      simp only [Except.ok.injEq, Prod.mk.injEq] at h
      obtain ⟨rfl, -⟩ := h
      obtain ⟨_, _, _, -, -, -, -, h4, -⟩ := cmX_ok hx
      exact h4
    rw [h1, List.length_zipWith] at h3
    omega
  refine ⟨s2, _, h2 _ (by rw [hf]; simp), ?_⟩
  intro i
  have hpl : pre.length < p.comh.length := by
    rw [hf] at hlen
    simp at hlen
    omega
  have hsplit : p.comh = p.comh.take pre.length ++ p.comh.getD pre.length [] :: p.comh.drop (pre.length + 1) := by
    rw [List.getD_eq_getElem?_getD, List.getElem?_eq_getElem hpl, Option.getD_some, ← List.drop_eq_getElem_cons hpl, List.take_append_drop]
  have hz : ∀ g : FComs R, List.zipWith (foldCm s0 s1 s2) (pre ++ g :: post) p.comh
      = List.zipWith (foldCm s0 s1 s2) pre (p.comh.take pre.length) ++ foldCm s0 s1 s2 g (p.comh.getD pre.length [])
        :: List.zipWith (foldCm s0 s1 s2) post (p.comh.drop (pre.length + 1)) := by
    intro g
    conv_lhs => rw [hsplit]
    rw [List.zipWith_append (by simp; omega), List.zipWith_cons_cons]
  rw [h1, hf, hz, hz]
  simp only [List.map_append, List.map_cons, List.sum_append, List.sum_cons]
  rw [foldCm_getD s0 s1 s2 f0 _ a0.1 a0.2.1 a0.2.2 ha,
    foldCm_getD (κ := κ) s0 s1 s2 ⟨List.zipWith (· + ·) f0.cmF δ, f0.CMf, f0.cmMtau⟩ _ a0.1 a0.2.1 (by simp [a0.2.2, hδ]) ha]
  have e1 : (List.zipWith (· + ·) f0.cmF δ).getD i 0 = f0.cmF.getD i 0 + δ.getD i 0 := by
    by_cases hi : i < κ
    · simp [List.getD_eq_getElem?_getD, hi, a0.2.2, hδ]
    · rw [getD_out (List.zipWith _ _ _) (by simp [a0.2.2, hδ]; omega), getD_out f0.cmF (by rw [a0.2.2]; omega), getD_out δ (by rw [hδ]; omega)]
      ring
  simp only
  rw [e1]
  constructor
  · intro h
    linear_combination h
  · intro h
    linear_combination h

end Free

section Examples

/-- An oracle whose answers depend on the length of the record. -/
def lenOracle : Oracle (ZMod 17) Example.R17 := ⟨fun l => (l.length : ZMod 17), fun l n => List.replicate n (UInt8.ofNat l.length)⟩

theorem lenOracle_bytes : BytesOK (recT lenOracle) := by
  intro s n
  simp [recT, lenOracle]

/-- The empty record. -/
def emptyRec : {l : List (Event (ZMod 17) Example.R17) // Honest lenOracle l} := ⟨[], by simp [Honest], by simp [Honest]⟩

/-- The honest proof for two witnesses. -/
theorem honest256 {σ : Type} (T : Transcript (ZMod 17) Example.R17 σ) (hT : BytesOK T) (s : σ) : ∃ proof x s',
    cmVerify Example.plus17 T s [id256, id256, id256] proof = .ok (x, s') ∧
    proof.dcom.fcoms.map (·.cmF) = [commit A256 (long256 2), commit A256 (long256 1)] := by
  obtain ⟨lb, proof, s', x, gs, -, -, h3, -, -, -, -, -, h4⟩ := C63_mlin_partial Example.plus17 T s (mlin256 T hT)
    [⟨long256 2, ⟨[], [], []⟩⟩, ⟨long256 1, ⟨[], [], []⟩⟩] (by
    intro l hl
    simp only [List.mem_cons, List.not_mem_nil, or_false] at hl
    rcases hl with rfl | rfl
    · exact wit256 2 (by decide)
    · exact wit256 1 (by decide)) (by change 2 ≤ 2 * 2; decide)
  exact ⟨proof, x, s', h3, by simpa using h4⟩

/-- The record of the honest proof for two witnesses starts with the challenges of the claims of the set check. -/
example : ∃ proof x s' cba rc point bss c0 c1 rcA pA rcB pB,
    cmVerify Example.plus17 (recT lenOracle) emptyRec [id256, id256, id256] proof = .ok (x, s') ∧
    s'.1 = cmLog 4 proof cba rc point bss c0 c1 rcA pA rcB pB := by
  obtain ⟨proof, x, s', h1, -⟩ := honest256 (recT lenOracle) lenOracle_bytes emptyRec
  obtain ⟨cba, rc, point, bss, c0, c1, rcA, pA, rcB, pB, _, _, _, h2, -⟩ := C67_cm_record lenOracle _ _ _ _ _ _ h1
  exact ⟨proof, x, s', cba, rc, point, bss, c0, c1, rcA, pA, rcB, pB, h1, by simpa [emptyRec] using h2⟩

/-- The set check and the range check inside the honest proof for two witnesses. -/
example : ∃ (proof : CmProof (ZMod 17) Example.R17) (s1 s2 : {l : List (Event (ZMod 17) Example.R17) // Honest lenOracle l})
    (cba : List (List (ZMod 17) × ZMod 17 × ZMod 17)) (rc point : List (ZMod 17)) (cba' : List (List (ZMod 17) × ZMod 17 × ZMod 17))
    (rc' point' : List (ZMod 17)),
    setVerify Example.plus17 (recT lenOracle) emptyRec proof.dcom.out = .ok s1 ∧
    dcomVerify Example.plus17 (recT lenOracle) emptyRec proof.dcom = .ok s2 ∧
    proof.dcom.fcoms.map (·.cmF) = [commit A256 (long256 2), commit A256 (long256 1)] ∧
    s1.1 = setLog proof.dcom.out cba rc point ∧ s2.1 = setLog proof.dcom.out cba' rc' point' ++ dcomEv proof.dcom.evals := by
  obtain ⟨proof, x, s', h1, h0⟩ := honest256 (recT lenOracle) lenOracle_bytes emptyRec
  unfold cmVerify at h1
  simp only at h1
  obtain ⟨s2, h2, -⟩ := bind_eq_ok.1 h1
  have h2 := unwrapRes_ok h2
  have h3 := h2
  unfold dcomVerify at h3
  obtain ⟨s1, h3, -⟩ := bind_eq_ok.1 h3
  have h3 := unwrapRes_ok h3
  obtain ⟨cba, rc, point, h4, -⟩ := C67_set_record lenOracle _ _ _ _ h3
  obtain ⟨cba', rc', point', h5, -⟩ := C67_range_record lenOracle _ _ _ _ h2
  exact ⟨proof, s1, s2, cba, rc, point, cba', rc', point', h3, h2, h0, by simpa [emptyRec] using h4, by simpa [emptyRec] using h5⟩

/-- A linearization in three variables and a step with it. -/
example : ∃ p s' r point, ComR1CSProof.verify (recT lenOracle) emptyRec p = .ok (true, s') ∧ p.v = 5 ∧
    s'.1 = linearizeLog p r point ∧ r.length = 3 := by
  obtain ⟨p, s', h1, h2, -, h3⟩ := zero_linearization (R := Example.R17) (recT lenOracle) emptyRec 3 (by decide) charGt17 [] 5
  obtain ⟨r, point, h4, h5, -⟩ := C67_linearization_record lenOracle _ _ _ _ h1
  exact ⟨p, s', r, point, h1, h3, by simpa [emptyRec] using h4, by rw [h5, h2]⟩

example : ∃ p s', ∃ rps : List (List (ZMod 17) × List (ZMod 17)), ∃ cba rc point bss c0 c1 rcA pA rcB pB,
    plusVerify Example.plus17 (recT lenOracle) (fun s p => ComR1CSProof.verify (recT lenOracle) s p) [id256] params256 emptyRec p = .ok (true, s') ∧
    p.lproof.map (·.nvars) = [3, 2] ∧
    s'.1 = (List.zipWith (fun lp rp => linearizeLog lp rp.1 rp.2) p.lproof rps).flatten
      ++ cmLog 4 p.cmproof cba rc point bss c0 c1 rcA pA rcB pB := by
  obtain ⟨p, s', h1, -, h2, -⟩ := C66_any_instance_accepted Example.plus17 (recT lenOracle) emptyRec [id256] params256 (by decide) lenOracle_bytes
    charGt17 ⟨[5], [(1, 1)], [(3, 3)]⟩ [3, 2] (by decide) [⟨[1], [2], [3]⟩] (by simp) 1 (by simp)
  obtain ⟨rps, cba, rc, point, bss, c0, c1, rcA, pA, rcB, pB, -, h3⟩ := C67_step_record lenOracle _ _ _ _ _ _ _ h1
  exact ⟨p, s', rps, cba, rc, point, bss, c0, c1, rcA, pA, rcB, pB, h1, h2, by simpa [emptyRec] using h3⟩

/-- Two proofs with the same record, for different commitments: all absorbed parts agree. -/
example : ∃ p p' x x' s', cmVerify Example.plus17 (recT lenOracle) emptyRec [id256] p = .ok (x, s') ∧
    cmVerify Example.plus17 (recT lenOracle) emptyRec [id256] p' = .ok (x', s') ∧ p.dcom.fcoms ≠ p'.dcom.fcoms ∧ SameShape p p' := by
  obtain ⟨p, x, s', h1, h2, -⟩ := C65_no_instances Example.plus17 (recT lenOracle) emptyRec [id256] (by decide) lenOracle_bytes charGt17
    [⟨[1], [2], [3]⟩] (by simp) 1 (by simp) (fun _ => [5]) (by simp)
  obtain ⟨_, _, _, -, h3⟩ := C68_commitments_free _ _ _ _ _ _ _ h1
  refine ⟨p, _, x, _, s', h1, h3 [⟨[4], [2], [3]⟩] (by rw [h2]; rfl), ?_, ⟨rfl, rfl, rfl, rfl, rfl, rfl, rfl, rfl, rfl, rfl, rfl⟩⟩
  rw [h2]
  change [(⟨[1], [2], [3]⟩ : FComs Example.R17)] ≠ [⟨[4], [2], [3]⟩]
  decide

/-- The honest proof for two witnesses is accepted with wrong commitments, `7` and `8` instead of the commitments of the witnesses. -/
example {σ : Type} (T : Transcript (ZMod 17) Example.R17 σ) (hT : BytesOK T) (s : σ) : ∃ p x x' s',
    cmVerify Example.plus17 T s [id256, id256, id256] p = .ok (x, s') ∧
    p.dcom.fcoms.map (·.cmF) = [commit A256 (long256 2), commit A256 (long256 1)] ∧
    cmVerify Example.plus17 T s [id256, id256, id256] (withComs p [⟨[7], [7], [7]⟩, ⟨[8], [8], [8]⟩]) = .ok (x', s') := by
  obtain ⟨p, x, s', h1, h2⟩ := honest256 T hT s
  obtain ⟨_, _, _, -, h3⟩ := C68_commitments_free _ _ _ _ _ _ _ h1
  refine ⟨p, x, _, s', h1, h2, h3 _ ?_⟩
  have := congrArg List.length h2
  simpa using this.symm

/-- The commitments `3` and `4` replaced by `8` and `-1`: the sum of the folded commitments remains `10`. -/
example {σ : Type} (T : Transcript (ZMod 17) Example.R17 σ) (hT : BytesOK T) (s : σ) : ∃ p x s',
    cmVerify Example.plus17 T s [id256] p = .ok (x, s') ∧ p.dcom.fcoms.map (·.cmF) = [[8], [-1]] ∧
    (x.cmG.map fun cm => cm.getD 0 0).sum = 10 := by
  obtain ⟨p, x, s', h1, h2, -, h3, h4⟩ := C65_no_instances Example.plus17 T s [id256] (by decide) hT charGt17
    [⟨[3], [2], [1]⟩, ⟨[4], [2], [1]⟩] (by simp) 1 (by simp) (fun _ => [5]) (by simp)
  obtain ⟨ch0, ch1, rfl' | hh⟩ : ∃ ch0 ch1, False ∨ p.comh = [ch0, ch1] := by
    match hp : p.comh, congrArg List.length h4 with
    | [a, b], _ => exact ⟨a, b, .inr rfl⟩
  · exact rfl'.elim
  rw [hh] at h4
  simp only [List.map_cons, List.map_nil, List.cons.injEq, and_true] at h4
  obtain ⟨x', g1, -, -, g2⟩ := C71_errors_cancel Example.plus17 T s s' [id256] p x h1 _ _ _ h2 ch0 ch1 [] hh 1 [5] rfl
    ⟨rfl, rfl, rfl, h4.1⟩ ⟨rfl, rfl, rfl, h4.2⟩
  refine ⟨_, x', s', g1, ?_, ?_⟩
  · change [[(3 + 5 : Example.R17)], [4 - 5]] = [[8], [-1]]
    decide
  · rw [g2 0, h3]
    change (5 : Example.R17) + (5 + 0) = 10
    decide

/-- With the commitment of the second instance off by `5` the sum of the folded commitments changes, unless the challenge times `5` is zero. -/
example {σ : Type} (T : Transcript (ZMod 17) Example.R17 σ) (hT : BytesOK T) (s : σ) : ∃ p x s', ∃ s2 : Example.R17, ∃ x' s'',
    cmVerify Example.plus17 T s [id256] p = .ok (x, s') ∧ cmVerify Example.plus17 T s [id256] (withComs p [⟨[3], [2], [1]⟩, ⟨[4 + 5], [2], [1]⟩]) = .ok (x', s'') ∧
    ((x'.cmG.map fun cm => cm.getD 0 0).sum = (x.cmG.map fun cm => cm.getD 0 0).sum ↔ s2 * 5 = 0) := by
  obtain ⟨p, x, s', h1, h2, -, h3, h4⟩ := C65_no_instances Example.plus17 T s [id256] (by decide) hT charGt17
    [⟨[3], [2], [1]⟩, ⟨[4], [2], [1]⟩] (by simp) 1 (by simp) (fun _ => [5]) (by simp)
  obtain ⟨s2, x', g1, g2⟩ := C71_single_partial Example.plus17 T s s' [id256] p x h1 [⟨[3], [2], [1]⟩] [] ⟨[4], [2], [1]⟩ h2 1 [5] rfl
    ⟨rfl, rfl, rfl⟩ (by
      have := congrArg (fun l => l.getD 1 0) h4
      simp only [List.getD_eq_getElem?_getD, List.getElem?_map] at this
      cases h : p.comh[1]? with
      | none => simp [h] at this
      | some a => simpa [h, List.getD_eq_getElem?_getD] using this)
  exact ⟨p, x, s', s2, x', s', h1, g1, g2 0⟩

end Examples

end Verif.Props
