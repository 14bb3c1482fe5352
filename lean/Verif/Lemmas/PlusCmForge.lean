import Verif.Lemmas.PlusCmTail

/-!
# A commitment transformation with wrong commitments whose errors cancel
-/

set_option linter.unusedSectionVars false
set_option linter.unusedSimpArgs false

namespace Verif.Plus

open Finset Verif Verif.Spec

variable {F R σ : Type} {d : Nat}
variable [Field F] [CommRing R] [Algebra F R] [DecidableEq F] [DecidableEq R]

theorem dot_add (t a b : List R) (h : a.length = b.length) : dot t (List.zipWith (· + ·) a b) = dot t a + dot t b := by
  unfold dot
  induction t generalizing a b with
  | nil => simp
  | cons x t ih =>
    cases a with
    | nil => cases b with
      | nil => simp
      | cons y b => simp at h
    | cons y a => cases b with
      | nil => simp at h
      | cons z b =>
        have := ih a b (by simpa using h)
        simp only [List.zipWith_cons_cons, List.sum_cons, this]
        ring

theorem sum_dot_add (t : List R) {κ : Nat} (C E : List (List R)) (hl : C.length = E.length) (hC : ∀ c ∈ C, c.length = κ)
    (hE : ∀ e ∈ E, e.length = κ) :
    ((List.zipWith (List.zipWith (· + ·)) C E).map (dot t)).sum = (C.map (dot t)).sum + (E.map (dot t)).sum := by
  induction C generalizing E with
  | nil => cases E with
    | nil => simp
    | cons e E => simp at hl
  | cons c C ih => cases E with
    | nil => simp at hl
    | cons e E =>
      have := ih E (by simpa using hl) (fun x hx => hC x (by simp [hx])) (fun x hx => hE x (by simp [hx]))
      simp only [List.zipWith_cons_cons, List.map_cons, List.sum_cons, this,
        dot_add t c e (by rw [hC c (by simp), hE e (by simp)])]
      ring

theorem sum_dot_zero (t : List R) {κ : Nat} (E : List (List R)) (hE : ∀ e ∈ E, e.length = κ)
    (hs : ∀ i < κ, (E.map fun e => e.getD i 0).sum = 0) : (E.map (dot t)).sum = 0 := by
  have key : (E.map (dot t)).sum = ∑ i ∈ range κ, t.getD i 0 * (E.map fun e => e.getD i 0).sum := by
    clear hs
    induction E with
    | nil => simp
    | cons e E ih =>
      simp only [List.map_cons, List.sum_cons, mul_add, sum_add_distrib]
      rw [ih fun x hx => hE x (by simp [hx]), dot_eq_sum t e κ (Or.inr (hE e (by simp)).le)]
  rw [key]
  exact sum_eq_zero fun i hi => by rw [hs i (mem_range.1 hi), mul_zero]

theorem foldCm_add (s0 s1 s2 : R) (fc : FComs R) (c e : List R) :
    foldCm s0 s1 s2 fc (List.zipWith (· + ·) c e) = List.zipWith (· + ·) (foldCm s0 s1 s2 fc c) e := by
  unfold foldCm
  apply List.ext_getElem
  · simp
  · intro i h1 h2
    simp [add_assoc]

theorem cmTail_forge (pr : PlusRing F R d) (T : Transcript F R σ) (s : σ) {A : Mat R} {n : Nat} {rg : Rg F R} {M : List (SpMat R)} {dcom : Dcom F R}
    (hi : CmInput pr T A n rg M) (hd : DcomOK pr rg.nvars M rg.instances dcom) (hdp : dcom.dparams = rg.dparams)
    (E : List (List R)) (hEl : E.length = rg.instances.length) (hEr : ∀ e ∈ E, e.length = A.nrows)
    (hEs : ∀ i < A.nrows, (E.map fun e => e.getD i 0).sum = 0) :
    ∃ proof x s', proof.dcom = dcom ∧ (∀ st, dcomVerify pr T st dcom = .ok s → cmVerify pr T st M proof = .ok (x, s')) ∧
      ∃ s0 s1 s2 sp, ∃ g : List (List R), g = (rg.instances.map fun inst => (List.range n).map (foldedEntry d s0 s1 s2 sp inst)) ∧
        x.cmG = List.zipWith (List.zipWith (· + ·)) (g.map (commit A)) E ∧ x.vo = g.map (evalPairs M x.ro) := by
  obtain ⟨hdeg, hT, hnv, hn, hchar, hk, hl, hne, hsh, hcom, hcmF, hA, hM, hpow, hsize⟩ := hi
  obtain ⟨ss, t1, hss, hssl, -⟩ := shortChallenges_ok pr T hdeg hT 3 s
  obtain ⟨sp, t2, hsp, hspl, hspr, -⟩ := sPrime_ok pr T hdeg hT rg.dparams.k t1
  have hL : 0 < rg.instances.length := List.length_pos_iff.2 hne
  set comhF : RgInstance F R → List R := fun inst => (List.range A.nrows).map (combFn d inst.comMf sp) with hcomhF
  set comhL : List (List R) := List.zipWith (List.zipWith (· + ·)) (rg.instances.map comhF) E with hcomhL
  have hLl : comhL.length = rg.instances.length := by simp [hcomhL, hEl]
  have hLg : ∀ l (h : l < rg.instances.length), comhL.getD l [] = List.zipWith (· + ·) (comhF rg.instances[l]) (E[l]'(by omega)) := by
    intro l hl'
    have h2 : l < E.length := by omega
    simp [hcomhL, List.getD_eq_getElem?_getD, hl', h2]
  have hcl : (comhL.getD 0 []).length = A.nrows := by
    rw [hLg 0 hL, List.length_zipWith, hEr _ (List.getElem_mem _)]
    simp [hcomhF]
  have hcomh0 : ∀ site, idx site comhL 0 = .ok (comhL.getD 0 []) := fun site => idx_getD [] (by omega)
  -- the challenges
  rcases hch0 : T.challenges (Nat.clog 2 A.nrows) (absorbComh T t2 comhL) with ⟨c0, t3⟩
  have hc0l : c0.length = Nat.clog 2 A.nrows := by
    have := challenges_length T (Nat.clog 2 A.nrows) (absorbComh T t2 comhL)
    rw [hch0] at this
    exact this
  rcases hch1 : T.challenges (Nat.clog 2 A.nrows) t3 with ⟨c1, t4⟩
  have hc1l : c1.length = Nat.clog 2 A.nrows := by
    have := challenges_length T (Nat.clog 2 A.nrows) t3
    rw [hch1] at this
    exact this
  have hfl : sp.flatten.length = rg.dparams.k * d := by rw [flatten_length sp hspr, hspl]
  have n1 : sp.flatten ≠ [] := by
    rw [← List.length_pos_iff, hfl]
    exact Nat.mul_pos hk (by omega)
  have hdl : (dPowers (F := F) R d rg.dparams.l).length = rg.dparams.l := by simp [dPowers]
  have n2 : dPowers (F := F) R d rg.dparams.l ≠ [] := by rw [← List.length_pos_iff, hdl]; omega
  have hxl : (xPowers pr).length = d := by simp [xPowers]
  have n3 : xPowers pr ≠ [] := by rw [← List.length_pos_iff, hxl]; omega
  have hlen : ∀ c : List F, c.length = Nat.clog 2 A.nrows →
      (calculateTz (c.map (algebraMap F R)) sp.flatten (dPowers (F := F) R d rg.dparams.l) (xPowers pr)).length ≤ n := by
    intro c hc
    rw [calculateTz_length _ _ _ _ n1 n2 n3, hfl, hdl, hxl, List.length_map, hc, ← mul_assoc]
    exact hsize
  have htz : ∀ c : List F, c.length = Nat.clog 2 A.nrows →
      (comhL.map fun com => dot (tensor (c.map (algebraMap F R))) com).sum
      = (rg.instances.map fun inst => inner (2 ^ rg.nvars) (inst.tau.map (algebraMap F R))
        (calculateTz (c.map (algebraMap F R)) sp.flatten (dPowers (F := F) R d rg.dparams.l) (xPowers pr))).sum := by
    intro c hc
    refine (sum_dot_add (κ := A.nrows) _ _ _ (by rw [List.length_map, hEl]) ?_ hEr).trans ?_
    · intro x hx
      obtain ⟨inst, -, rfl⟩ := List.mem_map.1 hx
      simp [hcomhF]
    rw [sum_dot_zero _ E hEr hEs, add_zero, List.map_map]
    congr 1
    apply List.map_congr_left
    intro inst hin
    rw [inner_tz pr (hcom inst hin) (c.map (algebraMap F R)) sp hk hl (by omega) hspl hspr _ (by
      rw [List.length_map, hc]; exact hsize.trans hn)]
    rfl
  obtain ⟨proofA, roA, t5, hroA, -, hA2⟩ := cm_sumcheck_sum_ok pr T t4 hd hnv hn hchar hM hpow hsh sp hspl hspr
    (calculateTz (c0.map (algebraMap F R)) sp.flatten (dPowers (F := F) R d rg.dparams.l) (xPowers pr))
    (calculateTz (c1.map (algebraMap F R)) sp.flatten (dPowers (F := F) R d rg.dparams.l) (xPowers pr))
    (hlen c0 hc0l) (hlen c1 hc1l) _ _ (by rw [List.length_map]; exact hLl) (by rw [List.length_map]; exact hLl) (htz c0 hc0l) (htz c1 hc1l)
  obtain ⟨proofB, roB, t6, hroB, -, hB2⟩ := cm_sumcheck_sum_ok pr T t5 hd hnv hn hchar hM hpow hsh sp hspl hspr
    (calculateTz (c0.map (algebraMap F R)) sp.flatten (dPowers (F := F) R d rg.dparams.l) (xPowers pr))
    (calculateTz (c1.map (algebraMap F R)) sp.flatten (dPowers (F := F) R d rg.dparams.l) (xPowers pr))
    (hlen c0 hc0l) (hlen c1 hc1l) _ _ (by rw [List.length_map]; exact hLl) (by rw [List.length_map]; exact hLl) (htz c0 hc0l) (htz c1 hc1l)
  obtain ⟨s0, s1, s2, rfl⟩ : ∃ s0 s1 s2, ss = [s0, s1, s2] := by
    match ss, hssl with
    | [a, b, c], _ => exact ⟨a, b, c, rfl⟩
  set gF : RgInstance F R → List R := fun inst => (List.range n).map (foldedEntry d s0 s1 s2 sp inst) with hgF
  set evA := rg.instances.map (fun inst => evalsQ M roA (quadOf d rg.nvars sp inst)) with hevA
  set evB := rg.instances.map (fun inst => evalsQ M roB (quadOf d rg.nvars sp inst)) with hevB
  -- the statement
  have hx : (⟨dcom, comhL, (proofA, proofB), (evA, evB)⟩ : CmProof F R).x [s0, s1, s2] (roA.zip roB)
      = .ok ⟨List.zipWith (List.zipWith (· + ·)) ((rg.instances.map gF).map (commit A)) E, roA.zip roB, (rg.instances.map gF).map (evalPairs M (roA.zip roB))⟩ := by
    unfold CmProof.x
    change (do
      let cmG ← mapRes (fun q : FComs R × Nat => do
        let ch ← idx "comh[l]" comhL q.2
        .ok (foldCm s0 s1 s2 q.1 ch)) dcom.fcoms.zipIdx
      let vo ← mapRes (fun l => do
        let e0 ← idx "evals.0[l]" evA l
        let e1 ← idx "evals.1[l]" evB l
        .ok ((e0.zip e1).map fun q => (foldQuad s0 s1 s2 q.1, foldQuad s0 s1 s2 q.2)))
        (List.range dcom.fcoms.length)
      .ok (⟨cmG, roA.zip roB, vo⟩ : ComX R) : Res (ComX R)) = _
    have hfl' : dcom.fcoms.length = rg.instances.length := by rw [hd.fcoms, List.length_map]
    rw [mapRes_zipIdx _ _ (fun l => List.zipWith (· + ·) ((rg.instances.map (fun inst => commit A (gF inst))).getD l []) (E.getD l [])) (by
      intro l hll
      have hl' : l < rg.instances.length := by rw [← hfl']; exact hll
      have hin := List.getElem_mem hl'
      simp only
      rw [idx_getD [] (by omega), bind_ok']
      have e0 : E.getD l [] = E[l]'(by omega) := by
        have : l < E.length := by omega
        simp [List.getD_eq_getElem?_getD, this]
      have e1 := hLg l hl'
      have e2 : (rg.instances.map (fun inst => commit A (gF inst))).getD l [] = commit A (gF rg.instances[l]) := by
        simp [List.getD_eq_getElem?_getD, hl']
      have e3 : dcom.fcoms[l] = rg.instances[l].fcoms := by simp [hd.fcoms]
      rw [e0, e1, e2, e3, foldCm_add, foldCm_eq pr (hsh _ hin) (hcom _ hin) (hcmF _ hin) hA sp s0 s1 s2]), bind_ok',
      mapRes_ok (g := fun l => (rg.instances.map (fun inst => evalPairs M (roA.zip roB) (gF inst))).getD l []) (by
      intro l hll
      have hl' : l < rg.instances.length := by rw [← hfl']; exact List.mem_range.1 hll
      have hin := List.getElem_mem hl'
      rw [idx_getD [] (by simpa [hevA] using hl'), bind_ok', idx_getD [] (by simpa [hevB] using hl'), bind_ok']
      have e1 : evA.getD l [] = evalsQ M roA (quadOf d rg.nvars sp rg.instances[l]) := by simp [hevA, List.getD_eq_getElem?_getD, hl']
      have e2 : evB.getD l [] = evalsQ M roB (quadOf d rg.nvars sp rg.instances[l]) := by simp [hevB, List.getD_eq_getElem?_getD, hl']
      have e3 : (rg.instances.map (fun inst => evalPairs M (roA.zip roB) (gF inst))).getD l [] = evalPairs M (roA.zip roB) (gF rg.instances[l]) := by
        simp [List.getD_eq_getElem?_getD, hl']
      rw [e1, e2, e3]
      congr 1
      unfold evalsQ evalPairs
      rw [List.zip_map', List.map_map, add_comm 1 M.length, List.range_succ_eq_map, List.map_cons, List.map_map]
      have f1 : (roA.zip roB).map (·.1) = roA := List.map_fst_zip (by omega)
      have f2 : (roA.zip roB).map (·.2) = roB := List.map_snd_zip (by omega)
      rw [f1, f2]
      have hq := fun i p => foldQuad_eq (M := M) (hsh _ hin) hn sp hspl hspr s0 s1 s2 i p
      congr 1
      · simp only [Function.comp, hq]
        rfl
      · apply List.ext_getElem
        · simp
        · intro i h1 h2
          have hi' : i < M.length := by simpa using h1
          have : M.getD i ⟨0, 0, []⟩ = M[i] := by simp [List.getD_eq_getElem?_getD, hi']
          simp only [List.getElem_map, List.getElem_range, Function.comp, hq, rowFn, this]
          rfl), bind_ok']
    congr 2
    · apply List.ext_getElem
      · simp [hfl', hEl]
      · intro i h1 h2
        have hi' : i < rg.instances.length := by
          simp only [List.length_map, List.length_range] at h1
          omega
        have hi2 : i < E.length := by omega
        simp [List.getD_eq_getElem?_getD, hi', hi2]
    · apply List.ext_getElem
      · simp [hfl']
      · intro i h1 h2
        have hi' : i < rg.instances.length := by simpa using h2
        simp [List.getD_eq_getElem?_getD, hi']
  refine ⟨⟨dcom, comhL, (proofA, proofB), (evA, evB)⟩, ⟨List.zipWith (List.zipWith (· + ·)) ((rg.instances.map gF).map (commit A)) E, roA.zip roB, (rg.instances.map gF).map (evalPairs M (roA.zip roB))⟩, t6, rfl, ?_, s0, s1, s2, sp, rg.instances.map gF, rfl, rfl, rfl⟩
  intro st hst
  unfold cmVerify
  simp only [hst, unwrapRes, bind_ok', hdp, hss, hsp, hcomh0, hcl, hch0, hch1]
  have hel : evA.length = rg.instances.length := by simp [hevA]
  rw [hel, hA2, bind_ok']
  simp only
  rw [hB2, bind_ok']
  simp only
  rw [hx, bind_ok']

end Verif.Plus
