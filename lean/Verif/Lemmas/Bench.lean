import Verif.Model.Bench
import Verif.Props.Dummy
import Verif.Props.Witness
import Verif.Props.Commitment
import Verif.Spec.Nifs

set_option linter.unusedSimpArgs false
set_option linter.unusedSectionVars false

/-! # Shape and satisfaction of the generated instances -/

namespace Verif

open Finset Verif.Spec Verif.Props Plus

section CCS
variable {R : Type} [CommRing R] [DecidableEq R]

/-- Padding a system whose `m` is the length of the decomposed witness. -/
theorem padRowsTo_shape (c : CCS R) (n : Nat) (hm : c.m = n) (hs : c.s = Nat.clog 2 n) (hn : 2 ≤ n) (wf : CCSWF c)
    (hr : ∀ M ∈ c.M, M.nrows ≤ n) (hd : ∀ k < c.q, c.c.getD k 0 ≠ 0 → (c.S.getD k []).length ≤ c.d) :
    LinShape (c.padRowsTo (nextPow2 n)) ∧ (c.padRowsTo (nextPow2 n)).n = c.n ∧ (c.padRowsTo (nextPow2 n)).l = c.l ∧
      (c.padRowsTo (nextPow2 n)).s = Nat.clog 2 n ∧ (c.padRowsTo (nextPow2 n)).S = c.S ∧ (c.padRowsTo (nextPow2 n)).c = c.c ∧
      (c.padRowsTo (nextPow2 n)).q = c.q ∧ (c.padRowsTo (nextPow2 n)).d = c.d ∧ (c.padRowsTo (nextPow2 n)).t = c.t ∧
      (c.padRowsTo (nextPow2 n)).M.length = c.M.length := by
  have hpp : nextPow2 (nextPow2 n) = nextPow2 n := by
    show 2 ^ Nat.clog 2 (nextPow2 n) = _
    rw [clog_nextPow2]; rfl
  have hle := le_nextPow2 n
  have hpos : 1 ≤ Nat.clog 2 n := Nat.clog_pos (by omega) hn
  unfold CCS.padRowsTo
  simp only [hpp]
  split
  · refine ⟨⟨⟨?_, wf.lenS, wf.lenC, ?_⟩, ?_, ?_, ?_, hd⟩, rfl, rfl, clog_nextPow2 n, rfl, rfl, rfl, rfl, rfl, by simp⟩
    · intro M hM
      obtain ⟨M0, h0, rfl⟩ := List.mem_map.1 hM
      exact ⟨padRows_wf (wf.wfM M0 h0).1 _, (padRows_ncols _ _).trans (wf.wfM M0 h0).2⟩
    · intro Sk hk j hj
      simpa using wf.idxS Sk hk j hj
    · show 1 ≤ Nat.clog 2 (nextPow2 n); rw [clog_nextPow2]; exact hpos
    · show nextPow2 n = 2 ^ Nat.clog 2 (nextPow2 n); rw [clog_nextPow2]; rfl
    · intro M hM
      obtain ⟨M0, h0, rfl⟩ := List.mem_map.1 hM
      rw [padRows_nrows]
      show _ ≤ 2 ^ Nat.clog 2 (nextPow2 n)
      rw [clog_nextPow2]
      have := hr M0 h0
      exact max_le (this.trans hle) (Nat.le_refl _)
  · have he : n = 2 ^ Nat.clog 2 n := by
      have : nextPow2 n = 2 ^ Nat.clog 2 n := rfl
      omega
    refine ⟨⟨wf, by rw [hs]; exact hpos, by rw [hm, hs]; exact he, ?_, hd⟩, rfl, rfl, hs, rfl, rfl, rfl, rfl, rfl, rfl⟩
    intro M hM
    rw [hs, ← he]
    exact hr M hM

theorem aligned_of_r1cs [Nontrivial R] (c : CCS R) (hS : c.S = [[0, 1], [2]]) (hc : c.c = [1, -1]) (hq : c.q = 2) : Aligned c := by
  have : usedIdx c = [0, 1, 2] := by
    unfold usedIdx
    rw [hS, hc, hq]
    simp [List.range_succ]
  unfold Aligned
  rw [this]
  decide

theorem aligned_of_deg3 [Nontrivial R] (c : CCS R) (hS : c.S = [[0, 1, 2], [3]]) (hc : c.c = [1, -1]) (hq : c.q = 2) : Aligned c := by
  have : usedIdx c = [0, 1, 2, 3] := by
    unfold usedIdx
    rw [hS, hc, hq]
    simp [List.range_succ]
  unfold Aligned
  rw [this]
  decide

/-- What the generators guarantee of a system for witnesses of `w` elements. -/
structure GenOK (P : Params) (ccs : CCS R) (w : Nat) : Prop where
  sh : LinShape ccs
  al : Aligned ccs
  n : ccs.n = w + 2
  l : ccs.l = 1
  s : ccs.s = Nat.clog 2 (w * P.L)
  t : ccs.t = ccs.M.length
  d : ccs.d ≤ 3

theorem diag_wfM {rows cols n : Nat} (h : rows ≤ cols) (hn : cols = n) (f : Nat → R) : (diag rows cols f).WF ∧ (diag rows cols f).ncols = n :=
  ⟨diag_wf _ _ h f, hn⟩

theorem benchCcs_ok [Nontrivial R] (P : Params) (w : Nat) (hw : 2 ≤ w) (hL : 2 ≤ P.L) :
    ∃ ccs : CCS R, benchCcs 1 (w * P.L) w (1 + w + 1) P.L = .ok ccs ∧ GenOK P ccs w ∧
      ccs.checkRelation ([1] ++ List.replicate 1 1 ++ List.replicate w 1) = .ok () := by
  have hwl : w + 2 ≤ w * P.L := by
    have : w * 2 ≤ w * P.L := Nat.mul_le_mul_left _ hL
    omega
  have hchk := (C82_r1cs (R := R) 1 w (1 + w + 1) (le_refl _) []).2
  have wf : R1CSWF (dummyR1CS 1 w (1 + w + 1) : R1CS R) := by
    constructor <;> first | exact diag_wf _ _ (le_refl _) _ | rfl
  unfold benchCcs CCS.fromR1CSPadded
  have hn : (CCS.fromR1CS (dummyR1CS 1 w (1 + w + 1) : R1CS R) (w * P.L)).n = w + 2 := by
    show 1 + w + 1 = w + 2; omega
  have hl : (CCS.fromR1CS (dummyR1CS 1 w (1 + w + 1) : R1CS R) (w * P.L)).l = 1 := rfl
  have hm : (CCS.fromR1CS (dummyR1CS 1 w (1 + w + 1) : R1CS R) (w * P.L)).m = w * P.L := rfl
  simp only [hn, hl, hm, usub]
  rw [if_pos (by omega)]
  simp only [bind_ok']
  rw [if_pos (by omega)]
  simp only [bind_ok']
  rw [show w + 2 - 1 - 1 = w by omega, max_self]
  have hsh := padRowsTo_shape (CCS.fromR1CS (dummyR1CS 1 w (1 + w + 1) : R1CS R) (w * P.L)) (w * P.L) rfl rfl (by omega)
    (by
      refine ⟨?_, rfl, rfl, ?_⟩
      · intro M hM
        simp only [CCS.fromR1CS, dummyR1CS, List.mem_cons, List.not_mem_nil, or_false] at hM
        rcases hM with rfl | rfl | rfl <;> exact diag_wfM (le_refl _) rfl _
      · simp [CCS.fromR1CS])
    (by
      intro M hM
      simp only [CCS.fromR1CS, dummyR1CS, List.mem_cons, List.not_mem_nil, or_false] at hM
      rcases hM with rfl | rfl | rfl <;> (show 1 + w + 1 ≤ w * P.L; omega))
    (by
      intro k hk _
      have hk : k < 2 := hk
      have h : ∀ k < 2, (([[0, 1], [2]] : List (List Nat)).getD k []).length ≤ 2 := by decide
      exact h k hk)
  obtain ⟨h1, h2, h3, h4, h5, h6, h7, h8, h9, h10⟩ := hsh
  refine ⟨_, rfl, ⟨h1, aligned_of_r1cs _ h5 h6 h7, h2.trans hn, h3, h4, ?_, by rw [h8]; exact (by decide : 2 ≤ 3)⟩, ?_⟩
  · rw [h9, h10]; rfl
  · rw [padRowsTo_check _ wf _ _ (by show 1 + w + 1 ≤ w * P.L; omega)]
    exact hchk

theorem deg3Ccs_ok [Nontrivial R] (P : Params) (w : Nat) (hw : 2 ≤ w) (hL : 2 ≤ P.L) (z : List R) (hz : z.length = 1 + w + 1) :
    ∃ ccs : CCS R, dummyDegreeThree z 1 (w * P.L) w P.L (1 + w + 1) = .ok ccs ∧ GenOK P ccs w ∧ ccs.checkRelation z = .ok () := by
  have hwl : w + 2 ≤ w * P.L := by
    have : w * 2 ≤ w * P.L := Nat.mul_le_mul_left _ hL
    omega
  obtain ⟨ccs, hccs, -, hchk, -⟩ := C82_degree_three_partial z 1 (w * P.L) w P.L (by omega) (by omega)
  rw [hz] at hccs
  refine ⟨ccs, hccs, ?_, hchk hz⟩
  unfold dummyDegreeThree at hccs
  rw [dummyCubing_eq _ _ _ hz.symm] at hccs
  simp only [bind_ok', usub] at hccs
  rw [if_pos (by omega)] at hccs
  simp only [bind_ok'] at hccs
  rw [if_pos (by omega)] at hccs
  simp only [bind_ok'] at hccs
  rw [show 1 + w + 1 - 1 - 1 = w by omega, max_self] at hccs
  have hccs := Except.ok.inj hccs
  generalize hc0 : (CCS.mk _ _ _ _ _ _ _ _ _ _ _ : CCS R) = c0 at hccs
  subst hccs
  refine (fun hsh => ?_) (padRowsTo_shape c0 (w * P.L) (by rw [← hc0]) (by rw [← hc0]; rfl) (by omega) ?_ ?_ ?_) <;> subst hc0
  · obtain ⟨h1, h2, h3, h4, h5, h6, h7, h8, h9, h10⟩ := hsh
    refine ⟨h1, aligned_of_deg3 _ h5 h6 h7, h2.trans (by show 1 + w + 1 = w + 2; omega), h3, h4, ?_, by rw [h8]⟩
    rw [h9, h10]; rfl
  · refine ⟨?_, rfl, rfl, ?_⟩
    · intro M hM
      simp only [List.mem_cons, List.not_mem_nil, or_false] at hM
      rcases hM with rfl | rfl | rfl | rfl <;> exact diag_wfM (le_refl _) rfl _
    · simp
  · intro M hM
    simp only [List.mem_cons, List.not_mem_nil, or_false] at hM
    rcases hM with rfl | rfl | rfl | rfl <;> (show 1 + w + 1 ≤ w * P.L; omega)
  · intro k hk _
    have hk : k < 2 := hk
    have h : ∀ k < 2, (([[0, 1, 2], [3]] : List (List Nat)).getD k []).length ≤ 3 := by decide
    exact h k hk

end CCS

section Ring
variable {Fp F C σ G : Type} {N τ : Nat} [Field Fp] [Field F] [DecidableEq F] [Algebra Fp F] [CommRing C] [Algebra Fp C]

theorem short_reach_of_B {rd : RingData Fp F C N τ} {P : Params} (hP : ParamsOK Fp P) {wit : Witness (Fin N → F) C}
    (h : WitShort rd P.B wit) : WitShort rd (reach P.bSmall P.K) wit := fun c hc i =>
  short_mono (hP.BK.trans (pow_le_reach _ hP.Kpos)) (h c hc i)

/-- The generated commitment scheme: all entries are the one sample. -/
theorem rand_scheme (rnd : G → (Fin N → F) × G) (kappa n : Nat) (hk : 1 ≤ kappa) (rng : G) :
    (Ajtai.rand rnd kappa n rng).1.matrix.WF ∧ (Ajtai.rand rnd kappa n rng).1.matrix.ncols = n ∧
      (Ajtai.rand rnd kappa n rng).1.matrix.vals = List.replicate kappa (List.replicate n (rnd rng).1) := by
  obtain ⟨k, rfl⟩ : ∃ k, kappa = k + 1 := ⟨kappa - 1, by omega⟩
  obtain ⟨-, h2, h3, -⟩ := C03_rand_shape_partial rnd k n rng
  exact ⟨h3, h2, rfl⟩

theorem genFinish_ok (rd : RingData Fp F C N τ) (P : Params) (hP : ParamsOK Fp P) (rnd : G → (Fin N → F) × G) (rng : G) (kappa w : Nat)
    (hk : 1 ≤ kappa) (hw : 1 ≤ w) (ccs : CCS (Fin N → F)) (g : GenOK P ccs w) (ws : List (Fin N → F)) (hwl : ws.length = w)
    (hchk : ccs.checkRelation ([1] ++ List.replicate 1 1 ++ ws) = .ok ()) :
    ∃ i, genFinish rd P rnd rng kappa (w * P.L) ccs 1 (List.replicate 1 1) ws = .ok i ∧ i.ccs = ccs ∧
      i.scheme = (Ajtai.rand rnd kappa (w * P.L) rng).1 ∧ i.wit.wCcs = ws ∧ Witness.fromWCcs rd P ws = .ok i.wit ∧
      SizesOK P i.ccs i.scheme ∧ FreshHolds rd P i.ccs i.scheme i.cm i.wit := by
  obtain ⟨wit, h1, h2, h3, h4, h5⟩ := fromWCcs_ok rd P hP ws
  obtain ⟨s1, s2, s3⟩ := rand_scheme rnd kappa (w * P.L) hk rng
  have hcn : ccs.n - ccs.l - 1 = w := by rw [g.n, g.l]; omega
  have hS : SizesOK P ccs (Ajtai.rand rnd kappa (w * P.L) rng).1 :=
    ⟨g.sh, by rw [g.n, g.l]; omega, by rw [hcn, g.s], s1, by rw [s2, hcn]⟩
  have hcm : wit.commit (Ajtai.rand rnd kappa (w * P.L) rng).1 = .ok _ :=
    commit_ok _ _ (by rw [h2.f, List.length_map, h2.flen, hwl, s2])
  unfold genFinish
  simp only [hchk, unwrapRes, bind_ok', h1, hcm]
  refine ⟨_, rfl, rfl, rfl, h3, rfl, hS, ?_, hcm, ?_, ?_, short_reach_of_B hP h4⟩
  · rw [hcn, ← hwl]; exact h2
  · rw [g.l]; rfl
  · have hz : ([1] ++ List.replicate 1 1 ++ ws).length = ccs.n := by
      rw [g.n, ← hwl]; simp
    simp only
    rw [h3]
    exact (C08_check_decides ccs g.sh.wf _ hz).1.1 hchk

/-- The scalar and the degree-three set-up. -/
theorem setupR1CS_ok (rd : RingData Fp F C N τ) (P : Params) (hP : ParamsOK Fp P) (e : Fin N → F) (rnd : G → (Fin N → F) × G) (rng : G)
    (w kappa : Nat) (hk : 1 ≤ kappa) (hw : 2 ≤ w) (hL : 2 ≤ P.L) (t : R1CSKind) (ht : t ≠ .nonScalar) :
    ∃ i, setupR1CS rd P e rnd rng 1 (w * P.L) w kappa t = .ok i ∧ GenOK P i.ccs w ∧ SizesOK P i.ccs i.scheme ∧
      FreshHolds rd P i.ccs i.scheme i.cm i.wit ∧ i.scheme = (Ajtai.rand rnd kappa (w * P.L) rng).1 ∧
      i.wit.wCcs = List.replicate w (if t = .scalar then 1 else e) ∧
      Witness.fromWCcs rd P (List.replicate w (if t = .scalar then 1 else e)) = .ok i.wit ∧ i.cm.x_ccs.length = 1 := by
  have : Nonempty (Fin N) := ⟨⟨0, rd.npos⟩⟩
  have hg : genRows P w (1 + w + 1) = .ok (1 + w + 1) := if_neg (by omega)
  match t, ht with
  | .scalar, _ =>
    obtain ⟨ccs, c1, c2, c3⟩ := benchCcs_ok (R := Fin N → F) P w hw hL
    obtain ⟨i, i1, rfl, i3, i4, i4', i5, i6⟩ := genFinish_ok rd P hP rnd rng kappa w hk (by omega) ccs c2 _ (by simp) c3
    refine ⟨i, ?_, c2, i5, i6, i3, i4, i4', i6.xlen.trans c2.l⟩
    show witAndCcsGen rd P rnd rng 1 (w * P.L) w (1 + w + 1) kappa = _
    unfold witAndCcsGen
    simp only [hg, bind_ok', c1]
    exact i1
  | .degreeThreeNonScalar, _ =>
    obtain ⟨ccs, c1, c2, c3⟩ := deg3Ccs_ok (R := Fin N → F) P w hw hL ([1] ++ List.replicate 1 1 ++ List.replicate w e) (by simp; omega)
    obtain ⟨i, i1, rfl, i3, i4, i4', i5, i6⟩ := genFinish_ok rd P hP rnd rng kappa w hk (by omega) ccs c2 _ (by simp) c3
    refine ⟨i, ?_, c2, i5, i6, i3, i4, i4', i6.xlen.trans c2.l⟩
    show witAndCcsGenDegreeThree rd P e rnd rng 1 (w * P.L) w (1 + w + 1) kappa = _
    unfold witAndCcsGenDegreeThree dummyZSplitNtt
    simp only [hg, bind_ok', c1]
    exact i1

end Ring

end Verif
