import Verif.Lemmas.ExtractRun
import Verif.Props.Invertible
import Verif.Props.NormTables
import Verif.Props.ExampleData

/-!
# Property theorems for extraction from the folding step: C86, C87
-/

set_option linter.unusedSectionVars false
set_option linter.unusedSimpArgs false

namespace Verif.Props

open Finset Spec Verif Verif.Poseidon Verif.NormGrowth Verif.SmallNorm Verif.Example

section Gen
variable {Fp F C σ : Type} {N τ : Nat} [Field Fp] [Field F] [DecidableEq F] [Algebra Fp F] [CommRing C]
  [Algebra Fp C]

/-- **C86**: every accepted run of the folding verifier is a run on a script, of the bytes the transcript gave. -/
theorem C86_script (rd : RingData Fp F C N τ) (P : Params) (hK : 1 ≤ P.K) (cs : ChallengeSet C)
    (T : Transcript F (Fin N → F) σ) (s s' : σ) (ccs : CCS (Fin N → F)) (cms : List (LCCCS (Fin N → F)))
    (proof : FoldProof (Fin N → F)) (st : LCCCS (Fin N → F))
    (h : foldVerify rd P cs T s cms proof ccs = .ok (st, s')) :
    ∃ (B : Nat → Nat → List UInt8) (s0 : σ) (t : σ × Nat), (∀ k n, B k n = drawnBytes T n s0 k) ∧
      foldVerify rd P cs (scripted T B) (s, 0) cms proof ccs = .ok (st, t) :=
  run_scripted rd P hK cs T s s' ccs cms proof st h

/-- **C86**: whether a proof is accepted, and the point of the new statement, do not depend on the bytes of the folding
challenges (as long as these decode). -/
theorem C86_accept_any (rd : RingData Fp F C N τ) (P : Params) (hK : 1 ≤ P.K) (cs : ChallengeSet C)
    (T : Transcript F (Fin N → F) σ) (B B' : Nat → Nat → List UInt8) (s : σ) (s' : σ × Nat) (ccs : CCS (Fin N → F))
    (cms : List (LCCCS (Fin N → F))) (proof : FoldProof (Fin N → F)) (st : LCCCS (Fin N → F))
    (hB : ∀ k < 2 * P.K - 1, ∃ c, cs.decode (B' k cs.bytesNeeded) = .ok c)
    (h : foldVerify rd P cs (scripted T B) (s, 0) cms proof ccs = .ok (st, s')) :
    ∃ st', st'.r = st.r ∧ foldVerify rd P cs (scripted T B') (s, 0) cms proof ccs = .ok (st', s') :=
  run_any rd P hK cs T B B' s s' ccs cms proof st hB h

/-- **C86** (extraction). Take an accepted run of the folding verifier and, for each of the first `2K - 1` folding
challenges, an accepted run on the same proof where only this challenge differs, the difference being a unit.
From witnesses of the `2K` output statements one obtains witnesses of all `2K` input statements, with the point of the
sum-check and the evaluations claimed by the proof. The first `2K - 1` of them are, up to the difference of the challenges,
differences of output witnesses, and the witness of the first output is the combination of them all. -/
theorem C86_extract (rd : RingData Fp F C N τ) (P : Params) (hK : 1 ≤ P.K) (cs : ChallengeSet C)
    (T : Transcript F (Fin N → F) σ) (s : σ) (ccs : CCS (Fin N → F)) (scheme : Ajtai (Fin N → F))
    (hS : SizesOK P ccs scheme) (ht : ccs.t = ccs.M.length) (cms : List (LCCCS (Fin N → F)))
    (proof : FoldProof (Fin N → F)) (hsh : FoldShape P ccs scheme cms proof.etaS)
    (B : Nat → Nat → List UInt8) (st : LCCCS (Fin N → F)) (t : σ × Nat) (w : Witness (Fin N → F) C)
    (h : foldVerify rd P cs (scripted T B) (s, 0) cms proof ccs = .ok (st, t))
    (hw : LcccsHolds rd P ccs scheme st w)
    (b : Nat → Nat → List UInt8) (st' : Nat → LCCCS (Fin N → F)) (t' : Nat → σ × Nat) (w' : Nat → Witness (Fin N → F) C)
    (h' : ∀ i < 2 * P.K - 1, foldVerify rd P cs (scripted T (changeAt B i (b i))) (s, 0) cms proof ccs = .ok (st' i, t' i))
    (hw' : ∀ i < 2 * P.K - 1, LcccsHolds rd P ccs scheme (st' i) (w' i))
    (hu : ∀ i < 2 * P.K - 1, ∀ c c', cs.decode (B i cs.bytesNeeded) = .ok c → cs.decode (b i cs.bytesNeeded) = .ok c' →
      IsUnit (c - c')) :
    ∃ W : Nat → Witness (Fin N → F) C,
      (∀ k < 2 * P.K, LcccsHolds rd P ccs scheme (claimed cms proof.thetaS proof.etaS 0 st.r k) (W k)) ∧
      (∀ i < 2 * P.K - 1, ∃ c c', cs.decode (B i cs.bytesNeeded) = .ok c ∧ cs.decode (b i cs.bytesNeeded) = .ok c' ∧
        ∀ j, (c - c') * (W i).fCoeff.getD j 0 = w.fCoeff.getD j 0 - (w' i).fCoeff.getD j 0) ∧
      ∃ rho : Nat → C, rho (2 * P.K - 1) = 1 ∧ (∀ k < 2 * P.K - 1, cs.decode (B k cs.bytesNeeded) = .ok (rho k)) ∧
        IsComb (2 * P.K) rho (fun k => (W k).fCoeff) w.fCoeff ((ccs.n - ccs.l - 1) * P.L) := by
  set wl := ccs.n - ccs.l - 1 with hwl
  obtain ⟨ch, s1, sc, s2, e1, e2, e3, f, f1, f2, f3⟩ := run_comb rd P hK cs T B s t ccs scheme ht cms proof st hsh h
  have key : ∀ i < 2 * P.K - 1, (st' i).r = st.r ∧ ∃ f' : Nat → C, (∀ k < 2 * P.K, k ≠ i → f k = f' k) ∧
      cs.decode (b i cs.bytesNeeded) = .ok (f' i) ∧
      StComb rd ccs scheme (2 * P.K) f' (claimed cms proof.thetaS proof.etaS 0 st.r) (st' i) := by
    intro i hi
    obtain ⟨ch', s1', sc', s2', e1', e2', e3', f', f1', f2', f3'⟩ :=
      run_comb rd P hK cs T _ s (t' i) ccs scheme ht cms proof (st' i) hsh (h' i hi)
    rw [e1] at e1'
    cases e1'
    rw [e2] at e2'
    cases e2'
    have hr : (st' i).r = st.r := by rw [e3, e3']
    rw [hr] at f3'
    refine ⟨hr, f', fun k hk hki => ?_, ?_, f3'⟩
    · by_cases hkl : k = 2 * P.K - 1
      · rw [hkl, f1, f1']
      · have h1 := f2 k (by omega)
        have h2 := f2' k (by omega)
        unfold changeAt at h2
        rw [if_neg hki, h1] at h2
        exact Except.ok.inj h2
    · have := f2' i hi
      unfold changeAt at this
      rw [if_pos rfl] at this
      exact this
  have hr : ∀ i < 2 * P.K - 1, (st' i).r = st.r := fun i hi => (key i hi).1
  choose! f' g1 g2 g3 using fun i hi => (key i hi).2
  have hd : ∀ i < 2 * P.K - 1, ∃ d, d * (f i - f' i i) = 1 := fun i hi =>
    IsUnit.exists_left_inv (hu i hi _ _ (f2 i hi) (g2 i hi))
  choose! d hd using hd
  -- the extracted witnesses
  set fc : Nat → List C := fun i => (List.range (wl * P.L)).map fun j => ∑ k ∈ range 2,
    (if k = 0 then d i else -d i) * (if k = 0 then w.fCoeff else (w' i).fCoeff).getD j 0 with hfc
  have hfcc : ∀ i < 2 * P.K - 1, IsComb 2 (fun k => if k = 0 then d i else -d i)
      (fun k => (if k = 0 then w else w' i).fCoeff) (fc i) (wl * P.L) := by
    intro i hi
    have := IsComb.mk' (K := 2) (n := wl * P.L) (c := fun k => if k = 0 then d i else -d i)
      (vs := fun k => (if k = 0 then w else w' i).fCoeff) fun k _ => by
        split
        · exact hw.witOK.flen
        · exact (hw' i hi).witOK.flen
    convert this using 1
    rw [hfc]
    apply List.map_congr_left
    intro j _
    apply sum_congr rfl
    intro k _
    split <;> rfl
  have hW1 : ∀ i < 2 * P.K - 1, LcccsHolds rd P ccs scheme (claimed cms proof.thetaS proof.etaS 0 st.r i)
      (mkWit rd P wl (fc i)) := by
    intro i hi
    refine lcccs_comb rd P ccs scheme hS (n := 2) (by omega) (fun k => if k = 0 then d i else -d i)
      (fun k => if k = 0 then st else st' i) (fun k => if k = 0 then w else w' i) ?_ sc.point ?_
      (claimed cms proof.thetaS proof.etaS 0 st.r i) e3 ?_ (fc i) (hfcc i hi)
    · intro k _
      split
      · exact hw
      · exact hw' i hi
    · intro k _
      split
      · exact e3
      · rw [hr i hi, e3]
    · exact f3.extract (g3 i hi) (by omega) (g1 i hi) (hd i hi)
  have hrel : ∀ i < 2 * P.K - 1, ∀ j, (f i - f' i i) * (fc i).getD j 0 = w.fCoeff.getD j 0 - (w' i).fCoeff.getD j 0 := by
    intro i hi j
    rw [(hfcc i hi).eq_all j, sum_range_succ, sum_range_one]
    simp only [if_true, one_ne_zero, if_false]
    linear_combination (w.fCoeff.getD j 0 - (w' i).fCoeff.getD j 0) * hd i hi
  -- the last one
  have hKK : 2 * P.K = 2 * P.K - 1 + 1 := by omega
  set Q := 2 * P.K - 1 with hQ
  set lastc : List C := (List.range (wl * P.L)).map fun j => ∑ k ∈ range (Q + 1),
    (if k < Q then -f k else 1) * (if k < Q then (mkWit rd P wl (fc k)).fCoeff else w.fCoeff).getD j 0 with hlast
  have hlc : IsComb (Q + 1) (fun k => if k < Q then -f k else 1)
      (fun k => (if k < Q then mkWit rd P wl (fc k) else w).fCoeff) lastc (wl * P.L) := by
    have := IsComb.mk' (K := Q + 1) (n := wl * P.L) (c := fun k => if k < Q then -f k else 1)
      (vs := fun k => (if k < Q then mkWit rd P wl (fc k) else w).fCoeff) fun k _ => by
        split
        · rename_i hk
          exact (hfcc k hk).len
        · exact hw.witOK.flen
    convert this using 1
    rw [hlast]
    apply List.map_congr_left
    intro j _
    apply sum_congr rfl
    intro k _
    split <;> rfl
  have hW2 : LcccsHolds rd P ccs scheme (claimed cms proof.thetaS proof.etaS 0 st.r Q) (mkWit rd P wl lastc) := by
    refine lcccs_comb rd P ccs scheme hS (n := Q + 1) (by omega) (fun k => if k < Q then -f k else 1)
      (fun k => if k < Q then claimed cms proof.thetaS proof.etaS 0 st.r k else st)
      (fun k => if k < Q then mkWit rd P wl (fc k) else w) ?_ sc.point ?_
      (claimed cms proof.thetaS proof.etaS 0 st.r Q) e3 ?_ lastc hlc
    · intro k _
      split
      · exact hW1 k (by assumption)
      · exact hw
    · intro k _
      split
      · exact e3
      · exact e3
    · rw [hKK] at f3
      exact f3.last f1
  refine ⟨fun k => mkWit rd P wl (if k < Q then fc k else lastc), fun k hk => ?_, fun i hi => ?_, f, f1, f2, ?_⟩
  · by_cases hk' : k < Q
    · simp only [if_pos hk']
      exact hW1 k hk'
    · simp only [if_neg hk']
      rw [show k = Q by omega]
      exact hW2
  · refine ⟨f i, f' i i, f2 i hi, g2 i hi, fun j => ?_⟩
    simp only [if_pos hi]
    exact hrel i hi j
  · refine ⟨hw.witOK.flen, fun k hk => ?_, fun j hj => ?_⟩
    · change (if k < Q then fc k else lastc).length = _
      split
      · rename_i hk'
        exact (hfcc k hk').len
      · exact hlc.len
    · change _ = ∑ k ∈ range (2 * P.K), f k * (if k < Q then fc k else lastc).getD j 0
      have h1 := hlc.eq j hj
      rw [sum_range_succ] at h1
      simp only [lt_irrefl, if_false, one_mul] at h1
      rw [hKK, sum_range_succ]
      simp only [lt_irrefl, if_false]
      rw [f1, one_mul, h1, ← add_assoc, ← sum_add_distrib]
      symm
      rw [add_eq_right]
      apply sum_eq_zero
      intro k hk
      simp only [if_pos (mem_range.1 hk)]
      change f k * (fc k).getD j 0 + -f k * (fc k).getD j 0 = 0
      ring

/-- **C86** (the extracted witnesses are short up to the difference of the challenges). -/
theorem C86_relaxed_short (rd : RingData Fp F C N τ) (β : Nat) (w w' : Witness (Fin N → F) C) (x : List C) (d : C)
    (hw : WitShort rd β w) (hw' : WitShort rd β w')
    (hx : ∀ j, d * x.getD j 0 = w.fCoeff.getD j 0 - w'.fCoeff.getD j 0) (j : Nat) (i : Fin (τ * N)) :
    Short (2 * β) (rd.coeff (d * x.getD j 0) i) := by
  have h0 : ∀ (u : Witness (Fin N → F) C), WitShort rd β u → Short β (rd.coeff (u.fCoeff.getD j 0) i) := by
    intro u hu
    by_cases hj : j < u.fCoeff.length
    · apply hu
      rw [List.getD_eq_getElem?_getD, List.getElem?_eq_getElem hj]
      exact List.getElem_mem _
    · rw [getD_out _ (by omega)]
      exact ⟨0, by simp, by simp⟩
  obtain ⟨n, n1, n2⟩ := h0 w hw
  obtain ⟨m, m1, m2⟩ := h0 w' hw'
  refine ⟨n - m, ?_, ?_⟩
  · have := Int.natAbs_sub_le n m
    omega
  · rw [hx, map_sub, Pi.sub_apply, n2, m2]
    push_cast
    ring

/-- **C86**: for statements with short witnesses the honest prover's proof can be answered for every script, by the same
proof: the hypotheses of the extraction are what the completeness of folding provides. -/
theorem C86_honest_forks (rd : RingData Fp F C N τ) (P : Params) (cs : ChallengeSet C)
    (T : Transcript F (Fin N → F) σ) (s : σ) (ccs : CCS (Fin N → F)) (scheme : Ajtai (Fin N → F))
    (cms : List (LCCCS (Fin N → F))) (ws : List (Witness (Fin N → F) C)) (mz : List (List (Mle (Fin N → F))))
    (hP : ParamsOK Fp P) (hS : SizesOK P ccs scheme) (ht : ccs.t = ccs.M.length)
    (hin : FoldInput rd P ccs scheme cms ws mz) (hc : CharGt F (2 * P.bSmall))
    (hcs : ∀ bs, bs.length = cs.bytesNeeded → ∃ c, cs.decode bs = .ok c) :
    ∃ proof, FoldShape P ccs scheme cms proof.etaS ∧ ∀ B : Nat → Nat → List UInt8, (∀ k n, (B k n).length = n) → ∃ st w t,
      foldProve rd P cs (scripted T B) (s, 0) cms ws ccs mz = .ok ((st, w, proof), t) ∧
      foldVerify rd P cs (scripted T B) (s, 0) cms proof ccs = .ok (st, t) ∧ LcccsHolds rd P ccs scheme st w := by
  obtain ⟨st0, w0, proof, t0, h0, -⟩ := C36_folding_complete rd P cs (scripted T fun _ n => List.replicate n 0) (s, 0) ccs
    scheme cms ws mz hP hS ht hin hc (fun s n => by simp [scripted]) hcs
  refine ⟨proof, fold_shape rd P cs _ _ ccs scheme cms ws mz hin h0, fun B hB => ?_⟩
  obtain ⟨st, w, proof', t, h1, h2⟩ := C36_folding_complete rd P cs (scripted T B) (s, 0) ccs
    scheme cms ws mz hP hS ht hin hc (fun s n => hB _ _) hcs
  have e := prove_indep rd P cs T _ _ s cms ws ccs mz _ _ _ _ _ _ _ _ h0 h1
  rw [← e] at h1 h2
  exact ⟨st, w, t, h1, h2, (C37_folded_valid rd P cs _ _ t ccs scheme cms ws mz st w proof hP hS ht hin hc
    (fun s n => hB _ _) hcs h1).1⟩

end Gen

/-- Four statements over the ring of the examples, all challenges `1` in the base run, each of the first three changed to
`-X` in a fork: the witnesses of all four statements are recovered. -/
example : ∃ (proof : FoldProof C5) (r : List C5) (W : Nat → Witness C5 C5), ∀ k < 4,
    LcccsHolds ring5 par5 ccs5 scheme5 (claimed foldAccs5 proof.thetaS proof.etaS 0 r k) (W k) := by
  obtain ⟨proof, hsh, H⟩ := C86_honest_forks ring5 par5 cs5 tr5 7 ccs5 scheme5 foldAccs5 foldWits5 foldMz5 par5_ok sizes5 rfl
    foldIn5 charGt5 cs5_ok
  obtain ⟨st, w, t, -, h2, h3⟩ := H (fun _ n => List.replicate n 0) (by simp)
  have H' : ∀ i : Nat, ∃ st w t, foldVerify ring5 par5 cs5 (scripted tr5 (changeAt (fun _ n => List.replicate n 0) i
      fun n => List.replicate n 200)) (7, 0) foldAccs5 proof ccs5 = .ok (st, t) ∧ LcccsHolds ring5 par5 ccs5 scheme5 st w := by
    intro i
    obtain ⟨st, w, t, -, h4, h5⟩ := H (changeAt (fun _ n => List.replicate n 0) i fun n => List.replicate n 200) (by
      intro k n
      unfold changeAt
      split <;> simp)
    exact ⟨st, w, t, h4, h5⟩
  choose st' w' t' h4 h5 using H'
  obtain ⟨W, hW, -⟩ := C86_extract ring5 par5 (by decide) cs5 tr5 7 ccs5 scheme5 sizes5 rfl foldAccs5 proof hsh
    (fun _ n => List.replicate n 0) st t w h2 h3 (fun _ n => List.replicate n 200) st' t' w' (fun i _ => h4 i) (fun i _ => h5 i)
    (by
      intro i _ c c' g1 g2
      have e1 : (1 : C5) = c := Except.ok.inj g1
      have e2 : (![3, 2] : C5) = c' := Except.ok.inj g2
      rw [← e1, ← e2]
      exact IsUnit.of_mul_eq_one ![2, 4] (by decide))
  exact ⟨proof, st.r, W, hW⟩

/-- The run of the examples is a run on a script, and the proof is accepted also if all bytes are `200`. -/
example : ∃ (proof : FoldProof C5) (st st' : LCCCS C5) (s' : Nat) (t : Nat × Nat),
    foldVerify ring5 par5 cs5 tr5 7 foldAccs5 proof ccs5 = .ok (st, s') ∧
    foldVerify ring5 par5 cs5 (scripted tr5 fun _ n => List.replicate n 200) (7, 0) foldAccs5 proof ccs5 = .ok (st', t) ∧
    st'.r = st.r := by
  obtain ⟨st, w, proof, s', -, h⟩ := C36_folding_complete ring5 par5 cs5 tr5 7 ccs5 scheme5 foldAccs5 foldWits5 foldMz5
    par5_ok sizes5 rfl foldIn5 charGt5 tr5_bytes cs5_ok
  obtain ⟨B, s0, t, -, h1⟩ := C86_script ring5 par5 (by decide) cs5 tr5 7 s' ccs5 foldAccs5 proof st h
  obtain ⟨st', h2, h3⟩ := C86_accept_any ring5 par5 (by decide) cs5 tr5 B (fun _ n => List.replicate n 200) 7 t ccs5 foldAccs5
    proof st (fun k _ => cs5_ok _ (by simp)) h1
  exact ⟨proof, st, st', s', t, h, h3, h2⟩

/-! ## The four rings -/

section Rings
variable {F C σ : Type} [Field F] [DecidableEq F] [CommRing C]

/-- **C86** (Goldilocks): it suffices that the bytes differ. -/
theorem C86_goldilocks [Algebra (ZMod pGoldilocks) F] [Algebra (ZMod pGoldilocks) C]
    (rd : RingData (ZMod pGoldilocks) F C 8 3) (hX : rd.X ^ 24 - rd.X ^ 12 + 1 = 0) (P : Params) (hK : 1 ≤ P.K)
    (T : Transcript F (Fin 8 → F) σ) (s : σ) (ccs : CCS (Fin 8 → F)) (scheme : Ajtai (Fin 8 → F))
    (hS : SizesOK P ccs scheme) (ht : ccs.t = ccs.M.length) (cms : List (LCCCS (Fin 8 → F)))
    (proof : FoldProof (Fin 8 → F)) (hsh : FoldShape P ccs scheme cms proof.etaS)
    (B : Nat → Nat → List UInt8) (st : LCCCS (Fin 8 → F)) (t : σ × Nat) (w : Witness (Fin 8 → F) C)
    (h : foldVerify rd P (packedSet rd.coeff) (scripted T B) (s, 0) cms proof ccs = .ok (st, t))
    (hw : LcccsHolds rd P ccs scheme st w)
    (b : Nat → Nat → List UInt8) (st' : Nat → LCCCS (Fin 8 → F)) (t' : Nat → σ × Nat) (w' : Nat → Witness (Fin 8 → F) C)
    (h' : ∀ i < 2 * P.K - 1, foldVerify rd P (packedSet rd.coeff) (scripted T (changeAt B i (b i))) (s, 0) cms proof ccs
      = .ok (st' i, t' i))
    (hw' : ∀ i < 2 * P.K - 1, LcccsHolds rd P ccs scheme (st' i) (w' i))
    (hB : ∀ i < 2 * P.K - 1, (B i 18).length = 18 ∧ (b i 18).length = 18 ∧ B i 18 ≠ b i 18) :
    ∃ W : Nat → Witness (Fin 8 → F) C,
      (∀ k < 2 * P.K, LcccsHolds rd P ccs scheme (claimed cms proof.thetaS proof.etaS 0 st.r k) (W k)) ∧
      ∀ i < 2 * P.K - 1, ∃ c c', packedChallenge rd.coeff (B i 18) = .ok c ∧ packedChallenge rd.coeff (b i 18) = .ok c' ∧
        IsUnit (c - c') ∧ ∀ j, (c - c') * (W i).fCoeff.getD j 0 = w.fCoeff.getD j 0 - (w' i).fCoeff.getD j 0 := by
  have hu : ∀ i < 2 * P.K - 1, ∀ c c', packedChallenge rd.coeff (B i 18) = .ok c →
      packedChallenge rd.coeff (b i 18) = .ok c' → IsUnit (c - c') := by
    intro i hi c c' h1 h2
    obtain ⟨d, d', h3, h4, h5, -⟩ := C83_goldilocks rd hX _ _ (hB i hi).1 (hB i hi).2.1 (hB i hi).2.2
    rw [h1] at h3; rw [h2] at h4; cases h3; cases h4; exact h5
  obtain ⟨W, h1, h2, -⟩ := C86_extract rd P hK (packedSet rd.coeff) T s ccs scheme hS ht cms proof hsh B st t w h hw b st' t' w'
    h' hw' hu
  refine ⟨W, h1, fun i hi => ?_⟩
  obtain ⟨c, c', h3, h4, h5⟩ := h2 i hi
  exact ⟨c, c', h3, h4, hu i hi _ _ h3 h4, h5⟩

/-- **C86** (BabyBear). -/
theorem C86_babybear [Algebra (ZMod pBabyBear) F] [Algebra (ZMod pBabyBear) C]
    (rd : RingData (ZMod pBabyBear) F C 8 9) (hX : rd.X ^ 72 - rd.X ^ 36 + 1 = 0) (P : Params) (hK : 1 ≤ P.K)
    (T : Transcript F (Fin 8 → F) σ) (s : σ) (ccs : CCS (Fin 8 → F)) (scheme : Ajtai (Fin 8 → F))
    (hS : SizesOK P ccs scheme) (ht : ccs.t = ccs.M.length) (cms : List (LCCCS (Fin 8 → F)))
    (proof : FoldProof (Fin 8 → F)) (hsh : FoldShape P ccs scheme cms proof.etaS)
    (B : Nat → Nat → List UInt8) (st : LCCCS (Fin 8 → F)) (t : σ × Nat) (w : Witness (Fin 8 → F) C)
    (h : foldVerify rd P (packedSet rd.coeff) (scripted T B) (s, 0) cms proof ccs = .ok (st, t))
    (hw : LcccsHolds rd P ccs scheme st w)
    (b : Nat → Nat → List UInt8) (st' : Nat → LCCCS (Fin 8 → F)) (t' : Nat → σ × Nat) (w' : Nat → Witness (Fin 8 → F) C)
    (h' : ∀ i < 2 * P.K - 1, foldVerify rd P (packedSet rd.coeff) (scripted T (changeAt B i (b i))) (s, 0) cms proof ccs
      = .ok (st' i, t' i))
    (hw' : ∀ i < 2 * P.K - 1, LcccsHolds rd P ccs scheme (st' i) (w' i))
    (hB : ∀ i < 2 * P.K - 1, (B i 18).length = 18 ∧ (b i 18).length = 18 ∧ B i 18 ≠ b i 18) :
    ∃ W : Nat → Witness (Fin 8 → F) C,
      (∀ k < 2 * P.K, LcccsHolds rd P ccs scheme (claimed cms proof.thetaS proof.etaS 0 st.r k) (W k)) ∧
      ∀ i < 2 * P.K - 1, ∃ c c', packedChallenge rd.coeff (B i 18) = .ok c ∧ packedChallenge rd.coeff (b i 18) = .ok c' ∧
        IsUnit (c - c') ∧ ∀ j, (c - c') * (W i).fCoeff.getD j 0 = w.fCoeff.getD j 0 - (w' i).fCoeff.getD j 0 := by
  have hu : ∀ i < 2 * P.K - 1, ∀ c c', packedChallenge rd.coeff (B i 18) = .ok c →
      packedChallenge rd.coeff (b i 18) = .ok c' → IsUnit (c - c') := by
    intro i hi c c' h1 h2
    obtain ⟨d, d', h3, h4, h5, -⟩ := C83_babybear rd hX _ _ (hB i hi).1 (hB i hi).2.1 (hB i hi).2.2
    rw [h1] at h3; rw [h2] at h4; cases h3; cases h4; exact h5
  obtain ⟨W, h1, h2, -⟩ := C86_extract rd P hK (packedSet rd.coeff) T s ccs scheme hS ht cms proof hsh B st t w h hw b st' t' w'
    h' hw' hu
  refine ⟨W, h1, fun i hi => ?_⟩
  obtain ⟨c, c', h3, h4, h5⟩ := h2 i hi
  exact ⟨c, c', h3, h4, hu i hi _ _ h3 h4, h5⟩

/-- **C86** (Frog). -/
theorem C86_frog [Algebra (ZMod pFrog) F] [Algebra (ZMod pFrog) C]
    (rd : RingData (ZMod pFrog) F C 4 4) (hX : rd.X ^ 16 + 1 = 0) (P : Params) (hK : 1 ≤ P.K)
    (T : Transcript F (Fin 4 → F) σ) (s : σ) (ccs : CCS (Fin 4 → F)) (scheme : Ajtai (Fin 4 → F))
    (hS : SizesOK P ccs scheme) (ht : ccs.t = ccs.M.length) (cms : List (LCCCS (Fin 4 → F)))
    (proof : FoldProof (Fin 4 → F)) (hsh : FoldShape P ccs scheme cms proof.etaS)
    (B : Nat → Nat → List UInt8) (st : LCCCS (Fin 4 → F)) (t : σ × Nat) (w : Witness (Fin 4 → F) C)
    (h : foldVerify rd P (frogSet rd.coeff) (scripted T B) (s, 0) cms proof ccs = .ok (st, t))
    (hw : LcccsHolds rd P ccs scheme st w)
    (b : Nat → Nat → List UInt8) (st' : Nat → LCCCS (Fin 4 → F)) (t' : Nat → σ × Nat) (w' : Nat → Witness (Fin 4 → F) C)
    (h' : ∀ i < 2 * P.K - 1, foldVerify rd P (frogSet rd.coeff) (scripted T (changeAt B i (b i))) (s, 0) cms proof ccs
      = .ok (st' i, t' i))
    (hw' : ∀ i < 2 * P.K - 1, LcccsHolds rd P ccs scheme (st' i) (w' i))
    (hB : ∀ i < 2 * P.K - 1, (B i 16).length = 16 ∧ (b i 16).length = 16 ∧ B i 16 ≠ b i 16) :
    ∃ W : Nat → Witness (Fin 4 → F) C,
      (∀ k < 2 * P.K, LcccsHolds rd P ccs scheme (claimed cms proof.thetaS proof.etaS 0 st.r k) (W k)) ∧
      ∀ i < 2 * P.K - 1, ∃ c c', frogChallenge rd.coeff (B i 16) = .ok c ∧ frogChallenge rd.coeff (b i 16) = .ok c' ∧
        IsUnit (c - c') ∧ ∀ j, (c - c') * (W i).fCoeff.getD j 0 = w.fCoeff.getD j 0 - (w' i).fCoeff.getD j 0 := by
  have hu : ∀ i < 2 * P.K - 1, ∀ c c', frogChallenge rd.coeff (B i 16) = .ok c →
      frogChallenge rd.coeff (b i 16) = .ok c' → IsUnit (c - c') := by
    intro i hi c c' h1 h2
    obtain ⟨d, d', h3, h4, h5, -⟩ := C83_frog rd hX _ _ (hB i hi).1 (hB i hi).2.1 (hB i hi).2.2
    rw [h1] at h3; rw [h2] at h4; cases h3; cases h4; exact h5
  obtain ⟨W, h1, h2, -⟩ := C86_extract rd P hK (frogSet rd.coeff) T s ccs scheme hS ht cms proof hsh B st t w h hw b st' t' w'
    h' hw' hu
  refine ⟨W, h1, fun i hi => ?_⟩
  obtain ⟨c, c', h3, h4, h5⟩ := h2 i hi
  exact ⟨c, c', h3, h4, hu i hi _ _ h3 h4, h5⟩

/-- **C86** (Stark). -/
theorem C86_stark [Algebra (ZMod pStark) F] [Algebra (ZMod pStark) C]
    (rd : RingData (ZMod pStark) F C 16 1) (hX : rd.X ^ 16 + 1 = 0) (P : Params) (hK : 1 ≤ P.K)
    (T : Transcript F (Fin 16 → F) σ) (s : σ) (ccs : CCS (Fin 16 → F)) (scheme : Ajtai (Fin 16 → F))
    (hS : SizesOK P ccs scheme) (ht : ccs.t = ccs.M.length) (cms : List (LCCCS (Fin 16 → F)))
    (proof : FoldProof (Fin 16 → F)) (hsh : FoldShape P ccs scheme cms proof.etaS)
    (B : Nat → Nat → List UInt8) (st : LCCCS (Fin 16 → F)) (t : σ × Nat) (w : Witness (Fin 16 → F) C)
    (h : foldVerify rd P (starkSet rd.coeff) (scripted T B) (s, 0) cms proof ccs = .ok (st, t))
    (hw : LcccsHolds rd P ccs scheme st w)
    (b : Nat → Nat → List UInt8) (st' : Nat → LCCCS (Fin 16 → F)) (t' : Nat → σ × Nat) (w' : Nat → Witness (Fin 16 → F) C)
    (h' : ∀ i < 2 * P.K - 1, foldVerify rd P (starkSet rd.coeff) (scripted T (changeAt B i (b i))) (s, 0) cms proof ccs
      = .ok (st' i, t' i))
    (hw' : ∀ i < 2 * P.K - 1, LcccsHolds rd P ccs scheme (st' i) (w' i))
    (hB : ∀ i < 2 * P.K - 1, (B i 16).length = 16 ∧ (b i 16).length = 16 ∧ B i 16 ≠ b i 16) :
    ∃ W : Nat → Witness (Fin 16 → F) C,
      (∀ k < 2 * P.K, LcccsHolds rd P ccs scheme (claimed cms proof.thetaS proof.etaS 0 st.r k) (W k)) ∧
      ∀ i < 2 * P.K - 1, ∃ c c', starkChallenge rd.coeff (B i 16) = .ok c ∧ starkChallenge rd.coeff (b i 16) = .ok c' ∧
        IsUnit (c - c') ∧ ∀ j, (c - c') * (W i).fCoeff.getD j 0 = w.fCoeff.getD j 0 - (w' i).fCoeff.getD j 0 := by
  have hu : ∀ i < 2 * P.K - 1, ∀ c c', starkChallenge rd.coeff (B i 16) = .ok c →
      starkChallenge rd.coeff (b i 16) = .ok c' → IsUnit (c - c') := by
    intro i hi c c' h1 h2
    obtain ⟨d, d', h3, h4, h5, -⟩ := C83_stark rd hX _ _ (hB i hi).1 (hB i hi).2.1 (hB i hi).2.2
    rw [h1] at h3; rw [h2] at h4; cases h3; cases h4; exact h5
  obtain ⟨W, h1, h2, -⟩ := C86_extract rd P hK (starkSet rd.coeff) T s ccs scheme hS ht cms proof hsh B st t w h hw b st' t' w'
    h' hw' hu
  refine ⟨W, h1, fun i hi => ?_⟩
  obtain ⟨c, c', h3, h4, h5⟩ := h2 i hi
  exact ⟨c, c', h3, h4, hu i hi _ _ h3 h4, h5⟩

end Rings

/-! ## C87 -/

section Binding
variable {p : ℕ} [Fact p.Prime] {F C : Type} {N τ : ℕ} [Field F] [CommRing C] [Algebra (ZMod p) F] [Algebra (ZMod p) C]

/-- **C87**: two different openings of one commitment, each short after multiplication by a difference of challenges (as the
extraction provides them), give a nonzero vector in the kernel of the commitment matrix, with coefficients of absolute value
at most `4 γ B_c (B_w / 2)`: `γ` the expansion of the multiplication, `B_c` the bound on challenges, `B_w / 2` the bound on
the multiplied openings. -/
theorem C87_kernel [DecidableEq F] (rd : RingData (ZMod p) F C N τ) (cs : ChallengeSet C) {red : ℕ → ℕ → ℤ} {s γ β : ℕ}
    (ht : Table rd red s γ) (hc : Bounded rd cs s β) (scheme : Ajtai (Fin N → F)) (fc fc' : List C)
    (hl : fc.length = scheme.matrix.ncols) (hl' : fc'.length = scheme.matrix.ncols) (hne : fc ≠ fc')
    (hcm : scheme.commit (fc.map rd.crt) = scheme.commit (fc'.map rd.crt))
    (b1 b2 b3 b4 : List UInt8) (c1 c2 c3 c4 : C) (hb1 : b1.length = cs.bytesNeeded) (hb2 : b2.length = cs.bytesNeeded)
    (hb3 : b3.length = cs.bytesNeeded) (hb4 : b4.length = cs.bytesNeeded) (h1 : cs.decode b1 = .ok c1)
    (h2 : cs.decode b2 = .ok c2) (h3 : cs.decode b3 = .ok c3) (h4 : cs.decode b4 = .ok c4) (hu : IsUnit (c1 - c2))
    (hu' : IsUnit (c3 - c4)) (α : ℕ) (hs : ∀ j i, Short α (rd.coeff ((c1 - c2) * fc.getD j 0) i))
    (hs' : ∀ j i, Short α (rd.coeff ((c3 - c4) * fc'.getD j 0) i)) :
    ∃ z : List C, z.length = scheme.matrix.ncols ∧ (∃ x ∈ z, x ≠ 0) ∧
      scheme.commit (z.map rd.crt) = .ok ⟨List.replicate scheme.matrix.vals.length 0⟩ ∧
      ∀ x ∈ z, ∀ i, ∃ n : ℤ, n.natAbs ≤ 4 * γ * β * (α / 2) ∧ rd.coeff x i = (n : ZMod p) := by
  set m := scheme.matrix.ncols with hm
  set q := (c1 - c2) * (c3 - c4) with hq
  have hqu : IsUnit q := hu.mul hu'
  set vs : Nat → List C := fun k => if k = 0 then fc else fc' with hvs
  set cc : Nat → C := fun k => if k = 0 then q else -q with hcc
  have hz : IsComb 2 cc vs ((List.range m).map fun i => ∑ k ∈ range 2, cc k * (vs k).getD i 0) m :=
    IsComb.mk' fun k _ => by
      rw [hvs]
      simp only
      split
      · exact hl
      · exact hl'
  set z : List C := (List.range m).map fun i => ∑ k ∈ range 2, cc k * (vs k).getD i 0 with hzd
  have hzj : ∀ j, z.getD j 0 = q * (fc.getD j 0 - fc'.getD j 0) := by
    intro j
    rw [hz.eq_all j, sum_range_succ, sum_range_one]
    simp only [hcc, hvs, if_true, one_ne_zero, if_false]
    ring
  refine ⟨z, hz.len, ?_, ?_, ?_⟩
  · by_contra hall
    push Not at hall
    apply hne
    apply ext_getD hl hl'
    intro j hj
    have h5 : z.getD j 0 = 0 := by
      apply hall
      rw [List.getD_eq_getElem?_getD, List.getElem?_eq_getElem (by rw [hz.len]; exact hj)]
      exact List.getElem_mem _
    rw [hzj j] at h5
    have := (hqu.mul_right_eq_zero).1 h5
    exact sub_eq_zero.1 this
  · have hc0 := commit_comb (map_crt_comb rd hz) scheme
    rw [commit_ok scheme _ (by rw [List.length_map, hz.len])]
    rw [commit_ok scheme _ (by rw [List.length_map, hl]), commit_ok scheme _ (by rw [List.length_map, hl'])] at hcm
    have hcm' : (scheme.matrix.vals.map fun row => dot row (fc.map rd.crt))
        = scheme.matrix.vals.map fun row => dot row (fc'.map rd.crt) := by
      have := Except.ok.inj hcm
      exact (Commitment.mk.injEq _ _).mp this
    congr 2
    apply ext_getD hc0.len (by simp)
    intro j hj
    rw [hc0.eq j hj, sum_range_succ, sum_range_one]
    simp only [hcc, hvs, if_true, one_ne_zero, if_false]
    rw [hcm']
    simp only [List.getD_eq_getElem?_getD, List.getElem?_replicate, hj, if_true, Option.getD_some, map_neg]
    ring
  · -- the bound
    have hdiff : ∀ (bs bs' : List UInt8) (c c' : C), bs.length = cs.bytesNeeded → bs'.length = cs.bytesNeeded →
        cs.decode bs = .ok c → cs.decode bs' = .ok c' → ∃ r : ℕ → ℤ, (∀ i : Fin (τ * N), rd.coeff (c - c') i = ((r i : ℤ) : ZMod p)) ∧
          (∀ i, s ≤ i → i < τ * N → r i = 0) ∧ ∀ i < s, |r i| ≤ (2 * β : ℕ) := by
      intro bs bs' c c' g1 g2 g3 g4
      obtain ⟨r, r1, r2, r3⟩ := hc bs c g1 g3
      obtain ⟨r', r1', r2', r3'⟩ := hc bs' c' g2 g4
      refine ⟨fun i => r i - r' i, fun i => ?_, fun i hi hi' => ?_, fun i hi => ?_⟩
      · rw [map_sub, Pi.sub_apply, r1, r1']
        push_cast
        ring
      · simp only [r2 i hi hi', r2' i hi hi', sub_zero]
      · refine (abs_sub _ _).trans ?_
        have g5 := r3 i hi
        have g6 := r3' i hi
        push_cast
        linarith
    have hprod : ∀ (bs bs' : List UInt8) (c c' x : C), bs.length = cs.bytesNeeded → bs'.length = cs.bytesNeeded →
        cs.decode bs = .ok c → cs.decode bs' = .ok c' → (∀ i, Short α (rd.coeff x i)) → ∀ i, ∃ n : ℤ,
          |n| ≤ (γ * (2 * β) * (α / 2) : ℕ) ∧ rd.coeff ((c - c') * x) i = (n : ZMod p) := by
      intro bs bs' c c' x g1 g2 g3 g4 g5 i
      obtain ⟨r, r1, r2, r3⟩ := hdiff bs bs' c c' g1 g2 g3 g4
      obtain ⟨a, a1, a2⟩ := short_lift rd g5
      exact ⟨_, abs_conv_le ht.exp r a (2 * β) (α / 2) r3 a2 i i.2,
        coeff_mul rd.coeff rd.X rd.coeff_X red s ht.le ht.pow _ _ r a r1 r2 a1 i⟩
    intro x hx i
    obtain ⟨j, hj, rfl⟩ := List.getElem_of_mem hx
    have hxj : z[j] = (c3 - c4) * ((c1 - c2) * fc.getD j 0) - (c1 - c2) * ((c3 - c4) * fc'.getD j 0) := by
      have := hzj j
      rw [List.getD_eq_getElem?_getD, List.getElem?_eq_getElem hj, Option.getD_some] at this
      rw [this, hq]
      ring
    obtain ⟨n, n1, n2⟩ := hprod b3 b4 c3 c4 _ hb3 hb4 h3 h4 (hs j) i
    obtain ⟨n', n1', n2'⟩ := hprod b1 b2 c1 c2 _ hb1 hb2 h1 h2 (hs' j) i
    refine ⟨n - n', ?_, ?_⟩
    · have g1 : n.natAbs ≤ γ * (2 * β) * (α / 2) := by
        rw [Int.abs_eq_natAbs] at n1
        exact_mod_cast n1
      have g2 : n'.natAbs ≤ γ * (2 * β) * (α / 2) := by
        rw [Int.abs_eq_natAbs] at n1'
        exact_mod_cast n1'
      have g3 := Int.natAbs_sub_le n n'
      have g4 : 4 * γ * β * (α / 2) = γ * (2 * β) * (α / 2) + γ * (2 * β) * (α / 2) := by ring
      omega
    · rw [hxj, map_sub, Pi.sub_apply, n2, n2']
      push_cast
      ring

end Binding

section BindingRings
variable {F C : Type} [Field F] [DecidableEq F] [CommRing C]

/-- **C87** (Goldilocks): at most `4608` times the bound `α / 2` on the multiplied openings, `4608 = 4 * 36 * 32`; it suffices
that the byte strings differ. -/
theorem C87_goldilocks [Algebra (ZMod pGoldilocks) F] [Algebra (ZMod pGoldilocks) C]
    (rd : RingData (ZMod pGoldilocks) F C 8 3) (hX : rd.X ^ 24 - rd.X ^ 12 + 1 = 0) (scheme : Ajtai (Fin 8 → F)) (fc fc' : List C)
    (hl : fc.length = scheme.matrix.ncols) (hl' : fc'.length = scheme.matrix.ncols) (hne : fc ≠ fc')
    (hcm : scheme.commit (fc.map rd.crt) = scheme.commit (fc'.map rd.crt)) (b1 b2 b3 b4 : List UInt8) (c1 c2 c3 c4 : C)
    (hb1 : b1.length = 18) (hb2 : b2.length = 18) (hb3 : b3.length = 18) (hb4 : b4.length = 18)
    (h1 : packedChallenge rd.coeff b1 = .ok c1) (h2 : packedChallenge rd.coeff b2 = .ok c2)
    (h3 : packedChallenge rd.coeff b3 = .ok c3) (h4 : packedChallenge rd.coeff b4 = .ok c4) (hd : b1 ≠ b2) (hd' : b3 ≠ b4)
    (α : ℕ) (hs : ∀ j i, Short α (rd.coeff ((c1 - c2) * fc.getD j 0) i))
    (hs' : ∀ j i, Short α (rd.coeff ((c3 - c4) * fc'.getD j 0) i)) :
    ∃ z : List C, z.length = scheme.matrix.ncols ∧ (∃ x ∈ z, x ≠ 0) ∧
      scheme.commit (z.map rd.crt) = .ok ⟨List.replicate scheme.matrix.vals.length 0⟩ ∧
      ∀ x ∈ z, ∀ i, ∃ n : ℤ, n.natAbs ≤ 4608 * (α / 2) ∧ rd.coeff x i = (n : ZMod pGoldilocks) := by
  have hu : ∀ b b' c c', b.length = 18 → b'.length = 18 → packedChallenge rd.coeff b = .ok c →
      packedChallenge rd.coeff b' = .ok c' → b ≠ b' → IsUnit (c - c') := by
    intro b b' c c' g1 g2 g3 g4 g5
    obtain ⟨d, d', g6, g7, g8, -⟩ := C83_goldilocks rd hX _ _ g1 g2 g5
    rw [g3] at g6; rw [g4] at g7; cases g6; cases g7; exact g8
  exact C87_kernel rd (packedSet rd.coeff) (table_goldilocks rd hX) (bounded_packed rd) scheme fc fc' hl hl' hne hcm
    b1 b2 b3 b4 c1 c2 c3 c4 hb1 hb2 hb3 hb4 h1 h2 h3 h4 (hu _ _ _ _ hb1 hb2 h1 h2 hd) (hu _ _ _ _ hb3 hb4 h3 h4 hd') α hs hs'

/-- **C87** (BabyBear): `6016 = 4 * 47 * 32`. -/
theorem C87_babybear [Algebra (ZMod pBabyBear) F] [Algebra (ZMod pBabyBear) C]
    (rd : RingData (ZMod pBabyBear) F C 8 9) (hX : rd.X ^ 72 - rd.X ^ 36 + 1 = 0) (scheme : Ajtai (Fin 8 → F)) (fc fc' : List C)
    (hl : fc.length = scheme.matrix.ncols) (hl' : fc'.length = scheme.matrix.ncols) (hne : fc ≠ fc')
    (hcm : scheme.commit (fc.map rd.crt) = scheme.commit (fc'.map rd.crt)) (b1 b2 b3 b4 : List UInt8) (c1 c2 c3 c4 : C)
    (hb1 : b1.length = 18) (hb2 : b2.length = 18) (hb3 : b3.length = 18) (hb4 : b4.length = 18)
    (h1 : packedChallenge rd.coeff b1 = .ok c1) (h2 : packedChallenge rd.coeff b2 = .ok c2)
    (h3 : packedChallenge rd.coeff b3 = .ok c3) (h4 : packedChallenge rd.coeff b4 = .ok c4) (hd : b1 ≠ b2) (hd' : b3 ≠ b4)
    (α : ℕ) (hs : ∀ j i, Short α (rd.coeff ((c1 - c2) * fc.getD j 0) i))
    (hs' : ∀ j i, Short α (rd.coeff ((c3 - c4) * fc'.getD j 0) i)) :
    ∃ z : List C, z.length = scheme.matrix.ncols ∧ (∃ x ∈ z, x ≠ 0) ∧
      scheme.commit (z.map rd.crt) = .ok ⟨List.replicate scheme.matrix.vals.length 0⟩ ∧
      ∀ x ∈ z, ∀ i, ∃ n : ℤ, n.natAbs ≤ 6016 * (α / 2) ∧ rd.coeff x i = (n : ZMod pBabyBear) := by
  have hu : ∀ b b' c c', b.length = 18 → b'.length = 18 → packedChallenge rd.coeff b = .ok c →
      packedChallenge rd.coeff b' = .ok c' → b ≠ b' → IsUnit (c - c') := by
    intro b b' c c' g1 g2 g3 g4 g5
    obtain ⟨d, d', g6, g7, g8, -⟩ := C83_babybear rd hX _ _ g1 g2 g5
    rw [g3] at g6; rw [g4] at g7; cases g6; cases g7; exact g8
  exact C87_kernel rd (packedSet rd.coeff) (table_babybear rd hX) (bounded_packed rd) scheme fc fc' hl hl' hne hcm
    b1 b2 b3 b4 c1 c2 c3 c4 hb1 hb2 hb3 hb4 h1 h2 h3 h4 (hu _ _ _ _ hb1 hb2 h1 h2 hd) (hu _ _ _ _ hb3 hb4 h3 h4 hd') α hs hs'

/-- **C87** (Frog): `8192 = 4 * 16 * 128`. -/
theorem C87_frog [Algebra (ZMod pFrog) F] [Algebra (ZMod pFrog) C]
    (rd : RingData (ZMod pFrog) F C 4 4) (hX : rd.X ^ 16 + 1 = 0) (scheme : Ajtai (Fin 4 → F)) (fc fc' : List C)
    (hl : fc.length = scheme.matrix.ncols) (hl' : fc'.length = scheme.matrix.ncols) (hne : fc ≠ fc')
    (hcm : scheme.commit (fc.map rd.crt) = scheme.commit (fc'.map rd.crt)) (b1 b2 b3 b4 : List UInt8) (c1 c2 c3 c4 : C)
    (hb1 : b1.length = 16) (hb2 : b2.length = 16) (hb3 : b3.length = 16) (hb4 : b4.length = 16)
    (h1 : frogChallenge rd.coeff b1 = .ok c1) (h2 : frogChallenge rd.coeff b2 = .ok c2)
    (h3 : frogChallenge rd.coeff b3 = .ok c3) (h4 : frogChallenge rd.coeff b4 = .ok c4) (hd : b1 ≠ b2) (hd' : b3 ≠ b4)
    (α : ℕ) (hs : ∀ j i, Short α (rd.coeff ((c1 - c2) * fc.getD j 0) i))
    (hs' : ∀ j i, Short α (rd.coeff ((c3 - c4) * fc'.getD j 0) i)) :
    ∃ z : List C, z.length = scheme.matrix.ncols ∧ (∃ x ∈ z, x ≠ 0) ∧
      scheme.commit (z.map rd.crt) = .ok ⟨List.replicate scheme.matrix.vals.length 0⟩ ∧
      ∀ x ∈ z, ∀ i, ∃ n : ℤ, n.natAbs ≤ 8192 * (α / 2) ∧ rd.coeff x i = (n : ZMod pFrog) := by
  have hu : ∀ b b' c c', b.length = 16 → b'.length = 16 → frogChallenge rd.coeff b = .ok c →
      frogChallenge rd.coeff b' = .ok c' → b ≠ b' → IsUnit (c - c') := by
    intro b b' c c' g1 g2 g3 g4 g5
    obtain ⟨d, d', g6, g7, g8, -⟩ := C83_frog rd hX _ _ g1 g2 g5
    rw [g3] at g6; rw [g4] at g7; cases g6; cases g7; exact g8
  exact C87_kernel rd (frogSet rd.coeff) (table_frog rd hX) (bounded_frog rd) scheme fc fc' hl hl' hne hcm
    b1 b2 b3 b4 c1 c2 c3 c4 hb1 hb2 hb3 hb4 h1 h2 h3 h4 (hu _ _ _ _ hb1 hb2 h1 h2 hd) (hu _ _ _ _ hb3 hb4 h3 h4 hd') α hs hs'

/-- **C87** (Stark): `16320 = 4 * 16 * 255`. -/
theorem C87_stark [Algebra (ZMod pStark) F] [Algebra (ZMod pStark) C]
    (rd : RingData (ZMod pStark) F C 16 1) (hX : rd.X ^ 16 + 1 = 0) (scheme : Ajtai (Fin 16 → F)) (fc fc' : List C)
    (hl : fc.length = scheme.matrix.ncols) (hl' : fc'.length = scheme.matrix.ncols) (hne : fc ≠ fc')
    (hcm : scheme.commit (fc.map rd.crt) = scheme.commit (fc'.map rd.crt)) (b1 b2 b3 b4 : List UInt8) (c1 c2 c3 c4 : C)
    (hb1 : b1.length = 16) (hb2 : b2.length = 16) (hb3 : b3.length = 16) (hb4 : b4.length = 16)
    (h1 : starkChallenge rd.coeff b1 = .ok c1) (h2 : starkChallenge rd.coeff b2 = .ok c2)
    (h3 : starkChallenge rd.coeff b3 = .ok c3) (h4 : starkChallenge rd.coeff b4 = .ok c4) (hd : b1 ≠ b2) (hd' : b3 ≠ b4)
    (α : ℕ) (hs : ∀ j i, Short α (rd.coeff ((c1 - c2) * fc.getD j 0) i))
    (hs' : ∀ j i, Short α (rd.coeff ((c3 - c4) * fc'.getD j 0) i)) :
    ∃ z : List C, z.length = scheme.matrix.ncols ∧ (∃ x ∈ z, x ≠ 0) ∧
      scheme.commit (z.map rd.crt) = .ok ⟨List.replicate scheme.matrix.vals.length 0⟩ ∧
      ∀ x ∈ z, ∀ i, ∃ n : ℤ, n.natAbs ≤ 16320 * (α / 2) ∧ rd.coeff x i = (n : ZMod pStark) := by
  have hu : ∀ b b' c c', b.length = 16 → b'.length = 16 → starkChallenge rd.coeff b = .ok c →
      starkChallenge rd.coeff b' = .ok c' → b ≠ b' → IsUnit (c - c') := by
    intro b b' c c' g1 g2 g3 g4 g5
    obtain ⟨d, d', g6, g7, g8, -⟩ := C83_stark rd hX _ _ g1 g2 g5
    rw [g3] at g6; rw [g4] at g7; cases g6; cases g7; exact g8
  exact C87_kernel rd (starkSet rd.coeff) (table_stark rd hX) (bounded_stark rd) scheme fc fc' hl hl' hne hcm
    b1 b2 b3 b4 c1 c2 c3 c4 hb1 hb2 hb3 hb4 h1 h2 h3 h4 (hu _ _ _ _ hb1 hb2 h1 h2 hd) (hu _ _ _ _ hb3 hb4 h3 h4 hd') α hs hs'

/-- Matrix `(1 1)`, openings `(1, 0)` and `(0, 1)`, challenges of the bytes `0` and `255` (also `1` and `254`): a kernel
vector with coefficients at most `4608 * 64`. -/
example : ∃ z : List (Example.Rq pGoldilocks 72), z.length = 2 ∧ (∃ x ∈ z, x ≠ 0) ∧
    (⟨⟨1, 2, [[1, 1]]⟩⟩ : Ajtai (Fin 8 → GaloisField pGoldilocks 3)).commit
      (z.map (Example.ringRq goldilocksData (by norm_num)).crt) = .ok ⟨[0]⟩ ∧
    ∀ x ∈ z, ∀ i, ∃ n : ℤ, n.natAbs ≤ 4608 * 64 ∧
      (Example.ringRq goldilocksData (by norm_num)).coeff x i = (n : ZMod pGoldilocks) := by
  classical
  set rd := Example.ringRq goldilocksData (by norm_num) with hrd
  obtain ⟨c1, c2, h1, h2, -⟩ := C83_goldilocks rd rq_goldilocks_X (List.replicate 18 0) (List.replicate 18 255)
    rfl rfl (by decide)
  obtain ⟨c3, c4, h3, h4, -⟩ := C83_goldilocks rd rq_goldilocks_X (List.replicate 18 1) (List.replicate 18 254)
    rfl rfl (by decide)
  have hshort : ∀ b b' c c', b.length = 18 → b'.length = 18 → packedChallenge rd.coeff b = .ok c →
      packedChallenge rd.coeff b' = .ok c' → ∀ i, Short 128 (rd.coeff (c - c') i) := by
    intro b b' c c' g1 g2 g3 g4 i
    obtain ⟨r, r1, -, r2⟩ := bounded_packed rd b c g1 g3
    obtain ⟨r', r1', -, r2'⟩ := bounded_packed rd b' c' g2 g4
    refine ⟨r i - r' i, ?_, ?_⟩
    · have e1 := r2 i i.2
      have e2 := r2' i i.2
      rw [abs_le] at e1 e2
      omega
    · rw [map_sub, Pi.sub_apply, r1, r1']
      push_cast
      ring
  have hz : ∀ i, Short 128 (rd.coeff 0 i) := fun i => ⟨0, by simp, by simp⟩
  exact C87_goldilocks rd rq_goldilocks_X ⟨⟨1, 2, [[1, 1]]⟩⟩ [1, 0] [0, 1] rfl rfl
    (by
      intro h
      have h5 := congrFun (congrArg rd.crt (List.cons.inj h).1) 0
      rw [map_one, map_zero] at h5
      exact one_ne_zero h5)
    (by rw [commit_ok _ _ rfl, commit_ok _ _ rfl]; simp [dot]) _ _ _ _ c1 c2 c3 c4 rfl rfl rfl rfl h1 h2 h3 h4
    (by decide) (by decide) 128
    (fun j i => by
      rcases j with _ | _ | j
      · simpa using hshort _ _ c1 c2 rfl rfl h1 h2 i
      · simpa using hz i
      · simpa using hz i)
    (fun j i => by
      rcases j with _ | _ | j
      · simpa using hz i
      · simpa using hshort _ _ c3 c4 rfl rfl h3 h4 i
      · simpa using hz i)

end BindingRings

end Verif.Props
