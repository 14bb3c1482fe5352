import Verif.Spec.Knowledge
import Verif.Props.Extract
import Verif.Props.FoldingSound
import Verif.Props.NormTables

/-!
# Lemmas for the knowledge soundness of folding
-/

set_option linter.unusedSectionVars false
set_option linter.unusedSimpArgs false

namespace Verif

open Finset Spec Props

section Gen
variable {Fp F C σ : Type} {N τ : Nat} [Field Fp] [Field F] [DecidableEq F] [Algebra Fp F] [CommRing C]
  [Algebra Fp C]

theorem scripted_coin (B : Nat → Nat → List UInt8) :
    scripted (coinT F (Fin N → F)) B = coinBT fun k n => (B k n, k + 1) := rfl

theorem theta_len (rd : RingData Fp F C N τ) (P : Params) (hK : 1 ≤ P.K) (cs : ChallengeSet C)
    (T : Transcript F (Fin N → F) σ) (B : Nat → Nat → List UInt8) (s : σ) (s' : σ × Nat) (ccs : CCS (Fin N → F))
    (cms : List (LCCCS (Fin N → F))) (proof : FoldProof (Fin N → F)) (st : LCCCS (Fin N → F))
    (h : foldVerify rd P cs (scripted T B) (s, 0) cms proof ccs = .ok (st, s')) : proof.thetaS.length = 2 * P.K := by
  obtain ⟨-, ch, s1, sc, s2, -, -, rhoC, rho, out, h1, h2, -, -, -, h3, h4, h5⟩ := (foldVerify_iff _ _ _ _ _ _ _ _ _ _).1 h
  rw [scripted_squeezeFold, map_ok_iff] at h1
  obtain ⟨⟨ch', t1⟩, h1, h6⟩ := h1
  simp only [Prod.mk.injEq] at h6
  obtain ⟨rfl, rfl⟩ := h6
  rw [scripted_verify, map_ok_iff] at h2
  obtain ⟨⟨sc', t2⟩, h2, h6⟩ := h2
  simp only [Prod.mk.injEq] at h6
  obtain ⟨rfl, rfl⟩ := h6
  rw [scripted_absorbSlices, scripted_absorbSlices] at h3
  obtain ⟨-, f, rfl, rfl, hf1, hf2⟩ := (scripted_rhos rd P hK cs T B _ _ _ _).1 h3
  unfold computeFolded at h4
  simp only [bind_eq_ok] at h4
  obtain ⟨v0, h6, h7⟩ := h4
  obtain ⟨g1, -, -⟩ := ((C43_defined_iff rd _ _).1).1 ⟨v0, h6⟩
  rw [List.length_map, List.length_range] at g1
  exact g1.symm

theorem toList_length {n : Nat} (b : Bytes n) : b.toList.length = n := by simp [Bytes.toList]

theorem byteScript_length (cs : ChallengeSet C) {m : Nat} (ρ : Fin m → Bytes cs.bytesNeeded) (k n : Nat) :
    (byteScript cs ρ k n).length = n := by
  unfold byteScript
  split
  · rename_i h
    rw [toList_length, h.2]
  · simp

theorem byteScript_at (cs : ChallengeSet C) {m : Nat} (ρ : Fin m → Bytes cs.bytesNeeded) (k : Nat) (hk : k < m) :
    byteScript cs ρ k cs.bytesNeeded = (ρ ⟨k, hk⟩).toList := by
  unfold byteScript
  rw [dif_pos ⟨hk, rfl⟩]

theorem byteScript_update (cs : ChallengeSet C) {m : Nat} (ρ : Fin m → Bytes cs.bytesNeeded) (i : Fin m) (b : Bytes cs.bytesNeeded) :
    byteScript cs (Function.update ρ i b) = changeAt (byteScript cs ρ) i (byteScript cs (Function.update ρ i b) i) := by
  funext k n
  unfold changeAt
  split
  · rename_i h; rw [h]
  · rename_i h
    unfold byteScript
    by_cases hk : k < m ∧ n = cs.bytesNeeded
    · rw [dif_pos hk, dif_pos hk, Function.update_of_ne]
      intro hc
      exact h (congrArg Fin.val hc)
    · rw [dif_neg hk, dif_neg hk]

theorem witShort_vec (rd : RingData Fp F C N τ) {bound : Nat} {w : Witness (Fin N → F) C} (h : WitShort rd bound w) :
    ShortVec rd bound w.fCoeff := by
  intro j i
  by_cases hj : j < w.fCoeff.length
  · apply h
    rw [List.getD_eq_getElem?_getD, List.getElem?_eq_getElem hj]
    exact List.getElem_mem _
  · rw [getD_out _ (by omega)]
    exact ⟨0, by simp, by simp⟩

/-- What forked runs give. -/
theorem forks_extract (rd : RingData Fp F C N τ) (P : Params) (hK : 1 ≤ P.K) (cs : ChallengeSet C)
    (w0 : List F) (ccs : CCS (Fin N → F)) (scheme : Ajtai (Fin N → F))
    (hS : SizesOK P ccs scheme) (ht : ccs.t = ccs.M.length) (cms : List (LCCCS (Fin N → F)))
    (proof : FoldProof (Fin N → F)) (hsh : FoldShape P ccs scheme cms proof.etaS) (bound : Nat)
    (ρ : Fin (2 * P.K - 1) → Bytes cs.bytesNeeded) (h : Succeeds rd P cs ccs scheme cms bound w0 ρ proof)
    (h' : ∀ i, ∃ b, UnitPair cs (ρ i) b ∧ Succeeds rd P cs ccs scheme cms bound w0 (Function.update ρ i b) proof) :
    ∃ (st : LCCCS (Fin N → F)) (t : List F × Nat) (g : Witness (Fin N → F) C) (W : Nat → Witness (Fin N → F) C) (rho : Nat → C),
      foldVerify rd P cs (scripted (coinT F (Fin N → F)) (byteScript cs ρ)) (w0, 0) cms proof ccs = .ok (st, t) ∧
      LcccsHolds rd P ccs scheme st g ∧ WitShort rd bound g ∧
      (∀ k < 2 * P.K, LcccsHolds rd P ccs scheme (claimed cms proof.thetaS proof.etaS 0 st.r k) (W k)) ∧
      (∀ k < 2 * P.K - 1, Relaxed rd cs (2 * bound) (W k).fCoeff) ∧
      (∀ k < 2 * P.K - 1, cs.decode (byteScript cs ρ k cs.bytesNeeded) = .ok (rho k)) ∧
      ∀ j, (W (2 * P.K - 1)).fCoeff.getD j 0 = g.fCoeff.getD j 0 - ∑ k ∈ range (2 * P.K - 1), rho k * (W k).fCoeff.getD j 0 := by
  obtain ⟨st, t, w, h1, h2, h3⟩ := h
  choose b hb hb' using h'
  choose st' t' w' h4 h5 h6 using hb'
  have i1 : Nonempty (LCCCS (Fin N → F)) := ⟨st⟩
  have i2 : Nonempty (List F × Nat) := ⟨t⟩
  have i3 : Nonempty (Witness (Fin N → F) C) := ⟨w⟩
  let bb : Nat → Nat → List UInt8 := fun i => if hi : i < 2 * P.K - 1 then byteScript cs (Function.update ρ ⟨i, hi⟩ (b ⟨i, hi⟩)) i
    else fun n => List.replicate n 0
  have hbb : ∀ i (hi : i < 2 * P.K - 1), bb i = byteScript cs (Function.update ρ ⟨i, hi⟩ (b ⟨i, hi⟩)) i := fun i hi => by
    simp only [bb, dif_pos hi]
  have hbn : ∀ i (hi : i < 2 * P.K - 1), bb i cs.bytesNeeded = (b ⟨i, hi⟩).toList := by
    intro i hi
    rw [hbb i hi, byteScript_at _ _ _ hi, Function.update_self]
  have hu : ∀ i < 2 * P.K - 1, ∀ c c', cs.decode (byteScript cs ρ i cs.bytesNeeded) = .ok c →
      cs.decode (bb i cs.bytesNeeded) = .ok c' → IsUnit (c - c') := by
    intro i hi c c' e1 e2
    rw [byteScript_at _ _ _ hi] at e1
    rw [hbn i hi] at e2
    exact hb ⟨i, hi⟩ c c' e1 e2
  obtain ⟨W, hW, hrel, rho, hr1, hr2, hcomb⟩ := C86_extract rd P hK cs _ w0 ccs scheme hS ht cms proof hsh _ st t w h1 h2 bb
    (fun i => if hi : i < 2 * P.K - 1 then st' ⟨i, hi⟩ else st) (fun i => if hi : i < 2 * P.K - 1 then t' ⟨i, hi⟩ else t)
    (fun i => if hi : i < 2 * P.K - 1 then w' ⟨i, hi⟩ else w)
    (by
      intro i hi
      rw [dif_pos hi, dif_pos hi, hbb i hi, ← byteScript_update cs ρ ⟨i, hi⟩ (b ⟨i, hi⟩)]
      exact h4 ⟨i, hi⟩)
    (by
      intro i hi
      rw [dif_pos hi, dif_pos hi]
      exact h5 ⟨i, hi⟩) hu
  refine ⟨st, t, w, W, rho, h1, h2, h3, hW, fun i hi => ?_, hr2, fun j => ?_⟩
  · obtain ⟨c, c', e1, e2, e3⟩ := hrel i hi
    refine ⟨c, c', ⟨_, byteScript_length _ _ _ _, e1⟩, ⟨_, by rw [hbn i hi, toList_length], e2⟩, hu i hi c c' e1 e2, fun j m => ?_⟩
    rw [dif_pos hi] at e3
    exact C86_relaxed_short rd bound w (w' ⟨i, hi⟩) _ _ h3 (h6 ⟨i, hi⟩) e3 j m
  · have := hcomb.eq_all j
    rw [show 2 * P.K = (2 * P.K - 1) + 1 by omega, sum_range_succ, hr1, one_mul] at this
    rw [this]
    simp

/-- Well-formed witnesses with the same coefficients claim the same evaluations. -/
theorem witOK_evals (rd : RingData Fp F C N τ) (P : Params) {wl : Nat} {w w' : Witness (Fin N → F) C}
    (h : WitOK rd P wl w) (h' : WitOK rd P wl w') (he : w.fCoeff = w'.fCoeff) (x : List (Fin N → F)) :
    w.wCcs = w'.wCcs ∧ (w.fHat.map fun m => mle m.get x) = w'.fHat.map fun m => mle m.get x := by
  have hf : w.f = w'.f := by rw [h.f, h'.f, he]
  refine ⟨ext_getD h.wlen h'.wlen fun i hi => by rw [h.w i hi, h'.w i hi, hf], ?_⟩
  apply List.ext_getElem
  · simp [h.hatlen, h'.hatlen]
  intro j h1 h2
  rw [List.length_map, h.hatlen] at h1
  have e : ∀ i, (w.fHat.getD j ⟨0, []⟩).get i = (w'.fHat.getD j ⟨0, []⟩).get i := by
    intro i
    funext a
    have hlt : j * N + a < τ * N := by
      have h2 := a.2
      calc j * N + a < j * N + N := by omega
        _ = (j + 1) * N := by ring
        _ ≤ τ * N := Nat.mul_le_mul_right _ h1
    rw [h.hat j h1 i a hlt, h'.hat j h1 i a hlt, he]
  have g1 : w.fHat.getD j ⟨0, []⟩ = w.fHat[j]'(by rw [h.hatlen]; exact h1) := by
    simp [List.getD_eq_getElem?_getD, h.hatlen, h1]
  have g2 : w'.fHat.getD j ⟨0, []⟩ = w'.fHat[j]'(by rw [h'.hatlen]; exact h1) := by
    simp [List.getD_eq_getElem?_getD, h'.hatlen, h1]
  rw [List.getElem_map, List.getElem_map]
  rw [g1, g2] at e
  rw [show (w.fHat[j]'(by rw [h.hatlen]; exact h1)).get = (w'.fHat[j]'(by rw [h'.hatlen]; exact h1)).get from funext e]

end Gen

section Coin
variable {Fp F C : Type} {N τ : Nat} [Field Fp] [Field F] [DecidableEq F] [Algebra Fp F] [CommRing C]
  [Algebra Fp C]

/-- On a tape of challenges the new point is the end of the tape. -/
theorem coin_point (rd : RingData Fp F C N τ) (P : Params) (hK : 1 ≤ P.K) (cs : ChallengeSet C)
    (B : Nat → Nat → List UInt8) (w : List F) (t : List F × Nat) (ccs : CCS (Fin N → F)) (hn : 1 ≤ ccs.s)
    (hw : w.length = 6 * P.K - 1 + ccs.s + ccs.s)
    (cms : List (LCCCS (Fin N → F))) (proof : FoldProof (Fin N → F)) (st : LCCCS (Fin N → F)) (strat : List F → List (Fin N → F))
    (hp : proof.sumcheck = strategyProof strat (w.drop (6 * P.K - 1 + ccs.s)))
    (h : foldVerify rd P cs (scripted (coinT F (Fin N → F)) B) (w, 0) cms proof ccs = .ok (st, t)) :
    st.r = (w.drop (6 * P.K - 1 + ccs.s)).map (algebraMap F (Fin N → F)) := by
  rw [scripted_coin] at h
  rw [foldVerify_iff] at h
  obtain ⟨-, ch, s1, sc, s2, eS, es, rhoC, rho, out, k1, k2, -, -, -, -, -, k6⟩ := h
  have hsplit : w = w.take (6 * P.K - 1 + ccs.s) ++ w.drop (6 * P.K - 1 + ccs.s) := (List.take_append_drop _ _).symm
  rw [hsplit, squeezeFold_coin _ P hK ccs.s _ _ 0 (by simp; omega)] at k1
  simp only [Except.ok.injEq, Prod.mk.injEq] at k1
  obtain ⟨rfl, rfl⟩ := k1
  obtain ⟨-, k2⟩ := verify_coinBT _ _ _ _ _ _ _ _ _ k2
  rw [hp] at k2
  have hpt := verify_coin_point hn _ _ _ (by simp; omega) sc s2.1 k2
  rw [← hpt]
  unfold foldOutput at k6
  split at k6
  · cases k6
  · have := Except.ok.inj k6
    rw [← this]

end Coin

section Norm
open NormGrowth
variable {p : ℕ} [Fact p.Prime] {F C : Type} {N τ : ℕ} [Field F] [CommRing C] [Algebra (ZMod p) F] [Algebra (ZMod p) C]

/-- A short vector minus a combination by challenges of `M` elements below `b`. -/
theorem sub_comb_short (rd : RingData (ZMod p) F C N τ) (cs : ChallengeSet C) {red : ℕ → ℕ → ℤ} {s γ β : ℕ}
    (ht : Table rd red s γ) (hc : Bounded rd cs s β) (b bound : ℕ) (g : C) (hg : ∀ i, Short bound (rd.coeff g i))
    (rho x : ℕ → C) : ∀ M, (∀ k < M, IsChallenge cs (rho k)) →
    (∀ k < M, ∀ i, ∃ n : ℤ, n.natAbs < b ∧ rd.coeff (x k) i = (n : ZMod p)) →
    ∀ i, Short (bound + 2 * (M * (γ * β * (b - 1)))) (rd.coeff (g - ∑ k ∈ range M, rho k * x k) i)
  | 0, _, _, i => by simpa using hg i
  | M + 1, hrho, hx, i => by
    obtain ⟨n, n1, n2⟩ := sub_comb_short rd cs ht hc b bound g hg rho x M (fun k hk => hrho k (by omega)) (fun k hk => hx k (by omega)) i
    obtain ⟨bs, hb, hd⟩ := hrho M (by omega)
    obtain ⟨r, r1, r2, r3⟩ := hc bs _ hb hd
    have hs : ∀ i, Short (2 * (b - 1)) (rd.coeff (x M) i) := by
      intro i
      obtain ⟨m, m1, m2⟩ := hx M (by omega) i
      exact ⟨m, by omega, m2⟩
    obtain ⟨a, a1, a2⟩ := short_lift rd hs
    rw [Nat.mul_div_cancel_left _ (by norm_num)] at a2
    have h3 := abs_conv_le ht.exp r a β (b - 1) r3 a2 i i.2
    have h4 := coeff_mul rd.coeff rd.X rd.coeff_X red s ht.le ht.pow _ _ r a r1 r2 a1 i
    generalize hm : (∑ j ∈ range s, ∑ i' ∈ range (τ * N), r j * a i' * red (j + i') i) = m at h3 h4
    refine ⟨n - m, ?_, ?_⟩
    · rw [Int.abs_eq_natAbs] at h3
      have h3 : m.natAbs ≤ γ * β * (b - 1) := by exact_mod_cast h3
      have h5 := Int.natAbs_sub_le n m
      have h6 : (M + 1) * (γ * β * (b - 1)) = M * (γ * β * (b - 1)) + γ * β * (b - 1) := by ring
      omega
    · rw [sum_range_succ, ← sub_sub, map_sub, Pi.sub_apply, n2, h4]
      push_cast
      ring

end Norm

end Verif
