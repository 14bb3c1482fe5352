import Verif.Lemmas.Extract

/-!
# Recomposing witnesses: combinations by integers at an arbitrary point
-/

set_option linter.unusedSectionVars false
set_option linter.unusedSimpArgs false

namespace Verif

open Finset Spec

variable {Fp F C : Type} {N τ : Nat} [Field Fp] [Field F] [DecidableEq F] [Algebra Fp F] [CommRing C] [Algebra Fp C]

/-- `st` is the combination of `n` statements with the integers `c`, all components being combined entrywise. -/
structure NatComb (ccs : CCS (Fin N → F)) (scheme : Ajtai (Fin N → F)) (τ n : Nat) (c : Nat → Nat)
    (S : Nat → LCCCS (Fin N → F)) (st : LCCCS (Fin N → F)) : Prop where
  cm : IsComb n (fun k => (c k : Fin N → F)) (fun k => (S k).cm.val) st.cm.val scheme.matrix.vals.length
  x : IsComb n (fun k => (c k : Fin N → F)) (fun k => (S k).x_w ++ [(S k).h]) (st.x_w ++ [st.h]) (ccs.l + 1)
  u : IsComb n (fun k => (c k : Fin N → F)) (fun k => (S k).u) st.u ccs.M.length
  v : IsComb n (fun k => (c k : Fin N → F)) (fun k => (S k).v) st.v τ

theorem hat_comb (rd : RingData Fp F C N τ) (P : Params) {wl n : Nat} (c : Nat → Nat) (W : Nat → Witness (Fin N → F) C)
    (hk : ∀ k < n, WitOK rd P wl (W k)) (w : Witness (Fin N → F) C) (hw : WitOK rd P wl w)
    (hfc : IsComb n (fun k => (c k : C)) (fun k => (W k).fCoeff) w.fCoeff (wl * P.L)) {j : Nat} (hj : j < τ) (i : Nat) :
    (w.fHat.getD j ⟨0, []⟩).get i = ∑ k ∈ range n, (c k : Fin N → F) * ((W k).fHat.getD j ⟨0, []⟩).get i := by
  funext a
  have ha : j * N + a < τ * N := slot_lt hj a
  rw [hw.hat j hj i a ha, Finset.sum_apply, hfc.eq_all, map_sum, Finset.sum_apply, map_sum]
  apply sum_congr rfl
  intro k hk'
  rw [Pi.mul_apply, (hk k (mem_range.1 hk')).hat j hj i a ha, coeff_natCast_mul, Pi.smul_apply, smul_eq_mul, map_mul,
    map_natCast, Pi.natCast_apply]

/-- The linearized relation at a point is closed under combinations by integers. -/
theorem lcccs_comb_nat (rd : RingData Fp F C N τ) (P : Params) (ccs : CCS (Fin N → F)) (scheme : Ajtai (Fin N → F))
    (hS : SizesOK P ccs scheme) {n : Nat} (hn : 1 ≤ n) (c : Nat → Nat)
    (S : Nat → LCCCS (Fin N → F)) (W : Nat → Witness (Fin N → F) C)
    (hk : ∀ k < n, LcccsHolds rd P ccs scheme (S k) (W k)) (st : LCCCS (Fin N → F))
    (hr : ∀ k < n, (S k).r = st.r) (hc : NatComb ccs scheme τ n c S st) (fc : List C)
    (hfc : IsComb n (fun k => (c k : C)) (fun k => (W k).fCoeff) fc ((ccs.n - ccs.l - 1) * P.L)) :
    LcccsHolds rd P ccs scheme st (mkWit rd P (ccs.n - ccs.l - 1) fc) := by
  set wl := ccs.n - ccs.l - 1 with hwl
  have hw := mkWit_ok rd P fc (wl := wl) hfc.len
  have hf : IsComb n (fun k => (c k : Fin N → F)) (fun k => (W k).f) (fc.map rd.crt) (wl * P.L) := by
    have h := map_crt_comb rd hfc
    refine ⟨h.len, fun k hk' => by rw [(hk k hk').witOK.f]; exact h.lens k hk', fun i hi => ?_⟩
    rw [h.eq i hi]
    apply sum_congr rfl
    intro k hk'
    rw [(hk k (mem_range.1 hk')).witOK.f, map_natCast]
  have hWf : ∀ k < n, (W k).f.length = wl * P.L := hf.lens
  refine ⟨hw, ?_, ?_, ⟨?_, ?_, ?_⟩⟩
  · change scheme.commit (fc.map rd.crt) = _
    rw [commit_ok scheme _ (by rw [List.length_map, hfc.len, hS.width])]
    have h1 := commit_comb hf scheme
    have h2 : IsComb n (fun k => (c k : Fin N → F)) (fun k => scheme.matrix.vals.map fun row => dot row (W k).f)
        st.cm.val scheme.matrix.vals.length := by
      refine ⟨hc.cm.len, by simp, fun i hi => ?_⟩
      rw [hc.cm.eq i hi]
      apply sum_congr rfl
      intro k hk'
      have h3 := (hk k (mem_range.1 hk')).cm
      rw [commit_ok scheme _ (by rw [hWf k (mem_range.1 hk'), hS.width])] at h3
      rw [← Except.ok.inj h3]
    have h3 := h1.unique h2
    rw [h3]
  · have := hc.x.len
    rw [List.length_append, List.length_singleton] at this
    omega
  · rw [← hr 0 (by omega)]
    exact (hk 0 (by omega)).evals.rlen
  · apply ext_getD hc.v.len (by rw [List.length_map, hw.hatlen])
    intro j hj
    have hget : ∀ (w : Witness (Fin N → F) C), WitOK rd P wl w → (w.fHat.map fun m => mle m.get st.r).getD j 0
        = mle (w.fHat.getD j ⟨0, []⟩).get st.r := by
      intro w hw
      simp [List.getD_eq_getElem?_getD, hw.hatlen, hj]
    rw [hc.v.eq j hj, hget _ hw, mle_comb (hat_comb rd P c W (fun k hk' => (hk k hk').witOK) _ hw hfc hj)]
    apply sum_congr rfl
    intro k hk'
    have hk2 := mem_range.1 hk'
    congr 1
    rw [(hk k hk2).evals.v, hr k hk2]
    exact hget _ (hk k hk2).witOK
  · have hwc : IsComb n (fun k => (c k : Fin N → F)) (fun k => (W k).wCcs) (mkWit rd P wl fc).wCcs wl := by
      have h1 := gadget_comb hf (fun l => (P.B : Fin N → F) ^ l)
      refine ⟨hw.wlen, fun k hk' => (hk k hk').witOK.wlen, fun i hi => ?_⟩
      have h2 := h1.eq i hi
      rw [getD_map_range _ _ hi] at h2
      rw [hw.w i hi]
      refine Eq.trans h2 ?_
      apply sum_congr rfl
      intro k hk'
      rw [getD_map_range _ _ hi, (hk k (mem_range.1 hk')).witOK.w i hi]
    have hz0 := hc.x.append hwc
    apply ext_getD hc.u.len (by simp)
    intro i hi
    rw [hc.u.eq i hi]
    simp only [List.getD_eq_getElem?_getD, List.getElem?_map, List.getElem?_eq_getElem hi, Option.map_some,
      Option.getD_some]
    rw [mle_comb (fun j => mulVec_comb hz0 ccs.M[i] j)]
    apply sum_congr rfl
    intro k hk'
    have hk2 := mem_range.1 hk'
    congr 1
    rw [(hk k hk2).evals.u, hr k hk2]
    simp [hi]

end Verif
