import Verif.Lemmas.Mismatch
import Verif.Props.ExampleRing257

set_option linter.unusedSimpArgs false
set_option linter.unusedSectionVars false

/-! # Property C101: commitments to something else are not noticed, and their errors are combined. -/

namespace Verif.Props
open Verif Verif.Spec Finset Verif.Example

variable {Fp F C σ : Type} {N τ : Nat} [Field Fp] [Field F] [DecidableEq F] [Algebra Fp F] [CommRing C] [Algebra Fp C]

theorem trueCm_len (scheme : Ajtai (Fin N → F)) (w : Witness (Fin N → F) C) :
    (trueCm scheme w).val.length = scheme.matrix.vals.length := by simp [trueCm]

theorem upToCm_holds_iff {rd : RingData Fp F C N τ} {P : Params} {ccs : CCS (Fin N → F)} {scheme : Ajtai (Fin N → F)}
    (hS : SizesOK P ccs scheme) {st : LCCCS (Fin N → F)} {w : Witness (Fin N → F) C} (h : LcccsUpToCm rd P ccs scheme st w) :
    LcccsHolds rd P ccs scheme st w ↔
      ∀ j < scheme.matrix.vals.length, st.cm.val.getD j 0 - (trueCm scheme w).val.getD j 0 = 0 := by
  have hc := commit_trueCm hS h.witOK
  constructor
  · intro hh j _
    have := hh.cm
    rw [hc] at this
    rw [Except.ok.inj this, sub_self]
  · intro hj
    refine ⟨h.witOK, ?_, h.xlen, h.evals⟩
    rw [hc]
    have : (trueCm scheme w).val = st.cm.val := by
      refine List.ext_getElem (by rw [trueCm_len, h.cmLen]) fun j h1 h2 => ?_
      have := sub_eq_zero.1 (hj j (by rw [trueCm_len] at h1; exact h1))
      rw [List.getD_eq_getElem?_getD, List.getD_eq_getElem?_getD, List.getElem?_eq_getElem h1, List.getElem?_eq_getElem h2] at this
      exact this.symm
    generalize trueCm scheme w = a at this
    obtain ⟨v⟩ := a
    simp only at this
    rw [this]

/-- **C101.** Take an accumulator and a fresh statement whose witnesses are in order but whose commitments are arbitrary vectors of
the right length. Proving and verifying succeed with the same new accumulator and transcript. The new accumulator is in order up to its
commitment. The error of that commitment, in each of its entries, is `ρ_0` times the old error plus `ρ_K` times the error of
the fresh commitment, for two challenges `ρ_0` and `ρ_K` (`ρ_K` is `1` if `K = 1`). So the new accumulator is valid exactly if these combinations vanish. -/
theorem C101_errors_combine (rd : RingData Fp F C N τ) (P : Params) (cs : ChallengeSet C)
    (T : Transcript F (Fin N → F) σ) (s : σ) (ccs : CCS (Fin N → F)) (scheme : Ajtai (Fin N → F))
    (acc : LCCCS (Fin N → F)) (wAcc : Witness (Fin N → F) C) (cm : CCCS (Fin N → F)) (w : Witness (Fin N → F) C)
    (ca cw : Commitment (Fin N → F))
    (hP : ParamsOK Fp P) (hS : SizesOK P ccs scheme) (ht : ccs.t = ccs.M.length) (al : Aligned ccs)
    (hc : CharGt F (2 * P.bSmall)) (hd : CharGt F (ccs.d + 1))
    (hT : ∀ s n, (T.bytes s n).1.length = n)
    (hcs : ∀ bs, bs.length = cs.bytesNeeded → ∃ c, cs.decode bs = .ok c)
    (hacc : LcccsUpToCm rd P ccs scheme acc wAcc) (hsh : WitShort rd (reach P.bSmall P.K) wAcc)
    (hca : scheme.commit wAcc.f = .ok ca)
    (hw : WitOK rd P (ccs.n - ccs.l - 1) w) (hcml : cm.cm.val.length = scheme.matrix.vals.length)
    (hxl : cm.x_ccs.length = ccs.l) (hsat : CCSHolds ccs ((cm.x_ccs ++ [1]) ++ w.wCcs))
    (hwsh : WitShort rd (reach P.bSmall P.K) w) (hcw : scheme.commit w.f = .ok cw) :
    ∃ st w' proof s' c', nifsProve rd P cs T s acc wAcc cm w ccs scheme = .ok ((st, w', proof), s') ∧
      nifsVerify rd P cs T s acc cm proof ccs = .ok (st, s') ∧
      LcccsUpToCm rd P ccs scheme st w' ∧ scheme.commit w'.f = .ok c' ∧
      ∃ rho : Nat → C, rho (2 * P.K - 1) = 1 ∧
        (∀ k < 2 * P.K - 1, ∃ bs, bs.length = cs.bytesNeeded ∧ cs.decode bs = .ok (rho k)) ∧
        (∀ j < scheme.matrix.vals.length, st.cm.val.getD j 0 - c'.val.getD j 0
          = rd.crt (rho 0) * (acc.cm.val.getD j 0 - ca.val.getD j 0) + rd.crt (rho P.K) * (cm.cm.val.getD j 0 - cw.val.getD j 0)) ∧
        (LcccsHolds rd P ccs scheme st w' ↔ ∀ j < scheme.matrix.vals.length,
          rd.crt (rho 0) * (acc.cm.val.getD j 0 - ca.val.getD j 0) + rd.crt (rho P.K) * (cm.cm.val.getD j 0 - cw.val.getD j 0) = 0) := by
  obtain ⟨st, w', proof, s', h1, h2, h3, rho, h4, h5, h6⟩ := nifs_open rd P cs T s ccs scheme acc wAcc cm w hP hS ht al hc hd hT hcs
    hacc hsh hw hcml hxl hsat hwsh
  have e1 : ca = trueCm scheme wAcc := Except.ok.inj (hca.symm.trans (commit_trueCm hS hacc.witOK))
  have e2 : cw = trueCm scheme w := Except.ok.inj (hcw.symm.trans (commit_trueCm hS hw))
  subst e1 e2
  refine ⟨st, w', proof, s', _, h1, h2, h3, commit_trueCm hS h3.witOK, rho, h4, h5, h6, ?_⟩
  rw [upToCm_holds_iff hS h3]
  exact forall_congr' fun j => forall_congr' fun hj => by rw [h6 j hj]

/-- **C101**, consequence: with a valid fresh statement and invertible challenges an accumulator with a wrong commitment never becomes valid,
and no step reports it: the new accumulator is valid if and only if the old one is. -/
theorem C101_wrong_stays_wrong (rd : RingData Fp F C N τ) (P : Params) (cs : ChallengeSet C)
    (T : Transcript F (Fin N → F) σ) (s : σ) (ccs : CCS (Fin N → F)) (scheme : Ajtai (Fin N → F))
    (acc : LCCCS (Fin N → F)) (wAcc : Witness (Fin N → F) C) (cm : CCCS (Fin N → F)) (w : Witness (Fin N → F) C)
    (hP : ParamsOK Fp P) (hS : SizesOK P ccs scheme) (ht : ccs.t = ccs.M.length) (al : Aligned ccs)
    (hc : CharGt F (2 * P.bSmall)) (hd : CharGt F (ccs.d + 1))
    (hT : ∀ s n, (T.bytes s n).1.length = n)
    (hcs : ∀ bs, bs.length = cs.bytesNeeded → ∃ c, cs.decode bs = .ok c ∧ IsUnit c)
    (hacc : LcccsUpToCm rd P ccs scheme acc wAcc) (hsh : WitShort rd (reach P.bSmall P.K) wAcc)
    (hfr : FreshHolds rd P ccs scheme cm w) :
    ∃ st w' proof s', nifsProve rd P cs T s acc wAcc cm w ccs scheme = .ok ((st, w', proof), s') ∧
      nifsVerify rd P cs T s acc cm proof ccs = .ok (st, s') ∧
      LcccsUpToCm rd P ccs scheme st w' ∧
      (LcccsHolds rd P ccs scheme st w' ↔ LcccsHolds rd P ccs scheme acc wAcc) := by
  have hcl : cm.cm = trueCm scheme w := Except.ok.inj (hfr.opens.symm.trans (commit_trueCm hS hfr.witOK))
  obtain ⟨st, w', proof, s', c', h1, h2, h3, -, rho, -, h5, -, h7⟩ := C101_errors_combine rd P cs T s ccs scheme acc wAcc cm w _ _ hP hS ht al hc hd hT
    (fun bs hb => let ⟨c, h, _⟩ := hcs bs hb; ⟨c, h⟩) hacc hsh (commit_trueCm hS hacc.witOK) hfr.witOK
    (by rw [hcl]; exact trueCm_len _ _) hfr.xlen hfr.sat hfr.short hfr.opens
  refine ⟨st, w', proof, s', h1, h2, h3, ?_⟩
  rw [h7, upToCm_holds_iff hS hacc]
  have hK := hP.Kpos
  obtain ⟨bs, hb1, hb2⟩ := h5 0 (by omega)
  obtain ⟨c, hc1, hc2⟩ := hcs bs hb1
  have hu : IsUnit (rd.crt (rho 0)) := by
    rw [hb2] at hc1
    rw [Except.ok.inj hc1]
    exact hc2.map rd.crt
  refine forall_congr' fun j => forall_congr' fun _ => ?_
  rw [sub_self, mul_zero, add_zero, hu.mul_right_eq_zero]

end Verif.Props

namespace Verif.Example
open Verif Verif.Spec Verif.Props

/-- The challenge set in which byte `b` is the challenge `b + 1`, so that every challenge is invertible. -/
def csUnit257 : ChallengeSet C257 := ⟨1, fun bs => match bs with
  | [b] => .ok ![((b.toNat + 1 : Nat) : ZMod 257)]
  | _ => .error (.tooFewBytes bs.length 1)⟩

theorem csUnit257_ok (bs : List UInt8) (h : bs.length = csUnit257.bytesNeeded) : ∃ c, csUnit257.decode bs = .ok c ∧ IsUnit c := by
  match bs, h with
  | [b], _ =>
    refine ⟨_, rfl, ?_⟩
    have hne : ((b.toNat + 1 : Nat) : ZMod 257) ≠ 0 := by
      rw [Ne, ZMod.natCast_eq_zero_iff]
      intro h
      have := Nat.le_of_dvd (by omega) h
      have := b.toNat_lt
      omega
    refine IsUnit.of_mul_eq_one (fun _ => ((b.toNat + 1 : Nat) : ZMod 257)⁻¹) (funext fun i => ?_)
    have hi : i = 0 := Subsingleton.elim _ _
    subst hi
    exact mul_inv_cancel₀ hne

/-- A valid accumulator whose commitment was replaced by `(5, 6)`. -/
def accWrong257 : LCCCS C257 := { acc257 ![3] ![2] ![1] (wit257 ![1] ![2]) with cm := ⟨[![5], ![6]]⟩ }

/-- The true commitment is `(5, 2)`. -/
theorem accWrong257_open : LcccsUpToCm ring257 par257 ccs257 scheme257 accWrong257 (wit257 ![1] ![2]) :=
  let h := acc257_holds ![3] ![2] ![1] ![1] ![2]
  ⟨h.witOK, rfl, h.xlen, ⟨h.evals.rlen, h.evals.v, h.evals.u⟩⟩

theorem accWrong257_invalid : ¬ LcccsHolds ring257 par257 ccs257 scheme257 accWrong257 (wit257 ![1] ![2]) := by
  intro h
  have h1 := h.cm
  have h2 := (acc257_holds ![3] ![2] ![1] ![1] ![2]).cm
  rw [h2] at h1
  have h3 := (Commitment.mk.injEq _ _).mp (Except.ok.inj h1)
  exact absurd h3 (by decide +kernel)

/-- With this accumulator and a valid fresh statement, whatever the transcript: the proof is accepted and the new accumulator is invalid. -/
example {σ : Type} (T : Transcript (ZMod 257) C257 σ) (s : σ) (hT : ∀ s n, (T.bytes s n).1.length = n) :
    ∃ st w' proof s', nifsProve ring257 par257 csUnit257 T s accWrong257 (wit257 ![1] ![2]) fresh257 (wit257 ![3] ![2]) ccs257 scheme257
        = .ok ((st, w', proof), s') ∧
      nifsVerify ring257 par257 csUnit257 T s accWrong257 fresh257 proof ccs257 = .ok (st, s') ∧
      ¬ LcccsHolds ring257 par257 ccs257 scheme257 st w' := by
  obtain ⟨st, w', proof, s', h1, h2, -, h4⟩ := C101_wrong_stays_wrong ring257 par257 csUnit257 T s ccs257 scheme257 accWrong257 _ fresh257 _
    par257_ok sizes257 rfl aligned257 (charGt257 _ (by decide)) (charGt257 _ (by decide)) hT csUnit257_ok accWrong257_open (fun _ _ _ => reach257 _)
    fresh257_holds
  exact ⟨st, w', proof, s', h1, h2, fun h => accWrong257_invalid (h4.1 h)⟩

end Verif.Example
