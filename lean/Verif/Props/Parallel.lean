import Verif.Lemmas.Parallel
import Verif.Props.Nifs
import Verif.Props.VerifierTotal

/-! # C100: with feature `parallel` the results do not depend on the schedule -/

set_option linter.unusedSectionVars false

namespace Verif.Props

open Verif.Spec

variable {Fp F C σ R : Type} {N τ : Nat}

section
variable [CommRing R] [CommRing F] [Algebra F R]

/-- **C100** for the sum-check prover alone: the proof, the prover state and the transcript are those of the sequential prover. -/
theorem C100_sumcheck (T : Transcript F R σ) (s : σ) (mles : List (Mle R)) (n d : Nat) (comb : List R → Res R) :
    SameResult (Par.proveAsSubprotocol T s mles n d comb) (proveAsSubprotocol T s mles n d comb) :=
  Par.same_subprotocol T s mles n d comb

/-- **C100** for one round message: whatever the scratch buffers of a chunk held before, as long as their sizes are those the code
allocates, going through the assignments `bs` adds to the chunk's partial sums what the sequential code adds, or fails like it. -/
theorem C100_buffers (polys : List (Mle R)) (d : Nat) (comb : List R → Res R) (bs : List Nat) (b : Par.Scratch R)
    (h1 : b.steps.length = polys.length) (h2 : b.vals0.length = polys.length) (h3 : b.vals1.length = polys.length)
    (h4 : b.vals.length = polys.length) (h5 : b.levals.length = d + 1) :
    (do let b' ← foldRes (Par.scratchStep polys d comb) b bs
        .ok b'.evals : Res (List R)) = foldRes (foldStep polys d comb) b.evals bs :=
  Par.scratchFold polys d comb bs b ⟨h1, h2, h3, h4, h5⟩

end

section
variable [Field Fp] [Field F] [DecidableEq F] [Algebra Fp F] [CommRing C] [Algebra Fp C]

/-- **C100** for the step of the folding scheme. The accumulator, the witness, the proof and the final transcript of every run that
succeeds are those of the sequential prover. A run fails under some schedule only if the sequential prover fails, and then no schedule
succeeds. -/
theorem C100_schedule_independent (rd : RingData Fp F C N τ) (P : Params) (cs : ChallengeSet C)
    (T : Transcript F (Fin N → F) σ) (s : σ) (acc : LCCCS (Fin N → F)) (wAcc : Witness (Fin N → F) C)
    (cm : CCCS (Fin N → F)) (w : Witness (Fin N → F) C) (ccs : CCS (Fin N → F)) (scheme : Ajtai (Fin N → F)) :
    SameResult (Par.nifsProve rd P cs T s acc wAcc cm w ccs scheme) (nifsProve rd P cs T s acc wAcc cm w ccs scheme) :=
  Par.same_nifsProve rd P cs T s acc wAcc cm w ccs scheme

/-- **C100** for the three subprotocols. -/
theorem C100_subprotocols (rd : RingData Fp F C N τ) (P : Params) (cs : ChallengeSet C)
    (T : Transcript F (Fin N → F) σ) (s : σ) (cm : CCCS (Fin N → F)) (w : Witness (Fin N → F) C) (ccs : CCS (Fin N → F))
    (scheme : Ajtai (Fin N → F)) (lc : LCCCS (Fin N → F)) (cms : List (LCCCS (Fin N → F)))
    (ws : List (Witness (Fin N → F) C)) (mz : List (List (Mle (Fin N → F)))) :
    SameResult (Par.linProve T s cm w ccs) (linProve T s cm w ccs) ∧
    SameResult (Par.decProve rd P T s lc w ccs scheme) (decProve rd P T s lc w ccs scheme) ∧
    SameResult (Par.foldProve rd P cs T s cms ws ccs mz) (foldProve rd P cs T s cms ws ccs mz) :=
  ⟨Par.same_linProve _ _ _ _ _, Par.same_decProve _ _ _ _ _ _ _ _, Par.same_foldProve _ _ _ _ _ _ _ _ _⟩

/-- **C100** for honest inputs: there is exactly one outcome, and it is a proof that the verifier accepts and a new accumulator that
holds. -/
theorem C100_honest (rd : RingData Fp F C N τ) (P : Params) (cs : ChallengeSet C)
    (T : Transcript F (Fin N → F) σ) (s : σ) (ccs : CCS (Fin N → F)) (scheme : Ajtai (Fin N → F))
    (acc : LCCCS (Fin N → F)) (wAcc : Witness (Fin N → F) C) (cm : CCCS (Fin N → F)) (w : Witness (Fin N → F) C)
    (hP : ParamsOK Fp P) (hS : SizesOK P ccs scheme) (ht : ccs.t = ccs.M.length) (al : Aligned ccs)
    (hc : CharGt F (2 * P.bSmall)) (hd : CharGt F (ccs.d + 1))
    (hT : ∀ s n, (T.bytes s n).1.length = n)
    (hcs : ∀ bs, bs.length = cs.bytesNeeded → ∃ c, cs.decode bs = .ok c)
    (hacc : LcccsHolds rd P ccs scheme acc wAcc) (hsh : WitShort rd (reach P.bSmall P.K) wAcc)
    (hfresh : FreshHolds rd P ccs scheme cm w) :
    ∃ st w' proof s', (∀ out, Par.nifsProve rd P cs T s acc wAcc cm w ccs scheme out ↔ out = .ok ((st, w', proof), s')) ∧
      nifsVerify rd P cs T s acc cm proof ccs = .ok (st, s') ∧ LcccsHolds rd P ccs scheme st w' := by
  obtain ⟨st, w', proof, s', h1, h2, h3, -⟩ := C39_nifs_complete rd P cs T s ccs scheme acc wAcc cm w hP hS ht al hc hd hT hcs
    hacc hsh hfresh
  have h := C100_schedule_independent rd P cs T s acc wAcc cm w ccs scheme
  refine ⟨st, w', proof, s', fun out => ?_, h2, h3⟩
  cases out with
  | ok a =>
    rw [h.1 a, h1, Except.ok.injEq, Except.ok.injEq]
    exact eq_comm
  | error e =>
    refine ⟨fun he => ?_, fun he => nomatch he⟩
    obtain ⟨e', h'⟩ := h.2.1 ⟨e, he⟩
    rw [h1] at h'
    cases h'

end

/-! ## Which error is reported does depend on the schedule -/

/-- Two matrices, of which neither has the width of the vector. -/
def badMats : List (SpMat (Fin 1 → ZMod 257)) := [⟨1, 2, [[(![1], 0)]]⟩, ⟨1, 3, [[(![1], 0)]]⟩]

/-- **C100**, its limit: with two products that both fail, each of the two errors can be the one that is returned; the sequential code
returns the first. -/
theorem C100_error_not_determined :
    (∃ e₁ e₂, e₁ ≠ e₂ ∧ Par.mzMles 1 badMats [![1]] (.error e₁) ∧ Par.mzMles 1 badMats [![1]] (.error e₂)) ∧
      ∃ e, toMlesErr 1 (badMats.map fun M => matVecMul M [![1]]) = .error e := by
  have hb : ∀ (M : SpMat (Fin 1 → ZMod 257)) e, Par.matVecMul M [![1]] (.error e) →
      (Par.matVecMul M [![1]] >>= fun m => Par.seq (if 2 ^ 1 < m.length then .error (.mleIncorrectLength (2 ^ 1) m.length)
        else Mle.fromEvals 1 m)) (.error e) := fun M e h => ⟨.error e, h, rfl⟩
  refine ⟨⟨.lengthsNotEqual 2 1, .lengthsNotEqual 3 1, by decide, ?_, ?_⟩, ?_⟩
  · exact .inr ⟨_, rfl, _, List.mem_cons_self, hb _ _ (by rfl)⟩
  · exact .inr ⟨_, rfl, _, List.mem_cons_of_mem _ List.mem_cons_self, hb _ _ (by rfl)⟩
  · exact ⟨.lengthsNotEqual 2 1, by rfl⟩

/-! ## Concrete cases -/

section Examples
open Verif.Example

/-- A round of degree two over two tables of four values, the pairs split unevenly with an idle thread. -/
example : Par.roundSchedule [⟨2, [3, 1, 4, 1]⟩, (⟨2, [1, 5, 9, 2]⟩ : Mle ℤ)] 2 (fun v => .ok v.prod)
    (.node (.chunk [0]) (.node .ident (.chunk [1]))) (.ok [39, 7, 1]) :=
  .inl ⟨[3, 5, -9], [36, 2, 10], by show _ = _; decide +kernel,
    .inl ⟨[0, 0, 0], [36, 2, 10], by show _ = _; decide +kernel, by show _ = _; decide +kernel, by decide +kernel⟩, by decide +kernel⟩

/-- The honest step on `fresh257`, with every transcript, has exactly one outcome. -/
example {σ : Type} (T : Transcript (ZMod 257) C257 σ) (hT : ∀ s n, (T.bytes s n).1.length = n) (s : σ) :
    ∃ st w' proof s', (∀ out, Par.nifsProve ring257 par257 cs257 T s
        (acc257 ![7] ![4] ![9] (wit257 ![100] ![33])) (wit257 ![100] ![33]) fresh257 (wit257 ![3] ![2]) ccs257 scheme257 out
        ↔ out = .ok ((st, w', proof), s')) ∧
      nifsVerify ring257 par257 cs257 T s (acc257 ![7] ![4] ![9] (wit257 ![100] ![33])) fresh257 proof ccs257 = .ok (st, s') := by
  obtain ⟨st, w', proof, s', h1, h2, -⟩ := C100_honest ring257 par257 cs257 T s ccs257 scheme257
    (acc257 ![7] ![4] ![9] (wit257 ![100] ![33])) _ fresh257 _
    par257_ok sizes257 rfl aligned257 (charGt257 _ (by decide)) (charGt257 _ (by decide)) hT cs257_ok
    (acc257_holds _ _ _ _ _) (fun _ _ _ => reach257 _) fresh257_holds
  exact ⟨st, w', proof, s', h1, h2⟩

end Examples

end Verif.Props
