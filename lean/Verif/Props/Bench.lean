import Verif.Lemmas.Bench
import Verif.Props.Mismatch

set_option linter.unusedSimpArgs false
set_option linter.unusedSectionVars false

/-! # Properties C102, C103: the end-to-end example and the set-up of the benchmarks. -/

namespace Verif.Props
open Verif Verif.Spec Finset Verif.Example Plus

variable {Fp F C σ G : Type} {N τ : Nat} [Field Fp] [Field F] [DecidableEq F] [Algebra Fp F] [CommRing C] [Algebra Fp C]

/-- **C102**, what the example does: for every ring, parameters with `L ≥ 2`, at least two witness elements, transcript and random generator
all steps succeed and the verifier's new accumulator is the prover's. The fresh statement is valid. The accumulator it starts from has right
evaluations for `wit_acc`, but the commitment of the fresh statement: it is valid exactly if the two witnesses have the same commitment. With
invertible challenges the new accumulator is valid under the same condition. Missing: that the example's accumulators are valid. -/
theorem C102_example_partial (rd : RingData Fp F C N τ) (P : Params) (cs : ChallengeSet C) (e : Fin N → F) (rnd : G → (Fin N → F) × G) (rng : G)
    (T : Transcript F (Fin N → F) σ) (s0 : σ) (w kappa : Nat)
    (hP : ParamsOK Fp P) (hL : 2 ≤ P.L) (hw : 2 ≤ w) (hk : 1 ≤ kappa)
    (hc : CharGt F (2 * P.bSmall)) (hd : CharGt F 4)
    (hT : ∀ s n, (T.bytes s n).1.length = n)
    (hcs : ∀ bs, bs.length = cs.bytesNeeded → ∃ c, cs.decode bs = .ok c ∧ IsUnit c) :
    ∃ run, exampleMain rd P cs e rnd rng T s0 1 (w * P.L) w kappa = .ok run ∧
      run.verified = run.newAcc ∧
      run.inst.wit.wCcs = List.replicate w e ∧ run.witAcc.wCcs = (List.range w).map (fun k : Nat => (k : Fin N → F)) ∧
      FreshHolds rd P run.inst.ccs run.inst.scheme run.inst.cm run.inst.wit ∧
      LcccsUpToCm rd P run.inst.ccs run.inst.scheme run.acc run.witAcc ∧
      LcccsUpToCm rd P run.inst.ccs run.inst.scheme run.newAcc run.newWit ∧
      (LcccsHolds rd P run.inst.ccs run.inst.scheme run.acc run.witAcc ↔
        run.inst.scheme.commit run.witAcc.f = run.inst.scheme.commit run.inst.wit.f) ∧
      (LcccsHolds rd P run.inst.ccs run.inst.scheme run.newAcc run.newWit ↔
        run.inst.scheme.commit run.witAcc.f = run.inst.scheme.commit run.inst.wit.f) := by
  obtain ⟨i, i1, g, hS, hfr, hsch, hww, -, hx1⟩ := setupR1CS_ok rd P hP e rnd rng w kappa hk hw hL .degreeThreeNonScalar (by decide)
  replace i1 : witAndCcsGenDegreeThree rd P e rnd rng 1 (w * P.L) w (1 + w + 1) kappa = .ok i := i1
  obtain ⟨wa, a1, a2, a3, a4, -⟩ := fromWCcs_ok rd P hP ((List.range w).map fun k : Nat => (k : Fin N → F))
  have hcn : i.ccs.n - i.ccs.l - 1 = w := by rw [g.n, g.l]; omega
  have hwa : WitOK rd P (i.ccs.n - i.ccs.l - 1) wa := by
    rw [hcn]; simpa using a2
  have hd3 : CharGt F (i.ccs.d + 1) := fun k h1 h2 => hd k h1 (by have := g.d; omega)
  obtain ⟨acc, lp, s1, l1, -, l3, l4, l5, -, l7⟩ := linearization_prover T s0 i.cm wa i.ccs g.sh g.al hd3
    (by rw [hx1, a3, g.n]; simp; omega) (fun m hm => by rw [hwa.hatvars m hm, hS.hat])
  have hcml : i.cm.cm.val.length = i.scheme.matrix.vals.length := by
    rw [Except.ok.inj (hfr.opens.symm.trans (commit_trueCm hS hfr.witOK))]
    exact trueCm_len _ _
  have hacc : LcccsUpToCm rd P i.ccs i.scheme acc wa := ⟨hwa, by rw [l3]; exact hcml, by rw [l4, hx1, g.l], l7⟩
  obtain ⟨st, w', proof, s', h1, h2, h3, h4⟩ := C101_wrong_stays_wrong rd P cs T s0 i.ccs i.scheme acc wa i.cm i.wit hP hS g.t g.al hc hd3 hT hcs
    hacc (short_reach_of_B hP a4) hfr
  have hiff : LcccsHolds rd P i.ccs i.scheme acc wa ↔ i.scheme.commit wa.f = i.scheme.commit i.wit.f := by
    rw [hfr.opens, ← l3]
    exact ⟨fun h => h.cm, fun h => ⟨hacc.witOK, h, hacc.xlen, hacc.evals⟩⟩
  refine ⟨⟨acc, wa, i, st, w', proof, st⟩, ?_, rfl, hww, a3, hfr, hacc, h3, hiff, h4.trans hiff⟩
  unfold exampleMain setupExample
  simp only [i1, bind_ok', a1, l1, unwrapRes, h1, h2]

/-- **C102** is false: over the field with 257 elements (`B = 16`, `L = 2`, `b = 16`, `K = 2`, invertible challenges) with two
witness elements, any transcript and the scheme drawn as `1`, the example runs through, the verifier accepts, and neither the accumulator it
starts from nor the one it ends with is valid. -/
theorem C102_counterexample (T : Transcript (ZMod 257) C257 σ) (s0 : σ) (hT : ∀ s n, (T.bytes s n).1.length = n) :
    ∃ run, exampleMain ring257 par257 csUnit257 ![0] (fun g : Unit => (![1], g)) () T s0 1 4 2 1 = .ok run ∧
      run.verified = run.newAcc ∧
      ¬ LcccsHolds ring257 par257 run.inst.ccs run.inst.scheme run.acc run.witAcc ∧
      ¬ LcccsHolds ring257 par257 run.inst.ccs run.inst.scheme run.newAcc run.newWit := by
  obtain ⟨run, h1, h2, -, -, -, -, -, h7, h8⟩ := C102_example_partial ring257 par257 csUnit257 ![0] (fun g : Unit => (![1], g)) () T s0 2 1
    par257_ok (by decide) (by decide) (by decide) (charGt257 _ (by decide)) (charGt257 _ (by decide)) hT csUnit257_ok
  have hne : run.inst.scheme.commit run.witAcc.f ≠ run.inst.scheme.commit run.inst.wit.f := by
    have e1 : exampleMain ring257 par257 csUnit257 ![0] (fun g : Unit => (![1], g)) () T s0 1 (2 * par257.L) 2 1 = .ok run := h1
    unfold exampleMain setupExample at e1
    simp only [bind_eq_ok, Prod.exists] at e1
    obtain ⟨acc, wa, i, ⟨i', hi', wa', hwa', a, b, c, -, hh⟩, st, w', pr, s1, -, st', s2, -, hrun⟩ := e1
    have hh := Except.ok.inj hh
    simp only [Prod.mk.injEq] at hh
    obtain ⟨-, rfl, rfl⟩ := hh
    obtain rfl := Except.ok.inj hrun
    obtain ⟨i2, j1, -, -, -, j2, -, j3, -⟩ := setupR1CS_ok ring257 par257 par257_ok ![0] (fun g : Unit => (![1], g)) () 2 1 (by decide) (by decide)
      (by decide) .degreeThreeNonScalar (by decide)
    replace j1 : witAndCcsGenDegreeThree ring257 par257 ![0] (fun g : Unit => (![1], g)) () 1 (2 * par257.L) 2 (1 + 2 + 1) 1 = .ok i2 := j1
    obtain rfl := Except.ok.inj (hi'.symm.trans j1)
    simp only
    rw [j2]
    have k1 : (Witness.fromWCcs ring257 par257 (List.replicate 2 ![0])).map (fun x => x.f.map (· 0)) = .ok (i'.wit.f.map (· 0)) := by
      have j3' : Witness.fromWCcs ring257 par257 (List.replicate 2 ![0]) = .ok i'.wit := j3
      rw [j3']; rfl
    have k2 : (Witness.fromWCcs ring257 par257 ((List.range 2).map fun k : Nat => (k : C257))).map (fun x => x.f.map (· 0)) = .ok (wa'.f.map (· 0)) := by
      rw [hwa']; rfl
    have d1 : (Witness.fromWCcs ring257 par257 (List.replicate 2 ![0])).map (fun x => x.f.map (· 0)) = .ok [0, 0, 0, 0] := by decide +kernel
    have d2 : (Witness.fromWCcs ring257 par257 ((List.range 2).map fun k : Nat => (k : C257))).map (fun x => x.f.map (· 0)) = .ok [0, 0, 1, 0] := by
      decide +kernel
    have ext : ∀ f : List C257, f = (f.map (· 0)).map fun x => ![x] := by
      intro f
      rw [List.map_map]
      refine (List.map_id f).symm.trans (List.map_congr_left fun x _ => funext fun i => ?_)
      have hi : i = 0 := Subsingleton.elim _ _
      subst hi
      rfl
    rw [ext i'.wit.f, ext wa'.f, ← Except.ok.inj (d1.symm.trans k1), ← Except.ok.inj (d2.symm.trans k2)]
    intro hf
    have hf2 := congrArg (fun r : Res (Commitment C257) => r.map fun c => c.val.map (· 0)) hf
    revert hf2
    decide +kernel
  exact ⟨run, h1, h2, fun h => hne (h7.1 h), fun h => hne (h8.1 h)⟩

/-- **C103**, what holds: with one public input, at least two witness elements and two digits, and `n` the length of the decomposed witness (all of
which the shipped configuration has), the set-ups `Scalar` and `DegreeThreeNonScalar` succeed with sizes that fit each other, with a valid
committed instance, and a constraint system in the form the linearization needs. The witness is all ones or all `e`. Missing: the set-up `NonScalar`
and the names of the groups. -/
theorem C103_setup_partial (rd : RingData Fp F C N τ) (P : Params) (hP : ParamsOK Fp P) (e : Fin N → F) (rnd : G → (Fin N → F) × G) (rng : G)
    (w kappa : Nat) (hk : 1 ≤ kappa) (hw : 2 ≤ w) (hL : 2 ≤ P.L) (t : R1CSKind) (ht : t ≠ .nonScalar) :
    ∃ i, setupR1CS rd P e rnd rng 1 (w * P.L) w kappa t = .ok i ∧ SizesOK P i.ccs i.scheme ∧ Aligned i.ccs ∧ i.ccs.t = i.ccs.M.length ∧
      i.ccs.d ≤ 3 ∧ FreshHolds rd P i.ccs i.scheme i.cm i.wit ∧ i.scheme.matrix.vals.length = kappa ∧
      i.wit.wCcs = List.replicate w (if t = .scalar then 1 else e) ∧ i.cm.x_ccs.length = 1 := by
  obtain ⟨i, h1, g, hS, hf, hs, hw', -, hx⟩ := setupR1CS_ok rd P hP e rnd rng w kappa hk hw hL t ht
  refine ⟨i, h1, hS, g.al, g.t, g.d, hf, ?_, hw', hx⟩
  rw [hs, (rand_scheme rnd kappa (w * P.L) hk rng).2.2, List.length_replicate]

theorem nonScalar_panics (rd : RingData Fp F C N τ) (P : Params) (e : Fin N → F) (rnd : G → (Fin N → F) × G) (rng : G)
    (xLen n w kappa : Nat) (hL : P.L ≠ 1) (hn : w < n) :
    setupR1CS rd P e rnd rng xLen n w kappa .nonScalar = .error (.panic "R1CS invalid!") := by
  show witAndCcsGenNonScalar rd P e rnd rng xLen n w (xLen + w + 1) kappa = _
  unfold witAndCcsGenNonScalar benchCcsNonScalar
  have hg : genRows P w (xLen + w + 1) = .ok (xLen + w + 1) := if_neg fun h => hL h.1
  simp only [hg, bind_ok', dummyZSplitNtt]
  set z : List (Fin N → F) := [1] ++ List.replicate xLen 1 ++ List.replicate w e with hz
  have hzl : z.length = xLen + w + 1 := by simp [hz]
  unfold dummyR1CSNonScalar
  rw [dummySquaring_eq _ _ _ hzl.symm]
  simp only [bind_ok']
  generalize hcs : (⟨1, dummyIdentity (xLen + w + 1) (xLen + n + 1), dummyIdentity (xLen + w + 1) (xLen + n + 1),
        diag (xLen + w + 1) (xLen + n + 1) fun i => z.getD i 0⟩ : R1CS (Fin N → F)) = cs
  have wf : R1CSWF cs := by
    subst hcs
    constructor <;> first | exact diag_wf _ _ (by omega) _ | rfl
  have hAn : cs.A.ncols = xLen + n + 1 := by subst hcs; rfl
  have hl : cs.l = 1 := by subst hcs; rfl
  obtain ⟨ccs, hccs⟩ := (C14_padded_passes cs n P.L).2.2 (by rw [hAn, hl]; omega)
  simp only [hccs, bind_ok']
  have hchk : ccs.checkRelation z = .error (.lengthsNotEqual (xLen + n + 1) z.length) := by
    unfold CCS.fromR1CSPadded at hccs
    simp only [bind_eq_ok] at hccs
    obtain ⟨a, -, b, -, h⟩ := hccs
    obtain rfl := Except.ok.inj h
    have hpad : ∀ size, ((CCS.fromR1CS cs n).padRowsTo size).checkRelation z = .error (.lengthsNotEqual cs.A.ncols z.length) := by
      intro size
      unfold CCS.padRowsTo
      simp only
      split
      · exact (r1csShaped_check cs _ rfl rfl rfl rfl (cs.A.padRows _) (cs.B.padRows _) (cs.C.padRows _) rfl
          (padRows_wf wf.wfA _) (padRows_wf wf.wfB _) (padRows_wf wf.wfC _) (padRows_ncols _ _) ((padRows_ncols _ _).trans wf.colsB)
          ((padRows_ncols _ _).trans wf.colsC) (padRows_mulVec _ _) (padRows_mulVec _ _) (padRows_mulVec _ _) z).2.2 (by rw [hAn, hzl]; omega)
      · exact (r1csShaped_check cs (CCS.fromR1CS cs n) rfl rfl rfl rfl cs.A cs.B cs.C rfl wf.wfA wf.wfB
          wf.wfC rfl wf.colsB wf.colsC (fun _ _ => rfl) (fun _ _ => rfl) (fun _ _ => rfl) z).2.2 (by rw [hAn, hzl]; omega)
    rw [hpad, hAn]
  unfold genFinish
  rw [← hz, hchk]
  rfl

/-- **C103** is false: with two digits or more per element (as configured everywhere) the set-up `NonScalar` always aborts, because the constraint
system is made for a witness of `n = w · L` elements. -/
theorem C103_non_scalar_aborts (rd : RingData Fp F C N τ) (P : Params) (e : Fin N → F) (rnd : G → (Fin N → F) × G) (rng : G)
    (xLen w kappa : Nat) (hL : 2 ≤ P.L) (hw : 1 ≤ w) :
    setupR1CS rd P e rnd rng xLen (w * P.L) w kappa .nonScalar = .error (.panic "R1CS invalid!") :=
  nonScalar_panics rd P e rnd rng xLen (w * P.L) w kappa (by omega) (by
    have : w * 2 ≤ w * P.L := Nat.mul_le_mul_left _ hL
    omega)

/-- The kind of instance that the name of a group announces. -/
def namedKind (name : String) : R1CSKind :=
  if "Degree Three Non Scalar".toList <:+ name.toList then .degreeThreeNonScalar
  else if "Non Scalar".toList <:+ name.toList then .nonScalar
  else .scalar

/-- **C103** is false: six of the twelve groups generate another kind of instance than their name says. -/
theorem C103_names_wrong :
    (benchGroups.filter fun g => g.kind ≠ namedKind g.name).map (·.name) =
      ["Stark Scalar", "Stark Non Scalar", "Frog Scalar", "Frog Non Scalar", "BabyBear Scalar", "BabyBear Non Scalar"] := by
  decide +kernel

/-- **C103**, of the twelve groups: one aborts in its set-up for every configuration with `L ≥ 2`, five measure what they say. -/
theorem C103_groups_partial :
    (benchGroups.filter fun g => g.kind = .nonScalar).map (·.name) = ["Goldilocks Non Scalar"] ∧
    (benchGroups.filter fun g => g.kind = namedKind g.name ∧ g.kind ≠ .nonScalar).map (·.name) =
      ["Goldilocks Scalar", "Goldilocks Degree Three Non Scalar", "Stark Degree Three Non Scalar", "Frog Degree Three Non Scalar",
        "BabyBear Degree Three Non Scalar"] := by
  constructor <;> decide +kernel

/-- Over the field with 257 elements, three witness elements: the three set-ups. -/
example : (∃ i, setupR1CS ring257 par257 ![5] (fun g : Nat => (![(g : ZMod 257)], g + 1)) 7 1 6 3 2 .scalar = .ok i ∧
      FreshHolds ring257 par257 i.ccs i.scheme i.cm i.wit) ∧
    (∃ i, setupR1CS ring257 par257 ![5] (fun g : Nat => (![(g : ZMod 257)], g + 1)) 7 1 6 3 2 .degreeThreeNonScalar = .ok i ∧
      FreshHolds ring257 par257 i.ccs i.scheme i.cm i.wit) ∧
    setupR1CS ring257 par257 ![5] (fun g : Nat => (![(g : ZMod 257)], g + 1)) 7 1 6 3 2 .nonScalar = .error (.panic "R1CS invalid!") := by
  refine ⟨?_, ?_, C103_non_scalar_aborts ring257 par257 _ _ _ 1 3 2 (by decide) (by decide)⟩
  · obtain ⟨i, h1, -, -, -, -, h2, -⟩ := C103_setup_partial ring257 par257 par257_ok ![5] (fun g : Nat => (![(g : ZMod 257)], g + 1)) 7 3 2
      (by decide) (by decide) (by decide) .scalar (by decide)
    exact ⟨i, h1, h2⟩
  · obtain ⟨i, h1, -, -, -, -, h2, -⟩ := C103_setup_partial ring257 par257 par257_ok ![5] (fun g : Nat => (![(g : ZMod 257)], g + 1)) 7 3 2
      (by decide) (by decide) (by decide) .degreeThreeNonScalar (by decide)
    exact ⟨i, h1, h2⟩

end Verif.Props
