import Verif.Props.Binding
import Verif.Props.Dummy
import Verif.Props.Bench
import Verif.Props.Mismatch
import Verif.Props.Serialize
import Verif.Props.Parallel
import Verif.Props.Nifs
import Verif.Props.FoldingSound
import Verif.Props.Witness
import Verif.Props.GalleryBasic

/-!
# Concrete cases of property theorems about the protocols of `latticefold`

One `example` for each theorem beside which there is none, applied to data that meets its hypotheses.
-/

set_option linter.unusedSimpArgs false

namespace Verif.Props

open Finset Verif Verif.Spec Verif.Example

/-! ## C02, C32, C33 -/

example (s : Ajtai C5) : s.decomposeAndCommitNtt ring5 par5 [![1, 2], ![3, 0]] = (do
    let wit ← Witness.fromWCcs ring5 par5 [![1, 2], ![3, 0]]
    wit.commit s) :=
  C02_decompose_commit_eq_witness ring5 par5 s _

/-- `(1, 2) = (1, 0) + 2 (0, 1)`, with the commitment `3 + 10`. -/
example : ∃ ys, commitWitnesses ⟨4, 1, 2, 2⟩ ((List.range 2).map fun k : Nat =>
      if k = 0 then (⟨[], [1, 0], [()], []⟩ : Witness ℚ Unit) else ⟨[], [0, 1], [()], []⟩)
    ⟨⟨1, 2, [[3, 5]]⟩⟩ ⟨[], [], ⟨[13]⟩, [], [], 0⟩ = .ok ys ∧ ys.length = 2 := by
  obtain ⟨ys, h1, h2, -⟩ := C32_first_commitment ⟨4, 1, 2, 2⟩ (fun k : Nat =>
      if k = 0 then (⟨[], [1, 0], [()], []⟩ : Witness ℚ Unit) else ⟨[], [0, 1], [()], []⟩) ⟨⟨1, 2, [[3, 5]]⟩⟩ ⟨[], [], ⟨[13]⟩, [], [], 0⟩
    (by decide) ⟨rfl, by simp⟩ [1, 2] rfl (by
      intro k hk
      have hk : k < 2 := hk
      interval_cases k <;> rfl) (by
      intro i hi
      have hi : i < 2 := hi
      interval_cases i <;> decide +kernel) (by decide +kernel)
  exact ⟨ys, h1, h2⟩

example {σ : Type} (T : Transcript ℚ ℚ σ) (s : σ) (c : LCCCS ℚ) :
    ∃ s', decVerify ⟨1024, 2, 2, 10⟩ T s c ⟨[c.u], [c.v], [c.x_w ++ [c.h]], [c.cm]⟩ = .ok ([c], s') :=
  C33_single_piece_accepted ⟨1024, 2, 2, 10⟩ T s c (by decide) (by decide)

/-! ## C34, C38 -/

example : foldCombFn ⟨4, 1, 2, 1⟩ 2 [3, 1] ([2, 3, 5, 7, 11, 2, 0, 3, 1] : List ℚ)
    = .ok (2 * 3 + 5 * 7 + 11 * ∑ i ∈ range 2, ∑ j ∈ range 2, ([3, 1] : List ℚ).getD i 0 ^ (j + 1)
      * ∏ c ∈ Ioo (-2 : ℤ) 2, (([2, 3, 5, 7, 11, 2, 0, 3, 1] : List ℚ).getD (5 + (i * 2 + j)) 0 - (c : ℚ))) :=
  C34_comb_fn ⟨4, 1, 2, 1⟩ (by decide) 2 [3, 1] _ (by decide)

example : ∃ site, foldCombFn ⟨4, 1, 2, 1⟩ 2 [3, 1] ([2, 3, 5] : List ℚ) = .error (.panic site) :=
  C34_too_few_values ⟨4, 1, 2, 1⟩ 2 [3, 1] _ (by decide)

/-- An arbitrary fifth statement with a point of the right length. -/
example (e : LCCCS C5) (he : e.r.length = 1) : ∃ st proof s', foldVerify ring5 par5 cs5 tr5 7 (foldAccs5 ++ [e]) proof ccs5 = .ok (st, s') := by
  obtain ⟨st, w, proof, s', h1, h2⟩ := C36_folding_complete ring5 par5 cs5 tr5 7 ccs5 scheme5 foldAccs5 foldWits5 foldMz5 par5_ok sizes5 rfl foldIn5
    charGt5 tr5_bytes cs5_ok
  exact ⟨st, proof, s', C38_extra_statements_ignored ring5 par5 (by decide) cs5 tr5 7 s' foldAccs5 [e] proof ccs5 st rfl h2
    (by intro e' h; rw [List.mem_singleton.mp h]; exact he)⟩

/-! ## C40, C41 -/

/-- A proof is accepted for an arbitrary fresh statement. -/
example (cm : CCCS C5) : ∃ proof st s' w', nifsVerify ring5 par5 cs5 tr5 3 (acc5 ![3, 3] ![1, 4] ![2, 0] (wit5 ![1, 2] ![4, 0])) cm proof ccs5
      = .ok (st, s') ∧ LcccsHolds ring5 par5 ccs5 scheme5 st w' :=
  C40_forgery ring5 par5 cs5 tr5 3 ccs5 scheme5 _ _ par5_ok sizes5 rfl (by decide) charGt5 charGt5d tr5_bytes cs5_ok
    (acc5_holds ![3, 3] ![1, 4] ![2, 0] ![1, 2] ![4, 0]) (wit5_short _ _) cm

example {σ : Type} (T : Transcript ℚ ℚ σ) (s : σ) : absorbPublicInput T s ⟨[1], [2], ⟨[3]⟩, [4], [5], 6⟩ ⟨⟨[7]⟩, [8]⟩
    = T.absorbSlice s (publicLog ℚ ⟨[1], [2], ⟨[3]⟩, [4], [5], 6⟩ ⟨⟨[7]⟩, [8]⟩) :=
  C41_absorbed_sequence T s _ _

/-! ## C49 -/

/-- The record of an accepted decomposition. -/
example : ∃ proof l s', decVerify par5 (recT oracle5) start5 (acc5 ![3, 3] ![1, 4] ![2, 0] (wit5 ![1, 2] ![4, 0])) proof = .ok (l, s') ∧
    s'.1 = decLog proof := by
  obtain ⟨mz, lcccs, wits, proof, s', h1, h2, h3, -⟩ := C30_decomposition_complete ring5 par5 (recT oracle5) start5
    _ _ ccs5 scheme5 par5_ok sizes5 (acc5_holds ![3, 3] ![1, 4] ![2, 0] ![1, 2] ![4, 0]) (wit5_short ![1, 2] ![4, 0])
  exact ⟨proof, lcccs, s', h2, (C49_decomposition_record oracle5 par5 start5 s' _ proof lcccs h2).trans (List.nil_append _)⟩

/-- The record of an accepted fold. -/
example : ∃ proof st s' al ze mu be point bss, foldVerify ring5 par5 cs5 (recT oracle5) start5 foldAccs5 proof ccs5 = .ok (st, s') ∧
    bss.length = 3 ∧ s'.1 = start5.1 ++ foldLog par5 cs5.bytesNeeded ccs5 proof al ze mu be point bss := by
  obtain ⟨st, w, proof, s', h1, h2⟩ := C36_folding_complete ring5 par5 cs5 (recT oracle5) start5 ccs5 scheme5 foldAccs5 foldWits5 foldMz5 par5_ok sizes5 rfl
    foldIn5 charGt5 oracle5_bytes cs5_ok
  obtain ⟨al, ze, mu, be, point, bss, -, -, -, -, -, k, -, k'⟩ := C49_folding_record oracle5 ring5 par5 cs5 start5 s' foldAccs5 proof ccs5 st h2
  exact ⟨proof, st, s', al, ze, mu, be, point, bss, h2, k, k'⟩

/-- The record of an accepted linearization. -/
example : ∃ proof st s' beta point, linVerify (recT oracle5) start5 fresh5 proof ccs5 = .ok (st, s') ∧
    s'.1 = start5.1 ++ linLog ccs5 proof beta point := by
  obtain ⟨st, proof, s', -, h2, -⟩ := C27_linearization_complete (recT oracle5) start5 fresh5 (wit5 ![2, 3] ![2, 2]) ccs5
    sizes5.sh aligned5 charGt5d (by decide) fresh5_holds.sat (by decide +kernel)
  obtain ⟨beta, point, -, -, -, k⟩ := C49_linearization_record oracle5 start5 s' fresh5 proof ccs5 st h2
  exact ⟨proof, st, s', beta, point, h2, k⟩

/-! ## C82 -/

example : (dummyR1CS 1 2 3 : R1CS ℤ).checkRelation [1, 0, 1, 7] = .ok () :=
  ((C82_r1cs 1 2 3 (by decide) [1, 0, 1, 7]).1).2 ⟨rfl, by decide⟩

example : ∃ e, dummyR1CSNonScalar 1 2 3 ([7, 1, 5, 3] : List ℤ) = .error (.panic e) :=
  (C82_r1cs_non_scalar 1 2 3 _).1 (by decide)

/-- `0`, `7` and `-7` satisfy `x³ = 49 x`. -/
example : ∃ ccs, dummyDegreeThree ([7, 1, 5, 3] : List ℤ) 1 4 2 3 4 = .ok ccs ∧ ccs.checkRelation [-7, 0, 5, -3] = .ok () := by
  obtain ⟨ccs, h1, h2, -⟩ := C82_degree_three_partial ([7, 1, 5, 3] : List ℤ) 1 4 2 3 (by decide) (by decide)
  exact ⟨ccs, h1, (h2 _ rfl).2 fun i hi => by
    have hi : i < 4 := lt_of_lt_of_le hi (Nat.min_le_left _ _)
    interval_cases i <;> decide⟩

/-! ## C98, C99 -/

example (bs missing : List UInt8) (hm : missing ≠ []) (h : (Ser.lfProof (Ser.ring 2 enc257)).write small257 = bs ++ missing) :
    ∃ err, (Ser.lfProof (Ser.ring 2 enc257)).read bs = .error err :=
  C98_truncated 2 (by decide) enc257 small257 small257_64 bs missing hm h

example (rest bs : List UInt8) (h : (Ser.lfProof (Ser.ring 2 enc257)).read bs = .ok (small257, rest)) :
    bs.length = 184 + rest.length := by
  rw [(C98_unique 2 (by decide) enc257 bs rest small257 h).1, List.length_append, C98_size]
  congr 1

example : (Ser.lfProof (Ser.ring 2 enc257)).write small257
    ≠ (Ser.lfProof (Ser.ring 2 enc257)).write { small257 with decR := small257.decL, decL := small257.decR } := by
  intro h
  have h := C98_injective 2 (by decide) enc257 _ _ small257_64 (by
    constructor <;> simp [small257, Lens64, Len64]) h
  exact absurd (congrArg (fun p => p.decL.yS.length) h) (by decide)

/-- The example prints 184 and 368 bytes for this proof, whose encoding has 184. -/
example : Ser.exampleSizes (Ser.ring 2 enc257) small257 = (184, 368) := by
  refine Prod.ext ((C99_compressed_partial 2 enc257 small257).trans (by decide)) ?_
  rw [(C99_uncompressed_doubled 2 enc257 small257).1, C98_size]
  decide

/-! ## C100 -/

example : (do
    let b' ← foldRes (Par.scratchStep [⟨2, [3, 1, 4, 1]⟩, (⟨2, [1, 5, 9, 2]⟩ : Mle ℤ)] 2 (fun v => .ok v.prod))
      ⟨[0, 0, 0], [7, 7], [8, 8], [9, 9], [6, 6], [5, 5, 5]⟩ [0, 1]
    .ok b'.evals : Res (List ℤ)) = .ok [39, 7, 1] := by
  rw [C100_buffers]
  · decide +kernel
  all_goals rfl

example {σ : Type} (T : Transcript ℚ ℚ σ) (s : σ) : SameResult
    (Par.proveAsSubprotocol T s [⟨1, [3, 1]⟩, ⟨1, [2, 5]⟩] 1 2 fun v => .ok v.prod)
    (proveAsSubprotocol T s [⟨1, [3, 1]⟩, ⟨1, [2, 5]⟩] 1 2 fun v => .ok v.prod) :=
  C100_sumcheck T s _ 1 2 _

/-! ## C101, C102 -/

/-- The wrong accumulator with its witness and a valid fresh statement: the witness that comes out has everything but the commitment. -/
example {σ : Type} (T : Transcript (ZMod 257) C257 σ) (s : σ) (hT : ∀ s n, (T.bytes s n).1.length = n) :
    ∃ st w' proof s', nifsProve ring257 par257 csUnit257 T s accWrong257 (wit257 ![1] ![2]) fresh257 (wit257 ![3] ![2]) ccs257 scheme257
        = .ok ((st, w', proof), s') ∧ LcccsUpToCm ring257 par257 ccs257 scheme257 st w' := by
  obtain ⟨ca, hca⟩ : ∃ ca, scheme257.commit (wit257 ![1] ![2]).f = .ok ca := ⟨_, commit_ok scheme257 _ (by simp [wit257, mkWit, scheme257])⟩
  obtain ⟨st, w', proof, s', c', h1, -, h3, -⟩ := C101_errors_combine ring257 par257 csUnit257 T s ccs257 scheme257 accWrong257 _ fresh257 _ _ _
    par257_ok sizes257 rfl aligned257 (charGt257 _ (by decide)) (charGt257 _ (by decide)) hT
    (fun bs h => (csUnit257_ok bs h).imp fun _ h => h.1) accWrong257_open (fun _ _ _ => reach257 _) hca fresh257_holds.witOK
    (by decide +kernel) fresh257_holds.xlen fresh257_holds.sat fresh257_holds.short fresh257_holds.opens
  exact ⟨st, w', proof, s', h1, h3⟩

example {σ : Type} (T : Transcript (ZMod 257) C257 σ) (s : σ) (hT : ∀ s n, (T.bytes s n).1.length = n) :
    ∃ run, exampleMain ring257 par257 csUnit257 ![0] (fun g : Unit => (![1], g)) () T s 1 6 3 2 = .ok run ∧ run.verified = run.newAcc := by
  obtain ⟨run, h1, h2, -⟩ := C102_example_partial ring257 par257 csUnit257 ![0] (fun g : Unit => (![1], g)) () T s 3 2
    par257_ok (by decide) (by decide) (by decide) (charGt257 _ (by decide)) (charGt257 _ (by decide)) hT csUnit257_ok
  exact ⟨run, h1, h2⟩

end Verif.Props
