import Verif.Props.PlusTotal
import Verif.Props.PlusRange
import Verif.Props.PlusNorm
import Verif.Props.PlusChallenge
import Verif.Props.PlusBinding
import Verif.Props.Poseidon
import Verif.Props.SecurityCheck
import Verif.Props.FoldingSound

/-!
# Concrete cases of property theorems about `latticefold-plus`, the sponge and the security check

One `example` for each theorem beside which there is none, applied to data that meets its hypotheses.
-/

set_option linter.unusedSimpArgs false

namespace Verif.Props

open Finset Verif Verif.Spec Verif.Plus

/-! ## C51, C55, C57 -/

example {σ : Type} (T : Transcript (ZMod 17) Example.R17 σ) (s : σ) :
    (setCheck Example.plus17 T s 1 [.vector [Example.plus17.X, Example.plus17.X ^ 3]] []).isPanic :=
  C51_no_matrix Example.plus17 T s 1 _ [] (by decide)

example {σ : Type} (T : Transcript (ZMod 17) Example.R17 σ) (s : σ) (c0 : Nat → Example.R17) (fcoms : List (FComs Example.R17)) (m : Nat) :
    ∃ inst dcom s' s'', rangeCheck Example.plus17 T s ⟨7, [inst, inst], dp17⟩ [M17] = .ok (dcom, s') ∧
      dcomVerify Example.plus17 T s (tamper dcom c0 fcoms m) = .ok s'' := by
  obtain ⟨inst, h1, hf, h2, _⟩ := inst17
  obtain ⟨dcom, s', h3, h4, _⟩ := C56_complete_partial Example.plus17 T s 65 ⟨7, [inst, inst], dp17⟩ [M17] (by decide) (by change 7 = Nat.clog 2 65; decide) charGt17
    (by simp [dp17]) (by
      intro i hi
      simp only [List.mem_cons, List.not_mem_nil, or_false, or_self] at hi
      subst hi
      rw [hf]
      exact h2) M17_ok
  obtain ⟨s'', h5⟩ := C57_c0_unchecked Example.plus17 T s s' dcom h4 c0 fcoms m
  exact ⟨inst, dcom, s', s'', h3, h5⟩

/-! ## C72, C73 -/

example : estimateBound 128 3 16 4 ≤ 447 := (C72_estimate 128 3 16 4 447).2 (by decide)
example : ¬ estimateBound 128 3 16 4 ≤ 446 := fun h => absurd ((C72_estimate 128 3 16 4 446).1 h) (by decide)

/-- Dimension 16: the bytes 0, 1, …, 15 give the coefficients -128, …, -113. -/
example {σ : Type} (T : Transcript (ZMod 18446744069414584321) (Example.Cyclo 18446744069414584321 16) σ) (s s' : σ)
    (h : T.bytes s 16 = (byteList fun i : Fin 16 => ⟨i, by omega⟩, s')) :
    ∃ x, Plus.shortChallenge (Example.cyclo _ 16 (by norm_num)) 128 T s = .ok (x, s') ∧
      (Example.cyclo 18446744069414584321 16 (by norm_num)).coeff x 3 = -125 := by
  obtain ⟨x, h1, -, h2⟩ := C73_bytes (Example.cyclo 18446744069414584321 16 (by norm_num)) (by norm_num) T s s' _ h
  refine ⟨x, h1, (h2 3).trans ?_⟩
  norm_num

example (v : Fin 8 → Fin 256) : ∃ x, challengeFrom (Example.cyclo 18446744069414584321 8 (by norm_num)) v = .ok x := by
  obtain ⟨x, h, -⟩ := C73_not_centred (Example.cyclo 18446744069414584321 8 (by norm_num)) (by norm_num) (by norm_num) v
  exact ⟨x, h⟩

/-! ## C97 -/

example : (∃ s', badR1.verify tr17 0 = .ok (true, s')) ∨ (badR1.verify tr17 0).isPanic = true :=
  C97_r1cs_never_false tr17 0 badR1

/-- The set check reports the wrong evaluation, so the range check aborts. -/
example : (dcomVerify Example.plus17 tr17 0 ⟨[], [], badSet, ⟨2, 1, 1⟩⟩).isPanic = true := by
  refine C97_range_aborts Example.plus17 tr17 0 _ fun s' h => ?_
  have h2 : (match setVerify Example.plus17 tr17 0 badSet with
    | .ok _ => true
    | .error _ => false) = false := by decide +kernel
  rw [show setVerify Example.plus17 tr17 0 badSet = _ from h] at h2
  exact Bool.noConfusion h2

/-! ## C75, C81, C86 -/

example {p : Nat} [Fact p.Prime] (c : PoseidonConfig (ZMod p)) (s : Sponge (ZMod p) c.width) (hm : s.mode = .absorbing 1) (hr : 3 ≤ c.rate)
    (h : c.absorb s [1, 2] = c.absorb s [1, 3]) : False := by
  have h := C75_block_binding c s 1 hm [1, 2] [1, 3] rfl (by simpa using hr) h
  have h : (2 : ZMod p) = 3 := by simpa using h
  have : (1 : ZMod p) = 0 := by linear_combination -h
  exact one_ne_zero this

example : calculateBoundL2 16 621 (Nat.size (2 ^ 200)) < 2 ^ 200 / 2 :=
  C81_saturated (2 ^ 200) 621 16 (by norm_num)

end Verif.Props
