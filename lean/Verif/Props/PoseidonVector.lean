import Verif.Lemmas.PoseidonVecData
import Verif.Props.Poseidon
import Verif.Model.ChallengeSet

set_option linter.unusedSimpArgs false
set_option linter.unusedSectionVars false

/-!
# The test vectors of the repository

`transcript/poseidon.rs:69-124`: the two vectors of the Goldilocks transcript, evaluated in the model.
They are the only concrete values of the sponge in the repository, and confirm the contract of
`Ext/Poseidon.lean` together with the copied constants.
-/

namespace Verif.Props
open Verif Verif.Poseidon Finset

/-- A list of numbers as a state. -/
def asState (p w : Nat) (l : List Nat) : Fin w → ZMod p := fun i => (l.getD i.val 0 : ZMod p)

/-- Is `next` the state after round `r` of the configuration with 24 elements? -/
def roundCheck (p : Nat) (full : Bool) (r : Nat) (st next : List Nat) : Bool :=
  let mid := (List.range 24).map fun i =>
    let x := st.getD i 0 + cell ark64 r i
    if full ∨ i = 0 then x ^ 7 % p else x
  imageCheck p 24 mds64 mid next

theorem roundCheck_round {p : Nat} {full : Bool} {r : Nat} {st next : List Nat}
    (h : roundCheck p full r st next = true) :
    (cfg64 p).round full r (asState p (cfg64 p).width st) = asState p (cfg64 p).width next := by
  have h1 := imageCheck_mulVec h (by simp)
  unfold PoseidonConfig.round PoseidonConfig.applyMds
  rw [mdsMat64]
  refine Eq.trans ?_ h1
  refine congrArg (Matrix.mulVec (cellMat p 24 mds64)) ?_
  funext i
  have hi : i.val < 24 := i.isLt
  unfold PoseidonConfig.applySBox PoseidonConfig.applyArk asState
  have hark : ((cfg64 p).ark.getD r []).getD i.val 0 = (cell ark64 r i.val : ZMod p) := ofTable_cell p ark64 r i.val
  rw [hark]
  simp only [List.getD_eq_getElem?_getD, List.getElem?_map, List.getElem?_range hi, Option.map_some,
    Option.getD_some]
  by_cases hc : full = true ∨ i.val = 0
  · rw [if_pos hc, if_pos hc, ZMod.natCast_mod, Nat.cast_pow, Nat.cast_add]
    rfl
  · rw [if_neg hc, if_neg hc, Nat.cast_add]

/-- Do the listed states follow each other? -/
def chainCheck (p : Nat) (states : List (List Nat)) : Bool :=
  (List.range 30).all fun r => roundCheck p (decide (r < 4 ∨ 26 ≤ r)) r (states.getD r []) (states.getD (r + 1) [])

theorem isFull64 (p r : Nat) : (cfg64 p).isFull r = decide (r < 4 ∨ 26 ≤ r) := by
  unfold PoseidonConfig.isFull
  exact decide_eq_decide.2 (by simp only [cfg64, Nat.reduceDiv, Nat.reduceAdd])

theorem chainCheck_permute {p : Nat} {states : List (List Nat)} (h : chainCheck p states = true) :
    (cfg64 p).permute (asState p (cfg64 p).width (states.getD 0 []))
      = asState p (cfg64 p).width (states.getD 30 []) := by
  unfold chainCheck at h
  simp only [List.all_eq_true, List.mem_range] at h
  have key : ∀ n ≤ 30, (List.range n).foldl (fun s r => (cfg64 p).round ((cfg64 p).isFull r) r s)
      (asState p (cfg64 p).width (states.getD 0 [])) = asState p (cfg64 p).width (states.getD n []) := by
    intro n
    induction n with
    | zero => intro _; rfl
    | succ n ih =>
      intro hn
      rw [List.range_succ, List.foldl_append, ih (by omega)]
      rw [List.foldl_cons, List.foldl_nil, isFull64]
      exact roundCheck_round (h n (by omega))
  unfold PoseidonConfig.permute
  rw [show (cfg64 p).partialRounds + (cfg64 p).fullRounds = 30 from rfl]
  exact key 30 (by omega)

theorem absorb_one {K : Type} [CommRing K] (c : PoseidonConfig K) (hr : 0 < c.rate) (x : K) :
    c.absorb c.spongeNew [x] = ⟨fun j => if j.val = c.capacity then x else 0, .absorbing 1⟩ := by
  simp only [PoseidonConfig.absorb, PoseidonConfig.absorbStep, PoseidonConfig.spongeNew, List.isEmpty_cons,
    Bool.false_eq_true, if_false, List.foldl_cons, List.foldl_nil, if_neg (show ¬ 0 = c.rate by omega), zero_add,
    add_zero]

theorem vec_start : (fun j : Fin 24 => if j.val = 4 then (255 : ZMod pGoldilocks) else 0)
    = asState pGoldilocks 24 (vecStates.getD 0 []) := by
  funext j
  have h : ∀ j < 24, (if j = 4 then 255 else 0) = (vecStates.getD 0 []).getD j 0 := by decide +kernel
  unfold asState
  rw [← h j.val j.isLt]
  split <;> norm_cast

theorem vec_state : (cfg64 pGoldilocks).permute
    ((cfg64 pGoldilocks).absorb (cfg64 pGoldilocks).spongeNew [255]).state
    = asState pGoldilocks (cfg64 pGoldilocks).width (vecStates.getD 30 []) := by
  rw [← chainCheck_permute (p := pGoldilocks) (states := vecStates) (by decide +kernel),
    absorb_one _ (by decide)]
  exact congrArg (cfg64 pGoldilocks).permute vec_start

theorem vec_squeeze (n : Nat) (hn : n ≤ 20) :
    ((cfg64 pGoldilocks).squeeze ((cfg64 pGoldilocks).absorb (cfg64 pGoldilocks).spongeNew [255]) n).1
      = (List.range n).map fun i => ((vecStates.getD 30 []).getD (4 + i) 0 : ZMod pGoldilocks) := by
  have hm : ((cfg64 pGoldilocks).absorb (cfg64 pGoldilocks).spongeNew [255]).mode = .absorbing 1 := by
    rw [absorb_one _ (by decide)]
  unfold PoseidonConfig.squeeze
  rw [hm]
  simp only
  have hn2 : 0 + n ≤ (cfg64 pGoldilocks).rate := by
    have : (cfg64 pGoldilocks).rate = 20 := rfl
    omega
  rw [squeezeFrom_block _ n _ 0 hn2, vec_state]
  simp only
  apply List.map_congr_left
  intro k hk
  rw [List.mem_range] at hk
  have hk2 : k < (cfg64 pGoldilocks).rate := by
    have : (cfg64 pGoldilocks).rate = 20 := rfl
    omega
  rw [zero_add, rateAt_lt _ _ _ hk2]
  rfl

section
variable {F R : Type} [CommRing F] [CommRing R] [Algebra F R]

/-- **C74**, the vector of `test_get_big_challenge`: after absorbing `0xFF` the challenge is the one the repository
expects. -/
theorem C74_vector_challenge (e : Encoding (ZMod pGoldilocks) F R 8 3) :
    e.toBase ((poseidonT (cfg64 pGoldilocks) e).challenge
      ((cfg64 pGoldilocks).absorb (cfg64 pGoldilocks).spongeNew [255])).1
      = [10462816198028961279, 17217694161994925895, 6163269596856181508] := by
  obtain ⟨x, _, h2, h3, _⟩ := (C74_transcript (cfg64 pGoldilocks) e (by norm_num) (by norm_num) (by norm_num)).1
    ((cfg64 pGoldilocks).absorb (cfg64 pGoldilocks).spongeNew [255])
  rw [h2, h3, vec_squeeze 3 (by norm_num)]
  decide +kernel

/-- The 18 bytes behind the short challenge of the test. -/
theorem vec_bytes (e : Encoding (ZMod pGoldilocks) F R 8 3) :
    ((poseidonT (cfg64 pGoldilocks) e).bytes
      ((cfg64 pGoldilocks).absorb (cfg64 pGoldilocks).spongeNew [255]) 18).1
      = [255, 37, 184, 209, 229, 99, 51, 71, 71, 6, 249, 157, 137, 241, 4, 227, 147, 63] := by
  have hu : PoseidonConfig.usableBytes pGoldilocks = 7 := by decide +kernel
  simp only [poseidonT, PoseidonConfig.squeezeBytes, hu]
  rw [vec_squeeze 3 (by norm_num)]
  decide +kernel

/-- **C74**, the vector of `test_get_small_challenge`: the coefficients of the short challenge, those above `p/2`
written as negative numbers. -/
theorem C74_vector_short {C : Type} [AddCommGroup C] [Module (ZMod pGoldilocks) C]
    (e : Encoding (ZMod pGoldilocks) F R 8 3) (coeff : C ≃ₗ[ZMod pGoldilocks] (Fin 24 → ZMod pGoldilocks)) :
    ∃ ch s, shortChallenge (poseidonT (cfg64 pGoldilocks) e) ⟨18, packedChallenge coeff⟩
      ((cfg64 pGoldilocks).absorb (cfg64 pGoldilocks).spongeNew [255]) = .ok (ch, s) ∧
    coeff ch = fun i => (([31, 18446744069414584312, 18446744069414584291, 14, 18446744069414584306, 18446744069414584312, 30, 18446744069414584313, 19, 18446744069414584317, 20, 18446744069414584306, 18446744069414584295, 4, 18446744069414584320, 7, 18446744069414584298, 18446744069414584295, 18446744069414584304, 18446744069414584290, 3, 18446744069414584304, 25, 18446744069414584304] : List Nat).getD i.val 0 : ZMod pGoldilocks) := by
  have hb := vec_bytes e
  have hp : packedCoeffs [255, 37, 184, 209, 229, 99, 51, 71, 71, 6, 249, 157, 137, 241, 4, 227, 147, 63]
      = .ok [31, -9, -30, 14, -15, -9, 30, -8, 19, -4, 20, -15, -26, 4, -1, 7, -23, -26, -17, -31, 3, -17, 25, -17] := by decide +kernel
  unfold shortChallenge
  simp only [hb, packedChallenge, hp]
  refine ⟨_, _, rfl, ?_⟩
  unfold polyFrom
  rw [LinearEquiv.apply_symm_apply]
  decide +kernel

end

end Verif.Props
