import Verif.Lemmas.Poseidon
import Verif.Lemmas.PoseidonData
import Mathlib.Tactic.FinCases
import Mathlib.LinearAlgebra.Matrix.Notation

/-!
# Checking the Poseidon certificates
-/

set_option linter.unusedSectionVars false
set_option linter.unusedSimpArgs false

namespace Verif.Poseidon

open Finset Verif Verif.Spec

/-! ## Tables -/

/-- Inner product of two lists. -/
def dotN : List Nat → List Nat → Nat
  | a :: as, b :: bs => a * b + dotN as bs
  | _, _ => 0

/-- Entry of a table. -/
def cell (t : List (List Nat)) (i j : Nat) : Nat := (t.getD i []).getD j 0

/-- `N * M = 1` modulo `p` for tables with `w` rows and columns. -/
def invCheck (p w : Nat) (N M : List (List Nat)) : Bool :=
  (List.range w).all fun j =>
    let col := (List.range w).map fun k => cell M k j
    (List.range w).all fun i => dotN (N.getD i []) col % p == if i = j then 1 else 0

theorem dotN_cast (p : Nat) (as bs : List Nat) (w : Nat) (hb : bs.length = w) :
    (dotN as bs : ZMod p) = ∑ k ∈ range w, (as.getD k 0 : ZMod p) * (bs.getD k 0 : ZMod p) := by
  induction as generalizing bs w with
  | nil => simp [dotN]
  | cons a as ih =>
    cases bs with
    | nil => simp at hb; subst hb; simp [dotN]
    | cons b bs =>
      simp only [List.length_cons] at hb
      subst hb
      rw [Finset.sum_range_succ', dotN, Nat.cast_add, ih bs bs.length rfl]
      simp [add_comm]

theorem ofTable_cell (p : Nat) (t : List (List Nat)) (i j : Nat) :
    ((ofTable p t).getD i []).getD j 0 = (cell t i j : ZMod p) := by
  unfold ofTable cell
  simp only [List.getD_eq_getElem?_getD, List.getElem?_map]
  cases h : t[i]? with
  | none => simp
  | some r =>
    simp only [Option.map_some, Option.getD_some, List.getElem?_map]
    cases h2 : r[j]? with
    | none => simp
    | some x => simp

/-- A table as a matrix. -/
def cellMat (p w : Nat) (t : List (List Nat)) : Matrix (Fin w) (Fin w) (ZMod p) :=
  fun i j => (cell t i.val j.val : ZMod p)

theorem invCheck_mul {p w : Nat} {N M : List (List Nat)} (h : invCheck p w N M = true) :
    cellMat p w N * cellMat p w M = 1 := by
  unfold invCheck at h
  simp only [List.all_eq_true, List.mem_range, beq_iff_eq] at h
  ext i j
  rw [Matrix.mul_apply]
  simp only [cellMat]
  have hij := h j j.isLt i i.isLt
  have hc := dotN_cast p (N.getD i []) ((List.range w).map fun k => cell M k j) w (by simp)
  have hs : ∑ k : Fin w, (cell N i k : ZMod p) * (cell M k j : ZMod p)
      = ∑ k ∈ range w, (cell N i k : ZMod p) * (cell M k j : ZMod p) :=
    Fin.sum_univ_eq_sum_range (fun k => (cell N i k : ZMod p) * (cell M k j : ZMod p)) w
  rw [hs]
  have hs2 : ∑ k ∈ range w, (cell N i k : ZMod p) * (cell M k j : ZMod p)
      = (dotN (N.getD i []) ((List.range w).map fun k => cell M k j) : ZMod p) := by
    rw [hc]
    apply Finset.sum_congr rfl
    intro k hk
    simp only [mem_range] at hk
    simp [cell, hk, List.getD_eq_getElem?_getD]
  rw [hs2, ← ZMod.natCast_mod, hij, Matrix.one_apply]
  by_cases hij' : i = j
  · simp [hij']
  · simp [hij', Fin.ext_iff.not.1 hij']

/-! ## The three configurations with 24 state elements -/

/-- The configuration shared by Goldilocks, BabyBear and Frog. -/
def cfg64 (p : Nat) : PoseidonConfig (ZMod p) := ⟨8, 22, 7, ofTable p mds64, ofTable p ark64, 20, 4⟩

theorem new64 (p : Nat) :
    PoseidonConfig.new 8 22 7 (ofTable p mds64) (ofTable p ark64) 20 4 = .ok (cfg64 p) := by
  unfold PoseidonConfig.new
  rw [if_neg (by simp [ofTable, show ark64.length = 30 from rfl]),
    if_neg (by
      have : ark64.all (fun r => r.length == 24) = true := by decide +kernel
      simpa [ofTable, List.any_map, Function.comp_def] using this),
    if_neg (by simp [ofTable, show mds64.length = 24 from rfl]),
    if_neg (by
      have : mds64.all (fun r => r.length == 24) = true := by decide +kernel
      simpa [ofTable, List.any_map, Function.comp_def] using this)]
  rfl

theorem mdsMat64 (p : Nat) : (cfg64 p).mdsMat = cellMat p 24 mds64 := by
  funext i j
  exact ofTable_cell p mds64 i j

theorem inv_goldilocks_ok : invCheck pGoldilocks 24 inv_goldilocks mds64 = true := by decide +kernel
theorem inv_babybear_ok : invCheck pBabyBear 24 inv_babybear mds64 = true := by decide +kernel
theorem inv_frog_ok : invCheck pFrog 24 inv_frog mds64 = true := by decide +kernel

theorem mds_inverse {p : Nat} {N : List (List Nat)} (h : invCheck p 24 N mds64 = true) :
    ∃ M' : Matrix (Fin (cfg64 p).width) (Fin (cfg64 p).width) (ZMod p), M' * (cfg64 p).mdsMat = 1 :=
  ⟨cellMat p 24 N, by rw [mdsMat64]; exact invCheck_mul h⟩

/-! ## Stark -/

/-- The Stark configuration. -/
def cfgStark : PoseidonConfig (ZMod pStark) :=
  ⟨8, 83, 3, ofIntTable _ mdsStark, ofTable _ arkStark, 2, 1⟩

theorem newStark : starkConfig = .ok cfgStark := by
  unfold starkConfig PoseidonConfig.new
  rw [if_neg (by simp [ofTable, show arkStark.length = 91 from rfl]),
    if_neg (by
      have : arkStark.all (fun r => r.length == 3) = true := by decide +kernel
      simpa [ofTable, List.any_map, Function.comp_def] using this),
    if_neg (by simp [ofIntTable, mdsStark]), if_neg (by simp [ofIntTable, mdsStark])]
  rfl

theorem mdsMatStark : cfgStark.mdsMat = !![3, 1, 1; 1, -1, 1; 1, 1, -2] := by
  funext i j
  unfold PoseidonConfig.mdsMat cfgStark ofIntTable mdsStark
  fin_cases i <;> fin_cases j <;> simp <;> rfl

theorem stark_ne_zero (n : Nat) (h0 : 0 < n) (h : n < pStark) : (n : ZMod pStark) ≠ 0 := by
  intro hn
  rw [ZMod.natCast_eq_zero_iff] at hn
  exact absurd (Nat.le_of_dvd h0 hn) (by omega)

theorem stark_inverse : ∃ M' : Matrix (Fin cfgStark.width) (Fin cfgStark.width) (ZMod pStark),
    M' * cfgStark.mdsMat = 1 := by
  have h8 : (8 : ZMod pStark) ≠ 0 := by
    have := stark_ne_zero 8 (by omega) (by norm_num)
    simpa using this
  refine ⟨(8 : ZMod pStark)⁻¹ • (!![1, 3, 2; 3, -7, -2; 2, -2, -4] : Matrix (Fin 3) (Fin 3) (ZMod pStark)), ?_⟩
  rw [mdsMatStark]
  have : (!![1, 3, 2; 3, -7, -2; 2, -2, -4] : Matrix (Fin 3) (Fin 3) (ZMod pStark))
      * !![3, 1, 1; 1, -1, 1; 1, 1, -2] = (8 : ZMod pStark) • 1 := by
    ext i j
    fin_cases i <;> fin_cases j <;> simp [Matrix.mul_apply, Fin.sum_univ_three] <;> norm_num
  have h2 := congrArg (fun A => (8 : ZMod pStark)⁻¹ • A) this
  simp only [smul_smul, inv_mul_cancel₀ h8, one_smul] at h2
  exact (Matrix.smul_mul _ _ _).trans h2

/-! ## Bijectivity -/

theorem bijective_of_injective {p : Nat} [Fact p.Prime] {c : PoseidonConfig (ZMod p)}
    (h : Function.Injective c.permute) : Function.Bijective c.permute :=
  Finite.injective_iff_bijective.1 h

theorem permute_goldilocks : Function.Injective (cfg64 pGoldilocks).permute := by
  obtain ⟨M', hM⟩ := mds_inverse inv_goldilocks_ok
  exact permute_injective _ (pow_injective 7 10540996611094048183 4 (by norm_num)) hM

theorem permute_babybear : Function.Injective (cfg64 pBabyBear).permute := by
  obtain ⟨M', hM⟩ := mds_inverse inv_babybear_ok
  exact permute_injective _ (pow_injective 7 1725656503 6 (by norm_num)) hM

theorem permute_frog : Function.Injective (cfg64 pFrog).permute := by
  obtain ⟨M', hM⟩ := mds_inverse inv_frog_ok
  exact permute_injective _ (pow_injective 7 13638936446850500263 6 (by norm_num)) hM

theorem permute_stark : Function.Injective cfgStark.permute := by
  obtain ⟨M', hM⟩ := stark_inverse
  exact permute_injective _ (pow_injective 3
    2412335192444087475798215188730046737082071476887731133315394704090581346987 2 (by norm_num)) hM

/-! ## Diffusion -/

/-- `M i j * (x i + y j) = 1` modulo `p`. -/
def cauchyCheck (p w : Nat) (M : List (List Nat)) (x y : List Nat) : Bool :=
  (List.range w).all fun i => (List.range w).all fun j =>
    cell M i j * (x.getD i 0 + y.getD j 0) % p == 1

theorem cauchy_ok : cauchyCheck pGoldilocks 24 mds64 cauchyX cauchyY = true := by decide +kernel

/-- Entries are below `p` and distinct. -/
def distinctCheck (p : Nat) (x : List Nat) : Bool := x.all (fun a => decide (a < p)) && decide x.Nodup

theorem cauchyX_ok : distinctCheck pGoldilocks cauchyX = true := by decide +kernel
theorem cauchyY_ok : distinctCheck pGoldilocks cauchyY = true := by decide +kernel

theorem distinct_injective {p w : Nat} {x : List Nat} (h : distinctCheck p x = true) (hl : x.length = w) :
    Function.Injective fun i : Fin w => (x.getD i 0 : ZMod p) := by
  subst hl
  unfold distinctCheck at h
  simp only [Bool.and_eq_true, List.all_eq_true, decide_eq_true_eq] at h
  intro i j hij
  simp only at hij
  rw [ZMod.natCast_eq_natCast_iff', Nat.mod_eq_of_lt, Nat.mod_eq_of_lt] at hij
  · simp only [List.getD_eq_getElem?_getD, List.getElem?_eq_getElem i.isLt,
      List.getElem?_eq_getElem j.isLt, Option.getD_some] at hij
    exact Fin.ext ((List.Nodup.getElem_inj_iff h.2).1 hij)
  · simp only [List.getD_eq_getElem?_getD, List.getElem?_eq_getElem j.isLt, Option.getD_some]
    exact h.1 _ (List.getElem_mem _)
  · simp only [List.getD_eq_getElem?_getD, List.getElem?_eq_getElem i.isLt, Option.getD_some]
    exact h.1 _ (List.getElem_mem _)

theorem goldilocks_weight (v : Fin (cfg64 pGoldilocks).width → ZMod pGoldilocks) (hv : v ≠ 0) :
    24 + 1 ≤ weight v + weight ((cfg64 pGoldilocks).mdsMat.mulVec v) := by
  have hc := cauchy_ok
  unfold cauchyCheck at hc
  simp only [List.all_eq_true, List.mem_range, beq_iff_eq] at hc
  refine cauchy_weight (w := 24) (fun i => (cauchyX.getD i 0 : ZMod pGoldilocks))
    (fun j => (cauchyY.getD j 0 : ZMod pGoldilocks)) (distinct_injective cauchyX_ok rfl)
    (distinct_injective cauchyY_ok rfl) _ ?_ v hv
  intro i j
  rw [mdsMat64]
  have h1 := hc i i.isLt j j.isLt
  have h2 := congrArg (fun n : Nat => (n : ZMod pGoldilocks)) h1
  simp only [ZMod.natCast_mod, Nat.cast_mul, Nat.cast_add, Nat.cast_one] at h2
  exact h2

end Verif.Poseidon
