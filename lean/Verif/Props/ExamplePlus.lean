import Verif.Ext.PlusRing
import Verif.Props.ExampleRing
import Mathlib.Tactic.ReduceModChar

/-!
# A concrete coefficient ring

`F_17[X] / (X^4 + 1)` with `X^4 + 1 = (X - 2)(X - 8)(X - 9)(X - 15)`, written in the basis of the four
evaluations, with computable coefficients, `exp`, `psi` and balanced decompositions. It shows that the
contracts of `PlusRing` are satisfiable and is used in the examples beside the property theorems.
-/

set_option linter.unusedSimpArgs false

namespace Verif.Example

open Finset Verif

theorem shortZ {p : Nat} [NeZero p] {B : Nat} {x : ZMod p} : Short B x ↔ 2 * x.valMinAbs.natAbs ≤ B := by
  constructor
  · rintro ⟨n, h1, h2⟩
    have := ZMod.natAbs_min_of_le_div_two p x.valMinAbs n (by rw [ZMod.coe_valMinAbs, h2])
      (ZMod.natAbs_valMinAbs_le x)
    omega
  · intro h
    exact ⟨x.valMinAbs, h, (ZMod.coe_valMinAbs x).symm⟩

section
variable {p d : Nat} {R : Type} [Fact p.Prime] [CommRing R] [Algebra (ZMod p) R]

/-- Balanced digits of a field element. -/
def decZ (b k : Nat) (a : ZMod p) : Res (List (ZMod p)) :=
  if 2 * a.valMinAbs.natAbs ≤ reach b k then
    .ok ((List.range k).map fun j => (((balDigits b k a.valMinAbs).getD j 0 : ℤ) : ZMod p))
  else .error (.panic "decompose")

/-- Balanced decomposition, coefficient by coefficient. -/
def decR (coeff : R ≃ₗ[ZMod p] (Fin d → ZMod p)) (b k : Nat) (a : R) : Res (List R) :=
  if ∀ i, 2 * (coeff a i).valMinAbs.natAbs ≤ reach b k then
    .ok ((List.range k).map fun j => coeff.symm fun i =>
      (((balDigits b k (coeff a i).valMinAbs).getD j 0 : ℤ) : ZMod p))
  else .error (.panic "decompose")

theorem digit_mem (b k : Nat) (n : ℤ) {j : Nat} (hj : j < k) : (balDigits b k n).getD j 0 ∈ balDigits b k n := by
  have hj' : j < (balDigits b k n).length := by rw [balDigits_length]; exact hj
  rw [List.getD_eq_getElem?_getD, List.getElem?_eq_getElem hj', Option.getD_some]
  exact List.getElem_mem hj'

theorem decZ_ok (b k : Nat) (a : ZMod p) (hb : 2 ≤ b) (he : Even b) (hk : 1 ≤ k) (h : Short (reach b k) a) :
    ∃ ds, decZ b k a = .ok ds ∧ ds.length = k ∧
      ∑ i ∈ range k, (b : ZMod p) ^ i * ds.getD i 0 = a ∧ ∀ x ∈ ds, Short b x := by
  have : NeZero p := ⟨(Fact.out : p.Prime).ne_zero⟩
  have hs := shortZ.1 h
  refine ⟨_, if_pos hs, by simp, ?_, ?_⟩
  · have : ∀ j ∈ range k, (b : ZMod p) ^ j * ((List.range k).map fun j =>
        (((balDigits b k a.valMinAbs).getD j 0 : ℤ) : ZMod p)).getD j 0
        = (((b : ℤ) ^ j * (balDigits b k a.valMinAbs).getD j 0 : ℤ) : ZMod p) := by
      intro j hj
      simp [List.getD_eq_getElem?_getD, mem_range.1 hj]
    rw [sum_congr rfl this, ← Int.cast_sum, balDigits_sum b k hk, ZMod.coe_valMinAbs]
  · intro x hx
    obtain ⟨j, hj, rfl⟩ := List.mem_map.1 hx
    exact ⟨_, balDigits_short b hb he k hk _ hs _ (digit_mem b k _ (List.mem_range.1 hj)), rfl⟩

theorem decR_ok (coeff : R ≃ₗ[ZMod p] (Fin d → ZMod p)) (b k : Nat) (a : R) (hb : 2 ≤ b) (he : Even b)
    (hk : 1 ≤ k) (h : ∀ i, Short (reach b k) (coeff a i)) :
    ∃ ds, decR coeff b k a = .ok ds ∧ ds.length = k ∧
      ∑ i ∈ range k, (b : R) ^ i * ds.getD i 0 = a ∧ ∀ x ∈ ds, ∀ i, Short b (coeff x i) := by
  have : NeZero p := ⟨(Fact.out : p.Prime).ne_zero⟩
  have hs : ∀ i, 2 * (coeff a i).valMinAbs.natAbs ≤ reach b k := fun i => shortZ.1 (h i)
  refine ⟨_, if_pos hs, by simp, ?_, ?_⟩
  · apply coeff.injective
    funext i
    rw [map_sum, Finset.sum_apply]
    have : ∀ j ∈ range k, coeff ((b : R) ^ j * ((List.range k).map fun j => coeff.symm fun i =>
        (((balDigits b k (coeff a i).valMinAbs).getD j 0 : ℤ) : ZMod p)).getD j 0) i
        = (((b : ℤ) ^ j * (balDigits b k (coeff a i).valMinAbs).getD j 0 : ℤ) : ZMod p) := by
      intro j hj
      have hj' := mem_range.1 hj
      have e1 : ((List.range k).map fun j => coeff.symm fun i =>
        (((balDigits b k (coeff a i).valMinAbs).getD j 0 : ℤ) : ZMod p)).getD j 0
        = coeff.symm fun i => (((balDigits b k (coeff a i).valMinAbs).getD j 0 : ℤ) : ZMod p) := by
        simp [List.getD_eq_getElem?_getD, hj']
      have e2 : ∀ x : R, (b : R) ^ j * x = ((b : ZMod p) ^ j) • x := by
        intro x
        rw [Algebra.smul_def]
        simp
      rw [e1, e2, map_smul, LinearEquiv.apply_symm_apply]
      simp
    rw [sum_congr rfl this, ← Int.cast_sum, balDigits_sum b k hk, ZMod.coe_valMinAbs]
  · intro x hx i
    obtain ⟨j, hj, rfl⟩ := List.mem_map.1 hx
    rw [LinearEquiv.apply_symm_apply]
    exact ⟨_, balDigits_short b hb he k hk _ (hs i) _ (digit_mem b k _ (List.mem_range.1 hj)), rfl⟩

end

/-! ## The ring -/

/-- `F_17[X]/(X^4+1)` by evaluations. -/
abbrev R17 := Fin 4 → ZMod 17

instance : Fact (Nat.Prime 17) := ⟨by decide⟩

/-- Coefficients of the element with values `a_j` at `2, 8, 9, 15`. -/
def coeff17 : R17 ≃ₗ[ZMod 17] (Fin 4 → ZMod 17) where
  toFun a := ![13 * (a 0 + a 1 + a 2 + a 3), 13 * (9 * a 0 + 15 * a 1 + 2 * a 2 + 8 * a 3),
    13 * (13 * a 0 + 4 * a 1 + 4 * a 2 + 13 * a 3), 13 * (15 * a 0 + 9 * a 1 + 8 * a 2 + 2 * a 3)]
  invFun c := ![c 0 + 2 * c 1 + 4 * c 2 + 8 * c 3, c 0 + 8 * c 1 + 13 * c 2 + 2 * c 3,
    c 0 + 9 * c 1 + 13 * c 2 + 15 * c 3, c 0 + 15 * c 1 + 4 * c 2 + 9 * c 3]
  map_add' a b := by
    funext i
    fin_cases i <;> simp <;> ring
  map_smul' t a := by
    funext i
    fin_cases i <;> simp <;> ring
  left_inv a := by
    funext i
    fin_cases i <;> simp <;> ring_nf <;> reduce_mod_char
  right_inv c := by
    funext i
    fin_cases i <;> simp <;> ring_nf <;> reduce_mod_char

/-- `exp` for `|n| < 2`. -/
def exp17 (n : ZMod 17) : Option R17 :=
  if n = 0 then some 1 else if n = 1 then some ![2, 8, 9, 15] else
  if n = -1 then some (![2, 8, 9, 15] ^ 3) else none

/-- The ring with `psi = X - X^3`. -/
def plus17 : PlusRing (ZMod 17) R17 4 where
  dpos := by decide
  coeff := coeff17
  X := ![2, 8, 9, 15]
  coeff_X := by decide
  exp := exp17
  psi := ![2, 8, 9, 15] - ![2, 8, 9, 15] ^ 3
  exp_ok := by
    intro n hn
    have : n = 0 ∨ n = 1 ∨ n = -1 := by omega
    rcases this with rfl | rfl | rfl
    · exact ⟨0, by decide⟩
    · exact ⟨1, by decide⟩
    · exact ⟨3, by decide⟩
  decF := decZ
  decF_ok b k a hb he hk h := decZ_ok b k a hb he hk (h.reach hk)
  dec := decR coeff17
  dec_ok b k a hb he hk h := decR_ok coeff17 b k a hb he hk fun i => (h i).reach hk

end Verif.Example
