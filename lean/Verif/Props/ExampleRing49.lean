import Verif.Props.ExampleRing
import Verif.Lemmas.Witness
import Verif.Spec.Folding
import Mathlib.Tactic.IntervalCases
import Mathlib.Tactic.FinCases

/-!
# A concrete suitable ring of extension degree 2

`F_7[X] / (X^2 + 1)`, which is the field of 49 elements: one slot, extension degree `τ = 2`.
-/

set_option linter.unusedSimpArgs false

namespace Verif.Example

open Finset Verif Verif.Spec

/-- `re + im i` over `F_7`. -/
@[ext] structure F49 where
  re : ZMod 7
  im : ZMod 7
  deriving DecidableEq

instance fact7 : Fact (Nat.Prime 7) := ⟨by decide⟩

namespace F49

instance : Fintype F49 := Fintype.ofEquiv (ZMod 7 × ZMod 7)
  ⟨fun p => ⟨p.1, p.2⟩, fun x => (x.re, x.im), fun _ => rfl, fun _ => rfl⟩

instance : Zero F49 := ⟨⟨0, 0⟩⟩
instance : One F49 := ⟨⟨1, 0⟩⟩
instance : Add F49 := ⟨fun a b => ⟨a.re + b.re, a.im + b.im⟩⟩
instance : Neg F49 := ⟨fun a => ⟨-a.re, -a.im⟩⟩
instance : Sub F49 := ⟨fun a b => ⟨a.re - b.re, a.im - b.im⟩⟩
instance : Mul F49 := ⟨fun a b => ⟨a.re * b.re - a.im * b.im, a.re * b.im + a.im * b.re⟩⟩
instance : Inv F49 := ⟨fun a => ⟨a.re * (a.re * a.re + a.im * a.im) ^ 5, -a.im * (a.re * a.re + a.im * a.im) ^ 5⟩⟩

@[simp] theorem zero_re : (0 : F49).re = 0 := rfl
@[simp] theorem zero_im : (0 : F49).im = 0 := rfl
@[simp] theorem one_re : (1 : F49).re = 1 := rfl
@[simp] theorem one_im : (1 : F49).im = 0 := rfl
@[simp] theorem add_re (a b : F49) : (a + b).re = a.re + b.re := rfl
@[simp] theorem add_im (a b : F49) : (a + b).im = a.im + b.im := rfl
@[simp] theorem neg_re (a : F49) : (-a).re = -a.re := rfl
@[simp] theorem neg_im (a : F49) : (-a).im = -a.im := rfl
@[simp] theorem sub_re (a b : F49) : (a - b).re = a.re - b.re := rfl
@[simp] theorem sub_im (a b : F49) : (a - b).im = a.im - b.im := rfl
@[simp] theorem mul_re (a b : F49) : (a * b).re = a.re * b.re - a.im * b.im := rfl
@[simp] theorem mul_im (a b : F49) : (a * b).im = a.re * b.im + a.im * b.re := rfl

instance : CommRing F49 where
  add_assoc a b c := by ext <;> simp <;> ring
  zero_add a := by ext <;> simp
  add_zero a := by ext <;> simp
  add_comm a b := by ext <;> simp <;> ring
  left_distrib a b c := by ext <;> simp <;> ring
  right_distrib a b c := by ext <;> simp <;> ring
  zero_mul a := by ext <;> simp
  mul_zero a := by ext <;> simp
  mul_assoc a b c := by ext <;> simp <;> ring
  one_mul a := by ext <;> simp
  mul_one a := by ext <;> simp
  neg_add_cancel a := by ext <;> simp
  sub_eq_add_neg a b := by ext <;> simp <;> ring
  mul_comm a b := by ext <;> simp <;> ring
  nsmul := nsmulRec
  zsmul := zsmulRec

instance : Field F49 where
  exists_pair_ne := ⟨0, 1, by decide⟩
  mul_inv_cancel a ha := by
    have h : ∀ x y : ZMod 7, (⟨x, y⟩ : F49) ≠ 0 → (⟨x, y⟩ : F49) * (⟨x, y⟩ : F49)⁻¹ = 1 := by decide
    exact h a.re a.im ha
  inv_zero := by decide
  nnqsmul := _
  nnqsmul_def := fun _ _ => rfl
  qsmul := _
  qsmul_def := fun _ _ => rfl

/-- The embedding of `F_7`. -/
def ofBase : ZMod 7 →+* F49 where
  toFun x := ⟨x, 0⟩
  map_one' := rfl
  map_zero' := rfl
  map_add' a b := by ext <;> simp
  map_mul' a b := by ext <;> simp

instance : Algebra (ZMod 7) F49 := ofBase.toAlgebra

theorem algebraMap_def (x : ZMod 7) : algebraMap (ZMod 7) F49 x = ⟨x, 0⟩ := rfl
@[simp] theorem smul_re (t : ZMod 7) (a : F49) : (t • a).re = t * a.re := by
  rw [Algebra.smul_def, algebraMap_def]; simp
@[simp] theorem smul_im (t : ZMod 7) (a : F49) : (t • a).im = t * a.im := by
  rw [Algebra.smul_def, algebraMap_def]; simp

end F49

/-- NTT form of `F_7[X]/(X^2+1)`: one slot. -/
abbrev C49 := Fin 1 → F49

/-- Coefficients of `re + im X`. -/
def coeff49 : C49 ≃ₗ[ZMod 7] (Fin (2 * 1) → ZMod 7) where
  toFun a := fun i => if i = 0 then (a 0).re else (a 0).im
  invFun c := fun _ => ⟨c 0, c 1⟩
  map_add' a b := by
    funext i
    simp only [Pi.add_apply]
    split <;> simp
  map_smul' t a := by
    funext i
    simp only [Pi.smul_apply, smul_eq_mul, RingHom.id_apply]
    split <;> simp
  left_inv a := by
    funext i
    fin_cases i
    ext <;> simp
  right_inv c := by
    funext i
    fin_cases i
    · simp
    · simp

/-- Balanced decomposition, coefficient by coefficient. -/
def dec49 (b k : Nat) (a : C49) : Res (List C49) :=
  if ∀ i, 2 * (coeff49 a i).valMinAbs.natAbs ≤ reach b k then
    .ok ((List.range k).map fun j => coeff49.symm fun i =>
      (((balDigits b k (coeff49 a i).valMinAbs).getD j 0 : ℤ) : ZMod 7))
  else .error (.panic "decompose")

theorem short7 {B : Nat} {x : ZMod 7} : Short B x ↔ 2 * x.valMinAbs.natAbs ≤ B := by
  constructor
  · rintro ⟨n, h1, h2⟩
    have := ZMod.natAbs_min_of_le_div_two 7 x.valMinAbs n (by rw [ZMod.coe_valMinAbs, h2])
      (ZMod.natAbs_valMinAbs_le x)
    omega
  · intro h
    exact ⟨x.valMinAbs, h, (ZMod.coe_valMinAbs x).symm⟩

/-- `F_7[X]/(X^2+1)` as a suitable ring. -/
def ring49 : RingData (ZMod 7) F49 C49 1 2 where
  npos := by decide
  coeff := coeff49
  crt := AlgEquiv.refl
  X := ![⟨0, 1⟩]
  coeff_X := by decide
  dec := dec49
  dec_ok := by
    intro b k a hb he hk h
    have hs : ∀ i, 2 * (coeff49 a i).valMinAbs.natAbs ≤ reach b k := fun i => short7.1 (h i)
    refine ⟨_, if_pos hs, by simp, ?_, ?_⟩
    · apply coeff49.injective
      funext i
      rw [map_sum, Finset.sum_apply]
      have : ∀ j ∈ range k, coeff49 ((b : C49) ^ j * ((List.range k).map fun j => coeff49.symm fun i =>
          (((balDigits b k (coeff49 a i).valMinAbs).getD j 0 : ℤ) : ZMod 7)).getD j 0) i
          = (((b : ℤ) ^ j * (balDigits b k (coeff49 a i).valMinAbs).getD j 0 : ℤ) : ZMod 7) := by
        intro j hj
        have hj' := mem_range.1 hj
        have e1 : ((List.range k).map fun j => coeff49.symm fun i =>
          (((balDigits b k (coeff49 a i).valMinAbs).getD j 0 : ℤ) : ZMod 7)).getD j 0
          = coeff49.symm fun i => (((balDigits b k (coeff49 a i).valMinAbs).getD j 0 : ℤ) : ZMod 7) := by
          simp [List.getD_eq_getElem?_getD, hj']
        have e2 : ∀ x : C49, (b : C49) ^ j * x = ((b : ZMod 7) ^ j) • x := by
          intro x
          rw [Algebra.smul_def, map_pow, map_natCast]
        rw [e1, e2, map_smul, LinearEquiv.apply_symm_apply]
        simp
      rw [sum_congr rfl this, ← Int.cast_sum, balDigits_sum b k hk, ZMod.coe_valMinAbs]
    · intro d hd i
      obtain ⟨j, hj, rfl⟩ := List.mem_map.1 hd
      rw [LinearEquiv.apply_symm_apply]
      refine ⟨_, balDigits_short b hb he k hk _ (hs i) _ ?_, rfl⟩
      have hj' : j < (balDigits b k (coeff49 a i).valMinAbs).length := by
        rw [balDigits_length]; exact List.mem_range.1 hj
      rw [List.getD_eq_getElem?_getD, List.getElem?_eq_getElem hj', Option.getD_some]
      exact List.getElem_mem hj'

/-- `B = 4`, `L = 2`, `b = 2`, `K = 2`. -/
def par49 : Params := ⟨4, 2, 2, 2⟩

theorem par49_ok : ParamsOK (ZMod 7) par49 where
  bEven := by decide
  b2 := by decide
  BEven := by decide
  B2 := by decide
  Lpos := by decide
  Kpos := by decide
  BK := by decide
  cover := fun x => short7.2 (by revert x; decide)
  nooverflow := by decide

/-- `z_0 * z_2 = z_2` and `z_1 * z_1 = z_1`, `z = (x, 1, w_0)`. -/
def ccs49 : CCS C49 :=
  { m := 2, n := 3, l := 1, t := 3, q := 2, d := 2, s := 1, s_prime := 2
    M := [⟨2, 3, [[(1, 0)], [(1, 1)]]⟩, ⟨2, 3, [[(1, 2)], [(1, 1)]]⟩, ⟨2, 3, [[(1, 2)], [(1, 1)]]⟩]
    S := [[0, 1], [2]]
    c := [1, -1] }

theorem ccs49_shape : LinShape ccs49 := by
  refine ⟨⟨?_, rfl, rfl, ?_⟩, by decide, rfl, ?_, ?_⟩
  · intro M hM
    simp only [ccs49, List.mem_cons, List.not_mem_nil, or_false] at hM
    rcases hM with rfl | rfl | rfl <;> exact ⟨⟨rfl, by simp⟩, rfl⟩
  · simp [ccs49]
  · intro M hM
    simp only [ccs49, List.mem_cons, List.not_mem_nil, or_false] at hM
    rcases hM with rfl | rfl | rfl <;> decide
  · intro k hk _
    have : k < 2 := hk
    have h : ∀ k < 2, (ccs49.S.getD k []).length ≤ ccs49.d := by decide
    exact h k this

/-- Commitment matrix `(1 + 2X, 3 + X)` in NTT form. -/
def scheme49 : Ajtai C49 := ⟨⟨1, 2, [[![⟨1, 2⟩], ![⟨3, 1⟩]]]⟩⟩

theorem sizes49 : SizesOK par49 ccs49 scheme49 where
  sh := ccs49_shape
  nl := by decide
  hat := by decide
  mat := ⟨rfl, by simp [scheme49]⟩
  width := rfl

/-- Witness with coefficient form `[c0, c1]`. -/
def wit49 (c0 c1 : C49) : Witness C49 C49 := mkWit ring49 par49 1 [c0, c1]

/-- The accumulator for witness `w`, public input `x`, constant term `h` and point `r`. -/
def acc49 (r x h : C49) (w : Witness C49 C49) : LCCCS C49 :=
  ⟨[r], w.fHat.map fun m => mle m.get [r], ⟨scheme49.matrix.vals.map fun row => dot row w.f⟩,
    ccs49.M.map fun M => mle (mulVec M (([x] ++ [h]) ++ w.wCcs)) [r], [x], h⟩

theorem acc49_holds (r x h c0 c1 : C49) :
    LcccsHolds ring49 par49 ccs49 scheme49 (acc49 r x h (wit49 c0 c1)) (wit49 c0 c1) where
  witOK := mkWit_ok ring49 par49 (wl := 1) [c0, c1] rfl
  cm := commit_ok scheme49 _ (by simp [wit49, mkWit, scheme49])
  xlen := rfl
  evals := ⟨rfl, rfl, rfl⟩

theorem wit49_small (c0 c1 : C49) (h : ∀ i, 2 * (coeff49 c0 i).valMinAbs.natAbs ≤ 2 ∧
    2 * (coeff49 c1 i).valMinAbs.natAbs ≤ 2) : WitShort ring49 par49.bSmall (wit49 c0 c1) := by
  intro c hc i
  simp only [wit49, mkWit, List.mem_cons, List.not_mem_nil, or_false] at hc
  rcases hc with rfl | rfl
  · exact short7.2 (h i).1
  · exact short7.2 (h i).2

theorem charGt49 : CharGt F49 (2 * par49.bSmall) := by
  intro k h1 h2
  have : k ≤ 4 := h2
  interval_cases k <;> decide

end Verif.Example
