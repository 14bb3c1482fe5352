import Verif.Props.ExampleRing
import Verif.Lemmas.Witness
import Verif.Spec.Nifs
import Verif.Spec.Knowledge
import Mathlib.Tactic.IntervalCases
import Mathlib.Tactic.FinCases
import Mathlib.Tactic.NormNum.Prime

/-!
# A concrete suitable ring of degree 1

The field of 257 elements, with all 256 bytes as pairwise different challenges: every difference of two of them is invertible,
which is what the shipped challenge sets have as well (C83).
-/

set_option linter.unusedSimpArgs false

namespace Verif.Example

open Finset Verif Verif.Spec

instance fact257 : Fact (Nat.Prime 257) := ⟨by norm_num⟩

abbrev C257 := Fin 1 → ZMod 257

def coeff257 : C257 ≃ₗ[ZMod 257] (Fin (1 * 1) → ZMod 257) := LinearEquiv.refl _ _

/-- Balanced decomposition. -/
def dec257 (b k : Nat) (a : C257) : Res (List C257) :=
  if ∀ i, 2 * (coeff257 a i).valMinAbs.natAbs ≤ reach b k then
    .ok ((List.range k).map fun j => coeff257.symm fun i =>
      (((balDigits b k (coeff257 a i).valMinAbs).getD j 0 : ℤ) : ZMod 257))
  else .error (.panic "decompose")

theorem short257 {B : Nat} {x : ZMod 257} : Short B x ↔ 2 * x.valMinAbs.natAbs ≤ B := by
  constructor
  · rintro ⟨n, h1, h2⟩
    have := ZMod.natAbs_min_of_le_div_two 257 x.valMinAbs n (by rw [ZMod.coe_valMinAbs, h2])
      (ZMod.natAbs_valMinAbs_le x)
    omega
  · intro h
    exact ⟨x.valMinAbs, h, (ZMod.coe_valMinAbs x).symm⟩

/-- `F_257` as a suitable ring. -/
def ring257 : RingData (ZMod 257) (ZMod 257) C257 1 1 where
  npos := by decide
  coeff := coeff257
  crt := AlgEquiv.refl
  X := 0
  coeff_X := by
    intro i
    have hi : i = (0 : Fin 1) := Subsingleton.elim (α := Fin 1) _ _
    subst hi
    funext j
    have hj : j = (0 : Fin 1) := Subsingleton.elim (α := Fin 1) _ _
    subst hj
    rfl
  dec := dec257
  dec_ok := by
    intro b k a hb he hk h
    have hs : ∀ i, 2 * (coeff257 a i).valMinAbs.natAbs ≤ reach b k := fun i => short257.1 (h i)
    refine ⟨_, if_pos hs, by simp, ?_, ?_⟩
    · apply coeff257.injective
      funext i
      rw [map_sum, Finset.sum_apply]
      have : ∀ j ∈ range k, coeff257 ((b : C257) ^ j * ((List.range k).map fun j => coeff257.symm fun i =>
          (((balDigits b k (coeff257 a i).valMinAbs).getD j 0 : ℤ) : ZMod 257)).getD j 0) i
          = (((b : ℤ) ^ j * (balDigits b k (coeff257 a i).valMinAbs).getD j 0 : ℤ) : ZMod 257) := by
        intro j hj
        have hj' := mem_range.1 hj
        have e1 : ((List.range k).map fun j => coeff257.symm fun i =>
          (((balDigits b k (coeff257 a i).valMinAbs).getD j 0 : ℤ) : ZMod 257)).getD j 0
          = coeff257.symm fun i => (((balDigits b k (coeff257 a i).valMinAbs).getD j 0 : ℤ) : ZMod 257) := by
          simp [List.getD_eq_getElem?_getD, hj']
        have e2 : ∀ x : C257, (b : C257) ^ j * x = ((b : ZMod 257) ^ j) • x := by
          intro x
          funext l
          simp
        rw [e1, e2, map_smul, LinearEquiv.apply_symm_apply]
        simp
      rw [sum_congr rfl this, ← Int.cast_sum, balDigits_sum b k hk, ZMod.coe_valMinAbs]
    · intro d hd i
      obtain ⟨j, hj, rfl⟩ := List.mem_map.1 hd
      rw [LinearEquiv.apply_symm_apply]
      refine ⟨_, balDigits_short b hb he k hk _ (hs i) _ ?_, rfl⟩
      have hj' : j < (balDigits b k (coeff257 a i).valMinAbs).length := by
        rw [balDigits_length]; exact List.mem_range.1 hj
      rw [List.getD_eq_getElem?_getD, List.getElem?_eq_getElem hj', Option.getD_some]
      exact List.getElem_mem hj'

/-- `B = 16`, `L = 2`, `b = 16`, `K = 2`. -/
def par257 : Params := ⟨16, 2, 16, 2⟩

theorem all257 (x : ZMod 257) : 2 * x.valMinAbs.natAbs ≤ 256 := by
  have := ZMod.natAbs_valMinAbs_le x
  omega

theorem par257_ok : ParamsOK (ZMod 257) par257 where
  bEven := by decide
  b2 := by decide
  BEven := by decide
  B2 := by decide
  Lpos := by decide
  Kpos := by decide
  BK := by decide
  cover := fun x => short257.2 ((all257 x).trans (by decide))
  nooverflow := by decide

theorem reach257 (x : ZMod 257) : Short (reach par257.bSmall par257.K) x := short257.2 ((all257 x).trans (by decide))

/-- `z_0 * z_2 = z_2` and `z_1 * z_1 = z_1`, `z = (x, 1, w_0)`. -/
def ccs257 : CCS C257 :=
  { m := 2, n := 3, l := 1, t := 3, q := 2, d := 2, s := 1, s_prime := 2
    M := [⟨2, 3, [[(1, 0)], [(1, 1)]]⟩, ⟨2, 3, [[(1, 2)], [(1, 1)]]⟩, ⟨2, 3, [[(1, 2)], [(1, 1)]]⟩]
    S := [[0, 1], [2]]
    c := [1, -1] }

theorem ccs257_shape : LinShape ccs257 := by
  refine ⟨⟨?_, rfl, rfl, ?_⟩, by decide, rfl, ?_, ?_⟩
  · intro M hM
    simp only [ccs257, List.mem_cons, List.not_mem_nil, or_false] at hM
    rcases hM with rfl | rfl | rfl <;> exact ⟨⟨rfl, by simp⟩, rfl⟩
  · simp [ccs257]
  · intro M hM
    simp only [ccs257, List.mem_cons, List.not_mem_nil, or_false] at hM
    rcases hM with rfl | rfl | rfl <;> decide
  · intro k hk _
    have : k < 2 := hk
    have h : ∀ k < 2, (ccs257.S.getD k []).length ≤ ccs257.d := by decide
    exact h k this

theorem aligned257 : Aligned ccs257 := by
  unfold Aligned
  decide +kernel

/-- Commitment by the matrix `(1 2; 0 1)`. -/
def scheme257 : Ajtai C257 := ⟨⟨2, 2, [[1, 2], [0, 1]]⟩⟩

theorem sizes257 : SizesOK par257 ccs257 scheme257 where
  sh := ccs257_shape
  nl := by decide
  hat := by decide
  mat := ⟨rfl, by simp [scheme257]⟩
  width := rfl

/-- Witness with coefficient form `[c0, c1]`. -/
def wit257 (c0 c1 : C257) : Witness C257 C257 := mkWit ring257 par257 1 [c0, c1]

/-- A statement about `w`. -/
def acc257 (r x h : C257) (w : Witness C257 C257) : LCCCS C257 :=
  ⟨[r], w.fHat.map fun m => mle m.get [r], ⟨scheme257.matrix.vals.map fun row => dot row w.f⟩,
    ccs257.M.map fun M => mle (mulVec M (([x] ++ [h]) ++ w.wCcs)) [r], [x], h⟩

theorem acc257_holds (r x h c0 c1 : C257) :
    LcccsHolds ring257 par257 ccs257 scheme257 (acc257 r x h (wit257 c0 c1)) (wit257 c0 c1) where
  witOK := mkWit_ok ring257 par257 (wl := 1) [c0, c1] rfl
  cm := commit_ok scheme257 _ (by simp [wit257, mkWit, scheme257])
  xlen := rfl
  evals := ⟨rfl, rfl, rfl⟩

/-- Fresh statement: public input `1`, the witness is `w_0 = 3 + 16 * 2`. -/
def fresh257 : CCCS C257 := ⟨⟨scheme257.matrix.vals.map fun row => dot row (wit257 ![3] ![2]).f⟩, [![1]]⟩

theorem fresh257_holds : FreshHolds ring257 par257 ccs257 scheme257 fresh257 (wit257 ![3] ![2]) where
  witOK := mkWit_ok ring257 par257 (wl := 1) _ rfl
  opens := commit_ok scheme257 _ (by simp [wit257, mkWit, scheme257])
  xlen := rfl
  sat := by
    intro i hi
    have hi : i < 2 := hi
    interval_cases i <;> decide +kernel
  short := fun _ _ _ => reach257 _

theorem charGt257 (n : Nat) (hn : n ≤ 256) : CharGt (ZMod 257) n := by
  intro k h1 h2
  rw [Ne, ZMod.natCast_eq_zero_iff]
  intro h
  have := Nat.le_of_dvd (by omega) h
  omega

/-- The challenge set: byte `b` is the challenge `b`. -/
def cs257 : ChallengeSet C257 := ⟨1, fun bs => match bs with
  | [b] => .ok ![(b.toNat : ZMod 257)]
  | _ => .error (.tooFewBytes bs.length 1)⟩

theorem cs257_ok (bs : List UInt8) (h : bs.length = cs257.bytesNeeded) : ∃ c, cs257.decode bs = .ok c := by
  match bs, h with
  | [b], _ => exact ⟨_, rfl⟩

theorem cs257_diff (bs bs' : List UInt8) (h : bs.length = cs257.bytesNeeded) (h' : bs'.length = cs257.bytesNeeded) (hne : bs ≠ bs')
    (c c' : C257) (e : cs257.decode bs = .ok c) (e' : cs257.decode bs' = .ok c') : IsUnit (c - c') := by
  match bs, bs', h, h' with
  | [b], [b'], _, _ =>
    cases e
    cases e'
    have hb : b.toNat ≠ b'.toNat := fun h => hne (by rw [UInt8.toNat_inj.1 h])
    have hne : (b.toNat : ZMod 257) - b'.toNat ≠ 0 := by
      rw [sub_ne_zero, Ne, ZMod.natCast_eq_natCast_iff', Nat.mod_eq_of_lt (by have := b.toNat_lt; omega),
        Nat.mod_eq_of_lt (by have := b'.toNat_lt; omega)]
      exact hb
    refine IsUnit.of_mul_eq_one (fun _ => ((b.toNat : ZMod 257) - b'.toNat)⁻¹) (funext fun i => ?_)
    have hi : i = 0 := Subsingleton.elim _ _
    subst hi
    exact mul_inv_cancel₀ hne

theorem noKernel257 (A : Nat) : NoShortKernel ring257 scheme257 A := by
  rintro ⟨z, h1, ⟨x, hx, hx0⟩, h2, -⟩
  match z, h1 with
  | [a, b], _ =>
    rw [commit_ok scheme257 _ rfl] at h2
    have h := (Commitment.mk.injEq _ _).mp (Except.ok.inj h2)
    simp only [scheme257, List.map_cons, List.map_nil, List.length_cons, List.length_nil, List.replicate, List.cons.injEq, and_true, dot,
      List.zipWith_cons_cons, List.zipWith_nil_left, List.sum_cons, List.sum_nil, one_mul, zero_mul, add_zero, zero_add] at h
    have hb : b = 0 := h.2
    have ha : a + 2 * b = 0 := h.1
    rw [hb, mul_zero, add_zero] at ha
    apply hx0
    simp only [List.mem_cons, List.not_mem_nil, or_false] at hx
    rcases hx with rfl | rfl
    · exact ha
    · exact hb

end Verif.Example
