import Verif.Lemmas.Witness
import Verif.Lemmas.Interp
import Mathlib.Tactic.IntervalCases
import Verif.Spec.Folding
import Verif.Model.ChallengeSet
import Verif.Props.ExampleRing

/-!
# Concrete data over the example ring

A CCS of two rows over `F_5[X]/(X^2+1)`, a `1 x 2` commitment matrix, witnesses and accumulators.
-/

set_option linter.unusedSimpArgs false

namespace Verif.Example

open Finset Verif Verif.Spec

theorem par5_ok : ParamsOK (ZMod 5) par5 where
  bEven := by decide
  b2 := by decide
  BEven := by decide
  B2 := by decide
  Lpos := by decide
  Kpos := by decide
  BK := by decide
  cover := fun x => short5.2 (by revert x; decide)
  nooverflow := by decide

/-- `z_0 * z_2 = z_3` and `z_1 * z_1 = z_1`, `z = (x, 1, w_0, w_1)`. -/
def ccs5 : CCS C5 :=
  { m := 2, n := 4, l := 1, t := 3, q := 2, d := 2, s := 1, s_prime := 2
    M := [⟨2, 4, [[(1, 0)], [(1, 1)]]⟩, ⟨2, 4, [[(1, 2)], [(1, 1)]]⟩, ⟨2, 4, [[(1, 3)], [(1, 1)]]⟩]
    S := [[0, 1], [2]]
    c := [1, -1] }

theorem ccs5_shape : LinShape ccs5 := by
  refine ⟨⟨?_, rfl, rfl, ?_⟩, by decide, rfl, ?_, ?_⟩
  · intro M hM
    simp only [ccs5, List.mem_cons, List.not_mem_nil, or_false] at hM
    rcases hM with rfl | rfl | rfl <;> exact ⟨⟨rfl, by simp⟩, rfl⟩
  · simp [ccs5]
  · intro M hM
    simp only [ccs5, List.mem_cons, List.not_mem_nil, or_false] at hM
    rcases hM with rfl | rfl | rfl <;> decide
  · intro k hk _
    have : k < 2 := hk
    have h : ∀ k < 2, (ccs5.S.getD k []).length ≤ ccs5.d := by decide
    exact h k this

/-- Commitment matrix `(1 + 2X, 3 + X)` in NTT form. -/
def scheme5 : Ajtai C5 := ⟨⟨1, 2, [[![0, 2], ![0, 1]]]⟩⟩

theorem sizes5 : SizesOK par5 ccs5 scheme5 where
  sh := ccs5_shape
  nl := by decide
  hat := by decide
  mat := ⟨rfl, by simp [scheme5]⟩
  width := rfl

/-- Witness with coefficient form `[c0, c1]`. -/
def wit5 (c0 c1 : C5) : Witness C5 C5 := mkWit ring5 par5 2 [c0, c1]

/-- The accumulator for witness `w`, public input `x`, constant term `h` and point `r`. -/
def acc5 (r x h : C5) (w : Witness C5 C5) : LCCCS C5 :=
  ⟨[r], w.fHat.map fun m => mle m.get [r], ⟨scheme5.matrix.vals.map fun row => dot row w.f⟩,
    ccs5.M.map fun M => mle (mulVec M (([x] ++ [h]) ++ w.wCcs)) [r], [x], h⟩

theorem acc5_holds (r x h c0 c1 : C5) :
    LcccsHolds ring5 par5 ccs5 scheme5 (acc5 r x h (wit5 c0 c1)) (wit5 c0 c1) where
  witOK := mkWit_ok ring5 par5 (wl := 2) [c0, c1] rfl
  cm := commit_ok scheme5 _ (by simp [wit5, mkWit, scheme5])
  xlen := rfl
  evals := ⟨rfl, rfl, rfl⟩

theorem wit5_short (c0 c1 : C5) : WitShort ring5 (reach par5.bSmall par5.K) (wit5 c0 c1) := by
  intro c _ i
  exact Short.reach (b := 2) (k := 2) (by decide) (par5_ok.cover _)

/-- A challenge set of two elements: `1` and `-X`. -/
def cs5 : ChallengeSet C5 := ⟨1, fun bs => match bs with
  | [b] => .ok (if b < 128 then 1 else ![3, 2])
  | _ => .error (.tooFewBytes bs.length 1)⟩

theorem cs5_ok : ∀ bs, bs.length = cs5.bytesNeeded → ∃ c, cs5.decode bs = .ok c := by
  intro bs h
  match bs, h with
  | [b], _ => exact ⟨_, rfl⟩

/-- A transcript that counts its calls and answers with the count. -/
def tr5 : Transcript (ZMod 5) C5 Nat :=
  ⟨fun s _ => s + 1, fun s => ((s : ZMod 5), s + 1), fun s n => (List.replicate n (UInt8.ofNat (s * 100)), s + 1)⟩

theorem tr5_bytes : ∀ s n, (tr5.bytes s n).1.length = n := fun s n => by simp [tr5]

theorem wit5_small (c0 c1 : C5) (h : ∀ i, 2 * (coeff5 c0 i).valMinAbs.natAbs ≤ 2 ∧
    2 * (coeff5 c1 i).valMinAbs.natAbs ≤ 2) : WitShort ring5 par5.bSmall (wit5 c0 c1) := by
  intro c hc i
  simp only [wit5, mkWit, List.mem_cons, List.not_mem_nil, or_false] at hc
  rcases hc with rfl | rfl
  · exact short5.2 (h i).1
  · exact short5.2 (h i).2

/-- Witnesses with coefficients in `{-1, 0, 1}`: `(1, X)`, `(1 + X, -X)`, `(0, 1)`, `(-1 + X, 1 - X)`. -/
def foldWits5 : List (Witness C5 C5) :=
  [wit5 ![1, 1] ![2, 3], wit5 ![3, 4] ![3, 2], wit5 ![0, 0] ![1, 1], wit5 ![1, 2] ![4, 3]]

/-- The statements at two points, with public input and constant terms. -/
def foldAccs5 : List (LCCCS C5) :=
  [acc5 ![3, 3] ![1, 4] ![2, 0] (wit5 ![1, 1] ![2, 3]), acc5 ![3, 3] ![0, 1] ![1, 1] (wit5 ![3, 4] ![3, 2]),
    acc5 ![2, 2] ![4, 4] ![1, 1] (wit5 ![0, 0] ![1, 1]), acc5 ![2, 2] ![1, 0] ![0, 3] (wit5 ![1, 2] ![4, 3])]

/-- Tables of `M_j z` for a public part, a constant and a witness. -/
def tabs5 (x h : C5) (w : Witness C5 C5) : List (Mle C5) :=
  ccs5.M.map fun M => ⟨ccs5.s, (List.range M.nrows).map fun i => mulVec M (([x] ++ [h]) ++ w.wCcs) i⟩

/-- The tables of `M_j z_k`. -/
def foldMz5 : List (List (Mle C5)) :=
  [tabs5 ![1, 4] ![2, 0] (wit5 ![1, 1] ![2, 3]), tabs5 ![0, 1] ![1, 1] (wit5 ![3, 4] ![3, 2]),
    tabs5 ![4, 4] ![1, 1] (wit5 ![0, 0] ![1, 1]), tabs5 ![1, 0] ![0, 3] (wit5 ![1, 2] ![4, 3])]

theorem foldIn5 : FoldInput ring5 par5 ccs5 scheme5 foldAccs5 foldWits5 foldMz5 where
  cmLen := rfl
  wLen := rfl
  mzLen := rfl
  holds := by
    intro k hk
    have hk : k < 4 := hk
    interval_cases k
    · exact ⟨_, _, rfl, rfl, acc5_holds _ _ _ _ _, wit5_small _ _ (by decide), rfl⟩
    · exact ⟨_, _, rfl, rfl, acc5_holds _ _ _ _ _, wit5_small _ _ (by decide), rfl⟩
    · exact ⟨_, _, rfl, rfl, acc5_holds _ _ _ _ _, wit5_small _ _ (by decide), rfl⟩
    · exact ⟨_, _, rfl, rfl, acc5_holds _ _ _ _ _, wit5_small _ _ (by decide), rfl⟩
  points := by
    refine ⟨[![3, 3]], [![2, 2]], ?_⟩
    intro k st h
    match k with
    | 0 | 1 | 2 | 3 => cases h; rfl
    | k + 4 => simp [foldAccs5] at h

theorem charGt5 : CharGt (ZMod 5) (2 * par5.bSmall) := by
  intro k h1 h2
  have : k ≤ 4 := h2
  interval_cases k <;> decide

end Verif.Example
