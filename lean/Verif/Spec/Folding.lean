import Mathlib.Algebra.BigOperators.Ring.Finset
import Mathlib.Algebra.BigOperators.Intervals
import Mathlib.Order.Interval.Finset.Basic
import Mathlib.Data.Int.Interval
import Verif.Spec.Lcccs
import Mathlib.Logic.Equiv.Fin.Basic

/-!
# Specification for the folding subprotocol
-/

namespace Verif.Spec

open Finset

variable {R : Type} [CommRing R]

/-- `∏_{|c| < b} (x - c)`. -/
def rangePoly (b : Nat) (x : R) : R := ∏ c ∈ Ioo (-(b : ℤ)) b, (x - (c : R))

/-- `∑_j a^(j+1) l_j`. -/
def powComb (a : R) (l : List R) : R := ∑ j ∈ range l.length, a ^ (j + 1) * l.getD j 0

/-- The polynomial of the folding sum-check on its values: two products for the evaluation claims, and
the range check of `K2` witnesses of `τ` tables each. -/
def foldG (b K2 τ : Nat) (mu : Nat → R) (v : Nat → R) : R :=
  v 0 * v 1 + v 2 * v 3
    + v 4 * ∑ i ∈ range K2, ∑ j ∈ range τ, mu i ^ (j + 1) * rangePoly b (v (5 + (i * τ + j)))

/-- Valid inputs of the folding prover: `2K` statements of the linearized relation with witnesses of
coefficients at most `b / 2`, the tables of `M_j z_k`, and a common evaluation point in each half. -/
structure FoldInput {Fp F C : Type} {N τ : Nat} [Field Fp] [Field F] [Algebra Fp F] [CommRing C] [Algebra Fp C]
    (rd : RingData Fp F C N τ) (P : Params) (ccs : CCS (Fin N → F)) (scheme : Ajtai (Fin N → F))
    (cms : List (LCCCS (Fin N → F))) (ws : List (Witness (Fin N → F) C))
    (mz : List (List (Mle (Fin N → F)))) : Prop where
  cmLen : cms.length = 2 * P.K
  wLen : ws.length = 2 * P.K
  mzLen : mz.length = 2 * P.K
  holds : ∀ k < 2 * P.K, ∃ st wit, cms[k]? = some st ∧ ws[k]? = some wit ∧
    LcccsHolds rd P ccs scheme st wit ∧ WitShort rd P.bSmall wit ∧
    mz[k]? = some (ccs.M.map fun M => ⟨ccs.s, (List.range M.nrows).map fun i =>
      mulVec M ((st.x_w ++ [st.h]) ++ wit.wCcs) i⟩)
  points : ∃ r1 r2, ∀ k st, cms[k]? = some st → st.r = if k < P.K then r1 else r2

/-- The same without any bound on the witnesses. -/
structure FoldInputW {Fp F C : Type} {N τ : Nat} [Field Fp] [Field F] [Algebra Fp F] [CommRing C] [Algebra Fp C]
    (rd : RingData Fp F C N τ) (P : Params) (ccs : CCS (Fin N → F)) (scheme : Ajtai (Fin N → F))
    (cms : List (LCCCS (Fin N → F))) (ws : List (Witness (Fin N → F) C))
    (mz : List (List (Mle (Fin N → F)))) : Prop where
  cmLen : cms.length = 2 * P.K
  wLen : ws.length = 2 * P.K
  mzLen : mz.length = 2 * P.K
  holds : ∀ k < 2 * P.K, ∃ st wit, cms[k]? = some st ∧ ws[k]? = some wit ∧
    LcccsHolds rd P ccs scheme st wit ∧
    mz[k]? = some (ccs.M.map fun M => ⟨ccs.s, (List.range M.nrows).map fun i =>
      mulVec M ((st.x_w ++ [st.h]) ++ wit.wCcs) i⟩)
  points : ∃ r1 r2, ∀ k st, cms[k]? = some st → st.r = if k < P.K then r1 else r2

/-- The same without the openings of the commitments. -/
structure FoldInputE {Fp F C : Type} {N τ : Nat} [Field Fp] [Field F] [Algebra Fp F] [CommRing C] [Algebra Fp C]
    (rd : RingData Fp F C N τ) (P : Params) (ccs : CCS (Fin N → F)) (scheme : Ajtai (Fin N → F))
    (cms : List (LCCCS (Fin N → F))) (ws : List (Witness (Fin N → F) C))
    (mz : List (List (Mle (Fin N → F)))) : Prop where
  cmLen : cms.length = 2 * P.K
  wLen : ws.length = 2 * P.K
  mzLen : mz.length = 2 * P.K
  holds : ∀ k < 2 * P.K, ∃ st wit, cms[k]? = some st ∧ ws[k]? = some wit ∧
    LcccsUpToCm rd P ccs scheme st wit ∧
    mz[k]? = some (ccs.M.map fun M => ⟨ccs.s, (List.range M.nrows).map fun i =>
      mulVec M ((st.x_w ++ [st.h]) ++ wit.wCcs) i⟩)
  points : ∃ r1 r2, ∀ k st, cms[k]? = some st → st.r = if k < P.K then r1 else r2

theorem FoldInput.weak {Fp F C : Type} {N τ : Nat} [Field Fp] [Field F] [Algebra Fp F] [CommRing C] [Algebra Fp C]
    {rd : RingData Fp F C N τ} {P : Params} {ccs : CCS (Fin N → F)} {scheme : Ajtai (Fin N → F)}
    {cms : List (LCCCS (Fin N → F))} {ws : List (Witness (Fin N → F) C)} {mz : List (List (Mle (Fin N → F)))}
    (h : FoldInput rd P ccs scheme cms ws mz) : FoldInputW rd P ccs scheme cms ws mz where
  cmLen := h.cmLen
  wLen := h.wLen
  mzLen := h.mzLen
  holds := fun k hk => by
    obtain ⟨st, wit, h1, h2, h3, -, h5⟩ := h.holds k hk
    exact ⟨st, wit, h1, h2, h3, h5⟩
  points := h.points

section Below
variable {Fp F C : Type} {N τ : Nat} [Field Fp] [Field F] [Algebra Fp F] [CommRing C] [Algebra Fp C]

/-- Every coefficient of the witness has a representative of absolute value below `b`. -/
def WitBelow (rd : RingData Fp F C N τ) (b : Nat) (wit : Witness (Fin N → F) C) : Prop :=
  ∀ c ∈ wit.fCoeff, ∀ i, ∃ n : ℤ, n.natAbs < b ∧ rd.coeff c i = (n : Fp)

/-- For every element and every slot `a`, the range polynomials of the `τ` coefficients `a, N + a, 2N + a, ..`
add up to zero. This follows from `WitBelow`, and for `τ = 1` it is equivalent to it; for `τ ≥ 2` it is far weaker. -/
def SlotSumsVanish (rd : RingData Fp F C N τ) (b : Nat) (wit : Witness (Fin N → F) C) : Prop :=
  ∀ c ∈ wit.fCoeff, ∀ a : Fin N, ∑ j : Fin τ, rangePoly b (rd.coeff c (finProdFinEquiv (j, a))) = 0

/-- The claims of a folding instance that its verifier checks are violated: some statement claims wrong evaluations,
one of the first `2K - 1` witnesses is not below `b`, or the slot sums of the last witness do not vanish. -/
def FoldViolated (rd : RingData Fp F C N τ) (P : Params) (ccs : CCS (Fin N → F)) (cms : List (LCCCS (Fin N → F)))
    (ws : List (Witness (Fin N → F) C)) : Prop :=
  (∃ (k : Nat) (st : LCCCS (Fin N → F)) (wit : Witness (Fin N → F) C), cms[k]? = some st ∧ ws[k]? = some wit ∧
    ¬ EvalsCorrect ccs wit.fHat wit.wCcs st) ∨
  (∃ (k : Nat) (wit : Witness (Fin N → F) C), k < 2 * P.K - 1 ∧ ws[k]? = some wit ∧ ¬ WitBelow rd P.bSmall wit) ∨
  ∃ wit, ws[2 * P.K - 1]? = some wit ∧ ¬ SlotSumsVanish rd P.bSmall wit

/-- Sizes of the inputs of the folding verifier and well-formed witnesses; nothing about their contents. -/
structure FoldSizes (rd : RingData Fp F C N τ) (P : Params) (ccs : CCS (Fin N → F)) (cms : List (LCCCS (Fin N → F)))
    (ws : List (Witness (Fin N → F) C)) : Prop where
  cmLen : cms.length = 2 * P.K
  wLen : ws.length = 2 * P.K
  hat : Nat.clog 2 ((ccs.n - ccs.l - 1) * P.L) = ccs.s
  wit : ∀ wit ∈ ws, WitOK rd P (ccs.n - ccs.l - 1) wit
  r : ∀ st ∈ cms, st.r.length = ccs.s
  v : ∀ st ∈ cms, st.v.length = τ
  u : ∀ st ∈ cms, st.u.length = ccs.M.length

end Below

end Verif.Spec
