import Verif.Spec.Linearization
import Verif.Model.Witness

/-!
# Specification: the linearized relation proved by a witness
-/

namespace Verif.Spec

open Finset

variable {Fp F C : Type} {N τ : Nat} [Field Fp] [Field F] [Algebra Fp F] [CommRing C] [Algebra Fp C]

/-- All four views of a witness describe the same data: `f` is the NTT form of `fCoeff`, table `j` of
`fHat` holds coefficients `jN .. (j+1)N` of each element in its slots, and `wCcs` is obtained from
`f` by the base-`B` gadget (`wl` elements, `wl * L` digits). -/
structure WitOK (rd : RingData Fp F C N τ) (P : Params) (wl : Nat) (wit : Witness (Fin N → F) C) :
    Prop where
  flen : wit.fCoeff.length = wl * P.L
  f : wit.f = wit.fCoeff.map rd.crt
  hatlen : wit.fHat.length = τ
  hatvars : ∀ m ∈ wit.fHat, m.numVars = Nat.clog 2 (wl * P.L)
  hat : ∀ (j : Nat) (_ : j < τ) (i : Nat) (a : Fin N) (h : j * N + a < τ * N),
    ((wit.fHat.getD j ⟨0, []⟩).get i) a = algebraMap Fp F (rd.coeff (wit.fCoeff.getD i 0) ⟨j * N + a, h⟩)
  wlen : wit.wCcs.length = wl
  w : ∀ i < wl, wit.wCcs.getD i 0
    = ∑ k ∈ range P.L, (P.B : Fin N → F) ^ k * wit.f.getD (i * P.L + k) 0

/-- Every coefficient of the witness has a representative of absolute value at most `bound / 2`. -/
def WitShort (rd : RingData Fp F C N τ) (bound : Nat) (wit : Witness (Fin N → F) C) : Prop :=
  ∀ c ∈ wit.fCoeff, ∀ i, Short bound (rd.coeff c i)

/-- The linearized relation: the commitment opens to the witness, the claimed evaluations are correct
and the sizes fit. -/
structure LcccsHolds (rd : RingData Fp F C N τ) (P : Params) (ccs : CCS (Fin N → F))
    (scheme : Ajtai (Fin N → F)) (st : LCCCS (Fin N → F)) (wit : Witness (Fin N → F) C) : Prop where
  witOK : WitOK rd P (ccs.n - ccs.l - 1) wit
  cm : scheme.commit wit.f = .ok st.cm
  xlen : st.x_w.length = ccs.l
  evals : EvalsCorrect ccs wit.fHat wit.wCcs st

/-- The same without the opening of the commitment, of which only the length is right. -/
structure LcccsUpToCm (rd : RingData Fp F C N τ) (P : Params) (ccs : CCS (Fin N → F))
    (scheme : Ajtai (Fin N → F)) (st : LCCCS (Fin N → F)) (wit : Witness (Fin N → F) C) : Prop where
  witOK : WitOK rd P (ccs.n - ccs.l - 1) wit
  cmLen : st.cm.val.length = scheme.matrix.vals.length
  xlen : st.x_w.length = ccs.l
  evals : EvalsCorrect ccs wit.fHat wit.wCcs st

/-- Side conditions on parameters and sizes: even bases, `B^L` covers the prime field, `B ≤ b^K`, a
well-formed CCS of `2^s` rows, and a decomposed witness whose length rounds up to `2^s`. -/
structure ParamsOK (Fp : Type) [Field Fp] (P : Params) : Prop where
  bEven : Even P.bSmall
  b2 : 2 ≤ P.bSmall
  BEven : Even P.B
  B2 : 2 ≤ P.B
  Lpos : 1 ≤ P.L
  Kpos : 1 ≤ P.K
  BK : P.B ≤ P.bSmall ^ P.K
  cover : ∀ x : Fp, Short (P.B ^ P.L) x
  nooverflow : P.bSmall ^ (P.K - 1) < 2 ^ 128

/-- Sizes of CCS and commitment scheme. -/
structure SizesOK {R : Type} [CommRing R] [DecidableEq R] (P : Params) (ccs : CCS R) (scheme : Ajtai R) :
    Prop where
  sh : LinShape ccs
  nl : ccs.l + 1 < ccs.n
  hat : Nat.clog 2 ((ccs.n - ccs.l - 1) * P.L) = ccs.s
  mat : scheme.matrix.WF
  width : scheme.matrix.ncols = (ccs.n - ccs.l - 1) * P.L

/-- `v = ∑_k b^k vs_k` over the first `min K |vs|` vectors, each at least as long as the first, which
has the length of `v`. -/
def Recomposes {R : Type} [CommRing R] (b : R) (K : Nat) (vs : List (List R)) (v : List R) : Prop :=
  vs ≠ [] ∧ v.length = (vs.getD 0 []).length ∧
  (∀ k < min K vs.length, v.length ≤ (vs.getD k []).length) ∧
  ∀ j < v.length, v.getD j 0 = ∑ k ∈ range (min K vs.length), b ^ k * (vs.getD k []).getD j 0

/-- `c = ∑_k b^k ys_k` over the first `min K |ys|` commitments (at least one); commitments shorter than
the first count as padded by zeros, longer ones as truncated. -/
def RecomposesCm {R : Type} [CommRing R] (b : R) (K : Nat) (ys : List (Commitment R))
    (c : Commitment R) : Prop :=
  1 ≤ K ∧ ys ≠ [] ∧ c.val.length = (ys.getD 0 ⟨[]⟩).val.length ∧
  ∀ j < c.val.length, c.val.getD j 0
    = ∑ k ∈ range (min K ys.length), b ^ k * (ys.getD k ⟨[]⟩).val.getD j 0

end Verif.Spec
