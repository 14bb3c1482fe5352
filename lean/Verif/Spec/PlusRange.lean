import Verif.Model.PlusRange
import Verif.Spec.Plus

/-!
# Specifications for the range check of `latticefold-plus`
-/

namespace Verif.Spec

open Finset Verif.Plus

variable {F R : Type} {d : Nat} [Field F] [CommRing R] [Algebra F R]

/-- All stored entries are elements of the base field. -/
def ScalarMat (F : Type) [Field F] [Algebra F R] (M : SpMat R) : Prop :=
  ∀ row ∈ M.coeffs, ∀ t ∈ row, ∃ a : F, t.1 = algebraMap F R a

/-- Matrix number `κ` of monomials of an instance. -/
def digitMat (inst : RgInstance F R) (κ : Nat) : Mat R := inst.Mf.getD κ ⟨0, 0, []⟩

/-- An instance of the range check of size `n` with `k` matrices of monomials: the matrices encode, to base `d / 2`,
the coefficients of `f'`, and `mTau` encodes `tau`. In an honest instance `f'` is the vector `f` of the instance. -/
structure RgValid (pr : PlusRing F R d) (n k : Nat) (inst : RgInstance F R) (f' : List R) : Prop where
  flen : inst.f.length = n
  flen' : f'.length = n
  taulen : inst.tau.length = n
  mTaulen : inst.mTau.length = n
  count : inst.Mf.length = k
  shape : ∀ D ∈ inst.Mf, D.WF ∧ D.nrows = n ∧ D.ncols = d
  mono : ∀ D ∈ inst.Mf, ∀ i j, IsMonomial pr (matEntry D i j)
  tauMono : ∀ x ∈ inst.mTau, IsMonomial pr x
  tauVal : ∀ i < n, pr.ct (pr.psi * inst.mTau.getD i 0) = inst.tau.getD i 0
  digits : ∀ i < n, ∀ j : Fin d, ∑ κ ∈ range k, ((d / 2 : Nat) : F) ^ κ * pr.ct (pr.psi * matEntry (digitMat inst κ) i j)
    = pr.coeff (f'.getD i 0) j

/-- The product of a dense matrix with a vector. -/
def commit (A : Mat R) (v : List R) : List R :=
  (List.range A.nrows).map fun i => ∑ x ∈ range A.ncols, matEntry A i x * v.getD x 0

/-- The commitment to the matrix of monomials number `κ`. -/
def comMat (inst : RgInstance F R) (κ : Nat) : Mat R := inst.comMf.getD κ ⟨0, 0, []⟩

/-- The commitments of an instance with `k` matrices of monomials: `comMf` are the products of `A` with the matrices of
monomials, `tau` lists for every row `i`, matrix `κ`, column `j` the coefficients of the `l` digits to base `d / 2` of entry `(i, j)` of
`comMf[κ]`, and zeros after that. -/
structure RgCommitted (pr : PlusRing F R d) (A : Mat R) (k l : Nat) (inst : RgInstance F R) : Prop where
  count : inst.comMf.length = k
  shape : ∀ D ∈ inst.comMf, D.WF ∧ D.nrows = A.nrows ∧ D.ncols = d
  product : ∀ κ < k, ∀ i < A.nrows, ∀ j < d, matEntry (comMat inst κ) i j
    = ∑ x ∈ range A.ncols, matEntry A i x * matEntry (digitMat inst κ) x j
  tauDigits : ∀ i < A.nrows, ∀ κ < k, ∀ j < d, ∑ t ∈ range l, ∑ e ∈ range d,
    algebraMap F R (((d / 2 : Nat) : F) ^ t) * pr.X ^ e
      * algebraMap F R (inst.tau.getD ((((i * k + κ) * d + j) * l + t) * d + e) 0) = matEntry (comMat inst κ) i j
  tauZero : ∀ x, A.nrows * k * d * l * d ≤ x → inst.tau.getD x 0 = 0
  tauComs : inst.fcoms.CMf = commit A (inst.tau.map (algebraMap F R)) ∧ inst.fcoms.cmMtau = commit A inst.mTau

/-- The matrices of the linear relation for witnesses of length `n`. -/
def MatsOK (F : Type) [Field F] [Algebra F R] (nvars n : Nat) (M : List (SpMat R)) : Prop :=
  ∀ Mi ∈ M, Mi.WF ∧ Mi.ncols = n ∧ Mi.nrows ≤ 2 ^ nvars ∧ ScalarMat F Mi

/-- The evaluations of an instance at the point `r`. -/
def evalsAt (pr : PlusRing F R d) (M : List (SpMat R)) (r : List F) (inst : RgInstance F R) : DcomEvals F R where
  v := (List.range d).map fun j => mle (fun i => (pr.coeffs (inst.f.getD i 0)).getD j 0) r
  a := mle (fun i => inst.tau.getD i 0) r
    :: M.map fun m => pr.ct (mle (mulVec m (inst.tau.map (algebraMap F R))) (r.map (algebraMap F R)))
  b := mle (fun i => inst.mTau.getD i 0) (r.map (algebraMap F R))
    :: M.map fun m => mle (mulVec m inst.mTau) (r.map (algebraMap F R))
  c := mle (fun i => inst.f.getD i 0) (r.map (algebraMap F R))
    :: M.map fun m => mle (mulVec m inst.f) (r.map (algebraMap F R))

/-- The evaluations of the columns of the monomial matrices of all instances at `r`: first of the matrices themselves,
then of their products with the matrices of the relation. -/
def columnsAt (M : List (SpMat R)) (r : List R) (d : Nat) (insts : List (RgInstance F R)) : List (List (List R)) :=
  (insts.flatMap fun inst => inst.Mf.map fun D => (List.range d).map fun j => mle (fun i => matEntry D i j) r)
    :: M.map fun m => insts.flatMap fun inst => inst.Mf.map fun D => (List.range d).map fun j =>
      mle (mulVec m ((List.range D.nrows).map fun i => matEntry D i j)) r

end Verif.Spec
