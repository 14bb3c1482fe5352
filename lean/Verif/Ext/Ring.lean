import Verif.Ext.Mle
import Mathlib.Algebra.Algebra.Equiv
import Mathlib.Algebra.Algebra.Pi
import Mathlib.Algebra.BigOperators.Group.Finset.Basic
import Mathlib.Algebra.Ring.Parity

/-!
# Contracts of `stark-rings`: suitable rings and balanced decomposition

`SuitableRing` (`crates/cyclotomic-rings/src/rings.rs:46-77`): the NTT form is a product of `N` copies
of the field `F = R::BaseRing` with componentwise operations, i.e. the type `Fin N → F`; the
coefficient form is a ring `C` with `τ * N` coefficients in the prime field `Fp`, which are the
coefficients with respect to the powers of `X`.
-/

namespace Verif

open Finset

variable {Fp F C : Type} {N τ : Nat}

/-- `x` is the image of an integer `n` with `2|n| ≤ bound`. -/
def Short [Ring Fp] (bound : Nat) (x : Fp) : Prop := ∃ n : ℤ, 2 * n.natAbs ≤ bound ∧ x = (n : Fp)

/-- Twice the largest integer with `k` digits base `b` of absolute value at most `b / 2`. -/
def reach (b k : Nat) : Nat := b * ∑ i ∈ range k, b ^ i

theorem pow_le_reach (b : Nat) {k : Nat} (hk : 1 ≤ k) : b ^ k ≤ reach b k := by
  obtain ⟨j, rfl⟩ := Nat.exists_eq_add_of_le' hk
  unfold reach
  rw [pow_succ', sum_range_succ]
  exact Nat.mul_le_mul_left b (Nat.le_add_left _ _)

theorem Short.reach [Ring Fp] {b k : Nat} (hk : 1 ≤ k) {x : Fp} (h : Short (b ^ k) x) : Short (reach b k) x := by
  obtain ⟨n, h1, h2⟩ := h
  exact ⟨n, h1.trans (pow_le_reach b hk), h2⟩

/-- Data and contracts of a suitable ring.

* `coeff` - `coeffs()` of the coefficient form (`τ * N` entries);
* `crt` / its inverse - `CRT::crt`, `ICRT::icrt`;
* `X` - the class of `X`; `into_rot_iter` of `a` yields `a, X a, X^2 a, ..`;
* `dec b k a` - `Decompose::decompose`/`decompose_to_vec` of one element to `k` digits base `b`
  (aborts when the element does not fit). -/
structure RingData (Fp F C : Type) (N τ : Nat) [Field Fp] [Field F] [Algebra Fp F] [CommRing C]
    [Algebra Fp C] where
  npos : 0 < N
  coeff : C ≃ₗ[Fp] (Fin (τ * N) → Fp)
  crt : C ≃ₐ[Fp] (Fin N → F)
  X : C
  coeff_X : ∀ i : Fin (τ * N), coeff (X ^ (i : Nat)) = Pi.single i 1
  dec : Nat → Nat → C → Res (List C)
  /-- Balanced decomposition: for an even base, an element whose coefficients have representatives
  of absolute value at most `b/2 (1 + b + .. + b^(k-1))` is split in exactly `k` digits of absolute
  value at most `b / 2`, which recompose to the element. -/
  dec_ok : ∀ b k a, 2 ≤ b → Even b → 1 ≤ k → (∀ i, Short (reach b k) (coeff a i)) →
    ∃ ds, dec b k a = .ok ds ∧ ds.length = k ∧
      ∑ i ∈ range k, (b : C) ^ i * ds.getD i 0 = a ∧
      ∀ d ∈ ds, ∀ i, Short b (coeff d i)

/-- `decomposition_parameters.rs:10-19` `DecompositionParams`. -/
structure Params where
  B : Nat
  L : Nat
  bSmall : Nat
  K : Nat
  deriving DecidableEq

/-- `slice.chunks(L)` for `L > 0`: consecutive pieces of length `L`, the last one possibly shorter. -/
def chunksOf {α : Type} (L : Nat) (v : List α) : List (List α) :=
  (List.range ((v.length + L - 1) / L)).map fun i => (v.drop (i * L)).take L

/-- `slice.chunks(L)`: aborts for `L = 0`. -/
def chunks {α : Type} (L : Nat) (v : List α) : Res (List (List α)) :=
  if L = 0 then .error (.panic "chunks") else .ok (chunksOf L v)

/-- `stark_rings_linalg::ops::Transpose` of a rectangular list of rows. -/
def transposeL {α : Type} [Inhabited α] (rows : List (List α)) : List (List α) :=
  match rows with
  | [] => []
  | r :: _ => (List.range r.length).map fun k => rows.map fun row => row.getD k default

/-- `balanced_decomposition::recompose(v, b)`: `∑_i b^i v_i`. -/
def recomposeL {R : Type} [CommRing R] (b : R) (v : List R) : R := v.foldr (fun x acc => x + b * acc) 0

/-- `GadgetDecompose::gadget_decompose(B, L)`: every element is replaced by its `L` digits. -/
def gadgetDecompose [Field Fp] [Field F] [Algebra Fp F] [CommRing C] [Algebra Fp C]
    (rd : RingData Fp F C N τ) (B L : Nat) (v : List C) : Res (List C) := do
  let ds ← mapRes (rd.dec B L) v
  .ok ds.flatten

/-- `GadgetRecompose::gadget_recompose(B, L)`: every chunk of `L` elements is recomposed. -/
def gadgetRecompose {R : Type} [CommRing R] (B L : Nat) (v : List R) : Res (List R) := do
  let cs ← chunks L v
  .ok (cs.map (recomposeL (B : R)))

end Verif
