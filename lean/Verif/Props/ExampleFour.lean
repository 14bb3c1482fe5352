import Verif.Lemmas.FourRings
import Verif.Ext.Ring
import Verif.Props.ExamplePlus
import Mathlib.RingTheory.AdjoinRoot
import Mathlib.RingTheory.PowerBasis
import Mathlib.FieldTheory.Finite.GaloisField

/-!
# The four rings as instances of the contract

`ZMod p [X] / Φ_n`, with the coefficients with respect to the powers of `X` and the Chinese-remainder
isomorphism to `N` copies of the field with `p ^ τ` elements.
-/

set_option linter.unusedSimpArgs false
set_option linter.unusedSectionVars false

namespace Verif.Example

open Finset Verif Polynomial Verif.SmallNorm

variable {p k τ N n m : ℕ} [Fact p.Prime]

/-- The coefficient form. -/
abbrev Rq (p n : ℕ) [Fact p.Prime] := AdjoinRoot (cyclotomic n (ZMod p))

theorem natDegree_rq (D : CycloData p k τ N n m) : (cyclotomic n (ZMod p)).natDegree = τ * N := by
  rw [← D.exp (ZMod p), natDegree_expand, natDegree_cyclotomic, ← natDegree_cyclotomic k ℤ, D.deg,
    Nat.mul_comm]

/-- The coefficients. -/
noncomputable def coeffRq (D : CycloData p k τ N n m) : Rq p n ≃ₗ[ZMod p] (Fin (τ * N) → ZMod p) :=
  ((AdjoinRoot.powerBasis' (cyclotomic.monic n (ZMod p))).basis.reindex
    (finCongr (by rw [AdjoinRoot.powerBasis'_dim, natDegree_rq D]))).equivFun

theorem coeffRq_X (D : CycloData p k τ N n m) (i : Fin (τ * N)) :
    coeffRq D (AdjoinRoot.root _ ^ (i : ℕ)) = Pi.single i 1 := by
  have : (AdjoinRoot.root _ : Rq p n) ^ (i : Nat) = ((AdjoinRoot.powerBasis' (cyclotomic.monic n (ZMod p))).basis.reindex
    (finCongr (by rw [AdjoinRoot.powerBasis'_dim, natDegree_rq D]))) i := by
    rw [Module.Basis.reindex_apply, PowerBasis.basis_eq_pow, AdjoinRoot.powerBasis'_gen]
    rfl
  unfold coeffRq
  rw [this]
  funext j
  rw [Module.Basis.equivFun_self, Pi.single_apply]
  simp [eq_comm]

theorem root_rq (p n : ℕ) [Fact p.Prime] : aeval (AdjoinRoot.root _ : Rq p n) (cyclotomic n (ZMod p)) = 0 := by
  rw [AdjoinRoot.aeval_eq, AdjoinRoot.mk_self]

/-- Roots of `X ^ τ - ζ` in the field with `p ^ τ` elements, one for every root `ζ` of `Φ_k`. -/
theorem exists_roots (D : CycloData p k τ N n m) :
    ∃ (ζ : Fin N → ZMod p) (b : Fin N → GaloisField p τ), Function.Injective ζ ∧
      (∀ i, algebraMap (ZMod p) (GaloisField p τ) (ζ i) = b i ^ τ) ∧
      ∀ i, aeval (b i) (cyclotomic n (ZMod p)) = 0 := by
  have hk : NeZero k := ⟨D.kpos.ne'⟩
  obtain ⟨ω, hω⟩ := D.root
  have hcard : Fintype.card (primitiveRoots k (ZMod p)) = N := by
    rw [Fintype.card_coe, hω.card_primitiveRoots, ← natDegree_cyclotomic k ℤ, D.deg]
  let e := (Fintype.equivFinOfCardEq hcard).symm
  have hζ : ∀ i, IsPrimitiveRoot ((e i : ZMod p)) k := fun i => (mem_primitiveRoots D.kpos).1 (e i).2
  -- a primitive `n`-th root of unity
  have hfin : Finite (GaloisField p τ) := inferInstance
  obtain ⟨g, hg⟩ := IsCyclic.exists_ofOrder_eq_natCard (α := (GaloisField p τ)ˣ)
  have hgc : orderOf g = p ^ τ - 1 := by
    rw [hg, Nat.card_units, GaloisField.card p τ D.τpos.ne']
  have hdvd : k * τ ∣ p ^ τ - 1 := by
    rw [← D.nk]
    have h1 : 1 ≤ p ^ τ := Nat.one_le_pow _ _ (Fact.out : p.Prime).pos
    exact (Nat.modEq_iff_dvd' h1).1 (Nat.ModEq.symm D.order.1)
  obtain ⟨c, hc⟩ := hdvd
  have hpos : 0 < p ^ τ - 1 := by
    have : 1 < p ^ τ := Nat.one_lt_pow D.τpos.ne' (Fact.out : p.Prime).one_lt
    omega
  have hg1 : IsPrimitiveRoot ((g : GaloisField p τ)) (p ^ τ - 1) := by
    rw [IsPrimitiveRoot.coe_units_iff, ← hgc]
    exact IsPrimitiveRoot.orderOf g
  have hξ := hg1.pow hpos (show p ^ τ - 1 = (c * τ) * k by rw [hc]; ring)
  have hb : ∀ i, ∃ b : GaloisField p τ, algebraMap (ZMod p) (GaloisField p τ) (e i) = b ^ τ := by
    intro i
    have h1 : (algebraMap (ZMod p) (GaloisField p τ) (e i)) ^ k = 1 := by
      rw [← map_pow, (hζ i).pow_eq_one, map_one]
    obtain ⟨l, -, hl⟩ := hξ.eq_pow_of_pow_eq_one h1
    refine ⟨(g : GaloisField p τ) ^ (c * l), ?_⟩
    rw [← hl, ← pow_mul, ← pow_mul]
    congr 1
    ring
  choose b hb using hb
  refine ⟨fun i => e i, b, fun i j h => e.injective (Subtype.ext h), hb, fun i => ?_⟩
  rw [← D.exp (ZMod p), expand_aeval, ← hb, aeval_algebraMap_apply, aeval_def, Algebra.algebraMap_self,
    eval₂_id, (hζ i).isRoot_cyclotomic D.kpos |>.eq_zero, map_zero]

noncomputable def ζOf (D : CycloData p k τ N n m) : Fin N → ZMod p := (exists_roots D).choose
noncomputable def bOf (D : CycloData p k τ N n m) : Fin N → GaloisField p τ := (exists_roots D).choose_spec.choose

theorem ζOf_inj (D : CycloData p k τ N n m) : Function.Injective (ζOf D) := (exists_roots D).choose_spec.choose_spec.1
theorem ζOf_eq (D : CycloData p k τ N n m) (i : Fin N) :
    algebraMap (ZMod p) (GaloisField p τ) (ζOf D i) = bOf D i ^ τ := (exists_roots D).choose_spec.choose_spec.2.1 i
theorem bOf_root (D : CycloData p k τ N n m) (i : Fin N) :
    aeval (bOf D i) (cyclotomic n (ZMod p)) = 0 := (exists_roots D).choose_spec.choose_spec.2.2 i

/-- The Chinese-remainder map: evaluation at the `N` roots. -/
noncomputable def crtHom (D : CycloData p k τ N n m) : Rq p n →ₐ[ZMod p] (Fin N → GaloisField p τ) :=
  AlgHom.pi fun i => AdjoinRoot.liftAlgHom _ (Algebra.ofId _ _) (bOf D i) (by
    have := bOf_root D i
    rwa [aeval_def] at this)

theorem crtHom_root (D : CycloData p k τ N n m) (i : Fin N) : crtHom D (AdjoinRoot.root _) i = bOf D i := by
  unfold crtHom
  rw [AlgHom.pi_apply]
  exact AdjoinRoot.liftAlgHom_root _ _ _ _

theorem crtHom_injective (D : CycloData p k τ N n m) : Function.Injective (crtHom D) := by
  rw [injective_iff_map_eq_zero]
  intro y hy
  set a : ℕ → ZMod p := fun i => if h : i < τ * N then coeffRq D y ⟨i, h⟩ else 0 with ha
  have hsum := eq_sum_int (coeffRq D) _ (coeffRq_X D) y a fun i => by simp [ha]
  have hsplit : y = ∑ j ∈ range τ, ∑ i ∈ range N,
      algebraMap (ZMod p) (Rq p n) (a (i * τ + j)) * (AdjoinRoot.root _) ^ (i * τ + j) := by
    rw [hsum, sum_comm, mul_comm τ N]
    exact sum_range_mul_eq N τ _
  have hz : ∀ i j, i < N → j < τ → a (i * τ + j) = 0 := by
    intro i j hi hj
    set g : (ZMod p)[X] := ∑ i ∈ range N, C (a (i * τ + j)) * X ^ i with hg
    have hg0 : g = 0 := by
      refine eq_zero_of_natDegree_lt_card_of_eval_eq_zero g (ζOf_inj D) (fun l => ?_) ?_
      · have h1 := congrFun hy l
        rw [hsplit] at h1
        simp only [map_sum, map_mul, map_pow, AlgHom.commutes, Finset.sum_apply, Pi.mul_apply, Pi.pow_apply,
          crtHom_root, Pi.zero_apply, Pi.algebraMap_apply] at h1
        have := slot_zero D.τpos D.coprime D.order (bOf D l) (bOf_root D l) (ζOf D l) (ζOf_eq D l) a h1 j hj
        rw [hg, eval_finsetSum]
        simpa using this
      · rw [Fintype.card_fin]
        refine lt_of_le_of_lt (natDegree_sum_le_of_forall_le (n := N - 1) _ _ fun j hj => ?_) (by omega)
        refine (natDegree_C_mul_X_pow_le _ _).trans ?_
        have := mem_range.1 hj
        omega
    have hc := congrArg (fun q => coeff q i) hg0
    simp only [hg, finsetSum_coeff, coeff_C_mul, coeff_X_pow, mul_ite, mul_one, mul_zero,
      sum_ite_eq, mem_range, coeff_zero] at hc
    rwa [if_pos hi] at hc
  rw [hsplit]
  refine sum_eq_zero fun j hj => sum_eq_zero fun i hi => ?_
  rw [hz i j (mem_range.1 hi) (mem_range.1 hj)]
  simp

/-- The Chinese-remainder isomorphism. -/
noncomputable def crtRq (D : CycloData p k τ N n m) : Rq p n ≃ₐ[ZMod p] (Fin N → GaloisField p τ) := by
  have : Module.Finite (ZMod p) (Rq p n) := Module.Finite.equiv (coeffRq D).symm
  refine AlgEquiv.ofBijective (crtHom D) ⟨crtHom_injective D, ?_⟩
  have h : Module.finrank (ZMod p) (Rq p n) = Module.finrank (ZMod p) (Fin N → GaloisField p τ) := by
    rw [(coeffRq D).finrank_eq, Module.finrank_fin_fun, Module.finrank_pi_fintype]
    simp only [GaloisField.finrank p D.τpos.ne', sum_const, card_univ, Fintype.card_fin, smul_eq_mul]
    ring
  exact (LinearMap.injective_iff_surjective_of_finrank_eq_finrank (f := (crtHom D).toLinearMap) h).1
    (crtHom_injective D)

/-- The ring with all its data. -/
noncomputable def ringRq (D : CycloData p k τ N n m) (hN : 0 < N) :
    RingData (ZMod p) (GaloisField p τ) (Rq p n) N τ where
  npos := hN
  coeff := coeffRq D
  crt := crtRq D
  X := AdjoinRoot.root _
  coeff_X := coeffRq_X D
  dec := decR (coeffRq D)
  dec_ok := decR_ok (coeffRq D)

end Verif.Example
