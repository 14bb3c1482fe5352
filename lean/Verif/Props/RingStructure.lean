import Verif.Props.Invertible
import Mathlib.FieldTheory.IntermediateField.Adjoin.Basic

/-!
# Property theorems for the structure of the four rings: C84
-/

set_option linter.unusedSimpArgs false
set_option linter.unusedSectionVars false

namespace Verif.Props

open Finset Polynomial Verif Verif.SmallNorm Verif.Poseidon

section
variable {p k τ N n m : ℕ} [Fact p.Prime]

/-- Every realisation of the contract with the relation `Φ_n(X) = 0` and as many coefficients as `Φ_n`
has degree, has `N` slots over the field with `p ^ τ` elements. -/
theorem structure_unique (D : CycloData p k τ N n m) {F C : Type} [Field F] [CommRing C]
    [Algebra (ZMod p) F] [Algebra (ZMod p) C] {N' τ' : ℕ} (rd : RingData (ZMod p) F C N' τ')
    (hdim : τ' * N' = τ * N) (hX : aeval rd.X (cyclotomic n (ZMod p)) = 0) :
    τ' = τ ∧ N' = N ∧ Nat.card F = p ^ τ := by
  have hN' := rd.npos
  let φ : C →ₐ[ZMod p] F := (Pi.evalAlgHom (ZMod p) (fun _ : Fin N' => F) ⟨0, hN'⟩).comp rd.crt
  have hφs : Function.Surjective φ := by
    intro f
    refine ⟨rd.crt.symm fun _ => f, ?_⟩
    simp [φ]
  have hfinC : Module.Finite (ZMod p) C := Module.Finite.equiv rd.coeff.symm
  have hfin : Module.Finite (ZMod p) F := Module.Finite.of_surjective φ.toLinearMap hφs
  have hb0 : aeval (φ rd.X) (cyclotomic n (ZMod p)) = 0 := by rw [aeval_algHom_apply, hX, map_zero]
  obtain ⟨hint, hdeg⟩ := minpoly_degree D.τpos D.coprime D.order (φ rd.X) hb0
  have htop : IntermediateField.adjoin (ZMod p) {φ rd.X} = ⊤ := by
    rw [eq_top_iff]
    intro f _
    obtain ⟨c, rfl⟩ := hφs f
    rw [eq_sum_coeff rd.coeff rd.X rd.coeff_X c, map_sum]
    refine sum_mem fun i _ => ?_
    rw [map_mul, map_pow, AlgHom.commutes]
    exact mul_mem (IntermediateField.algebraMap_mem _ _)
      (pow_mem (IntermediateField.mem_adjoin_simple_self _ _) _)
  have hrank : Module.finrank (ZMod p) F = τ := by
    rw [← hdeg, ← IntermediateField.adjoin.finrank hint, htop, IntermediateField.finrank_top']
  have hcount : τ' * N' = N' * τ := by
    have h1 : Module.finrank (ZMod p) C = τ' * N' := by rw [rd.coeff.finrank_eq, Module.finrank_fin_fun]
    have h2 : Module.finrank (ZMod p) C = N' * τ := by
      rw [rd.crt.toLinearEquiv.finrank_eq, Module.finrank_pi_fintype]
      simp [hrank]
    rw [← h1, h2]
  have hτ : τ' = τ := by
    rw [Nat.mul_comm N' τ] at hcount
    exact Nat.eq_of_mul_eq_mul_right hN' hcount
  refine ⟨hτ, ?_, ?_⟩
  · rw [hτ] at hdim
    exact Nat.eq_of_mul_eq_mul_left D.τpos hdim
  · rw [Module.natCard_eq_pow_finrank (K := ZMod p), hrank, Nat.card_zmod]

/-- The irreducible factors of `Φ_n` modulo `p`: all of degree `τ`, and `N` of them. -/
theorem structure_factors (D : CycloData p k τ N n m) :
    (∀ f : (ZMod p)[X], Irreducible f → f ∣ cyclotomic n (ZMod p) → f.natDegree = τ) ∧
      (UniqueFactorizationMonoid.normalizedFactors (cyclotomic n (ZMod p))).toFinset.card = N := by
  have ho : orderOf (ZMod.unitOfCoprime (p ^ 1) (D.coprime.pow_left 1)) = τ := by
    have := orderOf_unit D.τpos D.coprime D.order
    simpa using this
  refine ⟨fun f hf hd => ?_, ?_⟩
  · rw [natDegree_of_dvd_cyclotomic_of_irreducible (f := 1) (p := p) (by simp) D.coprime hd hf, ho]
  · rw [normalizedFactors_cyclotomic_card (f := 1) (p := p) (by simp) D.coprime, ho]
    have h1 := Example.natDegree_rq D
    rw [natDegree_cyclotomic] at h1
    rw [h1, Nat.mul_div_cancel_left _ D.τpos]

end

section
variable {F C : Type} [Field F] [CommRing C] {N τ : Nat}

/-- **C84** (Goldilocks, `goldilocks.rs:9-20`). A ring that realises the contract over the Goldilocks field with 24
coefficients and the polynomial `X^24 - X^12 + 1` has 8 components over the field of degree 3. -/
theorem C84_goldilocks [Algebra (ZMod pGoldilocks) F] [Algebra (ZMod pGoldilocks) C]
    (rd : RingData (ZMod pGoldilocks) F C N τ) (hdim : τ * N = 24) (hX : rd.X ^ 24 - rd.X ^ 12 + 1 = 0) :
    τ = 3 ∧ N = 8 ∧ Nat.card F = pGoldilocks ^ 3 :=
  structure_unique goldilocksData rd hdim (by rw [cyclo72]; simpa using hX)

/-- **C84** (BabyBear, `babybear.rs:9-20`). 8 components over the field of degree 9. -/
theorem C84_babybear [Algebra (ZMod pBabyBear) F] [Algebra (ZMod pBabyBear) C]
    (rd : RingData (ZMod pBabyBear) F C N τ) (hdim : τ * N = 72) (hX : rd.X ^ 72 - rd.X ^ 36 + 1 = 0) :
    τ = 9 ∧ N = 8 ∧ Nat.card F = pBabyBear ^ 9 :=
  structure_unique babybearData rd hdim (by rw [cyclo216]; simpa using hX)

/-- **C84** (Frog, `frog.rs:9-20`). 4 components over the field of degree 4. -/
theorem C84_frog [Algebra (ZMod pFrog) F] [Algebra (ZMod pFrog) C]
    (rd : RingData (ZMod pFrog) F C N τ) (hdim : τ * N = 16) (hX : rd.X ^ 16 + 1 = 0) :
    τ = 4 ∧ N = 4 ∧ Nat.card F = pFrog ^ 4 :=
  structure_unique frogData rd hdim (by rw [aeval32]; exact hX)

/-- **C84** (Stark, `stark.rs:10-20`). 16 components over the prime field. -/
theorem C84_stark [Algebra (ZMod pStark) F] [Algebra (ZMod pStark) C]
    (rd : RingData (ZMod pStark) F C N τ) (hdim : τ * N = 16) (hX : rd.X ^ 16 + 1 = 0) :
    τ = 1 ∧ N = 16 ∧ Nat.card F = pStark ^ 1 :=
  structure_unique starkData rd hdim (by rw [aeval32]; exact hX)

end

/-- **C84** (existence). The contract `RingData` assumed of each of the four rings has a realisation. -/
theorem C84_exists :
    (∃ rd : RingData (ZMod pGoldilocks) (GaloisField pGoldilocks 3) (Example.Rq pGoldilocks 72) 8 3,
      rd.X ^ 24 - rd.X ^ 12 + 1 = 0) ∧
    (∃ rd : RingData (ZMod pBabyBear) (GaloisField pBabyBear 9) (Example.Rq pBabyBear 216) 8 9,
      rd.X ^ 72 - rd.X ^ 36 + 1 = 0) ∧
    (∃ rd : RingData (ZMod pFrog) (GaloisField pFrog 4) (Example.Rq pFrog 32) 4 4, rd.X ^ 16 + 1 = 0) ∧
    ∃ rd : RingData (ZMod pStark) (GaloisField pStark 1) (Example.Rq pStark 32) 16 1, rd.X ^ 16 + 1 = 0 :=
  ⟨⟨_, rq_goldilocks_X⟩, ⟨_, rq_babybear_X⟩, ⟨_, rq_frog_X⟩, ⟨_, rq_stark_X⟩⟩

/-- **C84** (factors, `rings.rs:33-41`). Modulo the prime the cyclotomic polynomial of each ring has irreducible factors of one
degree only, the extension degree, and as many of them as the NTT form has components. -/
theorem C84_factors :
    ((∀ f : (ZMod pGoldilocks)[X], Irreducible f → f ∣ X ^ 24 - X ^ 12 + 1 → f.natDegree = 3) ∧
      (UniqueFactorizationMonoid.normalizedFactors (X ^ 24 - X ^ 12 + 1 : (ZMod pGoldilocks)[X])).toFinset.card = 8) ∧
    ((∀ f : (ZMod pBabyBear)[X], Irreducible f → f ∣ X ^ 72 - X ^ 36 + 1 → f.natDegree = 9) ∧
      (UniqueFactorizationMonoid.normalizedFactors (X ^ 72 - X ^ 36 + 1 : (ZMod pBabyBear)[X])).toFinset.card = 8) ∧
    ((∀ f : (ZMod pFrog)[X], Irreducible f → f ∣ X ^ 16 + 1 → f.natDegree = 4) ∧
      (UniqueFactorizationMonoid.normalizedFactors (X ^ 16 + 1 : (ZMod pFrog)[X])).toFinset.card = 4) ∧
    ((∀ f : (ZMod pStark)[X], Irreducible f → f ∣ X ^ 16 + 1 → f.natDegree = 1) ∧
      (UniqueFactorizationMonoid.normalizedFactors (X ^ 16 + 1 : (ZMod pStark)[X])).toFinset.card = 16) := by
  refine ⟨?_, ?_, ?_, ?_⟩
  · have := structure_factors goldilocksData
    rwa [cyclo72] at this
  · have := structure_factors babybearData
    rwa [cyclo216] at this
  · have := structure_factors frogData
    rwa [cyclo32] at this
  · have := structure_factors starkData
    rwa [cyclo32] at this

/-- The field of the NTT form of the constructed Goldilocks ring has `p ^ 3` elements. -/
example : Nat.card (GaloisField pGoldilocks 3) = pGoldilocks ^ 3 :=
  (C84_goldilocks _ (by norm_num) rq_goldilocks_X).2.2

/-- No realisation with 12 components over the field of degree 2. -/
example {F C : Type} [Field F] [CommRing C] [Algebra (ZMod pGoldilocks) F] [Algebra (ZMod pGoldilocks) C]
    (rd : RingData (ZMod pGoldilocks) F C 12 2) : rd.X ^ 24 - rd.X ^ 12 + 1 ≠ 0 := by
  intro h
  have := (C84_goldilocks rd (by norm_num) h).1
  omega

end Verif.Props
