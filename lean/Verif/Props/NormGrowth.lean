import Verif.Props.NormTables
import Verif.Model.ParamSets
import Verif.Props.Nifs

/-!
# Property theorems for the growth of the folded witness: C85
-/

set_option linter.unusedSimpArgs false
set_option linter.unusedSectionVars false

namespace Verif.Props

open Finset Verif Verif.Spec Verif.NormGrowth Verif.Poseidon

section
variable {F C : Type} [Field F] [CommRing C]

/-- **C85** (Goldilocks). Let `V = ((2K - 1) 1152 + 1) b/2`, `1152 = 36 * 32`. Every combination of `2K` elements with
digits of absolute value at most `b / 2` by `2K - 1` challenges and `1` fits in `K` digits exactly if `V` does
(as long as nothing wraps around the modulus). -/
theorem C85_goldilocks [Algebra (ZMod pGoldilocks) F] [Algebra (ZMod pGoldilocks) C]
    (rd : RingData (ZMod pGoldilocks) F C 8 3) (hX : rd.X ^ 24 - rd.X ^ 12 + 1 = 0) (P : Params) (he : Even P.bSmall) (hK : 1 ≤ P.K)
    (hp : P.bSmall * ((2 * P.K - 1) * 1152 + 1) + reach P.bSmall P.K < 2 * pGoldilocks) :
    NormOK rd P (packedSet rd.coeff) ↔ P.bSmall * ((2 * P.K - 1) * 1152 + 1) ≤ reach P.bSmall P.K := by
  refine ⟨fun h => ?_, fun h => normOK_of rd P _ (table_goldilocks rd hX) (bounded_packed rd) he hK h⟩
  by_contra hlt
  exact not_normOK rd P _ (table_goldilocks rd hX) (attains_goldilocks rd) he hK (not_le.1 hlt) hp h

/-- **C85** (BabyBear). Let `V = ((2K - 1) 1504 + 1) b/2`, `1504 = 47 * 32`. Every combination of `2K` elements with
digits of absolute value at most `b / 2` by `2K - 1` challenges and `1` fits in `K` digits exactly if `V` does
(as long as nothing wraps around the modulus). -/
theorem C85_babybear [Algebra (ZMod pBabyBear) F] [Algebra (ZMod pBabyBear) C]
    (rd : RingData (ZMod pBabyBear) F C 8 9) (hX : rd.X ^ 72 - rd.X ^ 36 + 1 = 0) (P : Params) (he : Even P.bSmall) (hK : 1 ≤ P.K)
    (hp : P.bSmall * ((2 * P.K - 1) * 1504 + 1) + reach P.bSmall P.K < 2 * pBabyBear) :
    NormOK rd P (packedSet rd.coeff) ↔ P.bSmall * ((2 * P.K - 1) * 1504 + 1) ≤ reach P.bSmall P.K := by
  refine ⟨fun h => ?_, fun h => normOK_of rd P _ (table_babybear rd hX) (bounded_packed rd) he hK h⟩
  by_contra hlt
  exact not_normOK rd P _ (table_babybear rd hX) (attains_babybear rd) he hK (not_le.1 hlt) hp h

/-- **C85** (Frog). Let `V = ((2K - 1) 2048 + 1) b/2`, `2048 = 16 * 128`. Every combination of `2K` elements with
digits of absolute value at most `b / 2` by `2K - 1` challenges and `1` fits in `K` digits exactly if `V` does
(as long as nothing wraps around the modulus). -/
theorem C85_frog [Algebra (ZMod pFrog) F] [Algebra (ZMod pFrog) C]
    (rd : RingData (ZMod pFrog) F C 4 4) (hX : rd.X ^ 16 + 1 = 0) (P : Params) (he : Even P.bSmall) (hK : 1 ≤ P.K)
    (hp : P.bSmall * ((2 * P.K - 1) * 2048 + 1) + reach P.bSmall P.K < 2 * pFrog) :
    NormOK rd P (frogSet rd.coeff) ↔ P.bSmall * ((2 * P.K - 1) * 2048 + 1) ≤ reach P.bSmall P.K := by
  refine ⟨fun h => ?_, fun h => normOK_of rd P _ (table_frog rd hX) (bounded_frog rd) he hK h⟩
  by_contra hlt
  exact not_normOK rd P _ (table_frog rd hX) (attains_frog rd) he hK (not_le.1 hlt) hp h

/-- **C85** (Stark). Let `V = ((2K - 1) 4080 + 1) b/2`, `4080 = 16 * 255`. Every combination of `2K` elements with
digits of absolute value at most `b / 2` by `2K - 1` challenges and `1` fits in `K` digits exactly if `V` does
(as long as nothing wraps around the modulus). -/
theorem C85_stark [Algebra (ZMod pStark) F] [Algebra (ZMod pStark) C]
    (rd : RingData (ZMod pStark) F C 16 1) (hX : rd.X ^ 16 + 1 = 0) (P : Params) (he : Even P.bSmall) (hK : 1 ≤ P.K)
    (hp : P.bSmall * ((2 * P.K - 1) * 4080 + 1) + reach P.bSmall P.K < 2 * pStark) :
    NormOK rd P (starkSet rd.coeff) ↔ P.bSmall * ((2 * P.K - 1) * 4080 + 1) ≤ reach P.bSmall P.K := by
  refine ⟨fun h => ?_, fun h => normOK_of rd P _ (table_stark rd hX) (bounded_stark rd) he hK h⟩
  by_contra hlt
  exact not_normOK rd P _ (table_stark rd hX) (attains_stark rd) he hK (not_le.1 hlt) hp h

/-- **C85** (Goldilocks, parameter sets of benchmarks and examples). The folded witness fits in the next decomposition
for all challenges and digits exactly if `K ≥ 16`; the defaults of the examples have `K = 15`. -/
theorem C85_goldilocks_shipped [Algebra (ZMod pGoldilocks) F] [Algebra (ZMod pGoldilocks) C]
    (rd : RingData (ZMod pGoldilocks) F C 8 3) (hX : rd.X ^ 24 - rd.X ^ 12 + 1 = 0) :
    ∀ P ∈ benchGoldilocks ++ [exampleParams], NormOK rd P (packedSet rd.coeff) ↔ 16 ≤ P.K := by
  intro P hP
  have key : ∀ P ∈ benchGoldilocks ++ [exampleParams], Even P.bSmall ∧ 1 ≤ P.K ∧
      P.bSmall * ((2 * P.K - 1) * 1152 + 1) + reach P.bSmall P.K < 2 * pGoldilocks ∧
      (P.bSmall * ((2 * P.K - 1) * 1152 + 1) ≤ reach P.bSmall P.K ↔ 16 ≤ P.K) := by
    unfold reach; decide +kernel
  obtain ⟨h1, h2, h3, h4⟩ := key P hP
  exact (C85_goldilocks rd hX P h1 h2 h3).trans h4

/-- **C85** (BabyBear, parameter sets of benchmarks and examples). The folded witness fits in the next decomposition
for all challenges and digits exactly if `K ≥ 16`; the defaults of the examples have `K = 15`. -/
theorem C85_babybear_shipped [Algebra (ZMod pBabyBear) F] [Algebra (ZMod pBabyBear) C]
    (rd : RingData (ZMod pBabyBear) F C 8 9) (hX : rd.X ^ 72 - rd.X ^ 36 + 1 = 0) :
    ∀ P ∈ benchBabyBear ++ [exampleParams], NormOK rd P (packedSet rd.coeff) ↔ 16 ≤ P.K := by
  intro P hP
  have key : ∀ P ∈ benchBabyBear ++ [exampleParams], Even P.bSmall ∧ 1 ≤ P.K ∧
      P.bSmall * ((2 * P.K - 1) * 1504 + 1) + reach P.bSmall P.K < 2 * pBabyBear ∧
      (P.bSmall * ((2 * P.K - 1) * 1504 + 1) ≤ reach P.bSmall P.K ↔ 16 ≤ P.K) := by
    unfold reach; decide +kernel
  obtain ⟨h1, h2, h3, h4⟩ := key P hP
  exact (C85_babybear rd hX P h1 h2 h3).trans h4

/-- **C85** (Frog, parameter sets of benchmarks and examples). The folded witness fits in the next decomposition
for all challenges and digits exactly if `K ≥ 17`; the defaults of the examples have `K = 15`. -/
theorem C85_frog_shipped [Algebra (ZMod pFrog) F] [Algebra (ZMod pFrog) C]
    (rd : RingData (ZMod pFrog) F C 4 4) (hX : rd.X ^ 16 + 1 = 0) :
    ∀ P ∈ benchFrog ++ [exampleParams], NormOK rd P (frogSet rd.coeff) ↔ 17 ≤ P.K := by
  intro P hP
  have key : ∀ P ∈ benchFrog ++ [exampleParams], Even P.bSmall ∧ 1 ≤ P.K ∧
      P.bSmall * ((2 * P.K - 1) * 2048 + 1) + reach P.bSmall P.K < 2 * pFrog ∧
      (P.bSmall * ((2 * P.K - 1) * 2048 + 1) ≤ reach P.bSmall P.K ↔ 17 ≤ P.K) := by
    unfold reach; decide +kernel
  obtain ⟨h1, h2, h3, h4⟩ := key P hP
  exact (C85_frog rd hX P h1 h2 h3).trans h4

/-- **C85** (Stark, parameter sets of benchmarks and examples). The folded witness fits in the next decomposition
for all challenges and digits for all of them. -/
theorem C85_stark_shipped [Algebra (ZMod pStark) F] [Algebra (ZMod pStark) C]
    (rd : RingData (ZMod pStark) F C 16 1) (hX : rd.X ^ 16 + 1 = 0) :
    ∀ P ∈ benchStark ++ [exampleParamsStark], NormOK rd P (starkSet rd.coeff) := by
  intro P hP
  have key : ∀ P ∈ benchStark ++ [exampleParamsStark], Even P.bSmall ∧ 1 ≤ P.K ∧
      P.bSmall * ((2 * P.K - 1) * 4080 + 1) + reach P.bSmall P.K < 2 * pStark ∧
      (P.bSmall * ((2 * P.K - 1) * 4080 + 1) ≤ reach P.bSmall P.K) := by
    unfold reach; decide +kernel
  obtain ⟨h1, h2, h3, h4⟩ := key P hP
  exact (C85_stark rd hX P h1 h2 h3).2 h4

/-- **C85** (what goes wrong otherwise). If not all combinations fit, then there are challenges and digits such that
the folded element is not a sum of `K` digits of absolute value at most `b / 2` at all: no decomposition with the
promised bounds exists, so the next step cannot be carried out. -/
theorem C85_no_decomposition {p N τ : ℕ} [Fact p.Prime] [Algebra (ZMod p) F] [Algebra (ZMod p) C]
    (rd : RingData (ZMod p) F C N τ) (P : Params) (cs : ChallengeSet C) (h : ¬ NormOK rd P cs) :
    ∃ rho x : ℕ → C, rho (2 * P.K - 1) = 1 ∧
      (∀ k < 2 * P.K - 1, ∃ bs, bs.length = cs.bytesNeeded ∧ cs.decode bs = .ok (rho k)) ∧
      (∀ k < 2 * P.K, ∀ i, Short P.bSmall (rd.coeff (x k) i)) ∧
      ¬ ∃ ds : List C, ds.length = P.K ∧ ∑ i ∈ range P.K, (P.bSmall : C) ^ i * ds.getD i 0
        = ∑ k ∈ range (2 * P.K), rho k * x k ∧ ∀ d ∈ ds, ∀ i, Short P.bSmall (rd.coeff d i) := by
  unfold NormOK at h
  push Not at h
  obtain ⟨rho, x, h1, h2, h3, i, h4⟩ := h
  refine ⟨rho, x, h1, h2, h3, ?_⟩
  rintro ⟨ds, hl, hs, hd⟩
  apply h4
  rw [← hs, map_sum, Finset.sum_apply]
  have : ∀ j ∈ range P.K, rd.coeff ((P.bSmall : C) ^ j * ds.getD j 0) i
      = (P.bSmall : ZMod p) ^ j * rd.coeff (ds.getD j 0) i := by
    intro j _
    have e : (P.bSmall : C) ^ j * ds.getD j 0 = ((P.bSmall : ZMod p) ^ j) • ds.getD j 0 := by
      rw [Algebra.smul_def]; simp
    rw [e, map_smul, Pi.smul_apply, smul_eq_mul]
  rw [sum_congr rfl this]
  refine short_of_digits _ _ _ fun j hj => ?_
  have hj' : j < ds.length := by omega
  rw [List.getD_eq_getElem?_getD, List.getElem?_eq_getElem hj', Option.getD_some]
  exact hd _ (List.getElem_mem hj') i

/-- Prime fields are covered by `L` digits base `B` if the modulus is at most `B ^ L`. -/
theorem cover_of_le {p : ℕ} [Fact p.Prime] {M : ℕ} (h : p ≤ M) (x : ZMod p) : Short M x := by
  have : NeZero p := ⟨(Fact.out : p.Prime).ne_zero⟩
  have := ZMod.natAbs_valMinAbs_le x
  exact ⟨x.valMinAbs, by omega, (ZMod.coe_valMinAbs x).symm⟩

/-- The arithmetic conditions on parameters, all decidable: the two documented ones, `p < B^L` and `B = b^K`, and
those the theorems need. -/
def ParamsFit (p : ℕ) (P : Params) : Prop :=
  p < P.B ^ P.L ∧ P.B = P.bSmall ^ P.K ∧ Even P.bSmall ∧ 2 ≤ P.bSmall ∧ Even P.B ∧ 2 ≤ P.B ∧ 1 ≤ P.L ∧ 1 ≤ P.K ∧
    P.bSmall ^ (P.K - 1) < 2 ^ 128

theorem paramsOK_of_fit {p : ℕ} [Fact p.Prime] {P : Params} (h : ParamsFit p P) : ParamsOK (ZMod p) P where
  bEven := h.2.2.1
  b2 := h.2.2.2.1
  BEven := h.2.2.2.2.1
  B2 := h.2.2.2.2.2.1
  Lpos := h.2.2.2.2.2.2.1
  Kpos := h.2.2.2.2.2.2.2.1
  BK := h.2.1.le
  cover := cover_of_le (by have := h.1; omega)
  nooverflow := h.2.2.2.2.2.2.2.2

/-- **C85** (documented conditions). Every parameter set of the benchmarks and of the examples satisfies the
documented conditions `p < B^L` and `K = log_b B` for its ring, and the side conditions of the other theorems. -/
theorem C85_params_fit :
    (∀ P ∈ benchGoldilocks ++ [exampleParams], ParamsFit pGoldilocks P ∧ ParamsOK (ZMod pGoldilocks) P) ∧
    (∀ P ∈ benchBabyBear ++ [exampleParams], ParamsFit pBabyBear P ∧ ParamsOK (ZMod pBabyBear) P) ∧
    (∀ P ∈ benchFrog ++ [exampleParams], ParamsFit pFrog P ∧ ParamsOK (ZMod pFrog) P) ∧
    (∀ P ∈ benchStark ++ [exampleParamsStark], ParamsFit pStark P ∧ ParamsOK (ZMod pStark) P) := by
  have h1 : ∀ P ∈ benchGoldilocks ++ [exampleParams], ParamsFit pGoldilocks P := by unfold ParamsFit; decide +kernel
  have h2 : ∀ P ∈ benchBabyBear ++ [exampleParams], ParamsFit pBabyBear P := by unfold ParamsFit; decide +kernel
  have h3 : ∀ P ∈ benchFrog ++ [exampleParams], ParamsFit pFrog P := by unfold ParamsFit; decide +kernel
  have h4 : ∀ P ∈ benchStark ++ [exampleParamsStark], ParamsFit pStark P := by unfold ParamsFit; decide +kernel
  exact ⟨fun P hP => ⟨h1 P hP, paramsOK_of_fit (h1 P hP)⟩, fun P hP => ⟨h2 P hP, paramsOK_of_fit (h2 P hP)⟩,
    fun P hP => ⟨h3 P hP, paramsOK_of_fit (h3 P hP)⟩, fun P hP => ⟨h4 P hP, paramsOK_of_fit (h4 P hP)⟩⟩

/-- **C85** (unit test parameters). `FrogDP` violates `K = log_b B` (`K` is larger than needed), `DP` and `DPL1` violate `p < B^L` for
all four rings; apart from that both conditions hold for all of them. -/
theorem C85_test_params : ParamsFit pStark testStarkDP ∧ ParamsFit pStark testStarkFoldingDP ∧
    ParamsFit pGoldilocks testGoldilocksDP ∧ ParamsFit pBabyBear testBabyBearDP ∧
    testFrogDP.B < testFrogDP.bSmall ^ testFrogDP.K ∧ pFrog < testFrogDP.B ^ testFrogDP.L ∧
    testDP.B = testDP.bSmall ^ testDP.K ∧ testDPL1.B = testDPL1.bSmall ^ testDPL1.K ∧
    (∀ p ∈ [pGoldilocks, pBabyBear, pFrog, pStark], testDP.B ^ testDP.L ≤ p ∧ testDPL1.B ^ testDPL1.L ≤ p) := by
  unfold ParamsFit; decide +kernel

theorem charGt_algebra {p : ℕ} [Fact p.Prime] [Algebra (ZMod p) F] {n : ℕ} (h : n < p) : CharGt F n := by
  intro k h0 hk h1
  have h2 : algebraMap (ZMod p) F (k : ZMod p) = 0 := by rw [map_natCast, h1]
  rw [map_eq_zero, ZMod.natCast_eq_zero_iff] at h2
  have := Nat.le_of_dvd h0 h2
  omega

/-- **C85** (Goldilocks, accumulation for ever). With a parameter set of the benchmarks or examples and `K ≥ 16`,
accumulating any list of valid fresh statements to any valid accumulator whose witness fits: no step of the prover
fails, the verifier accepts all proofs, and the last accumulator is valid and fits again. -/
theorem C85_goldilocks_for_ever_partial {σ : Type} [DecidableEq F] [DecidableEq C] [Algebra (ZMod pGoldilocks) F] [Algebra (ZMod pGoldilocks) C]
    (rd : RingData (ZMod pGoldilocks) F C 8 3) (hX : rd.X ^ 24 - rd.X ^ 12 + 1 = 0) (P : Params)
    (hPm : P ∈ benchGoldilocks ++ [exampleParams]) (hPK : 16 ≤ P.K)
    (T : Transcript F (Fin 8 → F) σ) (ccs : CCS (Fin 8 → F)) (scheme : Ajtai (Fin 8 → F))
    (hS : SizesOK P ccs scheme) (ht : ccs.t = ccs.M.length) (al : Aligned ccs) (hd : ccs.d + 1 < pGoldilocks)
    (hT : ∀ s n, (T.bytes s n).1.length = n)
    (steps : List (CCCS (Fin 8 → F) × Witness (Fin 8 → F) C))
    (hsteps : ∀ p ∈ steps, FreshHolds rd P ccs scheme p.1 p.2) (s : σ)
    (acc : LCCCS (Fin 8 → F)) (wAcc : Witness (Fin 8 → F) C)
    (hacc : LcccsHolds rd P ccs scheme acc wAcc) (hsh : WitShort rd (reach P.bSmall P.K) wAcc) :
    ∃ accs proofs acc' w' s', ivcProve rd P (packedSet rd.coeff) T ccs scheme steps s acc wAcc = .ok ((accs, proofs, acc', w'), s') ∧
      ivcVerify rd P (packedSet rd.coeff) T ccs ((steps.map (·.1)).zip proofs) s acc = .ok ((accs, acc'), s') ∧
      accs.length = steps.length ∧ proofs.length = steps.length ∧
      LcccsHolds rd P ccs scheme acc' w' ∧ WitShort rd (reach P.bSmall P.K) w' := by
  have hb : ∀ P ∈ benchGoldilocks ++ [exampleParams], 2 * P.bSmall < pGoldilocks := by decide +kernel
  refine C47_ivc_sync rd P (packedSet rd.coeff) T ccs scheme (C85_params_fit.1 P hPm).2 hS ht al
    (charGt_algebra (hb P hPm)) (charGt_algebra hd) hT (fun bs hbs => ?_) ((C85_goldilocks_shipped rd hX P hPm).2 hPK) steps hsteps s acc
    wAcc hacc hsh
  obtain ⟨c, hc, -⟩ := C44_packed_value rd.coeff bs hbs
  exact ⟨c, hc⟩

/-- **C85** (BabyBear, accumulation for ever). With a parameter set of the benchmarks or examples and `K ≥ 16`,
accumulating any list of valid fresh statements to any valid accumulator whose witness fits: no step of the prover
fails, the verifier accepts all proofs, and the last accumulator is valid and fits again. -/
theorem C85_babybear_for_ever_partial {σ : Type} [DecidableEq F] [DecidableEq C] [Algebra (ZMod pBabyBear) F] [Algebra (ZMod pBabyBear) C]
    (rd : RingData (ZMod pBabyBear) F C 8 9) (hX : rd.X ^ 72 - rd.X ^ 36 + 1 = 0) (P : Params)
    (hPm : P ∈ benchBabyBear ++ [exampleParams]) (hPK : 16 ≤ P.K)
    (T : Transcript F (Fin 8 → F) σ) (ccs : CCS (Fin 8 → F)) (scheme : Ajtai (Fin 8 → F))
    (hS : SizesOK P ccs scheme) (ht : ccs.t = ccs.M.length) (al : Aligned ccs) (hd : ccs.d + 1 < pBabyBear)
    (hT : ∀ s n, (T.bytes s n).1.length = n)
    (steps : List (CCCS (Fin 8 → F) × Witness (Fin 8 → F) C))
    (hsteps : ∀ p ∈ steps, FreshHolds rd P ccs scheme p.1 p.2) (s : σ)
    (acc : LCCCS (Fin 8 → F)) (wAcc : Witness (Fin 8 → F) C)
    (hacc : LcccsHolds rd P ccs scheme acc wAcc) (hsh : WitShort rd (reach P.bSmall P.K) wAcc) :
    ∃ accs proofs acc' w' s', ivcProve rd P (packedSet rd.coeff) T ccs scheme steps s acc wAcc = .ok ((accs, proofs, acc', w'), s') ∧
      ivcVerify rd P (packedSet rd.coeff) T ccs ((steps.map (·.1)).zip proofs) s acc = .ok ((accs, acc'), s') ∧
      accs.length = steps.length ∧ proofs.length = steps.length ∧
      LcccsHolds rd P ccs scheme acc' w' ∧ WitShort rd (reach P.bSmall P.K) w' := by
  have hb : ∀ P ∈ benchBabyBear ++ [exampleParams], 2 * P.bSmall < pBabyBear := by decide +kernel
  refine C47_ivc_sync rd P (packedSet rd.coeff) T ccs scheme (C85_params_fit.2.1 P hPm).2 hS ht al
    (charGt_algebra (hb P hPm)) (charGt_algebra hd) hT (fun bs hbs => ?_) ((C85_babybear_shipped rd hX P hPm).2 hPK) steps hsteps s acc
    wAcc hacc hsh
  obtain ⟨c, hc, -⟩ := C44_packed_value rd.coeff bs hbs
  exact ⟨c, hc⟩

/-- **C85** (Frog, accumulation for ever). With a parameter set of the benchmarks or examples and `K ≥ 17`,
accumulating any list of valid fresh statements to any valid accumulator whose witness fits: no step of the prover
fails, the verifier accepts all proofs, and the last accumulator is valid and fits again. -/
theorem C85_frog_for_ever_partial {σ : Type} [DecidableEq F] [DecidableEq C] [Algebra (ZMod pFrog) F] [Algebra (ZMod pFrog) C]
    (rd : RingData (ZMod pFrog) F C 4 4) (hX : rd.X ^ 16 + 1 = 0) (P : Params)
    (hPm : P ∈ benchFrog ++ [exampleParams]) (hPK : 17 ≤ P.K)
    (T : Transcript F (Fin 4 → F) σ) (ccs : CCS (Fin 4 → F)) (scheme : Ajtai (Fin 4 → F))
    (hS : SizesOK P ccs scheme) (ht : ccs.t = ccs.M.length) (al : Aligned ccs) (hd : ccs.d + 1 < pFrog)
    (hT : ∀ s n, (T.bytes s n).1.length = n)
    (steps : List (CCCS (Fin 4 → F) × Witness (Fin 4 → F) C))
    (hsteps : ∀ p ∈ steps, FreshHolds rd P ccs scheme p.1 p.2) (s : σ)
    (acc : LCCCS (Fin 4 → F)) (wAcc : Witness (Fin 4 → F) C)
    (hacc : LcccsHolds rd P ccs scheme acc wAcc) (hsh : WitShort rd (reach P.bSmall P.K) wAcc) :
    ∃ accs proofs acc' w' s', ivcProve rd P (frogSet rd.coeff) T ccs scheme steps s acc wAcc = .ok ((accs, proofs, acc', w'), s') ∧
      ivcVerify rd P (frogSet rd.coeff) T ccs ((steps.map (·.1)).zip proofs) s acc = .ok ((accs, acc'), s') ∧
      accs.length = steps.length ∧ proofs.length = steps.length ∧
      LcccsHolds rd P ccs scheme acc' w' ∧ WitShort rd (reach P.bSmall P.K) w' := by
  have hb : ∀ P ∈ benchFrog ++ [exampleParams], 2 * P.bSmall < pFrog := by decide +kernel
  refine C47_ivc_sync rd P (frogSet rd.coeff) T ccs scheme (C85_params_fit.2.2.1 P hPm).2 hS ht al
    (charGt_algebra (hb P hPm)) (charGt_algebra hd) hT (fun bs hbs => ?_) ((C85_frog_shipped rd hX P hPm).2 hPK) steps hsteps s acc
    wAcc hacc hsh
  obtain ⟨c, _, hc, -⟩ := C45_values rd.coeff bs hbs
  exact ⟨c, hc⟩

/-- **C85** (Stark, accumulation for ever). With a parameter set of the benchmarks or examples,
accumulating any list of valid fresh statements to any valid accumulator whose witness fits: no step of the prover
fails, the verifier accepts all proofs, and the last accumulator is valid and fits again. -/
theorem C85_stark_for_ever {σ : Type} [DecidableEq F] [DecidableEq C] [Algebra (ZMod pStark) F] [Algebra (ZMod pStark) C]
    (rd : RingData (ZMod pStark) F C 16 1) (hX : rd.X ^ 16 + 1 = 0) (P : Params)
    (hPm : P ∈ benchStark ++ [exampleParamsStark])
    (T : Transcript F (Fin 16 → F) σ) (ccs : CCS (Fin 16 → F)) (scheme : Ajtai (Fin 16 → F))
    (hS : SizesOK P ccs scheme) (ht : ccs.t = ccs.M.length) (al : Aligned ccs) (hd : ccs.d + 1 < pStark)
    (hT : ∀ s n, (T.bytes s n).1.length = n)
    (steps : List (CCCS (Fin 16 → F) × Witness (Fin 16 → F) C))
    (hsteps : ∀ p ∈ steps, FreshHolds rd P ccs scheme p.1 p.2) (s : σ)
    (acc : LCCCS (Fin 16 → F)) (wAcc : Witness (Fin 16 → F) C)
    (hacc : LcccsHolds rd P ccs scheme acc wAcc) (hsh : WitShort rd (reach P.bSmall P.K) wAcc) :
    ∃ accs proofs acc' w' s', ivcProve rd P (starkSet rd.coeff) T ccs scheme steps s acc wAcc = .ok ((accs, proofs, acc', w'), s') ∧
      ivcVerify rd P (starkSet rd.coeff) T ccs ((steps.map (·.1)).zip proofs) s acc = .ok ((accs, acc'), s') ∧
      accs.length = steps.length ∧ proofs.length = steps.length ∧
      LcccsHolds rd P ccs scheme acc' w' ∧ WitShort rd (reach P.bSmall P.K) w' := by
  have hb : ∀ P ∈ benchStark ++ [exampleParamsStark], 2 * P.bSmall < pStark := by decide +kernel
  refine C47_ivc_sync rd P (starkSet rd.coeff) T ccs scheme (C85_params_fit.2.2.2 P hPm).2 hS ht al
    (charGt_algebra (hb P hPm)) (charGt_algebra hd) hT (fun bs hbs => ?_) (C85_stark_shipped rd hX P hPm) steps hsteps s acc
    wAcc hacc hsh
  obtain ⟨_, c, _, hc, -⟩ := C45_values rd.coeff bs hbs
  exact ⟨c, hc⟩

end

/-! ## Examples -/

/-- The defaults of the examples: Goldilocks can leave the range, Stark cannot. -/
example : ¬ NormOK (Example.ringRq SmallNorm.goldilocksData (by norm_num)) exampleParams
    (packedSet (Example.ringRq SmallNorm.goldilocksData (by norm_num)).coeff) := by
  rw [C85_goldilocks_shipped _ rq_goldilocks_X exampleParams (by decide)]
  decide

example : NormOK (Example.ringRq SmallNorm.goldilocksData (by norm_num)) ⟨65536, 4, 2, 16⟩
    (packedSet (Example.ringRq SmallNorm.goldilocksData (by norm_num)).coeff) :=
  (C85_goldilocks_shipped _ rq_goldilocks_X ⟨65536, 4, 2, 16⟩ (by decide)).2 (by decide)

example : ¬ NormOK (Example.ringRq SmallNorm.babybearData (by norm_num)) ⟨16, 8, 2, 4⟩
    (packedSet (Example.ringRq SmallNorm.babybearData (by norm_num)).coeff) := by
  rw [C85_babybear_shipped _ rq_babybear_X ⟨16, 8, 2, 4⟩ (by decide)]
  decide

example : ¬ NormOK (Example.ringRq SmallNorm.frogData (by norm_num)) exampleParams
    (frogSet (Example.ringRq SmallNorm.frogData (by norm_num)).coeff) := by
  rw [C85_frog_shipped _ rq_frog_X exampleParams (by decide)]
  decide

example : NormOK (Example.ringRq SmallNorm.starkData (by norm_num)) exampleParamsStark
    (starkSet (Example.ringRq SmallNorm.starkData (by norm_num)).coeff) :=
  C85_stark_shipped _ rq_stark_X exampleParamsStark (by decide)

end Verif.Props
