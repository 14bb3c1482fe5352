import Verif.Props.LongMost
import Verif.Props.Bench

set_option linter.unusedSimpArgs false
set_option linter.unusedSectionVars false

/-! # Property C54 for the instances of the benchmarks -/

namespace Verif.Props
open Finset Verif Verif.Spec Verif.NormGrowth Verif.Poseidon

variable {σ G : Type}

section Ones
variable {Fp F C : Type} {N τ : Nat} [Field Fp] [Field F] [DecidableEq F] [Algebra Fp F] [CommRing C] [Algebra Fp C]

/-- `w` groups of `L` digits, each `1, 0, …, 0`. -/
def onesDigits (C : Type) [CommRing C] (L w : Nat) : List C := (List.range (w * L)).map fun j => if j % L = 0 then 1 else 0

theorem coeff_one_short (rd : RingData Fp F C N τ) {b : Nat} (hb : 2 ≤ b) (i : Fin (τ * N)) : Short b (rd.coeff 1 i) := by
  have h0 := rd.coeff_X ⟨0, by have := i.2; omega⟩
  rw [pow_zero] at h0
  rw [h0]
  by_cases hi : i = ⟨0, by have := i.2; omega⟩
  · rw [hi, Pi.single_eq_same]
    exact ⟨1, by simpa using hb, by simp⟩
  · rw [Pi.single_eq_of_ne hi]
    exact Verif.short_zero b

theorem onesDigits_short (rd : RingData Fp F C N τ) (P : Params) (w : Nat) {b : Nat} (hb : 2 ≤ b) : WitShort rd b (mkWit rd P w (onesDigits C P.L w)) := by
  intro c hc i
  obtain ⟨j, -, rfl⟩ := List.mem_map.1 hc
  by_cases h : j % P.L = 0
  · rw [if_pos h]; exact coeff_one_short rd hb i
  · rw [if_neg h, map_zero]; exact Verif.short_zero b

theorem onesDigits_wCcs (rd : RingData Fp F C N τ) (P : Params) (w : Nat) (hL : 1 ≤ P.L) :
    (mkWit rd P w (onesDigits C P.L w)).wCcs = List.replicate w 1 := by
  refine List.ext_getElem (by simp [mkWit]) fun i h1 h2 => ?_
  have hi : i < w := by simpa using h2
  simp only [mkWit, List.getElem_map, List.getElem_range, List.getElem_replicate]
  have hg : ∀ k ∈ range P.L, (P.B : Fin N → F) ^ k * ((onesDigits C P.L w).map rd.crt).getD (i * P.L + k) 0 = if k = 0 then 1 else 0 := by
    intro k hk
    have hkL : k < P.L := Finset.mem_range.1 hk
    have hlt : i * P.L + k < w * P.L := by
      calc i * P.L + k < i * P.L + P.L := by omega
        _ = (i + 1) * P.L := by ring
        _ ≤ w * P.L := Nat.mul_le_mul_right _ hi
    have hmod : (i * P.L + k) % P.L = k := by
      rw [Nat.add_comm, Nat.add_mul_mod_self_right, Nat.mod_eq_of_lt hkL]
    unfold onesDigits
    rw [List.map_map, getD_map_range _ _ hlt]
    simp only [Function.comp_apply, hmod]
    by_cases h : k = 0
    · simp [h]
    · simp [h]
  rw [Finset.sum_congr rfl hg, Finset.sum_ite_eq' (range P.L) 0 fun _ => (1 : Fin N → F)]
  exact if_pos (Finset.mem_range.2 (by omega))

theorem zeros_wCcs (rd : RingData Fp F C N τ) (P : Params) (w : Nat) :
    (mkWit rd P w (List.replicate (w * P.L) (0 : C))).wCcs = List.replicate w 0 := by
  refine List.ext_getElem (by simp [mkWit]) fun i h1 h2 => ?_
  simp only [mkWit, List.getElem_map, List.getElem_range, List.getElem_replicate, List.map_replicate, map_zero]
  refine Finset.sum_eq_zero fun k _ => ?_
  rw [List.getD_eq_getElem?_getD, List.getElem?_replicate]
  split <;> simp

/-- The instances of the set-ups `Scalar` and `DegreeThreeNonScalar` have a witness with coefficients 0 and 1 for the same public input. -/
theorem setup_small (rd : RingData Fp F C N τ) (P : Params) (hP : ParamsOK Fp P) (e : Fin N → F) (rnd : G → (Fin N → F) × G) (rng : G)
    (w kappa : Nat) (hk : 1 ≤ kappa) (hw : 2 ≤ w) (hL : 2 ≤ P.L) (t : R1CSKind) (ht : t ≠ .nonScalar) :
    ∃ i w0, setupR1CS rd P e rnd rng 1 (w * P.L) w kappa t = .ok i ∧ SizesOK P i.ccs i.scheme ∧ Aligned i.ccs ∧ i.ccs.t = i.ccs.M.length ∧
      i.ccs.d ≤ 3 ∧ i.cm.x_ccs.length = i.ccs.l ∧ i.ccs.n - i.ccs.l - 1 = w ∧ WitOK rd P w w0 ∧
      CCSHolds i.ccs ((i.cm.x_ccs ++ [1]) ++ w0.wCcs) ∧ WitShort rd 2 w0 := by
  obtain ⟨i, h1, g, hS, hf, -, hww, -, hx⟩ := setupR1CS_ok rd P hP e rnd rng w kappa hk hw hL t ht
  have hcn : i.ccs.n - i.ccs.l - 1 = w := by rw [g.n, g.l]; omega
  match t, ht with
  | .scalar, _ =>
    refine ⟨i, mkWit rd P w (onesDigits C P.L w), h1, hS, g.al, g.t, g.d, hf.xlen, hcn, mkWit_ok rd P _ (by simp [onesDigits]), ?_,
      onesDigits_short rd P w (le_refl _)⟩
    rw [onesDigits_wCcs rd P w (by omega)]
    have := hf.sat
    rwa [hww, if_pos rfl] at this
  | .degreeThreeNonScalar, _ =>
    refine ⟨i, mkWit rd P w (List.replicate (w * P.L) 0), h1, hS, g.al, g.t, g.d, hf.xlen, hcn, mkWit_ok rd P _ (by simp), ?_, ?_⟩
    · rw [zeros_wCcs]
      obtain ⟨ccs, c1, c2, -⟩ := C82_degree_three_partial ([1] ++ List.replicate 1 1 ++ List.replicate w e) 1 (w * P.L) w P.L
        (by simp) (by omega)
      have hg : genRows P w (1 + w + 1) = .ok (1 + w + 1) := if_neg (by omega)
      have hz : ([1] ++ List.replicate 1 1 ++ List.replicate w e).length = 1 + w + 1 := by simp; omega
      rw [hz] at c1
      replace h1 : witAndCcsGenDegreeThree rd P e rnd rng 1 (w * P.L) w (1 + w + 1) kappa = .ok i := h1
      unfold witAndCcsGenDegreeThree dummyZSplitNtt at h1
      simp only [hg, bind_ok', c1] at h1
      unfold genFinish at h1
      simp only [bind_eq_ok] at h1
      obtain ⟨_, -, wit, -, cm, -, h1⟩ := h1
      obtain rfl := Except.ok.inj h1
      refine (C08_check_decides ccs hS.sh.wf _ (by rw [g.n]; simp)).1.1 ((c2 _ (by simp; omega)).2 fun j _ => ?_)
      match j with
      | 0 => simp
      | 1 => simp
      | j + 2 =>
        have h0 : (([1] ++ [1] ++ List.replicate w 0 : List (Fin N → F))).getD (j + 2) 0 = 0 := by
          show (List.replicate w (0 : Fin N → F)).getD j 0 = 0
          rw [List.getD_eq_getElem?_getD, List.getElem?_replicate]
          split <;> rfl
        exact (fun x y hx => by rw [hx]; ring : ∀ x y : Fin N → F, x = 0 → x * x * x = y * y * x) _ _ h0
    · intro c hc j
      obtain ⟨-, rfl⟩ := List.mem_replicate.1 hc
      rw [map_zero]
      exact Verif.short_zero 2

end Ones

/-- The set-up `t` for the line `l` succeeds. Its constraint system has, for every matrix, a valid accumulator in range, made by the linearization
prover. For this constraint system and its own public input all but a share `2^-128` of the pairs of
a matrix with `κ` rows and a commitment are accepted in a step from every valid accumulator in range, with a valid result in range. -/
def BenchUnnoticed (σ : Type) {Fp F C G : Type} {N τ : Nat} [Field Fp] [Field F] [DecidableEq F] [Algebra Fp F] [CommRing C] [Algebra Fp C]
    (rd : RingData Fp F C N τ) (cs : ChallengeSet C) (l : BenchLine) (t : R1CSKind) (e : Fin N → F) (rnd : G → (Fin N → F) × G) (rng : G) : Prop :=
  ∃ i, setupR1CS rd l.P e rnd rng 1 (l.witLen * l.P.L) l.witLen l.kappa t = .ok i ∧
    (∀ (A : Fin l.kappa → Fin (l.witLen * l.P.L) → Fin N → F) (T : Transcript F (Fin N → F) σ) (s : σ), ∃ cm wAcc acc proof s',
      linProve T s cm wAcc i.ccs = .ok ((acc, proof), s') ∧
        LcccsHolds rd l.P i.ccs ⟨⟨l.kappa, l.witLen * l.P.L, matRows A⟩⟩ acc wAcc ∧ WitShort rd (reach l.P.bSmall l.P.K) wAcc) ∧
    ∃ Bad : Finset ((Fin l.kappa → Fin (l.witLen * l.P.L) → Fin N → F) × (Fin l.kappa → Fin N → F)),
      Bad.card * 2 ^ 128 ≤ Nat.card ((Fin l.kappa → Fin (l.witLen * l.P.L) → Fin N → F) × (Fin l.kappa → Fin N → F)) ∧
      ∀ A y, (A, y) ∉ Bad →
        ∀ (T : Transcript F (Fin N → F) σ) (s : σ) (acc : LCCCS (Fin N → F)) (wAcc : Witness (Fin N → F) C),
          (∀ s n, (T.bytes s n).1.length = n) →
          LcccsHolds rd l.P i.ccs ⟨⟨l.kappa, l.witLen * l.P.L, matRows A⟩⟩ acc wAcc → WitShort rd (reach l.P.bSmall l.P.K) wAcc →
          ∃ proof st w'' s', nifsVerify rd l.P cs T s acc ⟨⟨List.ofFn y⟩, i.cm.x_ccs⟩ proof i.ccs = .ok (st, s') ∧
            LcccsHolds rd l.P i.ccs ⟨⟨l.kappa, l.witLen * l.P.L, matRows A⟩⟩ st w'' ∧ WitShort rd (reach l.P.bSmall l.P.K) w''

theorem benchUnnoticed_of {Fp F C : Type} {N τ : Nat} [Field Fp] [Field F] [DecidableEq F] [Algebra Fp F] [CommRing C] [Algebra Fp C]
    (rd : RingData Fp F C N τ) (cs : ChallengeSet C) (p : Nat) (l : BenchLine) (h : MostUnnoticed σ rd cs p l) (hP : ParamsOK Fp l.P)
    (hl : 1 ≤ l.kappa ∧ 2 ≤ l.witLen ∧ 2 ≤ l.P.L ∧ 3 ≤ l.P.K) (hp : 4 < p) (hc : CharGt F 4)
    (t : R1CSKind) (ht : t ≠ .nonScalar) (e : Fin N → F) (rnd : G → (Fin N → F) × G) (rng : G) : BenchUnnoticed σ rd cs l t e rnd rng := by
  obtain ⟨hk, hw, hL, hK⟩ := hl
  obtain ⟨i, w0, h1, hS, hal, ht', hd, hx, hlen, hok, hsat, hsh⟩ := setup_small rd l.P hP e rnd rng l.witLen l.kappa hk hw hL t ht
  have hnl := hS.nl
  have hhat := hS.hat
  rw [hlen] at hhat
  have h2 : 2 ≤ 2 ^ (l.P.K - 1) - 2 := by
    have : 2 ^ 2 ≤ 2 ^ (l.P.K - 1) := Nat.pow_le_pow_right (by norm_num) (by omega)
    omega
  have hr : 2 ≤ reach l.P.bSmall l.P.K :=
    (hP.b2.trans (Nat.le_self_pow (by have := hP.Kpos; omega) _)).trans (pow_le_reach _ hP.Kpos)
  refine ⟨i, h1, fun A T s => ?_, h i.ccs i.cm.x_ccs w0 hS.sh (by omega) hhat ht' hal (by omega) hok hx hsat
    fun c hc j => Verif.short_mono h2 (hsh c hc j)⟩
  obtain ⟨c0, hcm⟩ : ∃ c0, (⟨⟨l.kappa, l.witLen * l.P.L, matRows A⟩⟩ : Ajtai (Fin N → F)).commit w0.f = .ok c0 :=
    ⟨_, commit_ok _ w0.f (by rw [hok.f, List.length_map, hok.flen])⟩
  have hokn : WitOK rd l.P (i.ccs.n - i.ccs.l - 1) w0 := by rw [hlen]; exact hok
  obtain ⟨st, pf, s', p1, -, p3, p4, -, -, p7⟩ := linearization_prover T s ⟨c0, i.cm.x_ccs⟩ w0 i.ccs hS.sh hal
    (fun k k1 k2 => hc k k1 (by omega)) (by rw [hx, hok.wlen]; omega) (fun m hm => by rw [hok.hatvars m hm, hhat])
  exact ⟨_, w0, st, pf, s', p1, ⟨hokn, by rw [hcm, p3], by rw [p4, hx], p7⟩, fun c hc j => Verif.short_mono hr (hsh c hc j)⟩

/-- **C54** for the benchmarks: for the lines of `C54_most_shipped`, the constraint system and the public input being the ones of the set-ups
`Scalar` and `DegreeThreeNonScalar`. -/
theorem C54_most_bench :
    (∀ (F C : Type) [Field F] [Fintype F] [DecidableEq F] [CommRing C] [Algebra (ZMod pGoldilocks) F] [Algebra (ZMod pGoldilocks) C]
      (rd : RingData (ZMod pGoldilocks) F C 8 3), rd.X ^ 24 - rd.X ^ 12 + 1 = 0 → ∀ l ∈ linesGoldilocks, 16 ≤ l.P.K →
        (l.P.L = 2 → 2048 ≤ l.witLen) → ∀ t ≠ R1CSKind.nonScalar, ∀ e (rnd : G → _) rng, BenchUnnoticed σ rd (packedSet rd.coeff) l t e rnd rng) ∧
    (∀ (F C : Type) [Field F] [Fintype F] [DecidableEq F] [CommRing C] [Algebra (ZMod pBabyBear) F] [Algebra (ZMod pBabyBear) C]
      (rd : RingData (ZMod pBabyBear) F C 8 9), rd.X ^ 72 - rd.X ^ 36 + 1 = 0 → ∀ l ∈ linesBabyBear, 16 ≤ l.P.K →
        ∀ t ≠ R1CSKind.nonScalar, ∀ e (rnd : G → _) rng, BenchUnnoticed σ rd (packedSet rd.coeff) l t e rnd rng) ∧
    (∀ (F C : Type) [Field F] [Fintype F] [DecidableEq F] [CommRing C] [Algebra (ZMod pFrog) F] [Algebra (ZMod pFrog) C]
      (rd : RingData (ZMod pFrog) F C 4 4), rd.X ^ 16 + 1 = 0 → ∀ l ∈ linesFrog, 17 ≤ l.P.K →
        (l.P.L = 2 → 2048 ≤ l.witLen) → ∀ t ≠ R1CSKind.nonScalar, ∀ e (rnd : G → _) rng, BenchUnnoticed σ rd (frogSet rd.coeff) l t e rnd rng) := by
  have a1 : ∀ l ∈ linesGoldilocks, l.P ∈ benchGoldilocks ++ [exampleParams] ∧ 1 ≤ l.kappa ∧ 2 ≤ l.witLen ∧ 2 ≤ l.P.L ∧ 3 ≤ l.P.K := by decide +kernel
  have a2 : ∀ l ∈ linesBabyBear, l.P ∈ benchBabyBear ++ [exampleParams] ∧ 1 ≤ l.kappa ∧ 2 ≤ l.witLen ∧ 2 ≤ l.P.L ∧ 3 ≤ l.P.K := by decide +kernel
  have a3 : ∀ l ∈ linesFrog, l.P ∈ benchFrog ++ [exampleParams] ∧ 1 ≤ l.kappa ∧ 2 ≤ l.witLen ∧ 2 ≤ l.P.L ∧ 3 ≤ l.P.K := by decide +kernel
  refine ⟨?_, ?_, ?_⟩
  · intro F C _ _ _ _ _ _ rd hX l hl hK hL t ht e rnd rng
    exact benchUnnoticed_of rd _ pGoldilocks l (C54_most_shipped.1 F C rd hX l hl hK hL) (C85_params_fit.1 l.P (a1 l hl).1).2 (a1 l hl).2
      (by decide +kernel) (charGt_algebra (p := pGoldilocks) (by decide +kernel)) t ht e rnd rng
  · intro F C _ _ _ _ _ _ rd hX l hl hK t ht e rnd rng
    exact benchUnnoticed_of rd _ pBabyBear l (C54_most_shipped.2.1 F C rd hX l hl hK) (C85_params_fit.2.1 l.P (a2 l hl).1).2 (a2 l hl).2
      (by decide +kernel) (charGt_algebra (p := pBabyBear) (by decide +kernel)) t ht e rnd rng
  · intro F C _ _ _ _ _ _ rd hX l hl hK hL t ht e rnd rng
    exact benchUnnoticed_of rd _ pFrog l (C54_most_shipped.2.2 F C rd hX l hl hK hL) (C85_params_fit.2.2.1 l.P (a3 l hl).1).2 (a3 l hl).2
      (by decide +kernel) (charGt_algebra (p := pFrog) (by decide +kernel)) t ht e rnd rng

section Examples

/-- Goldilocks, `κ = 22`, 1024 witness elements, `L = 4`, `K = 16`. -/
example {σ G F C : Type} [Field F] [Fintype F] [DecidableEq F] [CommRing C] [Algebra (ZMod pGoldilocks) F] [Algebra (ZMod pGoldilocks) C]
    (rd : RingData (ZMod pGoldilocks) F C 8 3) (hX : rd.X ^ 24 - rd.X ^ 12 + 1 = 0)
    (e : Fin 8 → F) (rnd : G → (Fin 8 → F) × G) (rng : G) :
    BenchUnnoticed σ rd (packedSet rd.coeff) ⟨22, 1024, ⟨65536, 4, 2, 16⟩⟩ .degreeThreeNonScalar e rnd rng :=
  C54_most_bench.1 F C rd hX _ (by decide +kernel) (by decide) (by decide) _ (by decide) e rnd rng

end Examples

end Verif.Props
