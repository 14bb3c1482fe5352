import Verif.Lemmas.FourRings
import Verif.Props.ExampleFour
import Verif.Props.ChallengeSet
import Verif.Props.PlusChallenge
import Verif.Model.Poseidon

/-!
# Property theorems for the invertibility of challenge differences: C83
-/

set_option linter.unusedSimpArgs false
set_option linter.unusedSectionVars false

namespace Verif.Props

open Finset Polynomial Verif Verif.SmallNorm Verif.Poseidon

section
variable {F C : Type} [Field F] [CommRing C]

/-- In every slot of the NTT form the two elements differ. -/
theorem slots_differ {p N τ : Nat} [Fact p.Prime] [Algebra (ZMod p) F] [Algebra (ZMod p) C]
    (rd : RingData (ZMod p) F C N τ) (c c' : C) (h : IsUnit (c - c')) (i : Fin N) : rd.crt c i ≠ rd.crt c' i := by
  intro he
  have h1 : IsUnit (rd.crt (c - c')) := h.map rd.crt
  have h2 := (h1.map (Pi.evalRingHom (fun _ : Fin N => F) i)).ne_zero
  rw [Pi.evalRingHom_apply, map_sub, Pi.sub_apply, he, sub_self] at h2
  exact h2 rfl

theorem dig_diff (u v : Nat) (hu : u < 64) (hv : v < 64) : |((u : ℤ) - 32) - ((v : ℤ) - 32)| ≤ 63 := by
  rw [abs_le]; omega

/-- **C83** (Goldilocks). Different byte strings decode to challenges whose difference is a unit; in
every slot of the NTT form the challenges differ. -/
theorem C83_goldilocks [Algebra (ZMod pGoldilocks) F] [Algebra (ZMod pGoldilocks) C]
    (rd : RingData (ZMod pGoldilocks) F C 8 3) (hX : rd.X ^ 24 - rd.X ^ 12 + 1 = 0)
    (bs bs' : List UInt8) (h : bs.length = 18) (h' : bs'.length = 18) (hne : bs ≠ bs') :
    ∃ c c', packedChallenge rd.coeff bs = .ok c ∧ packedChallenge rd.coeff bs' = .ok c' ∧
      IsUnit (c - c') ∧ ∀ i, rd.crt c i ≠ rd.crt c' i := by
  obtain ⟨c, hc, hv⟩ := C44_packed_value rd.coeff bs h
  obtain ⟨c', hc', hv'⟩ := C44_packed_value rd.coeff bs' h'
  have hcc : c ≠ c' := by
    rintro rfl
    exact hne (C44_packed_injective rd.coeff (by norm_num) pGoldilocks (by norm_num) bs bs' h h' (by rw [hc, hc']))
  have hu : IsUnit (c - c') := by
    refine isUnit_of_short_coeff goldilocksData 63 (by norm_num) rd.coeff rd.X rd.coeff_X
      (by rw [cyclo72]; simpa using hX) _ (sub_ne_zero.2 hcc) fun i => ?_
    refine ⟨_, dig_diff (bs.foldr (fun b acc => b.toNat + 256 * acc) 0 / 64 ^ (i : Nat) % 64)
      (bs'.foldr (fun b acc => b.toNat + 256 * acc) 0 / 64 ^ (i : Nat) % 64)
      (Nat.mod_lt _ (by norm_num)) (Nat.mod_lt _ (by norm_num)), ?_⟩
    rw [map_sub, Pi.sub_apply, hv, hv', if_pos (show (i : Nat) < 24 by omega), if_pos (show (i : Nat) < 24 by omega)]
    push_cast
    ring
  exact ⟨c, c', hc, hc', hu, slots_differ rd c c' hu⟩

/-- **C83** (BabyBear, the set the code draws from: coefficients 0..23). -/
theorem C83_babybear [Algebra (ZMod pBabyBear) F] [Algebra (ZMod pBabyBear) C]
    (rd : RingData (ZMod pBabyBear) F C 8 9) (hX : rd.X ^ 72 - rd.X ^ 36 + 1 = 0)
    (bs bs' : List UInt8) (h : bs.length = 18) (h' : bs'.length = 18) (hne : bs ≠ bs') :
    ∃ c c', packedChallenge rd.coeff bs = .ok c ∧ packedChallenge rd.coeff bs' = .ok c' ∧
      IsUnit (c - c') ∧ ∀ i, rd.crt c i ≠ rd.crt c' i := by
  obtain ⟨c, hc, hv⟩ := C44_packed_value rd.coeff bs h
  obtain ⟨c', hc', hv'⟩ := C44_packed_value rd.coeff bs' h'
  have hcc : c ≠ c' := by
    rintro rfl
    exact hne (C44_packed_injective rd.coeff (by norm_num) pBabyBear (by norm_num) bs bs' h h' (by rw [hc, hc']))
  have hu : IsUnit (c - c') := by
    set a : ℕ → ℤ := fun i => if i < 24 then
      (((bs.foldr (fun b acc => b.toNat + 256 * acc) 0 / 64 ^ i % 64 : Nat) : ℤ) - 32)
      - (((bs'.foldr (fun b acc => b.toNat + 256 * acc) 0 / 64 ^ i % 64 : Nat) : ℤ) - 32) else 0 with ha
    have hab : ∀ i, |a i| ≤ 63 := by
      intro i
      simp only [ha]
      split
      · exact dig_diff _ _ (Nat.mod_lt _ (by norm_num)) (Nat.mod_lt _ (by norm_num))
      · norm_num
    have hav : ∀ i : Fin (9 * 8), rd.coeff (c - c') i = (a i : ZMod pBabyBear) := by
      intro i
      rw [map_sub, Pi.sub_apply, hv, hv']
      simp only [ha]
      split <;> simp
    have hsum := eq_sum_int rd.coeff rd.X rd.coeff_X (c - c') (fun i => (a i : ZMod pBabyBear)) hav
    have hsplit : c - c' = ∑ j ∈ range 9, ∑ i ∈ range 8,
        algebraMap (ZMod pBabyBear) C (a (i * 9 + j)) * rd.X ^ (i * 9 + j) := by
      rw [hsum, sum_comm]
      exact sum_range_mul_eq 8 9 _
    rw [hsplit]
    refine isUnit_of_slots (k := 24) (n := 216) (by norm_num) (by norm_num) babybearData.coprime babybearData.order _
      babybear_root (babybearData.exp _) rd.X (by rw [cyclo216]; simpa using hX)
      (fun i => (a i : ZMod pBabyBear)) fun ζ hζ => ?_
    obtain ⟨i, hi, hai⟩ : ∃ i < 24, a i ≠ 0 := by
      by_contra hall
      push Not at hall
      apply sub_ne_zero.2 hcc
      rw [hsum]
      refine sum_eq_zero fun i hi => ?_
      by_cases h24 : i < 24
      · rw [hall i h24]; simp
      · simp only [ha, if_neg h24]; simp
    have hbig : ∀ i, ¬ i < 24 → a i = 0 := fun i hi => by simp only [ha, if_neg hi]
    refine ⟨i % 9, Nat.mod_lt _ (by norm_num), fun h0 => ?_⟩
    have h3 : ∑ l ∈ range 8, ((a (l * 9 + i % 9) : ℤ) : ZMod pBabyBear) * ζ ^ l
        = a (i % 9) + a (9 + i % 9) * ζ + a (18 + i % 9) * ζ ^ 2 := by
      rw [sum_range_succ, sum_range_succ, sum_range_succ, sum_range_succ, sum_range_succ, sum_range_succ,
        sum_range_succ, sum_range_succ, hbig (3 * 9 + i % 9) (by omega), hbig (4 * 9 + i % 9) (by omega),
        hbig (5 * 9 + i % 9) (by omega), hbig (6 * 9 + i % 9) (by omega), hbig (7 * 9 + i % 9) (by omega)]
      simp
    rw [h3] at h0
    obtain ⟨e0, e1, e2⟩ := bb_no_relation ζ hζ _ _ _ (hab _) (hab _) (hab _) h0
    have hi3 : i = i % 9 ∨ i = 9 + i % 9 ∨ i = 18 + i % 9 := by omega
    rcases hi3 with h | h | h
    · rw [h] at hai; exact hai e0
    · rw [h] at hai; exact hai e1
    · rw [h] at hai; exact hai e2
  exact ⟨c, c', hc, hc', hu, slots_differ rd c c' hu⟩

theorem bytes_ne {bs bs' : List UInt8} (h : bs.length = 16) (h' : bs'.length = 16) (hne : bs ≠ bs') :
    ∃ i : Fin 16, (bs.getD i 0).toNat ≠ (bs'.getD i 0).toNat := by
  by_contra hall
  push Not at hall
  apply hne
  apply List.ext_getElem (by rw [h, h'])
  intro i hi hi'
  have := hall ⟨i, by omega⟩
  simp only [List.getD_eq_getElem?_getD, hi, hi', List.getElem?_eq_getElem, Option.getD_some] at this
  exact UInt8.toNat_inj.1 this

theorem byte_diff (u v : UInt8) : |(u.toNat : ℤ) - v.toNat| ≤ 255 := by
  have := u.toNat_lt
  have := v.toNat_lt
  rw [abs_le]; omega

/-- Two bytes with the same image modulo `p` are equal. -/
theorem byte_cast_ne {p : Nat} (hp : 256 ≤ p) {u v : Nat} (hu : u < 256) (hv : v < 256)
    (h : ((u : ℤ) : ZMod p) = ((v : ℤ) : ZMod p)) : u = v := by
  push_cast at h
  rw [ZMod.natCast_eq_natCast_iff'] at h
  rwa [Nat.mod_eq_of_lt (by omega), Nat.mod_eq_of_lt (by omega)] at h

/-- **C83** (Frog). -/
theorem C83_frog [Algebra (ZMod pFrog) F] [Algebra (ZMod pFrog) C]
    (rd : RingData (ZMod pFrog) F C 4 4) (hX : rd.X ^ 16 + 1 = 0)
    (bs bs' : List UInt8) (h : bs.length = 16) (h' : bs'.length = 16) (hne : bs ≠ bs') :
    ∃ c c', frogChallenge rd.coeff bs = .ok c ∧ frogChallenge rd.coeff bs' = .ok c' ∧
      IsUnit (c - c') ∧ ∀ i, rd.crt c i ≠ rd.crt c' i := by
  obtain ⟨c, _, hc, _, hv⟩ := C45_values rd.coeff bs h
  obtain ⟨c', _, hc', _, hv'⟩ := C45_values rd.coeff bs' h'
  obtain ⟨i, hi⟩ := bytes_ne h h' hne
  have hcc : c ≠ c' := by
    rintro rfl
    have h1 := (hv i).1
    rw [(hv' i).1] at h1
    push_cast at h1
    apply hi
    refine byte_cast_ne (p := pFrog) (by norm_num) (UInt8.toNat_lt _) (UInt8.toNat_lt _) ?_
    push_cast
    linear_combination -h1
  have hu : IsUnit (c - c') := by
    refine isUnit_of_short_coeff frogData 255 (by norm_num) rd.coeff rd.X rd.coeff_X
      (by rw [cyclo32]; simpa using hX) _ (sub_ne_zero.2 hcc) fun i => ?_
    refine ⟨_, byte_diff (bs.getD i 0) (bs'.getD i 0), ?_⟩
    rw [map_sub, Pi.sub_apply, (hv i).1, (hv' i).1]
    push_cast
    ring
  exact ⟨c, c', hc, hc', hu, slots_differ rd c c' hu⟩

/-- **C83** (Stark). -/
theorem C83_stark [Algebra (ZMod pStark) F] [Algebra (ZMod pStark) C]
    (rd : RingData (ZMod pStark) F C 16 1) (hX : rd.X ^ 16 + 1 = 0)
    (bs bs' : List UInt8) (h : bs.length = 16) (h' : bs'.length = 16) (hne : bs ≠ bs') :
    ∃ c c', starkChallenge rd.coeff bs = .ok c ∧ starkChallenge rd.coeff bs' = .ok c' ∧
      IsUnit (c - c') ∧ ∀ i, rd.crt c i ≠ rd.crt c' i := by
  obtain ⟨_, c, _, hc, hv⟩ := C45_values rd.coeff bs h
  obtain ⟨_, c', _, hc', hv'⟩ := C45_values rd.coeff bs' h'
  obtain ⟨i, hi⟩ := bytes_ne h h' hne
  have hcc : c ≠ c' := by
    rintro rfl
    have h1 := (hv i).2
    rw [(hv' i).2] at h1
    exact hi (byte_cast_ne (p := pStark) (by norm_num) (UInt8.toNat_lt _) (UInt8.toNat_lt _) h1.symm)
  have hu : IsUnit (c - c') := by
    refine isUnit_of_short_coeff starkData 255 (by norm_num) rd.coeff rd.X rd.coeff_X
      (by rw [cyclo32]; simpa using hX) _ (sub_ne_zero.2 hcc) fun i => ?_
    refine ⟨_, byte_diff (bs.getD i 0) (bs'.getD i 0), ?_⟩
    rw [map_sub, Pi.sub_apply, (hv i).2, (hv' i).2]
    push_cast
    ring
  exact ⟨c, c', hc, hc', hu, slots_differ rd c c' hu⟩

/-- **C83** is false of the set documented for BabyBear (`babybear.rs`: all 72 coefficients in
`[-32, 32)`): it contains an element which is not zero, not a unit, and whose coefficients have
absolute value at most 11. -/
theorem C83_babybear_documented_fails [Algebra (ZMod pBabyBear) F] [Algebra (ZMod pBabyBear) C]
    (rd : RingData (ZMod pBabyBear) F C 8 9) (hX : rd.X ^ 72 - rd.X ^ 36 + 1 = 0) :
    ∃ c c' : C, c ≠ c' ∧ (∀ i, InRange (-32) 32 (rd.coeff c i)) ∧ (∀ i, InRange (-32) 32 (rd.coeff c' i)) ∧
      ¬ IsUnit (c - c') := by
  have hp : (2013265921 : C) = 0 := by
    have := congrArg (algebraMap (ZMod pBabyBear) C) (ZMod.natCast_self pBabyBear)
    rw [map_natCast, map_zero] at this
    exact_mod_cast this
  set Y := rd.X ^ 9 with hY
  have hΦ : Y ^ 8 - Y ^ 4 + 1 = 0 := by rw [hY, ← hX]; ring
  set y : C := -5 + 11 * Y ^ 2 + 7 * Y ^ 3 + 2 * Y ^ 4 + 5 * Y ^ 6 with hy
  set g : C := 715314264 - 945541905 * Y + 420899707 * Y ^ 2 - 698542798 * Y ^ 3 - 211723194 * Y ^ 4
    - 782862608 * Y ^ 5 - 615244676 * Y ^ 6 + Y ^ 7 with hg
  have hyg : y * g = 0 := by
    rw [hy, hg]
    linear_combination (-13642900925 - 9365151922 * Y - 2289105315 * Y ^ 2 - 3914313038 * Y ^ 3
      - 3076223380 * Y ^ 4 + 5 * Y ^ 5) * hΦ
      + (5 + 7 * Y + 4 * Y ^ 2 + Y ^ 3 - 5 * Y ^ 4 - 6 * Y ^ 5 - Y ^ 6 - 10 * Y ^ 7) * hp
  -- coefficients of combinations of powers of `Y`
  have hcY : ∀ l : Nat, l < 8 → ∀ i : Fin (9 * 8), rd.coeff (Y ^ l) i = if (i : Nat) = 9 * l then 1 else 0 := by
    intro l hl i
    rw [hY, ← pow_mul]
    have := rd.coeff_X ⟨9 * l, by omega⟩
    simp only at this
    rw [this, Pi.single_apply]
    simp only [Fin.ext_iff]
  have hcZ : ∀ (z : ℤ) (l : Nat), l < 8 → ∀ i : Fin (9 * 8), rd.coeff ((z : C) * Y ^ l) i
      = ((if (i : Nat) = 9 * l then z else 0 : ℤ) : ZMod pBabyBear) := by
    intro z l hl i
    have : (z : C) * Y ^ l = (z : ZMod pBabyBear) • Y ^ l := by
      rw [Algebra.smul_def]; simp
    rw [this, map_smul, Pi.smul_apply, hcY l hl i]
    split <;> simp
  have hy' : y = ((-5 : ℤ) : C) * Y ^ 0 + ((11 : ℤ) : C) * Y ^ 2 + ((7 : ℤ) : C) * Y ^ 3 + ((2 : ℤ) : C) * Y ^ 4
      + ((5 : ℤ) : C) * Y ^ 6 := by rw [hy]; push_cast; ring
  have hyc : ∀ i : Fin (9 * 8), rd.coeff y i = (((if (i : Nat) = 9 * 0 then -5 else 0)
      + (if (i : Nat) = 9 * 2 then 11 else 0) + (if (i : Nat) = 9 * 3 then 7 else 0)
      + (if (i : Nat) = 9 * 4 then 2 else 0) + (if (i : Nat) = 9 * 6 then 5 else 0) : ℤ) : ZMod pBabyBear) := by
    intro i
    rw [hy']
    simp only [map_add, Pi.add_apply]
    rw [hcZ _ 0 (by norm_num), hcZ _ 2 (by norm_num), hcZ _ 3 (by norm_num), hcZ _ 4 (by norm_num),
      hcZ _ 6 (by norm_num)]
    push_cast
    rfl
  have hg0 : g ≠ 0 := by
    intro h0
    have h1 := congrFun (congrArg rd.coeff h0) ⟨63, by norm_num⟩
    have hg' : g = ((715314264 : ℤ) : C) * Y ^ 0 + ((-945541905 : ℤ) : C) * Y ^ 1 + ((420899707 : ℤ) : C) * Y ^ 2
        + ((-698542798 : ℤ) : C) * Y ^ 3 + ((-211723194 : ℤ) : C) * Y ^ 4 + ((-782862608 : ℤ) : C) * Y ^ 5
        + ((-615244676 : ℤ) : C) * Y ^ 6 + ((1 : ℤ) : C) * Y ^ 7 := by rw [hg]; push_cast; ring
    rw [hg'] at h1
    simp only [map_add, Pi.add_apply, map_zero, Pi.zero_apply] at h1
    rw [hcZ _ 0 (by norm_num), hcZ _ 1 (by norm_num), hcZ _ 2 (by norm_num), hcZ _ 3 (by norm_num),
      hcZ _ 4 (by norm_num), hcZ _ 5 (by norm_num), hcZ _ 6 (by norm_num), hcZ _ 7 (by norm_num)] at h1
    norm_num at h1
  refine ⟨y, 0, ?_, fun i => ?_, fun i => ⟨0, by norm_num, by norm_num, by simp⟩, ?_⟩
  · intro h0
    have h1 := congrFun (congrArg rd.coeff h0) ⟨0, by norm_num⟩
    rw [hyc] at h1
    norm_num at h1
    revert h1
    decide +kernel
  · refine ⟨_, ?_, ?_, hyc i⟩
    · split_ifs <;> norm_num
    · split_ifs <;> norm_num
  · rw [sub_zero]
    intro hu
    exact hg0 ((hu.mul_right_eq_zero).1 hyg)

end

/-! ## The challenges of `latticefold-plus` -/

section
variable {R : Type} [CommRing R]

/-- Difference of two coefficients drawn by `short_challenge`. -/
theorem plus_diff {p d B : Nat} [Fact p.Prime] [Algebra (ZMod p) R] (pr : PlusRing (ZMod p) R d) (hd : 3 ≤ d)
    (hB : 2 ^ (128 / d) ≤ B + 1) (v v' : Fin d → Fin 256) (x x' : R) (hx : challengeFrom pr v = .ok x)
    (hx' : challengeFrom pr v' = .ok x') (i : Fin d) : ∃ z : ℤ, |z| ≤ B ∧ pr.coeff (x - x') i = (z : ZMod p) := by
  have h1 := (challengeFrom_eq pr hd v x).1 hx i
  have h2 := (challengeFrom_eq pr hd v' x').1 hx' i
  have l1 : (v i : Nat) % 2 ^ (128 / d) < 2 ^ (128 / d) := Nat.mod_lt _ (by positivity)
  have l2 : (v' i : Nat) % 2 ^ (128 / d) < 2 ^ (128 / d) := Nat.mod_lt _ (by positivity)
  generalize (v i : Nat) % 2 ^ (128 / d) = a at h1 l1
  generalize (v' i : Nat) % 2 ^ (128 / d) = b at h2 l2
  refine ⟨(a : ℤ) - (b : ℤ), ?_, ?_⟩
  · rw [abs_le]; omega
  · rw [map_sub, Pi.sub_apply, h1, h2]
    push_cast
    ring

/-- **C83** (latticefold-plus). Over each of the four rings different challenges drawn by `short_challenge`
have an invertible difference. -/
theorem C83_plus_goldilocks [Algebra (ZMod pGoldilocks) R] (pr : PlusRing (ZMod pGoldilocks) R 24)
    (hX : pr.X ^ 24 - pr.X ^ 12 + 1 = 0) (v v' : Fin 24 → Fin 256) (x x' : R)
    (hx : challengeFrom pr v = .ok x) (hx' : challengeFrom pr v' = .ok x') (hne : x ≠ x') : IsUnit (x - x') :=
  isUnit_of_short_coeff goldilocksData 31 (by norm_num) pr.coeff pr.X pr.coeff_X
    (by rw [cyclo72]; simpa using hX) _ (sub_ne_zero.2 hne) (plus_diff pr (by norm_num) (by norm_num) v v' x x' hx hx')

theorem C83_plus_babybear [Algebra (ZMod pBabyBear) R] (pr : PlusRing (ZMod pBabyBear) R 72)
    (hX : pr.X ^ 72 - pr.X ^ 36 + 1 = 0) (v v' : Fin 72 → Fin 256) (x x' : R)
    (hx : challengeFrom pr v = .ok x) (hx' : challengeFrom pr v' = .ok x') (hne : x ≠ x') : IsUnit (x - x') :=
  isUnit_of_short_coeff babybearData 1 (by norm_num) pr.coeff pr.X pr.coeff_X
    (by rw [cyclo216]; simpa using hX) _ (sub_ne_zero.2 hne) (plus_diff pr (by norm_num) (by norm_num) v v' x x' hx hx')

theorem C83_plus_frog [Algebra (ZMod pFrog) R] (pr : PlusRing (ZMod pFrog) R 16)
    (hX : pr.X ^ 16 + 1 = 0) (v v' : Fin 16 → Fin 256) (x x' : R)
    (hx : challengeFrom pr v = .ok x) (hx' : challengeFrom pr v' = .ok x') (hne : x ≠ x') : IsUnit (x - x') :=
  isUnit_of_short_coeff frogData 255 (by norm_num) pr.coeff pr.X pr.coeff_X
    (by rw [cyclo32]; simpa using hX) _ (sub_ne_zero.2 hne) (plus_diff pr (by norm_num) (by norm_num) v v' x x' hx hx')

theorem C83_plus_stark [Algebra (ZMod pStark) R] (pr : PlusRing (ZMod pStark) R 16)
    (hX : pr.X ^ 16 + 1 = 0) (v v' : Fin 16 → Fin 256) (x x' : R)
    (hx : challengeFrom pr v = .ok x) (hx' : challengeFrom pr v' = .ok x') (hne : x ≠ x') : IsUnit (x - x') :=
  isUnit_of_short_coeff starkData 255 (by norm_num) pr.coeff pr.X pr.coeff_X
    (by rw [cyclo32]; simpa using hX) _ (sub_ne_zero.2 hne) (plus_diff pr (by norm_num) (by norm_num) v v' x x' hx hx')

end

/-! ## Examples -/

theorem rq_goldilocks_X : (Example.ringRq goldilocksData (by norm_num)).X ^ 24
    - (Example.ringRq goldilocksData (by norm_num)).X ^ 12 + 1 = 0 := by
  have key : ∀ {A : Type} [CommRing A] [Algebra (ZMod pGoldilocks) A] (x : A),
      aeval x (cyclotomic 72 (ZMod pGoldilocks)) = x ^ 24 - x ^ 12 + 1 := by
    intro A _ _ x
    rw [cyclo72]; simp
  exact (key _).symm.trans (Example.root_rq pGoldilocks 72)

theorem rq_babybear_X : (Example.ringRq babybearData (by norm_num)).X ^ 72
    - (Example.ringRq babybearData (by norm_num)).X ^ 36 + 1 = 0 := by
  have key : ∀ {A : Type} [CommRing A] [Algebra (ZMod pBabyBear) A] (x : A),
      aeval x (cyclotomic 216 (ZMod pBabyBear)) = x ^ 72 - x ^ 36 + 1 := by
    intro A _ _ x
    rw [cyclo216]; simp
  exact (key _).symm.trans (Example.root_rq pBabyBear 216)

theorem aeval32 {p : Nat} {A : Type} [CommRing A] [Algebra (ZMod p) A] (x : A) :
    aeval x (cyclotomic 32 (ZMod p)) = x ^ 16 + 1 := by
  rw [cyclo32]; simp

theorem rq_frog_X : (Example.ringRq frogData (by norm_num)).X ^ 16 + 1 = 0 :=
  (aeval32 _).symm.trans (Example.root_rq pFrog 32)

theorem rq_stark_X : (Example.ringRq starkData (by norm_num)).X ^ 16 + 1 = 0 :=
  (aeval32 _).symm.trans (Example.root_rq pStark 32)

example : ∃ c c', packedChallenge (Example.ringRq goldilocksData (by norm_num)).coeff (List.replicate 18 0) = .ok c ∧
    packedChallenge (Example.ringRq goldilocksData (by norm_num)).coeff (List.replicate 18 255) = .ok c' ∧ IsUnit (c - c') := by
  obtain ⟨c, c', h1, h2, h3, -⟩ := C83_goldilocks _ rq_goldilocks_X (List.replicate 18 0) (List.replicate 18 255)
    rfl rfl (by decide)
  exact ⟨c, c', h1, h2, h3⟩

example : ∃ c c', packedChallenge (Example.ringRq babybearData (by norm_num)).coeff (List.replicate 18 1) = .ok c ∧
    packedChallenge (Example.ringRq babybearData (by norm_num)).coeff (List.replicate 18 7) = .ok c' ∧ IsUnit (c - c') := by
  obtain ⟨c, c', h1, h2, h3, -⟩ := C83_babybear _ rq_babybear_X (List.replicate 18 1) (List.replicate 18 7)
    rfl rfl (by decide)
  exact ⟨c, c', h1, h2, h3⟩

example : ∃ c c', frogChallenge (Example.ringRq frogData (by norm_num)).coeff (List.replicate 16 1) = .ok c ∧
    frogChallenge (Example.ringRq frogData (by norm_num)).coeff (List.replicate 16 7) = .ok c' ∧ IsUnit (c - c') := by
  obtain ⟨c, c', h1, h2, h3, -⟩ := C83_frog _ rq_frog_X (List.replicate 16 1) (List.replicate 16 7) rfl rfl (by decide)
  exact ⟨c, c', h1, h2, h3⟩

example : ∃ c c', starkChallenge (Example.ringRq starkData (by norm_num)).coeff (List.replicate 16 1) = .ok c ∧
    starkChallenge (Example.ringRq starkData (by norm_num)).coeff (List.replicate 16 7) = .ok c' ∧ IsUnit (c - c') := by
  obtain ⟨c, c', h1, h2, h3, -⟩ := C83_stark _ rq_stark_X (List.replicate 16 1) (List.replicate 16 7) rfl rfl (by decide)
  exact ⟨c, c', h1, h2, h3⟩

example : ∃ c c' : Example.Rq pBabyBear 216, c ≠ c' ∧ ¬ IsUnit (c - c') := by
  obtain ⟨c, c', h1, -, -, h2⟩ := C83_babybear_documented_fails _ rq_babybear_X
  exact ⟨c, c', h1, h2⟩

/-- Frog in `latticefold-plus`: the challenges of all-zero and all-one bytes. -/
example (x x' : Example.Cyclo pFrog 16)
    (hx : challengeFrom (Example.cyclo pFrog 16 (by norm_num)) (fun _ => 0) = .ok x)
    (hx' : challengeFrom (Example.cyclo pFrog 16 (by norm_num)) (fun _ => 1) = .ok x') (hne : x ≠ x') : IsUnit (x - x') :=
  C83_plus_frog _ (by
    have := Example.rootC_pow pFrog 16
    change Example.rootC pFrog 16 ^ 16 + 1 = 0
    rw [this]; ring) _ _ x x' hx hx' hne

end Verif.Props
