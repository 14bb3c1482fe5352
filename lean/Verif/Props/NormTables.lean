import Verif.Lemmas.NormFold
import Verif.Props.Invertible

/-!
# Expansion factors of the four rings, and challenges that attain them
-/

set_option linter.unusedSimpArgs false
set_option linter.unusedSectionVars false

namespace Verif.Props

open Finset Verif Verif.Spec Verif.NormGrowth Verif.Poseidon

section
variable {F C : Type} [Field F] [CommRing C]

/-- The sum of the first `n` values, evaluated by the kernel. -/
def sumN (f : ℕ → ℕ) : ℕ → ℕ
  | 0 => 0
  | n + 1 => sumN f n + f n

theorem sumN_eq (f : ℕ → ℕ) (n : ℕ) : sumN f n = ∑ i ∈ range n, f i := by
  induction n with
  | zero => rfl
  | succ n ih => rw [sumN, ih, Finset.sum_range_succ]

/-- `|redTri h m k|`. -/
def absTri (h m k : ℕ) : ℕ :=
  bif Nat.blt m (2 * h) then (bif Nat.beq k m then 1 else 0)
  else bif Nat.blt m (3 * h) then (bif Nat.beq (k + h) m then 1 else bif Nat.beq (k + 2 * h) m then 1 else 0)
  else bif Nat.beq (k + 3 * h) m then 1 else 0

theorem absTri_eq (h m k : ℕ) (hh : 0 < h) : |redTri h m k| = absTri h m k := by
  unfold redTri absTri
  simp only [cond_eq_ite, Nat.blt_eq, Nat.beq_eq]
  by_cases h1 : m < 2 * h
  · simp only [h1, if_true]
    by_cases h2 : k = m <;> simp [h2]
  · by_cases h3 : m < 3 * h
    · simp only [h1, h3, if_true, if_false]
      by_cases h4 : k + h = m
      · have : ¬ k + 2 * h = m := by omega
        simp [h4, this]
      · by_cases h5 : k + 2 * h = m <;> simp [h4, h5]
    · simp only [h1, h3, if_false]
      by_cases h4 : k + 3 * h = m <;> simp [h4]

/-- `Expands (redTri h) s D γ`, evaluated by the kernel. -/
def expTri (h s D γ : ℕ) : ℕ → Bool
  | 0 => true
  | k + 1 => Nat.ble (sumN (fun j => sumN (fun i => absTri h (j + i) k) D) s) γ && expTri h s D γ k

theorem expTri_sound {h s D γ : ℕ} (hh : 0 < h) (n : ℕ) (hc : expTri h s D γ n = true) :
    ∀ k < n, ∑ j ∈ range s, ∑ i ∈ range D, |redTri h (j + i) k| ≤ (γ : ℤ) := by
  induction n with
  | zero => intro k hk; omega
  | succ n ih =>
    simp only [expTri, Bool.and_eq_true, Nat.ble_eq, sumN_eq] at hc
    intro k hk
    rcases Nat.lt_succ_iff_lt_or_eq.1 hk with hk | rfl
    · exact ih hc.2 k hk
    · simp only [absTri_eq _ _ _ hh]
      exact_mod_cast hc.1

theorem exp_goldilocks : Expands (redTri 12) 24 24 36 := expTri_sound (by norm_num) 24 (by decide +kernel)
theorem exp_babybear : Expands (redTri 36) 24 72 47 := expTri_sound (by norm_num) 72 (by decide +kernel)
theorem exp_plus : Expands (redPlus 16) 16 16 16 := by unfold Expands; decide +kernel

theorem table_goldilocks [Algebra (ZMod pGoldilocks) F] [Algebra (ZMod pGoldilocks) C]
    (rd : RingData (ZMod pGoldilocks) F C 8 3) (hX : rd.X ^ 24 - rd.X ^ 12 + 1 = 0) :
    Table rd (redTri 12) 24 36 :=
  ⟨le_rfl, fun m hm => pow_redTri 12 m rd.X hX (by omega), exp_goldilocks⟩

theorem table_babybear [Algebra (ZMod pBabyBear) F] [Algebra (ZMod pBabyBear) C]
    (rd : RingData (ZMod pBabyBear) F C 8 9) (hX : rd.X ^ 72 - rd.X ^ 36 + 1 = 0) :
    Table rd (redTri 36) 24 47 :=
  ⟨by norm_num, fun m hm => pow_redTri 36 m rd.X hX (by omega), exp_babybear⟩

theorem table_frog [Algebra (ZMod pFrog) F] [Algebra (ZMod pFrog) C]
    (rd : RingData (ZMod pFrog) F C 4 4) (hX : rd.X ^ 16 + 1 = 0) : Table rd (redPlus 16) 16 16 :=
  ⟨le_rfl, fun m hm => pow_redPlus 16 m rd.X hX (by omega), exp_plus⟩

theorem table_stark [Algebra (ZMod pStark) F] [Algebra (ZMod pStark) C]
    (rd : RingData (ZMod pStark) F C 16 1) (hX : rd.X ^ 16 + 1 = 0) : Table rd (redPlus 16) 16 16 :=
  ⟨le_rfl, fun m hm => pow_redPlus 16 m rd.X hX (by omega), exp_plus⟩

theorem bounded_packed {p N τ : ℕ} [Fact p.Prime] [Algebra (ZMod p) F] [Algebra (ZMod p) C]
    (rd : RingData (ZMod p) F C N τ) : Bounded rd (packedSet rd.coeff) 24 32 := by
  intro bs c hl hd
  obtain ⟨x, hx, hv⟩ := C44_packed_value rd.coeff bs hl
  have : c = x := by
    have h1 : packedChallenge rd.coeff bs = .ok c := hd
    rw [hx] at h1
    exact (Except.ok.inj h1).symm
  subst this
  refine ⟨fun i => if i < 24 then ((bs.foldr (fun b acc => b.toNat + 256 * acc) 0 / 64 ^ i % 64 : ℕ) : ℤ) - 32 else 0,
    fun i => ?_, fun i hi _ => if_neg (by omega), fun i hi => ?_⟩
  · rw [hv i]
    by_cases h : (i : ℕ) < 24
    · simp only [h, if_true]
    · simp only [h, if_false, Int.cast_zero]
  · simp only [if_pos hi]
    have := Nat.mod_lt (bs.foldr (fun b acc => b.toNat + 256 * acc) 0 / 64 ^ i) (show 64 > 0 by norm_num)
    generalize bs.foldr (fun b acc => b.toNat + 256 * acc) 0 / 64 ^ i % 64 = t at *
    rw [abs_le]
    constructor <;> push_cast <;> omega

theorem bounded_frog {p : ℕ} [Fact p.Prime] [Algebra (ZMod p) F] [Algebra (ZMod p) C]
    (rd : RingData (ZMod p) F C 4 4) : Bounded rd (frogSet rd.coeff) 16 128 := by
  intro bs c hl hd
  obtain ⟨x, _, hx, _, hv⟩ := C45_values rd.coeff bs hl
  have : c = x := by
    have h1 : frogChallenge rd.coeff bs = .ok c := hd
    rw [hx] at h1
    exact (Except.ok.inj h1).symm
  subst this
  refine ⟨fun i => ((bs.getD i 0).toNat : ℤ) - 128, fun i => (hv i).1, fun i hi hi' => by omega, fun i hi => ?_⟩
  have := (bs.getD i 0).toNat_lt
  simp only
  rw [abs_le]
  constructor <;> push_cast <;> omega

theorem bounded_stark {p : ℕ} [Fact p.Prime] [Algebra (ZMod p) F] [Algebra (ZMod p) C]
    (rd : RingData (ZMod p) F C 16 1) : Bounded rd (starkSet rd.coeff) 16 255 := by
  intro bs c hl hd
  obtain ⟨_, x, _, hx, hv⟩ := C45_values rd.coeff bs hl
  have : c = x := by
    have h1 : starkChallenge rd.coeff bs = .ok c := hd
    rw [hx] at h1
    exact (Except.ok.inj h1).symm
  subst this
  refine ⟨fun i => ((bs.getD i 0).toNat : ℤ), fun i => (hv i).2, fun i hi hi' => by omega, fun i hi => ?_⟩
  have := (bs.getD i 0).toNat_lt
  simp only
  rw [abs_le]
  constructor <;> push_cast <;> omega

theorem zeros_val : (List.replicate 18 (0 : UInt8)).foldr (fun b acc => b.toNat + 256 * acc) 0 = 0 := by decide

/-- The challenge of 18 zero bytes: all 24 coefficients are `-32`. -/
noncomputable def attains_goldilocks [Algebra (ZMod pGoldilocks) F] [Algebra (ZMod pGoldilocks) C]
    (rd : RingData (ZMod pGoldilocks) F C 8 3) : Attains rd (packedSet rd.coeff) (redTri 12) 24 36 32 (-1) where
  sign := .inr rfl
  c := (C44_packed_value rd.coeff (List.replicate 18 0) rfl).choose
  mem := ⟨List.replicate 18 0, rfl, (C44_packed_value rd.coeff (List.replicate 18 0) rfl).choose_spec.1⟩
  coeff i := by
    rw [(C44_packed_value rd.coeff (List.replicate 18 0) rfl).choose_spec.2 i, zeros_val]
    split <;> simp
  pos := 12
  sum := by decide +kernel

noncomputable def attains_babybear [Algebra (ZMod pBabyBear) F] [Algebra (ZMod pBabyBear) C]
    (rd : RingData (ZMod pBabyBear) F C 8 9) : Attains rd (packedSet rd.coeff) (redTri 36) 24 47 32 (-1) where
  sign := .inr rfl
  c := (C44_packed_value rd.coeff (List.replicate 18 0) rfl).choose
  mem := ⟨List.replicate 18 0, rfl, (C44_packed_value rd.coeff (List.replicate 18 0) rfl).choose_spec.1⟩
  coeff i := by
    rw [(C44_packed_value rd.coeff (List.replicate 18 0) rfl).choose_spec.2 i, zeros_val]
    split <;> simp
  pos := 36
  sum := by decide +kernel

noncomputable def attains_frog [Algebra (ZMod pFrog) F] [Algebra (ZMod pFrog) C]
    (rd : RingData (ZMod pFrog) F C 4 4) : Attains rd (frogSet rd.coeff) (redPlus 16) 16 16 128 (-1) where
  sign := .inr rfl
  c := (C45_values rd.coeff (List.replicate 16 0) rfl).choose
  mem := ⟨List.replicate 16 0, rfl, (C45_values rd.coeff (List.replicate 16 0) rfl).choose_spec.choose_spec.1⟩
  coeff i := by
    rw [((C45_values rd.coeff (List.replicate 16 0) rfl).choose_spec.choose_spec.2.2 i).1, if_pos i.2]
    have : ((List.replicate 16 (0 : UInt8)).getD i 0) = 0 := by
      rw [List.getD_replicate _ i.2]
    rw [this]
    simp
  pos := 15
  sum := by decide +kernel

noncomputable def attains_stark [Algebra (ZMod pStark) F] [Algebra (ZMod pStark) C]
    (rd : RingData (ZMod pStark) F C 16 1) : Attains rd (starkSet rd.coeff) (redPlus 16) 16 16 255 1 where
  sign := .inl rfl
  c := (C45_values rd.coeff (List.replicate 16 255) rfl).choose_spec.choose
  mem := ⟨List.replicate 16 255, rfl, (C45_values rd.coeff (List.replicate 16 255) rfl).choose_spec.choose_spec.2.1⟩
  coeff i := by
    rw [((C45_values rd.coeff (List.replicate 16 255) rfl).choose_spec.choose_spec.2.2 i).2, if_pos i.2]
    have : ((List.replicate 16 (255 : UInt8)).getD i 0) = 255 := by
      rw [List.getD_replicate _ i.2]
    rw [this]
    simp
  pos := 15
  sum := by decide +kernel

end

end Verif.Props
