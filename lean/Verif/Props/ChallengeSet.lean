import Verif.Lemmas.ChallengeSet
import Mathlib.Data.ZMod.Basic
import Mathlib.Algebra.Field.ZMod

/-!
# Property theorems for the short challenge sets: C44, C45
-/

set_option linter.unusedSimpArgs false

namespace Verif.Props

open Verif

variable {Fp C : Type} [Field Fp] [AddCommGroup C] [Module Fp C] {D : Nat}

/-- `v` is the image of an integer in `[lo, hi)`. -/
def InRange (lo hi : ℤ) (v : Fp) : Prop := ∃ n : ℤ, lo ≤ n ∧ n < hi ∧ v = (n : Fp)

/-! ## C44 -/

/-- **C44** (value). From 18 bytes the decoder returns the element whose coefficient `i < 24` is the `i`-th
base-64 digit of the little-endian value of the bytes, minus 32, and whose other coefficients vanish. -/
theorem C44_packed_value (coeff : C ≃ₗ[Fp] (Fin D → Fp)) (bs : List UInt8) (h : bs.length = 18) :
    ∃ x, packedChallenge coeff bs = .ok x ∧ ∀ i : Fin D, coeff x i
      = if (i : Nat) < 24 then
          ((((bs.foldr (fun b acc => b.toNat + 256 * acc) 0 / 64 ^ (i : Nat) % 64 : Nat) : ℤ) - 32 : ℤ) : Fp)
        else 0 := by
  refine ⟨polyFrom coeff (packRec 6 bs), ?_, fun i => ?_⟩
  · unfold packedChallenge
    rw [packedCoeffs_ok bs h]
    rfl
  · unfold polyFrom
    rw [LinearEquiv.apply_symm_apply, packRec_eq 6 bs h, List.getD_eq_getElem?_getD, List.getElem?_map]
    by_cases hi : (i : Nat) < 24
    · rw [if_pos hi, List.getElem?_range (by omega)]
      simp only [Option.map_some, Option.getD_some]
      rfl
    · rw [if_neg hi, List.getElem?_eq_none (by simp; omega)]
      simp

/-- **C44** (length). Any other number of bytes, fewer or more, is rejected with `TooFewBytes`. -/
theorem C44_packed_length (coeff : C ≃ₗ[Fp] (Fin D → Fp)) (bs : List UInt8) (h : bs.length ≠ 18) :
    packedChallenge coeff bs = .error (.tooFewBytes bs.length 18) := by
  unfold packedChallenge packedCoeffs
  rw [if_pos h]
  rfl

/-- **C44** (image and injectivity, any degree at least 24). The decoder is a bijection from 18-byte strings
to the elements whose first 24 coefficients lie in `[-32, 32)` and whose other coefficients vanish. -/
theorem C44_packed_image (coeff : C ≃ₗ[Fp] (Fin D → Fp)) (hD : 24 ≤ D) (x : C) :
    (∃ bs, bs.length = 18 ∧ packedChallenge coeff bs = .ok x) ↔
      (∀ i : Fin D, if (i : Nat) < 24 then InRange (-32) 32 (coeff x i) else coeff x i = 0) := by
  constructor
  · rintro ⟨bs, h, hx⟩ i
    obtain ⟨y, hy, hv⟩ := C44_packed_value coeff bs h
    rw [hx] at hy
    injection hy with hy
    subst hy
    rw [hv i]
    split
    · exact ⟨_, by omega, by omega, rfl⟩
    · rfl
  · intro h
    have hn : ∀ i : Nat, ∃ d : Nat, d < 64 ∧ ∀ hi : i < 24, coeff x ⟨i, by omega⟩ = ((d : ℤ) - 32 : ℤ) := by
      intro i
      by_cases hi : i < 24
      · have := h ⟨i, by omega⟩
        rw [if_pos hi] at this
        obtain ⟨n, h1, h2, h3⟩ := this
        refine ⟨(n + 32).toNat, by omega, fun _ => ?_⟩
        rw [h3]
        congr 1
        omega
      · exact ⟨0, by omega, fun hi' => absurd hi' hi⟩
    choose d hd1 hd2 using hn
    obtain ⟨bs, hb1, hb2⟩ := leVal_surj 18 (digVal d 24) (by
      have := digVal_lt d 24 fun i _ => hd1 i
      have e : (64 : Nat) ^ 24 = 256 ^ 18 := by norm_num
      omega)
    refine ⟨bs, hb1, ?_⟩
    obtain ⟨y, hy, hv⟩ := C44_packed_value coeff bs hb1
    rw [hy]
    congr 1
    apply coeff.injective
    funext i
    rw [hv i]
    by_cases hi : (i : Nat) < 24
    · rw [if_pos hi, hd2 i hi]
      change ((((leVal bs / 64 ^ (i : Nat) % 64 : Nat) : ℤ) - 32 : ℤ) : Fp) = _
      rw [hb2, digVal_digit d 24 (fun i _ => hd1 i) i hi]
    · rw [if_neg hi]
      have := h i
      rw [if_neg hi] at this
      exact this.symm

/-- **C44** (injectivity). Different byte strings give different challenges. -/
theorem C44_packed_injective (coeff : C ≃ₗ[Fp] (Fin D → Fp)) (hD : 24 ≤ D) (p : Nat) [CharP Fp p]
    (hp : 64 ≤ p) (bs bs' : List UInt8) (h : bs.length = 18) (h' : bs'.length = 18)
    (he : packedChallenge coeff bs = packedChallenge coeff bs') : bs = bs' := by
  obtain ⟨x, hx, hv⟩ := C44_packed_value coeff bs h
  obtain ⟨x', hx', hv'⟩ := C44_packed_value coeff bs' h'
  rw [hx, hx'] at he
  injection he with he
  subst he
  apply leVal_inj (by omega)
  have e : (64 : Nat) ^ 24 = 256 ^ 18 := by norm_num
  have l1 := leVal_lt bs
  have l2 := leVal_lt bs'
  rw [h] at l1
  rw [h'] at l2
  apply digits_inj (n := 24) (by omega) (by omega)
  intro i hi
  have e1 := hv ⟨i, by omega⟩
  have e2 := hv' ⟨i, by omega⟩
  simp only [hi, if_true] at e1 e2
  rw [e1] at e2
  have := cast_small_inj (p := p) e2 (by omega)
  change leVal bs / 64 ^ i % 64 = leVal bs' / 64 ^ i % 64
  have h3 : ((leVal bs / 64 ^ i % 64 : Nat) : ℤ) - 32 = ((leVal bs' / 64 ^ i % 64 : Nat) : ℤ) - 32 := this
  omega

/-- **C48** (Goldilocks, degree 24). The challenge set is exactly the set of ring elements with all
coefficients in `[-32, 32)`, each produced by exactly one 18-byte string. -/
theorem C48_goldilocks_bijective (coeff : C ≃ₗ[Fp] (Fin 24 → Fp)) (p : Nat) [CharP Fp p] (hp : 64 ≤ p)
    (x : C) : (∀ i, InRange (-32) 32 (coeff x i)) ↔
      ∃! bs : List UInt8, bs.length = 18 ∧ packedChallenge coeff bs = .ok x := by
  have hi := C44_packed_image coeff (le_refl 24) x
  constructor
  · intro h
    obtain ⟨bs, h1, h2⟩ := hi.2 fun i => by rw [if_pos i.2]; exact h i
    refine ⟨bs, ⟨h1, h2⟩, ?_⟩
    rintro bs' ⟨h1', h2'⟩
    exact C44_packed_injective coeff (le_refl 24) p hp _ _ h1' h1 (by rw [h2, h2'])
  · rintro ⟨bs, h, _⟩ i
    have := hi.1 ⟨bs, h⟩ i
    rwa [if_pos i.2] at this

/-- **C48** (BabyBear, degree 72: the documented claim is false). The comment in `babybear.rs:34-35` says the
challenge set is the set of all ring elements with coefficients in `[-32, 32)`. The decoder never sets
coefficients 24 to 71: `X^24` is such an element and no byte string produces it. -/
theorem C48_babybear_not_all (coeff : C ≃ₗ[Fp] (Fin 72 → Fp)) :
    ∃ x, (∀ i, InRange (-32) 32 (coeff x i)) ∧ ∀ bs, packedChallenge coeff bs ≠ .ok x := by
  refine ⟨coeff.symm (Pi.single 24 1), fun i => ?_, fun bs h => ?_⟩
  · rw [LinearEquiv.apply_symm_apply]
    by_cases hi : i = 24
    · subst hi
      exact ⟨1, by omega, by omega, by simp⟩
    · exact ⟨0, by omega, by omega, by simp [Pi.single_apply, hi]⟩
  · by_cases hl : bs.length = 18
    · obtain ⟨y, hy, hv⟩ := C44_packed_value coeff bs hl
      rw [h] at hy
      injection hy with hy
      subst hy
      have := hv 24
      rw [LinearEquiv.apply_symm_apply] at this
      simp at this
    · rw [C44_packed_length coeff bs hl] at h
      exact absurd h (by simp)

/-- The test vector of `goldilocks.rs`, coefficients 0 to 4. -/
example : (packedCoeffs [0x7b, 0x4b, 0xe5, 0x8e, 0xe5, 0x11, 0xd2, 0xd0, 0x9c, 0x22, 0xba, 0x2e, 0xeb, 0xa8,
    0xba, 0x35, 0xf2, 0x18]).map (·.take 5) = .ok [27, 13, -12, 25, -18] := by decide +kernel

instance : Fact (Nat.Prime 257) := ⟨by decide +kernel⟩

/-- A degree-24 instance over `F_257`. -/
example : ∃! bs : List UInt8, bs.length = 18 ∧
    packedChallenge (LinearEquiv.refl (ZMod 257) (Fin 24 → ZMod 257)) bs = .ok (fun i => ((i : ℕ) : ZMod 257)) :=
  (C48_goldilocks_bijective _ 257 (by omega) _).1 fun i => ⟨i, by omega, by omega, by simp⟩

/-! ## C45 -/

theorem bytes_map_surj (lo : ℤ) (d : Nat → ℤ) (h : ∀ i < 16, lo ≤ d i ∧ d i < lo + 256) :
    ∃ bs : List UInt8, bs.length = 16 ∧ ∀ i < 16,
      (bs.map fun x => (x.toNat : ℤ) + lo).getD i 0 = d i := by
  refine ⟨(List.range 16).map fun i => UInt8.ofNat (d i - lo).toNat, by simp, fun i hi => ?_⟩
  have := h i hi
  rw [List.getD_eq_getElem?_getD, List.getElem?_map, List.getElem?_map, List.getElem?_range hi]
  simp only [Option.map_some, Option.getD_some]
  have e : (UInt8.ofNat (d i - lo).toNat).toNat = (d i - lo).toNat := by
    rw [UInt8.toNat_ofNat']
    omega
  rw [e]
  omega

theorem byteChallenge_bij (coeff : C ≃ₗ[Fp] (Fin 16 → Fp)) (p : Nat) [CharP Fp p] (hp : 256 ≤ p) (lo : ℤ)
    (x : C) : (∀ i, InRange lo (lo + 256) (coeff x i)) ↔ ∃! bs : List UInt8, bs.length = 16 ∧
      polyFrom coeff (bs.map fun b => (b.toNat : ℤ) + lo) = x := by
  have hget : ∀ (bs : List UInt8) (hb : bs.length = 16) (i : Fin 16),
      coeff (polyFrom coeff (bs.map fun b => (b.toNat : ℤ) + lo)) i
        = ((((bs[i]'(by rw [hb]; exact i.2)).toNat : ℤ) + lo : ℤ) : Fp) := by
    intro bs hb i
    have hi : (i : Nat) < bs.length := by rw [hb]; exact i.2
    unfold polyFrom
    rw [LinearEquiv.apply_symm_apply, List.getD_eq_getElem?_getD, List.getElem?_map,
      List.getElem?_eq_getElem hi]
    rfl
  constructor
  · intro h
    have hn : ∀ i : Nat, ∃ d : ℤ, ∀ hi : i < 16, lo ≤ d ∧ d < lo + 256 ∧ coeff x ⟨i, hi⟩ = (d : Fp) := by
      intro i
      by_cases hi : i < 16
      · obtain ⟨n, h1, h2, h3⟩ := h ⟨i, hi⟩
        exact ⟨n, fun _ => ⟨h1, h2, h3⟩⟩
      · exact ⟨0, fun hi' => absurd hi' hi⟩
    choose d hd using hn
    obtain ⟨bs, h1, h2⟩ := bytes_map_surj lo d fun i hi => ⟨(hd i hi).1, (hd i hi).2.1⟩
    have hx : polyFrom coeff (bs.map fun b => (b.toNat : ℤ) + lo) = x := by
      apply coeff.injective
      funext i
      unfold polyFrom
      rw [LinearEquiv.apply_symm_apply, h2 i i.2, (hd i i.2).2.2]
    refine ⟨bs, ⟨h1, hx⟩, ?_⟩
    rintro bs' ⟨h1', hx'⟩
    apply List.ext_getElem (by omega)
    intro i hi' hi
    have e := congrFun (congrArg coeff (hx'.trans hx.symm)) ⟨i, by omega⟩
    rw [hget bs' h1', hget bs h1] at e
    change ((((bs'[i]).toNat : ℤ) + lo : ℤ) : Fp) = (((bs[i]).toNat : ℤ) + lo : ℤ) at e
    have hb := (bs'[i]).toNat_lt
    have hb2 := (bs[i]).toNat_lt
    have := cast_small_inj (p := p) e (by omega)
    apply UInt8.toNat_inj.1
    omega
  · rintro ⟨bs, ⟨h1, hx⟩, _⟩ i
    rw [← hx, hget bs h1]
    exact ⟨_, by omega, by
      have := (bs[i]'(by rw [h1]; exact i.2)).toNat_lt
      omega, rfl⟩

/-- **C45** (Frog). The challenge set is exactly the set of degree-16 elements with coefficients in
`[-128, 128)`, each produced by exactly one byte string. -/
theorem C45_frog_bijective (coeff : C ≃ₗ[Fp] (Fin 16 → Fp)) (p : Nat) [CharP Fp p] (hp : 256 ≤ p) (x : C) :
    (∀ i, InRange (-128) 128 (coeff x i)) ↔ ∃! bs : List UInt8, frogChallenge coeff bs = .ok x := by
  have := byteChallenge_bij coeff p hp (-128) x
  norm_num at this
  rw [this]
  constructor
  · rintro ⟨bs, ⟨h1, h2⟩, h3⟩
    refine ⟨bs, ?_, fun bs' h' => h3 bs' ?_⟩
    · simp only [frogChallenge, h1]
      simp only [sub_eq_add_neg]
      rw [← h2]
      rfl
    · simp only [frogChallenge] at h'
      split at h'
      · exact absurd h' (by simp)
      next hl =>
        injection h' with h'
        exact ⟨by simpa using hl, by simpa only [sub_eq_add_neg] using h'⟩
  · rintro ⟨bs, h1, h3⟩
    simp only [frogChallenge] at h1
    split at h1
    · exact absurd h1 (by simp)
    next hl =>
      injection h1 with h1
      refine ⟨bs, ⟨by simpa using hl, by simpa only [sub_eq_add_neg] using h1⟩, ?_⟩
      rintro bs' ⟨h1', h2'⟩
      apply h3
      simp only [frogChallenge, h1']
      simp only [sub_eq_add_neg]
      rw [← h2']
      rfl

/-- **C45** (Stark). The challenge set is exactly the set of degree-16 elements with coefficients in
`[0, 256)`, each produced by exactly one byte string. -/
theorem C45_stark_bijective (coeff : C ≃ₗ[Fp] (Fin 16 → Fp)) (p : Nat) [CharP Fp p] (hp : 256 ≤ p) (x : C) :
    (∀ i, InRange 0 256 (coeff x i)) ↔ ∃! bs : List UInt8, starkChallenge coeff bs = .ok x := by
  have := byteChallenge_bij coeff p hp 0 x
  norm_num at this
  rw [this]
  constructor
  · rintro ⟨bs, ⟨h1, h2⟩, h3⟩
    refine ⟨bs, ?_, fun bs' h' => h3 bs' ?_⟩
    · simp only [starkChallenge, h1]
      rw [← h2]
      rfl
    · simp only [starkChallenge] at h'
      split at h'
      · exact absurd h' (by simp)
      next hl =>
        injection h' with h'
        exact ⟨by simpa using hl, h'⟩
  · rintro ⟨bs, h1, h3⟩
    simp only [starkChallenge] at h1
    split at h1
    · exact absurd h1 (by simp)
    next hl =>
      injection h1 with h1
      refine ⟨bs, ⟨by simpa using hl, h1⟩, ?_⟩
      rintro bs' ⟨h1', h2'⟩
      apply h3
      simp only [starkChallenge, h1']
      rw [← h2']
      rfl

/-- **C45** (values). Coefficient `i` is byte `i` (minus 128 for Frog). -/
theorem C45_values (coeff : C ≃ₗ[Fp] (Fin 16 → Fp)) (bs : List UInt8) (h : bs.length = 16) :
    ∃ x y, frogChallenge coeff bs = .ok x ∧ starkChallenge coeff bs = .ok y ∧ ∀ i : Fin 16,
      coeff x i = ((((bs.getD i 0).toNat : ℤ) - 128 : ℤ) : Fp) ∧ coeff y i = (((bs.getD i 0).toNat : ℤ) : Fp) := by
  refine ⟨_, _, by simp only [frogChallenge, h]; rfl, by simp only [starkChallenge, h]; rfl, fun i => ?_⟩
  have hi : (i : Nat) < bs.length := by rw [h]; exact i.2
  unfold polyFrom
  rw [LinearEquiv.apply_symm_apply, LinearEquiv.apply_symm_apply]
  simp [List.getD_eq_getElem?_getD, hi]

/-- **C45** (length). Any other number of bytes is rejected. -/
theorem C45_length (coeff : C ≃ₗ[Fp] (Fin D → Fp)) (bs : List UInt8) (h : bs.length ≠ 16) :
    frogChallenge coeff bs = .error (.tooFewBytes bs.length 16) ∧
      starkChallenge coeff bs = .error (.tooFewBytes bs.length 16) := by
  constructor
  · unfold frogChallenge; rw [if_pos h]
  · unfold starkChallenge; rw [if_pos h]

example : ∃! bs : List UInt8, frogChallenge (LinearEquiv.refl (ZMod 257) (Fin 16 → ZMod 257)) bs
    = .ok (fun i => ((i : ℕ) : ZMod 257) - 100) :=
  (C45_frog_bijective _ 257 (by omega) _).1 fun i => ⟨i - 100, by omega, by omega, by simp⟩

/-- **C48** (three of four rings). Goldilocks (degree 24), Frog and Stark (degree 16) attain every element
with coefficients in the documented range. Missing: BabyBear, see `C48_babybear_not_all`. -/
theorem C48_documented_sets_partial {C24 C16 : Type} [AddCommGroup C24] [Module Fp C24] [AddCommGroup C16]
    [Module Fp C16] (c24 : C24 ≃ₗ[Fp] (Fin 24 → Fp)) (c16 : C16 ≃ₗ[Fp] (Fin 16 → Fp)) (p : Nat) [CharP Fp p]
    (hp : 256 ≤ p) :
    (∀ x, (∀ i, InRange (-32) 32 (c24 x i)) → ∃ bs, packedChallenge c24 bs = .ok x) ∧
    (∀ x, (∀ i, InRange (-128) 128 (c16 x i)) → ∃ bs, frogChallenge c16 bs = .ok x) ∧
    (∀ x, (∀ i, InRange 0 256 (c16 x i)) → ∃ bs, starkChallenge c16 bs = .ok x) := by
  refine ⟨fun x hx => ?_, fun x hx => ?_, fun x hx => ?_⟩
  · obtain ⟨bs, h, _⟩ := (C48_goldilocks_bijective c24 p (by omega) x).1 hx
    exact ⟨bs, h.2⟩
  · obtain ⟨bs, h, _⟩ := (C45_frog_bijective c16 p hp x).1 hx
    exact ⟨bs, h⟩
  · obtain ⟨bs, h, _⟩ := (C45_stark_bijective c16 p hp x).1 hx
    exact ⟨bs, h⟩

/-! ## Short challenges from a transcript -/

/-- **C44/C45** (transcript). If the sponge returns the requested number of bytes and the decoder accepts
that length, drawing `n` short challenges never aborts and yields `n` of them. -/
theorem C44_short_challenges {F R σ C : Type} (T : Transcript F R σ) (cs : ChallengeSet C)
    (hT : ∀ s n, (T.bytes s n).1.length = n) (hcs : ∀ bs, bs.length = cs.bytesNeeded → ∃ c, cs.decode bs = .ok c)
    (n : Nat) (s : σ) : ∃ l s', shortChallenges T cs n s = .ok (l, s') ∧ l.length = n ∧
      ∀ c ∈ l, ∃ bs, bs.length = cs.bytesNeeded ∧ cs.decode bs = .ok c :=
  shortChallenges_ok T cs hT hcs n s

end Verif.Props
