import Verif.Model.PlusUtils
import Verif.Spec.PlusCm
import Verif.Spec.Sumcheck
import Verif.Lemmas.PlusCmTail
import Verif.Props.ExampleCyclo
import Mathlib.Data.Fintype.Pi
import Mathlib.Data.Fintype.BigOperators
import Mathlib.Data.Set.Card
import Mathlib.Data.Int.CardIntervalMod

/-!
# Property theorems: the distribution of the folding challenges of `latticefold-plus` (C73)
-/

set_option linter.unusedSectionVars false
set_option linter.unusedSimpArgs false

namespace Verif.Props

open Finset Verif Verif.Spec Verif.Plus

variable {F R σ : Type} {d : Nat}
variable [Field F] [CommRing R] [Algebra F R]

/-- The bytes as handed out by the transcript. -/
def byteList (v : Fin d → Fin 256) : List UInt8 := List.ofFn fun i => UInt8.ofNat (v i)

/-- The challenge drawn by `short_challenge` with parameter 128 from a transcript that hands out the bytes `v`. -/
def challengeFrom (pr : PlusRing F R d) (v : Fin d → Fin 256) : Res R := do
  let (x, _) ← shortChallenge pr 128 (coinBT fun b _ => (b, b)) (([] : List F), byteList v)
  .ok x

theorem byte_toNat (a : Fin 256) : (UInt8.ofNat (a : Nat)).toNat = a := UInt8.toNat_ofNat_of_lt a.2

/-- The challenge drawn from any transcript depends on the squeezed bytes only. -/
theorem C73_bytes (pr : PlusRing F R d) (hd : 3 ≤ d) (T : Transcript F R σ) (s s' : σ) (v : Fin d → Fin 256)
    (h : T.bytes s d = (byteList v, s')) : ∃ x, shortChallenge pr 128 T s = .ok (x, s') ∧ challengeFrom pr v = .ok x ∧
      ∀ i, pr.coeff x i = (((v i : Nat) % 2 ^ (128 / d) : Nat) : F) - ((2 ^ (128 / d) / 2 : Nat) : F) := by
  have hn : ¬ 64 ≤ 128 / d := by
    rw [Nat.le_div_iff_mul_le (by omega)]
    omega
  have hl : ((byteList v).map fun b => ((b.toNat % 2 ^ (128 / d) : Nat) : F) - ((2 ^ (128 / d) / 2 : Nat) : F)).length = d := by
    simp [byteList]
  have gen : ∀ {τ : Type} (T : Transcript F R τ) (s s' : τ), T.bytes s d = (byteList v, s') → shortChallenge pr 128 T s
      = .ok (pr.coeff.symm fun i => ((byteList v).map fun b => ((b.toNat % 2 ^ (128 / d) : Nat) : F) - ((2 ^ (128 / d) / 2 : Nat) : F)).getD i 0, s') := by
    intro τ T s s' h
    unfold shortChallenge
    rw [if_neg hn, h]
    simp only
    rw [if_pos hl]
  refine ⟨_, gen T s s' h, ?_, ?_⟩
  · unfold challengeFrom
    rw [gen _ _ ([], byteList v) rfl]
    rfl
  · intro i
    rw [LinearEquiv.apply_symm_apply, List.getD_eq_getElem?_getD, List.getElem?_map, byteList, List.getElem?_ofFn, dif_pos i.2, Option.map_some,
      Option.getD_some, byte_toNat]

theorem challengeFrom_eq (pr : PlusRing F R d) (hd : 3 ≤ d) (v : Fin d → Fin 256) (x : R) :
    challengeFrom pr v = .ok x ↔ ∀ i, pr.coeff x i = (((v i : Nat) % 2 ^ (128 / d) : Nat) : F) - ((2 ^ (128 / d) / 2 : Nat) : F) := by
  obtain ⟨y, -, h2, h3⟩ := C73_bytes (F := F) pr hd (coinBT fun b _ => (b, b)) (([] : List F), byteList v) _ v rfl
  rw [h2]
  constructor
  · intro h
    simp only [Except.ok.injEq] at h
    rw [← h]
    exact h3
  · intro h
    congr 1
    apply pr.coeff.injective
    funext i
    rw [h3, h]

theorem cast_inj_of_charGt {N : Nat} (hc : CharGt F N) {a b : Nat} (ha : a ≤ N) (hb : b ≤ N) (h : (a : F) = b) : a = b := by
  rcases Nat.lt_trichotomy a b with hlt | heq | hlt
  · exfalso
    refine hc (b - a) (by omega) (by omega) ?_
    rw [Nat.cast_sub hlt.le, h, sub_self]
  · exact heq
  · exfalso
    refine hc (a - b) (by omega) (by omega) ?_
    rw [Nat.cast_sub hlt.le, h, sub_self]

theorem pow_split {e : Nat} (he : e ≤ 8) : 256 = 2 ^ e * 2 ^ (8 - e) := by
  rw [← pow_add, Nat.add_sub_cancel' he]
  norm_num

/-- The number of bytes with a given residue. -/
theorem card_residue {e : Nat} (he : e ≤ 8) {m : Nat} (hm : m < 2 ^ e) :
    (univ.filter fun a : Fin 256 => (a : Nat) % 2 ^ e = m).card = 256 / 2 ^ e := by
  have h1 : (univ.filter fun a : Fin 256 => (a : Nat) % 2 ^ e = m).card = ((range 256).filter fun a => a ≡ m [MOD 2 ^ e]).card := by
    apply card_nbij (fun a : Fin 256 => (a : Nat))
    · intro a ha
      rw [mem_coe, mem_filter] at ha ⊢
      exact ⟨mem_range.2 a.2, by rw [Nat.ModEq, Nat.mod_eq_of_lt hm]; exact ha.2⟩
    · intro a _ b _ hab
      exact Fin.ext hab
    · intro b hb
      rw [mem_coe, mem_filter] at hb
      refine ⟨⟨b, mem_range.1 hb.1⟩, ?_, rfl⟩
      rw [mem_coe, mem_filter]
      have := hb.2
      rw [Nat.ModEq, Nat.mod_eq_of_lt hm] at this
      exact ⟨mem_univ _, this⟩
  have h2 : 256 % 2 ^ e = 0 := by
    conv_lhs => rw [pow_split he]
    exact Nat.mul_mod_right _ _
  rw [h1, ← Nat.count_eq_card_filter_range, Nat.count_modEq_card _ (by positivity), h2, if_neg (by omega), add_zero]

/-- **C73** (partial): for dimensions of at least 15 the challenge is uniformly distributed over the elements with coefficients in the interval of
length `2 ^ (128 / d)` around zero: every such element is drawn for the same number `(256 / 2 ^ (128 / d)) ^ d` of the `256 ^ d` sequences of bytes. Left out,
because it fails: dimensions below 15 (`C73_not_centred`). -/
theorem C73_uniform_partial (pr : PlusRing F R d) (hd : 15 ≤ d) (hc : CharGt F 256) (x : R) (hx : ShortChallenge pr x) :
    Nat.card {v : Fin d → Fin 256 // challengeFrom pr v = .ok x} = (256 / 2 ^ (128 / d)) ^ d := by
  have he : 128 / d ≤ 8 := by
    rw [← Nat.lt_succ_iff, Nat.div_lt_iff_lt_mul (by omega)]
    omega
  have hu : 2 ^ (128 / d) ≤ 256 := by
    calc 2 ^ (128 / d) ≤ 2 ^ 8 := Nat.pow_le_pow_right (by norm_num) he
      _ = 256 := by norm_num
  have hm : ∀ i, ∃ m : Nat, m < 2 ^ (128 / d) ∧ pr.coeff x i = (m : F) - ((2 ^ (128 / d) / 2 : Nat) : F) := by
    intro i
    obtain ⟨n, h1, h2, h3⟩ := hx i
    refine ⟨(n + ((2 ^ (128 / d) / 2 : Nat) : ℤ)).toNat, by omega, ?_⟩
    have : ((((n + ((2 ^ (128 / d) / 2 : Nat) : ℤ)).toNat : ℤ)) : F) = ((n + ((2 ^ (128 / d) / 2 : Nat) : ℤ) : ℤ) : F) := by
      rw [Int.toNat_of_nonneg (by omega)]
    rw [Int.cast_natCast, Int.cast_add, Int.cast_natCast] at this
    rw [h3, this]
    ring
  choose m hm1 hm2 using hm
  have hset : ∀ v : Fin d → Fin 256, challengeFrom pr v = .ok x ↔ ∀ i, v i ∈ (univ.filter fun a : Fin 256 => (a : Nat) % 2 ^ (128 / d) = m i) := by
    intro v
    rw [challengeFrom_eq pr (by omega)]
    apply forall_congr'
    intro i
    rw [hm2 i, mem_filter]
    constructor
    · intro h
      refine ⟨mem_univ _, ?_⟩
      have hlt : (v i : Nat) % 2 ^ (128 / d) < 2 ^ (128 / d) := Nat.mod_lt _ (by positivity)
      exact cast_inj_of_charGt hc (by omega) (by have := hm1 i; omega) (sub_left_injective h).symm
    · rintro ⟨-, h⟩
      rw [h]
  rw [Nat.card_congr (Equiv.subtypeEquivRight (q := fun v => v ∈ Fintype.piFinset fun i =>
    univ.filter fun a : Fin 256 => (a : Nat) % 2 ^ (128 / d) = m i) fun v => by rw [hset, Fintype.mem_piFinset]),
    Nat.card_eq_fintype_card, Fintype.card_coe, Fintype.card_piFinset, Finset.prod_congr rfl fun i _ => card_residue he (hm1 i), prod_const,
    card_univ, Fintype.card_fin]

/-- **C73**: the number of different challenges. -/
theorem C73_count (pr : PlusRing F R d) (hd : 3 ≤ d) (hc : CharGt F 256) :
    {x : R | ∃ v, challengeFrom pr v = .ok x}.ncard = 2 ^ (min 8 (128 / d) * d) := by
  classical
  set e := 128 / d with he
  set V : Finset F := (range (2 ^ min 8 e)).image fun m : Nat => (m : F) - ((2 ^ e / 2 : Nat) : F) with hV
  have hmin : 2 ^ min 8 e ≤ 256 := by
    calc 2 ^ min 8 e ≤ 2 ^ 8 := Nat.pow_le_pow_right (by norm_num) (by omega)
      _ = 256 := by norm_num
  have hVc : V.card = 2 ^ min 8 e := by
    rw [hV, card_image_of_injOn, card_range]
    intro a ha b hb hab
    have ha' := mem_range.1 (mem_coe.1 ha)
    have hb' := mem_range.1 (mem_coe.1 hb)
    exact cast_inj_of_charGt hc (by omega) (by omega) (sub_left_injective hab)
  have hset : {x : R | ∃ v, challengeFrom pr v = .ok x} = pr.coeff.symm '' ((Fintype.piFinset fun _ : Fin d => V : Finset (Fin d → F)) : Set (Fin d → F)) := by
    ext x
    simp only [Set.mem_ofPred_eq, Set.mem_image, mem_coe, Fintype.mem_piFinset]
    constructor
    · rintro ⟨v, hv⟩
      refine ⟨pr.coeff x, ?_, pr.coeff.symm_apply_apply x⟩
      intro i
      rw [(challengeFrom_eq pr hd v x).1 hv i, hV, mem_image]
      refine ⟨(v i : Nat) % 2 ^ e, mem_range.2 ?_, rfl⟩
      rcases Nat.le_total 8 e with h8 | h8
      · rw [Nat.min_eq_left h8]
        exact lt_of_le_of_lt (Nat.mod_le _ _) (v i).2
      · rw [Nat.min_eq_right h8]
        exact Nat.mod_lt _ (by positivity)
    · rintro ⟨c, hcV, rfl⟩
      have : ∀ i, ∃ m : Nat, m < 2 ^ min 8 e ∧ c i = (m : F) - ((2 ^ e / 2 : Nat) : F) := by
        intro i
        obtain ⟨m, h1, h2⟩ := mem_image.1 (hcV i)
        exact ⟨m, mem_range.1 h1, h2.symm⟩
      choose m hm1 hm2 using this
      refine ⟨fun i => ⟨m i, by have := hm1 i; omega⟩, ?_⟩
      rw [challengeFrom_eq pr hd]
      intro i
      have : m i < 2 ^ e := lt_of_lt_of_le (hm1 i) (Nat.pow_le_pow_right (by norm_num) (by omega))
      rw [LinearEquiv.apply_symm_apply, hm2 i]
      simp only
      rw [Nat.mod_eq_of_lt this]
  rw [hset, Set.ncard_image_of_injective _ pr.coeff.symm.injective, Set.ncard_coe_finset, Fintype.card_piFinset, prod_const, card_univ, Fintype.card_fin,
    hVc, ← pow_mul]

/-- **C73** is false for other dimensions: there are `2 ^ 128` challenges exactly for the dimensions 16, 32, 64 and 128, and fewer for
all others. -/
theorem C73_count_128 (pr : PlusRing F R d) (hd : 3 ≤ d) (hc : CharGt F 256) :
    {x : R | ∃ v, challengeFrom pr v = .ok x}.ncard ≤ 2 ^ 128 ∧
    ({x : R | ∃ v, challengeFrom pr v = .ok x}.ncard = 2 ^ 128 ↔ d = 16 ∨ d = 32 ∨ d = 64 ∨ d = 128) := by
  rw [C73_count pr hd hc]
  have h1 : 128 / d * d ≤ 128 := Nat.div_mul_le_self _ _
  have h2 : min 8 (128 / d) * d ≤ 128 := le_trans (Nat.mul_le_mul_right _ (min_le_right _ _)) h1
  refine ⟨Nat.pow_le_pow_right (by norm_num) h2, ?_⟩
  rw [Nat.pow_right_inj (by norm_num)]
  constructor
  · intro h
    have h3 : d ∣ 128 := ⟨_, by rw [mul_comm]; exact h.symm⟩
    have h4 : d ≤ 128 := Nat.le_of_dvd (by norm_num) h3
    clear h1 h2 hc
    interval_cases d <;> omega
  · rintro (rfl | rfl | rfl | rfl) <;> rfl

/-- **C73** is false for dimensions from 3 to 14: every coefficient of every challenge is a negative number. -/
theorem C73_not_centred (pr : PlusRing F R d) (hd : 3 ≤ d) (hd' : d ≤ 14) (v : Fin d → Fin 256) :
    ∃ x, challengeFrom pr v = .ok x ∧ ∀ i, ∃ n : ℤ, -((2 ^ (128 / d) / 2 : Nat) : ℤ) ≤ n ∧ n < 256 - ((2 ^ (128 / d) / 2 : Nat) : ℤ) ∧ n < 0 ∧ pr.coeff x i = n := by
  obtain ⟨x, -, h2, h3⟩ := C73_bytes (F := F) pr hd (coinBT fun b _ => (b, b)) (([] : List F), byteList v) _ v rfl
  refine ⟨x, h2, ?_⟩
  intro i
  have hu : 512 ≤ 2 ^ (128 / d) := by
    calc 512 = 2 ^ 9 := by norm_num
      _ ≤ 2 ^ (128 / d) := Nat.pow_le_pow_right (by norm_num) (by rw [Nat.le_div_iff_mul_le (by omega)]; omega)
  have hv : (v i : Nat) % 2 ^ (128 / d) < 256 := lt_of_le_of_lt (Nat.mod_le _ _) (v i).2
  refine ⟨(((v i : Nat) % 2 ^ (128 / d) : Nat) : ℤ) - ((2 ^ (128 / d) / 2 : Nat) : ℤ), by omega, by omega, by omega, ?_⟩
  rw [h3 i, Int.cast_sub, Int.cast_natCast, Int.cast_natCast]

/-- **C73**: in dimension one and two no challenge is drawn. -/
theorem C73_abort (pr : PlusRing F R d) (hd : d ≤ 2) (T : Transcript F R σ) (s : σ) : (shortChallenge pr 128 T s).isPanic := by
  have := pr.dpos
  have h : 64 ≤ 128 / d := by
    rw [Nat.le_div_iff_mul_le (by omega)]
    omega
  unfold shortChallenge
  rw [if_pos h]
  trivial

theorem charGtGoldilocks : CharGt (ZMod 18446744069414584321) 256 := by
  intro k h1 h2 h0
  rw [ZMod.natCast_eq_zero_iff] at h0
  have := Nat.le_of_dvd h1 h0
  omega

/-- The dimension of the rings of the crate: `2^128` challenges, each drawn for exactly one sequence of bytes. -/
example : {x : Example.Cyclo 18446744069414584321 16 | ∃ v, challengeFrom (Example.cyclo _ 16 (by norm_num)) v = .ok x}.ncard = 2 ^ 128 :=
  ((C73_count_128 _ (by norm_num) charGtGoldilocks).2).2 (.inl rfl)

example (x : Example.Cyclo 18446744069414584321 16) (hx : ShortChallenge (Example.cyclo _ 16 (by norm_num)) x) :
    Nat.card {v // challengeFrom (Example.cyclo _ 16 (by norm_num)) v = .ok x} = 1 := by
  have := C73_uniform_partial _ (by norm_num) charGtGoldilocks x hx
  rwa [show (256 / 2 ^ (128 / 16)) ^ 16 = 1 by norm_num] at this

/-- Dimension 24: `2^120` challenges; dimension 72: `2^72`. -/
example : {x : Example.Cyclo 18446744069414584321 24 | ∃ v, challengeFrom (Example.cyclo _ 24 (by norm_num)) v = .ok x}.ncard = 2 ^ 120 :=
  C73_count _ (by norm_num) charGtGoldilocks

example : {x : Example.Cyclo 18446744069414584321 72 | ∃ v, challengeFrom (Example.cyclo _ 72 (by norm_num)) v = .ok x}.ncard = 2 ^ 72 :=
  C73_count _ (by norm_num) charGtGoldilocks

end Verif.Props
