import Mathlib.Data.Nat.Digits.Lemmas
import Mathlib.Data.Int.CardIntervalMod
import Verif.Props.Poseidon

set_option linter.unusedSimpArgs false
set_option linter.unusedSectionVars false

/-! # Properties C78 (the squeezed bytes are almost uniform) and C79 (labels separate the challenges). -/

namespace Verif.Props
open Verif Verif.Poseidon Finset

/-- The number with the given little-endian bytes. -/
def ofLe : List UInt8 → Nat
  | [] => 0
  | b :: bs => b.toNat + 256 * ofLe bs

theorem ofLe_lt (bs : List UInt8) : ofLe bs < 256 ^ bs.length := by
  induction bs with
  | nil => simp [ofLe]
  | cons b bs ih =>
    have := b.toNat_lt
    simp only [ofLe, List.length_cons, pow_succ]
    omega

theorem leBytes_succ (u x : Nat) :
    PoseidonConfig.leBytes (u + 1) x = UInt8.ofNat (x % 256) :: PoseidonConfig.leBytes u (x / 256) := by
  unfold PoseidonConfig.leBytes
  rw [List.range_succ_eq_map, List.map_cons, List.map_map]
  simp only [pow_zero, Nat.div_one, List.cons.injEq, true_and]
  apply List.map_congr_left
  intro k _
  simp only [Function.comp_apply, Nat.succ_eq_add_one, pow_succ', Nat.div_div_eq_div_mul]

theorem leBytes_eq (u x : Nat) (bs : List UInt8) (h : bs.length = u) :
    PoseidonConfig.leBytes u x = bs ↔ x % 256 ^ u = ofLe bs := by
  induction u generalizing x bs with
  | zero =>
    have : bs = [] := List.eq_nil_of_length_eq_zero h
    simp [this, PoseidonConfig.leBytes, ofLe, Nat.mod_one]
  | succ u ih =>
    cases bs with
    | nil => simp at h
    | cons b bs =>
      have hb := b.toNat_lt
      rw [leBytes_succ, List.cons.injEq, ih (x / 256) bs (by simpa using h), ofLe, pow_succ', Nat.mod_mul]
      constructor
      · rintro ⟨h1, h2⟩
        rw [h2, ← h1, UInt8.toNat_ofNat']
        simp
      · intro h1
        have h3 : x % 256 = b.toNat := by omega
        refine ⟨?_, by omega⟩
        apply UInt8.toNat.inj
        rw [UInt8.toNat_ofNat', h3]
        omega

/-- Counting a residue class among the representatives `0, …, p-1`. -/
theorem card_zmod_residue (p : Nat) [NeZero p] (m r : Nat) (hm : 0 < m) (hr : r < m) :
    (univ.filter fun x : ZMod p => x.val % m = r).card = p / m + if r < p % m then 1 else 0 := by
  have h1 := Nat.count_modEq_card p hm r
  rw [Nat.mod_eq_of_lt hr, Nat.count_eq_card_filter_range] at h1
  rw [← h1]
  apply Finset.card_bij (fun x _ => x.val)
  · intro x hx
    have := (mem_filter.1 hx).2
    rw [mem_filter, mem_range]
    exact ⟨ZMod.val_lt x, by unfold Nat.ModEq; rw [this, Nat.mod_eq_of_lt hr]⟩
  · intro x _ y _ h
    exact ZMod.val_injective p h
  · intro y hy
    rw [mem_filter, mem_range] at hy
    refine ⟨(y : ZMod p), ?_, ZMod.val_cast_of_lt hy.1⟩
    rw [mem_filter]
    refine ⟨mem_univ _, ?_⟩
    rw [ZMod.val_cast_of_lt hy.1]
    have := hy.2
    unfold Nat.ModEq at this
    rwa [Nat.mod_eq_of_lt hr] at this

theorem usable_le (p : Nat) (hp : 0 < p) : 256 ^ PoseidonConfig.usableBytes p ≤ p := by
  unfold PoseidonConfig.usableBytes
  have h1 : 256 ^ ((Nat.size p - 1) / 8) = 2 ^ (8 * ((Nat.size p - 1) / 8)) := by
    rw [pow_mul]; norm_num
  have h2 : 8 * ((Nat.size p - 1) / 8) ≤ Nat.size p - 1 := Nat.mul_div_le _ _
  have h3 : 2 ^ (Nat.size p - 1) ≤ p := by
    have h4 : 0 < Nat.size p := Nat.size_pos.2 hp
    exact Nat.lt_size.1 (by omega)
  rw [h1]
  exact (Nat.pow_le_pow_right (by norm_num) h2).trans h3

/-- **C78**, the bytes taken from one squeezed field element: for every modulus, if the element is uniform, then every
sequence of `usableBytes` bytes has `⌊p / 256^u⌋` or `⌊p / 256^u⌋ + 1` preimages, and there is at least one. No byte
sequence is favoured by more than one field element. -/
theorem C78_bytes_uniform (p : Nat) [NeZero p] (bs : List UInt8)
    (h : bs.length = PoseidonConfig.usableBytes p) :
    let u := PoseidonConfig.usableBytes p
    let k := (univ.filter fun x : ZMod p => PoseidonConfig.leBytes u x.val = bs).card
    1 ≤ p / 256 ^ u ∧ p / 256 ^ u ≤ k ∧ k ≤ p / 256 ^ u + 1 := by
  intro u k
  have hu : 0 < 256 ^ u := by positivity
  have hk : k = p / 256 ^ u + if ofLe bs < p % 256 ^ u then 1 else 0 := by
    rw [← card_zmod_residue p (256 ^ u) (ofLe bs) hu (by have := ofLe_lt bs; rwa [h] at this)]
    show (univ.filter fun x : ZMod p => PoseidonConfig.leBytes u x.val = bs).card = _
    congr 1
    ext x
    rw [mem_filter, mem_filter, leBytes_eq u x.val bs h]
  refine ⟨(Nat.one_le_div_iff hu).2 (usable_le p (Nat.pos_of_ne_zero (NeZero.ne p))), ?_, ?_⟩
  · omega
  · rw [hk]; split <;> omega

/-- **C78**, the four rings: the number of bytes taken from an element and the number of field elements behind one
byte sequence. The least uniform ring is Stark: probabilities of `8/p` and `9/p`. -/
theorem C78_rings :
    (PoseidonConfig.usableBytes pGoldilocks = 7 ∧ pGoldilocks / 256 ^ 7 = 255) ∧
    (PoseidonConfig.usableBytes pBabyBear = 3 ∧ pBabyBear / 256 ^ 3 = 120) ∧
    (PoseidonConfig.usableBytes pFrog = 7 ∧ pFrog / 256 ^ 7 = 220) ∧
    (PoseidonConfig.usableBytes pStark = 31 ∧ pStark / 256 ^ 31 = 8) := by
  decide +kernel

example : let k := (univ.filter fun x : ZMod pGoldilocks =>
      PoseidonConfig.leBytes 7 x.val = [0xEF, 0xCD, 0xAB, 0x89, 0x67, 0x45, 0x23]).card
    255 ≤ k ∧ k ≤ 256 := by
  have h := C78_bytes_uniform pGoldilocks [0xEF, 0xCD, 0xAB, 0x89, 0x67, 0x45, 0x23]
    (by rw [C78_rings.1.1]; rfl)
  rw [C78_rings.1.1] at h
  dsimp only at h ⊢
  rw [C78_rings.1.2] at h
  exact h.2

/-! ## C79: labels -/

theorem fromBe_digits (bs : List UInt8) (acc : Nat) :
    bs.foldl (fun acc b => 256 * acc + b.toNat) acc
      = Nat.ofDigits 256 (bs.reverse.map UInt8.toNat) + 256 ^ bs.length * acc := by
  induction bs generalizing acc with
  | nil => simp
  | cons b bs ih =>
    rw [List.foldl_cons, ih, List.reverse_cons, List.map_append, Nat.ofDigits_append]
    simp only [List.map_cons, List.map_nil, Nat.ofDigits_singleton, List.length_map, List.length_reverse,
      List.length_cons, pow_succ]
    ring

/-- **C79**, partial: two labels of at most `usableBytes p` bytes, neither starting with a zero byte, are absorbed as
different field elements. Missing: longer labels (false, `C79_babybear_collision`). -/
theorem C79_short_labels_partial (p : Nat) (hp : 0 < p) (a b : List UInt8)
    (ha : a.length ≤ PoseidonConfig.usableBytes p) (hb : b.length ≤ PoseidonConfig.usableBytes p)
    (ha0 : a.head? ≠ some 0) (hb0 : b.head? ≠ some 0) (h : fromBeBytes p a = fromBeBytes p b) : a = b := by
  have key : ∀ l : List UInt8, l.length ≤ PoseidonConfig.usableBytes p → l.head? ≠ some 0 →
      l.foldl (fun acc b => 256 * acc + b.toNat) 0 < p ∧
      Nat.digits 256 (l.foldl (fun acc b => 256 * acc + b.toNat) 0) = l.reverse.map UInt8.toNat := by
    intro l hl h0
    have hd : ∀ d ∈ l.reverse.map UInt8.toNat, d < 256 := by
      intro d hd
      obtain ⟨x, _, rfl⟩ := List.mem_map.1 hd
      exact x.toNat_lt
    rw [fromBe_digits, mul_zero, add_zero]
    constructor
    · have h1 := Nat.ofDigits_lt_base_pow_length (b := 256) (by norm_num) hd
      have h2 := Nat.pow_le_pow_right (n := 256) (by norm_num) hl
      have h3 := usable_le p hp
      simp only [List.length_map, List.length_reverse] at h1
      omega
    · apply Nat.digits_ofDigits 256 (by norm_num) _ hd
      intro hne
      cases l with
      | nil => simp at hne
      | cons x xs =>
        simp only [List.reverse_cons, List.map_append, List.map_cons, List.map_nil, List.getLast_append_singleton]
        intro hx
        exact h0 (by rw [List.head?_cons, UInt8.toNat.inj (a := x) (b := 0) hx])
  unfold fromBeBytes at h
  rw [ZMod.natCast_eq_natCast_iff', Nat.mod_eq_of_lt (key a ha ha0).1, Nat.mod_eq_of_lt (key b hb hb0).1] at h
  have h1 := (key a ha ha0).2
  rw [h, (key b hb hb0).2] at h1
  have h2 := List.map_injective_iff.2 (fun x y => UInt8.toNat.inj) h1
  exact (List.reverse_injective h2).symm

/-- The labels of the crate `latticefold` (`nifs.rs:178-196`, `nifs/folding/utils.rs:50-124`,
`nifs/linearization/utils.rs:115-117`). -/
def labels : List (List UInt8) :=
  [[97, 99, 99], [99, 109, 95, 105], [97, 108, 112, 104, 97, 95, 115], [122, 101, 116, 97, 95, 115],
    [109, 117, 95, 115], [98, 101, 116, 97, 95, 115], [114, 104, 111, 95, 115]]

example : labels = ["acc", "cm_i", "alpha_s", "zeta_s", "mu_s", "beta_s", "rho_s"].map
    fun s => s.toList.map fun ch => UInt8.ofNat ch.toNat := by decide

/-- **C79**, the labels the folding scheme uses are different field elements in each of the four fields. -/
theorem C79_labels_distinct {p : Nat} {r : Res (PoseidonConfig (ZMod p))} {c : PoseidonConfig (ZMod p)}
    (h : RingConfig p r c) : (labels.map (fromBeBytes p)).Nodup := by
  cases h <;> decide +kernel

/-- The bytes of `"zeta_fold_step"` and of `"fold_norm_norm"`. -/
def labelA : List UInt8 := [122, 101, 116, 97, 95, 102, 111, 108, 100, 95, 115, 116, 101, 112]
def labelB : List UInt8 := [102, 111, 108, 100, 95, 110, 111, 114, 109, 95, 110, 111, 114, 109]

example : labelA = "zeta_fold_step".toList.map (fun ch => UInt8.ofNat ch.toNat) := by decide
example : labelB = "fold_norm_norm".toList.map (fun ch => UInt8.ofNat ch.toNat) := by decide

/-- **C79 fails for BabyBear**: `squeeze_challenges` reduces its label modulo the prime of 31 bits, and ordinary names
collide: `"zeta_fold_step"` and `"fold_norm_norm"` give the same challenges and the same state, for every
transcript and every state. -/
theorem C79_babybear_collision {F R σ : Type} [CommSemiring F] [Semiring R] [Algebra F R]
    (T : Transcript F R σ) (fromPrime : ZMod pBabyBear → F) (s : σ) (n : Nat) :
    labelA ≠ labelB ∧
    squeezeChallenges T fromPrime s labelA n = squeezeChallenges T fromPrime s labelB n ∧
    squeezeRChallenges T fromPrime s labelA n = squeezeRChallenges T fromPrime s labelB n := by
  have h : fromBeBytes pBabyBear labelA = fromBeBytes pBabyBear labelB := by decide +kernel
  refine ⟨by decide, ?_, ?_⟩
  · unfold squeezeChallenges; rw [h]
  · unfold squeezeRChallenges squeezeChallenges; rw [h]

example : fromBeBytes pGoldilocks labelA ≠ fromBeBytes pGoldilocks labelB := by decide +kernel

end Verif.Props
