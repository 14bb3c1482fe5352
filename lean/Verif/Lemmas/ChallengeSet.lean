import Verif.Model.ChallengeSet
import Verif.Lemmas.List
import Mathlib.Algebra.CharP.Basic
import Mathlib.Algebra.CharP.Lemmas

/-! Helper lemmas for the challenge sets. -/

namespace Verif

theorem u8_lo6 : ∀ a : Fin 256, (UInt8.ofNat a &&& 0b00111111).toNat = a % 64 := by decide +kernel
theorem u8_hi2 : ∀ a : Fin 256, ((UInt8.ofNat a &&& 0b11000000) >>> 6).toNat = a / 64 := by decide +kernel
theorem u8_lo4 : ∀ a : Fin 256, ((UInt8.ofNat a &&& 0b00001111) <<< 2).toNat = 4 * (a % 16) := by
  decide +kernel
theorem u8_hi4 : ∀ a : Fin 256, ((UInt8.ofNat a &&& 0b11110000) >>> 4).toNat = a / 16 := by decide +kernel
theorem u8_lo2 : ∀ a : Fin 256, ((UInt8.ofNat a &&& 0b00000011) <<< 4).toNat = 16 * (a % 4) := by
  decide +kernel
theorem u8_hi6 : ∀ a : Fin 256, ((UInt8.ofNat a &&& 0b11111100) >>> 2).toNat = a / 4 := by decide +kernel
theorem or_4 : ∀ a : Fin 4, ∀ b : Fin 16, (a : Nat) ||| 4 * b = a + 4 * b := by decide +kernel
theorem or_16 : ∀ a : Fin 16, ∀ b : Fin 4, (a : Nat) ||| 16 * b = a + 16 * b := by decide +kernel

theorem u8_ex (x : UInt8) : ∃ a : Fin 256, x = UInt8.ofNat a ∧ x.toNat = a := by
  refine ⟨⟨x.toNat, x.toNat_lt⟩, ?_, rfl⟩
  simp

theorem unpack4_eq (b0 b1 b2 : UInt8) : unpack4 b0 b1 b2 =
    [((b0.toNat % 64 : Nat) : ℤ) - 32, ((b0.toNat / 64 + 4 * (b1.toNat % 16) : Nat) : ℤ) - 32,
     ((b1.toNat / 16 + 16 * (b2.toNat % 4) : Nat) : ℤ) - 32, ((b2.toNat / 4 : Nat) : ℤ) - 32] := by
  obtain ⟨a, ha, ha'⟩ := u8_ex b0
  obtain ⟨b, hb, hb'⟩ := u8_ex b1
  obtain ⟨c, hc, hc'⟩ := u8_ex b2
  unfold unpack4
  rw [UInt8.toNat_or, UInt8.toNat_or, ha', hb', hc', ha, hb, hc, u8_lo6, u8_hi2, u8_lo4, u8_hi4, u8_lo2,
    u8_hi6]
  have h1 := or_4 ⟨a / 64, by omega⟩ ⟨b % 16, by omega⟩
  have h2 := or_16 ⟨b / 16, by omega⟩ ⟨c % 4, by omega⟩
  simp only at h1 h2
  rw [h1, h2]

/-- Coefficients of `n` groups of three bytes. -/
def packRec : Nat → List UInt8 → List ℤ
  | n + 1, b0 :: b1 :: b2 :: bs => unpack4 b0 b1 b2 ++ packRec n bs
  | _, _ => []

theorem list18 (bs : List UInt8) (h : bs.length = 18) : ∃ a0 a1 a2 a3 a4 a5 a6 a7 a8 a9 a10 a11 a12 a13
    a14 a15 a16 a17, bs = [a0, a1, a2, a3, a4, a5, a6, a7, a8, a9, a10, a11, a12, a13, a14, a15, a16, a17] := by
  match bs, h with
  | [a0, a1, a2, a3, a4, a5, a6, a7, a8, a9, a10, a11, a12, a13, a14, a15, a16, a17], _ =>
    exact ⟨_, _, _, _, _, _, _, _, _, _, _, _, _, _, _, _, _, _, rfl⟩

theorem packedCoeffs_ok (bs : List UInt8) (h : bs.length = 18) : packedCoeffs bs = .ok (packRec 6 bs) := by
  obtain ⟨a0, a1, a2, a3, a4, a5, a6, a7, a8, a9, a10, a11, a12, a13, a14, a15, a16, a17, rfl⟩ := list18 bs h
  rfl

/-- Little-endian value of a list of bytes. -/
def leVal (bs : List UInt8) : Nat := bs.foldr (fun b acc => b.toNat + 256 * acc) 0

theorem packRec_eq (n : Nat) (bs : List UInt8) (h : bs.length = 3 * n) :
    packRec n bs = (List.range (4 * n)).map fun i => ((leVal bs / 64 ^ i % 64 : Nat) : ℤ) - 32 := by
  induction n generalizing bs with
  | zero => simp [packRec]
  | succ n ih =>
    match bs, h with
    | b0 :: b1 :: b2 :: bs, h =>
      have hl : bs.length = 3 * n := by simp at h; omega
      have hv : leVal (b0 :: b1 :: b2 :: bs)
          = b0.toNat + 256 * b1.toNat + 65536 * b2.toNat + 64 ^ 4 * leVal bs := by
        simp only [leVal, List.foldr_cons]
        ring
      have h0 := b0.toNat_lt
      have h1 := b1.toNat_lt
      have h2 := b2.toNat_lt
      have hr : List.range (4 * (n + 1)) = [0, 1, 2, 3] ++ (List.range (4 * n)).map (· + 4) := by
        rw [show 4 * (n + 1) = 4 + 4 * n by ring, List.range_add]
        congr 1
        apply List.map_congr_left
        intro i _
        omega
      rw [hr, List.map_append, List.map_map]
      change unpack4 b0 b1 b2 ++ packRec n bs = _
      rw [ih bs hl, unpack4_eq]
      congr 1
      · simp only [List.map_cons, List.map_nil]
        rw [hv]
        generalize leVal bs = V
        generalize b0.toNat = x at *
        generalize b1.toNat = y at *
        generalize b2.toNat = z at *
        norm_num
        refine ⟨?_, ?_, ?_, ?_⟩ <;> omega
      · apply List.map_congr_left
        intro i _
        change _ = ((leVal (b0 :: b1 :: b2 :: bs) / 64 ^ (i + 4) % 64 : Nat) : ℤ) - 32
        rw [pow_add, mul_comm (64 ^ i), ← Nat.div_div_eq_div_mul, hv]
        congr 4
        generalize leVal bs = V
        norm_num
        omega

theorem leVal_lt (bs : List UInt8) : leVal bs < 256 ^ bs.length := by
  induction bs with
  | nil => simp [leVal]
  | cons b bs ih =>
    have h0 := b.toNat_lt
    have : leVal (b :: bs) = b.toNat + 256 * leVal bs := rfl
    rw [this, List.length_cons, pow_succ]
    omega

theorem leVal_inj {bs bs' : List UInt8} (h : bs.length = bs'.length) (hv : leVal bs = leVal bs') :
    bs = bs' := by
  induction bs generalizing bs' with
  | nil => exact (List.length_eq_zero_iff.1 h.symm).symm
  | cons b bs ih =>
    match bs', h with
    | b' :: bs', h =>
      have e1 : leVal (b :: bs) = b.toNat + 256 * leVal bs := rfl
      have e2 : leVal (b' :: bs') = b'.toNat + 256 * leVal bs' := rfl
      rw [e1, e2] at hv
      have h0 := b.toNat_lt
      have h1 := b'.toNat_lt
      have hb : b = b' := by
        apply UInt8.toNat_inj.1
        omega
      rw [hb, ih (by simpa using h) (by omega)]

theorem leVal_surj (n : Nat) (v : Nat) (h : v < 256 ^ n) : ∃ bs : List UInt8, bs.length = n ∧ leVal bs = v := by
  induction n generalizing v with
  | zero => exact ⟨[], rfl, by simp at h; simp [leVal, h]⟩
  | succ n ih =>
    rw [pow_succ] at h
    obtain ⟨bs, h1, h2⟩ := ih (v / 256) (by omega)
    refine ⟨UInt8.ofNat (v % 256) :: bs, by simp [h1], ?_⟩
    change (UInt8.ofNat (v % 256)).toNat + 256 * leVal bs = v
    rw [h2]
    have : (UInt8.ofNat (v % 256)).toNat = v % 256 := by simp
    omega

/-- Value with given base-64 digits. -/
def digVal (d : Nat → Nat) : Nat → Nat
  | 0 => 0
  | n + 1 => digVal d n + d n * 64 ^ n

theorem digVal_lt (d : Nat → Nat) (n : Nat) (h : ∀ i < n, d i < 64) : digVal d n < 64 ^ n := by
  induction n with
  | zero => simp [digVal]
  | succ n ih =>
    have := ih fun i hi => h i (by omega)
    have hn := h n (by omega)
    have : d n * 64 ^ n ≤ 63 * 64 ^ n := Nat.mul_le_mul_right _ (by omega)
    rw [digVal, pow_succ]
    omega

theorem digVal_digit (d : Nat → Nat) (n : Nat) (h : ∀ i < n, d i < 64) (i : Nat) (hi : i < n) :
    digVal d n / 64 ^ i % 64 = d i := by
  induction n with
  | zero => omega
  | succ n ih =>
    have hlt := digVal_lt d n fun i hi => h i (by omega)
    rw [digVal]
    by_cases hin : i < n
    · have e : d n * 64 ^ n = (d n * 64 ^ (n - i - 1) * 64) * 64 ^ i := by
        rw [mul_assoc, mul_assoc, ← pow_succ', ← pow_add]
        congr 2
        omega
      rw [e, Nat.add_mul_div_right _ _ (by positivity), Nat.add_mul_mod_self_right]
      exact ih (fun i hi => h i (by omega)) hin
    · have : i = n := by omega
      subst this
      rw [Nat.add_mul_div_right _ _ (by positivity), Nat.div_eq_of_lt hlt, zero_add,
        Nat.mod_eq_of_lt (h i (by omega))]

theorem digits_inj {n v w : Nat} (hv : v < 64 ^ n) (hw : w < 64 ^ n)
    (h : ∀ i < n, v / 64 ^ i % 64 = w / 64 ^ i % 64) : v = w := by
  induction n generalizing v w with
  | zero => simp at hv hw; omega
  | succ n ih =>
    rw [pow_succ] at hv hw
    have h0 := h 0 (by omega)
    have := ih (v := v / 64) (w := w / 64) (by omega) (by omega) (by
      intro i hi
      have := h (i + 1) (by omega)
      rw [pow_succ', ← Nat.div_div_eq_div_mul, ← Nat.div_div_eq_div_mul] at this
      exact this)
    simp at h0
    omega

theorem cast_small_inj {Fp : Type} [Field Fp] {p : Nat} [CharP Fp p] {a b : ℤ}
    (h : (a : Fp) = (b : Fp)) (hab : (a - b).natAbs < p) : a = b := by
  have h2 : ((a - b : ℤ) : Fp) = 0 := by rw [Int.cast_sub, h, sub_self]
  rw [CharP.intCast_eq_zero_iff Fp p] at h2
  have := Int.eq_zero_of_abs_lt_dvd h2 (by rw [Int.abs_eq_natAbs]; exact_mod_cast hab)
  omega

theorem shortChallenges_ok {F R σ C : Type} (T : Transcript F R σ) (cs : ChallengeSet C)
    (hT : ∀ s n, (T.bytes s n).1.length = n) (hcs : ∀ bs, bs.length = cs.bytesNeeded → ∃ c, cs.decode bs = .ok c)
    (n : Nat) (s : σ) : ∃ l s', shortChallenges T cs n s = .ok (l, s') ∧ l.length = n ∧
      ∀ c ∈ l, ∃ bs, bs.length = cs.bytesNeeded ∧ cs.decode bs = .ok c := by
  induction n generalizing s with
  | zero => exact ⟨[], s, rfl, rfl, by simp⟩
  | succ n ih =>
    obtain ⟨c, hc⟩ := hcs _ (hT s cs.bytesNeeded)
    obtain ⟨l, s', h1, h2, h3⟩ := ih (T.bytes s cs.bytesNeeded).2
    refine ⟨c :: l, s', ?_, by simp [h2], ?_⟩
    · have e : shortChallenge T cs s = .ok (c, (T.bytes s cs.bytesNeeded).2) := by
        unfold shortChallenge
        simp only [hc]
      unfold shortChallenges
      rw [e]
      simp only [bind_ok', h1]
    · intro c' hc'
      rcases List.mem_cons.1 hc' with rfl | hc'
      · exact ⟨_, hT s cs.bytesNeeded, hc⟩
      · exact h3 c' hc'

end Verif
