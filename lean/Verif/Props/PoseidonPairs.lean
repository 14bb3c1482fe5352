import Verif.Props.Poseidon

/-!
# C76: differences in two words for BabyBear and Frog
-/

namespace Verif.Props

open Finset Verif Verif.Spec Verif.Poseidon

/-- Does the column `(a, b)` of two rows form a singular `2 × 2` matrix with no other column? -/
def minorCol (p a b : Nat) : List Nat → List Nat → Bool
  | c :: cs, d :: ds => (a * d % p != b * c % p) && minorCol p a b cs ds
  | _, _ => true

/-- Are all `2 × 2` minors of two rows invertible? -/
def minorPair (p : Nat) : List Nat → List Nat → Bool
  | a :: as, b :: bs => minorCol p a b as bs && minorPair p as bs
  | _, _ => true

/-- Are all `2 × 2` minors of a table invertible? -/
def minorTable (p : Nat) : List (List Nat) → Bool
  | [] => true
  | r :: rs => rs.all (minorPair p r) && minorTable p rs

theorem minorCol_get {p a b : Nat} {cs ds : List Nat} (h : minorCol p a b cs ds = true) (l : Nat) (hc : l < cs.length) (hd : l < ds.length) :
    a * ds.getD l 0 % p ≠ b * cs.getD l 0 % p := by
  induction cs generalizing ds l with
  | nil => simp at hc
  | cons c cs ih =>
    cases ds with
    | nil => simp at hd
    | cons d ds =>
      simp only [minorCol, Bool.and_eq_true, bne_iff_ne, ne_eq] at h
      cases l with
      | zero => simpa using h.1
      | succ l => simpa using ih h.2 l (by simpa using hc) (by simpa using hd)

theorem minorPair_get {p : Nat} {as bs : List Nat} (h : minorPair p as bs = true) (k l : Nat) (hkl : k < l) (hc : l < as.length) (hd : l < bs.length) :
    as.getD k 0 * bs.getD l 0 % p ≠ bs.getD k 0 * as.getD l 0 % p := by
  induction as generalizing bs k l with
  | nil => simp at hc
  | cons a as ih =>
    cases bs with
    | nil => simp at hd
    | cons b bs =>
      simp only [minorPair, Bool.and_eq_true] at h
      obtain ⟨l, rfl⟩ : ∃ l', l = l' + 1 := ⟨l - 1, by omega⟩
      cases k with
      | zero => simpa using minorCol_get h.1 l (by simpa using hc) (by simpa using hd)
      | succ k => simpa using ih h.2 k l (by omega) (by simpa using hc) (by simpa using hd)

theorem minorTable_get {p : Nat} {t : List (List Nat)} (h : minorTable p t = true) (i j : Nat) (hij : i < j) (hj : j < t.length) :
    minorPair p (t.getD i []) (t.getD j []) = true := by
  induction t generalizing i j with
  | nil => simp at hj
  | cons r t ih =>
    simp only [minorTable, Bool.and_eq_true, List.all_eq_true] at h
    obtain ⟨j, rfl⟩ : ∃ j', j = j' + 1 := ⟨j - 1, by omega⟩
    have hj : j < t.length := by simpa using hj
    cases i with
    | zero =>
      have := h.1 t[j] (List.getElem_mem hj)
      simpa [hj] using this
    | succ i => simpa using ih h.2 i j (by omega) hj

/-- The shape of the tables. -/
def squareCheck (w : Nat) (t : List (List Nat)) : Bool := (t.length == w) && t.all fun r => r.length == w

theorem minor_ne {p w : Nat} {t : List (List Nat)} (hs : squareCheck w t = true) (h : minorTable p t = true) (i j k l : Fin w) (hij : i ≠ j)
    (hkl : k ≠ l) : cellMat p w t i k * cellMat p w t j l - cellMat p w t i l * cellMat p w t j k ≠ 0 := by
  simp only [squareCheck, Bool.and_eq_true, beq_iff_eq, List.all_eq_true] at hs
  have hlen : ∀ i : Fin w, (t.getD i.val []).length = w := fun i => by
    rw [List.getD_eq_getElem?_getD, List.getElem?_eq_getElem (by rw [hs.1]; exact i.isLt)]
    exact hs.2 _ (List.getElem_mem _)
  have key : ∀ i j k l : Fin w, i < j → k < l →
      cellMat p w t i k * cellMat p w t j l - cellMat p w t i l * cellMat p w t j k ≠ 0 := by
    intro i j k l hij hkl h0
    have h1 := minorPair_get (minorTable_get h i.val j.val hij (by rw [hs.1]; exact j.isLt)) k.val l.val hkl
      (by rw [hlen]; exact l.isLt) (by rw [hlen]; exact l.isLt)
    apply h1
    have h2 := sub_eq_zero.1 h0
    simp only [cellMat, cell] at h2
    rw [mul_comm ((t.getD j.val []).getD k.val 0)]
    exact (ZMod.natCast_eq_natCast_iff' _ _ p).1 (by push_cast; exact h2)
  rcases lt_or_gt_of_ne hij with h1 | h1 <;> rcases lt_or_gt_of_ne hkl with h2 | h2
  · exact key i j k l h1 h2
  · intro h0
    apply key i j l k h1 h2
    rw [← neg_eq_zero, ← h0]
    ring
  · intro h0
    apply key j i k l h1 h2
    rw [← neg_eq_zero, ← h0]
    ring
  · intro h0
    apply key j i l k h1 h2
    rw [← h0]
    ring

/-- A matrix whose `2 × 2` minors do not vanish spreads a difference in two entries to all entries but one. -/
theorem spread_pair {L : Type} [Field L] [DecidableEq L] {w : Nat} (M : Matrix (Fin w) (Fin w) L)
    (hM : ∀ i j k l, i ≠ j → k ≠ l → M i k * M j l - M i l * M j k ≠ 0) (v : Fin w → L) (hv : weight v = 2) :
    w ≤ weight (M.mulVec v) + 1 := by
  obtain ⟨k, l, hkl, hs⟩ := Finset.card_eq_two.1 hv
  have hmem : ∀ i, v i ≠ 0 ↔ i = k ∨ i = l := fun i => by
    have : i ∈ univ.filter (fun i => v i ≠ 0) ↔ i ∈ ({k, l} : Finset (Fin w)) := by rw [hs]
    simpa using this
  have hval : ∀ i, M.mulVec v i = M i k * v k + M i l * v l := fun i => by
    simp only [Matrix.mulVec, dotProduct]
    rw [Finset.sum_eq_add k l hkl]
    · intro j _ hj
      have : v j = 0 := by
        by_contra h0
        rcases (hmem j).1 h0 with rfl | rfl
        · exact hj.1 rfl
        · exact hj.2 rfl
      rw [this, mul_zero]
    · intro h; exact absurd (mem_univ _) h
    · intro h; exact absurd (mem_univ _) h
  have hz : (univ.filter fun i => ¬ M.mulVec v i ≠ 0).card ≤ 1 := by
    rw [Finset.card_le_one]
    intro i hi j hj
    by_contra hij
    simp only [mem_filter, mem_univ, true_and, not_not] at hi hj
    rw [hval] at hi hj
    have h1 : (M i k * M j l - M i l * M j k) * v k = 0 := by linear_combination M j l * hi - M i l * hj
    rcases mul_eq_zero.1 h1 with h2 | h2
    · exact hM i j k l hij hkl h2
    · exact (hmem k).2 (.inl rfl) h2
  have := Finset.card_filter_add_card_filter_not (s := (univ : Finset (Fin w))) (fun i => M.mulVec v i ≠ 0)
  rw [Finset.card_univ, Fintype.card_fin] at this
  unfold weight
  omega

theorem mds_pairs {p : Nat} [Fact p.Prime] {N : List (List Nat)} (h1 : minorTable p mds64 = true) (hs : squareCheck 24 N = true)
    (h2 : minorTable p N = true) (h3 : invCheck p 24 N mds64 = true) (x y : Fin (cfg64 p).width → ZMod p) :
    (weight (x - y) = 2 → 23 ≤ weight ((cfg64 p).applyMds x - (cfg64 p).applyMds y)) ∧
    (weight ((cfg64 p).applyMds x - (cfg64 p).applyMds y) = 2 → 23 ≤ weight (x - y)) := by
  rw [mds_sub, mdsMat64]
  have hq : squareCheck 24 mds64 = true := by decide +kernel
  refine ⟨fun h => ?_, fun h => ?_⟩
  · have := spread_pair (cellMat p 24 mds64) (fun i j k l => minor_ne hq h1 i j k l) _ h
    exact Nat.le_of_succ_le_succ this
  have h4 := spread_pair (cellMat p 24 N) (fun i j k l => minor_ne hs h2 i j k l)
    (Matrix.mulVec (cellMat p 24 mds64) (x - y)) h
  have h5 : Matrix.mulVec (cellMat p 24 N) (Matrix.mulVec (cellMat p 24 mds64) (x - y)) = x - y :=
    (Matrix.mulVec_mulVec _ _ _).trans
      ((congrArg (fun A => Matrix.mulVec A (x - y)) (invCheck_mul h3)).trans (Matrix.one_mulVec _))
  have h6 : weight (x - y) = _ := (congrArg weight h5).symm
  exact Nat.le_of_succ_le_succ (h4.trans (Nat.succ_le_succ h6.ge))

theorem minors_frog : minorTable pFrog mds64 = true := by decide +kernel
theorem minors_frog_inv : minorTable pFrog inv_frog = true := by decide +kernel
theorem minors_babybear : minorTable pBabyBear mds64 = true := by decide +kernel
theorem minors_babybear_inv : minorTable pBabyBear inv_babybear = true := by decide +kernel

/-- **C76**, BabyBear and Frog, partial: a difference in two entries spreads to at least 23 entries, and a difference in two entries of the image
comes from a difference in at least 23. Missing: the other numbers of entries (one entry: `C76_single_partial`). For BabyBear the rest is false
(`C76_babybear_not_max`); for Frog it is open. -/
theorem C76_pair_partial :
    (∀ x y, (weight (x - y) = 2 → 23 ≤ weight ((cfg64 pBabyBear).applyMds x - (cfg64 pBabyBear).applyMds y)) ∧
      (weight ((cfg64 pBabyBear).applyMds x - (cfg64 pBabyBear).applyMds y) = 2 → 23 ≤ weight (x - y))) ∧
    (∀ x y, (weight (x - y) = 2 → 23 ≤ weight ((cfg64 pFrog).applyMds x - (cfg64 pFrog).applyMds y)) ∧
      (weight ((cfg64 pFrog).applyMds x - (cfg64 pFrog).applyMds y) = 2 → 23 ≤ weight (x - y))) := by
  refine ⟨fun x y => ?_, fun x y => ?_⟩
  · exact mds_pairs minors_babybear (by decide +kernel) minors_babybear_inv inv_babybear_ok x y
  · exact mds_pairs minors_frog (by decide +kernel) minors_frog_inv inv_frog_ok x y

theorem weight_two {K : Type} [CommRing K] [DecidableEq K] {w : Nat} (i j : Fin w) (hij : i ≠ j) (a b : K) (ha : a ≠ 0) (hb : b ≠ 0) :
    weight (Pi.single i a - Pi.single j b : Fin w → K) = 2 := by
  unfold weight
  rw [Finset.card_eq_two]
  refine ⟨i, j, hij, ?_⟩
  ext k
  simp only [mem_filter, mem_univ, true_and, mem_insert, mem_singleton, Pi.sub_apply, Pi.single_apply]
  by_cases h1 : k = i
  · subst h1
    simp [hij, ha]
  · by_cases h2 : k = j
    · subst h2
      simp [h1, hb]
    · simp [h1, h2]

example : 23 ≤ weight ((cfg64 pFrog).applyMds (Pi.single (3 : Fin 24) 5) - (cfg64 pFrog).applyMds (Pi.single (7 : Fin 24) 2)) := by
  have h5 : ((5 : Nat) : ZMod pFrog) ≠ 0 := by
    rw [Ne, ZMod.natCast_eq_zero_iff]
    exact fun h => absurd (Nat.le_of_dvd (by norm_num) h) (by norm_num)
  have h2 : ((2 : Nat) : ZMod pFrog) ≠ 0 := by
    rw [Ne, ZMod.natCast_eq_zero_iff]
    exact fun h => absurd (Nat.le_of_dvd (by norm_num) h) (by norm_num)
  exact (C76_pair_partial.2 _ _).1 (weight_two (3 : Fin 24) 7 (by decide) _ _ (by exact_mod_cast h5) (by exact_mod_cast h2))

end Verif.Props
