import Verif.Lemmas.PlusSetVer
import Verif.Lemmas.Monomial
import Verif.Lemmas.Tape

/-! Soundness of the set check: counting of bad challenges. -/

set_option linter.unusedSectionVars false
set_option linter.unusedSimpArgs false

namespace Verif

open Finset Spec Polynomial

namespace Plus

variable {F R σ : Type} {d : Nat}
variable [Field F] [CommRing R] [Algebra F R] [DecidableEq F] [DecidableEq R]

/-- Defect of the entries of a column at `beta`. -/
def defect (pr : PlusRing F R d) (beta : F) (f : Nat → R) (i : Nat) : F :=
  ev pr (f i) beta * ev pr (f i) beta - ev pr (f i) (beta * beta)

/-- A claim: exponent of the first column and the columns. -/
abbrev Claim (R : Type) := Nat × List (Nat → R)

/-- The hypercube sum of a claim. -/
def claimSum (pr : PlusRing F R d) (cl : Claim R) (t : List F × F × F) : F :=
  ∑ j ∈ range cl.2.length, mle (defect pr t.2.1 (cl.2.getD j 0)) t.1 * t.2.2 ^ (j + cl.1)

/-- A claim as a polynomial function. -/
def claimFn (pr : PlusRing F R d) (cl : Claim R) (t : List F × F × F) (x : List R) : R :=
  eqPoly (t.1.map (algebraMap F R)) x * ∑ j ∈ range cl.2.length,
    (mle (fun i => algebraMap F R (ev pr (cl.2.getD j 0 i) t.2.1)) x
      * mle (fun i => algebraMap F R (ev pr (cl.2.getD j 0 i) t.2.1)) x
      - mle (fun i => algebraMap F R (ev pr (cl.2.getD j 0 i) (t.2.1 * t.2.1))) x)
    * algebraMap F R (t.2.2 ^ (j + cl.1))

theorem claimFn_deg (pr : PlusRing F R d) (cl : Claim R) (t : List F × F × F) :
    PartialDeg t.1.length 3 (claimFn pr cl t) := by
  unfold claimFn
  have h1 := partialDeg_eqPoly (t.1.map (algebraMap F R))
  rw [List.length_map] at h1
  refine Spec.PartialDeg.mul (d := 1) (e := 2) h1 ?_
  refine Spec.PartialDeg.sum _ fun j _ => ?_
  refine Spec.PartialDeg.mul (d := 2) (e := 0) ?_ (partialDeg_const _ _ _)
  refine Spec.PartialDeg.sub ?_ ((partialDeg_mle _ _).mono (by omega))
  exact Spec.PartialDeg.mul (d := 1) (e := 1) (partialDeg_mle _ _) (partialDeg_mle _ _)

theorem claimFn_sum (pr : PlusRing F R d) (cl : Claim R) (t : List F × F × F) :
    ∑ b ∈ range (2 ^ t.1.length), claimFn pr cl t (boolPoint t.1.length b) = algebraMap F R (claimSum pr cl t) := by
  have h1 : ∀ b ∈ range (2 ^ t.1.length), claimFn pr cl t (boolPoint t.1.length b)
      = ∑ j ∈ range cl.2.length, algebraMap F R (defect pr t.2.1 (cl.2.getD j 0) b * eqWeight t.1 b * t.2.2 ^ (j + cl.1)) := by
    intro b hb
    have hb' := mem_range.1 hb
    unfold claimFn
    rw [eqPoly_comm _ _ (by rw [List.length_map, boolPoint_length]),
      eqPoly_boolPoint _ _ hb' _ (by rw [List.length_map]), eqWeight_map, mul_sum]
    apply sum_congr rfl
    intro j _
    rw [mle_boolPoint _ hb', mle_boolPoint _ hb']
    unfold defect
    simp only [map_mul, map_sub]
    ring
  rw [sum_congr rfl h1, sum_comm, claimSum, map_sum]
  apply sum_congr rfl
  intro j _
  rw [mle, ← map_sum]
  congr 1
  rw [sum_mul]

theorem claimFn_at (pr : PlusRing F R d) (cl : Claim R) (t : List F × F × F) (r : List F) :
    claimFn pr cl t (r.map (algebraMap F R)) = eqPoly (t.1.map (algebraMap F R)) (r.map (algebraMap F R))
      * ∑ j ∈ range cl.2.length, verTerm pr t.2.1 (mle (cl.2.getD j 0) (r.map (algebraMap F R)))
        * algebraMap F R (t.2.2 ^ (j + cl.1)) := by
  unfold claimFn verTerm
  congr 1
  apply sum_congr rfl
  intro j _
  rw [mle_ev, mle_ev]

/-- The claims of the sets, matrices first. -/
def claimsOf (m : Nat) (sets : List (MonomialSet R)) : List (Claim R) :=
  ((matSets sets).map fun A => (0, (List.range m).map fun j i => (colL A j).getD i 0))
    ++ (vecSets sets).map fun v => (1, [fun i => v.getD i 0])

/-- All claims as a polynomial function. -/
def totFn (pr : PlusRing F R d) (cls : List (Claim R)) (cba : List (List F × F × F)) (rc : F) (x : List R) : R :=
  ∑ i ∈ range cls.length, claimFn pr (cls.getD i (0, [])) (cba.getD i noCba) x * algebraMap F R (rc ^ i)

/-- The hypercube sum of all claims. -/
def totSum (pr : PlusRing F R d) (cls : List (Claim R)) (cba : List (List F × F × F)) (rc : F) : F :=
  ∑ i ∈ range cls.length, claimSum pr (cls.getD i (0, [])) (cba.getD i noCba) * rc ^ i

theorem cba_len {cba : List (List F × F × F)} {nv k : Nat} (hl : cba.length = k) (hp : ∀ t ∈ cba, t.1.length = nv)
    {i : Nat} (hi : i < k) : (cba.getD i noCba).1.length = nv := by
  have : cba.getD i noCba = cba[i] := by simp [List.getD_eq_getElem?_getD, hl, hi]
  rw [this]
  exact hp _ (List.getElem_mem _)

theorem totFn_deg (pr : PlusRing F R d) (cls : List (Claim R)) (cba : List (List F × F × F)) (rc : F) (nv : Nat)
    (hl : cba.length = cls.length) (hp : ∀ t ∈ cba, t.1.length = nv) : PartialDeg nv 3 (totFn pr cls cba rc) := by
  unfold totFn
  refine Spec.PartialDeg.sum _ fun i hi => ?_
  have h := claimFn_deg pr (cls.getD i (0, [])) (cba.getD i noCba)
  rw [cba_len hl hp (mem_range.1 hi)] at h
  exact Spec.PartialDeg.mul (d := 3) (e := 0) h (partialDeg_const _ _ _)

theorem totFn_sum (pr : PlusRing F R d) (cls : List (Claim R)) (cba : List (List F × F × F)) (rc : F) (nv : Nat)
    (hl : cba.length = cls.length) (hp : ∀ t ∈ cba, t.1.length = nv) :
    ∑ b ∈ range (2 ^ nv), totFn pr cls cba rc (boolPoint nv b) = algebraMap F R (totSum pr cls cba rc) := by
  unfold totFn totSum
  rw [sum_comm, map_sum]
  apply sum_congr rfl
  intro i hi
  rw [← sum_mul, map_mul, ← claimFn_sum, cba_len hl hp (mem_range.1 hi)]

/-- With true evaluations the verifier recomputes the polynomial function. -/
theorem verVal_totFn (pr : PlusRing F R d) (m : Nat) (sets : List (MonomialSet R)) (cba : List (List F × F × F))
    (rc : F) (r : List F) :
    verVal pr ((matSets sets).map fun A => (List.range m).map fun j => mle (fun i => (colL A j).getD i 0) (r.map (algebraMap F R)))
      (setB (vecSets sets) (r.map (algebraMap F R))) cba rc (r.map (algebraMap F R))
    = totFn pr (claimsOf m sets) cba rc (r.map (algebraMap F R)) := by
  unfold verVal totFn claimsOf setB
  rw [List.length_append]
  simp only [List.length_map]
  rw [sum_range_add]
  congr 1
  · apply sum_congr rfl
    intro i hi
    have hi' := mem_range.1 hi
    rw [claimFn_at]
    congr 1
    rw [List.getD_append _ _ _ _ (by simpa using hi')]
    simp only [List.getD_eq_getElem?_getD, List.getElem?_map, List.getElem?_eq_getElem hi', Option.map_some,
      Option.getD_some]
    unfold verMat
    simp only [List.length_map, List.length_range, Nat.add_zero]
    congr 1
    apply sum_congr rfl
    intro j hj
    have hj' := mem_range.1 hj
    simp [List.getD_eq_getElem?_getD, hj']
  · apply sum_congr rfl
    intro i hi
    have hi' := mem_range.1 hi
    rw [claimFn_at]
    congr 1
    rw [List.getD_append_right _ _ _ _ (by simp)]
    simp only [List.length_map, Nat.add_sub_cancel_left]
    simp only [List.getD_eq_getElem?_getD, List.getElem?_map, List.getElem?_eq_getElem hi', Option.map_some,
      Option.getD_some]
    unfold verVec
    simp [sum_range_succ]
    ring

/-! ### Counting -/

theorem defect_count [Fintype F] (pr : PlusRing F R d) (h2 : (2 : F) ≠ 0) (f : Nat → R) (x : Nat)
    (hx : ¬ IsMonomial pr (f x)) : cnt 1 (fun l : List F => defect pr (l.getD 0 0) f x = 0) ≤ 2 * (d - 1) := by
  classical
  rw [cnt_succ]
  have h1 : ∀ a : F, cnt 0 (fun l : List F => defect pr ((a :: l).getD 0 0) f x = 0)
      = if defect pr a f x = 0 then 1 else 0 := by
    intro a
    rw [cnt_zero]
    rfl
  simp only [h1]
  rw [sum_boole]
  refine le_trans ?_ (bad_points pr h2 hx)
  simp only [Nat.cast_id]
  apply card_le_card
  intro a ha
  rw [mem_filter] at ha ⊢
  refine ⟨ha.1, ?_⟩
  have := ha.2
  unfold defect at this
  rw [ev_eq, ev_eq] at this
  exact sub_eq_zero.1 this

/-- The tape `(c, beta, alpha)` of one claim. -/
def tapeClaim (nv : Nat) (l : List F) : List F × F × F := (l.take nv, l.getD nv 0, l.getD (nv + 1) 0)

theorem claim_count [Fintype F] (pr : PlusRing F R d) (h2 : (2 : F) ≠ 0) (nv A : Nat) (hnv : 1 ≤ nv) (cl : Claim R)
    (hA : cl.2.length + cl.1 ≤ A + 1)
    (hbad : ∃ j < cl.2.length, ∃ x < 2 ^ nv, ¬ IsMonomial pr (cl.2.getD j 0 x)) :
    cnt (nv + 2) (fun l : List F => claimSum pr cl (tapeClaim nv l) = 0)
      ≤ (2 * (d - 1) + A + nv) * Fintype.card F ^ (nv + 2 - 1) := by
  classical
  obtain ⟨j0, hj0, x, hx, hbad⟩ := hbad
  have h0 : cnt (nv + 2) (fun l : List F => claimSum pr cl (tapeClaim nv l) = 0)
      = cnt (nv + 2) (fun l => (fun c t => claimSum pr cl (c, t.getD 0 0, t.getD 1 0) = 0) (l.take nv) (l.drop nv)) := by
    apply cnt_congr
    intro l hl
    unfold tapeClaim
    simp [List.getD_eq_getElem?_getD, List.getElem?_drop]
  rw [h0, cnt_swap nv 2 (fun c t => claimSum pr cl (c, t.getD 0 0, t.getD 1 0) = 0), Nat.add_comm nv 2]
  refine cnt_append_le 2 nv (2 * (d - 1) + A) nv (by omega) hnv _
    (fun t => ∑ j ∈ range cl.2.length, defect pr (t.getD 0 0) (cl.2.getD j 0) x * (t.getD 1 0) ^ (j + cl.1) = 0) ?_ ?_
  · refine cnt_append_le 1 1 (2 * (d - 1)) A le_rfl le_rfl _
      (fun t => defect pr (t.getD 0 0) (cl.2.getD j0 0) x = 0) ?_ ?_
    · simpa using defect_count pr h2 (cl.2.getD j0 0) x hbad
    · intro u hu hb
      obtain ⟨beta, rfl⟩ := List.length_eq_one_iff.1 hu
      simp only [List.getD_cons_zero] at hb
      have := cnt_powers (F := F) A (fun i => if i < cl.1 then 0 else if i < cl.1 + cl.2.length then
        defect pr beta (cl.2.getD (i - cl.1) 0) x else 0) ⟨j0 + cl.1, by omega, by
          rw [if_neg (by omega), if_pos (by omega), Nat.add_sub_cancel]
          exact hb⟩
      simp only [Nat.sub_self, pow_zero, mul_one]
      refine le_trans (cnt_mono fun l hl hp => ?_) this
      obtain ⟨alpha, rfl⟩ := List.length_eq_one_iff.1 hl
      simp only [List.singleton_append, List.getD_cons_zero, List.getD_cons_succ] at hp ⊢
      rw [show A + 1 = cl.1 + (cl.2.length + (A + 1 - cl.1 - cl.2.length)) by omega, sum_range_add, sum_range_add]
      rw [sum_eq_zero (by intro i hi; rw [if_pos (mem_range.1 hi), zero_mul]), zero_add]
      have e1 : ∑ i ∈ range (A + 1 - cl.1 - cl.2.length), (if cl.1 + (cl.2.length + i) < cl.1 then 0 else
          if cl.1 + (cl.2.length + i) < cl.1 + cl.2.length then
          defect pr beta (cl.2.getD (cl.1 + (cl.2.length + i) - cl.1) 0) x else 0) * alpha ^ (cl.1 + (cl.2.length + i)) = 0 := by
        apply sum_eq_zero
        intro i _
        rw [if_neg (by omega), if_neg (by omega), zero_mul]
      rw [e1, add_zero]
      refine Eq.trans (sum_congr rfl fun i hi => ?_) hp
      have := mem_range.1 hi
      rw [if_neg (by omega), if_pos (by omega), Nat.add_sub_cancel_left, Nat.add_comm]
  · intro u hu hb
    have := cnt_mle nv (fun y => ∑ j ∈ range cl.2.length, defect pr (u.getD 0 0) (cl.2.getD j 0) y
      * (u.getD 1 0) ^ (j + cl.1)) ⟨x, hx, hb⟩
    refine le_trans (cnt_mono fun l hl hp => ?_) this
    rw [List.take_left' hu, List.drop_left' hu] at hp
    unfold claimSum at hp
    rw [mle_sum]
    refine Eq.trans (sum_congr rfl fun j _ => ?_) hp
    have := mle_smul (u.getD 1 0 ^ (j + cl.1)) (defect pr (u.getD 0 0) (cl.2.getD j 0)) l
    simp only [mul_comm] at this ⊢
    exact this

/-! ### The tape -/

theorem drawClaim_coin (nv : Nat) (s : List F) (h : nv + 2 ≤ s.length) :
    drawClaim (coinT F R) nv s = (tapeClaim nv (s.take (nv + 2)), s.drop (nv + 2)) := by
  unfold drawClaim
  rw [challenges_coin nv s (by omega)]
  have hc : ∀ s : List F, (coinT F R).challenge s = (s.headD 0, s.tail) := fun _ => rfl
  simp only [hc]
  unfold tapeClaim
  refine Prod.ext ?_ ?_
  · simp only
    refine Prod.ext ?_ (Prod.ext ?_ ?_)
    · simp [List.take_take]
    · simp [List.getD_eq_getElem?_getD, List.headD_eq_head?_getD]
    · simp [List.getD_eq_getElem?_getD, List.headD_eq_head?_getD, List.getElem?_take]
  · simp [List.drop_drop]

theorem drawClaims_coin (nv k : Nat) (s : List F) (h : k * (nv + 2) ≤ s.length) :
    drawClaims (coinT F R) nv k s = ((List.range k).map fun i =>
      tapeClaim nv ((s.drop (i * (nv + 2))).take (nv + 2)), s.drop (k * (nv + 2))) := by
  induction k generalizing s with
  | zero => simp [drawClaims]
  | succ k ih =>
    have e : (k + 1) * (nv + 2) = k * (nv + 2) + (nv + 2) := by ring
    unfold drawClaims
    rw [drawClaim_coin nv s (by rw [e] at h; omega)]
    simp only
    rw [ih _ (by rw [List.length_drop]; omega), List.range_succ_eq_map]
    simp only [List.map_cons, List.map_map, List.drop_drop]
    refine Prod.ext ?_ ?_
    · simp only [List.cons.injEq]
      refine ⟨by simp, List.map_congr_left fun i _ => ?_⟩
      simp only [Function.comp]
      congr 3
      rw [Nat.succ_eq_add_one]
      ring
    · simp only
      congr 1
      rw [e]; ring

/-- Number of challenges drawn before the sum-check. -/
def tapeLen (nv nMs nms : Nat) : Nat := (nMs + nms) * (nv + 2) + if nMs > 1 then 1 else 0

theorem drawAll_coin (nv nMs nms : Nat) (u v : List F) (h : u.length = tapeLen nv nMs nms) :
    drawAll (coinT F R) nv nMs nms (u ++ v) = (((List.range (nMs + nms)).map fun i =>
      tapeClaim nv ((u.drop (i * (nv + 2))).take (nv + 2)),
      if nMs > 1 then some (u.getD ((nMs + nms) * (nv + 2)) 0) else none), v) := by
  unfold tapeLen at h
  have e : ∀ i ∈ List.range (nMs + nms), tapeClaim nv (((u ++ v).drop (i * (nv + 2))).take (nv + 2))
      = tapeClaim nv ((u.drop (i * (nv + 2))).take (nv + 2)) := by
    intro i hi
    have hi' := List.mem_range.1 hi
    have : (i + 1) * (nv + 2) ≤ (nMs + nms) * (nv + 2) := Nat.mul_le_mul_right _ (by omega)
    have h3 : (i + 1) * (nv + 2) = i * (nv + 2) + (nv + 2) := by ring
    rw [List.drop_append_of_le_length (by omega), List.take_append_of_le_length (by rw [List.length_drop]; omega)]
  unfold drawAll
  rw [drawClaims_coin nv (nMs + nms) (u ++ v) (by rw [List.length_append]; omega)]
  simp only
  rw [List.map_congr_left e]
  split
  · rename_i hgt
    rw [if_pos hgt] at h
    have hc : ∀ s : List F, (coinT F R).challenge s = (s.headD 0, s.tail) := fun _ => rfl
    rw [List.drop_append_of_le_length (by omega)]
    obtain ⟨x, hx⟩ : ∃ x, u.drop ((nMs + nms) * (nv + 2)) = [x] := by
      apply List.length_eq_one_iff.1
      rw [List.length_drop]; omega
    have hx2 : u.getD ((nMs + nms) * (nv + 2)) 0 = x := by
      have := congrArg (fun l => l.getD 0 0) hx
      simpa [List.getD_eq_getElem?_getD, List.getElem?_drop] using this
    rw [hx, hx2]
    rfl
  · rename_i hgt
    rw [if_neg hgt] at h
    rw [List.drop_left' (by omega)]

/-- Few tapes make the hypercube sum zero. -/
theorem tot_count [Fintype F] (pr : PlusRing F R d) (h2 : (2 : F) ≠ 0) (nv A nMs nms : Nat) (hnv : 1 ≤ nv)
    (cls : List (Claim R)) (hl : cls.length = nMs + nms) (hone : nMs > 1 ∨ nMs + nms = 1)
    (hA : ∀ cl ∈ cls, cl.2.length + cl.1 ≤ A + 1)
    (hbad : ∃ cl ∈ cls, ∃ j < cl.2.length, ∃ x < 2 ^ nv, ¬ IsMonomial pr (cl.2.getD j 0 x)) :
    cnt (tapeLen nv nMs nms) (fun u : List F => totSum pr cls
        ((List.range (nMs + nms)).map fun i => tapeClaim nv ((u.drop (i * (nv + 2))).take (nv + 2)))
        ((if nMs > 1 then some (u.getD ((nMs + nms) * (nv + 2)) 0) else none : Option F).getD 1) = 0)
      ≤ (2 * (d - 1) + A + nv + (nMs + nms - 1)) * Fintype.card F ^ (tapeLen nv nMs nms - 1) := by
  classical
  obtain ⟨cl, hcl, hb⟩ := hbad
  obtain ⟨i0, hi0, rfl⟩ := List.getElem_of_mem hcl
  set k := nMs + nms with hk
  have hg : cls.getD i0 (0, []) = cls[i0] := by simp [List.getD_eq_getElem?_getD, hi0]
  have hone' := claim_count pr h2 nv A hnv cls[i0] (hA _ hcl) hb
  have hc0 : ∀ (u : List F) (i : Nat), i < k → ((List.range k).map fun i =>
      tapeClaim nv ((u.drop (i * (nv + 2))).take (nv + 2))).getD i noCba
      = tapeClaim nv ((u.drop (i * (nv + 2))).take (nv + 2)) := by
    intro u i hi
    simp [List.getD_eq_getElem?_getD, hi]
  have hmid := cnt_middle (i0 * (nv + 2)) (nv + 2) ((k - 1 - i0) * (nv + 2)) _ (by omega) _ hone'
  have hlen : i0 * (nv + 2) + (nv + 2) + (k - 1 - i0) * (nv + 2) = k * (nv + 2) := by
    have : k = i0 + 1 + (k - 1 - i0) := by omega
    conv_rhs => rw [this]
    ring
  rw [hlen] at hmid
  unfold tapeLen
  simp only [← hk]
  by_cases hgt : nMs > 1
  · rw [if_pos hgt]
    simp only [if_pos hgt, Option.getD_some]
    have hk1 : 1 ≤ k * (nv + 2) := by
      have : 1 * 1 ≤ k * (nv + 2) := Nat.mul_le_mul (by omega) (by omega)
      omega
    refine cnt_append_le (k * (nv + 2)) 1 (2 * (d - 1) + A + nv) (k - 1) hk1 le_rfl _
      (fun l => claimSum pr cls[i0] (tapeClaim nv ((l.drop (i0 * (nv + 2))).take (nv + 2))) = 0) hmid ?_
    intro u hu hbad
    have := cnt_powers (F := F) (k - 1) (fun i => claimSum pr (cls.getD i (0, []))
      (tapeClaim nv ((u.drop (i * (nv + 2))).take (nv + 2)))) ⟨i0, by omega, by rw [hg]; exact hbad⟩
    simp only [Nat.sub_self, pow_zero, mul_one]
    refine le_trans (cnt_mono fun l hl' hp => ?_) this
    obtain ⟨x, rfl⟩ := List.length_eq_one_iff.1 hl'
    unfold totSum at hp
    rw [show k - 1 + 1 = cls.length by omega]
    refine Eq.trans (sum_congr rfl fun i hi => ?_) hp
    have hi' := mem_range.1 hi
    rw [hc0 _ _ (by omega)]
    have h3 : (i + 1) * (nv + 2) ≤ k * (nv + 2) := Nat.mul_le_mul_right _ (by omega)
    have h4 : (i + 1) * (nv + 2) = i * (nv + 2) + (nv + 2) := by ring
    rw [List.drop_append_of_le_length (by omega), List.take_append_of_le_length (by rw [List.length_drop]; omega),
      List.getD_append_right _ _ _ _ (by omega), hu, Nat.sub_self]
  · rw [if_neg hgt]
    simp only [if_neg hgt, Option.getD_none]
    have hk1 : k = 1 := by omega
    have hi00 : i0 = 0 := by omega
    subst hi00
    rw [hk1] at hmid hc0 ⊢
    rw [Nat.add_zero]
    refine le_trans (cnt_mono fun l hl' hp => ?_) (hmid.trans ?_)
    · unfold totSum at hp
      rw [show cls.length = 1 by omega, sum_range_one, hc0 _ _ (by omega), hg] at hp
      simpa using hp
    · apply Nat.mul_le_mul_right
      omega

end Plus

end Verif
