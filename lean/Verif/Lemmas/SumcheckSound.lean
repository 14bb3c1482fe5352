import Verif.Lemmas.Sumcheck
import Mathlib.LinearAlgebra.Dual.Lemmas
import Mathlib.Data.Fintype.BigOperators
import Mathlib.Algebra.Polynomial.Roots
import Mathlib.Logic.Equiv.Fin.Basic

/-! Helper lemmas: soundness of the sum-check, synchronisation, schedules. -/

set_option linter.unusedSectionVars false
set_option linter.unusedSimpArgs false

namespace Verif

open Finset Polynomial Spec

variable {F R σ : Type} [Field F] [DecidableEq F] [CommRing R] [DecidableEq R] [Algebra F R]

/-! ### Polynomials over an algebra evaluated at scalars -/

/-- A nonzero polynomial of degree at most `d` over an `F`-algebra has at most `d` roots in `F`. -/
theorem card_scalar_roots [Fintype F] (D : R[X]) (hD : D ≠ 0) (d : Nat) (hdeg : D.natDegree ≤ d) :
    (univ.filter fun r : F => D.eval (algebraMap F R r) = 0).card ≤ d := by
  obtain ⟨i, hi⟩ : ∃ i, D.coeff i ≠ 0 := by
    by_contra h
    push Not at h
    exact hD (Polynomial.ext fun i => by simpa using h i)
  obtain ⟨φ, hφ⟩ : ∃ φ : Module.Dual F R, φ (D.coeff i) ≠ 0 := by
    by_contra h
    push Not at h
    exact hi ((Module.forall_dual_apply_eq_zero_iff F _).1 h)
  let E : F[X] := ∑ j ∈ range (d + 1), C (φ (D.coeff j)) * X ^ j
  have hcoeff : ∀ j, E.coeff j = if j ≤ d then φ (D.coeff j) else 0 := by
    intro j
    simp only [E, finsetSum_coeff, coeff_C_mul, coeff_X_pow, mul_ite, mul_one, mul_zero]
    rw [Finset.sum_ite_eq]
    simp [Nat.lt_succ_iff]
  have hE : E ≠ 0 := by
    intro h
    have h1 := hcoeff i
    have h2 : i ≤ d := le_trans (le_natDegree_of_ne_zero hi) hdeg
    rw [if_pos h2, h] at h1
    exact hφ (by rw [← h1]; simp)
  have hEdeg : E.natDegree ≤ d := by
    refine natDegree_sum_le_of_forall_le _ _ fun j hj => ?_
    exact (natDegree_C_mul_X_pow_le _ _).trans (by simpa [Nat.lt_succ_iff] using hj)
  have hroot : ∀ r : F, D.eval (algebraMap F R r) = 0 → E.eval r = 0 := by
    intro r hr
    rw [eval_eq_sum_range' (Nat.lt_succ_of_le hdeg)] at hr
    have := congrArg φ hr
    rw [map_sum, map_zero] at this
    simp only [E, eval_finsetSum, eval_mul, eval_C, eval_pow, eval_X]
    rw [← this]
    apply sum_congr rfl
    intro j _
    rw [← map_pow, mul_comm (D.coeff j), ← Algebra.smul_def, map_smul, smul_eq_mul, mul_comm]
  calc (univ.filter fun r : F => D.eval (algebraMap F R r) = 0).card
      ≤ E.roots.toFinset.card := by
        apply card_le_card
        intro r hr
        simp only [mem_filter, mem_univ, true_and] at hr
        rw [Multiset.mem_toFinset, mem_roots hE]
        exact hroot r hr
    _ ≤ E.roots.card := Multiset.toFinset_card_le _
    _ ≤ d := (card_roots' E).trans hEdeg

/-- Every list of `d + 1` values is interpolated by a polynomial of degree at most `d`. -/
theorem exists_interpolant (d : Nat) (hc : CharGt F d) (m : List R) (hm : m.length = d + 1) :
    ∃ q : R[X], q.natDegree ≤ d ∧ m = (List.range (d + 1)).map fun j : Nat => q.eval (j : R) := by
  have hinj : Set.InjOn (fun k : Nat => (k : F)) (range (d + 1) : Finset Nat) := by
    intro a ha b hb hab
    simp only [coe_range, Set.mem_Iio, Nat.lt_succ_iff] at ha hb
    exact hc.cast_inj ha hb hab
  let B : Nat → F[X] := fun j => Lagrange.basis (range (d + 1)) (fun k : Nat => (k : F)) j
  refine ⟨∑ j ∈ range (d + 1), C (m.getD j 0) * (B j).map (algebraMap F R), ?_, ?_⟩
  · refine natDegree_sum_le_of_forall_le _ _ fun j hj => ?_
    refine (natDegree_C_mul_le _ _).trans (natDegree_map_le.trans ?_)
    have := Lagrange.degree_basis hinj hj
    rw [natDegree_eq_of_degree_eq_some (n := d)]
    rw [this]; simp
  · apply List.ext_getElem
    · simp [hm]
    · intro i h1 h2
      have hi : i ∈ range (d + 1) := by simpa [hm] using h1
      simp only [List.getElem_map, List.getElem_range, eval_finsetSum, eval_mul, eval_C]
      rw [Finset.sum_eq_single i]
      · have : eval (i : R) ((B i).map (algebraMap F R)) = 1 := by
          rw [← map_natCast (algebraMap F R), eval_map_apply, Lagrange.eval_basis_self hinj hi, map_one]
        rw [this]; simp [List.getD_eq_getElem?_getD, h1]
      · intro j hj hji
        have : eval (i : R) ((B j).map (algebraMap F R)) = 0 := by
          rw [← map_natCast (algebraMap F R), eval_map_apply]
          have := Lagrange.eval_basis_of_ne (v := fun k : Nat => (k : F)) hji hi
          rw [this, map_zero]
        rw [this, mul_zero]
      · intro h; exact absurd hi h

/-! ### Counting -/

theorem card_filter_cons [Fintype F] (k : Nat) (p : (Fin (k + 1) → F) → Prop) [DecidablePred p] :
    (univ.filter p).card
      = ∑ a : F, (univ.filter fun r : Fin k → F => p (Fin.cons a r)).card := by
  simp only [card_filter]
  rw [← (Fin.consEquiv (fun _ : Fin (k + 1) => F)).sum_comp, Fintype.sum_prod_type]
  rfl

/-- Sum of `f` over the remaining cube, after the prefix `u`. -/
def restSum (f : List R → R) (u : List R) (k : Nat) : R :=
  ∑ b ∈ range (2 ^ k), f (u ++ boolPoint k b)

theorem restSum_succ (f : List R → R) (u : List R) (k : Nat) :
    restSum f u (k + 1) = restSum f (u ++ [0]) k + restSum f (u ++ [1]) k := by
  unfold restSum
  rw [pow_succ, mul_comm, sum_range_two_mul, ← sum_add_distrib]
  apply sum_congr rfl
  intro b _
  rw [boolPoint_succ, boolPoint_succ]
  have h1 : (2 * b).testBit 0 = false := by simp [Nat.testBit_zero]
  have h2 : (2 * b + 1).testBit 0 = true := by simp [Nat.testBit_zero]
  rw [h1, h2, show 2 * b / 2 = b by omega, show (2 * b + 1) / 2 = b by omega]
  simp

theorem restSum_poly {f : List R → R} {n d : Nat} (hf : PartialDeg n d f) (u : List R) (k : Nat)
    (hk : u.length + 1 + k = n) :
    ∃ q : R[X], q.natDegree ≤ d ∧ ∀ t, restSum f (u ++ [t]) k = q.eval t := by
  choose q hq1 hq2 using fun b => hf u (boolPoint k b) (by rw [boolPoint_length]; exact hk)
  refine ⟨∑ b ∈ range (2 ^ k), q b, natDegree_sum_le_of_forall_le _ _ fun b _ => hq1 b, fun t => ?_⟩
  unfold restSum
  rw [eval_finsetSum]
  apply sum_congr rfl
  intro b _
  rw [← hq2]; simp

/-- Adaptive messages for the remaining `rs`, after `u`. -/
def stratRec (P : List F → List R) : List F → List F → List (List R)
  | _, [] => []
  | u, r :: rs => P u :: stratRec P (u ++ [r]) rs

theorem stratRec_eq (P : List F → List R) (u rs : List F) :
    stratRec P u rs = (List.range rs.length).map fun i => P (u ++ rs.take i) := by
  induction rs generalizing u with
  | nil => rfl
  | cons r rs ih =>
    rw [stratRec, ih, List.length_cons, List.range_succ_eq_map]
    simp [Function.comp_def]

open Classical in
theorem soundness_count [Fintype F] {f : List R → R} {n d : Nat} (hf : PartialDeg n d f)
    (hc : CharGt F d) (P : List F → List R) (k : Nat) (u : List F) (hu : u.length + k = n) (e : R)
    (he : e ≠ restSum f (u.map (algebraMap F R)) k) :
    (univ.filter fun r : Fin k → F => ∃ e', checkRec d (stratRec P u (List.ofFn r)) (List.ofFn r) e = .ok e' ∧
      e' = f ((u ++ List.ofFn r).map (algebraMap F R))).card ≤ k * d * Fintype.card F ^ (k - 1) := by
  induction k generalizing u e with
  | zero =>
    simp only [zero_mul, Nat.le_zero, card_eq_zero, filter_eq_empty_iff, mem_univ, forall_true_left]
    rintro r ⟨e', h1, h2⟩
    simp only [List.ofFn_zero, stratRec, checkRec, Except.ok.injEq, List.append_nil] at h1 h2
    apply he
    rw [h1, h2, restSum]
    simp [boolPoint]
  | succ k ih =>
    rw [card_filter_cons]
    simp only [List.ofFn_cons, stratRec]
    by_cases hlen : (P u).length = d + 1
    swap
    · refine le_trans (le_of_eq (sum_eq_zero fun a _ => ?_)) (Nat.zero_le _)
      rw [card_eq_zero, filter_eq_empty_iff]
      rintro r _ ⟨e', h1, -⟩
      rw [checkRec, if_pos hlen] at h1
      simp at h1
    obtain ⟨q, hq1, hq2⟩ := exists_interpolant d hc (P u) hlen
    obtain ⟨Q, hQ1, hQ2⟩ := restSum_poly hf (u.map (algebraMap F R)) k (by simp; omega)
    by_cases hd : d = 0
    · refine le_trans (le_of_eq (sum_eq_zero fun a _ => ?_)) (Nat.zero_le _)
      rw [card_eq_zero, filter_eq_empty_iff]
      rintro r _ ⟨e', h1, -⟩
      rw [checkRec, if_neg (by simpa using hlen), idx_ok (by omega), idx_error (by omega)] at h1
      simp at h1
    have h0 : idx "evaluations[0]" (P u) 0 = .ok (q.eval 0) := by
      rw [idx_eq_ok, hq2, List.getElem?_map, List.getElem?_range (by omega)]; simp
    have h1 : idx "evaluations[1]" (P u) 1 = .ok (q.eval 1) := by
      rw [idx_eq_ok, hq2, List.getElem?_map, List.getElem?_range (by omega)]; simp
    by_cases hsum : q.eval 0 + q.eval 1 ≠ e
    · refine le_trans (le_of_eq (sum_eq_zero fun a _ => ?_)) (Nat.zero_le _)
      rw [card_eq_zero, filter_eq_empty_iff]
      rintro r _ ⟨e', h, -⟩
      rw [checkRec, if_neg (by simpa using hlen), h0, h1] at h
      simp only [bind_ok'] at h
      rw [if_pos hsum] at h
      simp at h
    have hne : q - Q ≠ 0 := by
      intro h
      have hqQ : q = Q := sub_eq_zero.1 h
      push Not at hsum
      apply he
      rw [restSum_succ, hQ2, hQ2, ← hqQ, ← hsum]
    have hstep : ∀ a : F, ∀ ms rs, checkRec d (P u :: ms) (a :: rs) e
        = checkRec d ms rs (q.eval (algebraMap F R a)) := by
      intro a ms rs
      rw [checkRec, if_neg (by simpa using hlen), h0, h1]
      simp only [bind_ok']
      rw [if_neg hsum, interpolate_poly d hc q hq1 _ hq2]
      rfl
    simp only [hstep]
    set bad := univ.filter fun a : F => (q - Q).eval (algebraMap F R a) = 0 with hbad
    have hbadc : bad.card ≤ d := card_scalar_roots (q - Q) hne d
      ((natDegree_sub_le _ _).trans (Nat.max_le.2 ⟨hq1, hQ1⟩))
    rw [← sum_filter_add_sum_filter_not univ (fun a : F => (q - Q).eval (algebraMap F R a) = 0)]
    have hA : ∑ a ∈ univ.filter (fun a : F => (q - Q).eval (algebraMap F R a) = 0),
        (univ.filter fun r : Fin k → F => ∃ e', checkRec d (stratRec P (u ++ [a]) (List.ofFn r))
          (List.ofFn r) (q.eval (algebraMap F R a)) = .ok e' ∧
          e' = f ((u ++ a :: List.ofFn r).map (algebraMap F R))).card
        ≤ d * Fintype.card F ^ k := by
      refine (sum_le_card_nsmul _ _ (Fintype.card F ^ k) fun a _ => ?_).trans ?_
      · refine (card_filter_le _ _).trans ?_
        simp
      · rw [smul_eq_mul]
        exact Nat.mul_le_mul_right _ hbadc
    have hB : ∑ a ∈ univ.filter (fun a : F => ¬ (q - Q).eval (algebraMap F R a) = 0),
        (univ.filter fun r : Fin k → F => ∃ e', checkRec d (stratRec P (u ++ [a]) (List.ofFn r))
          (List.ofFn r) (q.eval (algebraMap F R a)) = .ok e' ∧
          e' = f ((u ++ a :: List.ofFn r).map (algebraMap F R))).card
        ≤ k * d * Fintype.card F ^ k := by
      refine (sum_le_card_nsmul _ _ (k * d * Fintype.card F ^ (k - 1)) fun a ha => ?_).trans ?_
      · have := ih (u ++ [a]) (by simp; omega) (q.eval (algebraMap F R a)) (by
          intro h
          simp only [mem_filter, mem_univ, true_and, eval_sub] at ha
          apply ha
          rw [h, List.map_append, List.map_singleton, hQ2, sub_self])
        simpa using this
      · rw [smul_eq_mul]
        cases k with
        | zero => simp
        | succ k =>
          refine (Nat.mul_le_mul_right _ (card_le_univ _)).trans (le_of_eq ?_)
          rw [Nat.add_sub_cancel, pow_succ]; ring
    refine (Nat.add_le_add hA hB).trans (le_of_eq ?_)
    rw [Nat.add_sub_cancel]; ring

theorem drawRun_coin (ms : List (List R)) (s : List F) (h : ms.length ≤ s.length) :
    drawRun (coinT F R) s ms = (s.take ms.length, s.drop ms.length) := by
  have habs : ∀ (m : List R) s, (coinT F R).absorbSlice s m = s := by
    intro m
    induction m with
    | nil => intro s; rfl
    | cons a m ih => intro s; exact ih s
  induction ms generalizing s with
  | nil => simp [drawRun]
  | cons m ms ih =>
    cases s with
    | nil => simp at h
    | cons r s =>
      simp only [drawRun, habs]
      change (r :: (drawRun (coinT F R) s ms).1, (drawRun (coinT F R) s ms).2) = _
      rw [ih s (by simpa using h)]
      simp

/-! ### Synchronisation -/

theorem proveRound_randomness {st st' : ProverState F R} {v : Option F} {comb : List R → Res R}
    {msg : List R} (h : proveRound st v comb = .ok (msg, st')) :
    st'.randomness = st.randomness ++ v.toList ∧ st'.numVars = st.numVars ∧
      st'.round = st.round + 1 := by
  unfold proveRound at h
  rw [bind_eq_ok] at h
  obtain ⟨st1, h1, h2⟩ := h
  have key : st1.randomness = st.randomness ++ v.toList ∧ st1.numVars = st.numVars ∧
      st1.round = st.round := by
    unfold proverReceive at h1
    cases v with
    | none =>
      simp only at h1
      split at h1
      · simp at h1
      · cases h1; simp
    | some r =>
      simp only at h1
      split at h1
      · simp at h1
      · rw [bind_eq_ok] at h1
        obtain ⟨r', _, h1⟩ := h1
        rw [bind_eq_ok] at h1
        obtain ⟨ms, _, h1⟩ := h1
        cases h1; simp
  simp only at h2
  split at h2
  · simp at h2
  · rw [bind_eq_ok] at h2
    obtain ⟨evs, _, h2⟩ := h2
    cases h2
    exact ⟨key.1, key.2.1, by simp [key.2.2]⟩

theorem proveLoop_sync (T : Transcript F R σ) (comb : List R → Res R) (k : Nat) (s s' : σ)
    (st st' : ProverState F R) (v v' : Option F) (msgs : List (List R))
    (h : proveLoop T comb k s st v = .ok (msgs, v', st', s')) :
    msgs.length = k ∧ s' = (drawRun T s msgs).2 ∧
      st'.randomness ++ v'.toList = st.randomness ++ v.toList ++ (drawRun T s msgs).1 ∧
      (k ≠ 0 → v'.isSome) := by
  induction k generalizing s st v msgs with
  | zero =>
    simp only [proveLoop, Except.ok.injEq, Prod.mk.injEq] at h
    obtain ⟨rfl, rfl, rfl, rfl⟩ := h
    simp [drawRun]
  | succ k ih =>
    rw [proveLoop, bind_eq_ok] at h
    obtain ⟨⟨msg, st1⟩, h1, h2⟩ := h
    simp only at h2
    rw [bind_eq_ok] at h2
    obtain ⟨⟨msgs1, v1, st2, s2⟩, h3, h4⟩ := h2
    simp only [Except.ok.injEq, Prod.mk.injEq] at h4
    obtain ⟨rfl, rfl, rfl, rfl⟩ := h4
    obtain ⟨i1, i2, i3, i4⟩ := ih _ _ _ _ h3
    refine ⟨by simp [i1], ?_, ?_, fun _ => ?_⟩
    · rw [i2]; rfl
    · rw [i3, (proveRound_randomness h1).1]
      simp [drawRun]
    · cases k with
      | zero =>
        simp only [proveLoop, Except.ok.injEq, Prod.mk.injEq] at h3
        rw [← h3.2.1]; rfl
      | succ k => exact i4 (by simp)

theorem prove_sync (T : Transcript F R σ) (comb : List R → Res R) (s s' : σ) (mles : List (Mle R))
    (n d : Nat) (proof : List (List R)) (pst : ProverState F R)
    (h : proveAsSubprotocol T s mles n d comb = .ok ((proof, pst), s')) :
    n ≠ 0 ∧ proof.length = n ∧
      pst.randomness = (drawRun T (T.absorb (T.absorb s (n : R)) (d : R)) proof).1 ∧
      s' = (drawRun T (T.absorb (T.absorb s (n : R)) (d : R)) proof).2 := by
  unfold proveAsSubprotocol at h
  simp only at h
  rw [bind_eq_ok] at h
  obtain ⟨st, h1, h2⟩ := h
  unfold proverInit at h1
  split at h1
  · simp at h1
  · rename_i hn
    cases h1
    rw [bind_eq_ok] at h2
    obtain ⟨⟨msgs, v, st2, s2⟩, h3, h4⟩ := h2
    obtain ⟨i1, i2, i3, i4⟩ := proveLoop_sync T comb n _ _ _ _ _ _ _ h3
    cases v with
    | none => simp at h4
    | some r =>
      simp only [Except.ok.injEq, Prod.mk.injEq] at h4
      obtain ⟨⟨rfl, rfl⟩, rfl⟩ := h4
      refine ⟨hn, i1, ?_, i2⟩
      simpa using i3

/-! ### Schedules -/

theorem levals_length {polys : List (Mle R)} {d : Nat} {comb : List R → Res R} {b : Nat} {l : List R}
    (h : levals polys d comb b = .ok l) : l.length = d + 1 := by
  have hext : ∀ (k : Nat) steps vals es, extrapolate comb steps k vals = .ok es → es.length = k := by
    intro k
    induction k with
    | zero => intro _ _ es h; cases h; rfl
    | succ k ih =>
      intro steps vals es h
      rw [extrapolate, bind_eq_ok] at h
      obtain ⟨e, _, h⟩ := h
      rw [bind_eq_ok] at h
      obtain ⟨es', h1, h⟩ := h
      cases h
      simp [ih _ _ _ h1]
  unfold levals at h
  simp only at h
  rw [bind_eq_ok] at h
  obtain ⟨l0, _, h⟩ := h
  rw [bind_eq_ok] at h
  obtain ⟨l1, _, h⟩ := h
  split at h
  · simp at h
  · rename_i hd
    rw [bind_eq_ok] at h
    obtain ⟨ls, h1, h⟩ := h
    cases h
    have := hext _ _ _ _ h1
    simp [this]; omega

/-- Pointwise addition of lists. -/
abbrev ladd (a b : List R) : List R := zipAssign (· + ·) a b

theorem ladd_getElem? (a b : List R) (h : a.length = b.length) (i : Nat) :
    (ladd a b)[i]? = (a[i]?).bind fun x => (b[i]?).map fun y => x + y := by
  rw [zipAssign_getElem?]
  by_cases hi : i < a.length
  · have hb : i < b.length := by omega
    simp [hi, hb]
  · simp [hi]

theorem ladd_assoc (a b c : List R) (h1 : a.length = b.length) (h2 : b.length = c.length) :
    ladd (ladd a b) c = ladd a (ladd b c) := by
  apply List.ext_getElem?
  intro i
  rw [ladd_getElem? _ _ (by rw [zipAssign_length]; omega), ladd_getElem? _ _ h1,
    ladd_getElem? _ _ (by rw [zipAssign_length]; omega), ladd_getElem? _ _ h2]
  cases a[i]? <;> cases b[i]? <;> cases c[i]? <;> simp [add_assoc]

theorem ladd_zero (a : List R) (n : Nat) (h : a.length = n) :
    ladd a (List.replicate n 0) = a ∧ ladd (List.replicate n 0) a = a := by
  constructor <;>
  · apply List.ext_getElem?
    intro i
    rw [ladd_getElem? _ _ (by simp [h])]
    by_cases hi : i < n
    · simp [hi, h]
    · simp [hi, h]

theorem foldRes_foldStep (polys : List (Mle R)) (d : Nat) (comb : List R → Res R) (l : List Nat)
    (acc m : List R) :
    foldRes (foldStep polys d comb) acc l = .ok m ↔
      ∃ ls, mapRes (levals polys d comb) l = .ok ls ∧ m = ls.foldl ladd acc := by
  induction l generalizing acc with
  | nil => simp [foldRes, mapRes, eq_comm]
  | cons b l ih =>
    simp only [foldRes, mapRes, foldStep]
    cases h : levals polys d comb b with
    | error e => simp
    | ok v =>
      simp only [bind_ok']
      rw [ih]
      cases h2 : mapRes (levals polys d comb) l with
      | error e => simp
      | ok ls => simp

theorem foldl_ladd (n : Nat) (ls : List (List R)) (hls : ∀ l ∈ ls, l.length = n) (acc : List R)
    (hacc : acc.length = n) :
    ls.foldl ladd acc = ladd acc (ls.foldl ladd (List.replicate n 0)) ∧
      (ls.foldl ladd acc).length = n := by
  induction ls generalizing acc with
  | nil => exact ⟨by simp [(ladd_zero acc n hacc).1], hacc⟩
  | cons l ls ih =>
    have hl := hls l (by simp)
    have h1 := ih (fun x hx => hls x (by simp [hx])) (ladd acc l) (by rw [zipAssign_length]; exact hacc)
    have h2 := ih (fun x hx => hls x (by simp [hx])) (ladd (List.replicate n 0) l)
      (by rw [zipAssign_length]; simp)
    have h3 := ih (fun x hx => hls x (by simp [hx])) (List.replicate n 0) (by simp)
    simp only [List.foldl_cons]
    refine ⟨?_, h1.2⟩
    rw [h1.1, h2.1, (ladd_zero l n hl).2, ladd_assoc _ _ _ (by omega) (by rw [h3.2]; omega)]

theorem mapRes_append {α β : Type} (f : α → Res β) (l l' : List α) (bs : List β) :
    mapRes f (l ++ l') = .ok bs ↔
      ∃ b1 b2, mapRes f l = .ok b1 ∧ mapRes f l' = .ok b2 ∧ bs = b1 ++ b2 := by
  induction l generalizing bs with
  | nil => simp [mapRes, eq_comm]
  | cons a l ih =>
    simp only [List.cons_append, mapRes]
    cases h : f a with
    | error e => simp
    | ok b =>
      constructor
      · intro h1
        cases h2 : mapRes f (l ++ l') with
        | error e => simp [h2] at h1
        | ok bs' =>
          obtain ⟨b1, b2, h3, h4, rfl⟩ := (ih bs').1 h2
          rw [h2] at h1
          simp only [Except.ok.injEq] at h1
          exact ⟨b :: b1, b2, by rw [h3], h4, by rw [← h1]; rfl⟩
      · rintro ⟨b1, b2, h1, h2, rfl⟩
        cases h3 : mapRes f l with
        | error e => simp [h3] at h1
        | ok b1' =>
          rw [h3] at h1
          simp only [Except.ok.injEq] at h1
          subst h1
          rw [(ih (b1' ++ b2)).2 ⟨b1', b2, h3, h2, rfl⟩]
          rfl

theorem parallel_iff (polys : List (Mle R)) (d : Nat) (comb : List R → Res R) (t : Schedule)
    (m : List R) :
    roundMessageParallel polys d comb t = .ok m ↔
      ∃ ls, mapRes (levals polys d comb) t.toList = .ok ls ∧
        m = ls.foldl ladd (List.replicate (d + 1) 0) := by
  have hlen : ∀ {l : List Nat} {ls}, mapRes (levals polys d comb) l = .ok ls →
      ∀ x ∈ ls, x.length = d + 1 := by
    intro l ls h x hx
    rw [mapRes_eq_ok_iff] at h
    clear m
    induction h with
    | nil => simp at hx
    | cons h1 _ ih =>
      rcases List.mem_cons.1 hx with rfl | hx
      · exact levals_length h1
      · exact ih hx
  induction t generalizing m with
  | ident => simp [roundMessageParallel, Schedule.toList, mapRes, eq_comm]
  | chunk l => exact foldRes_foldStep _ _ _ _ _ _
  | node l r ihl ihr =>
    simp only [roundMessageParallel, Schedule.toList]
    rw [bind_eq_ok]
    constructor
    · rintro ⟨a, ha, h⟩
      rw [bind_eq_ok] at h
      obtain ⟨b, hb, h⟩ := h
      simp only [Except.ok.injEq] at h
      obtain ⟨la, h1, rfl⟩ := (ihl a).1 ha
      obtain ⟨lb, h2, rfl⟩ := (ihr b).1 hb
      refine ⟨la ++ lb, (mapRes_append _ _ _ _).2 ⟨la, lb, h1, h2, rfl⟩, ?_⟩
      rw [← h, List.foldl_append, (foldl_ladd (d + 1) lb (hlen h2) (la.foldl ladd _)
        (foldl_ladd (d + 1) la (hlen h1) _ (by simp)).2).1]
    · rintro ⟨ls, h, rfl⟩
      obtain ⟨la, lb, h1, h2, rfl⟩ := (mapRes_append _ _ _ _).1 h
      refine ⟨_, (ihl _).2 ⟨la, h1, rfl⟩, ?_⟩
      rw [(ihr _).2 ⟨lb, h2, rfl⟩]
      simp only [bind_ok', Except.ok.injEq]
      rw [List.foldl_append, (foldl_ladd (d + 1) lb (hlen h2) (la.foldl ladd _)
        (foldl_ladd (d + 1) la (hlen h1) _ (by simp)).2).1]

end Verif
