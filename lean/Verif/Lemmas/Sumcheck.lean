import Verif.Lemmas.Interp
import Verif.Lemmas.Mle
import Verif.Lemmas.Arith
import Verif.Spec.Sumcheck

/-! Helper lemmas for the sum-check protocol. -/

set_option linter.unusedSectionVars false
set_option linter.unusedSimpArgs false

namespace Verif

open Finset Polynomial Spec

variable {F R σ : Type} [Field F] [DecidableEq F] [CommRing R] [DecidableEq R] [Algebra F R]

/-! ### Closure properties of `LineDeg` -/

theorem Spec.LineDeg.mono {k d d' : Nat} {g : List R → R} (h : LineDeg k d g) (hd : d ≤ d') :
    LineDeg k d' g := by
  intro a s ha hs
  obtain ⟨q, h1, h2⟩ := h a s ha hs
  exact ⟨q, le_trans h1 hd, h2⟩

theorem lineDeg_const (k d : Nat) (c : R) : LineDeg k d (fun _ => c) := fun _ _ _ _ =>
  ⟨C c, by simp, by simp⟩

theorem lineDeg_coord (k i : Nat) : LineDeg k 1 (fun v : List R => v.getD i 0) := by
  intro a s ha hs
  by_cases hi : i < k
  · refine ⟨C (a.getD i 0) + C (s.getD i 0) * X, ?_, fun t => ?_⟩
    · refine (natDegree_add_le _ _).trans ?_
      rw [natDegree_C]
      exact (Nat.max_le.2 ⟨by omega, natDegree_C_mul_le _ _ |>.trans natDegree_X_le⟩)
    · simp only [List.getD_eq_getElem?_getD, List.getElem?_zipWith]
      have h1 : i < a.length := by omega
      have h2 : i < s.length := by omega
      simp only [List.getElem?_eq_getElem h1, List.getElem?_eq_getElem h2, Option.getD_some, eval_add,
        eval_mul, eval_C, eval_X]
      rw [mul_comm]
  · refine ⟨0, by simp, fun t => ?_⟩
    simp only [List.getD_eq_getElem?_getD, List.getElem?_zipWith]
    simp [ha, hs, hi]

theorem Spec.LineDeg.add {k d : Nat} {g h : List R → R} (hg : LineDeg k d g) (hh : LineDeg k d h) :
    LineDeg k d (fun v => g v + h v) := by
  intro a s ha hs
  obtain ⟨p, p1, p2⟩ := hg a s ha hs
  obtain ⟨q, q1, q2⟩ := hh a s ha hs
  exact ⟨p + q, (natDegree_add_le _ _).trans (Nat.max_le.2 ⟨p1, q1⟩), fun t => by
    simp only [p2, q2, eval_add]⟩

theorem Spec.LineDeg.mul {k d e : Nat} {g h : List R → R} (hg : LineDeg k d g) (hh : LineDeg k e h) :
    LineDeg k (d + e) (fun v => g v * h v) := by
  intro a s ha hs
  obtain ⟨p, p1, p2⟩ := hg a s ha hs
  obtain ⟨q, q1, q2⟩ := hh a s ha hs
  exact ⟨p * q, natDegree_mul_le.trans (Nat.add_le_add p1 q1), fun t => by
    simp only [p2, q2, eval_mul]⟩

theorem Spec.LineDeg.sub {k d : Nat} {g h : List R → R} (hg : LineDeg k d g) (hh : LineDeg k d h) :
    LineDeg k d (fun v => g v - h v) := by
  intro a s ha hs
  obtain ⟨p, p1, p2⟩ := hg a s ha hs
  obtain ⟨q, q1, q2⟩ := hh a s ha hs
  exact ⟨p - q, (natDegree_sub_le _ _).trans (Nat.max_le.2 ⟨p1, q1⟩), fun t => by
    simp only [p2, q2, eval_sub]⟩

theorem Spec.LineDeg.smul {k d : Nat} {g : List R → R} (c : R) (hg : LineDeg k d g) :
    LineDeg k d (fun v => c * g v) := by
  have := (lineDeg_const k 0 c).mul hg
  simpa using this

theorem Spec.LineDeg.sum {k d : Nat} {ι : Type} (s : Finset ι) {g : ι → List R → R}
    (hg : ∀ i ∈ s, LineDeg k d (g i)) : LineDeg k d (fun v => ∑ i ∈ s, g i v) := by
  classical
  induction s using Finset.induction_on with
  | empty => simpa using lineDeg_const k d (0 : R)
  | insert i s hi ih =>
    simp only [sum_insert hi]
    exact (hg i (by simp)).add (ih fun j hj => hg j (by simp [hj]))

theorem Spec.LineDeg.list_sum {k d : Nat} {ι : Type} (l : List ι) {g : ι → List R → R}
    (hg : ∀ i ∈ l, LineDeg k d (g i)) : LineDeg k d (fun v => (l.map fun i => g i v).sum) := by
  induction l with
  | nil => simpa using lineDeg_const k d (0 : R)
  | cons i l ih =>
    simp only [List.map_cons, List.sum_cons]
    exact (hg i (by simp)).add (ih fun j hj => hg j (by simp [hj]))

theorem Spec.LineDeg.list_prod {k : Nat} {ι : Type} (l : List ι) {g : ι → List R → R}
    (hg : ∀ i ∈ l, LineDeg k 1 (g i)) :
    LineDeg k l.length (fun v => (l.map fun i => g i v).prod) := by
  induction l with
  | nil => simpa using lineDeg_const k 0 (1 : R)
  | cons i l ih =>
    simp only [List.map_cons, List.prod_cons, List.length_cons]
    rw [add_comm]
    exact (hg i (by simp)).mul (ih fun j hj => hg j (by simp [hj]))

theorem Spec.LineDeg.pow {k d : Nat} {g : List R → R} (hg : LineDeg k d g) (n : Nat) :
    LineDeg k (n * d) (fun v => g v ^ n) := by
  induction n with
  | zero => simpa using lineDeg_const k 0 (1 : R)
  | succ n ih =>
    simp only [pow_succ]
    rw [Nat.succ_mul]
    exact ih.mul hg

theorem Spec.LineDeg.congr {k d : Nat} {g h : List R → R} (hg : LineDeg k d g)
    (hgh : ∀ v, v.length = k → h v = g v) : LineDeg k d h := by
  intro a s ha hs
  obtain ⟨q, h1, h2⟩ := hg a s ha hs
  exact ⟨q, h1, fun t => by rw [hgh _ (by simp [ha, hs]), h2]⟩

/-! ### Prover messages -/

/-- Values of all MLEs on the line through vertices `2b`, `2b+1`, at parameter `t`. -/
def lineVals (polys : List (Mle R)) (b : Nat) (t : R) : List R :=
  polys.map fun p => p.get (2 * b) + t * (p.get (2 * b + 1) - p.get (2 * b))

/-- The honest message as a function of the evaluation point. -/
def msgAt (polys : List (Mle R)) (g : List R → R) (k : Nat) (t : R) : R :=
  ∑ b ∈ range (2 ^ k), g (lineVals polys b t)

theorem lineVals_length (polys : List (Mle R)) (b : Nat) (t : R) :
    (lineVals polys b t).length = polys.length := by simp [lineVals]

theorem lineVals_step (polys : List (Mle R)) (b : Nat) (t : R) :
    List.zipWith (· + ·) (lineVals polys b t)
      (List.zipWith (· - ·) (polys.map fun p => p.get (2 * b + 1)) (polys.map fun p => p.get (2 * b)))
      = lineVals polys b (t + 1) := by
  unfold lineVals
  rw [zipWith_map_self, zipWith_map_self]
  apply List.map_congr_left
  intro p _
  ring

theorem extrapolate_ok {comb : List R → Res R} {g : List R → R} (polys : List (Mle R))
    (hcomb : ∀ v, v.length = polys.length → comb v = .ok (g v)) (b k : Nat) (t : R) :
    extrapolate comb
      (List.zipWith (· - ·) (polys.map fun p => p.get (2 * b + 1)) (polys.map fun p => p.get (2 * b)))
      k (lineVals polys b t)
      = .ok ((List.range k).map fun j : Nat => g (lineVals polys b (t + 1 + (j : R)))) := by
  induction k generalizing t with
  | zero => rfl
  | succ k ih =>
    rw [extrapolate, lineVals_step, hcomb _ (lineVals_length _ _ _)]
    simp only [bind_ok']
    rw [ih (t + 1)]
    simp only [bind_ok']
    rw [List.range_succ_eq_map]
    simp only [List.map_cons, List.map_map, Nat.cast_zero, add_zero, Function.comp_def,
      Nat.succ_eq_add_one, Nat.cast_add, Nat.cast_one]
    congr 2
    apply List.map_congr_left
    intro j _
    congr 2
    ring

theorem levals_ok {comb : List R → Res R} {g : List R → R} (polys : List (Mle R)) (d : Nat)
    (hd : 1 ≤ d) (hcomb : ∀ v, v.length = polys.length → comb v = .ok (g v)) (b : Nat) :
    levals polys d comb b = .ok ((List.range (d + 1)).map fun j : Nat => g (lineVals polys b (j : R))) := by
  obtain ⟨d, rfl⟩ : ∃ d', d = d' + 1 := ⟨d - 1, by omega⟩
  unfold levals
  simp only
  have h0 : polys.map (fun p => p.get (2 * b)) = lineVals polys b 0 := by
    unfold lineVals; apply List.map_congr_left; intro p _; ring
  have h1 : polys.map (fun p => p.get (2 * b + 1)) = lineVals polys b 1 := by
    unfold lineVals; apply List.map_congr_left; intro p _; ring
  rw [hcomb _ (by simp), hcomb _ (by simp)]
  simp only [bind_ok', Nat.add_eq_zero_iff, one_ne_zero, and_false, if_false, Nat.add_sub_cancel]
  have := extrapolate_ok polys hcomb b d 1
  rw [← h1] at this
  rw [this]
  simp only [bind_ok', h0, h1]
  rw [List.range_succ_eq_map (n := d + 1), List.range_succ_eq_map (n := d)]
  simp only [List.map_cons, List.map_map, Nat.cast_zero, Function.comp_def, Nat.succ_eq_add_one,
    Nat.cast_add, Nat.cast_one, zero_add]
  congr 3
  apply List.map_congr_left
  intro j _
  congr 2
  ring

theorem zipAssign_range_add (f g : Nat → R) (n : Nat) :
    zipAssign (· + ·) ((List.range n).map f) ((List.range n).map g)
      = (List.range n).map fun j => f j + g j := by
  rw [zipAssign_eq_zipWith _ _ _ (by simp), zipWith_map_self]

theorem roundMessage_ok {comb : List R → Res R} {g : List R → R} (polys : List (Mle R)) (d : Nat)
    (hd : 1 ≤ d) (hcomb : ∀ v, v.length = polys.length → comb v = .ok (g v)) (k : Nat) :
    roundMessage polys d comb k = .ok ((List.range (d + 1)).map fun j : Nat => msgAt polys g k (j : R)) := by
  unfold roundMessage msgAt
  have key : ∀ N, foldRes (foldStep polys d comb) (List.replicate (d + 1) 0) (List.range N)
      = .ok ((List.range (d + 1)).map fun j : Nat => ∑ b ∈ range N, g (lineVals polys b (j : R))) := by
    intro N
    induction N with
    | zero => rw [replicate_eq_range_map]; simp [foldRes]
    | succ N ih =>
      rw [List.range_succ, foldRes_append, ih]
      simp only [foldRes, bind_ok', foldStep]
      rw [levals_ok polys d hd hcomb]
      simp only [bind_ok', zipAssign_range_add]
      congr 1
      apply List.map_congr_left
      intro j _
      rw [sum_range_succ]
  exact key _

theorem msgAt_poly (polys : List (Mle R)) {g : List R → R} {d : Nat} (hg : LineDeg polys.length d g)
    (k : Nat) : ∃ q : R[X], q.natDegree ≤ d ∧ ∀ t, msgAt polys g k t = q.eval t := by
  have h1 : ∀ b, ∃ q : R[X], q.natDegree ≤ d ∧ ∀ t, g (lineVals polys b t) = q.eval t := by
    intro b
    obtain ⟨q, h1, h2⟩ := hg (polys.map fun p => p.get (2 * b))
      (polys.map fun p => p.get (2 * b + 1) - p.get (2 * b)) (by simp) (by simp)
    refine ⟨q, h1, fun t => ?_⟩
    rw [← h2, zipWith_map_self]; rfl
  choose q hq1 hq2 using h1
  refine ⟨∑ b ∈ range (2 ^ k), q b, ?_, fun t => ?_⟩
  · exact natDegree_sum_le_of_forall_le _ _ fun b _ => hq1 b
  · unfold msgAt
    rw [eval_finsetSum]
    exact sum_congr rfl fun b _ => hq2 b t

theorem msgAt_sum (polys : List (Mle R)) (g : List R → R) (k : Nat) :
    msgAt polys g k 0 + msgAt polys g k 1 = cubeSum polys (k + 1) g := by
  unfold msgAt cubeSum
  rw [pow_succ, mul_comm, sum_range_two_mul, ← sum_add_distrib]
  apply sum_congr rfl
  intro b _
  congr 2
  · unfold lineVals; apply List.map_congr_left; intro p _; ring
  · unfold lineVals; apply List.map_congr_left; intro p _; ring

theorem msgAt_fix (polys : List (Mle R)) (g : List R → R) (k : Nat)
    (hnv : ∀ p ∈ polys, p.numVars = k + 1) (r : R) :
    msgAt polys g k r = cubeSum (polys.map fun p => p.fix1 r) k g := by
  unfold msgAt cubeSum
  apply sum_congr rfl
  intro b hb
  congr 1
  unfold lineVals
  rw [List.map_map]
  apply List.map_congr_left
  intro p hp
  simp only [Function.comp_apply]
  rw [fix1_get]
  rw [hnv p hp]; simpa using hb

/-! ### The interaction with the transcript -/

/-- Challenges drawn while absorbing a list of messages, and the final transcript state. -/
def drawRun (T : Transcript F R σ) : σ → List (List R) → List F × σ
  | s, [] => ([], s)
  | s, m :: ms =>
    let s := T.absorbSlice s m
    let (r, s) := T.challenge s
    let s := T.absorb s (algebraMap F R r)
    let (rs, s) := drawRun T s ms
    (r :: rs, s)

theorem drawRun_length (T : Transcript F R σ) (s : σ) (ms : List (List R)) :
    (drawRun T s ms).1.length = ms.length := by
  induction ms generalizing s with
  | nil => rfl
  | cons m ms ih => simp [drawRun, ih]

/-- The verifier's round checks on aligned lists of messages and challenges. -/
def checkRec (d : Nat) : List (List R) → List F → R → Res R
  | m :: ms, r :: rs, e =>
    if m.length ≠ d + 1 then .error (.panic "incorrect number of evaluations")
    else do
      let p0 ← idx "evaluations[0]" m 0
      let p1 ← idx "evaluations[1]" m 1
      if p0 + p1 ≠ e then .error .sumCheckFailed
      else do
        let e ← interpolateUniPoly m r
        checkRec d ms rs e
  | _, _, e => .ok e

theorem verifyRound_eq (T : Transcript F R σ) (msg : List R) (st : VerifierState F R) (s : σ)
    (h : st.finished = false) :
    verifyRound T msg st s = .ok ((T.challenge s).1,
      { st with
        randomness := st.randomness ++ [(T.challenge s).1]
        polynomialsReceived := st.polynomialsReceived ++ [msg]
        finished := decide (st.round = st.nv)
        round := if st.round = st.nv then st.round else st.round + 1 }, (T.challenge s).2) := by
  unfold verifyRound
  rw [h]
  simp only [Bool.false_eq_true, if_false]
  by_cases hr : st.round = st.nv
  · simp [hr]
  · simp [hr, h]

theorem verifyLoop_aux (T : Transcript F R σ) (proof pre ms : List (List R)) (rest : List (List R))
    (hproof : proof = pre ++ ms ++ rest) (n : Nat) (hn : n = pre.length + ms.length)
    (st : VerifierState F R) (s : σ) (hst : st.finished = decide (ms = [] ∧ pre ≠ []))
    (hround : ms ≠ [] → st.round = pre.length + 1) (hnv : st.nv = n) :
    ∃ rd, verifyLoop T proof (List.range' pre.length ms.length) st s
      = .ok ({ st with
          randomness := st.randomness ++ (drawRun T s ms).1
          polynomialsReceived := st.polynomialsReceived ++ ms
          finished := decide (n ≠ 0)
          round := rd }, (drawRun T s ms).2) := by
  induction ms generalizing pre st s with
  | nil =>
    refine ⟨st.round, ?_⟩
    have : st.finished = decide (n ≠ 0) := by
      rw [hst, hn]; simp
    simp only [List.length_nil, List.range'_zero, verifyLoop, drawRun, List.append_nil]
    rw [← this]
  | cons m ms ih =>
    have hidx : idx "proof is incomplete" proof pre.length = .ok m := by
      rw [idx_eq_ok, hproof]; simp
    rw [List.length_cons, List.range'_succ, verifyLoop, hidx]
    simp only [bind_ok']
    rw [verifyRound_eq T m st _ (by rw [hst]; simp)]
    simp only [bind_ok']
    obtain ⟨rd, hrd⟩ := ih (pre ++ [m]) (by rw [hproof]; simp) (by rw [hn]; simp; omega)
      { st with
        randomness := st.randomness ++ [(T.challenge (T.absorbSlice s m)).1]
        polynomialsReceived := st.polynomialsReceived ++ [m]
        finished := decide (st.round = st.nv)
        round := if st.round = st.nv then st.round else st.round + 1 }
      (T.absorb (T.challenge (T.absorbSlice s m)).2 (algebraMap F R (T.challenge (T.absorbSlice s m)).1))
      (by
        simp only [hround (by simp), hnv, hn, List.length_cons]
        congr 1
        apply propext
        constructor
        · intro h; exact ⟨List.length_eq_zero_iff.1 (by omega), by simp⟩
        · rintro ⟨h, _⟩; simp [h])
      (by
        intro hms
        have : ms.length ≠ 0 := by simpa using hms
        simp only [hround (by simp), hnv, hn, List.length_cons, List.length_append, List.length_nil]
        rw [if_neg (by omega)])
      hnv
    refine ⟨rd, ?_⟩
    simp only [List.length_append, List.length_cons, List.length_nil, Nat.zero_add] at hrd
    rw [hrd]
    simp [drawRun, List.append_assoc]

theorem verifyLoop_ok (T : Transcript F R σ) (proof : List (List R)) (n d : Nat)
    (h : n ≤ proof.length) (s : σ) :
    ∃ rd, verifyLoop T proof (List.range n) (verifierInit n d) s
      = .ok (⟨rd, n, d, decide (n ≠ 0), proof.take n, (drawRun T s (proof.take n)).1⟩,
          (drawRun T s (proof.take n)).2) := by
  have hl : (proof.take n).length = n := by simp [h]
  obtain ⟨rd, hrd⟩ := verifyLoop_aux T proof [] (proof.take n) (proof.drop n) (by simp) n
    (by simp [hl]) (verifierInit n d) s (by simp [verifierInit]) (by simp [verifierInit]) rfl
  refine ⟨rd, ?_⟩
  rw [List.range_eq_range']
  rw [hl] at hrd
  exact hrd

theorem verifyLoop_short_aux (T : Transcript F R σ) (proof : List (List R)) (n : Nat) (k : Nat)
    (start : Nat) (hk : start + k = n) (h : proof.length < n) (hs : start ≤ proof.length)
    (st : VerifierState F R) (s : σ) (hst : st.finished = false) (hround : st.round = start + 1)
    (hnv : st.nv = n) :
    verifyLoop T proof (List.range' start k) st s = .error (.panic "proof is incomplete") := by
  induction k generalizing start st s with
  | zero => omega
  | succ k ih =>
    rw [List.range'_succ, verifyLoop]
    by_cases hlt : start < proof.length
    · rw [idx_ok hlt]
      simp only [bind_ok']
      rw [verifyRound_eq _ _ _ _ hst]
      simp only [bind_ok']
      apply ih (start + 1) (by omega) (by omega)
      · simp only [hround, hnv]; simp; omega
      · simp only [hround, hnv]; rw [if_neg (by omega)]
      · exact hnv
    · rw [idx_error (by omega)]; rfl

theorem verifyLoop_short (T : Transcript F R σ) (proof : List (List R)) (n d : Nat)
    (h : proof.length < n) (s : σ) :
    verifyLoop T proof (List.range n) (verifierInit n d) s = .error (.panic "proof is incomplete") := by
  rw [List.range_eq_range']
  exact verifyLoop_short_aux T proof n n 0 (by omega) h (by omega) _ _ rfl rfl rfl

theorem check_fold_aux (d : Nat) (preP ms : List (List R)) (preR rs : List F) (hl : preP.length = preR.length)
    (hl2 : ms.length = rs.length) (e : R) :
    foldRes (fun expected i => do
        let evaluations ← idx "polynomials_received" (preP ++ ms) i
        if evaluations.length ≠ d + 1 then
          .error (.panic "incorrect number of evaluations")
        else do
          let p0 ← idx "evaluations[0]" evaluations 0
          let p1 ← idx "evaluations[1]" evaluations 1
          if p0 + p1 ≠ expected then .error .sumCheckFailed
          else do
            let r ← idx "randomness" (preR ++ rs) i
            interpolateUniPoly evaluations r) e (List.range' preP.length ms.length)
      = checkRec d ms rs e := by
  induction ms generalizing preP preR rs e with
  | nil => cases rs <;> simp [checkRec, foldRes]
  | cons m ms ih =>
    cases rs with
    | nil => simp at hl2
    | cons r rs =>
      rw [List.length_cons, List.range'_succ]
      simp only [foldRes, checkRec]
      have h1 : idx "polynomials_received" (preP ++ m :: ms) preP.length = .ok m := by
        rw [idx_eq_ok]; simp
      have h2 : idx "randomness" (preR ++ r :: rs) preP.length = .ok r := by
        rw [idx_eq_ok, hl]; simp
      rw [h1, h2]
      simp only [bind_ok']
      by_cases hm : m.length ≠ d + 1
      · rw [if_pos hm, if_pos hm]
      · rw [if_neg hm, if_neg hm]
        have ih' := ih (preP ++ [m]) (preR ++ [r]) rs (by simp [hl]) (by simpa using hl2)
        simp only [List.append_assoc, List.singleton_append, List.length_append, List.length_cons,
          List.length_nil, Nat.zero_add] at ih'
        cases h0 : idx "evaluations[0]" m 0 with
        | error e' => simp
        | ok p0 =>
          cases h1' : idx "evaluations[1]" m 1 with
          | error e' => simp
          | ok p1 =>
            simp only [bind_ok']
            by_cases hp : p0 + p1 ≠ e
            · rw [if_pos hp, if_pos hp]
            · rw [if_neg hp, if_neg hp]
              cases hI : interpolateUniPoly m r with
              | error e' => simp
              | ok e' => simp only [bind_ok']; exact ih' e'

theorem check_eq (rd n d : Nat) (hn : n ≠ 0) (ms : List (List R)) (rs : List F) (h1 : ms.length = n)
    (h2 : rs.length = n) (c : R) :
    checkAndGenerateSubclaim (⟨rd, n, d, decide (n ≠ 0), ms, rs⟩ : VerifierState F R) c
      = (do let e ← checkRec d ms rs c; .ok ⟨rs, e⟩) := by
  unfold checkAndGenerateSubclaim
  simp only [hn, ne_eq, not_false_eq_true, decide_true, Bool.not_true, Bool.false_eq_true, if_false,
    h1, not_true_eq_false]
  have := check_fold_aux d [] ms [] rs rfl (by rw [h1, h2]) c
  simp only [List.nil_append, List.length_nil, h1] at this
  rw [List.range_eq_range', ← this]

/-- Complete description of `verify_as_subprotocol` on a long enough proof. -/
theorem verify_eq (T : Transcript F R σ) (s : σ) (n d : Nat) (hn : n ≠ 0) (c : R)
    (proof : List (List R)) (h : n ≤ proof.length) :
    verifyAsSubprotocol T s n d c proof =
      (do let e ← checkRec d (proof.take n)
            (drawRun T (T.absorb (T.absorb s (n : R)) (d : R)) (proof.take n)).1 c
          .ok (⟨(drawRun T (T.absorb (T.absorb s (n : R)) (d : R)) (proof.take n)).1, e⟩,
            (drawRun T (T.absorb (T.absorb s (n : R)) (d : R)) (proof.take n)).2)) := by
  unfold verifyAsSubprotocol
  simp only
  obtain ⟨rd, hrd⟩ := verifyLoop_ok T proof n d h (T.absorb (T.absorb s (n : R)) (d : R))
  rw [hrd]
  simp only [bind_ok']
  rw [check_eq rd n d hn _ _ (by simp [h]) (by rw [drawRun_length]; simp [h])]
  cases checkRec d (proof.take n)
      (drawRun T (T.absorb (T.absorb s (n : R)) (d : R)) (proof.take n)).1 c <;> rfl

/-- The verifier accepts a proof for at most one claimed sum. -/
theorem claim_unique (T : Transcript F R σ) (s : σ) (n d : Nat) (hn : 1 ≤ n) (c : R) (proof : List (List R))
    (h : n ≤ proof.length) (sc : SubClaim F R) (s' : σ) (hv : verifyAsSubprotocol T s n d c proof = .ok (sc, s')) :
    extractSum proof = .ok c := by
  rw [verify_eq T s n d (by omega) c proof h, bind_eq_ok] at hv
  obtain ⟨e, he, _⟩ := hv
  have hl := drawRun_length T (T.absorb (T.absorb s (n : R)) (d : R)) (proof.take n)
  cases proof with
  | nil => simp at h; omega
  | cons m ms =>
    obtain ⟨k, rfl⟩ : ∃ k, n = k + 1 := ⟨n - 1, by omega⟩
    rw [List.take_succ_cons] at he hl
    generalize (drawRun T (T.absorb (T.absorb s ((k + 1 : Nat) : R)) (d : R)) (m :: ms.take k)).1 = rs at he hl
    cases rs with
    | nil => simp at hl
    | cons r rs =>
      simp only [checkRec] at he
      split at he
      · cases he
      · rw [bind_eq_ok] at he
        obtain ⟨p0, h0, he⟩ := he
        rw [bind_eq_ok] at he
        obtain ⟨p1, h1, he⟩ := he
        split at he
        · cases he
        · rename_i hne
          unfold extractSum
          rw [idx_ok (by simp)]
          simp only [bind_ok', List.getElem_cons_zero]
          rw [h0, h1]
          simp only [bind_ok']
          rw [not_ne_iff.1 hne]

theorem verify_short (T : Transcript F R σ) (s : σ) (n d : Nat) (c : R)
    (proof : List (List R)) (h : proof.length < n) :
    verifyAsSubprotocol T s n d c proof = .error (.panic "proof is incomplete") := by
  unfold verifyAsSubprotocol
  simp only
  rw [verifyLoop_short T proof n d h]
  rfl

theorem verify_zero (T : Transcript F R σ) (s : σ) (d : Nat) (c : R) (proof : List (List R)) :
    verifyAsSubprotocol T s 0 d c proof = .error (.panic "Verifier has not finished.") := by
  rfl

/-! ### The honest run -/

/-- Messages of the honest prover, challenges and final transcript state, for current tables. -/
def honestRun (T : Transcript F R σ) (g : List R → R) (d : Nat) :
    Nat → σ → List (Mle R) → List (List R)
  | 0, _, _ => []
  | k + 1, s, cur =>
    let m := (List.range (d + 1)).map fun j : Nat => msgAt cur g k (j : R)
    let s := T.absorbSlice s m
    let (r, s) := T.challenge s
    let s := T.absorb s (algebraMap F R r)
    m :: honestRun T g d k s (cur.map fun p => p.fix1 (algebraMap F R r))

theorem honestRun_length (T : Transcript F R σ) (g : List R → R) (d k : Nat) (s : σ)
    (cur : List (Mle R)) : (honestRun T g d k s cur).length = k := by
  induction k generalizing s cur with
  | zero => rfl
  | succ k ih => simp [honestRun, ih]

theorem fixAll_ok (polys : List (Mle R)) (r : R) (h : ∀ p ∈ polys, p.numVars ≠ 0) :
    mapRes (fun m => m.fixVar r) polys = .ok (polys.map fun p => p.fix1 r) :=
  mapRes_ok fun p hp => by unfold Mle.fixVar; rw [if_neg (h p hp)]

/-- One honest round after the first. -/
theorem proveRound_some {comb : List R → Res R} {g : List R → R} {d k n : Nat}
    (hd : 1 ≤ d) (st : ProverState F R) (r : F)
    (hcomb : ∀ v, v.length = st.mles.length → comb v = .ok (g v))
    (hround : st.round + k + 1 = n) (h0 : st.round ≠ 0) (hnv : st.numVars = n) (hdeg : st.maxDegree = d)
    (hrand : st.randomness.length + 1 = st.round)
    (hm : ∀ p ∈ st.mles, p.numVars = k + 2) :
    proveRound st (some r) comb
      = .ok ((List.range (d + 1)).map fun j : Nat =>
            msgAt (st.mles.map fun p => p.fix1 (algebraMap F R r)) g k (j : R),
          { randomness := st.randomness ++ [r]
            mles := st.mles.map fun p => p.fix1 (algebraMap F R r)
            numVars := n, maxDegree := d, round := st.round + 1 }) := by
  unfold proveRound proverReceive
  simp only [h0, if_false]
  have : idx "prover_state.randomness" (st.randomness ++ [r]) (st.round - 1) = .ok r := by
    rw [idx_eq_ok, show st.round - 1 = st.randomness.length by omega]; simp
  rw [this]
  simp only [bind_ok']
  rw [fixAll_ok _ _ (fun p hp => by rw [hm p hp]; omega)]
  simp only [bind_ok']
  rw [if_neg (by omega), show st.numVars - (st.round + 1) = k by omega, hdeg,
    roundMessage_ok (g := g) _ d hd (fun v hv => hcomb v (by simpa using hv))]
  simp only [bind_ok', hnv]

theorem proveRound_none {comb : List R → Res R} {g : List R → R} {d k n : Nat}
    (hd : 1 ≤ d) (mles : List (Mle R))
    (hcomb : ∀ v, v.length = mles.length → comb v = .ok (g v)) (hn : n = k + 1) :
    proveRound (⟨[], mles, n, d, 0⟩ : ProverState F R) none comb
      = .ok ((List.range (d + 1)).map fun j : Nat => msgAt mles g k (j : R),
          { randomness := [], mles := mles, numVars := n, maxDegree := d, round := 1 }) := by
  unfold proveRound proverReceive
  simp only [gt_iff_lt, lt_irrefl, if_false, bind_ok', zero_add]
  rw [if_neg (by omega), show n - 1 = k by omega, roundMessage_ok (g := g) _ d hd hcomb]
  rfl

theorem proveLoop_some {comb : List R → Res R} {g : List R → R} {d n : Nat} (hd : 1 ≤ d)
    (T : Transcript F R σ) (k : Nat) (s : σ) (st : ProverState F R) (r : F)
    (hcomb : ∀ v, v.length = st.mles.length → comb v = .ok (g v))
    (hround : st.round + k = n) (h0 : st.round ≠ 0) (hnv : st.numVars = n) (hdeg : st.maxDegree = d)
    (hrand : st.randomness.length + 1 = st.round)
    (hm : ∀ p ∈ st.mles, p.numVars = k + 1) :
    ∃ st' r', proveLoop T comb k s st (some r)
      = .ok (honestRun T g d k s (st.mles.map fun p => p.fix1 (algebraMap F R r)), some r', st',
          (drawRun T s (honestRun T g d k s (st.mles.map fun p => p.fix1 (algebraMap F R r)))).2) ∧
      st'.randomness ++ [r'] = st.randomness ++ [r] ++
        (drawRun T s (honestRun T g d k s (st.mles.map fun p => p.fix1 (algebraMap F R r)))).1 := by
  induction k generalizing s st r with
  | zero => exact ⟨st, r, rfl, by simp [honestRun, drawRun]⟩
  | succ k ih =>
    rw [proveLoop, proveRound_some hd st r hcomb (k := k) (n := n) (by omega) h0 hnv hdeg hrand
      (fun p hp => by rw [hm p hp])]
    simp only [bind_ok', honestRun, drawRun]
    generalize hmm : (List.range (d + 1)).map (fun j : Nat =>
      msgAt (st.mles.map fun p => p.fix1 (algebraMap F R r)) g k (j : R)) = m
    obtain ⟨st', r', h1, h2⟩ := ih (T.absorb (T.challenge (T.absorbSlice s m)).2
        (algebraMap F R (T.challenge (T.absorbSlice s m)).1))
      { randomness := st.randomness ++ [r]
        mles := st.mles.map fun p => p.fix1 (algebraMap F R r)
        numVars := n, maxDegree := d, round := st.round + 1 } (T.challenge (T.absorbSlice s m)).1
      (fun v hv => hcomb v (by simpa using hv)) (by simp; omega) (by simp) rfl rfl (by simp; omega)
      (fun p hp => by
        obtain ⟨q, hq, rfl⟩ := List.mem_map.1 hp
        rw [fix1_numVars, hm q hq]; rfl)
    refine ⟨st', r', ?_, ?_⟩
    · rw [h1]; rfl
    · rw [h2]; simp

/-- The prover on well-formed inputs. -/
theorem prove_ok {comb : List R → Res R} {g : List R → R} {d n : Nat} (hd : 1 ≤ d) (hn : 1 ≤ n)
    (T : Transcript F R σ) (s : σ) (mles : List (Mle R))
    (hcomb : ∀ v, v.length = mles.length → comb v = .ok (g v))
    (hm : ∀ p ∈ mles, p.numVars = n) :
    ∃ st, proveAsSubprotocol T s mles n d comb
      = .ok ((honestRun T g d n (T.absorb (T.absorb s (n : R)) (d : R)) mles, st),
          (drawRun T (T.absorb (T.absorb s (n : R)) (d : R))
            (honestRun T g d n (T.absorb (T.absorb s (n : R)) (d : R)) mles)).2) ∧
      st.randomness = (drawRun T (T.absorb (T.absorb s (n : R)) (d : R))
            (honestRun T g d n (T.absorb (T.absorb s (n : R)) (d : R)) mles)).1 := by
  obtain ⟨k, rfl⟩ : ∃ k, n = k + 1 := ⟨n - 1, by omega⟩
  unfold proveAsSubprotocol proverInit
  simp only [Nat.add_eq_zero_iff, one_ne_zero, and_false, if_false, bind_ok']
  rw [proveLoop, proveRound_none hd mles hcomb rfl]
  simp only [bind_ok', honestRun, drawRun]
  generalize hs : T.absorb (T.absorb s ((k + 1 : Nat) : R)) (d : R) = s0
  generalize hmm : (List.range (d + 1)).map (fun j : Nat => msgAt mles g k (j : R)) = m
  obtain ⟨st', r', h1, h2⟩ := proveLoop_some (n := k + 1) (g := g) (comb := comb) hd T k
    (T.absorb (T.challenge (T.absorbSlice s0 m)).2
        (algebraMap F R (T.challenge (T.absorbSlice s0 m)).1))
    ⟨[], mles, k + 1, d, 1⟩ (T.challenge (T.absorbSlice s0 m)).1 hcomb (by simp; omega) (by simp) rfl rfl
    (by simp) hm
  rw [h1]
  simp only [bind_ok']
  refine ⟨_, rfl, ?_⟩
  rw [h2]
  simp

theorem mle_fix1 (m : Mle R) (r : R) (p : List R) (h : m.numVars = p.length + 1) :
    mle (m.fix1 r).get p = mle m.get (r :: p) := by
  rw [mle_cons]
  apply mle_congr
  intro i hi
  rw [fix1_get]
  rw [h]; simpa using hi

/-- The verifier's checks pass on the honest run and yield the evaluation of the combination. -/
theorem checkRec_honest {g : List R → R} {d : Nat} (hd : 1 ≤ d) (hc : CharGt F d)
    (T : Transcript F R σ) (k : Nat) (s : σ) (cur : List (Mle R)) (hg : LineDeg cur.length d g)
    (hm : ∀ p ∈ cur, p.numVars = k) :
    checkRec d (honestRun T g d k s cur) (drawRun T s (honestRun T g d k s cur)).1 (cubeSum cur k g)
      = .ok (g (cur.map fun p =>
          mle p.get ((drawRun T s (honestRun T g d k s cur)).1.map (algebraMap F R)))) := by
  induction k generalizing s cur with
  | zero =>
    simp [honestRun, drawRun, checkRec, mle_nil, cubeSum]
  | succ k ih =>
    simp only [honestRun, drawRun]
    generalize hmm : (List.range (d + 1)).map (fun j : Nat => msgAt cur g k (j : R)) = m
    have hlen : m.length = d + 1 := by rw [← hmm]; simp
    have h0 : idx "evaluations[0]" m 0 = .ok (msgAt cur g k 0) := by
      rw [idx_eq_ok, ← hmm, List.getElem?_map, List.getElem?_range (by omega)]; simp
    have h1 : idx "evaluations[1]" m 1 = .ok (msgAt cur g k 1) := by
      rw [idx_eq_ok, ← hmm, List.getElem?_map, List.getElem?_range (by omega)]; simp
    rw [checkRec, if_neg (by simpa using hlen), h0, h1]
    simp only [bind_ok']
    rw [if_neg (by rw [msgAt_sum]; simp)]
    obtain ⟨q, hq1, hq2⟩ := msgAt_poly cur hg k
    rw [interpolate_poly d hc q hq1 m (by
      rw [← hmm]; exact List.map_congr_left fun j _ => hq2 _)]
    simp only [bind_ok']
    rw [← hq2, msgAt_fix cur g k hm]
    rw [ih _ _ (by simpa using hg) (fun p hp => by
        obtain ⟨q, hq, rfl⟩ := List.mem_map.1 hp
        rw [fix1_numVars, hm q hq]; rfl)]
    congr 2
    rw [List.map_map]
    apply List.map_congr_left
    intro p hp
    simp only [Function.comp_apply, List.map_cons]
    rw [mle_fix1]
    rw [hm p hp, List.length_map, drawRun_length, honestRun_length]

end Verif
