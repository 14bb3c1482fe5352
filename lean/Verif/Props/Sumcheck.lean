import Verif.Lemmas.SumcheckSound
import Mathlib.Algebra.Field.ZMod
import Mathlib.Data.Rat.Cast.CharZero
import Mathlib.Algebra.Algebra.Rat
import Mathlib.Tactic.NormNum
import Mathlib.Tactic.ComputeDegree

/-!
# Property theorems: sum-check (C20 - C26)
-/

set_option linter.unusedSectionVars false
set_option linter.unusedSimpArgs false

namespace Verif.Props

open Finset Polynomial Verif Verif.Spec

variable {F R σ : Type} [Field F] [DecidableEq F] [CommRing R] [DecidableEq R] [Algebra F R]

/-! Concrete data used by the examples: two multilinear polynomials in two variables over `ℚ`, and
their product, summed over the cube. -/

/-- A concrete pair of tables. -/
def exMles : List (Mle ℚ) := [⟨2, [1, 2, 3, 4]⟩, ⟨2, [5, 6, 7, 8]⟩]
/-- A concrete combining function (product of the two). -/
def exComb (v : List ℚ) : Res ℚ := do
  let a ← idx "vals[0]" v 0
  let b ← idx "vals[1]" v 1
  .ok (a * b)

theorem exComb_ok (v : List ℚ) (h : v.length = exMles.length) :
    exComb v = .ok (v.getD 0 0 * v.getD 1 0) := by
  unfold exComb
  have h' : v.length = 2 := h
  rw [idx_getD 0 (by omega), idx_getD 0 (by omega)]
  rfl

theorem exComb_deg : LineDeg exMles.length 2 (fun v : List ℚ => v.getD 0 0 * v.getD 1 0) :=
  (lineDeg_coord 2 0).mul (lineDeg_coord 2 1)

theorem exSum : (70 : ℚ) = ∑ b ∈ range (2 ^ 2), (fun v : List ℚ => v.getD 0 0 * v.getD 1 0)
    (exMles.map fun m => m.get b) := by
  norm_num [exMles, sum_range_succ, Mle.get]

theorem charGt_rat (n : Nat) : CharGt ℚ n := fun k h _ => by
  exact_mod_cast (show k ≠ 0 by omega)

instance fact_prime_seven : Fact (Nat.Prime 7) := ⟨by decide⟩

theorem charGt_zmod7 : CharGt (ZMod 7) 2 := by
  intro k h1 h2
  interval_cases k <;> decide

/-! ## C20 -/

/-- **C20**: completeness. For every transcript, the prover succeeds, the verifier accepts its proof
for the true sum over the hypercube, both end in the same transcript state, the sub-claim point is
the prover's randomness, and the sub-claim value is the combining function applied to the MLE
evaluations at that point. `extract_sum` returns the true sum. -/
theorem C20_completeness (T : Transcript F R σ) (s : σ) (mles : List (Mle R)) (n d : Nat)
    (comb : List R → Res R) (g : List R → R) (hn : 1 ≤ n) (hd : 1 ≤ d) (hc : CharGt F d)
    (hm : ∀ p ∈ mles, p.numVars = n)
    (hcomb : ∀ v, v.length = mles.length → comb v = .ok (g v)) (hg : LineDeg mles.length d g) :
    ∃ proof pst s' sc vals,
      proveAsSubprotocol T s mles n d comb = .ok ((proof, pst), s') ∧
      verifyAsSubprotocol T s n d (∑ b ∈ range (2 ^ n), g (mles.map fun m => m.get b)) proof
        = .ok (sc, s') ∧
      extractSum proof = .ok (∑ b ∈ range (2 ^ n), g (mles.map fun m => m.get b)) ∧
      proof.length = n ∧ sc.point = pst.randomness ∧ sc.point.length = n ∧
      evaluateMles mles (sc.point.map (algebraMap F R)) = .ok vals ∧
      comb vals = .ok sc.expectedEvaluation := by
  obtain ⟨st, h1, h2⟩ := prove_ok hd hn T s mles hcomb hm
  have hl := honestRun_length T g d n (T.absorb (T.absorb s (n : R)) (d : R)) mles
  have hcheck := checkRec_honest hd hc T n (T.absorb (T.absorb s (n : R)) (d : R)) mles hg hm
  set proof := honestRun T g d n (T.absorb (T.absorb s (n : R)) (d : R)) mles with hproof
  set rs := (drawRun T (T.absorb (T.absorb s (n : R)) (d : R)) proof).1 with hrs
  have hrl : rs.length = n := by rw [hrs, drawRun_length, hl]
  have hv := verify_eq T s n d (by omega) (cubeSum mles n g) proof (by omega)
  rw [List.take_of_length_le (by omega), ← hrs, hcheck] at hv
  refine ⟨proof, st, _, _, _, h1, hv, ?_, hl, h2.symm, hrl, ?_, hcomb _ ?_⟩
  · obtain ⟨k, rfl⟩ : ∃ k, n = k + 1 := ⟨n - 1, by omega⟩
    rw [hproof, honestRun]
    unfold extractSum
    rw [idx_ok (by simp)]
    simp only [bind_ok', List.getElem_cons_zero]
    rw [idx_ok (by simp), idx_ok (by simp; omega)]
    simp only [bind_ok', List.getElem_map, List.getElem_range, Nat.cast_zero, Nat.cast_one, msgAt_sum]
    rfl
  · exact evaluateMles_ok _ _ fun m hm' => by rw [List.length_map, hrl, hm m hm']
  · simp

/-- The hypotheses of `C20_completeness` hold for a concrete product of two polynomials. -/
example (T : Transcript ℚ ℚ σ) (s : σ) : ∃ proof pst s' sc,
    proveAsSubprotocol T s exMles 2 2 exComb = .ok ((proof, pst), s') ∧
    verifyAsSubprotocol T s 2 2 70 proof = .ok (sc, s') := by
  obtain ⟨proof, pst, s', sc, _, h1, h2, _⟩ := C20_completeness T s exMles 2 2 exComb
    (fun v => v.getD 0 0 * v.getD 1 0) (by omega) (by omega) (charGt_rat 2) (by decide) exComb_ok
    exComb_deg
  refine ⟨proof, pst, s', sc, h1, ?_⟩
  rw [← h2, ← exSum]

/-! ## C21 -/

open Classical in
/-- **C21**: soundness of the interactive protocol. For any function of degree at most `d` in each of
`n` variables, any false claim about its hypercube sum and any adaptive prover strategy, the number
of challenge vectors for which the verifier accepts and the final sub-claim is true is at most
`n d |F|^(n-1)`, i.e. a fraction of at most `n d / |F|`. -/
theorem C21_soundness [Fintype F] (n d : Nat) (hn : 1 ≤ n) (hc : CharGt F d) (f : List R → R)
    (hf : PartialDeg n d f) (c : R) (hfalse : c ≠ ∑ b ∈ range (2 ^ n), f (boolPoint n b))
    (P : List F → List R) :
    (univ.filter fun r : Fin n → F => ∃ sc s',
      verifyAsSubprotocol (coinT F R) (List.ofFn r) n d c (strategyProof P (List.ofFn r)) = .ok (sc, s') ∧
      sc.expectedEvaluation = f (sc.point.map (algebraMap F R))).card
      ≤ n * d * Fintype.card F ^ (n - 1) := by
  have h := soundness_count hf hc P n [] (by simp) c (by simpa [restSum] using hfalse)
  refine le_trans (card_le_card ?_) h
  intro r hr
  simp only [mem_filter, mem_univ, true_and] at hr ⊢
  obtain ⟨sc, s', h1, h2⟩ := hr
  have hlen : (strategyProof P (List.ofFn r)).length = n := by simp [strategyProof]
  rw [verify_eq _ _ _ _ (by omega) _ _ (by omega), List.take_of_length_le (by omega)] at h1
  have habs : ∀ (s : List F) (x : R), (coinT F R).absorb s x = s := fun _ _ => rfl
  rw [habs, habs, drawRun_coin _ _ (by simp [hlen]), hlen, List.take_of_length_le (by simp)] at h1
  rw [bind_eq_ok] at h1
  obtain ⟨e, he, h3⟩ := h1
  simp only [Except.ok.injEq, Prod.mk.injEq] at h3
  refine ⟨e, ?_, ?_⟩
  · rw [stratRec_eq]; simpa [strategyProof] using he
  · rw [← h3.1] at h2
    simpa using h2

open Classical in
/-- **C21** for combinations of multilinear extensions, the form in which every protocol of the
repository uses the sum-check. -/
theorem C21_soundness_mles [Fintype F] (n d : Nat) (hn : 1 ≤ n) (hc : CharGt F d)
    (mles : List (Mle R)) (g : List R → R) (hg : LineDeg mles.length d g) (c : R)
    (hfalse : c ≠ ∑ b ∈ range (2 ^ n), g (mles.map fun m => m.get b)) (P : List F → List R) :
    (univ.filter fun r : Fin n → F => ∃ sc s',
      verifyAsSubprotocol (coinT F R) (List.ofFn r) n d c (strategyProof P (List.ofFn r)) = .ok (sc, s') ∧
      sc.expectedEvaluation = g (mles.map fun m => mle m.get (sc.point.map (algebraMap F R)))).card
      ≤ n * d * Fintype.card F ^ (n - 1) := by
  refine C21_soundness n d hn hc (fun x => g (mles.map fun m => mle m.get x)) ?_ c ?_ P
  · intro u w _
    obtain ⟨q, hq1, hq2⟩ := hg (mles.map fun m => mle m.get (u ++ 0 :: w))
      (mles.map fun m => mle m.get (u ++ 1 :: w) - mle m.get (u ++ 0 :: w)) (by simp) (by simp)
    refine ⟨q, hq1, fun t => ?_⟩
    rw [← hq2, zipWith_map_self]
    change g _ = g _
    congr 1
    apply List.map_congr_left
    intro m _
    rw [mle_affine m.get u w t]
    ring
  · intro h
    apply hfalse
    rw [h]
    apply sum_congr rfl
    intro b hb
    congr 1
    apply List.map_congr_left
    intro m _
    rw [mle_boolPoint _ (mem_range.1 hb)]

open Classical in
/-- Instance over `ZMod 7`: the false claim `0` about `x * y` (true sum `1`), any strategy. -/
example (P : List (ZMod 7) → List (ZMod 7)) :
    (univ.filter fun r : Fin 2 → ZMod 7 => ∃ sc s',
      verifyAsSubprotocol (coinT (ZMod 7) (ZMod 7)) (List.ofFn r) 2 2 0 (strategyProof P (List.ofFn r))
        = .ok (sc, s') ∧
      sc.expectedEvaluation = (fun v : List (ZMod 7) => v.getD 0 0 * v.getD 1 0)
        (([⟨2, [0, 1, 0, 1]⟩, ⟨2, [0, 0, 1, 1]⟩] : List (Mle (ZMod 7))).map fun m =>
          mle m.get (sc.point.map (algebraMap (ZMod 7) (ZMod 7))))).card
      ≤ 2 * 2 * Fintype.card (ZMod 7) ^ (2 - 1) :=
  C21_soundness_mles 2 2 (by omega) charGt_zmod7 [⟨2, [0, 1, 0, 1]⟩, ⟨2, [0, 0, 1, 1]⟩]
    (fun v : List (ZMod 7) => v.getD 0 0 * v.getD 1 0) ((lineDeg_coord 2 0).mul (lineDeg_coord 2 1)) 0
    (by decide) P

/-! ## C22 -/

/-- **C22**: from the evaluations at `0..d` of a polynomial of degree at most `d` (over the ring), the
verifier's interpolation at any field point returns the value of that polynomial; this covers the
64-bit, 128-bit and field branches and includes the absence of overflow and division by zero. -/
theorem C22_interpolation (d : Nat) (hc : CharGt F d) (q : R[X]) (hq : q.natDegree ≤ d) (r : F) :
    interpolateUniPoly ((List.range (d + 1)).map fun j : Nat => q.eval (j : R)) r
      = .ok (q.eval (algebraMap F R r)) :=
  interpolate_poly d hc q hq _ rfl r

/-- **C22**: the interpolation aborts exactly on the empty list. -/
theorem C22_aborts_iff_empty (p : List R) (hc : CharGt F (p.length - 1)) (r : F) :
    (∃ e, interpolateUniPoly p r = .error e) ↔ p = [] := by
  constructor
  · rintro ⟨e, he⟩
    by_contra hp
    have hl : p.length ≠ 0 := by simpa using hp
    obtain ⟨q, hq1, hq2⟩ := exists_interpolant (p.length - 1) hc p (by omega)
    rw [interpolate_poly _ hc q hq1 p hq2 r] at he
    simp at he
  · rintro rfl
    exact ⟨_, interpolateUniPoly_nil r⟩

/-- All three branches (lengths 3, 25 and 40) at a non-integer point. -/
example : interpolateUniPoly ((List.range (2 + 1)).map fun j : Nat => (X ^ 2 + 1 : ℚ[X]).eval (j : ℚ)) (1 / 2 : ℚ)
    = .ok ((X ^ 2 + 1 : ℚ[X]).eval (algebraMap ℚ ℚ (1 / 2))) :=
  C22_interpolation 2 (charGt_rat 2) _ (by compute_degree) _
example : interpolateUniPoly ((List.range (24 + 1)).map fun j : Nat => (X ^ 24 + 1 : ℚ[X]).eval (j : ℚ)) (1 / 2 : ℚ)
    = .ok ((X ^ 24 + 1 : ℚ[X]).eval (algebraMap ℚ ℚ (1 / 2))) :=
  C22_interpolation 24 (charGt_rat 24) _ (by compute_degree) _
example : interpolateUniPoly ((List.range (39 + 1)).map fun j : Nat => (X ^ 39 + 1 : ℚ[X]).eval (j : ℚ)) (1 / 2 : ℚ)
    = .ok ((X ^ 39 + 1 : ℚ[X]).eval (algebraMap ℚ ℚ (1 / 2))) :=
  C22_interpolation 39 (charGt_rat 39) _ (by compute_degree) _

/-! ## C23 -/

/-- **C23**: whatever the MLEs, the combining function and the claimed sum, when the prover outputs a
proof the verifier's challenge loop on that proof succeeds, draws the same challenges and ends in the
same transcript state. -/
theorem C23_sync (T : Transcript F R σ) (s s' : σ) (mles : List (Mle R)) (n d : Nat)
    (comb : List R → Res R) (proof : List (List R)) (pst : ProverState F R)
    (h : proveAsSubprotocol T s mles n d comb = .ok ((proof, pst), s')) :
    ∃ vst, verifyLoop T proof (List.range n) (verifierInit n d)
        (T.absorb (T.absorb s (n : R)) (d : R)) = .ok (vst, s') ∧
      vst.randomness = pst.randomness ∧ vst.finished = true := by
  obtain ⟨h0, h1, h2, h3⟩ := prove_sync T comb s s' mles n d proof pst h
  obtain ⟨rd, hrd⟩ := verifyLoop_ok T proof n d (by omega) (T.absorb (T.absorb s (n : R)) (d : R))
  rw [List.take_of_length_le (by omega), ← h2, ← h3] at hrd
  exact ⟨_, hrd, rfl, by simp [h0]⟩

/-- **C23** at the level of the public entry points: whenever the verifier accepts a proof output by
the prover (for whatever claimed sum and even if it was produced for a different statement), transcript
states and challenges coincide. -/
theorem C23_sync_api (T : Transcript F R σ) (s s' s'' : σ) (mles : List (Mle R)) (n d : Nat)
    (comb : List R → Res R) (proof : List (List R)) (pst : ProverState F R) (c : R) (sc : SubClaim F R)
    (h : proveAsSubprotocol T s mles n d comb = .ok ((proof, pst), s'))
    (hv : verifyAsSubprotocol T s n d c proof = .ok (sc, s'')) :
    s'' = s' ∧ sc.point = pst.randomness := by
  obtain ⟨h0, h1, h2, h3⟩ := prove_sync T comb s s' mles n d proof pst h
  rw [verify_eq T s n d h0 c proof (by omega), List.take_of_length_le (by omega), bind_eq_ok] at hv
  obtain ⟨e, _, hv⟩ := hv
  simp only [Except.ok.injEq, Prod.mk.injEq] at hv
  exact ⟨by rw [← hv.2, h3], by rw [← hv.1, h2]⟩

example (T : Transcript ℚ ℚ σ) (s : σ) : ∃ proof pst s',
    proveAsSubprotocol T s exMles 2 2 exComb = .ok ((proof, pst), s') ∧
    ∃ vst, verifyLoop T proof (List.range 2) (verifierInit 2 2)
        (T.absorb (T.absorb s (2 : Nat)) (2 : Nat)) = .ok (vst, s') ∧ vst.randomness = pst.randomness := by
  obtain ⟨proof, pst, s', sc, _, h1, _⟩ := C20_completeness T s exMles 2 2 exComb
    (fun v => v.getD 0 0 * v.getD 1 0) (by omega) (by omega) (charGt_rat 2) (by decide) exComb_ok
    exComb_deg
  obtain ⟨vst, h2, h3, _⟩ := C23_sync T s s' exMles 2 2 exComb proof pst h1
  exact ⟨proof, pst, s', h1, vst, h2, h3⟩

/-! ## C24 -/

/-- **C24**: for every schedule of the parallel runtime that covers the vertex pairs in order, every
list of tables and every (possibly aborting) combining function, the parallel round computes a
message iff the sequential one does, and then the same message. -/
theorem C24_schedule_independent (polys : List (Mle R)) (d : Nat) (comb : List R → Res R) (k : Nat)
    (t : Schedule) (ht : t.toList = List.range (2 ^ k)) (m : List R) :
    roundMessageParallel polys d comb t = .ok m ↔ roundMessage polys d comb k = .ok m := by
  rw [parallel_iff, ht]
  exact (foldRes_foldStep polys d comb _ _ _).symm

example : ∃ m, roundMessageParallel exMles 2 exComb (.node (.node .ident (.chunk [0])) (.chunk [1]))
    = .ok m ∧ roundMessage exMles 2 exComb 1 = .ok m := by
  have h := roundMessage_ok (g := fun v : List ℚ => v.getD 0 0 * v.getD 1 0) exMles 2 (by omega) exComb_ok 1
  exact ⟨_, (C24_schedule_independent exMles 2 exComb 1 _ rfl _).2 h, h⟩

/-! ## C25 -/

/-- **C25** is false: a proof with too few messages aborts the verifier. -/
theorem C25_short_proof_panics (T : Transcript F R σ) (s : σ) (n d : Nat) (c : R)
    (proof : List (List R)) (h : proof.length < n) :
    verifyAsSubprotocol T s n d c proof = .error (.panic "proof is incomplete") :=
  verify_short T s n d c proof h

/-- **C25** is false: a first message with the wrong number of evaluations aborts the verifier. -/
theorem C25_wrong_evaluations_panic (T : Transcript F R σ) (s : σ) (n d : Nat) (hn : n ≠ 0) (c : R)
    (m : List R) (ms : List (List R)) (h : n ≤ ms.length + 1) (hm : m.length ≠ d + 1) :
    verifyAsSubprotocol T s n d c (m :: ms) = .error (.panic "incorrect number of evaluations") := by
  rw [verify_eq T s n d hn c _ (by simpa using h)]
  obtain ⟨k, rfl⟩ : ∃ k, n = k + 1 := ⟨n - 1, by omega⟩
  simp only [List.take_succ_cons, drawRun, checkRec]
  rw [if_pos hm]
  rfl

/-- **C25** is false: zero variables always abort, and degree zero aborts on well-formed messages. -/
theorem C25_degenerate_parameters_panic (T : Transcript F R σ) (s : σ) (c x : R) (d : Nat)
    (ms : List (List R)) :
    verifyAsSubprotocol T s 0 d c ms = .error (.panic "Verifier has not finished.") ∧
    verifyAsSubprotocol T s 1 0 c ([x] :: ms) = .error (.panic "evaluations[1]") := by
  refine ⟨verify_zero T s d c ms, ?_⟩
  rw [verify_eq T s 1 0 (by omega) c _ (by simp)]
  rfl

/-- **C25** is false for `extract_sum` as well. -/
theorem C25_extract_sum_panics : extractSum ([] : List (List R)) = .error (.panic "proof.0[0]") ∧
    extractSum [([] : List R)] = .error (.panic "evaluations[0]") := ⟨rfl, rfl⟩

/-- **C25**, the part that holds: with at least one variable, positive degree, and at least `n`
messages of which the first `n` have `d + 1` evaluations, the verifier never aborts: it accepts or
returns the documented error. Missing for the full property: proofs of any other shape. -/
theorem C25_total_on_shaped_proofs_partial (T : Transcript F R σ) (s : σ) (n d : Nat) (hn : n ≠ 0)
    (hd : d ≠ 0) (hc : CharGt F d) (c : R) (proof : List (List R)) (h : n ≤ proof.length)
    (hm : ∀ m ∈ proof.take n, m.length = d + 1) :
    (∃ sc s', verifyAsSubprotocol T s n d c proof = .ok (sc, s')) ∨
      verifyAsSubprotocol T s n d c proof = .error .sumCheckFailed := by
  have key : ∀ (ms : List (List R)) (rs : List F) (e : R), (∀ m ∈ ms, m.length = d + 1) →
      (∃ e', checkRec d ms rs e = .ok e') ∨ checkRec d ms rs e = .error .sumCheckFailed := by
    intro ms
    induction ms with
    | nil => intro rs e _; exact .inl ⟨e, by simp [checkRec]⟩
    | cons m ms ih =>
      intro rs e hms
      cases rs with
      | nil => exact .inl ⟨e, by simp [checkRec]⟩
      | cons r rs =>
        have hl := hms m (by simp)
        obtain ⟨q, hq1, hq2⟩ := exists_interpolant d hc m hl
        rw [checkRec, if_neg (by simpa using hl), idx_ok (by omega), idx_ok (by omega)]
        simp only [bind_ok']
        split
        · exact .inr rfl
        · rw [interpolate_poly d hc q hq1 m hq2]
          exact ih rs _ fun x hx => hms x (by simp [hx])
  rw [verify_eq T s n d hn c proof h]
  rcases key (proof.take n) (drawRun T (T.absorb (T.absorb s (n : R)) (d : R)) (proof.take n)).1 c hm
    with ⟨e, he⟩ | he
  · rw [he]; exact .inl ⟨_, _, rfl⟩
  · rw [he]; exact .inr rfl

example (T : Transcript ℚ ℚ σ) (s : σ) :
    verifyAsSubprotocol T s 2 2 70 [[1, 2, 3]] = .error (.panic "proof is incomplete") :=
  C25_short_proof_panics T s 2 2 70 _ (by decide)
example (T : Transcript ℚ ℚ σ) (s : σ) :
    (∃ sc s', verifyAsSubprotocol T s 1 2 70 [[1, 2, 3]] = .ok (sc, s')) ∨
      verifyAsSubprotocol T s 1 2 70 [[1, 2, 3]] = .error .sumCheckFailed :=
  C25_total_on_shaped_proofs_partial T s 1 2 (by omega) (by omega) (charGt_rat 2) 70 _ (by decide)
    (by decide)

/-! ## C26 -/

/-- **C26** is false: messages after the first `n` are ignored, so every accepted proof can be
extended arbitrarily with the same result and the same transcript state. -/
theorem C26_trailing_messages_ignored (T : Transcript F R σ) (s : σ) (n d : Nat) (c : R)
    (proof extra : List (List R)) (sc : SubClaim F R) (s' : σ)
    (h : verifyAsSubprotocol T s n d c proof = .ok (sc, s')) :
    verifyAsSubprotocol T s n d c (proof ++ extra) = .ok (sc, s') := by
  by_cases hn : n = 0
  · subst hn; rw [verify_zero] at h; simp at h
  by_cases hl : n ≤ proof.length
  · rw [← h, verify_eq T s n d hn c _ (by simp; omega), verify_eq T s n d hn c proof hl,
      List.take_append_of_le_length hl]
  · rw [verify_short T s n d c proof (by omega)] at h; simp at h

/-- **C26**, the part that holds: the result depends on the first `n` messages only, and no proof
obtained by removing messages from an accepted proof of exactly `n` messages is accepted. Missing for
the full property: rejection of appended messages. -/
theorem C26_prefix_determines_partial (T : Transcript F R σ) (s : σ) (n d : Nat) (c : R)
    (proof : List (List R)) :
    (n ≤ proof.length → verifyAsSubprotocol T s n d c (proof.take n) = verifyAsSubprotocol T s n d c proof) ∧
    (∀ k < n, ∃ e, verifyAsSubprotocol T s n d c (proof.take k) = .error e) := by
  constructor
  · intro hl
    by_cases hn : n = 0
    · subst hn; rfl
    · rw [verify_eq T s n d hn c _ (by simp [hl]), verify_eq T s n d hn c proof hl, List.take_take,
        Nat.min_self]
  · intro k hk
    exact ⟨_, verify_short T s n d c _ (by simp; omega)⟩

example (T : Transcript ℚ ℚ σ) (s : σ) (extra : List (List ℚ)) : ∃ proof sc s',
    verifyAsSubprotocol T s 2 2 70 proof = .ok (sc, s') ∧
    verifyAsSubprotocol T s 2 2 70 (proof ++ extra) = .ok (sc, s') := by
  obtain ⟨proof, pst, s', sc, _, h1, h2, _⟩ := C20_completeness T s exMles 2 2 exComb
    (fun v => v.getD 0 0 * v.getD 1 0) (by omega) (by omega) (charGt_rat 2) (by decide) exComb_ok
    exComb_deg
  have h3 : verifyAsSubprotocol T s 2 2 70 proof = .ok (sc, s') := by
    rw [← h2, ← exSum]
  exact ⟨proof, sc, s', h3, C26_trailing_messages_ignored T s 2 2 70 proof extra sc s' h3⟩

end Verif.Props
