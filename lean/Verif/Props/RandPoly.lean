import Verif.Props.Sumcheck

set_option linter.unusedSimpArgs false
set_option linter.unusedSectionVars false

/-! # Property C80: sums of products of multilinear polynomials. -/

namespace Verif.Props
open Verif Verif.Spec Finset

section
variable {R : Type} [CommRing R]

/-- The value of a sum of products. -/
def prodValue (vals : List R) (products : List (R × List Nat)) : R :=
  (products.map fun p => p.1 * (p.2.map fun i => vals.getD i 0).prod).sum

theorem term_ok (vals : List R) (is : List Nat) (t : R) (h : ∀ i ∈ is, i < vals.length) :
    foldRes (fun term i => do
      let v ← idx "rand_poly_comb_fn" vals i
      .ok (term * v)) t is = .ok (t * (is.map fun i => vals.getD i 0).prod) := by
  induction is generalizing t with
  | nil => simp [foldRes]
  | cons i is ih =>
    have hi := h i (by simp)
    simp only [foldRes]
    rw [idx_ok hi]
    simp only [bind_ok']
    rw [ih _ fun j hj => h j (by simp [hj])]
    simp [List.getD_eq_getElem?_getD, hi, mul_assoc]

theorem term_bad (vals : List R) (is : List Nat) (t : R) (h : ¬ ∀ i ∈ is, i < vals.length) :
    foldRes (fun term i => do
      let v ← idx "rand_poly_comb_fn" vals i
      .ok (term * v)) t is = .error (.panic "rand_poly_comb_fn") := by
  induction is generalizing t with
  | nil => simp at h
  | cons i is ih =>
    simp only [foldRes]
    by_cases hi : i < vals.length
    · rw [idx_ok hi]
      simp only [bind_ok']
      exact ih _ fun h2 => h (by simpa [hi] using h2)
    · unfold idx
      rw [List.getElem?_eq_none (by omega)]
      rfl

theorem comb_ok (vals : List R) (products : List (R × List Nat)) (a : R)
    (h : ∀ p ∈ products, ∀ i ∈ p.2, i < vals.length) :
    foldRes (fun result p => do
      let term ← foldRes (fun term i => do
        let v ← idx "rand_poly_comb_fn" vals i
        .ok (term * v)) p.1 p.2
      .ok (result + term)) a products = .ok (a + prodValue vals products) := by
  induction products generalizing a with
  | nil => simp [foldRes, prodValue]
  | cons p ps ih =>
    simp only [foldRes]
    rw [term_ok _ _ _ (h p (by simp))]
    simp only [bind_ok']
    rw [ih _ fun q hq => h q (by simp [hq])]
    simp [prodValue, add_assoc]

theorem comb_bad (vals : List R) (products : List (R × List Nat)) (a : R)
    (h : ¬ ∀ p ∈ products, ∀ i ∈ p.2, i < vals.length) :
    foldRes (fun result p => do
      let term ← foldRes (fun term i => do
        let v ← idx "rand_poly_comb_fn" vals i
        .ok (term * v)) p.1 p.2
      .ok (result + term)) a products = .error (.panic "rand_poly_comb_fn") := by
  induction products generalizing a with
  | nil => simp at h
  | cons p ps ih =>
    simp only [foldRes]
    by_cases hp : ∀ i ∈ p.2, i < vals.length
    · rw [term_ok _ _ _ hp]
      simp only [bind_ok']
      refine ih _ fun h2 => h ?_
      intro q hq
      rcases List.mem_cons.1 hq with rfl | hq
      · exact hp
      · exact h2 q hq
    · rw [term_bad _ _ _ hp]
      rfl

/-- **C80**, `rand_poly_comb_fn` evaluates the sum of products, and aborts exactly if an index is out of range. -/
theorem C80_comb (vals : List R) (products : List (R × List Nat)) :
    ((∀ p ∈ products, ∀ i ∈ p.2, i < vals.length) →
      randPolyCombFn vals products = .ok (products.map fun p => p.1 * (p.2.map fun i => vals.getD i 0).prod).sum) ∧
    ((∃ p ∈ products, ∃ i ∈ p.2, vals.length ≤ i) →
      randPolyCombFn vals products = .error (.panic "rand_poly_comb_fn")) := by
  refine ⟨fun h => ?_, fun ⟨p, hp, i, hi, hl⟩ => ?_⟩
  · unfold randPolyCombFn
    rw [comb_ok _ _ _ h, zero_add]
    rfl
  · unfold randPolyCombFn
    apply comb_bad
    intro h
    exact absurd (h p hp i hi) (by omega)

example : randPolyCombFn ([2, 3, 5] : List ℤ) [(7, [0, 1]), (1, [2, 2]), (4, [])] = .ok 71 := by decide
example : randPolyCombFn ([2, 3, 5] : List ℤ) [(7, [0, 3])] = .error (.panic "rand_poly_comb_fn") := by decide

theorem prodValue_deg [DecidableEq R] (k d : Nat) (products : List (R × List Nat)) (h : ∀ p ∈ products, p.2.length ≤ d) :
    LineDeg k d fun v => prodValue v products := by
  unfold prodValue
  induction products with
  | nil => simpa using lineDeg_const k d (0 : R)
  | cons p ps ih =>
    have h1 : LineDeg k d fun v : List R => p.1 * (p.2.map fun i => v.getD i 0).prod :=
      (Spec.LineDeg.smul p.1 (Spec.LineDeg.list_prod p.2 (g := fun i v => v.getD i 0)
        fun i _ => lineDeg_coord k i)).mono (h p (by simp))
    simpa using h1.add (ih fun q hq => h q (by simp [hq]))

/-- What the loop of `rand_poly` has produced after some draws. -/
structure RandInv (nv : Nat) (draws : List (R × List (Mle R)))
    (acc : List (Mle R) × Nat × List (R × List Nat) × Nat × R) : Prop where
  mles : acc.1 = draws.flatMap (·.2)
  current : acc.2.2.2.1 = acc.1.length
  deg : ∀ p ∈ draws, p.2.length ≤ acc.2.1
  degs : ∀ p ∈ acc.2.2.1, p.2.length ≤ acc.2.1
  range : ∀ p ∈ acc.2.2.1, ∀ i ∈ p.2, i < acc.1.length
  value : ∀ b, prodValue (acc.1.map fun m => m.get b) acc.2.2.1
    = (draws.map fun p => p.1 * (p.2.map fun f => f.get b).prod).sum
  sum : acc.2.2.2.2 = (draws.map fun p => p.1 * productSum nv p.2).sum
  attained : draws ≠ [] → ∃ p ∈ draws, p.2.length = acc.2.1

theorem randInv (nv : Nat) (todo : List (R × List (Mle R))) : ∀ (done : List (R × List (Mle R)))
    (acc : List (Mle R) × Nat × List (R × List Nat) × Nat × R), RandInv nv done acc →
    (done = [] → acc.2.1 = 0) →
    RandInv nv (done ++ todo) (todo.foldl
    (fun (acc : List (Mle R) × Nat × List (R × List Nat) × Nat × R) p =>
      let (mles, degree, products, current, sum) := acc
      let m := p.2.length
      (mles ++ p.2, max m degree, products ++ [(p.1, (List.range m).map (current + ·))], current + m,
        sum + productSum nv p.2 * p.1)) acc) := by
  induction todo with
  | nil => intro done acc h _; simpa using h
  | cons p ps ih =>
    rintro done ⟨mles, degree, products, current, sum⟩ h h0
    rw [List.foldl_cons, show done ++ p :: ps = (done ++ [p]) ++ ps by simp]
    apply ih
    · constructor
      · have := h.mles; simp only at this; simp [this]
      · have := h.current; simp only at this; simp [this]
      · intro q hq
        simp only [List.mem_append, List.mem_singleton] at hq
        rcases hq with hq | rfl
        · exact le_trans (h.deg q hq) (le_max_right _ _)
        · exact le_max_left _ _
      · intro q hq
        simp only [List.mem_append, List.mem_singleton] at hq
        rcases hq with hq | rfl
        · exact le_trans (h.degs q hq) (le_max_right _ _)
        · simp
      · intro q hq i hi
        simp only [List.mem_append, List.mem_singleton] at hq
        have hc := h.current
        simp only at hc
        rcases hq with hq | rfl
        · have := h.range q hq i hi
          simp only [List.length_append] at this ⊢
          omega
        · simp only [List.mem_map, List.mem_range] at hi
          obtain ⟨k, hk, rfl⟩ := hi
          simp only [List.length_append]
          omega
      · intro b
        have h1 := h.value b
        have hc := h.current
        simp only at h1 hc
        simp only [prodValue, List.map_append, List.sum_append, List.map_cons, List.map_nil, List.sum_cons,
          List.sum_nil, add_zero]
        congr 1
        · rw [← h1]
          unfold prodValue
          congr 1
          apply List.map_congr_left
          intro q hq
          congr 2
          apply List.map_congr_left
          intro i hi
          have := h.range q hq i hi
          simp only at this
          rw [List.getD_eq_getElem?_getD, List.getD_eq_getElem?_getD, List.getElem?_append_left (by simpa using this)]
        · congr 2
          rw [List.map_map]
          apply List.ext_getElem
          · simp
          · intro i h2 h3
            simp only [List.length_map, List.length_range] at h2
            simp [List.getD_eq_getElem?_getD, List.getElem?_append_right, hc, h2]
      · have := h.sum
        simp only at this
        simp [this, mul_comm]
      · intro _
        rcases le_total p.2.length degree with hle | hle
        · by_cases hd : done = []
          · have := h0 hd
            simp only at this
            exact ⟨p, by simp, by simp; omega⟩
          · obtain ⟨q, hq, hl⟩ := h.attained hd
            exact ⟨q, by simp [hq], by simp only at hl ⊢; omega⟩
        · exact ⟨p, by simp, by simp; omega⟩
    · intro h; simp at h

theorem randPoly_inv (nv : Nat) (draws : List (R × List (Mle R))) :
    ∃ current, RandInv nv draws ((randPoly nv draws).1.1, (randPoly nv draws).1.2, (randPoly nv draws).2.1, current,
      (randPoly nv draws).2.2) := by
  have := randInv nv draws [] ([], 0, [], 0, 0) (by constructor <;> simp [prodValue]) (fun _ => rfl)
  exact ⟨_, this⟩

end

section
variable {F R σ : Type} [Field F] [DecidableEq F] [CommRing R] [DecidableEq R] [Algebra F R]

/-- **C80**: for every polynomial drawn by `rand_poly` with at least one non-empty product, the sum it
returns is the sum of the polynomial over the cube, the honest proof for it is accepted with this sum, the final
claim is true, and the same proof is refused with any other sum. -/
theorem C80_rand_poly (T : Transcript F R σ) (s : σ) (nv : Nat) (hn : 1 ≤ nv) (draws : List (R × List (Mle R)))
    (hd : ∃ p ∈ draws, p.2 ≠ []) (hm : ∀ p ∈ draws, ∀ f ∈ p.2, f.numVars = nv)
    (hc : ∀ p ∈ draws, CharGt F p.2.length) :
    let mles := (randPoly nv draws).1.1
    let degree := (randPoly nv draws).1.2
    let products := (randPoly nv draws).2.1
    let sum := (randPoly nv draws).2.2
    mles = draws.flatMap (·.2) ∧
    (∀ b, randPolyCombFn (mles.map fun f => f.get b) products
      = .ok (draws.map fun p => p.1 * (p.2.map fun f => f.get b).prod).sum) ∧
    sum = ∑ b ∈ range (2 ^ nv), (draws.map fun p => p.1 * (p.2.map fun f => f.get b).prod).sum ∧
    ∃ proof pst s' sc vals,
      proveAsSubprotocol T s mles nv degree (randPolyCombFn · products) = .ok ((proof, pst), s') ∧
      verifyAsSubprotocol T s nv degree sum proof = .ok (sc, s') ∧
      evaluateMles mles (sc.point.map (algebraMap F R)) = .ok vals ∧
      randPolyCombFn vals products = .ok sc.expectedEvaluation ∧
      ∀ sum', sum' ≠ sum → ∀ r, verifyAsSubprotocol T s nv degree sum' proof ≠ .ok r := by
  intro mles degree products sum
  obtain ⟨current, h⟩ := randPoly_inv nv draws
  have hval : ∀ v : List R, v.length = mles.length → randPolyCombFn v products = .ok (prodValue v products) := by
    intro v hv
    exact (C80_comb v products).1 fun p hp i hi => by
      have := h.range p hp i hi
      rw [hv]; exact this
  have hsum : sum = ∑ b ∈ range (2 ^ nv), (draws.map fun p => p.1 * (p.2.map fun f => f.get b).prod).sum := by
    have h1 : sum = (draws.map fun p => p.1 * productSum nv p.2).sum := h.sum
    rw [h1]
    clear h h1 hc hm hd hval
    induction draws with
    | nil => simp
    | cons p ps ih =>
      simp only [List.map_cons, List.sum_cons, Finset.sum_add_distrib]
      rw [ih, ← Finset.mul_sum]
      congr 2
  have hcomb : ∀ b, randPolyCombFn (mles.map fun f => f.get b) products
      = .ok (draws.map fun p => p.1 * (p.2.map fun f => f.get b).prod).sum := by
    intro b
    rw [hval _ (by simp), ← h.value b]
  refine ⟨h.mles, hcomb, hsum, ?_⟩
  obtain ⟨q, hq, hl⟩ := h.attained (by rintro rfl; simp at hd)
  have hdeg : 1 ≤ degree := by
    obtain ⟨p, hp, hne⟩ := hd
    have h1 := h.deg p hp
    have h2 := List.length_pos_iff.2 hne
    exact le_trans h2 h1
  have hmv : ∀ f ∈ mles, f.numVars = nv := by
    intro f hf
    have h1 : mles = draws.flatMap (·.2) := h.mles
    rw [h1, List.mem_flatMap] at hf
    obtain ⟨p, hp, hf⟩ := hf
    exact hm p hp f hf
  have hcd : CharGt F degree := by
    have := hc q hq
    rw [hl] at this
    exact this
  obtain ⟨proof, pst, s', sc, vals, h1, h2, h3, h4, _, _, h7, h8⟩ := C20_completeness T s mles nv degree
    (randPolyCombFn · products) (fun v => prodValue v products) hn hdeg hcd hmv hval
    (prodValue_deg mles.length degree products h.degs)
  have he : ∑ b ∈ range (2 ^ nv), prodValue (mles.map fun m => m.get b) products = sum := by
    rw [hsum]
    exact Finset.sum_congr rfl fun b _ => h.value b
  rw [he] at h2 h3
  refine ⟨proof, pst, s', sc, vals, h1, h2, h7, h8, ?_⟩
  rintro sum' hne ⟨sc', s''⟩ hv
  have := claim_unique T s nv degree hn sum' proof (by omega) sc' s'' hv
  rw [h3] at this
  exact hne (Except.ok.inj this).symm

/-- Two products, of three and of one polynomial in two variables. -/
def exDraws : List (ℚ × List (Mle ℚ)) :=
  [(2, [⟨2, [1, 2, 3, 4]⟩, ⟨2, [0, 1, 0, 1]⟩, ⟨2, [1, 1, 1, 2]⟩]), (-1, [⟨2, [5, 0, 0, 1]⟩])]

example : (randPoly 2 exDraws).1.2 = 3 ∧ (randPoly 2 exDraws).2.1 = [(2, [0, 1, 2]), (-1, [3])] ∧
    (randPoly 2 exDraws).2.2 = 14 := by decide +kernel

example (T : Transcript ℚ ℚ σ) (s : σ) : ∃ proof pst s' sc,
    proveAsSubprotocol T s (randPoly 2 exDraws).1.1 2 3 (randPolyCombFn · (randPoly 2 exDraws).2.1)
      = .ok ((proof, pst), s') ∧
    verifyAsSubprotocol T s 2 3 14 proof = .ok (sc, s') ∧
    ∀ r, verifyAsSubprotocol T s 2 3 15 proof ≠ .ok r := by
  obtain ⟨_, _, _, proof, pst, s', sc, _, h1, h2, _, _, h3⟩ := C80_rand_poly T s 2 (by norm_num) exDraws
    ⟨_, List.mem_cons_self, by simp⟩ (by decide) (fun _ _ => charGt_rat _)
  have hs : (randPoly 2 exDraws).2.2 = 14 := by decide +kernel
  rw [hs] at h2 h3
  exact ⟨proof, pst, s', sc, h1, h2, h3 15 (by norm_num)⟩

end

end Verif.Props
