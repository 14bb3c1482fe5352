import Verif.Lemmas.Arith

/-!
# Property theorems: commitments (C01, C03, C04)
-/

set_option linter.unusedSimpArgs false
set_option linter.unusedSectionVars false

namespace Verif.Props

open Finset Verif

variable {R : Type} [CommRing R]

/-! ## C01 -/

/-- Pointwise linear combination of two vectors of the same length (specification). -/
def linComb2 (a b : R) (f g : List R) : List R := List.zipWith (fun x y => a * x + b * y) f g

/-- **C01**, success/failure: committing succeeds exactly on vectors of the scheme's width, and the
only other outcome is the wrong-length error carrying both lengths. -/
theorem C01_commit_total (s : Ajtai R) (f : List R) :
    ((∃ c, s.commit f = .ok c) ↔ f.length = s.width) ∧
    (f.length ≠ s.width → s.commit f = .error (.wrongWitnessLength f.length s.width)) := by
  by_cases h : f.length = s.matrix.ncols
  · simp [Ajtai.commit, Mat.checkedMulVec, Ajtai.width, h]
  · simp [Ajtai.commit, Ajtai.width, h]

/-- **C01**, value: entry `i` of a commitment is the inner product of row `i` with the vector. -/
theorem C01_commit_entries (s : Ajtai R) (hs : s.matrix.WF) (f : List R) (c : Commitment R)
    (h : s.commit f = .ok c) :
    c.len = s.kappa ∧ ∀ i < s.kappa,
      c.val.getD i 0 = ∑ j ∈ range s.width, (s.matrix.vals.getD i []).getD j 0 * f.getD j 0 := by
  by_cases hl : f.length = s.matrix.ncols
  · simp only [Ajtai.commit, Mat.checkedMulVec, hl, ne_eq, not_true_eq_false, if_false, if_true,
      Except.ok.injEq] at h
    subst h
    refine ⟨by simp [Commitment.len, Ajtai.kappa, hs.1], fun i hi => ?_⟩
    have hi' : i < s.matrix.vals.length := by rw [hs.1]; exact hi
    rw [← dot_eq_sum _ _ _ (Or.inr (by rw [hl]; exact le_refl _))]
    simp [hi']
  · simp [Ajtai.commit, hl] at h

/-- **C01**, linearity: `commit (a f + b g) = a commit f + b commit g` with the code's operators. -/
theorem C01_commit_linear (s : Ajtai R) (hs : s.matrix.WF) (a b : R) (f g : List R)
    (cf cg : Commitment R) (hf : s.commit f = .ok cf) (hg : s.commit g = .ok cg) :
    s.commit (linComb2 a b f g) = .ok ((cf.smul a).add (cg.smul b)) := by
  have lf : f.length = s.matrix.ncols := (C01_commit_total s f).1.1 ⟨cf, hf⟩
  have lg : g.length = s.matrix.ncols := (C01_commit_total s g).1.1 ⟨cg, hg⟩
  have ll : (linComb2 a b f g).length = s.matrix.ncols := by simp [linComb2, lf, lg]
  simp only [Ajtai.commit, Mat.checkedMulVec, lf, lg, ne_eq, not_true_eq_false, if_false, if_true,
      Except.ok.injEq] at hf hg
  subst hf; subst hg
  simp only [Ajtai.commit, Mat.checkedMulVec, ll, ne_eq, not_true_eq_false, if_false, if_true]
  simp only [Commitment.smul, Commitment.add, List.map_map]
  rw [zipAssign_eq_zipWith _ _ _ (by simp), zipWith_map_self]
  congr 2
  apply List.map_congr_left
  intro row hrow
  have lr : row.length = s.matrix.ncols := hs.2 row hrow
  simp only [Function.comp]
  rw [dot_eq_sum row _ _ (Or.inl (le_of_eq lr)), dot_eq_sum row f _ (Or.inl (le_of_eq lr)),
    dot_eq_sum row g _ (Or.inl (le_of_eq lr)), Finset.sum_mul, Finset.sum_mul,
    ← Finset.sum_add_distrib]
  refine Finset.sum_congr rfl fun j hj => ?_
  have hj : j < s.matrix.ncols := Finset.mem_range.1 hj
  have : (linComb2 a b f g).getD j 0 = a * f.getD j 0 + b * g.getD j 0 := by
    simp [linComb2, List.getD_eq_getElem?_getD, List.getElem?_zipWith, lf, lg, hj]
  rw [this]; ring

/-- A 2x3 scheme over the integers used as a non-trivial instance. -/
def exAjtai : Ajtai Int := ⟨Mat.ofRows [[1, 2, 3], [4, 5, 6]]⟩

example : exAjtai.matrix.WF ∧ exAjtai.commit [1, 0, 2] = .ok ⟨[7, 16]⟩ ∧
    exAjtai.commit [0, 1, 1] = .ok ⟨[5, 11]⟩ := by
  refine ⟨⟨rfl, ?_⟩, rfl, rfl⟩
  intro r hr
  simp [exAjtai, Mat.ofRows] at hr
  rcases hr with rfl | rfl <;> rfl

example : exAjtai.commit [1] = .error (.wrongWitnessLength 1 3) := by
  exact (C01_commit_total exAjtai [1]).2 (by decide)

/-! ## C03 -/

/-- **C03 is false of the code.** For every random generator, every `kappa` and every width, the
randomly generated scheme commits equally to any two vectors with the same sum of entries. -/
theorem C03_rand_collides {G : Type} (rnd : G → R × G) (kappa n : Nat) (rng : G) (f g : List R)
    (hf : f.length = n) (hg : g.length = n) (hsum : f.sum = g.sum) :
    (Ajtai.rand rnd kappa n rng).1.commit f = (Ajtai.rand rnd kappa n rng).1.commit g := by
  have key : ∀ (x : R) (v : List R), v.length = n → dot (List.replicate n x) v = x * v.sum := by
    intro x v hv
    rw [dot_eq_sum _ _ n (Or.inl (by simp)), list_sum_eq_range v n (le_of_eq hv), Finset.mul_sum]
    refine Finset.sum_congr rfl fun j hj => ?_
    simp [List.getD_eq_getElem?_getD, List.getElem?_replicate, Finset.mem_range.1 hj]
  unfold Ajtai.rand Ajtai.commit Mat.checkedMulVec
  simp only [Mat.ofRows, hf, hg, List.map_replicate, key _ _ hf, key _ _ hg, hsum]

/-- **C03**, negation with a short, non-zero kernel vector: for every random tape and every width at
least 2 the random scheme maps the vector `(1, -1, 0, ..., 0)` and the zero vector to the same
commitment, so it is never binding on short vectors. -/
theorem C03_rand_not_binding [Nontrivial R] {G : Type} (rnd : G → R × G) (kappa n : Nat) (rng : G) :
    ∃ f g : List R, f.length = n + 2 ∧ g.length = n + 2 ∧ f ≠ g ∧
      (∀ x ∈ f ++ g, x = 0 ∨ x = 1 ∨ x = -1) ∧
      (Ajtai.rand rnd kappa (n + 2) rng).1.commit f = (Ajtai.rand rnd kappa (n + 2) rng).1.commit g := by
  refine ⟨1 :: -1 :: List.replicate n 0, List.replicate (n + 2) 0, by simp, by simp, ?_, ?_, ?_⟩
  · intro h; simp [List.replicate_succ] at h
  · intro x hx
    simp only [List.cons_append, List.mem_cons, List.mem_append, List.mem_replicate] at hx
    tauto
  · exact C03_rand_collides rnd kappa (n + 2) rng _ _ (by simp) (by simp) (by simp)

/-- **C03**, what does hold: the random scheme has the requested shape (for `kappa ≥ 1`) and accepts
exactly vectors of that width. Missing from the full property: independence of the entries. -/
theorem C03_rand_shape_partial {G : Type} (rnd : G → R × G) (kappa n : Nat) (rng : G) :
    let s := (Ajtai.rand rnd (kappa + 1) n rng).1
    s.kappa = kappa + 1 ∧ s.width = n ∧ s.matrix.WF ∧
      (Ajtai.rand rnd (kappa + 1) n rng).2 = (rnd rng).2 := by
  refine ⟨?_, ?_, ⟨?_, ?_⟩, rfl⟩
  · simp [Ajtai.rand, Ajtai.kappa, Mat.ofRows]
  · simp [Ajtai.rand, Ajtai.width, Mat.ofRows, List.replicate_succ]
  · simp [Ajtai.rand, Mat.ofRows]
  · intro r hr
    simp only [Ajtai.rand, Mat.ofRows, List.mem_replicate] at hr
    simp [Ajtai.rand, Mat.ofRows, hr.2, List.replicate_succ]

/-- A counter as "random" generator: the sampled matrix is all sevens. -/
example : ((Ajtai.rand (R := Int) (fun k : Nat => ((k : Int), k + 1)) 2 3 7).1.commit [1, 2, 3])
    = .ok ⟨[42, 42]⟩ := by rfl

/-! ## C04 -/

section C04
open Commitment

/-- Length of every operator result is that of the left operand. -/
theorem C04_lengths (a b : Commitment R) (c : R) :
    (a.add b).len = a.len ∧ (a.sub b).len = a.len ∧ (a.smul c).len = a.len ∧
      (zeroed (R := R) a.len).len = a.len := by
  simp [add, sub, smul, len, zipAssign_length, zeroed]

/-- Entry-wise meaning for arbitrary (possibly mismatched) lengths: entries past the end of the
right operand are left unchanged. -/
theorem C04_entries (a b : Commitment R) (c : R) (i : Nat) (hi : i < a.len) :
    (a.add b).val.getD i 0 = a.val.getD i 0 + (if i < b.len then b.val.getD i 0 else 0) ∧
    (a.sub b).val.getD i 0 = a.val.getD i 0 - (if i < b.len then b.val.getD i 0 else 0) ∧
    (a.smul c).val.getD i 0 = a.val.getD i 0 * c := by
  simp only [len] at *
  refine ⟨?_, ?_, ?_⟩
  · by_cases hb : i < b.val.length
    · simp [add, List.getD_eq_getElem?_getD, zipAssign_getElem?, hi, hb]
    · simp [add, List.getD_eq_getElem?_getD, zipAssign_getElem?, hi, hb]
  · by_cases hb : i < b.val.length
    · simp [sub, List.getD_eq_getElem?_getD, zipAssign_getElem?, hi, hb]
    · simp [sub, List.getD_eq_getElem?_getD, zipAssign_getElem?, hi, hb]
  · simp [smul, List.getD_eq_getElem?_getD, hi]

private theorem ext_entries {a b : Commitment R} (hl : a.len = b.len)
    (h : ∀ i < a.len, a.val.getD i 0 = b.val.getD i 0) : a = b := by
  cases a; cases b
  simp only [Commitment.mk.injEq, len] at *
  apply List.ext_getElem hl
  intro i h1 h2
  have := h i h1
  simpa [h1, h2] using this

/-- **C04**: on commitments of a common length the operators satisfy the module laws. -/
theorem C04_module_laws (a b c : Commitment R) (x y : R)
    (hb : b.len = a.len) (hc : c.len = a.len) :
    (a.add b).add c = a.add (b.add c) ∧
    a.add b = b.add a ∧
    a.add (zeroed a.len) = a ∧
    (zeroed a.len).add a = a ∧
    (a.sub b).add b = a ∧
    a.sub a = zeroed a.len ∧
    (a.add b).smul x = (a.smul x).add (b.smul x) ∧
    a.smul (x + y) = (a.smul x).add (a.smul y) ∧
    (a.smul x).smul y = a.smul (x * y) ∧
    a.smul 1 = a ∧ a.smul 0 = zeroed a.len := by
  have L := fun (a b : Commitment R) => (C04_lengths a b (0 : R)).1
  have L2 := fun (a b : Commitment R) => (C04_lengths a b (0 : R)).2.1
  have L3 := fun (a : Commitment R) (c : R) => (C04_lengths a a c).2.2.1
  have E1 := fun (a b : Commitment R) (i : Nat) (hi : i < a.len) => (C04_entries a b 0 i hi).1
  have E2 := fun (a b : Commitment R) (i : Nat) (hi : i < a.len) => (C04_entries a b 0 i hi).2.1
  have E3 := fun (a : Commitment R) (c : R) (i : Nat) (hi : i < a.len) => (C04_entries a a c i hi).2.2
  have Lz : ∀ n, (zeroed (R := R) n).len = n := by intro n; simp [zeroed, len]
  have Ez : ∀ n i, (zeroed (R := R) n).val.getD i 0 = 0 := by
    intro n i
    by_cases h : i < n <;> simp [zeroed, List.getD_eq_getElem?_getD, h, List.getElem?_replicate]
  refine ⟨?_, ?_, ?_, ?_, ?_, ?_, ?_, ?_, ?_, ?_, ?_⟩ <;> apply ext_entries
  all_goals first
    | (simp only [L, L2, L3, Lz, hb, hc]; done)
    | (intro i hi
       simp only [L, L2, L3, Lz] at hi
       simp (disch := simp only [L, L2, L3, Lz, hb, hc, hi]) only [E1, E2, E3, Ez]
       try simp only [L, L2, L3, Lz, hb, hc, hi, if_true]
       ring)

/-- Non-trivial instance, and the behaviour on mismatched lengths. -/
example : ((⟨[1, 2]⟩ : Commitment Int).add ⟨[3, 4]⟩) = ⟨[4, 6]⟩ ∧
    ((⟨[1, 2, 5]⟩ : Commitment Int).add ⟨[3]⟩) = ⟨[4, 2, 5]⟩ ∧
    ((⟨[1]⟩ : Commitment Int).sub ⟨[3, 9]⟩) = ⟨[-2]⟩ := by
  refine ⟨rfl, rfl, rfl⟩

end C04

end Verif.Props
