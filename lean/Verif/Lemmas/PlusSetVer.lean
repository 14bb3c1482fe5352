import Verif.Lemmas.PlusSetCheck

/-! Lemmas for the verifier of the set check. -/

set_option linter.unusedSectionVars false
set_option linter.unusedSimpArgs false

namespace Verif.Plus

open Finset Spec

variable {F R σ : Type} {d : Nat}

variable [Field F] [CommRing R] [Algebra F R] [DecidableEq F] [DecidableEq R]

/-- The matrix part of the value the verifier recomputes. -/
def verMat (pr : PlusRing F R d) (row : List R) (t : List F × F × F) (rp : List R) : R :=
  eqPoly (t.1.map (algebraMap F R)) rp
    * ∑ j ∈ range row.length, verTerm pr t.2.1 (row.getD j 0) * algebraMap F R (t.2.2 ^ j)

/-- The vector part of the value the verifier recomputes. -/
def verVec (pr : PlusRing F R d) (u : R) (t : List F × F × F) (rp : List R) : R :=
  eqPoly (t.1.map (algebraMap F R)) rp * algebraMap F R t.2.2 * verTerm pr t.2.1 u

/-- Value recomputed by the verifier. -/
def verVal (pr : PlusRing F R d) (e0 : List (List R)) (b : List R) (cba : List (List F × F × F))
    (rcv : F) (rp : List R) : R :=
  ∑ i ∈ range e0.length, verMat pr (e0.getD i []) (cba.getD i noCba) rp * algebraMap F R (rcv ^ i)
  + ∑ i ∈ range b.length, verVec pr (b.getD i 0) (cba.getD (e0.length + i) noCba) rp
      * algebraMap F R (rcv ^ (e0.length + i))

theorem setVer_ok (pr : PlusRing F R d) (e0 : List (List R)) (b : List R) (cba : List (List F × F × F))
    (rc : Option F) (rp : List R) (hl : cba.length = e0.length + b.length)
    (hp : ∀ t ∈ cba, t.1.length = rp.length) :
    setVer pr e0 b cba rc rp = .ok (verVal pr e0 b cba (rc.getD 1) rp) := by
  unfold setVer
  have hidx : ∀ (msg : String) (i : Nat), i < cba.length →
      idx msg cba i = .ok (cba.getD i noCba) ∧ (cba.getD i noCba).1.length = rp.length := by
    intro msg i hi
    have : cba.getD i noCba = cba[i] := by simp [List.getD_eq_getElem?_getD, hi]
    rw [this]
    exact ⟨idx_ok hi, hp _ (List.getElem_mem hi)⟩
  have h1 := foldRes_add (R := R) (fun ver (p : List R × Nat) => do
    let t ← idx "cba[i]" cba p.2
    let eq ← eqEval (t.1.map (algebraMap F R)) rp
    let esum := (p.1.zipIdx.map fun q =>
      verTerm pr t.2.1 q.1 * algebraMap F R (t.2.2 ^ q.2)).sum
    .ok (ver + eq * esum * algebraMap F R (rc.getD 1 ^ p.2)))
    (fun p => verMat pr p.1 (cba.getD p.2 noCba) rp * algebraMap F R (rc.getD 1 ^ p.2)) e0.zipIdx (by
      intro acc p hp'
      have hi : p.2 < e0.length := by
        have := List.snd_lt_of_mem_zipIdx hp'
        simpa using this
      obtain ⟨h1, h2⟩ := hidx "cba[i]" p.2 (by omega)
      simp only [h1, bind_ok', eqEval_ok ((cba.getD p.2 noCba).1.map (algebraMap F R)) rp (by rw [List.length_map]; exact h2)]
      rw [verMat, sum_zipIdx p.1 0 fun u j => verTerm pr (cba.getD p.2 noCba).2.1 u
        * algebraMap F R ((cba.getD p.2 noCba).2.2 ^ j)]) 0
  have h2 := fun v => foldRes_add (R := R) (fun ver (p : R × Nat) => do
    let t ← idx "cba[i + offset]" cba (p.2 + e0.length)
    let eq ← eqEval (t.1.map (algebraMap F R)) rp
    .ok (ver + eq * algebraMap F R t.2.2 * verTerm pr t.2.1 p.1
      * algebraMap F R (rc.getD 1 ^ (p.2 + e0.length))))
    (fun p => verVec pr p.1 (cba.getD (p.2 + e0.length) noCba) rp
      * algebraMap F R (rc.getD 1 ^ (p.2 + e0.length))) b.zipIdx (by
      intro acc p hp'
      have hi : p.2 < b.length := by
        have := List.snd_lt_of_mem_zipIdx hp'
        simpa using this
      obtain ⟨h1, h2⟩ := hidx "cba[i + offset]" (p.2 + e0.length) (by omega)
      simp only [h1, bind_ok', eqEval_ok ((cba.getD (p.2 + e0.length) noCba).1.map (algebraMap F R)) rp (by rw [List.length_map]; exact h2)]
      rw [verVec]) v
  simp only [h1, h2, bind_ok']
  rw [zero_add, sum_zipIdx e0 [] fun u i => verMat pr u (cba.getD i noCba) rp * algebraMap F R (rc.getD 1 ^ i),
    sum_zipIdx b 0 fun u i => verVec pr u (cba.getD (i + e0.length) noCba) rp
      * algebraMap F R (rc.getD 1 ^ (i + e0.length))]
  simp only [verVal, Nat.add_comm _ e0.length]

theorem drawAll_rcD (T : Transcript F R σ) (nv a b : Nat) (s : σ) (h : a ≤ 1) :
    (drawAll T nv a b s).1.2 = none := by
  have := drawAll_rc T nv a b s
  rw [decide_eq_false (by omega)] at this
  simpa using this

theorem verify_point_length (T : Transcript F R σ) (s s2 : σ) (n deg : Nat) (c : R)
    (proof : List (List R)) (sc : SubClaim F R) (h1 : verifyAsSubprotocol T s n deg c proof = .ok (sc, s2)) :
    sc.point.length = n := by
  by_cases hn : n = 0
  · rw [hn, verify_zero] at h1; simp at h1
  by_cases hl : n ≤ proof.length
  · rw [verify_eq _ _ _ _ hn _ _ hl, bind_eq_ok] at h1
    obtain ⟨e, _, h1⟩ := h1
    simp only [Except.ok.injEq, Prod.mk.injEq] at h1
    rw [← h1.1]
    simp only [drawRun_length, List.length_take]
    omega
  · rw [verify_short _ _ _ _ _ _ (by omega)] at h1; simp at h1

/-- Exactly when the verifier of the set check accepts. -/
theorem setVerify_iff (pr : PlusRing F R d) (T : Transcript F R σ) (s s' : σ)
    (out : SetOut F R) :
    setVerify pr T s out = .ok s' ↔ ∃ e0 sc s2, out.e[0]? = some e0 ∧
      verifyAsSubprotocol T (drawAll T out.nvars e0.length out.b.length s).2 out.nvars 3 0 out.sumcheck
        = .ok (sc, s2) ∧ s' = absorbSet T s2 out.e out.b ∧
      sc.expectedEvaluation = verVal pr e0 out.b (drawAll T out.nvars e0.length out.b.length s).1.1
        ((drawAll T out.nvars e0.length out.b.length s).1.2.getD 1) (sc.point.map (algebraMap F R)) := by
  have hv : ∀ e0 sc s2, verifyAsSubprotocol T (drawAll T out.nvars e0 out.b.length s).2 out.nvars 3 0 out.sumcheck
      = .ok (sc, s2) → sc.point.length = out.nvars := by
    intro e0 sc s2 h
    exact verify_point_length T _ _ _ _ _ _ _ h
  unfold setVerify
  cases he : out.e[0]? with
  | none =>
    have : idx "self.e[0]" out.e 0 = .error (.panic "self.e[0]") := by unfold idx; rw [he]
    rw [this]
    simp [bind, Except.bind]
  | some e0 =>
    have : idx "self.e[0]" out.e 0 = .ok e0 := by unfold idx; rw [he]
    rw [this, bind_ok']
    simp only [Option.some.injEq, bind_eq_ok, Prod.exists]
    constructor
    · rintro ⟨sc, s2, h1, ver, h2, h3⟩
      refine ⟨e0, sc, s2, rfl, h1, ?_⟩
      rw [setVer_ok] at h2
      · simp only [Except.ok.injEq] at h2
        split at h3
        · rename_i h4
          simp only [Except.ok.injEq] at h3
          exact ⟨h3.symm, by rw [← h4, ← h2]⟩
        · simp at h3
      · rw [drawAll_eq, drawClaims_length]
      · rw [drawAll_eq]
        intro t ht
        rw [drawClaims_point T _ _ _ t ht, List.length_map, hv _ _ _ h1]
    · rintro ⟨e0', sc, s2, rfl, h1, h2, h3⟩
      refine ⟨sc, s2, h1, _, setVer_ok _ _ _ _ _ _ ?_ ?_, ?_⟩
      · rw [drawAll_eq, drawClaims_length]
      · rw [drawAll_eq]
        intro t ht
        rw [drawClaims_point T _ _ _ t ht, List.length_map, hv _ _ _ h1]
      · rw [if_pos h3.symm, h2]

/-! ### Monomials -/

theorem colTab_getD (pr : PlusRing F R d) (beta : F) (A : SpMat R) (j i : Nat) :
    (colTab pr beta A j).getD i 0 = algebraMap F R (ev pr ((colL A j).getD i 0) beta) := by
  unfold colTab colL
  by_cases hi : i < A.nrows
  · simp [List.getD_eq_getElem?_getD, hi]
  · simp [List.getD_eq_getElem?_getD, hi, ev_zero]

theorem vecTab_getD (pr : PlusRing F R d) (beta : F) (v : List R) (i : Nat) :
    (vecTab pr beta v).getD i 0 = algebraMap F R (ev pr (v.getD i 0) beta) := by
  unfold vecTab
  by_cases hi : i < v.length
  · simp [List.getD_eq_getElem?_getD, hi]
  · simp [List.getD_eq_getElem?_getD, hi, ev_zero]

theorem mle_ev (pr : PlusRing F R d) (beta : F) (f : Nat → R) (r : List F) :
    mle (fun i => algebraMap F R (ev pr (f i) beta)) (r.map (algebraMap F R))
      = algebraMap F R (ev pr (mle f (r.map (algebraMap F R))) beta) := by
  rw [mle_map (R := R) fun i => ev pr (f i) beta]
  congr 1
  exact (linear_mle (evLin pr beta) f r).symm

/-- The equation that the set check tests at `beta`. -/
def EvSq (pr : PlusRing F R d) (beta : F) (x : R) : Prop := ev pr x beta * ev pr x beta = ev pr x (beta * beta)

theorem evSq_monomial {pr : PlusRing F R d} {x : R} (h : IsMonomial pr x) (beta : F) : EvSq pr beta x := ev_monomial_sq pr h beta

theorem mle_ev_sq (pr : PlusRing F R d) (beta : F) (f : Nat → R) (r : List F)
    (hf : ∀ i, EvSq pr beta (f i)) :
    mle (fun i => algebraMap F R (ev pr (f i) beta) * algebraMap F R (ev pr (f i) beta)) (r.map (algebraMap F R))
      = algebraMap F R (ev pr (mle f (r.map (algebraMap F R))) (beta * beta)) := by
  rw [← mle_ev]
  congr 1
  funext i
  rw [← map_mul, hf i]

theorem matVal_verMat (pr : PlusRing F R d) (m : Nat) (A : SpMat R) (t : List F × F × F) (r : List F)
    (h : ∀ i j, j < m → EvSq pr t.2.1 ((colL A j).getD i 0)) :
    matVal pr m A t (r.map (algebraMap F R)) = verMat pr
      ((List.range m).map fun j => mle (fun i => (colL A j).getD i 0) (r.map (algebraMap F R))) t
      (r.map (algebraMap F R)) := by
  unfold matVal verMat
  rw [mul_comm]
  congr 1
  rw [List.length_map, List.length_range]
  apply sum_congr rfl
  intro j hj
  have hj' := mem_range.1 hj
  rw [getD_map_range m _ hj']
  unfold verTerm
  have h1 : (fun i => (sqTab (colTab pr t.2.1 A j)).getD i 0) = fun i =>
      algebraMap F R (ev pr ((colL A j).getD i 0) t.2.1) * algebraMap F R (ev pr ((colL A j).getD i 0) t.2.1) := by
    funext i; rw [sqTab_get, colTab_getD]
  have h2 : (fun i => (colTab pr t.2.1 A j).getD i 0)
      = fun i => algebraMap F R (ev pr ((colL A j).getD i 0) t.2.1) := by
    funext i; rw [colTab_getD]
  rw [h1, h2, mle_ev pr t.2.1 (fun i => (colL A j).getD i 0),
    mle_ev_sq pr t.2.1 (fun i => (colL A j).getD i 0) r fun i => h i j hj']

theorem vecVal_verVec (pr : PlusRing F R d) (v : List R) (t : List F × F × F) (r : List F)
    (h : ∀ i, EvSq pr t.2.1 (v.getD i 0)) :
    vecVal pr v t (r.map (algebraMap F R)) = verVec pr
      (mle (fun i => v.getD i 0) (r.map (algebraMap F R))) t (r.map (algebraMap F R)) := by
  unfold vecVal verVec verTerm
  have h1 : (fun i => (sqTab (vecTab pr t.2.1 v)).getD i 0) = fun i =>
      algebraMap F R (ev pr (v.getD i 0) t.2.1) * algebraMap F R (ev pr (v.getD i 0) t.2.1) := by
    funext i; rw [sqTab_get, vecTab_getD]
  have h2 : (fun i => (vecTab pr t.2.1 v).getD i 0) = fun i => algebraMap F R (ev pr (v.getD i 0) t.2.1) := by
    funext i; rw [vecTab_getD]
  rw [h1, h2, mle_ev pr t.2.1 (fun i => v.getD i 0), mle_ev_sq pr t.2.1 (fun i => v.getD i 0) r h]
  ring

/-- All entries of all sets are monomials (or zero). -/
def AllMonomials (pr : PlusRing F R d) (m : Nat) (sets : List (MonomialSet R)) : Prop :=
  (∀ A ∈ matSets sets, ∀ i j, j < m → IsMonomial pr (lastEntry A i j)) ∧
  ∀ v ∈ vecSets sets, ∀ x ∈ v, IsMonomial pr x

theorem colL_mono {pr : PlusRing F R d} {A : SpMat R} {j : Nat} (h : ∀ i, IsMonomial pr (lastEntry A i j)) (i : Nat) :
    IsMonomial pr ((colL A j).getD i 0) := by
  unfold colL
  by_cases hi : i < A.nrows
  · rw [getD_map_range _ _ hi]; exact h i
  · rw [List.getD_eq_getElem?_getD]
    simp [hi, IsMonomial]

theorem vec_mono {pr : PlusRing F R d} {v : List R} (h : ∀ x ∈ v, IsMonomial pr x) (i : Nat) :
    IsMonomial pr (v.getD i 0) := by
  by_cases hi : i < v.length
  · have : v.getD i 0 = v[i] := by simp [List.getD_eq_getElem?_getD, hi]
    rw [this]; exact h _ (List.getElem_mem hi)
  · rw [List.getD_eq_getElem?_getD]
    simp [hi, IsMonomial]

theorem colL_evSq {pr : PlusRing F R d} {beta : F} {A : SpMat R} {j : Nat} (h : ∀ i, EvSq pr beta (lastEntry A i j)) (i : Nat) :
    EvSq pr beta ((colL A j).getD i 0) := by
  unfold colL
  by_cases hi : i < A.nrows
  · rw [getD_map_range _ _ hi]; exact h i
  · rw [List.getD_eq_getElem?_getD]
    simp [hi, EvSq, ev_zero]

theorem vec_evSq {pr : PlusRing F R d} {beta : F} {v : List R} (h : ∀ x ∈ v, EvSq pr beta x) (i : Nat) : EvSq pr beta (v.getD i 0) := by
  by_cases hi : i < v.length
  · have : v.getD i 0 = v[i] := by simp [List.getD_eq_getElem?_getD, hi]
    rw [this]; exact h _ (List.getElem_mem hi)
  · rw [List.getD_eq_getElem?_getD]
    simp [hi, EvSq, ev_zero]

/-- The matrix part of the value recomputed from the honest evaluations, if the tested equation holds for all entries. -/
theorem sum_verMat' (pr : PlusRing F R d) (m : Nat) (Ms : List (SpMat R)) (cba : List (List F × F × F)) (c : F)
    (r : List F) (h : ∀ l (hl : l < Ms.length), ∀ i j, j < m → EvSq pr (cba.getD l noCba).2.1 (lastEntry Ms[l] i j)) (e0 : List (List R))
    (he : e0 = Ms.map fun A => (List.range m).map fun j => mle (fun i => (colL A j).getD i 0) (r.map (algebraMap F R))) :
    ∑ i ∈ range e0.length, verMat pr (e0.getD i []) (cba.getD i noCba) (r.map (algebraMap F R)) * algebraMap F R (c ^ i)
    = ∑ i ∈ range Ms.length, matVal pr m (Ms.getD i noMat) (cba.getD i noCba) (r.map (algebraMap F R))
        * algebraMap F R (c ^ i) := by
  subst he
  rw [List.length_map]
  apply sum_congr rfl
  intro i hi
  have hi' := mem_range.1 hi
  have h1 : Ms.getD i noMat = Ms[i] := by simp [List.getD_eq_getElem?_getD, hi']
  rw [h1, matVal_verMat pr m Ms[i] _ r fun k j hj => colL_evSq (fun k => h i hi' k j hj) k]
  simp [List.getD_eq_getElem?_getD, hi']

/-- The vector part. -/
theorem sum_verVec' (pr : PlusRing F R d) (ms : List (List R)) (cba : List (List F × F × F)) (c : F) (k : Nat)
    (r : List F) (h : ∀ l (hl : l < ms.length), ∀ x ∈ ms[l], EvSq pr (cba.getD (k + l) noCba).2.1 x) :
    ∑ i ∈ range (setB ms (r.map (algebraMap F R))).length,
      verVec pr ((setB ms (r.map (algebraMap F R))).getD i 0) (cba.getD (k + i) noCba) (r.map (algebraMap F R))
        * algebraMap F R (c ^ (k + i))
    = ∑ i ∈ range ms.length, vecVal pr (ms.getD i []) (cba.getD (k + i) noCba) (r.map (algebraMap F R))
        * algebraMap F R (c ^ (k + i)) := by
  unfold setB
  rw [List.length_map]
  apply sum_congr rfl
  intro i hi
  have hi' := mem_range.1 hi
  have h1 : ms.getD i [] = ms[i] := by simp [List.getD_eq_getElem?_getD, hi']
  rw [h1, vecVal_verVec pr ms[i] _ r fun k => vec_evSq (h i hi') k]
  simp [List.getD_eq_getElem?_getD, hi']

/-- The matrix part, for monomials. -/
theorem sum_verMat (pr : PlusRing F R d) (m : Nat) (Ms : List (SpMat R)) (cba : List (List F × F × F)) (c : F)
    (r : List F) (h : ∀ A ∈ Ms, ∀ i j, j < m → IsMonomial pr (lastEntry A i j)) (e0 : List (List R))
    (he : e0 = Ms.map fun A => (List.range m).map fun j => mle (fun i => (colL A j).getD i 0) (r.map (algebraMap F R))) :
    ∑ i ∈ range e0.length, verMat pr (e0.getD i []) (cba.getD i noCba) (r.map (algebraMap F R)) * algebraMap F R (c ^ i)
    = ∑ i ∈ range Ms.length, matVal pr m (Ms.getD i noMat) (cba.getD i noCba) (r.map (algebraMap F R))
        * algebraMap F R (c ^ i) :=
  sum_verMat' pr m Ms cba c r (fun _ hl i j hj => evSq_monomial (h _ (List.getElem_mem hl) i j hj) _) e0 he

end Verif.Plus
