import Verif.Lemmas.FoldingComplete
import Verif.Props.ExampleData

/-!
# Property theorems: folding (C34 - C38)
-/

set_option linter.unusedSectionVars false
set_option linter.unusedSimpArgs false

namespace Verif.Props

open Finset Verif Verif.Spec

/-! ## C34: the combining function -/

section Generic
variable {R : Type} [CommRing R] [DecidableEq R]

/-- **C34**: the combining function of the folding sum-check, with its early exits and squared factors,
is the polynomial of the protocol. -/
theorem C34_comb_fn (P : Params) (hb : 1 ≤ P.bSmall) (τ : Nat) (mu vals : List R)
    (h : 5 + mu.length * τ ≤ vals.length) :
    foldCombFn P τ mu vals = .ok (vals.getD 0 0 * vals.getD 1 0 + vals.getD 2 0 * vals.getD 3 0
      + vals.getD 4 0 * ∑ i ∈ range mu.length, ∑ j ∈ range τ, mu.getD i 0 ^ (j + 1)
          * ∏ c ∈ Ioo (-(P.bSmall : ℤ)) P.bSmall, (vals.getD (5 + (i * τ + j)) 0 - (c : R))) :=
  foldCombFn_ok P hb τ mu vals h

/-- **C34**: the range part vanishes when every value is an integer of absolute value below `b`. -/
theorem C34_range_part_vanishes (P : Params) (hb : 1 ≤ P.bSmall) (τ : Nat) (mu vals : List R)
    (h : 5 + mu.length * τ ≤ vals.length)
    (hr : ∀ i < mu.length, ∀ j < τ, ∃ n : ℤ, -(P.bSmall : ℤ) < n ∧ n < P.bSmall ∧
      vals.getD (5 + (i * τ + j)) 0 = (n : R)) :
    foldCombFn P τ mu vals = .ok (vals.getD 0 0 * vals.getD 1 0 + vals.getD 2 0 * vals.getD 3 0) := by
  rw [C34_comb_fn P hb τ mu vals h]
  congr 1
  rw [sum_eq_zero, mul_zero, add_zero]
  intro i hi
  apply sum_eq_zero
  intro j hj
  obtain ⟨n, h1, h2, h3⟩ := hr i (mem_range.1 hi) j (mem_range.1 hj)
  rw [prod_eq_zero (mem_Ioo.2 ⟨h1, h2⟩) (by rw [h3, sub_self]), mul_zero]

/-- **C34**: too few values abort. -/
theorem C34_too_few_values (P : Params) (τ : Nat) (mu vals : List R) (h : vals.length < 4) :
    ∃ site, foldCombFn P τ mu vals = .error (.panic site) := by
  unfold foldCombFn
  match vals, h with
  | [], _ => exact ⟨_, rfl⟩
  | [a], _ => exact ⟨_, rfl⟩
  | [a, b], _ => exact ⟨_, rfl⟩
  | [a, b, c], _ => exact ⟨_, rfl⟩

end Generic

/-- **C34**: the factor of the range check is zero exactly on elements all of whose slots are integers of
absolute value below `b`. -/
theorem C34_range_exact {F : Type} [Field F] {N : Nat} (b : Nat) (x : Fin N → F) :
    rangePoly b x = 0 ↔ ∀ a, ∃ n : ℤ, -(b : ℤ) < n ∧ n < b ∧ x a = (n : F) := by
  unfold rangePoly
  constructor
  · intro h a
    have := congrFun h a
    rw [Finset.prod_apply, Pi.zero_apply, prod_eq_zero_iff] at this
    obtain ⟨n, hn, h2⟩ := this
    rw [mem_Ioo] at hn
    refine ⟨n, hn.1, hn.2, ?_⟩
    have h3 : x a - (n : F) = 0 := by simpa using h2
    exact sub_eq_zero.1 h3
  · intro h
    funext a
    obtain ⟨n, h1, h2, h3⟩ := h a
    rw [Finset.prod_apply, Pi.zero_apply]
    exact prod_eq_zero (mem_Ioo.2 ⟨h1, h2⟩) (by simp [h3])

example : foldCombFn ⟨4, 1, 2, 1⟩ 2 [3, 1] ([2, 3, 5, 7, 11, 2, 0, 3, 1] : List ℚ)
    = .ok (2 * 3 + 5 * 7 + 11 * (3 * (2 * (2 * 2 - 1)) + 1 * (3 * (3 * 3 - 1)))) := by decide +kernel

example : foldCombFn ⟨4, 1, 2, 1⟩ 2 [3, 1] ([2, 3, 5, 7, 11, 1, 0, -1, 1] : List ℚ) = .ok (2 * 3 + 5 * 7) :=
  C34_range_part_vanishes ⟨4, 1, 2, 1⟩ (by decide) 2 [3, 1] _ (by decide) (by
    intro i hi j hj
    have hi : i < 2 := hi
    interval_cases i <;> interval_cases j
    · exact ⟨1, by decide, by decide, by decide +kernel⟩
    · exact ⟨0, by decide, by decide, by decide +kernel⟩
    · exact ⟨-1, by decide, by decide, by decide +kernel⟩
    · exact ⟨1, by decide, by decide, by decide +kernel⟩)

example : rangePoly 2 (![1, 4] : Fin 2 → ZMod 5) = 0 ∧ rangePoly 2 (![1, 3] : Fin 2 → ZMod 5) ≠ 0 := by
  constructor <;> decide +kernel

/-! ## C35: prover's and verifier's final values -/

section Generic
variable {R : Type} [CommRing R] [DecidableEq R]

/-- **C35**: when `theta` and `eta` are the evaluations of the witness tables and of the `M_j z_k` tables,
the value expected by the verifier is the value of the combining function on the evaluations of the
prover's sum-check tables. -/
theorem C35_expected_value (P : Params) (hK : 1 ≤ P.K) (hb : 1 ≤ P.bSmall) (n τ : Nat) (hn : 1 ≤ n) (hτ : 1 ≤ τ)
    (fHats mz : List (List (Mle R))) (alpha zeta mu beta : List R) (rs : List (List R)) (p r1 r2 : List R)
    (hf : fHats.length = 2 * P.K) (hz : mz.length = 2 * P.K) (ha : alpha.length = 2 * P.K)
    (hze : zeta.length = 2 * P.K) (hmu : mu.length = 2 * P.K) (hbeta : beta.length = n)
    (hrs : rs = List.replicate P.K r1 ++ List.replicate P.K r2) (hr1 : r1.length = n) (hr2 : r2.length = n)
    (hp : p.length = n) (hfl : ∀ ms ∈ fHats, ms.length = τ ∧ ∀ m ∈ ms, m.numVars = n)
    (hzl : ∀ ms ∈ mz, ∀ m ∈ ms, m.numVars = n) :
    ∃ ch1 ch2 gm vals theta eta es eStar val,
      challengedMz (mz.take P.K) (zeta.take P.K) = .ok ch1 ∧
      challengedMz (mz.drop P.K) (zeta.drop P.K) = .ok ch2 ∧
      createFoldPoly P n fHats alpha ch1 ch2 rs beta mu = .ok (gm, 2 * P.bSmall) ∧
      evaluateMles gm p = .ok vals ∧
      mapRes (fun ms => evaluateMles ms p) fHats = .ok theta ∧
      theta = fHats.map (fun ms => ms.map fun m => mle m.get p) ∧
      mapRes (fun ms => evaluateMles ms p) mz = .ok eta ∧
      eta = mz.map (fun ms => ms.map fun m => mle m.get p) ∧
      eqEval beta p = .ok eStar ∧ mapRes (fun r => eqEval r p) rs = .ok es ∧
      foldCombFn P τ mu vals = .ok val ∧ expectedValue P alpha mu theta eStar es zeta eta = .ok val := by
  set fh : Nat → List (Mle R) := fun k => fHats.getD k [] with hfh
  set mf : Nat → List (Mle R) := fun k => mz.getD k [] with hmf
  set al : Nat → R := fun k => alpha.getD k 0 with hal
  set ze : Nat → R := fun k => zeta.getD k 0 with hzed
  set r : Nat → List R := fun k => if k < P.K then r1 else r2 with hr
  have e1 : fHats = (List.range (2 * P.K)).map fh := list_eq_range _ _ hf
  have e2 : mz = (List.range (2 * P.K)).map mf := list_eq_range _ _ hz
  have e3 : alpha = (List.range (2 * P.K)).map al := list_eq_range _ _ ha
  have e4 : zeta = (List.range (2 * P.K)).map ze := list_eq_range _ _ hze
  have e5 : rs = (List.range (2 * P.K)).map r := by
    rw [hrs]
    apply List.ext_getElem (by simp; omega)
    intro i h1 h2
    rw [List.getElem_append]
    simp only [List.length_replicate, List.getElem_replicate, List.getElem_map, List.getElem_range, hr]
    rfl
  have hmem : ∀ {α : Type} (l : List (List α)) (k : Nat), k < l.length → l.getD k [] ∈ l := by
    intro α l k hk
    rw [List.getD_eq_getElem?_getD, List.getElem?_eq_getElem hk]
    exact List.getElem_mem hk
  have hflen : ∀ k < 2 * P.K, (fh k).length = τ := fun k hk => (hfl _ (hmem _ _ (by omega))).1
  have hfv : ∀ k < 2 * P.K, ∀ m ∈ fh k, m.numVars = n := fun k hk => (hfl _ (hmem _ _ (by omega))).2
  have hzv : ∀ k < 2 * P.K, ∀ m ∈ mf k, m.numVars = n := fun k hk => hzl _ (hmem _ _ (by omega))
  have hrl : ∀ k < 2 * P.K, (r k).length = n := by
    intro k _
    rw [hr]
    dsimp only
    split
    · exact hr1
    · exact hr2
  obtain ⟨ch1, ch2, c1, c2, h1, h2, h3, h4, h5, h6, h7⟩ := createFoldPoly_ok P hK hn fh mf al ze beta mu r hbeta hmu
    hrl hfv hzv (fun k hk h => by have := hflen k hk; rw [h] at this; simp at this; omega)
  set gm := [eqTable (r 0), c1, eqTable (r P.K), c2, eqTable beta] ++ ((List.range (2 * P.K)).map fh).flatten
    with hgm
  have hgml : gm.length = 5 + 2 * P.K * τ := by
    rw [hgm, List.length_append, flatten_length (L := τ)]
    · simp
    · intro l hl
      obtain ⟨k, hk', rfl⟩ := List.mem_map.1 hl
      exact hflen k (List.mem_range.1 hk')
  have hnum : ∀ m ∈ gm, m.numVars = n := by
    intro m hm
    rw [hgm, List.mem_append] at hm
    rcases hm with hm | hm
    · simp only [List.mem_cons, List.not_mem_nil, or_false] at hm
      rcases hm with rfl | rfl | rfl | rfl | rfl
      · exact hrl 0 (by omega)
      · exact h4
      · exact hrl P.K (by omega)
      · exact h5
      · exact hbeta
    · obtain ⟨l, hl, hml⟩ := List.mem_flatten.1 hm
      obtain ⟨k, hk', rfl⟩ := List.mem_map.1 hl
      exact hfv k (List.mem_range.1 hk') m hml
  have t1 : ∀ f : Nat → List (Mle R), (∀ k < 2 * P.K, ∀ m ∈ f k, m.numVars = n) →
      mapRes (fun ms => evaluateMles ms p) ((List.range (2 * P.K)).map f)
        = .ok ((List.range (2 * P.K)).map fun k => (f k).map fun m => mle m.get p) := by
    intro f hf
    apply mapRes_map_ok
    intro k hk
    exact evaluateMles_ok _ _ fun m hm => by rw [hp, hf k (List.mem_range.1 hk) m hm]
  have t2 : mapRes (fun r => eqEval r p) ((List.range (2 * P.K)).map r)
      = .ok ((List.range (2 * P.K)).map fun k => eqPoly (r k) p) := by
    apply mapRes_map_ok
    intro k hk
    exact eqEval_ok _ _ (by rw [hrl k (List.mem_range.1 hk), hp])
  have s1 : ∀ {α : Type} (f : Nat → α), ((List.range (2 * P.K)).map f).take P.K = (List.range P.K).map f := by
    intro α f
    apply List.ext_getElem (by simp; omega)
    intro i a b
    simp
  have s2 : ∀ {α : Type} (f : Nat → α), ((List.range (2 * P.K)).map f).drop P.K
      = (List.range P.K).map fun k => f (P.K + k) := by
    intro α f
    apply List.ext_getElem (by simp; omega)
    intro i a b
    simp
  refine ⟨ch1, ch2, gm, _, _, _, _, _, _, ?_, ?_, ?_, evaluateMles_ok gm p (fun m hm => by rw [hp, hnum m hm]),
    ?_, rfl, ?_, rfl, eqEval_ok beta p (by rw [hbeta, hp]), by rw [e5]; exact t2,
    foldCombFn_ok P hb τ mu _ (by rw [List.length_map, hgml, hmu]), ?_⟩
  · rw [e2, e4, s1, s1, h1]
  · rw [e2, e4, s2, s2, h2]
  · rw [e1, e3, e5, h3]
  · rw [e1, t1 fh hfv, List.map_map]; rfl
  · rw [e2, t1 mf hzv, List.map_map]; rfl
  · rw [e1, e2, e3, e4, List.map_map, List.map_map]
    have := expectedValue_ok P hb al ze (fun k => eqPoly (r k) p) mu hmu (fun k => (fh k).map fun m => mle m.get p)
      (fun k => (mf k).map fun m => mle m.get p) (eqPoly beta p)
    refine this.trans ?_
    rw [hmu, hgm, foldG_val _ _ _ _ _ _ _ _ _ _ hflen, eqTable_mle (r 0) p (by rw [hp]; exact hrl 0 (by omega)),
      eqTable_mle (r P.K) p (by rw [hp]; exact hrl P.K (by omega)), eqTable_mle beta p (by rw [hbeta, hp]),
      funext h6, funext h7, groupVal_mle, groupVal_mle]
    rw [expected_eq P.bSmall P.K τ fh mf al ze (fun i => mu.getD i 0) (eqPoly (r 0) p) (eqPoly (r P.K) p)
      (eqPoly beta p) hflen _ (fun k => eqPoly (r k) p)
      (fun k hk => by simp only [hr]; rw [if_pos hk, if_pos (by omega)])
      (fun k hk => by simp only [hr]; rw [if_neg (by omega), if_neg (by omega)])]

end Generic

example : ∃ ch1 ch2 gm vals theta eta es eStar val,
      challengedMz [[(⟨1, [1, 2]⟩ : Mle ℚ), ⟨1, [3, 4]⟩]] [5] = .ok ch1 ∧
      challengedMz [[⟨1, [2, 0]⟩, ⟨1, [7, 1]⟩]] [6] = .ok ch2 ∧
      createFoldPoly ⟨4, 1, 2, 1⟩ 1 [[⟨1, [1, 0]⟩], [⟨1, [-1, 1]⟩]] [2, 3] ch1 ch2 [[9], [8]] [4] [7, 1]
        = .ok (gm, 4) ∧
      evaluateMles gm [10] = .ok vals ∧
      mapRes (fun ms => evaluateMles ms [10]) [[(⟨1, [1, 0]⟩ : Mle ℚ)], [⟨1, [-1, 1]⟩]] = .ok theta ∧
      mapRes (fun ms => evaluateMles ms [10]) [[(⟨1, [1, 2]⟩ : Mle ℚ), ⟨1, [3, 4]⟩], [⟨1, [2, 0]⟩, ⟨1, [7, 1]⟩]]
        = .ok eta ∧
      eqEval [(4 : ℚ)] [10] = .ok eStar ∧ mapRes (fun r => eqEval r [10]) [[(9 : ℚ)], [8]] = .ok es ∧
      foldCombFn ⟨4, 1, 2, 1⟩ 1 [7, 1] vals = .ok val ∧
      expectedValue ⟨4, 1, 2, 1⟩ [2, 3] [7, 1] theta eStar es [5, 6] eta = .ok val := by
  obtain ⟨ch1, ch2, gm, vals, theta, eta, es, eStar, val, h1, h2, h3, h4, h5, -, h6, -, h7, h8, h9, h10⟩ :=
    C35_expected_value (R := ℚ) ⟨4, 1, 2, 1⟩ (by decide) (by decide) 1 1 (by decide) (by decide)
      [[⟨1, [1, 0]⟩], [⟨1, [-1, 1]⟩]] [[⟨1, [1, 2]⟩, ⟨1, [3, 4]⟩], [⟨1, [2, 0]⟩, ⟨1, [7, 1]⟩]]
      [2, 3] [5, 6] [7, 1] [4] [[9], [8]] [10] [9] [8] rfl rfl rfl rfl rfl rfl rfl rfl rfl rfl
      (by simp) (by simp)
  exact ⟨ch1, ch2, gm, vals, theta, eta, es, eStar, val, h1, h2, h3, h4, h5, h6, h7, h8, h9, h10⟩

/-! ## C36, C37: completeness -/

section Tables
variable {R : Type} [CommRing R] [DecidableEq R]

theorem addAssign_vars {a b m : Mle R} {n : Nat} (hb : 1 ≤ b.numVars) (ha : a.isZero = true ∨ a.numVars = n)
    (hn : 1 ≤ n) (h : a.addAssign b = .ok m) : (a.isZero = true ∨ b.numVars = n) ∧ m.numVars = b.numVars := by
  have hb0 := not_isZero hb rfl (m := b)
  unfold Mle.addAssign at h
  rw [hb0] at h
  rcases ha with ha | ha
  · rw [ha, if_pos rfl] at h
    cases h
    exact ⟨.inl ha, rfl⟩
  · rw [not_isZero hn ha] at h
    simp only [Bool.false_eq_true, if_false] at h
    split at h
    · cases h
    · rename_i he
      cases h
      have := not_not.1 he
      exact ⟨.inr (by omega), this⟩

theorem hornerLoop_vars (c : R) (ms : List (Mle R)) (hms : ∀ m ∈ ms, 1 ≤ m.numVars) (acc r : Mle R) (n : Nat) (hn : 1 ≤ n)
    (ha : acc.numVars = n)
    (h : foldRes (fun acc m => do
      let acc ← acc.addAssign m
      .ok (acc.smul c)) acc ms = .ok r) : ∀ m ∈ ms, m.numVars = n := by
  induction ms generalizing acc with
  | nil => simp
  | cons m ms ih =>
    rw [foldRes] at h
    rcases hq : acc.addAssign m with e | q
    · rw [hq] at h; simp only [bind, Except.bind] at h; cases h
    · rw [hq] at h
      simp only [bind, Except.bind] at h
      obtain ⟨h1, h2⟩ := addAssign_vars (hms m (by simp)) (.inr ha) hn hq
      have hm : m.numVars = n := by
        rcases h1 with h1 | h1
        · rw [not_isZero hn ha] at h1; cases h1
        · exact h1
      intro m' hm'
      rcases List.mem_cons.1 hm' with rfl | hm'
      · exact hm
      · exact ih (fun m hm => hms m (by simp [hm])) (q.smul c) (by simp [Mle.smul, h2, hm]) h m' hm'

/-- **C36** (tables of different sizes). The prover combines the tables of the products of the matrices with `z` of one statement only if
they have the same number of variables: it aborts otherwise instead of producing a wrong combination. -/
theorem C36_tables_agree (row : List (Mle R)) (z : R) (r : Mle R) (hrow : ∀ m ∈ row, 1 ≤ m.numVars)
    (h : challengedMz [row] [z] = .ok r) : ∀ m ∈ row, ∀ m' ∈ row, m.numVars = m'.numVars := by
  unfold challengedMz combineMles at h
  simp only [List.zip_cons_cons, List.zip_nil_right, foldRes] at h
  unfold hornerMle at h
  rcases hrev : row.reverse with _ | ⟨m0, ms⟩
  · intro m hm
    rw [List.reverse_eq_nil_iff] at hrev
    simp [hrev] at hm
  · rw [hrev] at h
    have hmem : ∀ m, m ∈ row ↔ m ∈ m0 :: ms := fun m => by rw [← hrev, List.mem_reverse]
    have h0 := hrow m0 ((hmem m0).2 (by simp))
    have e0 : (Mle.zero : Mle R).addAssign m0 = .ok m0 := by
      unfold Mle.addAssign
      rw [isZero_of rfl (fun i => by cases i <;> simp [Mle.zero, Mle.get])]
      rfl
    rw [foldRes] at h
    rw [e0] at h
    simp only [bind, Except.bind] at h
    generalize hq : foldRes _ (m0.smul z) ms = q at h
    rcases q with e | q
    · cases h
    · have := hornerLoop_vars z ms (fun m hm => hrow m ((hmem m).2 (by simp [hm]))) (m0.smul z) q m0.numVars h0 rfl hq
      have hall : ∀ m ∈ row, m.numVars = m0.numVars := by
        intro m hm
        rcases List.mem_cons.1 ((hmem m).1 hm) with rfl | hm
        · rfl
        · exact this m hm
      intro m hm m' hm'
      rw [hall m hm, hall m' hm']

/-- Tables of one and two variables. -/
example (r : Mle ℤ) : challengedMz [[⟨1, [1, 2]⟩, ⟨2, [1, 2, 3, 4]⟩]] [5] ≠ .ok r := by
  intro h
  exact absurd (C36_tables_agree _ _ r (by decide) h ⟨1, [1, 2]⟩ (by simp) ⟨2, [1, 2, 3, 4]⟩ (by simp)) (by decide)

end Tables

section Ring
variable {Fp F C σ : Type} {N τ : Nat} [Field Fp] [Field F] [DecidableEq F] [Algebra Fp F] [CommRing C]
  [Algebra Fp C]

/-- **C36**: completeness of folding. On `2K` valid statements with short witnesses the prover succeeds, and
the verifier accepts its proof with the same new statement and the same transcript state. -/
theorem C36_folding_complete (rd : RingData Fp F C N τ) (P : Params) (cs : ChallengeSet C)
    (T : Transcript F (Fin N → F) σ) (s : σ) (ccs : CCS (Fin N → F)) (scheme : Ajtai (Fin N → F))
    (cms : List (LCCCS (Fin N → F))) (ws : List (Witness (Fin N → F) C)) (mz : List (List (Mle (Fin N → F))))
    (hP : ParamsOK Fp P) (hS : SizesOK P ccs scheme) (ht : ccs.t = ccs.M.length)
    (hin : FoldInput rd P ccs scheme cms ws mz) (hc : CharGt F (2 * P.bSmall))
    (hT : ∀ s n, (T.bytes s n).1.length = n)
    (hcs : ∀ bs, bs.length = cs.bytesNeeded → ∃ c, cs.decode bs = .ok c) :
    ∃ st w proof s', foldProve rd P cs T s cms ws ccs mz = .ok ((st, w, proof), s') ∧
      foldVerify rd P cs T s cms proof ccs = .ok (st, s') := by
  obtain ⟨st, w, proof, s', -, -, h1, h2, -⟩ := fold_complete rd P cs T s ccs scheme cms ws mz hP hS ht hin hc hT hcs
  exact ⟨st, w, proof, s', h1, h2⟩

/-- **C37**: the folded witness opens the folded statement: whenever the prover succeeds on valid inputs, its
new statement satisfies the linearized relation with its new witness, at a point of base field elements;
there are short challenges `rho_0 .. rho_{2K-1}`, the last being `1`, the others from the challenge set,
such that witness, commitment and public input are the combinations of the inputs by them. -/
theorem C37_folded_valid (rd : RingData Fp F C N τ) (P : Params) (cs : ChallengeSet C)
    (T : Transcript F (Fin N → F) σ) (s s' : σ) (ccs : CCS (Fin N → F)) (scheme : Ajtai (Fin N → F))
    (cms : List (LCCCS (Fin N → F))) (ws : List (Witness (Fin N → F) C)) (mz : List (List (Mle (Fin N → F))))
    (st : LCCCS (Fin N → F)) (w : Witness (Fin N → F) C) (proof : FoldProof (Fin N → F))
    (hP : ParamsOK Fp P) (hS : SizesOK P ccs scheme) (ht : ccs.t = ccs.M.length)
    (hin : FoldInput rd P ccs scheme cms ws mz) (hc : CharGt F (2 * P.bSmall))
    (hT : ∀ s n, (T.bytes s n).1.length = n)
    (hcs : ∀ bs, bs.length = cs.bytesNeeded → ∃ c, cs.decode bs = .ok c)
    (h : foldProve rd P cs T s cms ws ccs mz = .ok ((st, w, proof), s')) :
    LcccsHolds rd P ccs scheme st w ∧ (∃ p : List F, st.r = p.map (algebraMap F (Fin N → F))) ∧
    ∃ rho : Nat → C, rho (2 * P.K - 1) = 1 ∧
      (∀ k < 2 * P.K - 1, ∃ bs, bs.length = cs.bytesNeeded ∧ cs.decode bs = .ok (rho k)) ∧
      IsComb (2 * P.K) rho (fun k => (ws.getD k ⟨[], [], [], []⟩).fCoeff) w.fCoeff
        ((ccs.n - ccs.l - 1) * P.L) ∧
      IsComb (2 * P.K) (fun k => rd.crt (rho k)) (fun k => (cms.getD k ⟨[], [], ⟨[]⟩, [], [], 0⟩).cm.val) st.cm.val
        scheme.matrix.vals.length ∧
      IsComb (2 * P.K) (fun k => rd.crt (rho k)) (fun k => (cms.getD k ⟨[], [], ⟨[]⟩, [], [], 0⟩).x_w
        ++ [(cms.getD k ⟨[], [], ⟨[]⟩, [], [], 0⟩).h]) (st.x_w ++ [st.h]) (ccs.l + 1) := by
  obtain ⟨st', w', proof', s'', rho, p, h1, -, h3, h4, h5, h6, h7, h8, h9⟩ :=
    fold_complete rd P cs T s ccs scheme cms ws mz hP hS ht hin hc hT hcs
  rw [h1] at h
  simp only [Except.ok.injEq, Prod.mk.injEq] at h
  obtain ⟨⟨rfl, rfl, rfl⟩, rfl⟩ := h
  exact ⟨h3, ⟨p, h4⟩, rho, h5, h6, h7, h8, h9⟩

/-! ## C38: number of statements -/

theorem foldVerify_iff (rd : RingData Fp F C N τ) (P : Params) (cs : ChallengeSet C)
    (T : Transcript F (Fin N → F) σ) (s s' : σ) (cms : List (LCCCS (Fin N → F))) (proof : FoldProof (Fin N → F))
    (ccs : CCS (Fin N → F)) (st : LCCCS (Fin N → F)) :
    foldVerify rd P cs T s cms proof ccs = .ok (st, s') ↔ sanityCheck ccs P.L = .ok () ∧
      ∃ ch s1 sc s2 eStar es rhoC rho out, squeezeFold P T s ccs.s = .ok (ch, s1) ∧
        verifyAsSubprotocol T s1 ccs.s (2 * P.bSmall) (foldClaims ch.alpha ch.zeta cms) proof.sumcheck
          = .ok (sc, s2) ∧
        eqEval ch.beta (sc.point.map (algebraMap F (Fin N → F))) = .ok eStar ∧
        mapRes (fun r => eqEval r (sc.point.map (algebraMap F (Fin N → F)))) (cms.map LCCCS.r) = .ok es ∧
        expectedValue P ch.alpha ch.mu proof.thetaS eStar es ch.zeta proof.etaS = .ok sc.expectedEvaluation ∧
        getRhos rd P cs T (proof.etaS.foldl T.absorbSlice (proof.thetaS.foldl T.absorbSlice s2))
          = .ok ((rhoC, rho), s') ∧
        computeFolded rd rhoC rho proof.thetaS cms proof.etaS ccs = .ok out ∧
        foldOutput (sc.point.map (algebraMap F (Fin N → F))) out = .ok st := by
  unfold foldVerify
  simp only [bind_eq_ok, Prod.exists]
  constructor
  · rintro ⟨_, h0, ch, s1, h1, sc, s2, h2, e, h3, es, h4, ex, h5, h6⟩
    split at h6
    · cases h6
    · rename_i hne
      rw [not_not] at hne
      subst hne
      simp only [bind_eq_ok, Prod.exists] at h6
      obtain ⟨rhoC, rho, s3, h7, a1, a2, a3, a4, h8, lc, h9, h10⟩ := h6
      simp only [Except.ok.injEq, Prod.mk.injEq] at h10
      obtain ⟨rfl, rfl⟩ := h10
      exact ⟨h0, ch, s1, sc, s2, e, es, rhoC, rho, _, _, _, _, h1, h2, h3, h4, h5, h7, h8, h9⟩
  · rintro ⟨h0, ch, s1, sc, s2, e, es, rhoC, rho, a1, a2, a3, a4, h1, h2, h3, h4, h5, h7, h8, h9⟩
    refine ⟨_, h0, ch, s1, h1, sc, s2, h2, e, h3, es, h4, _, h5, ?_⟩
    rw [if_neg (by simp)]
    simp only [bind_eq_ok, Prod.exists]
    exact ⟨rhoC, rho, s', h7, _, _, _, _, h8, _, h9, rfl⟩

theorem forall₂_mem_left {α β : Type} {r : α → β → Prop} {l : List α} {m : List β} (h : List.Forall₂ r l m) {a : α}
    (ha : a ∈ l) : ∃ b, b ∈ m ∧ r a b := by
  induction h with
  | nil => cases ha
  | cons hab _ ih =>
    rcases List.mem_cons.1 ha with rfl | ha
    · exact ⟨_, by simp, hab⟩
    · obtain ⟨b, h1, h2⟩ := ih ha
      exact ⟨b, by simp [h1], h2⟩

theorem zipWith_append_left {α β γ : Type} (f : α → β → γ) (l : List α) (a b : List β) (h : l.length = a.length) :
    List.zipWith f l (a ++ b) = List.zipWith f l a := by
  conv_lhs => rw [← List.append_nil l]
  rw [List.zipWith_append h]
  simp

theorem expectedValue_append (P : Params) {R : Type} [CommRing R] (alpha mu : List R) (theta : List (List R)) (eStar : R)
    (es es' zeta : List R) (eta : List (List R)) (h : es.length = 2 * P.K) :
    expectedValue P alpha mu theta eStar (es ++ es') zeta eta = expectedValue P alpha mu theta eStar es zeta eta := by
  unfold expectedValue
  congr 1
  have : ∀ l : List Nat, (∀ i ∈ l, i < 2 * P.K) → mapRes (expectedSummand P alpha mu theta eStar (es ++ es') zeta eta) l
      = mapRes (expectedSummand P alpha mu theta eStar es zeta eta) l := by
    intro l
    induction l with
    | nil => intro _; rfl
    | cons i l ih =>
      intro hl
      have hi : i < es.length := by rw [h]; exact hl i (by simp)
      have e : expectedSummand P alpha mu theta eStar (es ++ es') zeta eta i
          = expectedSummand P alpha mu theta eStar es zeta eta i := by
        unfold expectedSummand idx
        rw [List.getElem?_append_left hi]
      unfold mapRes
      rw [e, ih fun j hj => hl j (by simp [hj])]
  exact this _ fun i hi => List.mem_range.1 hi

/-- Verification reads the first `2K` statements only. -/
theorem foldVerify_append (rd : RingData Fp F C N τ) (P : Params) (hK : 1 ≤ P.K) (cs : ChallengeSet C)
    (T : Transcript F (Fin N → F) σ) (s s' : σ) (cms extra : List (LCCCS (Fin N → F)))
    (proof : FoldProof (Fin N → F)) (ccs : CCS (Fin N → F)) (st : LCCCS (Fin N → F)) (hl : cms.length = 2 * P.K) :
    foldVerify rd P cs T s (cms ++ extra) proof ccs = .ok (st, s') ↔
      foldVerify rd P cs T s cms proof ccs = .ok (st, s') ∧ ∀ e ∈ extra, e.r.length = ccs.s := by
  rw [foldVerify_iff, foldVerify_iff]
  obtain ⟨al, ze, mu, beta, s0, hsq, hmul, hbl, -⟩ := squeezeFold_ok P hK T s ccs.s
  have hclaim : foldClaims ((List.range (2 * P.K)).map al) ((List.range (2 * P.K)).map ze) (cms ++ extra)
      = foldClaims ((List.range (2 * P.K)).map al) ((List.range (2 * P.K)).map ze) cms := by
    unfold foldClaims
    rw [zipWith_append_left _ _ _ _ (by simp [hl]), zipWith_append_left _ _ _ _ (by simp [hl])]
  have hfold : ∀ s1 rhoC rho s2 theta eta, getRhos rd P cs T s1 = .ok ((rhoC, rho), s2) →
      computeFolded rd rhoC rho theta (cms ++ extra) eta ccs = computeFolded rd rhoC rho theta cms eta ccs := by
    intro s1 rhoC rho s2 theta eta h
    have hr : rho.length = 2 * P.K := by
      unfold getRhos at h
      simp only [bind_eq_ok, Prod.exists] at h
      obtain ⟨n, hn, l, s3, h1, h2⟩ := h
      unfold usub at hn
      rw [if_pos (by omega)] at hn
      have hn := Except.ok.inj hn
      simp only [Except.ok.injEq, Prod.mk.injEq] at h2
      rw [← h2.1.2]
      have : ∀ n s l s', shortChallenges T cs n s = .ok (l, s') → l.length = n := by
        intro n
        induction n with
        | zero => intro s l s' h; simp only [shortChallenges, Except.ok.injEq, Prod.mk.injEq] at h; rw [← h.1]; rfl
        | succ n ih =>
          intro s l s' h
          simp only [shortChallenges, bind_eq_ok, Prod.exists] at h
          obtain ⟨c, t1, _, r, t2, hr, h⟩ := h
          simp only [Except.ok.injEq, Prod.mk.injEq] at h
          rw [← h.1, List.length_cons, ih _ _ _ hr]
      have hll := this _ _ _ _ h1
      simp only [List.length_map, List.length_append, List.length_singleton, hll]
      omega
    unfold computeFolded
    rw [zipWith_append_left _ _ _ _ (by rw [hr, hl]), zipWith_append_left _ _ _ _ (by rw [hr, hl])]
    have : headCmLen (cms ++ extra) = headCmLen cms := by
      cases cms with
      | nil => simp at hl; omega
      | cons c l => rfl
    rw [this]
  constructor
  · rintro ⟨h0, ch, s1, sc, s2, e, es, rhoC, rho, out, h1, h2, h3, h4, h5, h7, h8, h9⟩
    rw [hsq] at h1
    simp only [Except.ok.injEq, Prod.mk.injEq] at h1
    obtain ⟨rfl, rfl⟩ := h1
    rw [hclaim] at h2
    rw [hfold _ _ _ _ _ _ h7] at h8
    rw [List.map_append, mapRes_append] at h4
    obtain ⟨b1, b2, h41, h42, rfl⟩ := h4
    rw [expectedValue_append _ _ _ _ _ _ _ _ _ (by rw [mapRes_length h41, List.length_map, hl])] at h5
    refine ⟨⟨h0, _, _, sc, s2, e, b1, rhoC, rho, out, hsq, h2, h3, h41, h5, h7, h8, h9⟩, ?_⟩
    intro x hx
    have hp : beta.length = (sc.point.map (algebraMap F (Fin N → F))).length := by
      by_contra hne
      unfold eqEval at h3
      simp only at h3
      rw [if_pos hne] at h3
      cases h3
    rw [mapRes_eq_ok_iff] at h42
    obtain ⟨b, -, hb⟩ := forall₂_mem_left h42 (List.mem_map_of_mem (f := LCCCS.r) hx)
    by_contra hne
    unfold eqEval at hb
    rw [if_pos (by rw [← hp, hbl]; exact hne)] at hb
    cases hb
  · rintro ⟨⟨h0, ch, s1, sc, s2, e, es, rhoC, rho, out, h1, h2, h3, h4, h5, h7, h8, h9⟩, hex⟩
    rw [hsq] at h1
    simp only [Except.ok.injEq, Prod.mk.injEq] at h1
    obtain ⟨rfl, rfl⟩ := h1
    have hp : beta.length = (sc.point.map (algebraMap F (Fin N → F))).length := by
      by_contra hne
      unfold eqEval at h3
      simp only at h3
      rw [if_pos hne] at h3
      cases h3
    refine ⟨h0, _, _, sc, s2, e, es ++ extra.map (fun x => eqPoly x.r (sc.point.map (algebraMap F (Fin N → F)))),
      rhoC, rho, out, hsq, by rw [hclaim]; exact h2, h3, ?_, ?_, h7, by rw [hfold _ _ _ _ _ _ h7]; exact h8, h9⟩
    · rw [List.map_append, mapRes_append]
      refine ⟨es, _, h4, ?_, rfl⟩
      apply mapRes_map_ok
      intro x hx
      exact eqEval_ok _ _ (by rw [← hp, hbl]; exact hex x hx)
    · rw [expectedValue_append _ _ _ _ _ _ _ _ _ (by rw [mapRes_length h4, List.length_map, hl])]
      exact h5

/-- **C38** is false: statements after the first `2K` are never folded. Whenever a proof is accepted for `2K`
statements it is accepted, with the same output, together with any further statements, true or not, whose
points have the right length. -/
theorem C38_extra_statements_ignored (rd : RingData Fp F C N τ) (P : Params) (hK : 1 ≤ P.K) (cs : ChallengeSet C)
    (T : Transcript F (Fin N → F) σ) (s s' : σ) (cms extra : List (LCCCS (Fin N → F)))
    (proof : FoldProof (Fin N → F)) (ccs : CCS (Fin N → F)) (st : LCCCS (Fin N → F)) (hl : cms.length = 2 * P.K)
    (h : foldVerify rd P cs T s cms proof ccs = .ok (st, s')) (he : ∀ e ∈ extra, e.r.length = ccs.s) :
    foldVerify rd P cs T s (cms ++ extra) proof ccs = .ok (st, s') :=
  (foldVerify_append rd P hK cs T s s' cms extra proof ccs st hl).2 ⟨h, he⟩

/-- **C38** (partial): at least `2K` statements are required, and the output is that for the first `2K` of
them. Missing: the number is not checked to be exactly `2K`. -/
theorem C38_at_least_partial (rd : RingData Fp F C N τ) (P : Params) (hK : 1 ≤ P.K) (cs : ChallengeSet C)
    (T : Transcript F (Fin N → F) σ) (s s' : σ) (cms : List (LCCCS (Fin N → F)))
    (proof : FoldProof (Fin N → F)) (ccs : CCS (Fin N → F)) (st : LCCCS (Fin N → F))
    (h : foldVerify rd P cs T s cms proof ccs = .ok (st, s')) :
    2 * P.K ≤ cms.length ∧ foldVerify rd P cs T s (cms.take (2 * P.K)) proof ccs = .ok (st, s') := by
  have hl : 2 * P.K ≤ cms.length := by
    obtain ⟨h0, ch, s1, sc, s2, e, es, rhoC, rho, out, h1, h2, h3, h4, h5, h7, h8, h9⟩ :=
      (foldVerify_iff rd P cs T s s' cms proof ccs st).1 h
    unfold expectedValue at h5
    rw [bind_eq_ok] at h5
    obtain ⟨terms, h5, -⟩ := h5
    rw [mapRes_eq_ok_iff] at h5
    obtain ⟨b, -, hb⟩ := forall₂_mem_left h5 (List.mem_range.2 (show 2 * P.K - 1 < 2 * P.K by omega))
    unfold expectedSummand at hb
    simp only [bind_eq_ok, idx_eq_ok] at hb
    obtain ⟨_, _, _, _, x, hx, _⟩ := hb
    have := (List.getElem?_eq_some_iff.1 hx).1
    have h6 := mapRes_length h4
    rw [List.length_map] at h6
    omega
  refine ⟨hl, ?_⟩
  have := foldVerify_append rd P hK cs T s s' (cms.take (2 * P.K)) (cms.drop (2 * P.K)) proof ccs st
    (by rw [List.length_take]; omega)
  rw [List.take_append_drop] at this
  exact (this.1 h).1

end Ring

open Verif.Example

/-- **C38**, negation: with the example parameters five statements are accepted, the last one being
false for every witness. -/
theorem C38_five_accepted :
    ∃ (cms : List (LCCCS C5)) (proof : FoldProof C5) (st : LCCCS C5) (s' : Nat),
      foldVerify ring5 par5 cs5 tr5 0 cms proof ccs5 = .ok (st, s') ∧ cms.length = 2 * par5.K + 1 ∧
      ∃ e ∈ cms, ∀ w, ¬ LcccsHolds ring5 par5 ccs5 scheme5 e w := by
  obtain ⟨st, w, proof, s', -, h⟩ := C36_folding_complete ring5 par5 cs5 tr5 0 ccs5 scheme5 foldAccs5 foldWits5 foldMz5
    par5_ok sizes5 rfl foldIn5 charGt5 tr5_bytes cs5_ok
  exact ⟨foldAccs5 ++ [⟨[![0, 1]], [0], ⟨[0]⟩, [], [0], 1⟩], proof, st, s',
    C38_extra_statements_ignored ring5 par5 (by decide) cs5 tr5 0 s' foldAccs5 _ proof ccs5 st rfl h
      (by simp [ccs5]), rfl, ⟨[![0, 1]], [0], ⟨[0]⟩, [], [0], 1⟩, by simp, fun w hw => by
        have := congrArg List.length hw.evals.u
        simp [ccs5] at this⟩

example : ∃ st w proof s', foldProve ring5 par5 cs5 tr5 7 foldAccs5 foldWits5 ccs5 foldMz5 = .ok ((st, w, proof), s') ∧
      foldVerify ring5 par5 cs5 tr5 7 foldAccs5 proof ccs5 = .ok (st, s') :=
  C36_folding_complete ring5 par5 cs5 tr5 7 ccs5 scheme5 foldAccs5 foldWits5 foldMz5 par5_ok sizes5 rfl foldIn5 charGt5
    tr5_bytes cs5_ok

example (st : LCCCS C5) (w : Witness C5 C5) (proof : FoldProof C5) (s' : Nat)
    (h : foldProve ring5 par5 cs5 tr5 7 foldAccs5 foldWits5 ccs5 foldMz5 = .ok ((st, w, proof), s')) :
    LcccsHolds ring5 par5 ccs5 scheme5 st w :=
  (C37_folded_valid ring5 par5 cs5 tr5 7 s' ccs5 scheme5 foldAccs5 foldWits5 foldMz5 st w proof par5_ok sizes5 rfl
    foldIn5 charGt5 tr5_bytes cs5_ok h).1

example (proof : FoldProof C5) (st : LCCCS C5) (s' : Nat) :
    foldVerify ring5 par5 cs5 tr5 0 (foldAccs5.take 3) proof ccs5 ≠ .ok (st, s') := fun h =>
  absurd (C38_at_least_partial ring5 par5 (by decide) cs5 tr5 0 s' _ proof ccs5 st h).1 (by decide)

end Verif.Props
