import Verif.Model.PlusFold
import Verif.Spec.PlusFold
import Verif.Lemmas.PlusFromF
import Verif.Lemmas.Tape
import Verif.Props.Sumcheck
import Verif.Props.PlusRange

/-!
# Property theorems: linearization of committed R1CS in `latticefold-plus` (C60 - C62)
-/

set_option linter.unusedSectionVars false
set_option linter.unusedSimpArgs false

namespace Verif.Props

open Finset Verif Verif.Spec Verif.Plus

variable {F R σ : Type} {d : Nat}
variable [Field F] [CommRing R] [Algebra F R] [DecidableEq F] [DecidableEq R]

/-! ## C60 -/

/-- **C60**: `ComR1CS::new`. For a vector `z` in the range of `k` balanced digits to base `b`, the witness `f` lists the `k` digits of
every entry of `z`, all short, and `cm_f` is the product of `A` with it. -/
theorem C60_new (pr : PlusRing F R d) (r1cs : R1CS R) (z : List R) (lIn : Nat) {b k : Nat} {A : Mat R} (hA : A.WF) (hAn : A.ncols = z.length * k)
    (hb : 2 ≤ b) (he : Even b) (hk : 1 ≤ k) (hz : ∀ x ∈ z, ∀ i, Short (b ^ k) (pr.coeff x i)) :
    ∃ c, ComR1CS.new pr r1cs z lIn b k A = .ok c ∧ c.r1cs = r1cs ∧ c.z = z ∧ c.lIn = lIn ∧ c.f.length = z.length * k ∧
      (∀ j < z.length, ∑ i ∈ range k, (b : R) ^ i * c.f.getD (j * k + i) 0 = z.getD j 0) ∧
      (∀ x ∈ c.f, ∀ i, Short b (pr.coeff x i)) ∧ c.cmF = commit A c.f := by
  have h1 : gadgetVec pr b k z = .ok (z.map (dgR pr b k)).flatten := by
    unfold gadgetVec
    rw [mapRes_ok (g := dgR pr b k) fun x hx => (dgR_ok pr hb he hk (hz x hx)).1, bind_ok']
  have hlen : ∀ l ∈ z.map (dgR pr b k), l.length = k := by
    intro l hl
    obtain ⟨x, hx, rfl⟩ := List.mem_map.1 hl
    exact (dgR_ok pr hb he hk (hz x hx)).2.1
  have hfl : (z.map (dgR pr b k)).flatten.length = z.length * k := by rw [flatten_length _ hlen, List.length_map]
  refine ⟨⟨r1cs, z, commit A (z.map (dgR pr b k)).flatten, lIn, (z.map (dgR pr b k)).flatten⟩, ?_, rfl, rfl, rfl, hfl, ?_, ?_, rfl⟩
  · unfold ComR1CS.new
    rw [h1, bind_ok', commit_eq hA (by rw [hfl, hAn]), bind_ok']
  · intro j hj
    have hm : z[j] ∈ z := List.getElem_mem hj
    rw [show z.getD j 0 = z[j] by simp [List.getD_eq_getElem?_getD, hj]]
    conv_rhs => rw [← (dgR_ok pr hb he hk (hz _ hm)).2.2.1]
    apply sum_congr rfl
    intro i hi
    rw [flatten_getD 0 _ hlen j (mem_range.1 hi), getD_map_lt _ z 0 [] hj]
    simp [List.getD_eq_getElem?_getD, hj]
  · intro x hx i
    obtain ⟨l, hl, hx⟩ := List.mem_flatten.1 hx
    obtain ⟨y, hy, rfl⟩ := List.mem_map.1 hl
    exact (dgR_ok pr hb he hk (hz y hy)).2.2.2 x hx i

/-- The combination of the sum-check. -/
def r1csValue (vals : List R) : R := vals.getD 0 0 * (vals.getD 1 0 * vals.getD 2 0 - vals.getD 3 0)

theorem r1csValue_deg (k : Nat) : LineDeg k 3 (r1csValue (R := R)) := by
  unfold r1csValue
  apply LineDeg.mul (d := 1) (e := 2) (lineDeg_coord _ _)
  apply LineDeg.sub
  · exact LineDeg.mul (d := 1) (e := 1) (lineDeg_coord _ _) (lineDeg_coord _ _)
  · exact (lineDeg_coord _ _).mono (by omega)

/-- The shape of the matrices of a committed R1CS: well formed, as many columns as `f` has entries and at most as many rows as
`f` has after padding. -/
structure ComShape (c : ComR1CS R) : Prop where
  wf : R1CSWF c.r1cs
  cols : c.r1cs.A.ncols = c.f.length
  rows : c.r1cs.A.nrows ≤ 2 ^ Nat.clog 2 c.f.length
  len : 2 ≤ c.f.length

/-- The error of row `i`. -/
def rowError (cs : R1CS R) (f : List R) (i : Nat) : R := mulVec cs.A f i * mulVec cs.B f i - mulVec cs.C f i

/-- **C107**: when the proof of the honest linearization is accepted. The linearization of any vector `f` of the right length succeeds and yields a true
instance. The proof is accepted if and only if the multilinear extension of the errors `(A f)_i (B f)_i - (C f)_i` of the rows vanishes at the point `r` that the transcript returns
before anything is absorbed; otherwise verification aborts. -/
theorem C107_accepted_iff (T : Transcript F R σ) (s : σ) (c : ComR1CS R) (A : Mat R) (sh : ComShape c) (hc : CharGt F 3) (hcm : c.cmF = commit A c.f) :
    ∃ lb proof s', c.linearize T s = .ok ((lb, proof), s') ∧ lb.f = c.f ∧
      LinValid A c.matrices (Nat.clog 2 c.f.length) c.f.length lb.f lb.x.cmF lb.x.r lb.x.v ∧
      (mle (rowError c.r1cs c.f) ((T.challenges (Nat.clog 2 c.f.length) s).1.map (algebraMap F R)) = 0 → proof.verify T s = .ok (true, s')) ∧
      (mle (rowError c.r1cs c.f) ((T.challenges (Nat.clog 2 c.f.length) s).1.map (algebraMap F R)) ≠ 0 → ∃ e, proof.verify T s = .error e) := by
  obtain ⟨⟨wA, wB, wC, rB, rC, cB, cC⟩, cols, rows, len⟩ := sh
  set nv := Nat.clog 2 c.f.length with hnv
  have hnv1 : 1 ≤ nv := Nat.clog_pos (by norm_num) len
  have hpow : c.f.length ≤ 2 ^ nv := Nat.le_pow_clog (by norm_num) _
  rcases hch : T.challenges nv s with ⟨r, s1⟩
  have hrl : r.length = nv := by
    have := challenges_length T nv s
    rw [hch] at this
    exact this
  let tab : SpMat R → Mle R := fun m => ⟨nv, (List.range m.nrows).map fun i => mulVec m c.f i⟩
  have htab : ∀ m : SpMat R, m.WF → ∀ x, (tab m).get x = mulVec m c.f x := fun m hm x => mulVec_list_getD hm c.f x
  obtain ⟨proof, pst, s2, sc, vals, h2, h3, hext, hpl, h5, h6, h7, h8⟩ :=
    C20_completeness T s1 [eqT R r, tab c.r1cs.A, tab c.r1cs.B, tab c.r1cs.C] nv 3 r1csComb r1csValue hnv1 (by omega) hc (by
      intro p hp
      simp only [List.mem_cons, List.not_mem_nil, or_false] at hp
      rcases hp with rfl | rfl | rfl | rfl
      · exact hrl
      all_goals rfl) (by
      intro v hv
      match v, hv with
      | [a, b, c, e], _ => rfl) (r1csValue_deg _)
  have hsum : ∑ b ∈ range (2 ^ nv), r1csValue ([eqT R r, tab c.r1cs.A, tab c.r1cs.B, tab c.r1cs.C].map fun m => m.get b)
      = mle (rowError c.r1cs c.f) (r.map (algebraMap F R)) := by
    unfold mle
    rw [List.length_map, hrl]
    apply sum_congr rfl
    intro b hb
    change (eqT R r).get b * ((tab c.r1cs.A).get b * (tab c.r1cs.B).get b - (tab c.r1cs.C).get b) = _
    rw [htab _ wA, htab _ wB, htab _ wC, show (eqT R r).get b = eqWeight (r.map (algebraMap F R)) b from
      get_map_range _ _ _ (by rw [hrl]; exact mem_range.1 hb)]
    unfold rowError
    ring
  rw [hsum] at h3 hext
  set ro := sc.point.map (algebraMap F R) with hro
  have hrol : ro.length = nv := by rw [hro, List.length_map, h6]
  have hev : ∀ m : SpMat R, m.WF → mle (tab m).get ro = mle (mulVec m c.f) ro := fun m hm => mle_congr fun x _ => htab m hm x
  have hmul : ∀ m : SpMat R, m.WF → m.ncols = c.f.length → m.tryMulVec c.f = .ok ((List.range m.nrows).map fun i => mulVec m c.f i) :=
    fun m hm hc => tryMulVec_wf hm hc.symm
  have hfe : ∀ m : SpMat R, m.nrows ≤ 2 ^ nv → Mle.fromEvals nv ((List.range m.nrows).map fun i => mulVec m c.f i) = .ok (tab m) :=
    fun m hm => fromEvals_ok nv _ (by simpa using hm)
  have heu : ∀ m : Mle R, m.numVars = nv → evalUnwrap m ro = .ok (mle m.get ro) := by
    intro m hm
    unfold evalUnwrap
    rw [evaluate_eq, if_pos (by rw [hrol, hm])]
  refine ⟨⟨c.f, ⟨c.cmF, ro.map fun x => (x, x), [(mle (fun i => c.f.getD i 0) ro, mle (fun i => c.f.getD i 0) ro),
      (mle (mulVec c.r1cs.A c.f) ro, mle (mulVec c.r1cs.A c.f) ro), (mle (mulVec c.r1cs.B c.f) ro, mle (mulVec c.r1cs.B c.f) ro),
      (mle (mulVec c.r1cs.C c.f) ro, mle (mulVec c.r1cs.C c.f) ro)]⟩⟩,
    ⟨proof, nv, ro, mle (fun i => c.f.getD i 0) ro, mle (mulVec c.r1cs.A c.f) ro, mle (mulVec c.r1cs.B c.f) ro, mle (mulVec c.r1cs.C c.f) ro⟩,
    T.absorbSlice s2 [mle (fun i => c.f.getD i 0) ro, mle (mulVec c.r1cs.A c.f) ro, mle (mulVec c.r1cs.B c.f) ro, mle (mulVec c.r1cs.C c.f) ro],
    ?_, rfl, ?_, ?_, ?_⟩
  · unfold ComR1CS.linearize
    simp only
    rw [← hnv, hmul _ wA cols, bind_ok', hmul _ wB (by rw [cB, cols]), bind_ok', hmul _ wC (by rw [cC, cols]), bind_ok', hch]
    simp only
    rw [buildEq_eqT r (by rintro rfl; simp at hrl; omega), show ∀ {α : Type} (u : String) (a : α), unwrapRes u (Except.ok a) = .ok a from fun _ _ => rfl, bind_ok', fromEvals_ok nv c.f hpow, bind_ok', hfe _ rows, bind_ok',
      hfe _ (by rw [rB]; exact rows), bind_ok', hfe _ (by rw [rC]; exact rows), bind_ok', h2, bind_ok']
    simp only
    rw [← h5, ← hro, heu ⟨nv, c.f⟩ rfl, bind_ok', heu (tab _) rfl, bind_ok', heu (tab _) rfl, bind_ok', heu (tab _) rfl, bind_ok',
      hev _ wA, hev _ wB, hev _ wC]
    rfl
  · refine ⟨rfl, hcm, by simp [hrol], ?_⟩
    unfold evalPairs ComR1CS.matrices
    simp [List.map_map, Function.comp_def]
  · intro h0
    rw [h0] at h3
    unfold ComR1CSProof.verify
    simp only
    rw [hch]
    simp only
    rw [h3]
    simp only [unwrapRes, bind_ok']
    rw [← hro, eqEval_ok _ _ (by rw [List.length_map, hrl, hrol])]
    simp only [bind_ok']
    rw [if_pos]
    rw [evaluateMles_ok _ _ (by
      intro p hp
      rw [hrol]
      simp only [List.mem_cons, List.not_mem_nil, or_false] at hp
      rcases hp with rfl | rfl | rfl | rfl
      · exact hrl.symm
      all_goals rfl)] at h7
    cases h7
    have h8' : r1csComb [mle (eqT R r).get ro, mle (tab c.r1cs.A).get ro, mle (tab c.r1cs.B).get ro, mle (tab c.r1cs.C).get ro]
        = .ok sc.expectedEvaluation := h8
    change Except.ok (mle (eqT R r).get ro * (mle (tab c.r1cs.A).get ro * mle (tab c.r1cs.B).get ro - mle (tab c.r1cs.C).get ro)) = _ at h8'
    simp only [Except.ok.injEq] at h8'
    rw [← h8', hev _ wA, hev _ wB, hev _ wC, eqT_mle r ro (by rw [hrl, hrol])]
  · intro h0
    unfold ComR1CSProof.verify
    simp only
    rw [hch]
    simp only
    cases hv : verifyAsSubprotocol T s1 nv 3 (0 : R) proof with
    | error e => exact ⟨_, rfl⟩
    | ok t =>
      obtain ⟨sc', t'⟩ := t
      have := claim_unique T s1 nv 3 hnv1 0 proof (by rw [hpl]) sc' t' hv
      rw [hext] at this
      exact absurd (Except.ok.inj this) h0

/-- **C60**: completeness of linearization. If `f` satisfies the R1CS and `cm_f` is its commitment, the linearization succeeds, its proof is
accepted with the same transcript state, and the resulting instance is true: it consists of `f`, its commitment and the evaluations of `f`,
`A f`, `B f`, `C f` at the point of the sum-check. -/
theorem C60_complete (T : Transcript F R σ) (s : σ) (c : ComR1CS R) (A : Mat R) (sh : ComShape c) (hc : CharGt F 3)
    (hrel : R1CSHolds c.r1cs.A c.r1cs.B c.r1cs.C c.r1cs.A.nrows c.f) (hcm : c.cmF = commit A c.f) :
    ∃ lb proof s', c.linearize T s = .ok ((lb, proof), s') ∧ proof.verify T s = .ok (true, s') ∧ lb.f = c.f ∧
      LinValid A c.matrices (Nat.clog 2 c.f.length) c.f.length lb.f lb.x.cmF lb.x.r lb.x.v := by
  obtain ⟨lb, proof, s', h1, h2, h3, h4, -⟩ := C107_accepted_iff T s c A sh hc hcm
  refine ⟨lb, proof, s', h1, h4 ?_, h2, h3⟩
  obtain ⟨⟨wA, wB, wC, rB, rC, cB, cC⟩, cols, rows, len⟩ := sh
  rw [mle_congr (g := fun _ => 0), mle_zero]
  intro b _
  unfold rowError
  by_cases hb : b < c.r1cs.A.nrows
  · have := hrel b hb
    unfold R1CSRow at this
    rw [this, sub_self]
  · rw [Verif.mulVec_out wA _ (by omega), Verif.mulVec_out wB _ (by omega), Verif.mulVec_out wC _ (by omega)]
    ring

/-- **C60**: the R1CS for the digits. `r1cs_decomposed_square` replaces the matrices by decomposed ones and appends empty rows. If a decomposed
matrix times `f` is the matrix times `z` (the contract assumed of the external `gadget_decompose` of a sparse matrix), then `f` satisfies the
result exactly when `z` satisfies the original. -/
theorem C60_decomposed_square_partial (gad : Nat → Nat → SpMat R → SpMat R) (cs : R1CS R) (wf : R1CSWF cs) (n b k : Nat) (f z : List R)
    (hgad : ∀ M ∈ [cs.A, cs.B, cs.C], (gad b k M).nrows = M.nrows ∧ ∀ i, mulVec (gad b k M) f i = mulVec M z i) :
    R1CSHolds (r1csDecomposedSquare gad cs n b k).A (r1csDecomposedSquare gad cs n b k).B (r1csDecomposedSquare gad cs n b k).C
      (r1csDecomposedSquare gad cs n b k).A.nrows f ↔ R1CSHolds cs.A cs.B cs.C cs.A.nrows z := by
  have hA := hgad cs.A (by simp)
  have hB := hgad cs.B (by simp)
  have hC := hgad cs.C (by simp)
  have hrow : ∀ i, R1CSRow (r1csDecomposedSquare gad cs n b k).A (r1csDecomposedSquare gad cs n b k).B (r1csDecomposedSquare gad cs n b k).C f i
      ↔ R1CSRow cs.A cs.B cs.C z i := by
    intro i
    unfold R1CSRow r1csDecomposedSquare
    simp only [padRows_mulVec]
    rw [hA.2, hB.2, hC.2]
  have hn : (r1csDecomposedSquare gad cs n b k).A.nrows = max cs.A.nrows n := by
    unfold r1csDecomposedSquare
    simp only [padRows_nrows]
    rw [hA.1]
  unfold R1CSHolds
  rw [hn]
  constructor
  · intro h i hi
    exact (hrow i).1 (h i (lt_of_lt_of_le hi (le_max_left _ _)))
  · intro h i _
    rw [hrow]
    by_cases hi : i < cs.A.nrows
    · exact h i hi
    · unfold R1CSRow
      rw [Verif.mulVec_out wf.wfA _ (by omega), Verif.mulVec_out wf.wfB _ (by rw [wf.rowsB]; omega),
        Verif.mulVec_out wf.wfC _ (by rw [wf.rowsC]; omega), zero_mul]

/-- **C60** (shape of the R1CS for the digits). All three matrices have as many rows as asked for (or as before, if that is more), and
the public length does not change. -/
theorem C60_decomposed_square_shape (gad : Nat → Nat → SpMat R → SpMat R) (cs : R1CS R) (wf : R1CSWF cs) (n b k : Nat)
    (hgad : ∀ M ∈ [cs.A, cs.B, cs.C], (gad b k M).nrows = M.nrows) :
    (∀ M ∈ [(r1csDecomposedSquare gad cs n b k).A, (r1csDecomposedSquare gad cs n b k).B, (r1csDecomposedSquare gad cs n b k).C],
      M.nrows = max cs.A.nrows n) ∧ (r1csDecomposedSquare gad cs n b k).l = cs.l := by
  refine ⟨?_, rfl⟩
  unfold r1csDecomposedSquare
  intro M hM
  simp only [List.mem_cons, List.not_mem_nil, or_false] at hM
  rcases hM with rfl | rfl | rfl
  · rw [padRows_nrows, hgad cs.A (by simp)]
  · rw [padRows_nrows, hgad cs.B (by simp), wf.rowsB]
  · rw [padRows_nrows, hgad cs.C (by simp), wf.rowsC]

/-- Two rows `x_i^2 = x_i`. -/
def id2 : SpMat Example.R17 := ⟨2, 2, [[(1, 0)], [(1, 1)]]⟩

theorem id2_wf : id2.WF := by
  refine ⟨rfl, ?_⟩
  intro row hr t ht
  simp only [id2, List.mem_cons, List.not_mem_nil, or_false] at hr
  rcases hr with rfl | rfl <;> simp at ht <;> subst ht <;> decide

/-- The vector `(1, 0)` with the commitment matrix `(2, 5)`. -/
def com2 : ComR1CS Example.R17 :=
  ⟨⟨0, id2, id2, id2⟩, [1], commit ⟨1, 2, [[2, 5]]⟩ [1, 0], 0, [1, 0]⟩

theorem com2_shape : ComShape com2 :=
  ⟨⟨id2_wf, id2_wf, id2_wf, rfl, rfl, rfl, rfl⟩, rfl, by change 2 ≤ 2 ^ Nat.clog 2 2; decide, by decide⟩

example (T : Transcript (ZMod 17) Example.R17 σ) (s : σ) : ∃ lb proof s', com2.linearize T s = .ok ((lb, proof), s') ∧
    proof.verify T s = .ok (true, s') ∧ lb.f = [1, 0] ∧ lb.x.cmF = [2] := by
  obtain ⟨lb, proof, s', h1, h2, h3, h4⟩ := C60_complete T s com2 ⟨1, 2, [[2, 5]]⟩ com2_shape charGt17 (by unfold R1CSHolds R1CSRow; decide) rfl
  refine ⟨lb, proof, s', h1, h2, h3, ?_⟩
  rw [h4.cm, h3]
  decide

example : ∃ c, ComR1CS.new Example.plus17 ⟨0, id2, id2, id2⟩ [2, -1] 0 2 2 (⟨1, 4, [[1, 2, 3, 4]]⟩ : Mat Example.R17) = .ok c ∧
    c.f.length = 4 := by
  obtain ⟨c, h1, -, -, -, h2, -⟩ := C60_new Example.plus17 ⟨0, id2, id2, id2⟩ [2, -1] 0 (b := 2) (k := 2) (A := ⟨1, 4, [[1, 2, 3, 4]]⟩)
    ⟨rfl, by decide⟩ rfl (by decide) (by decide) (by decide) (by
      intro x hx i
      rw [Example.shortZ]
      simp only [List.mem_cons, List.not_mem_nil, or_false] at hx
      rcases hx with rfl | rfl <;> revert i <;> decide)
  exact ⟨c, h1, h2⟩

/-- With one digit and base one, the matrices themselves are decomposed matrices. -/
example : R1CSHolds (r1csDecomposedSquare (fun _ _ M => M) ⟨0, id2, id2, id2⟩ 4 1 1).A
    (r1csDecomposedSquare (fun _ _ M => M) ⟨0, id2, id2, id2⟩ 4 1 1).B
    (r1csDecomposedSquare (fun _ _ M => M) ⟨0, id2, id2, id2⟩ 4 1 1).C 4 [1, 0] :=
  (C60_decomposed_square_partial (fun _ _ M => M) ⟨0, id2, id2, id2⟩ ⟨id2_wf, id2_wf, id2_wf, rfl, rfl, rfl, rfl⟩ 4 1 1 [1, 0] [1, 0]
    (fun _ _ => ⟨rfl, fun _ => rfl⟩)).2 (by unfold R1CSHolds R1CSRow; decide)

example : (r1csDecomposedSquare (fun _ _ M => M) ⟨0, id2, id2, id2⟩ 4 1 1).B.nrows = 4 :=
  (C60_decomposed_square_shape (fun _ _ M => M) ⟨0, id2, id2, id2⟩ ⟨id2_wf, id2_wf, id2_wf, rfl, rfl, rfl, rfl⟩ 4 1 1
    (fun _ _ => rfl)).1 _ (by simp)

/-! ## C61 -/

/-- The interactive verifier with the tape `w` of its challenges accepts the prover with strategy `P`, whose claimed evaluations are those of
`A f`, `B f`, `C f` at the sum-check point. -/
def R1CSAccepted (nv : Nat) (A B C : SpMat R) (f : List R) (P : List F → List R) (w : List F) : Prop :=
  ∃ (proof : ComR1CSProof R) (s' : List F), proof.verify (coinT F R) w = .ok (true, s') ∧ proof.nvars = nv ∧
    proof.sumcheck = strategyProof (fun v => P (w.take nv ++ v)) (w.drop nv) ∧
    proof.va = mle (mulVec A f) ((w.drop nv).map (algebraMap F R)) ∧ proof.vb = mle (mulVec B f) ((w.drop nv).map (algebraMap F R)) ∧
    proof.vc = mle (mulVec C f) ((w.drop nv).map (algebraMap F R))

open Classical in
/-- **C61**: soundness of linearization as an interactive protocol. If `f` violates the R1CS in one of the `2^nv` rows, then for every
prover strategy the verifier accepts the evaluations of `A f`, `B f`, `C f` with at most a fraction `4 nv / |F|` of all challenge tapes. -/
theorem C61_sound [Fintype F] (nv : Nat) (hn : 1 ≤ nv) (hc : CharGt F 3) (A B C : SpMat R) (f : List R)
    (hbad : ∃ i < 2 ^ nv, ¬ R1CSRow A B C f i) (P : List F → List R) :
    (univ.filter fun w : Fin (nv + nv) → F => R1CSAccepted nv A B C f P (List.ofFn w)).card
      ≤ (nv + nv * 3) * Fintype.card F ^ (nv + nv - 1) := by
  set row : Nat → R := fun i => mulVec A f i * mulVec B f i - mulVec C f i with hrow
  have hbad' : ∃ i < 2 ^ nv, row i ≠ 0 := by
    obtain ⟨i, hi, h⟩ := hbad
    exact ⟨i, hi, fun h0 => h (sub_eq_zero.1 h0)⟩
  refine cnt_append_le (F := F) nv nv nv (nv * 3) hn hn (R1CSAccepted nv A B C f P) _ (cnt_mle_alg nv row hbad') ?_
  intro u hu hgood
  set beta := u.map (algebraMap F R) with hbeta
  have hbl : beta.length = nv := by simp [hbeta, hu]
  set g : List R → R := fun x => eqPoly beta x * (mle (mulVec A f) x * mle (mulVec B f) x - mle (mulVec C f) x) with hg
  have hdeg : PartialDeg nv 3 g := by
    have h1 := partialDeg_eqPoly beta
    rw [hbl] at h1
    exact h1.mul (((partialDeg_mle nv (mulVec A f)).mul (partialDeg_mle nv (mulVec B f))).sub ((partialDeg_mle nv (mulVec C f)).mono (by omega)))
  have hsound := C21_soundness (F := F) (R := R) nv 3 hn hc g hdeg 0 (by
    intro h
    apply hgood
    rw [h]
    rw [show mle row beta = ∑ i ∈ range (2 ^ beta.length), row i * eqWeight beta i from rfl, hbl]
    apply sum_congr rfl
    intro b hb
    have hb' := mem_range.1 hb
    have e1 : eqPoly beta (boolPoint nv b) = eqWeight beta b := by
      rw [eqPoly_comm _ _ (by rw [hbl, boolPoint_length]), eqPoly_boolPoint _ _ hb' _ hbl]
    have e2 : ∀ f : Nat → R, mle f (boolPoint nv b) = f b := fun f => mle_boolPoint f hb'
    simp only [hg, hrow]
    rw [e1, mul_comm]
    simp only [e2]) (fun v => P (u ++ v))
  have hsound' : cnt nv (fun v : List F => ∃ sc s', verifyAsSubprotocol (coinT F R) v nv 3 0
        (strategyProof (fun v => P (u ++ v)) v) = .ok (sc, s') ∧ sc.expectedEvaluation = g (sc.point.map (algebraMap F R)))
        ≤ nv * 3 * Fintype.card F ^ (nv - 1) := hsound
  refine le_trans (cnt_mono fun v hv h => ?_) hsound'
  obtain ⟨proof, s', h1, hnv, h2, ha, hb, hcc⟩ := h
  rw [List.drop_left' hu, List.take_left' hu] at h2
  rw [List.drop_left' hu] at ha hb hcc
  unfold ComR1CSProof.verify at h1
  rw [hnv, challenges_coin _ _ (by simp [hu]), List.take_left' hu, List.drop_left' hu] at h1
  simp only at h1
  obtain ⟨⟨sc, s2⟩, h3, h1⟩ := bind_eq_ok.1 h1
  rw [h2] at h3
  have h4 : verifyAsSubprotocol (coinT F R) v nv 3 0 (strategyProof (fun v => P (u ++ v)) v) = .ok (sc, s2) := by
    unfold unwrapRes at h3
    split at h3
    · next h => rw [h]; simpa using h3
    · simp at h3
  have hpt := verify_coin_point hn 0 _ v hv sc s2 h4
  refine ⟨sc, s2, h4, ?_⟩
  simp only at h1
  rw [eqEval_ok _ _ (by rw [List.length_map, List.length_map, hpt, hu, hv])] at h1
  simp only [unwrapRes, bind_ok'] at h1
  split_ifs at h1 with h5
  rw [← h5, ha, hb, hcc, hpt]

open Classical in
/-- `(2, 0)` violates `x^2 = x`: at most `68` of the `289` tapes are accepted. -/
example (P : List (ZMod 17) → List Example.R17) :
    (univ.filter fun w : Fin (1 + 1) → ZMod 17 => R1CSAccepted 1 id2 id2 id2 [2, 0] P (List.ofFn w)).card ≤ 68 := by
  have := C61_sound (F := ZMod 17) 1 le_rfl charGt17 id2 id2 id2 [2, 0] ⟨0, by decide, by unfold R1CSRow; decide⟩ P
  rw [ZMod.card] at this
  simpa using this

end Verif.Props
