import Verif.Lemmas.PlusFold
import Verif.Props.PlusCm
import Verif.Props.PlusR1CS

/-!
# Property theorems: decomposition, folding and the accumulation scheme of `latticefold-plus` (C62 - C65)
-/

set_option linter.unusedSectionVars false
set_option linter.unusedSimpArgs false

namespace Verif.Props

open Finset Verif Verif.Spec Verif.Plus

variable {F R σ : Type} {d : Nat}
variable [Field F] [CommRing R] [Algebra F R] [DecidableEq F] [DecidableEq R]

/-! ## C62 -/

/-- **C62**: completeness of the decomposition. A vector `f` with coefficients in the range of two balanced digits to base `B` is split into
`f0 + B f1` with coefficients bounded by `B / 2`; both halves come with their commitments and evaluations, and the proof is accepted for
the commitment and the evaluations of `f`. -/
theorem C62_complete (pr : PlusRing F R d) {f : List R} {r : List (R × R)} {M : List (SpMat R)} {A : Mat R} {B : Nat} (hA : A.WF)
    (hB : 2 ≤ B) (he : Even B) (hne : f ≠ []) (hAn : A.ncols = f.length) (hr : r.length = Nat.clog 2 f.length)
    (hf : ∀ x ∈ f, ∀ i, Short (B ^ 2) (pr.coeff x i))
    (hM : ∀ m ∈ M, m.WF ∧ m.ncols = f.length ∧ m.nrows ≤ 2 ^ Nat.clog 2 f.length) :
    ∃ l0 l1 proof, decompose pr f r M A B = .ok ((l0, l1), proof) ∧ addMul (B : R) l0.f l1.f = f ∧
      (∀ l ∈ [l0, l1], (∀ x ∈ l.f, ∀ i, Short B (pr.coeff x i)) ∧ l.x.r = r ∧
        LinValid A M (Nat.clog 2 f.length) f.length l.f l.x.cmF l.x.r l.x.v) ∧
      proof.C = (l0.x.cmF, l1.x.cmF) ∧ proof.v = (l0.x.v, l1.x.v) ∧
      decompVerify proof (commit A f) (evalPairs M r f) B = .ok () := by
  have hl : ∀ t, (digitVec pr B f t).length = f.length := fun t => by simp [digitVec]
  have hs := digitVec_sum pr hB he hf
  refine ⟨_, _, _, decompose_ok pr hA hB he hne hAn hr hf hM, hs, ?_, rfl, rfl, ?_⟩
  · intro l hll
    simp only [List.mem_cons, List.not_mem_nil, or_false] at hll
    rcases hll with rfl | rfl
    · exact ⟨digitVec_short pr hB he hf (by omega), rfl, hl 0, rfl, hr, rfl⟩
    · exact ⟨digitVec_short pr hB he hf (by omega), rfl, hl 1, rfl, hr, rfl⟩
  · rw [decompVerify_iff']
    constructor
    · rw [← commit_addMul A _ (by rw [hl, hl]), hs]
    · rw [← evalPairs_addMul M r _ (by rw [hl, hl]), hs]

/-- **C62**: what acceptance means. If the two halves of an accepted proof are the commitments and evaluations of `f0` and `f1`, then the
accepted commitment and evaluations are those of `f0 + B f1`. -/
theorem C62_sound {A : Mat R} {M : List (SpMat R)} {nv n : Nat} {f0 f1 : List R} {r v : List (R × R)} {cm : List R} {p : DecompProof R} {B : Nat}
    (h0 : LinValid A M nv n f0 p.C.1 r p.v.1) (h1 : LinValid A M nv n f1 p.C.2 r p.v.2) (h : decompVerify p cm v B = .ok ()) :
    LinValid A M nv n (addMul (B : R) f0 f1) cm r v := by
  rw [decompVerify_iff'] at h
  have hl : f0.length = f1.length := by rw [h0.len, h1.len]
  refine ⟨by rw [addMul_length _ hl, h0.len], ?_, h0.rlen, ?_⟩
  · rw [← h.1, h0.cm, h1.cm, commit_addMul A _ hl]
  · rw [← h.2, h0.v, h1.v, evalPairs_addMul M r _ hl]

/-- **C62**: the verifier compares only as many entries as both halves have: surplus entries of one half are ignored. -/
theorem C62_surplus_ignored (c0 c1 e : List R) (v0 v1 w : List (R × R)) (hc : c0.length = c1.length) (hv : v0.length = v1.length) (cm : List R)
    (v : List (R × R)) (B : Nat) : decompVerify ⟨(c0 ++ e, c1), (v0, v1 ++ w)⟩ cm v B = .ok () ↔ decompVerify ⟨(c0, c1), (v0, v1)⟩ cm v B = .ok () := by
  have key : ∀ {α : Type} (g : α → α → α) (a b e : List α), a.length = b.length → List.zipWith g (a ++ e) b = List.zipWith g a b := by
    intro α g a
    induction a with
    | nil => intro b e h; cases b with | nil => simp | cons x b => simp at h
    | cons x a ih => intro b e h; cases b with | nil => simp at h | cons y b => simp [ih b e (by simpa using h)]
  have key2 : ∀ {α : Type} (g : α → α → α) (a b e : List α), a.length = b.length → List.zipWith g a (b ++ e) = List.zipWith g a b := by
    intro α g a
    induction a with
    | nil => intro b e h; simp
    | cons x a ih => intro b e h; cases b with | nil => simp at h | cons y b => simp [ih b e (by simpa using h)]
  rw [decompVerify_iff', decompVerify_iff']
  unfold addMul addMulPair
  rw [key _ _ _ _ hc, key2 _ _ _ _ hv]

/-- `f = (3, -5)` to base four. -/
example : ∃ l0 l1 proof, decompose Example.plus17 [3, -5] [(2, 7)] [id2] ⟨1, 2, [[2, 5]]⟩ 4 = .ok ((l0, l1), proof) ∧
    addMul (4 : Example.R17) l0.f l1.f = [3, -5] ∧ decompVerify proof (commit ⟨1, 2, [[2, 5]]⟩ [3, -5]) (evalPairs [id2] [(2, 7)] [3, -5]) 4 = .ok () := by
  obtain ⟨l0, l1, proof, h1, h2, -, -, -, h3⟩ := C62_complete Example.plus17 (f := [3, -5]) (r := [(2, 7)]) (M := [id2]) (A := ⟨1, 2, [[2, 5]]⟩) (B := 4)
    ⟨rfl, by decide⟩ (by decide) (by decide) (by decide) rfl (by change 1 = Nat.clog 2 2; decide) (fun x _ i => short17 _)
    (by
      intro m hm
      obtain rfl := List.mem_singleton.1 hm
      exact ⟨id2_wf, rfl, by change 2 ≤ 2 ^ Nat.clog 2 2; decide⟩)
  exact ⟨l0, l1, proof, h1, h2, h3⟩

/-- `f = (3, 1) + 4 (2, 0)`. -/
example (h : decompVerify ⟨(commit ⟨1, 2, [[2, 5]]⟩ [3, 1], commit ⟨1, 2, [[2, 5]]⟩ [2, 0]),
    (evalPairs [id2] [(2, 7)] [3, 1], evalPairs [id2] [(2, 7)] [2, 0])⟩ cm v 4 = .ok ()) :
    LinValid (R := Example.R17) ⟨1, 2, [[2, 5]]⟩ [id2] 1 2 [11, 1] cm [(2, 7)] v := by
  have := C62_sound (nv := 1) (n := 2) (f0 := [3, 1]) (f1 := [2, 0]) (r := [(2, 7)]) ⟨rfl, rfl, rfl, rfl⟩ ⟨rfl, rfl, rfl, rfl⟩ h
  rwa [show addMul ((4 : Nat) : Example.R17) [3, 1] [2, 0] = [11, 1] by decide] at this

example : decompVerify (⟨([1, 2], [3]), ([(1, 1)], [(2, 2), (5, 5)])⟩ : DecompProof Example.R17) [7] [(5, 5)] 2 = .ok () :=
  (C62_surplus_ignored [1] [3] [2] [(1, 1)] [(2, 2)] [(5, 5)] rfl rfl [7] [(5, 5)] 2).2 (by decide)

/-! ## C63 -/

/-- The parameters of a fold of vectors of length `n`. -/
structure MlinParams (pr : PlusRing F R d) (T : Transcript F R σ) (A : Mat R) (n : Nat) (params : LinParams) (M : List (SpMat R)) : Prop where
  bytes : BytesOK T
  n2 : 2 ≤ n
  char : CharGt F 3
  wf : A.WF
  cols : A.ncols = n
  kappa : params.kappa = A.nrows
  b : params.decomp.b = d / 2
  b2 : 2 ≤ params.decomp.b
  even : Even params.decomp.b
  k : 1 ≤ params.decomp.k
  l : 1 ≤ params.decomp.l
  digits : ∀ a : F, Short (params.decomp.b ^ params.decomp.l) a
  mats : MatsOK F (Nat.clog 2 n) n M
  pow : M ≠ [] → n = 2 ^ Nat.clog 2 n
  size : A.nrows * params.decomp.k * d * params.decomp.l * d < n
  size2 : 2 ^ Nat.clog 2 A.nrows * params.decomp.k * d * params.decomp.l * d ≤ n

/-- A witness of a fold: the coefficients are in the range of the decomposition. -/
def WitOK (pr : PlusRing F R d) (n : Nat) (params : LinParams) (f : List R) : Prop :=
  f.length = n ∧ ∀ x ∈ f, ∀ i, Short (params.decomp.b ^ params.decomp.k) (pr.coeff x i)

theorem forall2_of_forall {α β : Type} {Q : α → β → Prop} {l : List α} (h : ∀ a ∈ l, ∃ b, Q a b) : ∃ bs, List.Forall₂ Q l bs := by
  induction l with
  | nil => exact ⟨[], .nil⟩
  | cons a l ih =>
    obtain ⟨b, hb⟩ := h a (by simp)
    obtain ⟨bs, hbs⟩ := ih fun a' ha => h a' (by simp [ha])
    exact ⟨b :: bs, .cons hb hbs⟩

theorem forall2_mem_right {α β : Type} {Q : α → β → Prop} {l : List α} {bs : List β} (h : List.Forall₂ Q l bs) {b : β} (hb : b ∈ bs) :
    ∃ a ∈ l, Q a b := by
  induction h with
  | nil => simp at hb
  | cons h1 _ ih =>
    rcases List.mem_cons.1 hb with rfl | hb
    · exact ⟨_, by simp, h1⟩
    · obtain ⟨a, ha, h⟩ := ih hb
      exact ⟨a, by simp [ha], h⟩

/-- **C63** (partial): completeness of the fold `Mlin::mlin`. For at least two matrices of monomials in total and witnesses in range, the fold
succeeds; the verifier of the commitment transformation accepts its proof with the same transcript state and computes the commitments
and evaluations of the folded vectors `gs` of the instances; the result of the fold is their sum `g`, together with its commitment and evaluations.
Every folded vector is the combination of C58 of the instance built from the witness. Left out, because it fails: see C58. -/
theorem C63_mlin_partial (pr : PlusRing F R d) (T : Transcript F R σ) (s : σ) {A : Mat R} {n : Nat} {params : LinParams} {M : List (SpMat R)}
    (hp : MlinParams pr T A n params M) (lins : List (LinB R)) (hw : ∀ l ∈ lins, WitOK pr n params l.f)
    (hcount : 2 ≤ params.decomp.k * lins.length) :
    ∃ lb proof s' x gs, mlin pr T s params lins A M = .ok ((lb, proof), s') ∧
      LinValid A M (Nat.clog 2 n) n lb.g lb.x.cmG lb.x.ro lb.x.vo ∧
      cmVerify pr T s M proof = .ok (x, s') ∧ x.ro = lb.x.ro ∧ x.cmG = gs.map (commit A) ∧ x.vo = gs.map (evalPairs M x.ro) ∧
      (∀ i, lb.g.getD i 0 = (gs.map fun g => g.getD i 0).sum) ∧
      (∃ s0 s1 s2 sp insts, ShortChallenges pr s0 s1 s2 sp ∧
        (∃ st, dcomVerify pr T s proof.dcom = .ok st ∧ ChallengesFrom pr T params.decomp.k st s0 s1 s2 sp) ∧
        List.Forall₂ (fun (l : LinB R) inst => fromF pr l.f A params.decomp = .ok inst) lins insts ∧
        gs = insts.map fun inst => (List.range n).map (foldedEntry d s0 s1 s2 sp inst)) ∧
      proof.dcom.fcoms.map (·.cmF) = lins.map fun l => commit A l.f := by
  have hd : 4 ≤ d := by have := hp.b; have := hp.b2; omega
  have h1 : ∀ l ∈ lins, ∃ inst, fromF pr l.f A params.decomp = .ok inst ∧ inst.f = l.f ∧ RgValid pr n params.decomp.k inst l.f ∧
      RgCommitted pr A params.decomp.k params.decomp.l inst ∧ inst.fcoms.cmF = commit A l.f ∧ ∀ x ∈ inst.tau, Short params.decomp.b x := by
    intro l hl
    obtain ⟨hlen, hsh⟩ := hw l hl
    have := C55_from_f pr hp.wf (by rw [hp.cols, hlen]) hp.b hp.b2 hp.even hp.k hp.l hsh hp.digits (by rw [hlen]; exact hp.size)
    rwa [hlen] at this
  obtain ⟨insts, hin⟩ := forall2_of_forall h1
  have hlen : insts.length = lins.length := hin.length_eq.symm
  have hne : 0 < lins.length := by
    rcases Nat.eq_zero_or_pos lins.length with h | h
    · rw [h] at hcount; simp at hcount
    · exact h
  obtain ⟨com, proof, s', g1, g2, ⟨s0, s1, s2, sp, hsc, hdr, g3⟩, g4, g5, g6, g7⟩ := C58_complete_partial pr T s A n ⟨Nat.clog 2 n, insts, params.decomp⟩ M
    { deg := by omega
      bytes := hp.bytes
      n2 := hp.n2
      nv := rfl
      char := hp.char
      k := hp.k
      l := hp.l
      count := by rw [hlen]; exact hcount
      valid := by
        intro inst hi
        obtain ⟨l, _, _, h2, h3, _⟩ := forall2_mem_right hin hi
        rw [h2]
        exact h3
      com := by
        intro inst hi
        obtain ⟨l, _, _, _, _, h4, _⟩ := forall2_mem_right hin hi
        exact h4
      cmF := by
        intro inst hi
        obtain ⟨l, _, _, h2, _, _, h5, _⟩ := forall2_mem_right hin hi
        rw [h2]
        exact h5
      Acols := hp.cols
      mats := hp.mats
      pow := hp.pow
      size := hp.size2 }
  have hgl : ∀ v ∈ com.g, v.length = n := by
    intro v hv
    rw [g3] at hv
    obtain ⟨inst, _, rfl⟩ := List.mem_map.1 hv
    simp
  have hmap : mapRes (fun lin : LinB R => fromF pr lin.f A params.decomp) lins = .ok insts := by
    rw [mapRes_eq_ok_iff]
    exact hin.imp fun _ _ h => h.1
  refine ⟨⟨sumVecs n com.g, ⟨sumVecs A.nrows com.x.cmG, com.x.ro, evalPairs M com.x.ro (sumVecs n com.g)⟩⟩, proof, s', com.x, com.g, ?_, ?_, g2,
    rfl, g4, g6, sumVecs_getD com.g hgl, ⟨s0, s1, s2, sp, insts, hsc, hdr, hin.imp fun _ _ h => h.1, g3⟩, ?_⟩
  · unfold mlin
    rw [idx_ok hne]
    simp only [bind_ok']
    rw [hmap]
    simp only [bind_ok']
    have hl0 : lins[0].f.length = n := (hw _ (List.getElem_mem hne)).1
    rw [hl0, g1]
    simp only [bind_ok']
    have hvo : 0 < com.x.vo.length := by
      rw [g6, g3]
      simpa [hlen] using hne
    rw [idx_ok hvo]
    simp only [bind_ok']
    have hvl : com.x.vo[0].length = M.length + 1 := by
      have hall : ∀ v ∈ com.x.vo, v.length = M.length + 1 := by
        rw [g6]
        intro v hv
        obtain ⟨g, _, rfl⟩ := List.mem_map.1 hv
        exact evalPairs_length _ _ _
      exact hall _ (List.getElem_mem hvo)
    rw [hvl]
    conv_lhs => rw [g6]
    rw [sumPairs_ok M com.x.ro com.g hgl]
    simp only [bind_ok']
    rw [hp.kappa]
  · refine ⟨sumVecs_length com.g hgl, ?_, g5, rfl⟩
    simp only
    rw [g4, commit_sum A com.g hgl]
  · rw [g7]
    simp only [List.map_map]
    have : ∀ (lins : List (LinB R)) (insts : List (RgInstance F R)), List.Forall₂ (fun (l : LinB R) inst => inst.fcoms.cmF = commit A l.f) lins insts →
        insts.map ((fun x => x.cmF) ∘ fun x => x.fcoms) = lins.map fun l => commit A l.f := by
      intro lins insts h
      induction h with
      | nil => rfl
      | cons h1 _ ih => simp [h1, ih]
    exact this lins insts (hin.imp fun _ _ h => h.2.2.2.2.1)

/-- **C63**: the claims of the instances do not take part. The fold of instances with the same witnesses is the same, whatever commitments,
points and evaluations the instances claim. -/
theorem C63_claims_unused (pr : PlusRing F R d) (T : Transcript F R σ) (s : σ) (A : Mat R) (params : LinParams) (M : List (SpMat R))
    (lins lins' : List (LinB R)) (h : lins.map (·.f) = lins'.map (·.f)) : mlin pr T s params lins A M = mlin pr T s params lins' A M := by
  have e1 : ∀ l : List (LinB R), mapRes (fun lin : LinB R => fromF pr lin.f A params.decomp) l
      = mapRes (fun f => fromF pr f A params.decomp) (l.map (·.f)) := by
    intro l
    rw [mapRes_map]
  cases lins with
  | nil =>
    cases lins' with
    | nil => rfl
    | cons a l => simp at h
  | cons a l =>
    cases lins' with
    | nil => simp at h
    | cons b m =>
      have hab : a.f = b.f := by simp only [List.map_cons, List.cons.injEq] at h; exact h.1
      unfold mlin
      rw [idx_ok (by simp), idx_ok (by simp)]
      simp only [bind_ok', List.getElem_cons_zero]
      rw [e1, e1, h, hab]

/-! The example: vectors of length 256 and the R1CS `x_0^2 = x_0`, `x_1^2 = x_1`. -/

/-- Two digits to base two, four digits for the commitments, decomposition to base four. -/
def params256 : PlusParams := ⟨⟨1, ⟨2, 2, 4⟩⟩, 4⟩

/-- A commitment matrix with one row and 256 columns. -/
def A256 : Mat Example.R17 := ⟨1, 256, [(List.range 256).map fun i : Nat => (i : Example.R17) + Example.plus17.X]⟩

/-- The vector `x, 0, 0, ..` of length `n + 1`. -/
def longN (n : Nat) (x : Example.R17) : List Example.R17 := x :: List.replicate n 0

theorem longN_length (n : Nat) (x : Example.R17) : (longN n x).length = n + 1 := by simp [longN]

theorem longN_succ (n : Nat) (x : Example.R17) (i : Nat) : (longN n x).getD (i + 1) 0 = 0 := by
  by_cases h : i < n <;> simp [longN, List.getD_eq_getElem?_getD, List.getElem?_replicate, h]

theorem longN_mem {n : Nat} {x y : Example.R17} (h : y ∈ longN n x) : y = x ∨ y = 0 := by
  simp only [longN, List.mem_cons, List.mem_replicate] at h
  rcases h with h | ⟨_, h⟩
  · exact .inl h
  · exact .inr h

/-- The vector `x, 0, 0, ..` of length 256. -/
def long256 (x : Example.R17) : List Example.R17 := longN 255 x

theorem long256_length (x : Example.R17) : (long256 x).length = 256 := longN_length 255 x

/-- The first two coordinates. -/
def id256 : SpMat Example.R17 := ⟨2, 256, [[(1, 0)], [(1, 1)]]⟩

theorem id256_wf : id256.WF := by
  refine ⟨rfl, ?_⟩
  intro row hr t ht
  simp only [id256, List.mem_cons, List.not_mem_nil, or_false] at hr
  rcases hr with rfl | rfl <;> simp at ht <;> subst ht <;> decide

theorem A256_wf : A256.WF := by
  refine ⟨rfl, ?_⟩
  intro r hr
  simp only [A256, List.mem_cons, List.not_mem_nil, or_false] at hr
  rw [hr, List.length_map, List.length_range]
  rfl

theorem id256_mul (f : List Example.R17) {i : Nat} (hi : i < 2) : mulVec id256 f i = f.getD i 0 := by
  unfold mulVec
  have e : ∀ j, entry id256 i j = if i = j then 1 else 0 := by
    intro j
    unfold entry id256
    obtain rfl | rfl : i = 0 ∨ i = 1 := by omega
    · by_cases h : 0 = j
      · subst h; simp
      · simp [h]
    · by_cases h : 1 = j
      · subst h; simp
      · simp [h]
  simp only [e, ite_mul, one_mul, zero_mul]
  rw [sum_ite_eq, if_pos (by rw [mem_range]; change i < 256; omega)]

theorem mlin256 (T : Transcript (ZMod 17) Example.R17 σ) (hT : BytesOK T) :
    MlinParams Example.plus17 T A256 256 params256.lin [id256, id256, id256] where
  bytes := hT
  n2 := by decide
  char := charGt17
  wf := A256_wf
  cols := rfl
  kappa := rfl
  b := rfl
  b2 := by decide
  even := by decide
  k := by decide
  l := by decide
  digits := short17
  mats := by
    intro m hm
    simp only [List.mem_cons, List.not_mem_nil, or_false, or_self] at hm
    subst hm
    refine ⟨id256_wf, rfl, by change 2 ≤ 2 ^ Nat.clog 2 256; decide, ?_⟩
    intro row hr t ht
    simp only [id256, List.mem_cons, List.not_mem_nil, or_false] at hr
    rcases hr with rfl | rfl <;> simp only [List.mem_cons, List.not_mem_nil, or_false] at ht <;> subst ht <;> exact ⟨1, by simp⟩
  pow := fun _ => by decide
  size := by simp [A256, params256]
  size2 := by simp [A256, params256]

theorem wit256 (x : Example.R17) (hx : ∀ i, 2 * (Example.plus17.coeff x i).valMinAbs.natAbs ≤ 4) :
    WitOK Example.plus17 256 params256.lin (long256 x) := by
  refine ⟨long256_length x, ?_⟩
  intro y hy i
  rw [Example.shortZ]
  rcases longN_mem hy with rfl | rfl
  · exact hx i
  · revert i
    decide

example (T : Transcript (ZMod 17) Example.R17 σ) (hT : BytesOK T) (s : σ) (x : LinBX Example.R17) : ∃ lb proof s',
    mlin Example.plus17 T s params256.lin [⟨long256 2, x⟩] A256 [id256, id256, id256] = .ok ((lb, proof), s') ∧
    lb.x.cmG = commit A256 lb.g := by
  obtain ⟨lb, proof, s', _, _, h1, h2, -⟩ := C63_mlin_partial Example.plus17 T s (mlin256 T hT) [⟨long256 2, x⟩] (by
    intro l hl
    obtain rfl := List.mem_singleton.1 hl
    exact wit256 2 (by decide)) (by change 2 ≤ 2 * 1; decide)
  exact ⟨lb, proof, s', h1, h2.cm⟩

/-- A true and a false claim about the same witness. -/
example (T : Transcript (ZMod 17) Example.R17 σ) (s : σ) :
    mlin Example.plus17 T s params256.lin [⟨long256 2, ⟨commit A256 (long256 2), [], []⟩⟩] A256 []
      = mlin Example.plus17 T s params256.lin [⟨long256 2, ⟨[5], [(1, 1)], [(3, 3)]⟩⟩] A256 [] :=
  C63_claims_unused Example.plus17 T s A256 _ [] _ _ (by simp only [List.map_cons, List.map_nil])

/-! ## C64 -/

theorem short_mono {B C : Nat} {x : F} (h : Short B x) (hBC : B ≤ C) : Short C x := by
  obtain ⟨n, h1, h2⟩ := h
  exact ⟨n, by omega, h2⟩

/-- A committed R1CS with a satisfying witness in range. -/
structure CompOK (pr : PlusRing F R d) (A : Mat R) (n : Nat) (params : LinParams) (c : ComR1CS R) : Prop where
  shape : ComShape c
  rel : R1CSHolds c.r1cs.A c.r1cs.B c.r1cs.C c.r1cs.A.nrows c.f
  cm : c.cmF = commit A c.f
  wit : WitOK pr n params c.f

/-- The folded witness of a call of `prove` with accumulated instances `acc` is in the range of the decomposition to base `B`. -/
def StepNorm (pr : PlusRing F R d) (T : Transcript F R σ) (A : Mat R) (M : List (SpMat R)) (params : PlusParams) (acc : List (LinB R)) (s : σ)
    (comp : List (ComR1CS R)) : Prop :=
  ∀ lbs lps s1 lb cp s2, linearizeAll (fun s c => ComR1CS.linearize T s c) comp s = .ok ((lbs, lps), s1) →
    mlin pr T s1 params.lin (acc ++ lbs) A M = .ok ((lb, cp), s2) → ∀ x ∈ lb.g, ∀ i, Short (params.B ^ 2) (pr.coeff x i)

theorem linearizeAll_ok (T : Transcript F R σ) (s : σ) {A : Mat R} (hc : CharGt F 3) (comp : List (ComR1CS R))
    (h : ∀ c ∈ comp, ComShape c ∧ R1CSHolds c.r1cs.A c.r1cs.B c.r1cs.C c.r1cs.A.nrows c.f ∧ c.cmF = commit A c.f) :
    ∃ lbs lps s1, linearizeAll (fun s c => ComR1CS.linearize T s c) comp s = .ok ((lbs, lps), s1) ∧
      verifyAll (fun s p => ComR1CSProof.verify T s p) lps s = .ok s1 ∧ lbs.map (·.f) = comp.map (·.f) := by
  induction comp generalizing s with
  | nil => exact ⟨[], [], s, rfl, rfl, rfl⟩
  | cons c cs ih =>
    obtain ⟨h1, h2, h3⟩ := h c (by simp)
    obtain ⟨lb, lp, s1, g1, g2, g3, -⟩ := C60_complete T s c A h1 hc h2 h3
    obtain ⟨lbs, lps, s2, k1, k2, k3⟩ := ih s1 fun c' hc' => h c' (by simp [hc'])
    refine ⟨lb :: lbs, lp :: lps, s2, ?_, ?_, by simp [g3, k3]⟩
    · unfold linearizeAll
      rw [g1]
      simp only [bind_ok']
      rw [k1]
      simp only [bind_ok']
    · unfold verifyAll
      rw [g2]
      simp only [bind_ok']
      exact k2

/-- One call of `prove`, given the linearizations: completeness, from the range of the witnesses. -/
theorem plusStep_lin (pr : PlusRing F R d) (T : Transcript F R σ) (s : σ) {A : Mat R} {n : Nat} {params : PlusParams} {M : List (SpMat R)}
    (hp : MlinParams pr T A n params.lin M) (hB : 2 ≤ params.B) (hBe : Even params.B) (acc : List (LinB R)) (comp : List (ComR1CS R))
    (hacc : ∀ l ∈ acc, WitOK pr n params.lin l.f) (hcomp : ∀ c ∈ comp, WitOK pr n params.lin c.f)
    (hcount : 2 ≤ params.lin.decomp.k * (acc.length + comp.length)) (hnorm : StepNorm pr T A M params acc s comp)
    {lbs : List (LinB R)} {lps : List (ComR1CSProof R)} {s1 : σ}
    (h1 : linearizeAll (fun s c => ComR1CS.linearize T s c) comp s = .ok ((lbs, lps), s1))
    (h2 : verifyAll (fun s p => ComR1CSProof.verify T s p) lps s = .ok s1) (h3 : lbs.map (·.f) = comp.map (·.f)) :
    ∃ proof l0 l1 s', plusProve pr T (fun s c => ComR1CS.linearize T s c) A M params acc s comp = .ok (proof, [l0, l1], s') ∧
      plusVerify pr T (fun s p => ComR1CSProof.verify T s p) M params s proof = .ok (true, s') ∧
      (∀ l ∈ [l0, l1], (∀ x ∈ l.f, ∀ i, Short params.B (pr.coeff x i)) ∧ l.x.r = proof.linb2x.ro ∧
        LinValid A M (Nat.clog 2 n) n l.f l.x.cmF l.x.r l.x.v) ∧
      LinValid A M (Nat.clog 2 n) n (addMul (params.B : R) l0.f l1.f) proof.linb2x.cmG proof.linb2x.ro proof.linb2x.vo := by
  have hlen : lbs.length = comp.length := by simpa using congrArg List.length h3
  have hwit : ∀ l ∈ acc ++ lbs, WitOK pr n params.lin l.f := by
    intro l hl
    rcases List.mem_append.1 hl with hl | hl
    · exact hacc l hl
    · have : l.f ∈ comp.map (·.f) := by rw [← h3]; exact List.mem_map.2 ⟨l, hl, rfl⟩
      obtain ⟨c, hc, hcf⟩ := List.mem_map.1 this
      rw [← hcf]
      exact hcomp c hc
  obtain ⟨lb, cp, s2, x, gs, k1, k2, k3, -⟩ := C63_mlin_partial pr T s1 hp (acc ++ lbs) hwit (by rw [List.length_append, hlen]; exact hcount)
  have hgne : lb.g ≠ [] := by
    intro h0
    have := k2.len
    rw [h0] at this
    have := hp.n2
    simp at *
    omega
  obtain ⟨l0, l1, dp, d1, d2, d3, d4, d5, d6⟩ := C62_complete pr (f := lb.g) (r := lb.x.ro) (M := M) hp.wf hB hBe hgne
    (by rw [hp.cols, k2.len]) (by rw [k2.rlen, k2.len]) (hnorm _ _ _ _ _ _ h1 k1)
    (by
      intro m hm
      rw [k2.len]
      exact ⟨(hp.mats m hm).1, (hp.mats m hm).2.1, (hp.mats m hm).2.2.1⟩)
  rw [k2.len] at d3
  refine ⟨⟨lb.x, lps, cp, dp⟩, l0, l1, s2, ?_, ?_, d3, ?_⟩
  · unfold plusProve
    rw [h1]
    simp only [bind_ok']
    rw [k1]
    simp only [bind_ok']
    rw [d1]
    simp only [bind_ok']
  · unfold plusVerify
    simp only
    rw [h2]
    simp only [bind_ok']
    rw [k3]
    simp only [unwrapRes, bind_ok']
    rw [k2.cm, k2.v, d6]
    rfl
  · rw [d2]
    exact k2

/-- One call of `prove`: completeness, from the range of the witnesses. -/
theorem plusStep (pr : PlusRing F R d) (T : Transcript F R σ) (s : σ) {A : Mat R} {n : Nat} {params : PlusParams} {M : List (SpMat R)}
    (hp : MlinParams pr T A n params.lin M) (hB : 2 ≤ params.B) (hBe : Even params.B) (acc : List (LinB R)) (comp : List (ComR1CS R))
    (hacc : ∀ l ∈ acc, WitOK pr n params.lin l.f) (hcomp : ∀ c ∈ comp, CompOK pr A n params.lin c)
    (hcount : 2 ≤ params.lin.decomp.k * (acc.length + comp.length)) (hnorm : StepNorm pr T A M params acc s comp) :
    ∃ proof l0 l1 s', plusProve pr T (fun s c => ComR1CS.linearize T s c) A M params acc s comp = .ok (proof, [l0, l1], s') ∧
      plusVerify pr T (fun s p => ComR1CSProof.verify T s p) M params s proof = .ok (true, s') ∧
      (∀ l ∈ [l0, l1], (∀ x ∈ l.f, ∀ i, Short params.B (pr.coeff x i)) ∧ l.x.r = proof.linb2x.ro ∧
        LinValid A M (Nat.clog 2 n) n l.f l.x.cmF l.x.r l.x.v) ∧
      LinValid A M (Nat.clog 2 n) n (addMul (params.B : R) l0.f l1.f) proof.linb2x.cmG proof.linb2x.ro proof.linb2x.vo := by
  obtain ⟨lbs, lps, s1, h1, h2, h3⟩ := linearizeAll_ok T s (A := A) hp.char comp
    fun c hc => ⟨(hcomp c hc).shape, (hcomp c hc).rel, (hcomp c hc).cm⟩
  exact plusStep_lin pr T s hp hB hBe acc comp hacc (fun c hc => (hcomp c hc).wit) hcount hnorm h1 h2 h3

/-- The folded witnesses of all calls are in the range of the decomposition to base `B`. -/
def NormRun (pr : PlusRing F R d) (T : Transcript F R σ) (A : Mat R) (M : List (SpMat R)) (params : PlusParams) :
    List (List (ComR1CS R)) → List (LinB R) → σ → Prop
  | [], _, _ => True
  | c :: cs, acc, s => StepNorm pr T A M params acc s c ∧
    ∀ p acc' s', plusProve pr T (fun s c => ComR1CS.linearize T s c) A M params acc s c = .ok (p, acc', s') →
      NormRun pr T A M params cs acc' s'

/-- **C64** (partial): completeness of the accumulation scheme over any number of calls. Starting from an accumulator of witnesses in range (empty
at first), if every call is given satisfied committed R1CS and the folded witnesses stay in the range of the decomposition, then all calls
of `PlusProver::prove` succeed, `PlusVerifier::verify` returns `true` for all proofs in order, both sides end in the same
transcript state, and the final accumulator consists of true instances with coefficients bounded by `B / 2`. That the folded witnesses stay in
range is assumed: the bound for products in the ring depends on the ring. Left out, because it fails: see C58. -/
theorem C64_complete_partial (pr : PlusRing F R d) (T : Transcript F R σ) (s : σ) {A : Mat R} {n : Nat} {params : PlusParams} {M : List (SpMat R)}
    (hp : MlinParams pr T A n params.lin M) (hB : 2 ≤ params.B) (hBe : Even params.B)
    (hBb : params.B ≤ params.lin.decomp.b ^ params.lin.decomp.k) (acc : List (LinB R)) (comps : List (List (ComR1CS R)))
    (hacc : ∀ l ∈ acc, WitOK pr n params.lin l.f ∧ LinValid A M (Nat.clog 2 n) n l.f l.x.cmF l.x.r l.x.v)
    (hcomp : ∀ comp ∈ comps, ∀ c ∈ comp, CompOK pr A n params.lin c)
    (hcount : ∀ comp ∈ comps, 2 ≤ params.lin.decomp.k * comp.length) (hnorm : NormRun pr T A M params comps acc s) :
    ∃ proofs acc' s', plusProveAll pr T (fun s c => ComR1CS.linearize T s c) A M params comps acc s = .ok (proofs, acc', s') ∧
      proofs.length = comps.length ∧
      plusVerifyAll pr T (fun s p => ComR1CSProof.verify T s p) M params proofs s = .ok (List.replicate comps.length true, s') ∧
      (∀ l ∈ acc', LinValid A M (Nat.clog 2 n) n l.f l.x.cmF l.x.r l.x.v) ∧
      (comps ≠ [] → acc'.length = 2 ∧ ∀ l ∈ acc', ∀ x ∈ l.f, ∀ i, Short params.B (pr.coeff x i)) := by
  induction comps generalizing acc s with
  | nil => exact ⟨[], acc, s, rfl, rfl, rfl, fun l hl => (hacc l hl).2, fun h => absurd rfl h⟩
  | cons comp comps ih =>
    obtain ⟨hn1, hn2⟩ := hnorm
    obtain ⟨proof, l0, l1, s1, g1, g2, g3, -⟩ := plusStep pr T s hp hB hBe acc comp (fun l hl => (hacc l hl).1) (hcomp comp (by simp))
      (le_trans (hcount comp (by simp)) (Nat.mul_le_mul_left _ (by omega))) hn1
    obtain ⟨proofs, acc', s', k1, k2, k3, k4, k5⟩ := ih s1 [l0, l1] (by
        intro l hl
        obtain ⟨e1, -, e3⟩ := g3 l hl
        exact ⟨⟨e3.len, fun x hx i => short_mono (e1 x hx i) hBb⟩, e3⟩) (fun c hc => hcomp c (by simp [hc])) (fun c hc => hcount c (by simp [hc]))
      (hn2 _ _ _ g1)
    refine ⟨proof :: proofs, acc', s', ?_, by simp [k2], ?_, k4, ?_⟩
    · unfold plusProveAll
      rw [g1]
      simp only [bind_ok']
      rw [k1]
      simp only [bind_ok']
    · unfold plusVerifyAll
      rw [g2]
      simp only [bind_ok']
      rw [k3]
      simp only [bind_ok']
      rfl
    · intro _
      cases comps with
      | nil =>
        simp only [plusProveAll, Except.ok.injEq, Prod.mk.injEq] at k1
        obtain ⟨-, rfl, -⟩ := k1
        exact ⟨rfl, fun l hl => (g3 l hl).1⟩
      | cons _ _ => exact k5 (by simp)

/-- The R1CS `x_0^2 = x_0`, `x_1^2 = x_1` with the witness `(1, 0, 0, ..)`. -/
def com256 : ComR1CS Example.R17 := ⟨⟨0, id256, id256, id256⟩, [], commit A256 (long256 1), 0, long256 1⟩

theorem com256_length : com256.f.length = 256 := by
  unfold com256
  exact long256_length 1

theorem com256_ok : CompOK Example.plus17 A256 256 params256.lin com256 where
  shape := ⟨⟨id256_wf, id256_wf, id256_wf, rfl, rfl, rfl, rfl⟩, com256_length.symm,
    by rw [com256_length]; change 2 ≤ 2 ^ Nat.clog 2 256; decide, by rw [com256_length]; decide⟩
  rel := by
    intro i hi
    change i < 2 at hi
    unfold R1CSRow com256
    simp only
    rw [id256_mul _ hi]
    obtain rfl | rfl : i = 0 ∨ i = 1 := by omega
    · change (1 : Example.R17) * 1 = 1
      rw [one_mul]
    · rw [show (long256 1).getD 1 0 = 0 from longN_succ 255 1 0, zero_mul]
  cm := by simp only [com256]
  wit := wit256 1 (by decide)

theorem norm256 (T : Transcript (ZMod 17) Example.R17 σ) (s : σ) (comps : List (List (ComR1CS Example.R17))) (acc : List (LinB Example.R17)) :
    NormRun Example.plus17 T A256 [id256, id256, id256] params256 comps acc s := by
  induction comps generalizing acc s with
  | nil => trivial
  | cons c cs ih => exact ⟨fun _ _ _ _ _ _ _ _ _ _ _ => short17 _, fun _ _ _ _ => ih _ _⟩

/-- Two calls: one computation, then two. -/
example (T : Transcript (ZMod 17) Example.R17 σ) (hT : BytesOK T) (s : σ) : ∃ proofs acc' s',
    plusProveAll Example.plus17 T (fun s c => ComR1CS.linearize T s c) A256 [id256, id256, id256] params256 [[com256], [com256, com256]] [] s
      = .ok (proofs, acc', s') ∧
    plusVerifyAll Example.plus17 T (fun s p => ComR1CSProof.verify T s p) [id256, id256, id256] params256 proofs s = .ok ([true, true], s') ∧
    acc'.length = 2 := by
  obtain ⟨proofs, acc', s', h1, -, h2, -, h3⟩ := C64_complete_partial Example.plus17 T s (mlin256 T hT) (by decide) (by decide) (by decide) []
    [[com256], [com256, com256]] (by simp) (by
      intro comp hcomp c hc
      simp only [List.mem_cons, List.not_mem_nil, or_false] at hcomp
      rcases hcomp with rfl | rfl <;> simp at hc <;> subst hc <;> exact com256_ok) (by
      intro comp hcomp
      simp only [List.mem_cons, List.not_mem_nil, or_false] at hcomp
      rcases hcomp with rfl | rfl <;> decide) (norm256 T s _ _)
  exact ⟨proofs, acc', s', h1, h2, (h3 (by simp)).1⟩

/-! ## C65 -/

/-- A sum-check proof for the claim zero, for which the remaining claim is zero as well. -/
theorem zero_sumcheck_plus (T : Transcript F R σ) (s : σ) (n deg : Nat) (hn : 1 ≤ n) (hd : 1 ≤ deg) (hc : CharGt F deg) :
    ∃ (proof : List (List R)) (sc : SubClaim F R) (s' : σ), verifyAsSubprotocol T s n deg (0 : R) proof = .ok (sc, s') ∧ sc.point.length = n ∧
      sc.expectedEvaluation = 0 := by
  obtain ⟨proof, pst, s', sc, vals, -, h3, -, -, -, h6, -, h8⟩ := C20_completeness (R := R) T s [] n deg (fun _ => .ok 0) (fun _ => 0) hn hd hc
    (by simp) (by intros; rfl) ((lineDeg_const _ 0 (0 : R)).mono (by omega))
  simp only [sum_const_zero] at h3
  refine ⟨proof, sc, s', h3, h6, ?_⟩
  simpa [eq_comm] using h8

/-- The combination with weights `s0, s1, s2` of the commitments in `fc`, entry by entry. -/
def combCom (s0 s1 s2 : R) (fc : FComs R) (i : Nat) : R := s0 * fc.CMf.getD i 0 + s1 * fc.cmMtau.getD i 0 + s2 * fc.cmF.getD i 0

theorem foldCm_target (s0 s1 s2 : R) (fc : FComs R) (t : List R) (h1 : fc.CMf.length = t.length) (h2 : fc.cmMtau.length = t.length)
    (h3 : fc.cmF.length = t.length) :
    foldCm s0 s1 s2 fc ((List.range t.length).map fun i => t.getD i 0 - combCom s0 s1 s2 fc i) = t := by
  unfold foldCm
  apply List.ext_getElem
  · simp [h1, h2, h3]
  · intro i g1 g2
    have e1 : i < fc.CMf.length := h1 ▸ g2
    have e2 : i < fc.cmMtau.length := h2 ▸ g2
    have e3 : i < fc.cmF.length := h3 ▸ g2
    simp [combCom, List.getD_eq_getElem?_getD, g2, e1, e2, e3]

/-- **C65**: `CmProof::verify` does not compare the number of instances of the range check with the number of commitments. For
arbitrary commitments and an arbitrary folded commitment for each there is a proof, without any evaluation in the range check, that the verifier
accepts with these folded commitments. -/
theorem C65_no_instances (pr : PlusRing F R d) (T : Transcript F R σ) (s : σ) (M : List (SpMat R)) (hd : 3 ≤ d) (hT : BytesOK T) (hc : CharGt F 3)
    (fcoms : List (FComs R)) (hne : fcoms ≠ []) (κ : Nat)
    (hf : ∀ fc ∈ fcoms, fc.CMf.length = κ ∧ fc.cmMtau.length = κ ∧ fc.cmF.length = κ)
    (target : FComs R → List R) (ht : ∀ fc ∈ fcoms, (target fc).length = κ) :
    ∃ proof x s', cmVerify pr T s M proof = .ok (x, s') ∧ proof.dcom.fcoms = fcoms ∧ proof.dcom.evals = [] ∧ x.cmG = fcoms.map target ∧
      proof.comh.map List.length = fcoms.map fun _ => κ := by
  set N := 2 ^ Nat.clog 2 κ * d with hN
  have hN1 : 1 ≤ N := Nat.mul_pos (by positivity) (by omega)
  obtain ⟨p0, sc0, s1, a1, a2, a3⟩ := zero_sumcheck_plus (R := R) T s N 3 hN1 (by omega) hc
  let out : SetOut F R := ⟨N, List.replicate N 0, p0, [[]], []⟩
  let dcom : Dcom F R := ⟨[], fcoms, out, ⟨0, 0, 0⟩⟩
  have hset : setVerify pr T s out = .ok (absorbSet T s1 [[]] []) := by
    unfold setVerify
    simp only [out]
    rw [idx_ok (by simp)]
    simp only [bind_ok', List.getElem_cons_zero, List.length_nil]
    have hdr : drawAll T N 0 0 s = (([], none), s) := rfl
    rw [hdr]
    simp only
    rw [a1]
    simp only [bind_ok']
    have hver : setVer pr [] [] [] none (sc0.point.map (algebraMap F R)) = .ok 0 := rfl
    rw [hver]
    simp only [bind_ok']
    rw [if_pos a3.symm]
  have hdc : dcomVerify pr T s dcom = .ok (absorbSet T s1 [[]] []) := by
    unfold dcomVerify
    simp only [dcom]
    rw [hset]
    rfl
  obtain ⟨ss, s2, b1, b2, -⟩ := shortChallenges_ok pr T hd hT 3 (absorbSet T s1 [[]] [])
  obtain ⟨c0, c1, c2, rfl⟩ : ∃ c0 c1 c2, ss = [c0, c1, c2] := by
    match ss, b2 with
    | [a, b, c], _ => exact ⟨a, b, c, rfl⟩
  let comhOne : FComs R → List R := fun fc => (List.range κ).map fun i => (target fc).getD i 0 - combCom c0 c1 c2 fc i
  let zq : InstanceEvals R := List.replicate (1 + M.length) ⟨0, 0, 0, 0⟩
  let evs : List (InstanceEvals R) := fcoms.map fun _ => zq
  have hevone : ∀ (zi : Nat) (rc eq t0 t1 : R) (p : InstanceEvals R × Nat), p.1 = zq → evalOne M.length zi rc eq t0 t1 p = .ok 0 := by
    intro zi rc eq t0 t1 p hp
    unfold evalOne
    simp only [hp]
    rw [mapRes_ok (g := fun _ => 0), bind_ok', idx_ok (by simp [zq]), bind_ok']
    · simp [zq]
    · intro i hi
      rw [idx_ok (by simpa [zq] using hi), bind_ok']
      simp [zq, claimQuad]
  have hsc : ∀ (s : σ) (us : List (List R)) (tc0 tc1 tz0 tz1 : List R), tz0.length ≤ 2 ^ N → tz1.length ≤ 2 ^ N →
      ∃ proof ro s', cmVerifySumcheck T s dcom evs.length M.length us tc0 tc1 tz0 tz1 proof evs = .ok (ro, s') := by
    intro s us tc0 tc1 tz0 tz1 h0 h1
    rcases hch : T.challenge s with ⟨rc, s'⟩
    obtain ⟨p, sc, s'', e1, e2, e3⟩ := zero_sumcheck_plus (R := R) T s' N 2 hN1 (by omega) (fun m h1 h2 => hc m h1 (by omega))
    refine ⟨p, sc.point.map (algebraMap F R), absorbQuads T s'' evs, ?_⟩
    unfold cmVerifySumcheck
    rw [hch]
    simp only [dcom, out, List.zipIdx_nil, mapRes, bind_ok', List.sum_nil]
    rw [e1]
    simp only [unwrapRes, bind_ok']
    rw [evalVec_ok N tz0 _ h0 (by rw [List.length_map, e2]), bind_ok', evalVec_ok N tz1 _ h1 (by rw [List.length_map, e2]), bind_ok',
      eqEval_ok _ _ (by simp [e2])]
    simp only [bind_ok']
    rw [mapRes_ok (g := fun _ => 0), bind_ok', if_pos]
    · simp [e3]
    · intro p hp
      apply hevone
      have := List.fst_mem_of_mem_zipIdx hp
      obtain ⟨_, _, h⟩ := List.mem_map.1 this
      exact h.symm
  have hcomh : fcoms.map comhOne ≠ [] := by simpa using hne
  have hl0 : ((fcoms.map comhOne)[0]'(List.length_pos_iff.2 hcomh)).length = κ := by
    have : ∀ c ∈ fcoms.map comhOne, c.length = κ := by
      intro c hc
      obtain ⟨fc, _, rfl⟩ := List.mem_map.1 hc
      simp [comhOne]
    exact this _ (List.getElem_mem _)
  set t1 := absorbComh T s2 (fcoms.map comhOne) with ht1
  rcases hq0 : T.challenges (Nat.clog 2 κ) t1 with ⟨q0, t2⟩
  rcases hq1 : T.challenges (Nat.clog 2 κ) t2 with ⟨q1, t3⟩
  have hlen : ∀ (m : Nat) (s : σ) (q : List F) (s' : σ), T.challenges m s = (q, s') → q.length = m := by
    intro m s q s' h
    have := challenges_length T m s
    rw [h] at this
    exact this
  have htz : ∀ q : List F, q.length = Nat.clog 2 κ →
      (calculateTz (q.map (algebraMap F R)) [] (dPowers (F := F) R d 0) (xPowers pr)).length ≤ 2 ^ N := by
    intro q hq
    have hx : xPowers pr ≠ [] := by
      intro h
      have := congrArg List.length h
      simp [xPowers] at this
      omega
    have e : ∀ a : List R, tensorProduct a [] = a := by
      intro a
      unfold tensorProduct
      cases a <;> simp
    unfold calculateTz
    rw [show dPowers (F := F) R d 0 = [] from rfl, e, e, tensorProduct_length _ _ (tensor_ne _) hx, tensor_length, List.length_map, hq]
    rw [show (xPowers pr).length = d by simp [xPowers], ← hN]
    exact Nat.lt_two_pow_self.le
  obtain ⟨pA, roA, t4, hA⟩ := hsc t3 ((List.range evs.length).map (uOf 0 [] dcom.out.e))
    ((fcoms.map comhOne).map fun com => dot (tensor (q0.map (algebraMap F R))) com)
    ((fcoms.map comhOne).map fun com => dot (tensor (q1.map (algebraMap F R))) com) _ _ (htz q0 (hlen _ _ _ _ hq0)) (htz q1 (hlen _ _ _ _ hq1))
  obtain ⟨pB, roB, t5, hB⟩ := hsc t4 ((List.range evs.length).map (uOf 0 [] dcom.out.e))
    ((fcoms.map comhOne).map fun com => dot (tensor (q0.map (algebraMap F R))) com)
    ((fcoms.map comhOne).map fun com => dot (tensor (q1.map (algebraMap F R))) com) _ _ (htz q0 (hlen _ _ _ _ hq0)) (htz q1 (hlen _ _ _ _ hq1))
  have hx : ∃ x, CmProof.x (⟨dcom, fcoms.map comhOne, (pA, pB), (evs, evs)⟩ : CmProof F R) [c0, c1, c2] (roA.zip roB) = .ok x ∧
      x.cmG = fcoms.map target := by
    refine ⟨⟨fcoms.map target, roA.zip roB, (List.range fcoms.length).map fun _ => (zq.zip zq).map fun q =>
      (foldQuad c0 c1 c2 q.1, foldQuad c0 c1 c2 q.2)⟩, ?_, rfl⟩
    unfold CmProof.x
    simp only [dcom]
    rw [idx_ok (by simp), bind_ok', idx_ok (by simp), bind_ok', idx_ok (by simp), bind_ok']
    simp only [List.getElem_cons_zero, List.getElem_cons_succ]
    have h1 : mapRes (fun q : FComs R × Nat => do
        let ch ← idx "comh[l]" (fcoms.map comhOne) q.2
        .ok (foldCm c0 c1 c2 q.1 ch)) fcoms.zipIdx = .ok (fcoms.map target) := by
      rw [mapRes_ok (g := fun q => target q.1)]
      · congr 1
        have := List.map_map (g := target) (f := Prod.fst) (l := fcoms.zipIdx)
        rw [List.zipIdx_map_fst] at this
        exact this.symm
      · rintro ⟨fc, l⟩ hq
        have hm := List.mem_zipIdx hq
        have hlt : l < fcoms.length := by simpa using hm.2.1
        have hfc : fc = fcoms[l] := by simpa using hm.2.2
        have hfm : fc ∈ fcoms := by rw [hfc]; exact List.getElem_mem hlt
        rw [idx_ok (by simpa using hlt)]
        simp only [bind_ok', List.getElem_map]
        rw [← hfc]
        have := foldCm_target c0 c1 c2 fc (target fc) (by rw [(hf fc hfm).1, ht fc hfm]) (by rw [(hf fc hfm).2.1, ht fc hfm])
          (by rw [(hf fc hfm).2.2, ht fc hfm])
        rw [ht fc hfm] at this
        simp only [comhOne]
        rw [this]
    rw [h1, bind_ok', mapRes_ok (g := fun _ => (zq.zip zq).map fun q => (foldQuad c0 c1 c2 q.1, foldQuad c0 c1 c2 q.2)), bind_ok']
    intro l hl
    have hl' : l < evs.length := by simpa [evs] using hl
    rw [idx_ok hl', bind_ok', idx_ok hl', bind_ok']
    simp [evs]
  obtain ⟨x, hx1, hx2⟩ := hx
  refine ⟨⟨dcom, fcoms.map comhOne, (pA, pB), (evs, evs)⟩, x, t5, ?_, rfl, rfl, hx2, by simp only [List.map_map]; exact List.map_congr_left fun _ _ => by simp [comhOne]⟩
  unfold cmVerify
  simp only
  rw [hdc]
  simp only [unwrapRes, bind_ok']
  rw [b1]
  simp only [bind_ok']
  have hsp : sPrime pr T dcom.dparams.k s2 = .ok ([], s2) := rfl
  rw [hsp]
  simp only [bind_ok']
  rw [← ht1, idx_ok (List.length_pos_iff.2 hcomh)]
  simp only [bind_ok']
  rw [hl0, hq0]
  simp only
  rw [hq1]
  simp only [List.flatten_nil]
  have hk : dcom.dparams.k = 0 := rfl
  have hl : dcom.dparams.l = 0 := rfl
  rw [hk, hl, hA]
  simp only [bind_ok']
  rw [hB]
  simp only [bind_ok']
  rw [hx1]
  simp only [bind_ok']

/-- **C65** (partial): what an accepted proof says about the folded commitments. There is one for every commitment of the range check, and it is
`s0 C_Mf + s1 cm_mtau + s2 cm_f + comh` with three challenges and the vector `comh` sent by the prover. Missing, because it fails: that
`comh` is tied to the matrices of monomials, see `C65_no_instances`. -/
theorem C65_statement_partial (pr : PlusRing F R d) (T : Transcript F R σ) (s : σ) (M : List (SpMat R)) (proof : CmProof F R) (x : ComX R) (s' : σ)
    (h : cmVerify pr T s M proof = .ok (x, s')) :
    proof.dcom.fcoms.length ≤ proof.comh.length ∧ x.cmG.length = proof.dcom.fcoms.length ∧ ∃ s0 s1 s2 : R, ∀ l, ∀ hl : l < proof.dcom.fcoms.length,
      ∀ κ, (proof.comh.getD l []).length = κ → (proof.dcom.fcoms[l]).CMf.length = κ → (proof.dcom.fcoms[l]).cmMtau.length = κ →
        (proof.dcom.fcoms[l]).cmF.length = κ →
        x.cmG.getD l [] = (List.range κ).map fun i => s0 * (proof.dcom.fcoms[l]).CMf.getD i 0 + s1 * (proof.dcom.fcoms[l]).cmMtau.getD i 0
          + s2 * (proof.dcom.fcoms[l]).cmF.getD i 0 + (proof.comh.getD l []).getD i 0 := by
  unfold cmVerify at h
  simp only at h
  obtain ⟨_, -, h⟩ := bind_eq_ok.1 h
  obtain ⟨⟨ss, _⟩, -, h⟩ := bind_eq_ok.1 h
  obtain ⟨⟨sp, _⟩, -, h⟩ := bind_eq_ok.1 h
  obtain ⟨_, -, h⟩ := bind_eq_ok.1 h
  obtain ⟨⟨ro0, _⟩, -, h⟩ := bind_eq_ok.1 h
  obtain ⟨⟨ro1, _⟩, -, h⟩ := bind_eq_ok.1 h
  obtain ⟨x', hx, h⟩ := bind_eq_ok.1 h
  simp only [Except.ok.injEq, Prod.mk.injEq] at h
  obtain ⟨rfl, -⟩ := h
  unfold CmProof.x at hx
  obtain ⟨s0, -, hx⟩ := bind_eq_ok.1 hx
  obtain ⟨s1, -, hx⟩ := bind_eq_ok.1 hx
  obtain ⟨s2, -, hx⟩ := bind_eq_ok.1 hx
  obtain ⟨cmG, hc, hx⟩ := bind_eq_ok.1 hx
  obtain ⟨vo, -, hx⟩ := bind_eq_ok.1 hx
  simp only [Except.ok.injEq] at hx
  subst hx
  have hlen := mapRes_length hc
  rw [List.length_zipIdx] at hlen
  rw [mapRes_eq_ok_iff] at hc
  have key : ∀ l (hl : l < proof.dcom.fcoms.length), ∃ hl' : l < proof.comh.length, cmG[l]? = some (foldCm s0 s1 s2 proof.dcom.fcoms[l] proof.comh[l]) := by
    intro l hl
    have h1 := hc.get (i := l) (by rw [List.length_zipIdx]; exact hl) (by rw [hlen]; exact hl)
    simp only [List.get_eq_getElem, List.getElem_zipIdx, Nat.zero_add] at h1
    obtain ⟨ch, h2, h3⟩ := bind_eq_ok.1 h1
    simp only [Except.ok.injEq] at h3
    have hl' : l < proof.comh.length := by
      by_contra hn
      simp [idx, List.getElem?_eq_none (Nat.le_of_not_lt hn)] at h2
    rw [idx_ok hl'] at h2
    simp only [Except.ok.injEq] at h2
    refine ⟨hl', ?_⟩
    rw [List.getElem?_eq_getElem (by rw [hlen]; exact hl), ← h3, ← h2]
  refine ⟨?_, hlen, s0, s1, s2, ?_⟩
  · by_contra hn
    obtain ⟨hl', -⟩ := key proof.comh.length (by omega)
    omega
  · intro l hl κ h1 h2 h3 h4
    obtain ⟨hl', hk⟩ := key l hl
    have e1 : cmG.getD l [] = foldCm s0 s1 s2 proof.dcom.fcoms[l] proof.comh[l] := by rw [List.getD_eq_getElem?_getD, hk, Option.getD_some]
    have e2 : proof.comh.getD l [] = proof.comh[l] := by simp [List.getD_eq_getElem?_getD, hl']
    rw [e2] at h1 ⊢
    simp only
    rw [e1]
    unfold foldCm
    apply List.ext_getElem
    · simp [h1, h2, h3, h4]
    · intro i g1 g2
      have hi : i < κ := by simpa using g2
      simp [List.getD_eq_getElem?_getD, hi, h1, h2, h3, h4]

/-- From the commitments `1`, `2`, `3` and `comh = 4` the folded commitment is `2 s0 + 3 s1 + s2 + 4`. -/
example (T : Transcript (ZMod 17) Example.R17 σ) (s : σ) (proof : CmProof (ZMod 17) Example.R17) (x : ComX Example.R17) (s' : σ)
    (hf : proof.dcom.fcoms = [⟨[1], [2], [3]⟩]) (hh : proof.comh = [[4]]) (h : cmVerify Example.plus17 T s [id256] proof = .ok (x, s')) :
    ∃ s0 s1 s2 : Example.R17, x.cmG = [[s0 * 2 + s1 * 3 + s2 * 1 + 4]] := by
  obtain ⟨-, h2, s0, s1, s2, h3⟩ := C65_statement_partial Example.plus17 T s [id256] proof x s' h
  refine ⟨s0, s1, s2, ?_⟩
  have h4 := h3 0 (by simp [hf]) 1 (by simp [hh]) (by simp [hf]) (by simp [hf]) (by simp [hf])
  simp only [hf, hh, List.length_singleton] at h2 h4
  rw [List.length_eq_one_iff] at h2
  obtain ⟨a, ha⟩ := h2
  rw [ha] at h4 ⊢
  simpa using h4

/-- The folded commitment `5`, from the commitments `1, 2, 3`. -/
example (T : Transcript (ZMod 17) Example.R17 σ) (hT : BytesOK T) (s : σ) : ∃ proof x s',
    cmVerify Example.plus17 T s [id256] proof = .ok (x, s') ∧ proof.dcom.fcoms = [⟨[1], [2], [3]⟩] ∧ x.cmG = [[5]] := by
  obtain ⟨proof, x, s', h1, h2, -, h3, -⟩ := C65_no_instances Example.plus17 T s [id256] (by decide) hT charGt17 [⟨[1], [2], [3]⟩] (by simp) 1 (by simp)
    (fun _ => [5]) (by simp)
  exact ⟨proof, x, s', h1, h2, h3⟩

/-! ## C66 -/

/-- A proof of linearization that is accepted whatever the R1CS, with an arbitrary evaluation `v`. -/
theorem zero_linearization (T : Transcript F R σ) (s : σ) (nv : Nat) (hn : 1 ≤ nv) (hc : CharGt F 3) (r : List R) (v : R) :
    ∃ (p : ComR1CSProof R) (s' : σ), p.verify T s = .ok (true, s') ∧ p.nvars = nv ∧ p.r = r ∧ p.v = v := by
  rcases hch : T.challenges nv s with ⟨q, s1⟩
  have hq : q.length = nv := by
    have := challenges_length T nv s
    rw [hch] at this
    exact this
  obtain ⟨pr, sc, s2, h1, h2, h3⟩ := zero_sumcheck_plus (R := R) T s1 nv 3 hn (by omega) hc
  refine ⟨⟨pr, nv, r, v, 0, 0, 0⟩, T.absorbSlice s2 [v, 0, 0, 0], ?_, rfl, rfl, rfl⟩
  unfold ComR1CSProof.verify
  simp only
  rw [hch]
  simp only
  rw [h1]
  simp only [unwrapRes, bind_ok']
  rw [eqEval_ok _ _ (by rw [List.length_map, List.length_map, hq, h2])]
  simp only [bind_ok']
  rw [if_pos (by rw [h3]; ring)]

theorem zero_linearizations (T : Transcript F R σ) (s : σ) (hc : CharGt F 3) (nvs : List Nat) (hn : ∀ nv ∈ nvs, 1 ≤ nv) :
    ∃ (ps : List (ComR1CSProof R)) (s' : σ), verifyAll (fun s p => ComR1CSProof.verify T s p) ps s = .ok s' ∧ ps.map (·.nvars) = nvs := by
  induction nvs generalizing s with
  | nil => exact ⟨[], s, rfl, rfl⟩
  | cons nv nvs ih =>
    obtain ⟨p, s1, h1, h2, -⟩ := zero_linearization (R := R) T s nv (hn nv (by simp)) hc [] 0
    obtain ⟨ps, s2, h3, h4⟩ := ih s1 fun m hm => hn m (by simp [hm])
    refine ⟨p :: ps, s2, ?_, by simp [h2, h4]⟩
    unfold verifyAll
    rw [h1]
    simp only [bind_ok']
    exact h3

/-- **C66** is false for `PlusVerifier::verify`: it accepts any folded instance. For every instance `linb2x`, every list of commitments and
every number of linearization proofs (for any number of variables) there is an accepted proof that contains them. -/
theorem C66_any_instance_accepted (pr : PlusRing F R d) (T : Transcript F R σ) (s : σ) (M : List (SpMat R)) (params : PlusParams) (hd : 3 ≤ d)
    (hT : BytesOK T) (hc : CharGt F 3) (linb2x : LinB2X R) (nvs : List Nat) (hn : ∀ nv ∈ nvs, 1 ≤ nv) (fcoms : List (FComs R)) (hne : fcoms ≠ [])
    (κ : Nat) (hf : ∀ fc ∈ fcoms, fc.CMf.length = κ ∧ fc.cmMtau.length = κ ∧ fc.cmF.length = κ) :
    ∃ proof s', plusVerify pr T (fun s p => ComR1CSProof.verify T s p) M params s proof = .ok (true, s') ∧ proof.linb2x = linb2x ∧
      proof.lproof.map (·.nvars) = nvs ∧ proof.cmproof.dcom.fcoms = fcoms := by
  obtain ⟨ps, s1, h1, h2⟩ := zero_linearizations (R := R) T s hc nvs hn
  obtain ⟨cp, x, s2, h3, h4, -⟩ := C65_no_instances pr T s1 M hd hT hc fcoms hne κ hf (fun _ => List.replicate κ 0) (by simp)
  refine ⟨⟨linb2x, ps, cp, ⟨(linb2x.cmG, linb2x.cmG.map fun _ => 0), (linb2x.vo, linb2x.vo.map fun _ => (0, 0))⟩⟩, s2, ?_, rfl, h2, h4⟩
  unfold plusVerify
  simp only
  rw [h1]
  simp only [bind_ok']
  rw [h3]
  simp only [unwrapRes, bind_ok']
  have : decompVerify (⟨(linb2x.cmG, linb2x.cmG.map fun _ => 0), (linb2x.vo, linb2x.vo.map fun _ => (0, 0))⟩ : DecompProof R) linb2x.cmG
      linb2x.vo params.B = .ok () := by
    rw [decompVerify_iff']
    constructor
    · have := addMul_map (params.B : R) id (fun _ => 0) linb2x.cmG
      simpa using this
    · have := addMulPair_map (params.B : R) id (fun _ => (0, 0)) linb2x.vo
      simpa using this
  rw [this]
  rfl

/-- **C66** fails also for true folded instances: the R1CS is not enforced. For arbitrary witnesses in range, whether they satisfy any R1CS or
not, there is an accepted proof in which the commitments are those of the witnesses, the linearization proofs are as many as wanted, the folded
instance is exactly the sum of the instances that the verifier computes, and the folded instance and both new accumulated
instances are true. -/
theorem C66_r1cs_not_enforced (pr : PlusRing F R d) (T : Transcript F R σ) (s : σ) {A : Mat R} {n : Nat} {params : PlusParams} {M : List (SpMat R)}
    (hp : MlinParams pr T A n params.lin M) (hB : 2 ≤ params.B) (hBe : Even params.B) (fs : List (List R))
    (hw : ∀ f ∈ fs, WitOK pr n params.lin f) (hcount : 2 ≤ params.lin.decomp.k * fs.length)
    (hnorm : ∀ s1 lb cp s2, mlin pr T s1 params.lin (fs.map fun f => ⟨f, ⟨[], [], []⟩⟩) A M = .ok ((lb, cp), s2) →
      ∀ x ∈ lb.g, ∀ i, Short (params.B ^ 2) (pr.coeff x i)) (nvs : List Nat) (hn : ∀ nv ∈ nvs, 1 ≤ nv) :
    ∃ (proof : PlusProof F R (ComR1CSProof R)) (l0 l1 : LinB R) (s1 : σ) (x : ComX R) (gs : List (List R)) (s' : σ), plusVerify pr T (fun s p => ComR1CSProof.verify T s p) M params s proof = .ok (true, s') ∧
      proof.lproof.map (·.nvars) = nvs ∧ proof.cmproof.dcom.fcoms.map (·.cmF) = fs.map (commit A) ∧
      cmVerify pr T s1 M proof.cmproof = .ok (x, s') ∧ proof.linb2x.ro = x.ro ∧ x.cmG = gs.map (commit A) ∧ x.vo = gs.map (evalPairs M x.ro) ∧
      (∀ i, (addMul (params.B : R) l0.f l1.f).getD i 0 = (gs.map fun g => g.getD i 0).sum) ∧
      LinValid A M (Nat.clog 2 n) n (addMul (params.B : R) l0.f l1.f) proof.linb2x.cmG proof.linb2x.ro proof.linb2x.vo ∧
      proof.dproof.C = (l0.x.cmF, l1.x.cmF) ∧ proof.dproof.v = (l0.x.v, l1.x.v) ∧
      ∀ l ∈ [l0, l1], (∀ x ∈ l.f, ∀ i, Short params.B (pr.coeff x i)) ∧ l.x.r = proof.linb2x.ro ∧
        LinValid A M (Nat.clog 2 n) n l.f l.x.cmF l.x.r l.x.v := by
  obtain ⟨ps, s1, h1, h2⟩ := zero_linearizations (R := R) T s hp.char nvs hn
  obtain ⟨lb, cp, s2, x, gs, k1, k2, k3, k4, k5, k6, k7, -, k8⟩ := C63_mlin_partial pr T s1 hp (fs.map fun f => ⟨f, ⟨[], [], []⟩⟩) (by
    intro l hl
    obtain ⟨f, hf, rfl⟩ := List.mem_map.1 hl
    exact hw f hf) (by simpa using hcount)
  have hgne : lb.g ≠ [] := by
    intro h0
    have := k2.len
    rw [h0] at this
    have := hp.n2
    simp at *
    omega
  obtain ⟨l0, l1, dp, d1, d2, d3, d4, d5, d6⟩ := C62_complete pr (f := lb.g) (r := lb.x.ro) (M := M) hp.wf hB hBe hgne
    (by rw [hp.cols, k2.len]) (by rw [k2.rlen, k2.len]) (hnorm _ _ _ _ k1)
    (by
      intro m hm
      rw [k2.len]
      exact ⟨(hp.mats m hm).1, (hp.mats m hm).2.1, (hp.mats m hm).2.2.1⟩)
  rw [k2.len] at d3
  refine ⟨⟨lb.x, ps, cp, dp⟩, l0, l1, s1, x, gs, s2, ?_, h2, ?_, k3, k4.symm, k5, k6, by rw [d2]; exact k7, by rw [d2]; exact k2, d4, d5, d3⟩
  · unfold plusVerify
    simp only
    rw [h1]
    simp only [bind_ok']
    rw [k3]
    simp only [unwrapRes, bind_ok']
    rw [k2.cm, k2.v, d6]
    rfl
  · rw [k8]
    simp [List.map_map, Function.comp_def]

/-- **C66** (partial): what acceptance means. The verifier returns `true` or does not return; it returns `true` exactly if the linearization proofs and
the proof of the commitment transformation verify in this order and the two parts of the decomposition recombine to the folded instance. Missing,
because it fails: that the folded instance has anything to do with the statement computed by the commitment transformation, and that its
witnesses satisfy the linearized R1CS. -/
theorem C66_verify_iff_partial {P : Type} (pr : PlusRing F R d) (T : Transcript F R σ) (lverify : σ → P → Res (Bool × σ)) (s : σ) (M : List (SpMat R))
    (params : PlusParams) (proof : PlusProof F R P) (b : Bool) (s' : σ) :
    plusVerify pr T lverify M params s proof = .ok (b, s') ↔ b = true ∧ ∃ s1 x, verifyAll lverify proof.lproof s = .ok s1 ∧
      cmVerify pr T s1 M proof.cmproof = .ok (x, s') ∧ addMul (params.B : R) proof.dproof.C.1 proof.dproof.C.2 = proof.linb2x.cmG ∧
      addMulPair (params.B : R) proof.dproof.v.1 proof.dproof.v.2 = proof.linb2x.vo := by
  unfold plusVerify
  constructor
  · intro h
    obtain ⟨s1, h1, h⟩ := bind_eq_ok.1 h
    obtain ⟨⟨x, s2⟩, h2, h⟩ := bind_eq_ok.1 h
    obtain ⟨_, h3, h⟩ := bind_eq_ok.1 h
    simp only [Except.ok.injEq, Prod.mk.injEq] at h
    obtain ⟨rfl, rfl⟩ := h
    have h2' : cmVerify pr T s1 M proof.cmproof = .ok (x, s2) := by
      unfold unwrapRes at h2
      split at h2
      · next h => rw [h]; simpa using h2
      · simp at h2
    exact ⟨rfl, s1, x, h1, h2', (decompVerify_iff' _ _ _ _).1 h3⟩
  · rintro ⟨rfl, s1, x, h1, h2, h3⟩
    rw [h1]
    simp only [bind_ok']
    rw [h2]
    simp only [unwrapRes, bind_ok']
    rw [(decompVerify_iff' _ _ _ _).2 h3]
    rfl

/-- A proof in which the recombined commitment is not the folded one is not accepted. -/
example (T : Transcript (ZMod 17) Example.R17 σ) (s : σ) (cp : CmProof (ZMod 17) Example.R17) (b : Bool) (s' : σ) :
    plusVerify Example.plus17 T (fun s (p : ComR1CSProof Example.R17) => p.verify T s) [] params256 s
      ⟨⟨[9], [], []⟩, [], cp, ⟨([1], [1]), ([], [])⟩⟩ ≠ .ok (b, s') := by
  rw [Ne, C66_verify_iff_partial]
  rintro ⟨-, _, _, -, -, h, -⟩
  revert h
  change ¬ ([1 + ((4 : Nat) : Example.R17) * 1] = [9])
  decide

/-- The folded instance with commitment `9` and evaluations `4` and `5`. -/
example (T : Transcript (ZMod 17) Example.R17 σ) (hT : BytesOK T) (s : σ) : ∃ proof s',
    plusVerify Example.plus17 T (fun s p => ComR1CSProof.verify T s p) [id256, id256, id256] params256 s proof = .ok (true, s') ∧
    proof.linb2x = ⟨[9], [(1, 1)], [(4, 5)]⟩ ∧ proof.lproof.map (·.nvars) = [8] := by
  obtain ⟨proof, s', h1, h2, h3, -⟩ := C66_any_instance_accepted Example.plus17 T s [id256, id256, id256] params256 (by decide) hT charGt17
    ⟨[9], [(1, 1)], [(4, 5)]⟩ [8] (by simp) [⟨[1], [2], [3]⟩] (by simp) 1 (by simp)
  exact ⟨proof, s', h1, h2, h3⟩

/-- The witness `(2, 0, 0, ..)` violates `x_0^2 = x_0`. -/
example (T : Transcript (ZMod 17) Example.R17 σ) (hT : BytesOK T) (s : σ) : ¬ R1CSHolds id256 id256 id256 2 (long256 2) ∧ ∃ proof s',
    plusVerify Example.plus17 T (fun s p => ComR1CSProof.verify T s p) [id256, id256, id256] params256 s proof = .ok (true, s') ∧
    proof.lproof.map (·.nvars) = [8] ∧ proof.cmproof.dcom.fcoms.map (·.cmF) = [commit A256 (long256 2)] := by
  constructor
  · intro h
    have := h 0 (by omega)
    unfold R1CSRow at this
    rw [id256_mul _ (by omega)] at this
    revert this
    change ¬ ((2 : Example.R17) * 2 = 2)
    decide
  · obtain ⟨proof, _, _, _, _, _, s', h1, h2, h3, -⟩ := C66_r1cs_not_enforced Example.plus17 T s (mlin256 T hT) (by decide) (by decide) [long256 2] (by
      intro f hf
      obtain rfl := List.mem_singleton.1 hf
      exact wit256 2 (by decide)) (by decide) (fun _ _ _ _ _ _ _ _ => short17 _) [8] (by simp)
    exact ⟨proof, s', h1, h2, by simpa using h3⟩

end Verif.Props
