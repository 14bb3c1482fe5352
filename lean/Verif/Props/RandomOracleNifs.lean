import Verif.Lemmas.Parse
import Verif.Props.RandomOracleFold
import Verif.Props.DecExtract
import Verif.Props.ExampleRing257

/-!
# C95: a whole folding step with the challenges of a random oracle
-/

set_option linter.unusedSectionVars false
set_option linter.unusedSimpArgs false

namespace Verif.Props

open Finset Spec Verif

variable {Fp F C : Type} {N τ : Nat} [Field Fp] [Field F] [DecidableEq F] [Algebra Fp F] [CommRing C]
  [Algebra Fp C]

/-- Sizes of a decomposition proof: `K` entries in every component, statements of `l + 1` elements, commitments of `κ` elements,
`|M|` and `t` evaluations. -/
structure DecFits {R : Type} (P : Params) (ccs : CCS R) (κ t : Nat) (p : DecProof R) : Prop where
  x : p.xS.length = P.K ∧ ∀ a ∈ p.xS, a.length = ccs.l + 1
  y : p.yS.length = P.K ∧ ∀ a ∈ p.yS, a.val.length = κ
  u : p.uS.length = P.K ∧ ∀ a ∈ p.uS, a.length = ccs.M.length
  v : p.vS.length = P.K ∧ ∀ a ∈ p.vS, a.length = t

/-- Sizes of the inputs of the folding step. -/
structure StepFits {R : Type} (P : Params) (ccs : CCS R) (κ t : Nat) (acc : LCCCS R) (cm : CCCS R) (proof : LFProof R) : Prop where
  r : acc.r.length = ccs.s
  x : cm.x_ccs.length = ccs.l
  cm : cm.cm.val.length = κ
  decL : DecFits P ccs κ t proof.decL
  decR : DecFits P ccs κ t proof.decR

/-- The list of witnesses has the coefficients `w` when recombined with the powers of `b`. -/
def Recombined (P : Params) (ws : List (Witness (Fin N → F) C)) (w : Witness (Fin N → F) C) : Prop :=
  ∀ j, w.fCoeff.getD j 0 = ∑ k ∈ range P.K, (P.bSmall : C) ^ k * (ws.getD k ⟨[], [], [], []⟩).fCoeff.getD j 0

/-- What a verified folding step is supposed to guarantee, with the openings `op` of the commitments: the opening of the fresh
commitment opens it and satisfies the CCS relation; the recombined openings of the left pieces are a witness below `b^K` of the
accumulator; all pieces but the last are below `b` and the slot sums of the last vanish. -/
structure StepValid (rd : RingData Fp F C N τ) (P : Params) (ccs : CCS (Fin N → F)) (scheme : Ajtai (Fin N → F))
    (op : Commitment (Fin N → F) → Witness (Fin N → F) C) (acc : LCCCS (Fin N → F)) (cm : CCCS (Fin N → F))
    (proof : LFProof (Fin N → F)) : Prop where
  opens : scheme.commit (op cm.cm).f = .ok cm.cm
  holds : CCSHolds ccs (cm.x_ccs ++ [1] ++ (op cm.cm).wCcs)
  acc : ∃ w, Recombined P (proof.decL.yS.map op) w ∧ LcccsHolds rd P ccs scheme acc w ∧ WitBelow rd (P.bSmall ^ P.K) w
  below : ∀ (k : Nat) (y : Commitment (Fin N → F)), k < 2 * P.K - 1 → (proof.decL.yS ++ proof.decR.yS)[k]? = some y →
    WitBelow rd P.bSmall (op y)
  slots : ∀ y, (proof.decL.yS ++ proof.decR.yS)[2 * P.K - 1]? = some y → SlotSumsVanish rd P.bSmall (op y)

/-- With the oracle `O`, the adversary `A` outputs a history `h0` of length `L0`, an accumulator, a fresh statement and a proof of the
right sizes which the verifier started at `h0` accepts. The openings `op` of the commitments in the proof open them, the last
evaluations of the proof are those of these openings, and the openings of the right pieces recombine to that of the fresh commitment
(otherwise there are two openings of the same commitment). Yet what the step should guarantee is violated. -/
def StepForged (rd : RingData Fp F C N τ) (P : Params) (cs : ChallengeSet C) (ccs : CCS (Fin N → F)) (scheme : Ajtai (Fin N → F))
    (κ L0 : Nat) (op : Commitment (Fin N → F) → Witness (Fin N → F) C) (B : History F (Fin N → F) → Nat → List UInt8)
    (A : Alg (History F (Fin N → F)) F
      (History F (Fin N → F) × LCCCS (Fin N → F) × CCCS (Fin N → F) × LFProof (Fin N → F)))
    (O : History F (Fin N → F) → F) : Prop :=
  ∃ h0 acc cm proof st s', A.run O = (h0, acc, cm, proof) ∧ h0.length = L0 ∧ StepFits P ccs κ τ acc cm proof ∧
    nifsVerify rd P cs (oracleT O B) h0 acc cm proof ccs = .ok (st, s') ∧
    (∀ y ∈ proof.decL.yS ++ proof.decR.yS, scheme.commit (op y).f = .ok y) ∧
    proof.fold.thetaS = ((proof.decL.yS ++ proof.decR.yS).map fun y => (op y).fHat.map fun m => mle m.get st.r) ∧
    proof.fold.etaS = List.zipWith (fun x y => ccs.M.map fun M => mle (mulVec M (x ++ (op y).wCcs)) st.r)
      (proof.decL.xS ++ proof.decR.xS) (proof.decL.yS ++ proof.decR.yS) ∧
    Recombined P (proof.decR.yS.map op) (op cm.cm) ∧ ¬ StepValid rd P ccs scheme op acc cm proof

/-! ### The histories -/

section
variable {R : Type} [CommRing R] [Algebra F R]

/-- The history after the public input. -/
def stepH1 (h0 : History F R) (acc : LCCCS R) (cm : CCCS R) : History F R :=
  cm.x_ccs.reverse.map .elem ++ (cm.cm.val.reverse.map .elem ++ labelled "cm_i" (.elem acc.h ::
    (acc.x_w.reverse.map .elem ++ (acc.u.reverse.map .elem ++ (acc.cm.val.reverse.map .elem ++ (acc.v.reverse.map .elem ++
      (acc.r.reverse.map .elem ++ labelled "acc" h0)))))))

theorem stepH1_eq (O : History F R → F) (B : History F R → Nat → List UInt8) (h0 : History F R) (acc : LCCCS R) (cm : CCCS R) :
    absorbPublicInput (oracleT O B) h0 acc cm = stepH1 h0 acc cm := by
  unfold absorbPublicInput
  simp only [absorbSlice_oracle]
  rfl

/-- The pieces of a decomposition proof. -/
def piecesOf (p : DecProof R) : List (Piece R) := ((p.xS.zip p.yS).zip p.uS).zip p.vS

theorem piecesOf_length {P : Params} {ccs : CCS R} {κ t : Nat} {p : DecProof R} (h : DecFits P ccs κ t p) : (piecesOf p).length = P.K := by
  simp [piecesOf, h.x.1, h.y.1, h.u.1, h.v.1]

theorem piecesOf_fits {P : Params} {ccs : CCS R} {κ t : Nat} {p : DecProof R} (h : DecFits P ccs κ t p) :
    ∀ q ∈ piecesOf p, PieceFits (ccs.l + 1) κ ccs.M.length t q := by
  rintro ⟨⟨⟨x, y⟩, u⟩, v⟩ hq
  have h1 := List.of_mem_zip hq
  have h2 := List.of_mem_zip h1.1
  have h3 := List.of_mem_zip h2.1
  exact ⟨h.x.2 _ h3.1, h.y.2 _ h3.2, h.u.2 _ h2.2, h.v.2 _ h1.2⟩

theorem piecesOf_x {P : Params} {ccs : CCS R} {κ t : Nat} {p : DecProof R} (h : DecFits P ccs κ t p) :
    (piecesOf p).map (fun q => q.1.1.1) = p.xS := by
  apply List.ext_getElem?
  intro k
  by_cases hk : k < P.K
  · rw [List.getElem?_map, List.getElem?_eq_getElem (by rw [piecesOf_length h]; exact hk),
      List.getElem?_eq_getElem (by rw [h.x.1]; exact hk)]
    simp [piecesOf]
  · rw [List.getElem?_eq_none (by rw [List.length_map, piecesOf_length h]; omega),
      List.getElem?_eq_none (by rw [h.x.1]; omega)]

theorem piecesOf_y {P : Params} {ccs : CCS R} {κ t : Nat} {p : DecProof R} (h : DecFits P ccs κ t p) :
    (piecesOf p).map (fun q => q.1.1.2) = p.yS := by
  apply List.ext_getElem?
  intro k
  by_cases hk : k < P.K
  · rw [List.getElem?_map, List.getElem?_eq_getElem (by rw [piecesOf_length h]; exact hk),
      List.getElem?_eq_getElem (by rw [h.y.1]; exact hk)]
    simp [piecesOf]
  · rw [List.getElem?_eq_none (by rw [List.length_map, piecesOf_length h]; omega),
      List.getElem?_eq_none (by rw [h.y.1]; omega)]

/-- Lengths in the decomposed statement. -/
theorem dec_lengths [DecidableEq R] {σ : Type} {P : Params} (hK : 1 ≤ P.K) {ccs : CCS R} {κ t : Nat} {T : Transcript F R σ} {s s' : σ}
    {cmi : LCCCS R} {p : DecProof R} {l : List (LCCCS R)} (h : DecFits P ccs κ t p) (hd : decVerify P T s cmi p = .ok (l, s')) :
    cmi.cm.val.length = κ ∧ cmi.v.length = t ∧ cmi.u.length = ccs.M.length ∧ cmi.x_w.length = ccs.l := by
  obtain ⟨-, ⟨-, -, y1, -⟩, ⟨-, v1, -, -⟩, ⟨-, u1, -, -⟩, ⟨-, x1, -, -⟩, -⟩ := (C31_verify_iff P T s s' cmi p l).1 hd
  have hg : ∀ {α : Type} (L : List α) (d : α), L.length = P.K → L.getD 0 d ∈ L := by
    intro α L d hL
    rw [List.getD_eq_getElem?_getD, List.getElem?_eq_getElem (by omega), Option.getD_some]
    exact List.getElem_mem _
  rw [h.y.2 _ (hg _ _ h.y.1)] at y1
  rw [h.v.2 _ (hg _ _ h.v.1)] at v1
  rw [h.u.2 _ (hg _ _ h.u.1)] at u1
  rw [h.x.2 _ (hg _ _ h.x.1)] at x1
  refine ⟨y1, v1, u1, ?_⟩
  simpa using x1

/-- Statements and history after a decomposition. -/
theorem dec_run [DecidableEq R] {P : Params} {O : History F R → F} {B : History F R → Nat → List UInt8} {h s' : History F R}
    {cmi : LCCCS R} {p : DecProof R} {l : List (LCCCS R)} (hd : decVerify P (oracleT O B) h cmi p = .ok (l, s')) :
    l = (piecesOf p).map (pieceSt cmi.r) ∧ s' = (piecesOf p).foldl pieceH h := by
  obtain ⟨-, -, -, -, -, -, rfl, rfl⟩ := (C31_verify_iff P _ h s' cmi p l).1 hd
  refine ⟨rfl, ?_⟩
  unfold piecesOf
  congr 1
  funext s q
  simp only [absorbSlice_oracle]
  rfl

end

/-- The vector of the fresh statement, read from the history after the public input. -/
def readZ (κ l : Nat) (op : Commitment (Fin N → F) → Witness (Fin N → F) C) (h : History F (Fin N → F)) : List (Fin N → F) :=
  readSlice l h ++ [1] ++ (op ⟨readSlice κ (h.drop l)⟩).wCcs

/-- The statements folded, read from the history before folding. -/
def readCms (P : Params) (ccs : CCS (Fin N → F)) (κ t L0 : Nat) (h : History F (Fin N → F)) : List (LCCCS (Fin N → F)) :=
  (readPieces (ccs.l + 1) κ ccs.M.length t P.K (h.drop (P.K * (ccs.l + 1 + κ + ccs.M.length + t)))).map
      (pieceSt (readSlice ccs.s (h.drop (h.length - (L0 + 1 + ccs.s))))) ++
    (readPieces (ccs.l + 1) κ ccs.M.length t P.K h).map
      (pieceSt (((drawsOf (h.take (h.length - L0))).drop ccs.s).map (algebraMap F (Fin N → F))))

/-- The challenges of the verifier of a folding step. -/
def stepA (P : Params) (ccs : CCS (Fin N → F))
    (out : History F (Fin N → F) × LCCCS (Fin N → F) × CCCS (Fin N → F) × LFProof (Fin N → F)) :
    Alg (History F (Fin N → F)) F (List F × History F (Fin N → F)) :=
  Alg'.bind (linA ccs (stepH1 out.1 out.2.1 out.2.2.1) out.2.2.2.lin) fun r =>
    foldA P ccs ((piecesOf out.2.2.2.decR).foldl pieceH ((piecesOf out.2.2.2.decL).foldl pieceH
      (out.2.2.2.lin.u.reverse.map .elem ++ (out.2.2.2.lin.v.reverse.map .elem ++ r.2)))) out.2.2.2.fold

/-- Length of the history after the public input. -/
def stepL1 (ccs : CCS (Fin N → F)) (κ t L0 : Nat) : Nat := L0 + (ccs.s + t + 2 * κ + ccs.M.length + 2 * ccs.l + 3)

/-- Length of the history before folding. -/
def stepL2 (P : Params) (ccs : CCS (Fin N → F)) (κ t L0 : Nat) : Nat :=
  stepL1 ccs κ t L0 + (3 + ccs.s + ccs.s * (ccs.d + 4)) + t + ccs.M.length + 2 * (P.K * (ccs.l + 1 + κ + ccs.M.length + t))

theorem witOK_wCcs {rd : RingData Fp F C N τ} {P : Params} {wl : Nat} {w w' : Witness (Fin N → F) C} (h : WitOK rd P wl w)
    (h' : WitOK rd P wl w') (e : ∀ j, w.fCoeff.getD j 0 = w'.fCoeff.getD j 0) : w.f = w'.f ∧ w.wCcs = w'.wCcs := by
  have hc : w.fCoeff = w'.fCoeff := by
    by_contra hne
    obtain ⟨j, _, hj⟩ := list_ne_getD _ _ (by rw [h.flen, h'.flen]) hne
    exact hj (sub_eq_zero.2 (e j))
  have hf : w.f = w'.f := by rw [h.f, h'.f, hc]
  refine ⟨hf, ?_⟩
  by_contra hne
  obtain ⟨j, hj, hjn⟩ := list_ne_getD _ _ (by rw [h.wlen, h'.wlen]) hne
  rw [h.wlen] at hj
  exact hjn (sub_eq_zero.2 (by rw [h.w j hj, h'.w j hj, hf]))

theorem zipWith_self_map {α β γ : Type} (f : α → β → γ) (g : α → β) (l : List α) :
    List.zipWith f l (l.map g) = l.map fun a => f a (g a) := by
  induction l with
  | nil => rfl
  | cons a l ih => rw [List.map_cons, List.zipWith_cons_cons, ih, List.map_cons]

/-- An accepted forgery shows a bad answer, of linearization or of folding. -/
theorem step_bad [Fintype F] (rd : RingData Fp F C N τ) (P : Params) (hK : 1 ≤ P.K) (hb : 1 ≤ P.bSmall) (cs : ChallengeSet C)
    (ccs : CCS (Fin N → F)) (scheme : Ajtai (Fin N → F)) (hS : SizesOK P ccs scheme) (hc : CharGt F (2 * P.bSmall))
    (hcd : CharGt F (ccs.d + 1)) (hF : ccs.s + max τ ccs.M.length < Fintype.card F) (κ : Nat)
    (op : Commitment (Fin N → F) → Witness (Fin N → F) C) (hop : ∀ y, WitOK rd P (ccs.n - ccs.l - 1) (op y))
    (B : History F (Fin N → F) → Nat → List UInt8) (O : History F (Fin N → F) → F) (h0 s' : History F (Fin N → F))
    (acc : LCCCS (Fin N → F)) (cm : CCCS (Fin N → F)) (proof : LFProof (Fin N → F)) (st : LCCCS (Fin N → F))
    (hfit : StepFits P ccs κ τ acc cm proof)
    (hver : nifsVerify rd P cs (oracleT O B) h0 acc cm proof ccs = .ok (st, s'))
    (hopen : ∀ y ∈ proof.decL.yS ++ proof.decR.yS, scheme.commit (op y).f = .ok y)
    (hth : proof.fold.thetaS = ((proof.decL.yS ++ proof.decR.yS).map fun y => (op y).fHat.map fun m => mle m.get st.r))
    (het : proof.fold.etaS = List.zipWith (fun x y => ccs.M.map fun M => mle (mulVec M (x ++ (op y).wCcs)) st.r)
      (proof.decL.xS ++ proof.decR.xS) (proof.decL.yS ++ proof.decR.yS))
    (hrec : Recombined P (proof.decR.yS.map op) (op cm.cm)) (hbad : ¬ StepValid rd P ccs scheme op acc cm proof) :
    ∃ x ∈ Alg'.asked O (stepA P ccs (h0, acc, cm, proof)),
      (x.length < stepL2 P ccs κ τ h0.length ∧ O x ∈ rbrBad (stepL1 ccs κ τ h0.length) ccs.s ccs.s (ccs.d + 1) (ccs.d + 1)
        (fun b p => mle (ccsRow ccs (readZ κ ccs.l op b)) (p.map (algebraMap F (Fin N → F))))
        (fun b p x => if p.length = ccs.s then linFn ccs (readZ κ ccs.l op b) (p.map (algebraMap F (Fin N → F))) x else 0) x) ∨
      (stepL2 P ccs κ τ h0.length ≤ x.length ∧ O x ∈ rbrBad (stepL2 P ccs κ τ h0.length) (6 * P.K - 1 + ccs.s) ccs.s (2 * P.bSmall)
        (max (max τ ccs.M.length) (2 * P.bSmall))
        (fun b => foldG0 P ccs (readCms P ccs κ τ h0.length b, (readCms P ccs κ τ h0.length b).map fun st => op st.cm))
        (fun b => foldF0 P ccs (readCms P ccs κ τ h0.length b, (readCms P ccs κ τ h0.length b).map fun st => op st.cm)) x) := by
  classical
  have sh := hS.sh
  unfold nifsVerify at hver
  simp only [bind_eq_ok] at hver
  obtain ⟨-, -, ⟨lin, s1⟩, hlin, ⟨l, s2⟩, hdl, ⟨r, s3⟩, hdr, hfold⟩ := hver
  simp only at hlin hdl hdr hfold
  rw [stepH1_eq] at hlin
  obtain ⟨aκ, av, au, ax⟩ := dec_lengths hK hfit.decL hdl
  obtain ⟨-, lv, lu, -⟩ := dec_lengths hK hfit.decR hdr
  obtain ⟨ov, oc, ou, ox, oh⟩ := linVerify_out _ _ _ _ _ _ _ hlin
  rw [ov] at lv
  rw [ou] at lu
  set h1 := stepH1 h0 acc cm with hh1
  have hL1 : h1.length = stepL1 ccs κ τ h0.length := by
    simp only [hh1, stepH1, stepL1, labelled, List.length_append, List.length_map, List.length_reverse, List.length_cons, aκ, av, au, ax,
      hfit.r, hfit.cm, hfit.x]
    omega
  obtain ⟨q1, q2, q3, q4, q5, q6, q7⟩ := lin_run ccs sh B O h1 s1 cm proof.lin lin (by omega) hlin
  obtain ⟨rfl, rfl⟩ := dec_run hdl
  obtain ⟨rfl, rfl⟩ := dec_run hdr
  set h2 := (piecesOf proof.decR).foldl pieceH ((piecesOf proof.decL).foldl pieceH s1) with hh2
  have fL := piecesOf_fits hfit.decL
  have fR := piecesOf_fits hfit.decR
  have nL := piecesOf_length hfit.decL
  have nR := piecesOf_length hfit.decR
  have hL2 : h2.length = stepL2 P ccs κ τ h0.length := by
    rw [hh2, pieces_length _ fR, pieces_length _ fL, nL, nR, q3]
    simp only [List.length_append, List.length_map, List.length_reverse, q4, lv, lu, hL1, stepL2]
    ring
  have hs1 : s1.length ≤ h2.length := by
    rw [hh2, pieces_length _ fR, pieces_length _ fL]
    omega
  set cms := (piecesOf proof.decL).map (pieceSt acc.r) ++ (piecesOf proof.decR).map (pieceSt lin.r) with hcms
  -- reading the statements back
  have hAt : ∃ beta : List F, beta.length = ccs.s ∧ At h0.length h2 h0 (beta ++ ((linA ccs h1 proof.lin).run O).1) := by
    have H0 : At h0.length h1 h0 [] := by
      refine At.slice (At.slice (At.label (At.elem (At.slice (At.slice (At.slice (At.slice (At.slice (At.label (At.start h0) _) _) _) _) _) _) _) _) _) _
    obtain ⟨beta, hbl, H1⟩ := q7 H0
    refine ⟨beta, hbl, ?_⟩
    rw [List.nil_append] at H1
    exact (H1.pieces _).pieces _
  have hsuf : (acc.r.reverse.map Entry.elem ++ labelled "acc" h0) <:+ h2 := by
    refine List.IsSuffix.trans ?_ ((pieces_suffix _ _).trans (pieces_suffix _ _))
    refine List.IsSuffix.trans ?_ q5
    rw [hh1]
    unfold stepH1
    refine List.IsSuffix.trans ?_ (List.suffix_append _ _)
    refine List.IsSuffix.trans ?_ (List.suffix_append _ _)
    refine List.IsSuffix.trans ?_ (List.suffix_cons _ _)
    refine List.IsSuffix.trans ?_ (List.suffix_cons _ _)
    refine List.IsSuffix.trans ?_ (List.suffix_append _ _)
    refine List.IsSuffix.trans ?_ (List.suffix_append _ _)
    refine List.IsSuffix.trans ?_ (List.suffix_append _ _)
    exact List.suffix_append _ _
  have hread : readCms P ccs κ τ h0.length h2 = cms := by
    obtain ⟨beta, hbl, H⟩ := hAt
    have e1 : readSlice ccs.s (h2.drop (h2.length - (h0.length + 1 + ccs.s))) = acc.r := by
      have hlen : List.length (acc.r.reverse.map Entry.elem ++ labelled "acc" h0) = h0.length + 1 + ccs.s := by
        simp [labelled, hfit.r]
        omega
      have := suffix_drop hsuf
      rw [hlen] at this
      rw [this, readSlice_append _ _ hfit.r]
    have e2 : readPieces (ccs.l + 1) κ ccs.M.length τ P.K h2 = piecesOf proof.decR := by
      conv_lhs => rw [← nR]
      exact readPieces_foldl _ fR _
    have e3 : h2.drop (P.K * (ccs.l + 1 + κ + ccs.M.length + τ)) = (piecesOf proof.decL).foldl pieceH s1 := by
      have h := suffix_drop (pieces_suffix (piecesOf proof.decR) ((piecesOf proof.decL).foldl pieceH s1))
      rw [pieces_length _ fR, nR, Nat.add_sub_cancel_left] at h
      exact h
    have e4 : readPieces (ccs.l + 1) κ ccs.M.length τ P.K ((piecesOf proof.decL).foldl pieceH s1) = piecesOf proof.decL := by
      conv_lhs => rw [← nL]
      exact readPieces_foldl _ fL _
    unfold readCms
    rw [e1, e2, e3, e4, H.draws, List.drop_left' hbl, ← q1]
  have hcm : cms.map (fun st => st.cm) = proof.decL.yS ++ proof.decR.yS := by
    rw [hcms, List.map_append, List.map_map, List.map_map, ← piecesOf_y hfit.decL, ← piecesOf_y hfit.decR]
    rfl
  have hxs : cms.map (fun st => st.x_w ++ [st.h]) = proof.decL.xS ++ proof.decR.xS := by
    have : ∀ (p : DecProof (Fin N → F)) (a : List (Fin N → F)), DecFits P ccs κ τ p →
        ((piecesOf p).map (pieceSt a)).map (fun st => st.x_w ++ [st.h]) = p.xS := by
      intro p a hp
      rw [List.map_map]
      conv_rhs => rw [← piecesOf_x hp]
      apply List.map_congr_left
      intro q hq
      refine dropLast_getLastD (x := q.1.1.1) ?_
      intro h
      have := (piecesOf_fits hp q hq).1
      rw [h] at this
      simp at this
    rw [hcms, List.map_append, this _ _ hfit.decL, this _ _ hfit.decR]
  set ws := cms.map fun st => op st.cm with hws
  have hws2 : ws = (proof.decL.yS ++ proof.decR.yS).map op := by
    rw [hws, ← hcm, List.map_map]
    rfl
  have hmem : ∀ st ∈ cms, ∃ q, (q ∈ piecesOf proof.decL ∧ st = pieceSt acc.r q) ∨ (q ∈ piecesOf proof.decR ∧ st = pieceSt lin.r q) := by
    intro st hst
    rcases List.mem_append.1 hst with h | h
    · obtain ⟨q, hq, rfl⟩ := List.mem_map.1 h
      exact ⟨q, Or.inl ⟨hq, rfl⟩⟩
    · obtain ⟨q, hq, rfl⟩ := List.mem_map.1 h
      exact ⟨q, Or.inr ⟨hq, rfl⟩⟩
  have hsz : FoldSizes rd P ccs cms ws := by
    refine ⟨?_, ?_, hS.hat, ?_, ?_, ?_, ?_⟩
    · simp [hcms, nL, nR, two_mul]
    · simp [hws, hcms, nL, nR, two_mul]
    · intro wit hwit
      obtain ⟨s, -, rfl⟩ := List.mem_map.1 hwit
      exact hop _
    · intro s hs
      obtain ⟨q, ⟨-, rfl⟩ | ⟨-, rfl⟩⟩ := hmem s hs
      · exact hfit.r
      · exact q2
    · intro s hs
      obtain ⟨q, ⟨hq, rfl⟩ | ⟨hq, rfl⟩⟩ := hmem s hs
      · exact (fL q hq).2.2.2
      · exact (fR q hq).2.2.2
    · intro s hs
      obtain ⟨q, ⟨hq, rfl⟩ | ⟨hq, rfl⟩⟩ := hmem s hs
      · exact (fL q hq).2.2.1
      · exact (fR q hq).2.2.1
  unfold stepA
  rw [Alg'.asked_bind]
  simp only
  rw [← hh1, ← q3, ← hh2]
  by_cases hviol : FoldViolated rd P ccs cms ws
  · obtain ⟨x, hx, hxb⟩ := fold_bad rd P hK hb cs ccs sh hc hF
      (fun b => (readCms P ccs κ τ h0.length b, (readCms P ccs κ τ h0.length b).map fun st => op st.cm)) B O h2 s' proof.fold st
      (by simpa only [hread] using hsz) (by simpa only [hread] using hviol) (by simpa only [hread] using hfold)
      (by
        simp only [hread]
        rw [hth, ← hcm, List.map_map, List.map_map]
        rfl)
      (by
        simp only [hread]
        rw [het, ← hcm, ← hxs, zipWith_map_self, zipWith_self_map])
    refine ⟨x, List.mem_append_right _ hx, Or.inr ⟨?_, by rw [← hL2]; exact hxb⟩⟩
    rw [← hL2]
    unfold foldA at hx
    rw [Alg'.asked_bind] at hx
    have hsq := sqA_asked_length P ccs.s O h2
    rcases List.mem_append.1 hx with hx | hx
    · exact hsq.1 x hx
    · have := (drA_asked_length O _ _ x hx).1
      simp only [List.length_cons] at this
      omega
  · have hge : ∀ (k : Nat) (s : LCCCS (Fin N → F)), cms[k]? = some s → ws[k]? = some (op s.cm) := by
      intro k s hs
      rw [hws, List.getElem?_map, hs]
      rfl
    have hev : ∀ s ∈ cms, EvalsCorrect ccs (op s.cm).fHat (op s.cm).wCcs s := by
      intro s hs
      obtain ⟨k, hk⟩ := List.getElem?_of_mem hs
      by_contra hne
      exact hviol (Or.inl ⟨k, s, _, hk, hge k s hk, hne⟩)
    have hhold : ∀ s ∈ cms, LcccsHolds rd P ccs scheme s (op s.cm) := by
      intro s hs
      refine ⟨hop _, hopen _ (by rw [← hcm]; exact List.mem_map_of_mem hs), ?_, hev s hs⟩
      obtain ⟨q, ⟨hq, rfl⟩ | ⟨hq, rfl⟩⟩ := hmem s hs
      · have := (fL q hq).1
        simp [pieceSt, this]
      · have := (fR q hq).1
        simp [pieceSt, this]
    have hyL : ∀ (a : List (Fin N → F)) (p : DecProof (Fin N → F)), DecFits P ccs κ τ p →
        ((piecesOf p).map (pieceSt a)).map (fun s => op s.cm) = p.yS.map op := by
      intro a p hp
      rw [← piecesOf_y hp, List.map_map, List.map_map]
      rfl
    have hbelow : ∀ (k : Nat) (y : Commitment (Fin N → F)), k < 2 * P.K - 1 → (proof.decL.yS ++ proof.decR.yS)[k]? = some y →
        WitBelow rd P.bSmall (op y) := by
      intro k y hk hy
      by_contra hne
      refine hviol (Or.inr (Or.inl ⟨k, op y, hk, ?_, hne⟩))
      rw [hws2, List.getElem?_map, hy]
      rfl
    have hslots : ∀ y, (proof.decL.yS ++ proof.decR.yS)[2 * P.K - 1]? = some y → SlotSumsVanish rd P.bSmall (op y) := by
      intro y hy
      by_contra hne
      refine hviol (Or.inr (Or.inr ⟨op y, ?_, hne⟩))
      rw [hws2, List.getElem?_map, hy]
      rfl
    -- the accumulator
    obtain ⟨-, wA, hA1, hA2⟩ := C89_recompose rd P hK _ _ _ ccs scheme hS acc proof.decL _ hdl hfit.decL.x.1 hfit.decL.y.1 hfit.decL.u.1
      hfit.decL.v.1 (proof.decL.yS.map op) (by simp [hfit.decL.y.1]) (by
        intro k s w hs hw
        rw [← hyL acc.r _ hfit.decL, List.getElem?_map, hs] at hw
        cases hw
        exact hhold s (List.mem_append_left _ (List.mem_of_getElem? hs)))
    have hAb : WitBelow rd (P.bSmall ^ P.K) wA := by
      have hpiece : ∀ (k : Nat) (w : Witness (Fin N → F) C), k < P.K → (proof.decL.yS.map op)[k]? = some w → WitBelow rd P.bSmall w := by
        intro k w hk hw
        rw [List.getElem?_map] at hw
        cases hy : proof.decL.yS[k]? with
        | none => rw [hy] at hw; cases hw
        | some y =>
          rw [hy] at hw
          cases hw
          refine hbelow k y (by omega) ?_
          rw [List.getElem?_append_left (by rw [hfit.decL.y.1]; exact hk)]
          exact hy
      have := C89_norm rd P hK hb P.bSmall (proof.decL.yS.map op) (by simp [hfit.decL.y.1])
        (fun k w hk hw => hpiece k w (by omega) hw) (fun w hw => hpiece _ w (by omega) hw) hb wA hA2
      rwa [← pow_succ, Nat.sub_add_cancel hK] at this
    -- the fresh statement
    obtain ⟨-, wF, hF1, hF2⟩ := C89_recompose rd P hK _ _ _ ccs scheme hS lin proof.decR _ hdr hfit.decR.x.1 hfit.decR.y.1 hfit.decR.u.1
      hfit.decR.v.1 (proof.decR.yS.map op) (by simp [hfit.decR.y.1]) (by
        intro k s w hs hw
        rw [← hyL lin.r _ hfit.decR, List.getElem?_map, hs] at hw
        cases hw
        exact hhold s (List.mem_append_right _ (List.mem_of_getElem? hs)))
    obtain ⟨ef, ew⟩ := witOK_wCcs hF1.witOK (hop cm.cm) fun j => (hF2 j).trans (hrec j).symm
    have hZ : readZ κ ccs.l op h1 = cm.x_ccs ++ [1] ++ (op cm.cm).wCcs := by
      unfold readZ
      rw [hh1]
      unfold stepH1
      rw [readSlice_append _ _ hfit.x, drop_slice _ _ hfit.x, readSlice_append _ _ hfit.cm]
    have hnot : ¬ CCSHolds ccs (readZ κ ccs.l op h1) := by
      rw [hZ]
      intro hccs
      refine hbad ⟨?_, hccs, ⟨wA, hA2, hA1, hAb⟩, hbelow, hslots⟩
      rw [← ef, hF1.cm, oc]
    obtain ⟨x, hx, hxb⟩ := lin_bad ccs sh hcd (readZ κ ccs.l op) B O h1 s1 cm proof.lin lin hnot hlin (by
      rw [hF1.evals.u, ew, ox, oh, hZ])
    refine ⟨x, List.mem_append_left _ hx, Or.inl ⟨?_, by rw [← hL1]; exact hxb⟩⟩
    rw [← hL2]
    exact lt_of_lt_of_le (q6 x hx) hs1

open Classical in
/-- The bad answers for a folding step started at a history of length `L0`. -/
noncomputable def stepBad [Fintype F] (P : Params) (ccs : CCS (Fin N → F)) (κ t L0 : Nat)
    (op : Commitment (Fin N → F) → Witness (Fin N → F) C) (h : History F (Fin N → F)) : Finset F :=
  if h.length < stepL2 P ccs κ t L0 then
    rbrBad (stepL1 ccs κ t L0) ccs.s ccs.s (ccs.d + 1) (ccs.d + 1)
      (fun b p => mle (ccsRow ccs (readZ κ ccs.l op b)) (p.map (algebraMap F (Fin N → F))))
      (fun b p x => if p.length = ccs.s then linFn ccs (readZ κ ccs.l op b) (p.map (algebraMap F (Fin N → F))) x else 0) h
  else
    rbrBad (stepL2 P ccs κ t L0) (6 * P.K - 1 + ccs.s) ccs.s (2 * P.bSmall) (max (max t ccs.M.length) (2 * P.bSmall))
      (fun b => foldG0 P ccs (readCms P ccs κ t L0 b, (readCms P ccs κ t L0 b).map fun st => op st.cm))
      (fun b => foldF0 P ccs (readCms P ccs κ t L0 b, (readCms P ccs κ t L0 b).map fun st => op st.cm)) h

/-- **C95**: soundness of a whole folding step with Fiat–Shamir challenges, the transcript being a random oracle. Let `op` be any function
from commitments to well-formed witnesses. An adversary with at most `Q` queries chooses accumulator, fresh statement and proof. With at
most a fraction `(Q + 6 K - 1 + 4 s) max(d + 1, τ, |M|, 2 b) / |F|` of all oracles the following happens: the verifier accepts, `op` opens the
commitments of the proof consistently with its evaluations and with the fresh commitment, but the opening of the fresh commitment violates
the relation, or the accumulator is wrong, or a piece is out of range. -/
theorem C95_step [Fintype F] (rd : RingData Fp F C N τ) (P : Params) (hK : 1 ≤ P.K) (hb : 1 ≤ P.bSmall) (cs : ChallengeSet C)
    (ccs : CCS (Fin N → F)) (scheme : Ajtai (Fin N → F)) (hS : SizesOK P ccs scheme) (hc : CharGt F (2 * P.bSmall))
    (hcd : CharGt F (ccs.d + 1)) (κ L0 : Nat) (op : Commitment (Fin N → F) → Witness (Fin N → F) C)
    (hop : ∀ y, WitOK rd P (ccs.n - ccs.l - 1) (op y)) (B : History F (Fin N → F) → Nat → List UInt8)
    (A : Alg (History F (Fin N → F)) F
      (History F (Fin N → F) × LCCCS (Fin N → F) × CCCS (Fin N → F) × LFProof (Fin N → F))) (Q : Nat) (hA : A.AtMost Q) :
    ∃ X0 : Finset (History F (Fin N → F)), ∀ X, X0 ⊆ X → ∀ E : History F (Fin N → F) → F,
      oracleCount X E (StepForged rd P cs ccs scheme κ L0 op B A)
        ≤ (Q + (6 * P.K - 1 + 4 * ccs.s)) * max (ccs.d + 1) (max (max τ ccs.M.length) (2 * P.bSmall))
          * Fintype.card F ^ (X.card - 1) := by
  classical
  by_cases hF : ccs.s + max τ ccs.M.length < Fintype.card F
  · refine forgery_count A (stepA P ccs) Q (6 * P.K - 1 + 4 * ccs.s) _ hA ?_ (stepBad P ccs κ τ L0 op) ?_ _ ?_
    · intro out
      rw [show 6 * P.K - 1 + 4 * ccs.s = (ccs.s + ccs.s) + ((6 * P.K - 1 + ccs.s) + ccs.s) by omega]
      refine Alg'.atMost_bind _ _ _ _ ?_ fun r => ?_
      · exact Alg'.atMost_bind _ _ _ _ (chA_atMost _ _) fun r => drA_atMost _ _ _ (by simp)
      · exact Alg'.atMost_bind _ _ _ _ (sqA_atMost P hK _ _) fun r => drA_atMost _ _ _ (by simp)
    · intro h
      unfold stepBad
      split
      · exact (rbrBad_card _ _ _ _ _ _ _ _).trans (le_max_left _ _)
      · exact (rbrBad_card _ _ _ _ _ _ _ _).trans (le_max_right _ _)
    · rintro O ⟨h0, acc, cm, proof, st, s', h1, rfl, h3, h4, h5, h6, h7, h8, h9⟩
      rw [h1]
      obtain ⟨x, hx, ⟨hl, hxb⟩ | ⟨hl, hxb⟩⟩ := step_bad rd P hK hb cs ccs scheme hS hc hcd hF κ op hop B O h0 s' acc cm proof st h3 h4 h5 h6 h7 h8 h9
      · refine ⟨x, hx, ?_⟩
        unfold stepBad
        rw [if_pos hl]
        exact hxb
      · refine ⟨x, hx, ?_⟩
        unfold stepBad
        rw [if_neg (by omega)]
        exact hxb
  · refine ⟨∅, fun X _ E => ?_⟩
    unfold oracleCount
    refine (card_le_univ _).trans ?_
    rw [Fintype.card_fun, Fintype.card_coe]
    set δ := max (ccs.d + 1) (max (max τ ccs.M.length) (2 * P.bSmall)) with hδ
    have h1 : max τ ccs.M.length ≤ δ := (le_max_left _ _).trans (le_max_right _ _)
    have h2 : 2 * P.bSmall ≤ δ := (le_max_right _ _).trans (le_max_right _ _)
    have h3 : Fintype.card F ≤ (Q + (6 * P.K - 1 + 4 * ccs.s)) * δ := by
      have : (1 + ccs.s) * δ ≤ (Q + (6 * P.K - 1 + 4 * ccs.s)) * δ := Nat.mul_le_mul_right _ (by omega)
      have h4 : ccs.s * 1 ≤ ccs.s * δ := Nat.mul_le_mul_left _ (by omega)
      rw [Nat.add_mul, Nat.one_mul] at this
      omega
    have hpos : 1 ≤ Fintype.card F := Fintype.card_pos
    calc Fintype.card F ^ X.card ≤ Fintype.card F ^ (1 + (X.card - 1)) := Nat.pow_le_pow_right hpos (by omega)
      _ = Fintype.card F * Fintype.card F ^ (X.card - 1) := by rw [pow_add, pow_one]
      _ ≤ _ := Nat.mul_le_mul_right _ h3

/-! ## A concrete case -/

section Examples
open Verif.Example

/-- `b = 2`, one digit. -/
def par257one : Params := ⟨16, 2, 2, 1⟩

theorem sizes257one : SizesOK par257one ccs257 scheme257 where
  sh := ccs257_shape
  nl := by decide
  hat := by decide
  mat := ⟨rfl, by simp [scheme257]⟩
  width := rfl

/-- The opening of a commitment by the invertible matrix `(1 2; 0 1)`. -/
def open257 (y : Commitment C257) : Witness C257 C257 :=
  mkWit ring257 par257one 1 [y.val.getD 0 0 - 2 * y.val.getD 1 0, y.val.getD 1 0]

/-- `open257` opens all commitments of two elements. -/
example (a b : C257) : scheme257.commit (open257 ⟨[a, b]⟩).f = .ok ⟨[a, b]⟩ := by
  rw [commit_ok scheme257 _ (by simp [open257, mkWit, scheme257])]
  have h : ∀ x : C257, ring257.crt x = x := fun _ => rfl
  simp [open257, mkWit, scheme257, dot, h]

/-- Over the field of 257 elements: an adversary with 40 queries forges a folding step with at most 196 of 257 oracles on every large
enough domain. -/
example (L0 : Nat) (B : History (ZMod 257) C257 → Nat → List UInt8)
    (A : Alg (History (ZMod 257) C257) (ZMod 257) (History (ZMod 257) C257 × LCCCS C257 × CCCS C257 × LFProof C257)) (hA : A.AtMost 40) :
    ∃ X0 : Finset (History (ZMod 257) C257), ∀ X, X0 ⊆ X → ∀ E : History (ZMod 257) C257 → ZMod 257,
      oracleCount X E (StepForged ring257 par257one cs257 ccs257 scheme257 2 L0 open257 B A) ≤ 196 * 257 ^ (X.card - 1) := by
  have h := C95_step ring257 par257one (by decide) (by decide) cs257 ccs257 scheme257 sizes257one (charGt257 _ (by decide))
    (charGt257 _ (by decide)) 2 L0 open257 (fun _ => mkWit_ok ring257 par257one (wl := 1) _ rfl) B A 40 hA
  rw [ZMod.card] at h
  exact h

/-- For the fresh statement with public input `3` and a commitment to `1, 0`, so `z = (3, 1, 1)`, the step is not valid. -/
example (acc : LCCCS C257) (proof : LFProof C257) :
    ¬ StepValid ring257 par257one ccs257 scheme257 open257 acc ⟨⟨[1, 0]⟩, [3]⟩ proof := by
  intro h
  have := h.holds 0 (by decide)
  revert this
  decide +kernel

end Examples

end Verif.Props
