import Verif.Lemmas.RoundByRoundFold
import Verif.Props.RandomOracle

/-! Reading the statements of a folding step back from the history of the transcript. -/

set_option linter.unusedSectionVars false
set_option linter.unusedSimpArgs false

namespace Verif

open Finset Spec Verif.Props

section
variable {F R : Type}

/-- The last `n` absorbed elements. -/
def readSlice (n : Nat) (h : History F R) : List R := elemsOf (h.take n)

theorem readSlice_append {n : Nat} (m : List R) (h : History F R) (hn : m.length = n) :
    readSlice n (m.reverse.map Entry.elem ++ h) = m := by
  subst hn
  unfold readSlice
  rw [List.take_left' (by simp), elemsOf_map]

theorem drop_slice {n : Nat} (m : List R) (h : History F R) (hn : m.length = n) :
    (m.reverse.map Entry.elem ++ h).drop n = h := List.drop_left' (by simpa using hn)

/-- What the decomposition absorbs for one piece: `x`, `y`, `u`, `v`. -/
abbrev Piece (R : Type) := ((List R × Commitment R) × List R) × List R

/-- The history after one piece. -/
def pieceH (h : History F R) (p : Piece R) : History F R :=
  p.2.reverse.map .elem ++ (p.1.2.reverse.map .elem ++ (p.1.1.2.val.reverse.map .elem ++ (p.1.1.1.reverse.map .elem ++ h)))

/-- Sizes of a piece. -/
def PieceFits (nx nc nu nv : Nat) (p : Piece R) : Prop :=
  p.1.1.1.length = nx ∧ p.1.1.2.val.length = nc ∧ p.1.2.length = nu ∧ p.2.length = nv

/-- The piece absorbed last. -/
def readPiece (nx nc nu nv : Nat) (h : History F R) : Piece R :=
  (((readSlice nx (((h.drop nv).drop nu).drop nc), ⟨readSlice nc ((h.drop nv).drop nu)⟩), readSlice nu (h.drop nv)), readSlice nv h)

/-- The `k` pieces absorbed last. -/
def readPieces (nx nc nu nv : Nat) : Nat → History F R → List (Piece R)
  | 0, _ => []
  | k + 1, h => readPieces nx nc nu nv k ((((h.drop nv).drop nu).drop nc).drop nx) ++ [readPiece nx nc nu nv h]

theorem readPiece_pieceH {nx nc nu nv : Nat} {p : Piece R} (hp : PieceFits nx nc nu nv p) (h : History F R) :
    readPiece nx nc nu nv (pieceH h p) = p ∧ ((((pieceH h p).drop nv).drop nu).drop nc).drop nx = h := by
  obtain ⟨h1, h2, h3, h4⟩ := hp
  unfold readPiece pieceH
  rw [readSlice_append _ _ h4, drop_slice _ _ h4, readSlice_append _ _ h3, drop_slice _ _ h3, readSlice_append _ _ h2,
    drop_slice _ _ h2, readSlice_append _ _ h1, drop_slice _ _ h1]
  exact ⟨rfl, rfl⟩

theorem readPieces_foldl {nx nc nu nv : Nat} (ps : List (Piece R)) (hp : ∀ p ∈ ps, PieceFits nx nc nu nv p) (h : History F R) :
    readPieces nx nc nu nv ps.length (ps.foldl pieceH h) = ps := by
  induction ps using List.reverseRecOn with
  | nil => rfl
  | append_singleton ps p ih =>
    have h1 := readPiece_pieceH (hp p (by simp)) (ps.foldl pieceH h)
    rw [List.foldl_append, List.length_append]
    change readPieces nx nc nu nv (ps.length + 1) (pieceH (ps.foldl pieceH h) p) = _
    rw [readPieces, h1.1, h1.2, ih fun q hq => hp q (by simp [hq])]

theorem pieceH_length {nx nc nu nv : Nat} {p : Piece R} (hp : PieceFits nx nc nu nv p) (h : History F R) :
    (pieceH h p).length = h.length + (nx + nc + nu + nv) := by
  obtain ⟨h1, h2, h3, h4⟩ := hp
  simp [pieceH, h1, h2, h3, h4]
  omega

theorem pieces_length {nx nc nu nv : Nat} (ps : List (Piece R)) (hp : ∀ p ∈ ps, PieceFits nx nc nu nv p) (h : History F R) :
    (ps.foldl pieceH h).length = h.length + ps.length * (nx + nc + nu + nv) := by
  induction ps generalizing h with
  | nil => simp
  | cons p ps ih =>
    rw [List.foldl_cons, ih (fun q hq => hp q (by simp [hq])), pieceH_length (hp p (by simp)), List.length_cons, Nat.add_mul, Nat.one_mul]
    omega

theorem At.pieceH {L0 : Nat} {h b : History F R} {u : List F} (H : At L0 h b u) (p : Piece R) : At L0 (pieceH h p) b u :=
  (((H.slice _).slice _).slice _).slice _

theorem At.pieces {L0 : Nat} {b : History F R} {u : List F} (ps : List (Piece R)) {h : History F R} (H : At L0 h b u) :
    At L0 (ps.foldl Verif.pieceH h) b u := by
  induction ps generalizing h with
  | nil => exact H
  | cons p ps ih => exact ih (H.pieceH p)

theorem pieces_suffix (ps : List (Piece R)) (h : History F R) : h <:+ ps.foldl pieceH h := by
  induction ps generalizing h with
  | nil => exact List.suffix_rfl
  | cons p ps ih =>
    refine List.IsSuffix.trans ?_ (ih _)
    unfold pieceH
    exact ((List.suffix_append _ _).trans (List.suffix_append _ _)).trans ((List.suffix_append _ _).trans (List.suffix_append _ _))

theorem suffix_drop {h h' : History F R} (hs : h <:+ h') : h'.drop (h'.length - h.length) = h := by
  obtain ⟨t, rfl⟩ := hs
  simp

/-! ### Challenges -/

theorem chA_history_length (O : History F R → F) (n : Nat) (h : History F R) : ((chA n h).run O).2.length = h.length + n := by
  induction n generalizing h with
  | zero => rfl
  | succ n ih =>
    rw [chA_run_succ]
    simp only
    rw [ih]
    simp
    omega

theorem chA_suffix (O : History F R → F) (n : Nat) (h : History F R) : h <:+ ((chA n h).run O).2 := by
  induction n generalizing h with
  | zero => exact List.suffix_rfl
  | succ n ih =>
    rw [chA_run_succ]
    exact (List.suffix_cons _ _).trans (ih _)

theorem chA_asked_length (O : History F R → F) (n : Nat) (h : History F R) :
    ∀ x ∈ Alg'.asked O (chA n h), h.length ≤ x.length ∧ x.length < h.length + n := by
  induction n generalizing h with
  | zero => intro x hx; simp [chA, Alg'.asked] at hx
  | succ n ih =>
    rw [chA_asked]
    intro x hx
    rcases List.mem_cons.1 hx with rfl | hx
    · omega
    · have := ih _ x hx
      simp only [List.length_cons] at this
      omega

variable [Field F] [DecidableEq F] [CommRing R] [DecidableEq R] [Algebra F R]

theorem At.dr {L0 : Nat} {b : History F R} (O : History F R → F) (ms : List (List R)) {h : History F R} {u : List F} (H : At L0 h b u) :
    At L0 ((drA h ms).run O).2 b (u ++ ((drA h ms).run O).1) := by
  induction ms generalizing h u with
  | nil => simpa [drA, Alg.run] using H
  | cons m ms ih =>
    rw [drA_run_cons]
    have := ih (((H.slice m).drawn (O (m.reverse.map Entry.elem ++ h))).elem (algebraMap F R (O (m.reverse.map Entry.elem ++ h))))
    rw [List.append_assoc] at this
    exact this

theorem drA_history_length (O : History F R → F) (k : Nat) (ms : List (List R)) (hm : ∀ m ∈ ms, m.length = k) (h : History F R) :
    ((drA h ms).run O).2.length = h.length + ms.length * (k + 2) := by
  induction ms generalizing h with
  | nil => simp [drA, Alg.run]
  | cons m ms ih =>
    rw [drA_run_cons]
    simp only
    rw [ih fun q hq => hm q (by simp [hq])]
    simp [hm m (by simp), Nat.add_mul]
    omega

theorem drA_suffix (O : History F R → F) (ms : List (List R)) (h : History F R) : h <:+ ((drA h ms).run O).2 := by
  induction ms generalizing h with
  | nil => exact List.suffix_rfl
  | cons m ms ih =>
    rw [drA_run_cons]
    exact ((List.suffix_append _ _).trans ((List.suffix_cons _ _).trans (List.suffix_cons _ _))).trans (ih _)

theorem drA_asked_length (O : History F R → F) (ms : List (List R)) (h : History F R) :
    ∀ x ∈ Alg'.asked O (drA h ms), h.length ≤ x.length ∧ x.length < ((drA h ms).run O).2.length := by
  induction ms generalizing h with
  | nil => intro x hx; simp [drA, Alg'.asked] at hx
  | cons m ms ih =>
    rw [drA_asked, drA_run_cons]
    intro x hx
    have hs := (drA_suffix O ms (.elem (algebraMap F R (O (m.reverse.map Entry.elem ++ h))) :: .drawn (O (m.reverse.map Entry.elem ++ h))
          :: (m.reverse.map Entry.elem ++ h))).length_le
    rcases List.mem_cons.1 hx with rfl | hx
    · simp only [List.length_cons] at hs
      refine ⟨by simp, ?_⟩
      simp only
      omega
    · have := ih _ x hx
      refine ⟨?_, this.2⟩
      have h1 := this.1
      simp only [List.length_cons, List.length_append] at h1
      omega

theorem sqA_asked_length (P : Params) (n : Nat) (O : History F R → F) (h : History F R) :
    (∀ x ∈ Alg'.asked O (sqA P n h), h.length ≤ x.length) ∧ h.length ≤ ((sqA P n h).run O).2.length := by
  unfold sqA
  simp only [Alg'.asked_bind, Alg'.run_bind, List.mem_append, Alg.run]
  set r1 := (chA (2 * P.K) (labelled "alpha_s" h)).run O with hr1
  set r2 := (chA (2 * P.K) (labelled "zeta_s" r1.2)).run O with hr2
  set r3 := (chA (2 * P.K - 1) (labelled "mu_s" r2.2)).run O with hr3
  have e1 : r1.2.length = _ := chA_history_length O _ _
  have e2 : r2.2.length = _ := chA_history_length O _ _
  have e3 : r3.2.length = _ := chA_history_length O _ _
  simp only [labelled, List.length_cons] at e1 e2 e3
  constructor
  · rintro x (hx | hx | hx | hx | hx)
    · have := (chA_asked_length O _ _ x hx).1
      simp only [labelled, List.length_cons] at this
      omega
    · have := (chA_asked_length O _ _ x hx).1
      simp only [labelled, List.length_cons] at this
      omega
    · have := (chA_asked_length O _ _ x hx).1
      simp only [labelled, List.length_cons] at this
      omega
    · have := (chA_asked_length O _ _ x hx).1
      simp only [labelled, List.length_cons] at this
      omega
    · simp [Alg'.asked] at hx
  · rw [chA_history_length]
    simp only [labelled, List.length_cons]
    omega

/-! ### Linearization -/

theorem checkRec_length (d : Nat) (ms : List (List R)) (cs : List F) (e e' : R) (h : checkRec d ms cs e = .ok e') (hl : cs.length = ms.length) :
    ∀ m ∈ ms, m.length = d + 1 := by
  induction ms generalizing cs e with
  | nil => simp
  | cons m ms ih =>
    cases cs with
    | nil => simp at hl
    | cons c cs =>
      by_cases hm : m.length = d + 1
      swap
      · rw [checkRec, if_pos hm] at h
        cases h
      rw [checkRec, if_neg (by simpa using hm)] at h
      simp only [bind_eq_ok] at h
      obtain ⟨a, -, b, -, h⟩ := h
      split at h
      · cases h
      rw [bind_eq_ok] at h
      obtain ⟨e1, -, h⟩ := h
      intro q hq
      rcases List.mem_cons.1 hq with rfl | hq
      · exact hm
      · exact ih cs e1 h (by simpa using hl) q hq

theorem linVerify_out {σ : Type} (T : Transcript F R σ) (s s' : σ) (cm : CCCS R) (proof : LinProof R) (ccs : CCS R) (st : LCCCS R)
    (h : linVerify T s cm proof ccs = .ok (st, s')) :
    st.v = proof.v ∧ st.cm = cm.cm ∧ st.u = proof.u ∧ st.x_w = cm.x_ccs ∧ st.h = 1 := by
  unfold linVerify at h
  simp only [bind_eq_ok] at h
  obtain ⟨⟨sc, s2⟩, -, e, -, claim, -, h⟩ := h
  simp only at h
  split at h
  · simp at h
  · simp only [Except.ok.injEq, Prod.mk.injEq] at h
    rw [← h.1]
    simp

/-- The run of the linearization verifier with an oracle. -/
theorem lin_run (ccs : CCS R) (sh : LinShape ccs) (B : History F R → Nat → List UInt8) (O : History F R → F) (h s' : History F R)
    (cm : CCCS R) (proof : LinProof R) (st : LCCCS R) (hu : ccs.M.length ≤ proof.u.length)
    (hver : linVerify (oracleT O B) h cm proof ccs = .ok (st, s')) :
    st.r = (((linA ccs h proof).run O).1).map (algebraMap F R) ∧ st.r.length = ccs.s ∧
    s' = proof.u.reverse.map .elem ++ (proof.v.reverse.map .elem ++ ((linA ccs h proof).run O).2) ∧
    ((linA ccs h proof).run O).2.length = h.length + (3 + ccs.s + ccs.s * (ccs.d + 4)) ∧ h <:+ s' ∧
    (∀ x ∈ Alg'.asked O (linA ccs h proof), x.length < s'.length) ∧
    ∀ {L0 : Nat} {b : History F R} {p : List F}, At L0 h b p → ∃ beta : List F, beta.length = ccs.s ∧
      At L0 s' b (p ++ beta ++ ((linA ccs h proof).run O).1) := by
  rw [C29_verify_iff _ _ _ _ _ _ sh.wf hu] at hver
  obtain ⟨sc, s2, h4, h5, rfl, rfl⟩ := hver
  set hl : History F R := .elem (algebraMap F R ((labelNat "beta_s" : Nat) : F)) :: h with hhl
  have hsq : squeezeBeta (oracleT O B) h ccs.s = ((((chA ccs.s hl).run O).1).map (algebraMap F R), ((chA ccs.s hl).run O).2) := by
    rw [chA_run O B]
    rfl
  rw [hsq] at h4
  simp only at h4
  have hn := sh.spos
  by_cases hl2 : ccs.s ≤ proof.sumcheck.length
  swap
  · rw [verify_short _ _ _ _ _ _ (by omega)] at h4
    simp at h4
  rw [verify_eq _ _ _ _ (by omega) _ _ hl2, bind_eq_ok] at h4
  obtain ⟨e, hck, hout⟩ := h4
  simp only [Except.ok.injEq, Prod.mk.injEq] at hout
  obtain ⟨rfl, rfl⟩ := hout
  have habs : (oracleT O B).absorb ((oracleT O B).absorb ((chA ccs.s hl).run O).2 (ccs.s : R)) ((ccs.d + 1 : Nat) : R)
      = .elem ((ccs.d + 1 : Nat) : R) :: .elem (ccs.s : R) :: ((chA ccs.s hl).run O).2 := rfl
  rw [habs, ← drA_run] at hck ⊢
  have hrun : (linA ccs h proof).run O = (drA (.elem ((ccs.d + 1 : Nat) : R) :: .elem (ccs.s : R) :: ((chA ccs.s hl).run O).2)
      (proof.sumcheck.take ccs.s)).run O := by
    unfold linA
    rw [Alg'.run_bind]
  rw [hrun]
  set hs : History F R := .elem ((ccs.d + 1 : Nat) : R) :: .elem (ccs.s : R) :: ((chA ccs.s hl).run O).2 with hhs
  have hdl : ((drA hs (proof.sumcheck.take ccs.s)).run O).1.length = ccs.s := by
    rw [drA_run O B, drawRun_length]
    simp [hl2]
  have htl : (proof.sumcheck.take ccs.s).length = ccs.s := by simp [hl2]
  have hms := checkRec_length _ _ _ _ _ hck (by rw [hdl, htl])
  have hhsl : hs.length = h.length + 3 + ccs.s := by
    simp only [hhs, List.length_cons, chA_history_length, hhl]
    omega
  have hend := drA_history_length O (ccs.d + 1 + 1) (proof.sumcheck.take ccs.s) hms hs
  rw [htl, hhsl] at hend
  have hle : ((drA hs (proof.sumcheck.take ccs.s)).run O).2.length
      ≤ ((oracleT O B).absorbSlice ((oracleT O B).absorbSlice ((drA hs (proof.sumcheck.take ccs.s)).run O).2 proof.v) proof.u).length := by
    simp [absorbSlice_oracle]
    omega
  refine ⟨rfl, by simpa using hdl, ?_, ?_, ?_, ?_, ?_⟩
  · rw [absorbSlice_oracle, absorbSlice_oracle]
  · rw [hend]
    ring
  · rw [absorbSlice_oracle, absorbSlice_oracle]
    refine List.IsSuffix.trans ?_ (List.suffix_append _ _)
    refine List.IsSuffix.trans ?_ (List.suffix_append _ _)
    refine List.IsSuffix.trans ?_ (drA_suffix _ _ _)
    refine List.IsSuffix.trans ?_ (List.suffix_cons _ _)
    refine List.IsSuffix.trans ?_ (List.suffix_cons _ _)
    exact (List.suffix_cons _ _).trans (chA_suffix _ _ _)
  · intro x hx
    refine lt_of_lt_of_le ?_ hle
    unfold linA at hx
    rw [Alg'.asked_bind] at hx
    rcases List.mem_append.1 hx with hx | hx
    · have := (chA_asked_length O _ _ x hx).2
      have h2 := (drA_suffix O (proof.sumcheck.take ccs.s) hs).length_le
      rw [hhsl] at h2
      simp only [List.length_cons] at this
      omega
    · exact (drA_asked_length O _ _ x hx).2
  · intro L0 b p H
    refine ⟨((chA ccs.s hl).run O).1, chA_length _ _ _, ?_⟩
    rw [absorbSlice_oracle, absorbSlice_oracle]
    exact (((((((H.elem _).challenges O ccs.s).elem _).elem _).dr O _).slice _).slice _)

end

end Verif
