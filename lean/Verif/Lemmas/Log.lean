import Verif.Spec.Log
import Verif.Props.Nifs

/-!
# Lemmas on recording transcripts
-/

set_option linter.unusedSectionVars false
set_option linter.unusedSimpArgs false

namespace Verif.Props

open Finset Spec Verif

section Basic
variable {F R : Type} (o : Oracle F R)

theorem recT_absorbSlice (s : {l : List (Event F R) // Honest o l}) (v : List R) :
    ((recT o).absorbSlice s v).1 = s.1 ++ sent v := by
  induction v generalizing s with
  | nil => simp [Transcript.absorbSlice, sent]
  | cons x v ih =>
    have := ih ((recT o).absorb s x)
    unfold Transcript.absorbSlice at this ⊢
    rw [List.foldl_cons, this]
    simp [recT, sent]

theorem recT_absorbSlices (s : {l : List (Event F R) // Honest o l}) (vs : List (List R)) :
    (vs.foldl (recT o).absorbSlice s).1 = s.1 ++ sent vs.flatten := by
  induction vs generalizing s with
  | nil => simp [sent]
  | cons v vs ih =>
    rw [List.foldl_cons, ih, recT_absorbSlice]
    simp [sent]

theorem recT_challenges (n : Nat) (s : {l : List (Event F R) // Honest o l}) :
    ((recT o).challenges n s).2.1 = s.1 ++ ((recT o).challenges n s).1.map .squeeze := by
  induction n generalizing s with
  | zero => simp [Transcript.challenges]
  | succ n ih =>
    have := ih ((recT o).challenge s).2
    simp only [Transcript.challenges, List.map_cons]
    rw [this]
    simp [recT]

variable [Field F] [CommRing R] [Algebra F R]

theorem recT_draw (ms : List (List R)) (s : {l : List (Event F R) // Honest o l}) :
    (drawRun (recT o) s ms).2.1 = s.1 ++ roundsLog ms (drawRun (recT o) s ms).1 := by
  induction ms generalizing s with
  | nil => simp [drawRun, roundsLog]
  | cons m ms ih =>
    have hstep : ∀ (t : {l : List (Event F R) // Honest o l}) (x : R), ((recT o).absorb ((recT o).challenge t).2 x).1
        = t.1 ++ [.squeeze ((recT o).challenge t).1, .absorb x] := by
      intro t x
      simp [recT]
    simp only [drawRun]
    rw [ih, hstep, recT_absorbSlice]
    simp [roundsLog]

theorem recT_label (s : {l : List (Event F R) // Honest o l}) (str : String) (h : labelNat str = labelValue str) :
    (absorbLabel (recT o) s str).1 = s.1 ++ [labelEv str] := by
  unfold absorbLabel Transcript.absorbField labelEv
  rw [h]
  rfl

theorem recT_drawn (n : Nat) (s : {l : List (Event F R) // Honest o l}) (str : String) (h : labelNat str = labelValue str) :
    ((recT o).challenges n (absorbLabel (recT o) s str)).2.1
      = s.1 ++ drawn str ((recT o).challenges n (absorbLabel (recT o) s str)).1 := by
  rw [recT_challenges, recT_label _ _ _ h]
  simp [drawn]

theorem roundsLog_take (ms : List (List R)) (point : List F) :
    roundsLog (F := F) (ms.take point.length) point = roundsLog ms point := by
  unfold roundsLog
  congr 1
  induction ms generalizing point with
  | nil => simp
  | cons m ms ih =>
    cases point with
    | nil => simp
    | cons p ps => simp [ih]

variable [DecidableEq F] [DecidableEq R]

end Basic

section Ring
variable {Fp F C : Type} {N τ : Nat} [Field Fp] [Field F] [DecidableEq F] [Algebra Fp F] [CommRing C] [Algebra Fp C]
  (o : Oracle F (Fin N → F))

theorem recT_short (cs : ChallengeSet C) (n : Nat) (s s' : {l : List (Event F (Fin N → F)) // Honest o l}) (cl : List C)
    (h : shortChallenges (recT o) cs n s = .ok (cl, s')) :
    ∃ bss : List (List UInt8), bss.length = n ∧ List.Forall₂ (fun bs c => cs.decode bs = .ok c) bss cl ∧
      s'.1 = s.1 ++ bss.map (.bytes cs.bytesNeeded) := by
  induction n generalizing s cl with
  | zero =>
    simp only [shortChallenges, Except.ok.injEq, Prod.mk.injEq] at h
    obtain ⟨rfl, rfl⟩ := h
    exact ⟨[], rfl, List.Forall₂.nil, by simp⟩
  | succ n ih =>
    simp only [shortChallenges, bind_eq_ok, Prod.exists] at h
    obtain ⟨c, s1, h1, r, s2, h2, h3⟩ := h
    simp only [Except.ok.injEq, Prod.mk.injEq] at h3
    obtain ⟨rfl, rfl⟩ := h3
    obtain ⟨bss, h4, h5, h6⟩ := ih _ _ h2
    unfold shortChallenge at h1
    simp only at h1
    split at h1
    · rename_i c' hc
      simp only [Except.ok.injEq, Prod.mk.injEq] at h1
      obtain ⟨rfl, rfl⟩ := h1
      refine ⟨_ :: bss, by simp [h4], List.Forall₂.cons hc h5, ?_⟩
      rw [h6]
      simp [recT]
    · cases h1

end Ring

section Inj
variable {F R : Type}

theorem sent_inj {v w : List R} (h : (sent v : List (Event F R)) = sent w) : v = w :=
  List.map_injective_iff.mpr (fun _ _ h => by cases h; rfl) h

theorem sent_length (v : List R) : (sent v : List (Event F R)).length = v.length := by simp [sent]

theorem squeeze_inj {v w : List F} (h : (v.map Event.squeeze : List (Event F R)) = w.map Event.squeeze) : v = w :=
  List.map_injective_iff.mpr (fun _ _ h => by cases h; rfl) h

/-- Peel a sent block from the front. -/
theorem sent_append_inj {v w : List R} {t t' : List (Event F R)} (hl : v.length = w.length)
    (h : sent v ++ t = sent w ++ t') : v = w ∧ t = t' := by
  obtain ⟨h1, h2⟩ := List.append_inj h (by rw [sent_length, sent_length, hl])
  exact ⟨sent_inj h1, h2⟩

theorem squeeze_append_inj {v w : List F} {t t' : List (Event F R)} (hl : v.length = w.length)
    (h : v.map Event.squeeze ++ t = w.map Event.squeeze ++ t') : v = w ∧ t = t' := by
  obtain ⟨h1, h2⟩ := List.append_inj h (by simp [hl])
  exact ⟨squeeze_inj h1, h2⟩

variable [Field F] [CommRing R] [Algebra F R]

theorem rounds_inj (ms ms' : List (List R)) (pt pt' : List F) (t t' : List (Event F R))
    (hs : ms.map List.length = ms'.map List.length) (hp : pt.length = ms.length) (hp' : pt'.length = ms.length)
    (h : roundsLog ms pt ++ t = roundsLog ms' pt' ++ t') : ms = ms' ∧ pt = pt' ∧ t = t' := by
  induction ms generalizing ms' pt pt' with
  | nil =>
    have : ms' = [] := by simpa using hs.symm
    subst this
    have e1 : pt = [] := List.length_eq_zero_iff.mp hp
    have e2 : pt' = [] := List.length_eq_zero_iff.mp hp'
    subst e1; subst e2
    exact ⟨rfl, rfl, by simpa [roundsLog] using h⟩
  | cons m ms ih =>
    cases ms' with
    | nil => simp at hs
    | cons m' ms' =>
      cases pt with
      | nil => simp at hp
      | cons p pt =>
        cases pt' with
        | nil => simp at hp'
        | cons p' pt' =>
          simp only [List.map_cons, List.cons.injEq, List.length_cons, Nat.add_right_cancel_iff] at hs hp hp'
          simp only [roundsLog, List.zipWith_cons_cons, List.flatten_cons, List.append_assoc] at h
          obtain ⟨q0, h⟩ := sent_append_inj hs.1 h
          simp only [List.cons_append, List.nil_append, List.cons.injEq, Event.squeeze.injEq] at h
          obtain ⟨q1, -, h⟩ := h
          obtain ⟨q2, q3, h⟩ := ih ms' pt pt' hs.2 hp hp' h
          exact ⟨by rw [q0, q2], by rw [q1, q3], h⟩

theorem sumcheck_inj (n d : Nat) (ms ms' : List (List R)) (pt pt' : List F) (t t' : List (Event F R))
    (hs : ms.map List.length = ms'.map List.length) (hp : pt.length = ms.length) (hp' : pt'.length = ms.length)
    (h : sumcheckLog n d ms pt ++ t = sumcheckLog n d ms' pt' ++ t') : ms = ms' ∧ pt = pt' ∧ t = t' := by
  unfold sumcheckLog at h
  rw [List.append_assoc, List.append_assoc] at h
  exact rounds_inj ms ms' pt pt' t t' hs hp hp' (List.append_cancel_left h)

theorem drawn_inj (str : String) (v w : List F) (t t' : List (Event F R)) (hl : v.length = w.length)
    (h : drawn str v ++ t = drawn str w ++ t') : v = w ∧ t = t' := by
  unfold drawn at h
  simp only [List.cons_append, List.cons.injEq, true_and] at h
  exact squeeze_append_inj hl h

theorem lin_inj (ccs : CCS R) (p p' : LinProof R) (b b' pt pt' : List F) (t t' : List (Event F R))
    (hs : linShape p = linShape p') (hn : p.sumcheck.length = ccs.s) (hb : b.length = ccs.s) (hb' : b'.length = ccs.s)
    (hp : pt.length = ccs.s) (hp' : pt'.length = ccs.s)
    (h : linLog ccs p b pt ++ t = linLog ccs p' b' pt' ++ t') : p = p' ∧ b = b' ∧ pt = pt' ∧ t = t' := by
  unfold linLog at h
  simp only [linShape, Prod.mk.injEq, List.cons.injEq, and_true] at hs
  obtain ⟨hs1, hs2, hs3⟩ := hs
  simp only [List.append_assoc] at h
  replace h := drawn_inj _ _ _ _ _ (hb.trans hb'.symm) h
  obtain ⟨q0, h⟩ := h
  subst q0
  replace h := sumcheck_inj _ _ _ _ _ _ _ _ hs1 (hp.trans hn.symm) (hp'.trans hn.symm) h
  obtain ⟨h1, q1, h⟩ := h
  subst q1
  replace h := sent_append_inj hs2 h
  obtain ⟨h2, h⟩ := h
  replace h := sent_append_inj hs3 h
  obtain ⟨h3, h⟩ := h
  cases p; cases p'
  simp only at h1 h2 h3
  subst h1 h2 h3
  exact ⟨rfl, rfl, rfl, h⟩

theorem pieces_inj (ps ps' : List (((List R × Commitment R) × List R) × List R)) (t t' : List (Event F R))
    (hs : ps.map (fun p => (((p.1.1.1.length, p.1.1.2.val.length), p.1.2.length), p.2.length))
      = ps'.map (fun p => (((p.1.1.1.length, p.1.1.2.val.length), p.1.2.length), p.2.length)))
    (h : (ps.map fun p => (sent p.1.1.1 ++ sent p.1.1.2.val ++ sent p.1.2 ++ sent p.2 : List (Event F R))).flatten ++ t
      = (ps'.map fun p => (sent p.1.1.1 ++ sent p.1.1.2.val ++ sent p.1.2 ++ sent p.2 : List (Event F R))).flatten ++ t') :
    ps = ps' ∧ t = t' := by
  induction ps generalizing ps' with
  | nil =>
    have : ps' = [] := by simpa using hs.symm
    subst this
    exact ⟨rfl, by simpa using h⟩
  | cons p ps ih =>
    cases ps' with
    | nil => simp at hs
    | cons p' ps' =>
      obtain ⟨⟨⟨x, ⟨y⟩⟩, u⟩, v⟩ := p
      obtain ⟨⟨⟨x', ⟨y'⟩⟩, u'⟩, v'⟩ := p'
      simp only [List.map_cons, List.cons.injEq, Prod.mk.injEq] at hs
      obtain ⟨⟨⟨⟨k1, k2⟩, k3⟩, k4⟩, hs⟩ := hs
      simp only [List.map_cons, List.flatten_cons, List.append_assoc] at h
      obtain ⟨q1, h1⟩ := sent_append_inj k1 h
      obtain ⟨q2, h2⟩ := sent_append_inj k2 h1
      obtain ⟨q3, h3⟩ := sent_append_inj k3 h2
      obtain ⟨q4, h4⟩ := sent_append_inj k4 h3
      obtain ⟨q5, h5⟩ := ih ps' hs (by simpa using h4)
      exact ⟨by rw [q1, q2, q3, q4, q5], h5⟩

theorem dec_inj (k : Nat) (p p' : DecProof R) (t t' : List (Event F R)) (hs : decShape p = decShape p')
    (hk : DecPieces k p) (h : decLog p ++ t = decLog p' ++ t') : p = p' ∧ t = t' := by
  simp only [decShape, List.cons.injEq, and_true] at hs
  obtain ⟨s1, s2, s3, s4⟩ := hs
  obtain ⟨k1, k2, k3, k4⟩ := hk
  have k1' : p'.xS.length = k := by rw [← k1]; simpa using (congrArg List.length s1).symm
  have k2' : p'.yS.length = k := by rw [← k2]; simpa using (congrArg List.length s2).symm
  have k3' : p'.uS.length = k := by rw [← k3]; simpa using (congrArg List.length s3).symm
  have k4' : p'.vS.length = k := by rw [← k4]; simpa using (congrArg List.length s4).symm
  have hz : ∀ q : DecProof R, (((q.xS.zip q.yS).zip q.uS).zip q.vS).map
      (fun p => (((p.1.1.1.length, p.1.1.2.val.length), p.1.2.length), p.2.length))
      = (((q.xS.map List.length).zip (q.yS.map (fun c => c.val.length))).zip (q.uS.map List.length)).zip
        (q.vS.map List.length) := by
    intro q
    rw [List.zip_map, List.zip_map, List.zip_map]
    rfl
  obtain ⟨he, ht⟩ := pieces_inj _ _ t t' (by rw [hz, hz, s1, s2, s3, s4]) h
  refine ⟨?_, ht⟩
  have e4 := congrArg (List.map Prod.snd) he
  have e3 := congrArg (List.map (Prod.snd ∘ Prod.fst)) he
  have e2 := congrArg (List.map (Prod.snd ∘ Prod.fst ∘ Prod.fst)) he
  have e1 := congrArg (List.map (Prod.fst ∘ Prod.fst ∘ Prod.fst)) he
  simp only [← List.map_map] at e1 e2 e3
  rw [List.map_snd_zip (by simp only [List.length_zip, k1, k2, k3, k4, k1', k2', k3', k4', Nat.min_self, Nat.le_refl]), List.map_snd_zip (by simp only [List.length_zip, k1, k2, k3, k4, k1', k2', k3', k4', Nat.min_self, Nat.le_refl])] at e4
  rw [List.map_fst_zip (by simp only [List.length_zip, k1, k2, k3, k4, k1', k2', k3', k4', Nat.min_self, Nat.le_refl]), List.map_snd_zip (by simp only [List.length_zip, k1, k2, k3, k4, k1', k2', k3', k4', Nat.min_self, Nat.le_refl]), List.map_fst_zip (by simp only [List.length_zip, k1, k2, k3, k4, k1', k2', k3', k4', Nat.min_self, Nat.le_refl]),
    List.map_snd_zip (by simp only [List.length_zip, k1, k2, k3, k4, k1', k2', k3', k4', Nat.min_self, Nat.le_refl])] at e3
  rw [List.map_fst_zip (by simp only [List.length_zip, k1, k2, k3, k4, k1', k2', k3', k4', Nat.min_self, Nat.le_refl]), List.map_fst_zip (by simp only [List.length_zip, k1, k2, k3, k4, k1', k2', k3', k4', Nat.min_self, Nat.le_refl]), List.map_snd_zip (by simp only [List.length_zip, k1, k2, k3, k4, k1', k2', k3', k4', Nat.min_self, Nat.le_refl]),
    List.map_fst_zip (by simp only [List.length_zip, k1, k2, k3, k4, k1', k2', k3', k4', Nat.min_self, Nat.le_refl]), List.map_fst_zip (by simp only [List.length_zip, k1, k2, k3, k4, k1', k2', k3', k4', Nat.min_self, Nat.le_refl]), List.map_snd_zip (by simp only [List.length_zip, k1, k2, k3, k4, k1', k2', k3', k4', Nat.min_self, Nat.le_refl])] at e2
  rw [List.map_fst_zip (by simp only [List.length_zip, k1, k2, k3, k4, k1', k2', k3', k4', Nat.min_self, Nat.le_refl]), List.map_fst_zip (by simp only [List.length_zip, k1, k2, k3, k4, k1', k2', k3', k4', Nat.min_self, Nat.le_refl]), List.map_fst_zip (by simp only [List.length_zip, k1, k2, k3, k4, k1', k2', k3', k4', Nat.min_self, Nat.le_refl]),
    List.map_fst_zip (by simp only [List.length_zip, k1, k2, k3, k4, k1', k2', k3', k4', Nat.min_self, Nat.le_refl]), List.map_fst_zip (by simp only [List.length_zip, k1, k2, k3, k4, k1', k2', k3', k4', Nat.min_self, Nat.le_refl]), List.map_fst_zip (by simp only [List.length_zip, k1, k2, k3, k4, k1', k2', k3', k4', Nat.min_self, Nat.le_refl])] at e1
  cases p; cases p'
  simp only at e1 e2 e3 e4
  subst e1 e2 e3 e4
  rfl

theorem fold_inj (P : Params) (nb : Nat) (ccs : CCS R) (p p' : FoldProof R) (al ze mu be pt al' ze' mu' be' pt' : List F)
    (bss bss' : List (List UInt8)) (hs : foldShape p = foldShape p') (hn : p.sumcheck.length = ccs.s)
    (h1 : al.length = al'.length) (h2 : ze.length = ze'.length) (h3 : mu.length = mu'.length) (h4 : be.length = be'.length)
    (h5 : pt.length = ccs.s) (h5' : pt'.length = ccs.s)
    (h : foldLog P nb ccs p al ze mu be pt bss = foldLog P nb ccs p' al' ze' mu' be' pt' bss') :
    p = p' ∧ pt = pt' ∧ bss = bss' := by
  simp only [foldShape, List.cons.injEq, and_true] at hs
  obtain ⟨s1, s2, s3⟩ := hs
  unfold foldLog at h
  simp only [List.append_assoc] at h
  replace h := drawn_inj _ _ _ _ _ h1 h
  obtain ⟨q0, h⟩ := h
  subst q0
  replace h := drawn_inj _ _ _ _ _ h2 h
  obtain ⟨q0, h⟩ := h
  subst q0
  replace h := drawn_inj _ _ _ _ _ h3 h
  obtain ⟨q0, h⟩ := h
  subst q0
  replace h := drawn_inj _ _ _ _ _ h4 h
  obtain ⟨q0, h⟩ := h
  subst q0
  replace h := sumcheck_inj _ _ _ _ _ _ _ _ s1 (h5.trans hn.symm) (h5'.trans hn.symm) h
  obtain ⟨e1, q1, h⟩ := h
  subst q1
  replace h := sent_append_inj (by rw [List.length_flatten, List.length_flatten, s2]) h
  obtain ⟨e2, h⟩ := h
  replace h := sent_append_inj (by rw [List.length_flatten, List.length_flatten, s3]) h
  obtain ⟨e3, h⟩ := h
  replace e2 : p.thetaS = p'.thetaS := List.eq_iff_flatten_eq.mpr ⟨e2, s2⟩
  replace e3 : p.etaS = p'.etaS := List.eq_iff_flatten_eq.mpr ⟨e3, s3⟩
  have e4 := List.append_cancel_left h
  cases p; cases p'
  simp only at e1 e2 e3
  subst e1 e2 e3
  refine ⟨rfl, rfl, List.map_injective_iff.mpr (fun _ _ h => by cases h; rfl) e4⟩

theorem public_inj (a a' : LCCCS R) (c c' : CCCS R) (t t' : List (Event F R)) (hs : accShape a = accShape a')
    (hc : cmShape c = cmShape c') (h : publicEv a c ++ t = publicEv a' c' ++ t') : a = a' ∧ c = c' ∧ t = t' := by
  simp only [accShape, cmShape, List.cons.injEq, and_true] at hs hc
  obtain ⟨s1, s2, s3, s4, s5⟩ := hs
  unfold publicEv at h
  simp only [List.append_assoc] at h
  replace h := List.append_cancel_left h
  replace h := sent_append_inj s1 h
  obtain ⟨e1, h⟩ := h
  replace h := sent_append_inj s2 h
  obtain ⟨e2, h⟩ := h
  replace h := sent_append_inj s3 h
  obtain ⟨e3, h⟩ := h
  replace h := sent_append_inj s4 h
  obtain ⟨e4, h⟩ := h
  replace h := sent_append_inj s5 h
  obtain ⟨e5, h⟩ := h
  replace h := sent_append_inj (by simp) h
  obtain ⟨e6, h⟩ := h
  replace h := List.append_cancel_left h
  replace h := sent_append_inj hc.1 h
  obtain ⟨e7, h⟩ := h
  replace h := sent_append_inj hc.2 h
  obtain ⟨e8, h⟩ := h
  obtain ⟨r, v, ⟨cm⟩, u, xw, hh⟩ := a
  obtain ⟨r', v', ⟨cm'⟩, u', xw', hh'⟩ := a'
  obtain ⟨⟨d⟩, x⟩ := c
  obtain ⟨⟨d'⟩, x'⟩ := c'
  simp only [List.cons.injEq, and_true] at e1 e2 e3 e4 e5 e6 e7 e8
  subst e1 e2 e3 e4 e5 e6 e7 e8
  exact ⟨rfl, rfl, h⟩

end Inj

end Verif.Props
