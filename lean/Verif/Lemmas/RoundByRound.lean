import Verif.Lemmas.Oracle
import Verif.Lemmas.Tape

/-! Challenges followed by a sum-check, with the challenges from an oracle: every accepted false claim shows a query with a bad answer. -/

set_option linter.unusedSectionVars false
set_option linter.unusedSimpArgs false

namespace Verif

open Finset Spec Polynomial

section
variable {F R : Type}

/-! ### Reading histories -/

/-- The challenges handed out, earliest first. -/
def drawsOf : History F R → List F
  | [] => []
  | .drawn c :: h => drawsOf h ++ [c]
  | .elem _ :: h => drawsOf h
  | .bytes _ :: h => drawsOf h

/-- The elements absorbed, earliest first. -/
def elemsOf : History F R → List R
  | [] => []
  | .elem x :: h => elemsOf h ++ [x]
  | .drawn _ :: h => elemsOf h
  | .bytes _ :: h => elemsOf h

theorem elemsOf_map (m : List R) : elemsOf (F := F) (m.reverse.map Entry.elem) = m := by
  induction m using List.reverseRecOn with
  | nil => rfl
  | append_singleton m x ih =>
    rw [List.reverse_append]
    change elemsOf (Entry.elem x :: (m.reverse.map Entry.elem)) = _
    rw [elemsOf, ih]

/-- The history `h` continues `b` with the challenges `u`. -/
structure At (L0 : Nat) (h b : History F R) (u : List F) : Prop where
  le : L0 ≤ h.length
  base : h.drop (h.length - L0) = b
  draws : drawsOf (h.take (h.length - L0)) = u

theorem At.start (h : History F R) : At h.length h h [] := by
  refine ⟨le_rfl, ?_, ?_⟩ <;> simp [drawsOf]

theorem At.cons {L0 : Nat} {h b : History F R} {u : List F} (H : At L0 h b u) (e : Entry F R) :
    (e :: h).drop ((e :: h).length - L0) = b ∧ (e :: h).take ((e :: h).length - L0) = e :: h.take (h.length - L0) := by
  have : (e :: h).length - L0 = (h.length - L0) + 1 := by
    have := H.le
    simp only [List.length_cons]
    omega
  rw [this]
  exact ⟨by rw [List.drop_succ_cons]; exact H.base, by rw [List.take_succ_cons]⟩

theorem At.elem {L0 : Nat} {h b : History F R} {u : List F} (H : At L0 h b u) (x : R) : At L0 (.elem x :: h) b u :=
  ⟨by simpa using H.le.trans (Nat.le_succ _), (H.cons _).1, by rw [(H.cons _).2]; exact H.draws⟩

theorem At.drawn {L0 : Nat} {h b : History F R} {u : List F} (H : At L0 h b u) (c : F) : At L0 (.drawn c :: h) b (u ++ [c]) :=
  ⟨by simpa using H.le.trans (Nat.le_succ _), (H.cons _).1, by rw [(H.cons _).2, drawsOf, H.draws]⟩

theorem absorbSlice_oracle (O : History F R → F) (B : History F R → Nat → List UInt8) (h : History F R) (m : List R) :
    (oracleT O B).absorbSlice h m = m.reverse.map Entry.elem ++ h := by
  unfold Transcript.absorbSlice
  induction m generalizing h with
  | nil => rfl
  | cons x m ih =>
    rw [List.foldl_cons, ih]
    simp [oracleT]

theorem At.slice {L0 : Nat} {h b : History F R} {u : List F} (H : At L0 h b u) (m : List R) :
    At L0 (m.reverse.map Entry.elem ++ h) b u := by
  induction m using List.reverseRecOn with
  | nil => exact H
  | append_singleton m x ih =>
    rw [List.reverse_append]
    exact ih.elem x

/-! ### Drawing challenges as an algorithm -/

/-- `Transcript.challenges`. -/
def chA : Nat → History F R → Alg (History F R) F (List F × History F R)
  | 0, h => .done ([], h)
  | n + 1, h => .ask h fun c => Alg'.bind (chA n (.drawn c :: h)) fun r => .done (c :: r.1, r.2)

theorem chA_run (O : History F R → F) (B : History F R → Nat → List UInt8) (n : Nat) (h : History F R) :
    (chA n h).run O = (oracleT O B).challenges n h := by
  induction n generalizing h with
  | zero => rfl
  | succ n ih =>
    change (Alg'.bind (chA n (.drawn (O h) :: h)) _).run O = _
    rw [Alg'.run_bind, ih]
    rfl

theorem chA_atMost (n : Nat) (h : History F R) : (chA n h).AtMost n := by
  induction n generalizing h with
  | zero => trivial
  | succ n ih => exact fun c => Alg'.atMost_bind _ _ n 0 (ih _) fun _ => trivial

theorem chA_asked (O : History F R → F) (n : Nat) (h : History F R) :
    Alg'.asked O (chA (n + 1) h) = h :: Alg'.asked O (chA n (.drawn (O h) :: h)) := by
  change h :: Alg'.asked O (Alg'.bind (chA n (.drawn (O h) :: h)) _) = _
  rw [Alg'.asked_bind]
  simp [Alg'.asked]

theorem chA_run_succ (O : History F R → F) (n : Nat) (h : History F R) :
    (chA (n + 1) h).run O = (O h :: ((chA n (.drawn (O h) :: h)).run O).1, ((chA n (.drawn (O h) :: h)).run O).2) := by
  change Alg.run O (Alg'.bind (chA n (.drawn (O h) :: h)) fun r => .done (O h :: r.1, r.2)) = _
  rw [Alg'.run_bind]
  rfl

theorem At.challenges {L0 : Nat} {b : History F R} (O : History F R → F) (n : Nat) {h : History F R} {u : List F} (H : At L0 h b u) :
    At L0 ((chA n h).run O).2 b (u ++ ((chA n h).run O).1) := by
  induction n generalizing h u with
  | zero => simpa [chA, Alg.run] using H
  | succ n ih =>
    rw [chA_run_succ]
    have := ih (H.drawn (O h))
    rw [List.append_assoc] at this
    exact this

theorem chA_length (O : History F R → F) (n : Nat) (h : History F R) : ((chA n h).run O).1.length = n := by
  induction n generalizing h with
  | zero => rfl
  | succ n ih =>
    rw [chA_run_succ, List.length_cons, ih]

end

section
variable {F R : Type} [Field F] [DecidableEq F] [CommRing R] [DecidableEq R] [Algebra F R]

/-- `drawRun`. -/
def drA : History F R → List (List R) → Alg (History F R) F (List F × History F R)
  | h, [] => .done ([], h)
  | h, m :: ms => .ask (m.reverse.map Entry.elem ++ h) fun c =>
      Alg'.bind (drA (.elem (algebraMap F R c) :: .drawn c :: (m.reverse.map Entry.elem ++ h)) ms) fun r => .done (c :: r.1, r.2)

theorem drA_run_cons (O : History F R → F) (h : History F R) (m : List R) (ms : List (List R)) :
    (drA h (m :: ms)).run O = (O (m.reverse.map Entry.elem ++ h) ::
        ((drA (.elem (algebraMap F R (O (m.reverse.map Entry.elem ++ h))) :: .drawn (O (m.reverse.map Entry.elem ++ h))
          :: (m.reverse.map Entry.elem ++ h)) ms).run O).1,
      ((drA (.elem (algebraMap F R (O (m.reverse.map Entry.elem ++ h))) :: .drawn (O (m.reverse.map Entry.elem ++ h))
          :: (m.reverse.map Entry.elem ++ h)) ms).run O).2) := by
  change Alg.run O (Alg'.bind (drA _ ms) fun r => .done (_ :: r.1, r.2)) = _
  rw [Alg'.run_bind]
  rfl

theorem drA_run (O : History F R → F) (B : History F R → Nat → List UInt8) (h : History F R) (ms : List (List R)) :
    (drA h ms).run O = drawRun (oracleT O B) h ms := by
  induction ms generalizing h with
  | nil => rfl
  | cons m ms ih =>
    rw [drA_run_cons, ih, drawRun, absorbSlice_oracle]
    rfl

theorem drA_atMost (h : History F R) (ms : List (List R)) (n : Nat) (hn : ms.length ≤ n) : (drA h ms).AtMost n := by
  induction ms generalizing h n with
  | nil => cases n <;> trivial
  | cons m ms ih =>
    cases n with
    | zero => simp at hn
    | succ n => exact fun c => Alg'.atMost_bind _ _ n 0 (ih _ n (by simpa using hn)) fun _ => trivial

theorem drA_asked (O : History F R → F) (h : History F R) (m : List R) (ms : List (List R)) :
    Alg'.asked O (drA h (m :: ms)) = (m.reverse.map Entry.elem ++ h) :: Alg'.asked O
      (drA (.elem (algebraMap F R (O (m.reverse.map Entry.elem ++ h))) :: .drawn (O (m.reverse.map Entry.elem ++ h))
        :: (m.reverse.map Entry.elem ++ h)) ms) := by
  change _ :: Alg'.asked O (Alg'.bind _ _) = _
  rw [Alg'.asked_bind]
  simp [Alg'.asked]

/-! ### Bad answers -/

variable [Fintype F]

open Classical in
/-- Answers after which the defect `G` vanishes whatever follows. -/
noncomputable def preSet (L0 a : Nat) (G : History F R → List F → R) (h : History F R) : Finset F :=
  univ.filter fun t => ∀ w, (drawsOf (h.take (h.length - L0))).length + 1 + w.length = a →
    G (h.drop (h.length - L0)) (drawsOf (h.take (h.length - L0)) ++ t :: w) = 0

open Classical in
/-- Answers at which the last message agrees with the partial sum of `f`. -/
noncomputable def scSet (L0 a n d : Nat) (f : History F R → List F → List R → R) (h : History F R) : Finset F :=
  univ.filter fun t => interpolateUniPoly (elemsOf (h.take (d + 1))) t = .ok
    (restSum (f (h.drop (h.length - L0)) ((drawsOf (h.take (h.length - L0))).take a))
      (((drawsOf (h.take (h.length - L0))).drop a ++ [t]).map (algebraMap F R))
      (n - ((drawsOf (h.take (h.length - L0))).length - a) - 1))

/-- The bad answers at a history. -/
noncomputable def rbrBad (L0 a n d δ : Nat) (G : History F R → List F → R) (f : History F R → List F → List R → R)
    (h : History F R) : Finset F :=
  if (drawsOf (h.take (h.length - L0))).length < a then
    if (preSet L0 a G h).card ≤ δ then preSet L0 a G h else ∅
  else if (scSet L0 a n d f h).card ≤ δ then scSet L0 a n d f h else ∅

theorem rbrBad_card (L0 a n d δ : Nat) (G : History F R → List F → R) (f : History F R → List F → List R → R) (h : History F R) :
    (rbrBad L0 a n d δ G f h).card ≤ δ := by
  unfold rbrBad
  split <;> split <;> simp_all

variable {L0 a n d δ : Nat} {G : History F R → List F → R} {f : History F R → List F → List R → R} {b : History F R}

/-- Degree in each of the first `a` challenges. -/
def ScalarDeg (a δ : Nat) (g : List F → R) : Prop :=
  ∀ u w : List F, u.length + 1 + w.length = a → ∃ q : R[X], q.natDegree ≤ δ ∧ ∀ t : F, g (u ++ t :: w) = q.eval (algebraMap F R t)

/-- Some continuation has a nonzero defect. -/
def Live (a : Nat) (g : List F → R) (u : List F) : Prop := ∃ w, u.length + w.length = a ∧ g (u ++ w) ≠ 0

theorem pre_step (hG : ScalarDeg a δ (G b)) {h : History F R} {u : List F} (H : At L0 h b u) (hu : u.length < a) (hl : Live a (G b) u)
    (t : F) (ht : t ∉ rbrBad L0 a n d δ G f h) : Live a (G b) (u ++ [t]) := by
  classical
  obtain ⟨w, hw, hne⟩ := hl
  cases w with
  | nil => simp at hw; omega
  | cons t0 w =>
    obtain ⟨q, hq1, hq2⟩ := hG u w (by simpa [Nat.add_assoc, Nat.add_comm 1] using hw)
    have hq0 : q ≠ 0 := by
      rintro rfl
      apply hne
      rw [hq2]
      simp
    have hcard : (preSet L0 a G h).card ≤ δ := by
      refine le_trans (card_le_card ?_) (card_scalar_roots (F := F) q hq0 δ hq1)
      intro s hs
      unfold preSet at hs
      rw [mem_filter] at hs
      rw [mem_filter]
      refine ⟨mem_univ _, ?_⟩
      have := hs.2 w
      rw [H.draws, H.base] at this
      rw [← hq2]
      exact this (by simpa [Nat.add_assoc, Nat.add_comm 1] using hw)
    unfold rbrBad at ht
    rw [H.draws, if_pos hu, if_pos hcard] at ht
    unfold preSet at ht
    rw [mem_filter] at ht
    simp only [mem_univ, true_and, not_forall] at ht
    obtain ⟨w', hw', hne'⟩ := ht
    rw [H.draws] at hw' hne'
    rw [H.base] at hne'
    exact ⟨w', by simpa using hw', by simpa using hne'⟩

theorem pre_challenges (hG : ScalarDeg a δ (G b)) (O : History F R → F) (m : Nat) {h : History F R} {u : List F} (H : At L0 h b u)
    (hu : u.length + m ≤ a) (hl : Live a (G b) u) (hno : ∀ x ∈ Alg'.asked O (chA m h), O x ∉ rbrBad L0 a n d δ G f x) :
    Live a (G b) (u ++ ((chA m h).run O).1) := by
  induction m generalizing h u with
  | zero => simpa [chA, Alg.run] using hl
  | succ m ih =>
    rw [chA_asked] at hno
    have h1 := pre_step (n := n) (d := d) (f := f) hG H (by omega) hl (O h) (hno h (by simp))
    have h2 := ih (H.drawn (O h)) (by simp; omega) h1 fun x hx => hno x (by simp [hx])
    rw [chA_run_succ]
    rw [List.append_assoc] at h2
    exact h2

theorem sc_rounds (hf : ∀ p, PartialDeg n d (f b p)) (hδ : d ≤ δ) (hc : CharGt F d) (O : History F R → F) (ms : List (List R))
    {h : History F R} {p v : List F} (H : At L0 h b (p ++ v)) (hp : p.length = a) (hv : v.length + ms.length = n) (e e' : R)
    (he : e ≠ restSum (f b p) (v.map (algebraMap F R)) ms.length) (hck : checkRec d ms ((drA h ms).run O).1 e = .ok e')
    (he' : e' = f b p ((v ++ ((drA h ms).run O).1).map (algebraMap F R))) :
    ∃ x ∈ Alg'.asked O (drA h ms), O x ∈ rbrBad L0 a n d δ G f x := by
  classical
  induction ms generalizing h v e with
  | nil =>
    exfalso
    simp only [drA, Alg.run, checkRec, Except.ok.injEq, List.append_nil] at hck he'
    apply he
    rw [hck, he', restSum]
    simp [boolPoint]
  | cons m ms ih =>
    set h1 := m.reverse.map Entry.elem ++ h with hh1
    have H1 : At L0 h1 b (p ++ v) := H.slice m
    have hrun : ((drA h (m :: ms)).run O).1 = O h1 :: ((drA (.elem (algebraMap F R (O h1)) :: .drawn (O h1) :: h1) ms).run O).1 := by
      rw [drA_run_cons]
    rw [hrun] at hck he'
    rw [drA_asked]
    by_cases hlen : m.length = d + 1
    swap
    · rw [checkRec, if_pos hlen] at hck
      simp at hck
    by_cases hd : d = 0
    · rw [checkRec, if_neg (by simpa using hlen), idx_ok (by omega), idx_error (by omega)] at hck
      simp at hck
    obtain ⟨q, hq1, hq2⟩ := exists_interpolant d hc m hlen
    obtain ⟨Q, hQ1, hQ2⟩ := restSum_poly (hf p) (v.map (algebraMap F R)) ms.length (by
      simp only [List.length_map, List.length_cons] at hv ⊢
      omega)
    have h0 : idx "evaluations[0]" m 0 = .ok (q.eval 0) := by
      rw [idx_eq_ok, hq2, List.getElem?_map, List.getElem?_range (by omega)]; simp
    have h1' : idx "evaluations[1]" m 1 = .ok (q.eval 1) := by
      rw [idx_eq_ok, hq2, List.getElem?_map, List.getElem?_range (by omega)]; simp
    by_cases hsum : q.eval 0 + q.eval 1 ≠ e
    · rw [checkRec, if_neg (by simpa using hlen), h0, h1'] at hck
      simp only [bind_ok'] at hck
      rw [if_pos hsum] at hck
      simp at hck
    have hne : q - Q ≠ 0 := by
      intro h
      have hqQ : q = Q := sub_eq_zero.1 h
      push Not at hsum
      apply he
      rw [List.length_cons, restSum_succ, hQ2, hQ2, ← hqQ, ← hsum]
    have hint : ∀ t : F, interpolateUniPoly m t = .ok (q.eval (algebraMap F R t)) := fun t => interpolate_poly d hc q hq1 _ hq2 t
    have hmsg : elemsOf (h1.take (d + 1)) = m := by
      rw [hh1, List.take_left' (by simp [hlen]), elemsOf_map]
    have hset : ∀ t : F, t ∈ scSet L0 a n d f h1 ↔ (q - Q).eval (algebraMap F R t) = 0 := by
      intro t
      unfold scSet
      rw [mem_filter, H1.draws, H1.base, hmsg, hint, List.drop_left' hp, List.take_left' hp]
      simp only [mem_univ, true_and, Except.ok.injEq]
      have hk : n - ((p ++ v).length - a) - 1 = ms.length := by
        rw [List.length_append, hp]
        simp only [List.length_cons] at hv
        omega
      rw [hk, List.map_append, List.map_singleton, hQ2, eval_sub, sub_eq_zero]
    have hcard : (scSet L0 a n d f h1).card ≤ δ := by
      refine le_trans (card_le_card ?_) ((card_scalar_roots (F := F) (q - Q) hne d
        ((natDegree_sub_le _ _).trans (Nat.max_le.2 ⟨hq1, hQ1⟩))).trans hδ)
      intro t ht
      rw [mem_filter]
      exact ⟨mem_univ _, (hset t).1 ht⟩
    by_cases hb : O h1 ∈ rbrBad L0 a n d δ G f h1
    · exact ⟨h1, List.mem_cons_self, hb⟩
    have hval : ¬ (q - Q).eval (algebraMap F R (O h1)) = 0 := by
      intro h
      apply hb
      unfold rbrBad
      rw [H1.draws, if_neg (by rw [List.length_append, hp]; omega), if_pos hcard]
      exact (hset _).2 h
    have hstep : checkRec d (m :: ms) (O h1 :: ((drA (.elem (algebraMap F R (O h1)) :: .drawn (O h1) :: h1) ms).run O).1) e
        = checkRec d ms ((drA (.elem (algebraMap F R (O h1)) :: .drawn (O h1) :: h1) ms).run O).1 (q.eval (algebraMap F R (O h1))) := by
      rw [checkRec, if_neg (by simpa using hlen), h0, h1']
      simp only [bind_ok']
      rw [if_neg hsum, hint]
      rfl
    rw [hstep] at hck
    have H2 : At L0 (.elem (algebraMap F R (O h1)) :: .drawn (O h1) :: h1) b (p ++ (v ++ [O h1])) := by
      have := (H1.drawn (O h1)).elem (algebraMap F R (O h1))
      rwa [List.append_assoc] at this
    obtain ⟨x, hx, hxb⟩ := ih H2 (by simp only [List.length_append, List.length_cons, List.length_nil] at hv ⊢; omega) _ (by
      intro h
      apply hval
      rw [eval_sub, h, List.map_append, List.map_singleton, hQ2, sub_self]) hck (by simpa using he')
    exact ⟨x, List.mem_cons_of_mem _ hx, hxb⟩

/-- The sum-check part of the verifier: acceptance of a false claim shows a bad answer. -/
theorem sc_verify (B : History F R → Nat → List UInt8) (hf : ∀ p, PartialDeg n d (f b p)) (hδ : d ≤ δ) (hc : CharGt F d) (hn : n ≠ 0)
    (O : History F R → F) {h s' : History F R} {p : List F} (H : At L0 h b p) (hp : p.length = a) (c : R)
    (hclaim : c ≠ restSum (f b p) [] n) (proof : List (List R)) (sc : SubClaim F R)
    (hver : verifyAsSubprotocol (oracleT O B) h n d c proof = .ok (sc, s'))
    (hval : sc.expectedEvaluation = f b p (sc.point.map (algebraMap F R))) :
    ∃ x ∈ Alg'.asked O (drA (.elem (d : R) :: .elem (n : R) :: h) (proof.take n)), O x ∈ rbrBad L0 a n d δ G f x := by
  by_cases hl : n ≤ proof.length
  swap
  · rw [verify_short _ _ _ _ _ _ (by omega)] at hver
    simp at hver
  rw [verify_eq _ _ _ _ hn _ _ hl, bind_eq_ok] at hver
  obtain ⟨e, hck, hout⟩ := hver
  simp only [Except.ok.injEq, Prod.mk.injEq] at hout
  obtain ⟨rfl, -⟩ := hout
  have hrun := drA_run O B (.elem (d : R) :: .elem (n : R) :: h) (proof.take n)
  have habs : (oracleT O B).absorb ((oracleT O B).absorb h (n : R)) (d : R) = .elem (d : R) :: .elem (n : R) :: h := rfl
  rw [habs, ← hrun] at hck hval
  have hlen : (proof.take n).length = n := by simp [hl]
  refine sc_rounds (p := p) (v := []) hf hδ hc O (proof.take n) (by simpa using (H.elem (n : R)).elem (d : R)) hp (by simpa using hlen)
    c e (by simpa [hl] using hclaim) hck (by simpa using hval)

end

/-! ### The final count -/

section
variable {F H α β : Type} [Fintype F] [DecidableEq F]

open Classical in
/-- If every accepted forgery shows a query of the adversary `A` or the verifier `V` with a bad answer, forgeries are rare. -/
theorem forgery_count (A : Alg H F α) (V : α → Alg H F β) (Q m δ : Nat) (hA : A.AtMost Q) (hV : ∀ x, (V x).AtMost m)
    (Bad : H → Finset F) (hBad : ∀ h, (Bad h).card ≤ δ) (Ev : (H → F) → Prop)
    (hEv : ∀ O, Ev O → ∃ h ∈ Alg'.asked O (V (A.run O)), O h ∈ Bad h) :
    ∃ X0 : Finset H, ∀ X, X0 ⊆ X → ∀ E : H → F,
      oracleCount X E Ev ≤ (Q + m) * δ * Fintype.card F ^ (X.card - 1) := by
  refine ⟨Alg'.support (Alg'.bind A V), fun X hX E => ?_⟩
  refine le_trans (card_le_card ?_) (Alg'.hit_count' X E Bad δ hBad (Alg'.bind A V) (Q + m) (Alg'.atMost_bind A V Q m hA hV))
  intro o ho
  rw [mem_filter] at ho ⊢
  obtain ⟨h, h1, h2⟩ := hEv _ ho.2
  refine ⟨mem_univ _, h, ?_, ?_, h2⟩
  · rw [Alg'.asked_bind]
    exact List.mem_append_right _ h1
  · apply hX
    apply Alg'.asked_support (onSet X E o)
    rw [Alg'.asked_bind]
    exact List.mem_append_right _ h1

end

end Verif
