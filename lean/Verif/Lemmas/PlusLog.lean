import Verif.Spec.PlusLog
import Verif.Lemmas.Log
import Verif.Lemmas.PlusSetVer
import Verif.Lemmas.PlusRange
import Verif.Props.Binding

/-!
# Recording transcripts and the draws of `latticefold-plus`
-/

set_option linter.unusedSectionVars false
set_option linter.unusedSimpArgs false

namespace Verif.Plus

open Finset Spec Verif.Props

variable {F R : Type} {d : Nat} (o : Oracle F R) [Field F] [CommRing R] [Algebra F R] [DecidableEq F] [DecidableEq R]

theorem recT_drawClaims (nv k : Nat) (s : {l : List (Event F R) // Honest o l}) :
    (drawClaims (recT o) nv k s).2.1 = s.1 ++ ((drawClaims (recT o) nv k s).1.map claimEv).flatten ∧
    (drawClaims (recT o) nv k s).1.length = k ∧ ∀ t ∈ (drawClaims (recT o) nv k s).1, t.1.length = nv := by
  induction k generalizing s with
  | zero => simp [drawClaims]
  | succ k ih =>
    simp only [drawClaims]
    obtain ⟨h1, h2, h3⟩ := ih (drawClaim (recT o) nv s).2
    have h0 : (drawClaim (recT o) nv s).2.1 = s.1 ++ claimEv (drawClaim (recT o) nv s).1 := by
      unfold drawClaim claimEv
      have := recT_challenges o nv s
      simp only [recT] at this ⊢
      simp [this]
    refine ⟨?_, by simp [h2], ?_⟩
    · rw [h1, h0]
      simp
    · intro t ht
      rcases List.mem_cons.1 ht with rfl | ht
      · exact challenges_length (recT o) nv s
      · exact h3 t ht

theorem recT_drawAll (nv a b : Nat) (s : {l : List (Event F R) // Honest o l}) :
    ∃ (cba : List (List F × F × F)) (rc : List F), (drawAll (recT o) nv a b s).2.1 = s.1 ++ (cba.map claimEv).flatten ++ rc.map .squeeze ∧ cba.length = a + b ∧
      (∀ t ∈ cba, t.1.length = nv) ∧ rc.length = if a > 1 then 1 else 0 := by
  obtain ⟨h1, h2, h3⟩ := recT_drawClaims o nv (a + b) s
  unfold drawAll
  simp only
  split
  · refine ⟨_, [((recT o).challenge (drawClaims (recT o) nv (a + b) s).2).1], ?_, h2, h3, by simp⟩
    simp only [List.map_cons, List.map_nil]
    rw [← h1]
    simp [recT]
  · exact ⟨_, [], by simp [h1], h2, h3, by simp⟩

theorem recT_plusShort (pr : PlusRing F R d) (s s' : {l : List (Event F R) // Honest o l}) (x : R)
    (h : shortChallenge pr 128 (recT o) s = .ok (x, s')) :
    ∃ bs : List UInt8, bs.length = d ∧ x = shortElt pr bs ∧ s'.1 = s.1 ++ [.bytes d bs] := by
  unfold shortChallenge at h
  split at h
  · cases h
  simp only at h
  split at h
  · rename_i hl
    simp only [Except.ok.injEq, Prod.mk.injEq] at h
    obtain ⟨rfl, rfl⟩ := h
    rw [List.length_map] at hl
    refine ⟨((recT o).bytes s d).1, hl, ?_, by simp [recT]⟩
    unfold shortElt
    congr 1
    funext i
    rw [List.getD_eq_getElem?_getD, List.getElem?_map, List.getElem?_eq_getElem (by rw [hl]; exact i.2), List.getD_eq_getElem?_getD,
      List.getElem?_eq_getElem (by rw [hl]; exact i.2)]
    simp
  · cases h

theorem recT_plusShorts (pr : PlusRing F R d) (n : Nat) (s s' : {l : List (Event F R) // Honest o l}) (xs : List R)
    (h : Plus.shortChallenges pr (recT o) n s = .ok (xs, s')) :
    ∃ bss : List (List UInt8), bss.length = n ∧ (∀ bs ∈ bss, bs.length = d) ∧ xs = bss.map (shortElt pr) ∧
      s'.1 = s.1 ++ bss.map (.bytes d) := by
  induction n generalizing s xs with
  | zero =>
    simp only [Plus.shortChallenges, Except.ok.injEq, Prod.mk.injEq] at h
    obtain ⟨rfl, rfl⟩ := h
    exact ⟨[], rfl, by simp, rfl, by simp⟩
  | succ n ih =>
    simp only [Plus.shortChallenges, bind_eq_ok, Prod.exists] at h
    obtain ⟨x, s1, h1, ys, s2, h2, h3⟩ := h
    simp only [Except.ok.injEq, Prod.mk.injEq] at h3
    obtain ⟨rfl, rfl⟩ := h3
    obtain ⟨bs, g1, g2, g3⟩ := recT_plusShort o pr _ _ _ h1
    obtain ⟨bss, k1, k2, k3, k4⟩ := ih _ _ h2
    refine ⟨bs :: bss, by simp [k1], ?_, by simp [g2, k3], by rw [k4, g3]; simp⟩
    intro b hb
    rcases List.mem_cons.1 hb with rfl | hb
    · exact g1
    · exact k2 b hb

theorem recT_sPrime (pr : PlusRing F R d) (k : Nat) (s s' : {l : List (Event F R) // Honest o l}) (xss : List (List R))
    (h : sPrime pr (recT o) k s = .ok (xss, s')) :
    ∃ bss : List (List UInt8), bss.length = k * d ∧ (∀ bs ∈ bss, bs.length = d) ∧ xss.flatten = bss.map (shortElt pr) ∧
      s'.1 = s.1 ++ bss.map (.bytes d) := by
  induction k generalizing s xss with
  | zero =>
    simp only [sPrime, Except.ok.injEq, Prod.mk.injEq] at h
    obtain ⟨rfl, rfl⟩ := h
    exact ⟨[], by simp, by simp, rfl, by simp⟩
  | succ k ih =>
    simp only [sPrime, bind_eq_ok, Prod.exists] at h
    obtain ⟨row, s1, h1, rows, s2, h2, h3⟩ := h
    simp only [Except.ok.injEq, Prod.mk.injEq] at h3
    obtain ⟨rfl, rfl⟩ := h3
    obtain ⟨b1, g1, g2, g3, g4⟩ := recT_plusShorts o pr _ _ _ _ h1
    obtain ⟨b2, k1, k2, k3, k4⟩ := ih _ _ h2
    refine ⟨b1 ++ b2, by simp [g1, k1]; ring, ?_, by simp [g3, k3], by rw [k4, g4]; simp⟩
    intro b hb
    rcases List.mem_append.1 hb with hb | hb
    · exact g2 b hb
    · exact k2 b hb

theorem recT_absorbSet (s : {l : List (Event F R) // Honest o l}) (e : List (List (List R))) (b : List R) :
    (absorbSet (recT o) s e b).1 = s.1 ++ sent e.flatten.flatten ++ sent b := by
  have h1 : ∀ (ek : List (List R)) (t : {l : List (Event F R) // Honest o l}),
      (ek.foldl (fun s ej => (recT o).absorbSlice s ej) t).1 = t.1 ++ sent ek.flatten := by
    intro ek
    induction ek with
    | nil => intro t; simp [sent]
    | cons ej ek ih => intro t; rw [List.foldl_cons, ih, recT_absorbSlice]; simp [sent]
  have h2 : ∀ (e : List (List (List R))) (t : {l : List (Event F R) // Honest o l}),
      (e.foldl (fun s ek => ek.foldl (fun s ej => (recT o).absorbSlice s ej) s) t).1 = t.1 ++ sent e.flatten.flatten := by
    intro e
    induction e with
    | nil => intro t; simp [sent]
    | cons ek e ih => intro t; rw [List.foldl_cons, ih, h1]; simp [sent]
  unfold absorbSet
  rw [recT_absorbSlice, h2]

theorem recT_absorbDcom (s : {l : List (Event F R) // Honest o l}) (evals : List (DcomEvals F R)) :
    (absorbDcom (recT o) s evals).1 = s.1 ++ dcomEv evals := by
  unfold absorbDcom dcomEv
  induction evals generalizing s with
  | nil => simp
  | cons ev evals ih => rw [List.foldl_cons, ih, recT_absorbSlice, recT_absorbSlice]; simp

theorem recT_absorbQuads (s : {l : List (Event F R) // Honest o l}) (evals : List (InstanceEvals R)) :
    (absorbQuads (recT o) s evals).1 = s.1 ++ (evals.flatten.map fun q => sent [q.a, q.b, q.c, q.h]).flatten := by
  have h1 : ∀ (ie : InstanceEvals R) (t : {l : List (Event F R) // Honest o l}),
      (ie.foldl (fun s q => (recT o).absorbSlice s [q.a, q.b, q.c, q.h]) t).1
        = t.1 ++ (ie.map fun q => sent [q.a, q.b, q.c, q.h]).flatten := by
    intro ie
    induction ie with
    | nil => intro t; simp
    | cons q ie ih => intro t; rw [List.foldl_cons, ih, recT_absorbSlice]; simp
  unfold absorbQuads
  induction evals generalizing s with
  | nil => simp
  | cons ie evals ih => rw [List.foldl_cons, ih, h1]; simp

theorem unwrapRes_ok {α : Type} {site : String} {x : Res α} {a : α} (h : unwrapRes site x = .ok a) : x = .ok a := by
  unfold unwrapRes at h
  split at h
  · exact h
  · cases h

section Inj
variable {F R : Type} {d : Nat} [Field F] [CommRing R] [Algebra F R]

theorem algebraMap_inj (pr : PlusRing F R d) : Function.Injective (algebraMap F R) := fun a b h => by
  have := congrArg pr.ct h
  rwa [ct_algebraMap, ct_algebraMap] at this

theorem claims_inj (nv : Nat) (l l' : List (List F × F × F)) (t t' : List (Event F R)) (hl : l.length = l'.length)
    (h1 : ∀ x ∈ l, x.1.length = nv) (h2 : ∀ x ∈ l', x.1.length = nv)
    (h : (l.map claimEv).flatten ++ t = (l'.map claimEv).flatten ++ t') : l = l' ∧ t = t' := by
  induction l generalizing l' with
  | nil =>
    have : l' = [] := List.length_eq_zero_iff.1 hl.symm
    subst this
    exact ⟨rfl, by simpa using h⟩
  | cons x l ih =>
    cases l' with
    | nil => simp at hl
    | cons y l' =>
      simp only [List.map_cons, List.flatten_cons, List.append_assoc] at h
      obtain ⟨q1, h⟩ := squeeze_append_inj (by
        rw [List.length_append, List.length_append, h1 x List.mem_cons_self, h2 y List.mem_cons_self]; simp) h
      obtain ⟨q2, h⟩ := ih l' (by simpa using hl) (fun z hz => h1 z (List.mem_cons_of_mem _ hz))
        (fun z hz => h2 z (List.mem_cons_of_mem _ hz)) h
      obtain ⟨q3, q4⟩ := List.append_inj q1 (by rw [h1 x List.mem_cons_self, h2 y List.mem_cons_self])
      simp only [List.cons.injEq, and_true] at q4
      refine ⟨?_, h⟩
      rw [q2]
      obtain ⟨a, b, c⟩ := x
      obtain ⟨a', b', c'⟩ := y
      simp only at q3 q4
      rw [q3, q4.1, q4.2]

theorem dcomEv_inj (pr : PlusRing F R d) (l l' : List (DcomEvals F R)) (t t' : List (Event F R))
    (hl : l.map (fun ev => (ev.a.length, ev.c.length)) = l'.map (fun ev => (ev.a.length, ev.c.length)))
    (h : dcomEv l ++ t = dcomEv l' ++ t') : l.map (fun ev => (ev.a, ev.c)) = l'.map (fun ev => (ev.a, ev.c)) ∧ t = t' := by
  unfold dcomEv at h
  induction l generalizing l' with
  | nil =>
    have : l' = [] := by simpa using hl.symm
    subst this
    exact ⟨rfl, by simpa using h⟩
  | cons x l ih =>
    cases l' with
    | nil => simp at hl
    | cons y l' =>
      simp only [List.map_cons, List.cons.injEq, Prod.mk.injEq] at hl
      simp only [List.map_cons, List.flatten_cons, List.append_assoc] at h
      obtain ⟨q1, h⟩ := sent_append_inj (by simp [hl.1.1]) h
      obtain ⟨q2, h⟩ := sent_append_inj hl.1.2 h
      obtain ⟨q3, h⟩ := ih l' hl.2 h
      refine ⟨?_, h⟩
      rw [List.map_cons, List.map_cons, q3, q2, List.map_injective_iff.2 (algebraMap_inj pr) q1]

theorem quads_inj (l l' : List (InstanceEvals R)) (t t' : List (Event F R)) (hl : l.map List.length = l'.map List.length)
    (h : (l.flatten.map fun q => sent (F := F) [q.a, q.b, q.c, q.h]).flatten ++ t
      = (l'.flatten.map fun q => sent [q.a, q.b, q.c, q.h]).flatten ++ t') : l = l' ∧ t = t' := by
  have key : ∀ m m' : List (Quad R), m.length = m'.length →
      (m.map fun q => sent (F := F) [q.a, q.b, q.c, q.h]).flatten ++ t = (m'.map fun q => sent [q.a, q.b, q.c, q.h]).flatten ++ t' →
      m = m' ∧ t = t' := by
    intro m
    induction m with
    | nil =>
      intro m' hm h
      have : m' = [] := List.length_eq_zero_iff.1 hm.symm
      subst this
      exact ⟨rfl, by simpa using h⟩
    | cons x m ih =>
      intro m' hm h
      cases m' with
      | nil => simp at hm
      | cons y m' =>
        simp only [List.map_cons, List.flatten_cons, List.append_assoc] at h
        obtain ⟨q1, h⟩ := sent_append_inj (by simp) h
        obtain ⟨q2, h⟩ := ih m' (by simpa using hm) h
        refine ⟨?_, h⟩
        simp only [List.cons.injEq, and_true] at q1
        obtain ⟨a, b, c, e⟩ := x
        obtain ⟨a', b', c', e'⟩ := y
        simp only at q1
        rw [q2, q1.1, q1.2.1, q1.2.2.1, q1.2.2.2]
  obtain ⟨h1, h2⟩ := key _ _ (by rw [List.length_flatten, List.length_flatten, hl]) h
  exact ⟨List.eq_iff_flatten_eq.2 ⟨h1, hl⟩, h2⟩

theorem flatten2_inj (e e' : List (List (List R))) (hl : e.map (fun x => x.map List.length) = e'.map (fun x => x.map List.length))
    (h : e.flatten.flatten = e'.flatten.flatten) : e = e' := by
  have h1 : e.map List.length = e'.map List.length := by
    have := congrArg (List.map List.length) hl
    simpa [List.map_map, Function.comp_def] using this
  have h2 : e.flatten.map List.length = e'.flatten.map List.length := by
    have := congrArg List.flatten hl
    rwa [← List.map_flatten, ← List.map_flatten] at this
  exact List.eq_iff_flatten_eq.2 ⟨List.eq_iff_flatten_eq.2 ⟨h, h2⟩, h1⟩

theorem bytes_inj (l l' : List (List UInt8)) (t t' : List (Event F R)) (hl : l.length = l'.length)
    (h : l.map (.bytes d) ++ t = l'.map (.bytes d) ++ t') : l = l' ∧ t = t' := by
  obtain ⟨h1, h2⟩ := List.append_inj h (by simp [hl])
  exact ⟨List.map_injective_iff.2 (fun _ _ h => by cases h; rfl) h1, h2⟩

theorem cmSum_inj (n : Nat) (p p' : List (List R)) (e e' : List (InstanceEvals R)) (rc rc' : F) (pt pt' : List F) (t t' : List (Event F R))
    (hs : p.map List.length = p'.map List.length) (hp : pt.length = p.length) (hp' : pt'.length = p.length)
    (he : e.map List.length = e'.map List.length)
    (h : cmSumLog n p e rc pt ++ t = cmSumLog n p' e' rc' pt' ++ t') : p = p' ∧ e = e' ∧ t = t' := by
  unfold cmSumLog at h
  simp only [List.cons_append, List.append_assoc, List.cons.injEq] at h
  obtain ⟨q1, -, h⟩ := sumcheck_inj _ _ _ _ _ _ _ _ hs hp hp' h.2
  obtain ⟨q2, h⟩ := quads_inj _ _ _ _ he h
  exact ⟨q1, q2, h⟩

end Inj

end Verif.Plus
