import Verif.Spec.Parallel
import Verif.Lemmas.SumcheckSound

/-! Outcomes with feature `parallel`. -/

set_option linter.unusedSectionVars false
set_option linter.unusedSimpArgs false

namespace Verif.Par

open Verif.Spec

variable {Fp F C σ R : Type} {N τ : Nat} {α β : Type}

theorem same_seq (x : Res α) : SameResult (seq x) x :=
  ⟨fun _ => eq_comm, ⟨fun ⟨e, h⟩ => ⟨e, h.symm⟩, fun ⟨e, h⟩ => ⟨e, h.symm⟩⟩⟩

theorem same_bind {m : ND α} {x : Res α} {f : α → ND β} {g : α → Res β} (h : SameResult m x)
    (hf : ∀ a, x = .ok a → SameResult (f a) (g a)) : SameResult (m >>= f) (x >>= g) := by
  have hb : ∀ r, (m >>= f) r ↔ ∃ y, m y ∧ match y with | .ok a => f a r | .error e => r = .error e := fun r => Iff.rfl
  cases x with
  | error e0 =>
    have hno : ∀ a, ¬ m (.ok a) := fun a ha => nomatch (h.1 a).1 ha
    obtain ⟨e1, he1⟩ := h.2.2 ⟨e0, rfl⟩
    refine ⟨fun b => ?_, ?_⟩
    · rw [hb]
      refine ⟨?_, fun hx => nomatch hx⟩
      rintro ⟨y, hy, hr⟩
      cases y with
      | ok a => exact absurd hy (hno a)
      | error e => exact nomatch hr
    · exact ⟨fun _ => ⟨e0, rfl⟩, fun _ => ⟨e1, (hb _).2 ⟨.error e1, he1, rfl⟩⟩⟩
  | ok a =>
    have hne : ∀ e, ¬ m (.error e) := fun e he => by
      obtain ⟨e', h'⟩ := h.2.1 ⟨e, he⟩
      cases h'
    have ha := (h.1 a).2 rfl
    have hr : ∀ r, (m >>= f) r ↔ f a r := by
      intro r
      rw [hb]
      constructor
      · rintro ⟨y, hy, hr⟩
        cases y with
        | ok a' =>
          have := (h.1 a').1 hy
          cases this
          exact hr
        | error e => exact absurd hy (hne e)
      · exact fun hr => ⟨.ok a, ha, hr⟩
    have := hf a rfl
    refine ⟨fun b => ?_, ?_⟩
    · rw [hr]; exact this.1 b
    · simp only [hr]; exact this.2

theorem same_parMap {f : α → ND β} {g : α → Res β} {l : List α} (h : ∀ a ∈ l, SameResult (f a) (g a)) :
    SameResult (parMap f l) (mapRes g l) := by
  have key : ∀ bs, List.Forall₂ (fun a b => f a (.ok b)) l bs ↔ mapRes g l = .ok bs := by
    intro bs
    rw [mapRes_eq_ok_iff]
    induction l generalizing bs with
    | nil => cases bs <;> simp
    | cons a l ih =>
      cases bs with
      | nil => simp
      | cons b bs =>
        rw [List.forall₂_cons, List.forall₂_cons, ih fun a ha => h a (by simp [ha]), (h a (by simp)).1 b]
  refine ⟨fun bs => ?_, ?_⟩
  · constructor
    · rintro (⟨bs', h1, h2⟩ | ⟨e, h1, -⟩)
      · cases h1
        exact (key _).1 h2
      · cases h1
    · exact fun hx => .inl ⟨bs, rfl, (key _).2 hx⟩
  · constructor
    · rintro ⟨e, ⟨bs', h1, h2⟩ | ⟨e', h1, a, ha, h2⟩⟩
      · cases h1
      · cases hm : mapRes g l with
        | error e => exact ⟨e, rfl⟩
        | ok bs =>
          exfalso
          have h3 := mapRes_eq_ok_iff.1 hm
          obtain ⟨e2, h4⟩ := (h a ha).2.1 ⟨e', h2⟩
          clear hm key
          induction h3 with
          | nil => simp at ha
          | cons h5 _ ih =>
            rcases List.mem_cons.1 ha with rfl | ha
            · rw [h4] at h5
              cases h5
            · exact ih (fun a ha => h a (by simp [ha])) ha
    · rintro ⟨e, hx⟩
      have : ∃ a ∈ l, ∃ e', g a = .error e' := by
        by_contra hcon
        push Not at hcon
        clear h key
        induction l generalizing e with
        | nil => cases hx
        | cons a l ih =>
          simp only [mapRes] at hx
          cases hg : g a with
          | error e' => exact hcon a (by simp) e' hg
          | ok b =>
            cases hm : mapRes g l with
            | error e' => exact ih e' hm fun a ha => hcon a (by simp [ha])
            | ok bs => simp [hg, hm] at hx
      obtain ⟨a, ha, e', he⟩ := this
      obtain ⟨e2, h2⟩ := (h a ha).2.2 ⟨e', he⟩
      exact ⟨e2, .inr ⟨e2, rfl, a, ha, h2⟩⟩

theorem same_ite {p : Prop} [Decidable p] {m m' : ND α} {x x' : Res α} (h : p → SameResult m x) (h' : ¬ p → SameResult m' x') :
    SameResult (if p then m else m') (if p then x else x') := by
  split
  · exact h ‹_›
  · exact h' ‹_›

/-! ## Scratch buffers -/

theorem setIdx_ok {site : String} {l : List α} {i : Nat} {a : α} (h : i < l.length) : setIdx site l i a = .ok (l.set i a) := if_pos h

theorem zipAssign_const {γ : Type} (f : γ → α) (l : List α) (ps : List γ) (h : l.length = ps.length) :
    zipAssign (fun _ p => f p) l ps = ps.map f := by
  induction l generalizing ps with
  | nil => cases ps with
    | nil => rfl
    | cons => simp at h
  | cons a l ih => cases ps with
    | nil => simp at h
    | cons p ps =>
      simp only [zipAssign, List.map_cons]
      rw [ih ps (by simpa using h)]

theorem take_set_succ (l : List α) (k : Nat) (a : α) (h : k < l.length) : (l.set k a).take (k + 1) = l.take k ++ [a] := by
  rw [List.take_add_one, List.getElem?_set_self h, List.take_set, List.set_eq_of_length_le (by simp)]
  rfl

section
variable [CommRing R]

theorem fillSteps_aux (ps : List (R × R)) (k : Nat) (steps vals : List R) (h1 : steps.length = k + ps.length)
    (h2 : vals.length = k + ps.length) :
    foldRes (fun (sv : List R × List R) (p : (R × R) × Nat) => do
      let steps ← setIdx "steps[i]" sv.1 p.2 (p.1.1 - p.1.2)
      let vals ← setIdx "vals[i]" sv.2 p.2 p.1.1
      .ok (steps, vals)) (steps, vals) (ps.zipIdx k)
      = .ok (steps.take k ++ ps.map (fun p => p.1 - p.2), vals.take k ++ ps.map (·.1)) := by
  induction ps generalizing k steps vals with
  | nil =>
    simp only [List.length_nil, Nat.add_zero] at h1 h2
    simp [foldRes, ← h1, h2.trans h1.symm, List.take_of_length_le]
  | cons p ps ih =>
    simp only [List.length_cons] at h1 h2
    simp only [List.zipIdx_cons, foldRes]
    rw [setIdx_ok (by omega), setIdx_ok (by omega)]
    simp only [bind_ok']
    rw [ih (k + 1) _ _ (by rw [List.length_set]; omega) (by rw [List.length_set]; omega), take_set_succ _ _ _ (by omega),
      take_set_succ _ _ _ (by omega)]
    simp

theorem fillSteps_ok (v1 v0 steps vals : List R) (h0 : v0.length = v1.length) (h1 : steps.length = v1.length)
    (h2 : vals.length = v1.length) : fillSteps v1 v0 steps vals = .ok (List.zipWith (· - ·) v1 v0, v1) := by
  unfold fillSteps
  have hz : (v1.zip v0).length = v1.length := by rw [List.length_zip, h0, min_self]
  rw [fillSteps_aux _ 0 _ _ (by omega) (by omega)]
  simp only [List.take_zero, List.nil_append]
  rw [List.map_zip_eq_zipWith, List.map_fst_zip (by omega)]
  rfl

theorem addSteps_ok (n : Nat) (steps vals : List R) (h1 : steps.length = n) (h2 : vals.length = n) :
    addSteps n steps vals = .ok (List.zipWith (· + ·) vals steps) := by
  have key : ∀ m ≤ n, foldRes (fun (vals : List R) i => do
      let v ← idx "vals[poly_i]" vals i
      let s ← idx "steps[poly_i]" steps i
      setIdx "vals[poly_i]" vals i (v + s)) vals (List.range m)
      = .ok ((List.zipWith (· + ·) vals steps).take m ++ vals.drop m) := by
    intro m
    induction m with
    | zero => intro _; simp [foldRes]
    | succ m ih =>
      intro hm
      rw [List.range_succ, foldRes_append, ih (by omega)]
      have hl : ((List.zipWith (· + ·) vals steps).take m ++ vals.drop m).length = n := by simp; omega
      have ht : ((List.zipWith (· + ·) vals steps).take m).length = m := by simp; omega
      simp only [bind_ok', foldRes]
      have hg : idx "vals[poly_i]" ((List.zipWith (· + ·) vals steps).take m ++ vals.drop m) m = .ok (vals[m]'(by omega)) := by
        rw [idx_ok (by omega)]
        congr 1
        rw [List.getElem_append_right (by omega)]
        simp [ht]
      rw [hg, idx_ok (show m < steps.length by omega)]
      simp only [bind_ok']
      rw [setIdx_ok (by omega)]
      simp only [Except.ok.injEq]
      rw [List.set_append_right _ _ (by omega), List.drop_eq_getElem_cons (show m < vals.length by omega), ht, Nat.sub_self,
        List.set_cons_zero, List.take_add_one, List.getElem?_eq_getElem (by simp; omega)]
      simp
  unfold addSteps
  rw [key n le_rfl, List.drop_of_length_le (by omega), List.take_of_length_le (by simp; omega), List.append_nil]

theorem levalLoop (n : Nat) (comb : List R → Res R) (steps : List R) (hs : steps.length = n) (k j : Nat) (vals lev : List R)
    (hv : vals.length = n) (hl : lev.length = j + k) :
    match extrapolate comb steps k vals with
    | .error e => foldRes (fun (vl : List R × List R) j => do
        let vals ← addSteps n steps vl.1
        let e ← comb vals
        .ok (vals, vl.2.set j e)) (vals, lev) (List.range' j k) = .error e
    | .ok es => es.length = k ∧ ∃ vals', vals'.length = n ∧ foldRes (fun (vl : List R × List R) j => do
        let vals ← addSteps n steps vl.1
        let e ← comb vals
        .ok (vals, vl.2.set j e)) (vals, lev) (List.range' j k) = .ok (vals', lev.take j ++ es) := by
  induction k generalizing j vals lev with
  | zero =>
    simp only [extrapolate, List.range'_zero, foldRes]
    exact ⟨rfl, vals, hv, by rw [List.take_of_length_le (by omega), List.append_nil]⟩
  | succ k ih =>
    simp only [extrapolate, List.range'_succ, foldRes]
    rw [addSteps_ok n steps vals hs hv]
    simp only [bind_ok']
    cases hc : comb (List.zipWith (· + ·) vals steps) with
    | error e => simp
    | ok e =>
      simp only [bind_ok']
      have := ih (j + 1) (List.zipWith (· + ·) vals steps) (lev.set j e) (by simp; omega) (by simp; omega)
      cases he : extrapolate comb steps k (List.zipWith (· + ·) vals steps) with
      | error e' =>
        rw [he] at this
        simp only [bind_error']
        exact this
      | ok es =>
        rw [he] at this
        obtain ⟨h0, v', h1, h2⟩ := this
        simp only [bind_ok']
        refine ⟨by simp [h0], v', h1, ?_⟩
        rw [h2, take_set_succ _ _ _ (by omega)]
        simp

/-- The buffers have the right sizes. -/
structure Fits (polys : List (Mle R)) (d : Nat) (s : Scratch R) : Prop where
  steps : s.steps.length = polys.length
  vals0 : s.vals0.length = polys.length
  vals1 : s.vals1.length = polys.length
  vals : s.vals.length = polys.length
  levals : s.levals.length = d + 1

theorem scratchStep_eq (polys : List (Mle R)) (d : Nat) (comb : List R → Res R) (s : Scratch R) (b : Nat) (h : Fits polys d s) :
    match foldStep polys d comb s.evals b with
    | .error e => scratchStep polys d comb s b = .error e
    | .ok ev => ∃ s', scratchStep polys d comb s b = .ok s' ∧ s'.evals = ev ∧ Fits polys d s' := by
  unfold foldStep Verif.levals scratchStep
  simp only
  rw [zipAssign_const _ _ _ h.vals0, zipAssign_const _ _ _ h.vals1]
  cases h0 : comb (polys.map fun p => p.get (2 * b)) with
  | error e => simp
  | ok l0 =>
    simp only [bind_ok']
    rw [setIdx_ok (by rw [h.levals]; omega)]
    simp only [bind_ok']
    cases h1 : comb (polys.map fun p => p.get (2 * b + 1)) with
    | error e => simp
    | ok l1 =>
      simp only [bind_ok']
      by_cases hd : d = 0
      · subst hd
        rw [if_pos rfl]
        simp only [bind_error']
        rw [show setIdx "levals[1]" (s.levals.set 0 l0) 1 l1 = .error (.panic "levals[1]") from
          if_neg (by rw [List.length_set, h.levals]; omega)]
        rfl
      · rw [if_neg hd, setIdx_ok (by rw [List.length_set, h.levals]; omega)]
        simp only [bind_ok']
        rw [fillSteps_ok _ _ _ _ (by simp) (by simp [h.steps]) (by simp [h.vals])]
        simp only [bind_ok', List.length_set, h.levals, min_self]
        have hr : (List.range (d + 1)).drop 2 = List.range' 2 (d - 1) := by
          rw [List.range_eq_range', List.drop_range']
          congr 1
        rw [hr]
        have := levalLoop polys.length comb
          (List.zipWith (· - ·) (polys.map fun p => p.get (2 * b + 1)) (polys.map fun p => p.get (2 * b))) (by simp) (d - 1) 2
          (polys.map fun p => p.get (2 * b + 1)) ((s.levals.set 0 l0).set 1 l1) (by simp)
          (by simp only [List.length_set, h.levals]; omega)
        cases he : extrapolate comb
            (List.zipWith (· - ·) (polys.map fun p => p.get (2 * b + 1)) (polys.map fun p => p.get (2 * b))) (d - 1)
            (polys.map fun p => p.get (2 * b + 1)) with
        | error e =>
          rw [he] at this
          simp only at this
          rw [this]
          rfl
        | ok es =>
          rw [he] at this
          obtain ⟨g0, v', g1, g2⟩ := this
          rw [g2]
          simp only [bind_ok']
          have ht : ((s.levals.set 0 l0).set 1 l1).take 2 = [l0, l1] := by
            obtain ⟨a, t, e1⟩ : ∃ a t, s.levals = a :: t := List.exists_cons_of_length_pos (by rw [h.levals]; omega)
            obtain ⟨a2, t2, e2⟩ : ∃ a t', t = a :: t' := List.exists_cons_of_length_pos (by
              have := h.levals
              rw [e1] at this
              simp at this
              omega)
            rw [e1, e2]
            rfl
          rw [ht]
          refine ⟨_, rfl, rfl, by simp, by simp, by simp, g1, ?_⟩
          simp only [List.length_append, List.length_cons, List.length_nil, g0]
          omega

theorem scratchFold (polys : List (Mle R)) (d : Nat) (comb : List R → Res R) (l : List Nat) (s : Scratch R) (h : Fits polys d s) :
    (do let s ← foldRes (scratchStep polys d comb) s l
        .ok s.evals : Res (List R)) = foldRes (foldStep polys d comb) s.evals l := by
  induction l generalizing s with
  | nil => rfl
  | cons b l ih =>
    have := scratchStep_eq polys d comb s b h
    simp only [foldRes]
    cases hf : foldStep polys d comb s.evals b with
    | error e =>
      rw [hf] at this
      simp only at this
      rw [this]
      rfl
    | ok ev =>
      rw [hf] at this
      obtain ⟨s', h1, h2, h3⟩ := this
      rw [h1]
      simp only
      rw [ih s' h3, h2]

theorem fits_scratch (polys : List (Mle R)) (d : Nat) : Fits polys d (scratch polys d) := by
  constructor <;> simp [scratch]

theorem same_schedule (polys : List (Mle R)) (d : Nat) (comb : List R → Res R) (t : Schedule) :
    SameResult (roundSchedule polys d comb t) (roundMessageParallel polys d comb t) := by
  induction t with
  | ident => exact same_seq _
  | chunk l =>
    have h := scratchFold polys d comb l _ (fits_scratch polys d)
    unfold roundSchedule roundMessageParallel
    rw [h]
    exact same_seq _
  | node l r ihl ihr =>
    have he : ∀ {m : ND (List R)} {x : Res (List R)}, SameResult m x → ∀ a, x = .ok a → ∀ e, ¬ m (.error e) := by
      intro m x h a ha e hm
      obtain ⟨e', h'⟩ := h.2.1 ⟨e, hm⟩
      rw [ha] at h'
      cases h'
    refine ⟨fun out => ?_, ?_⟩
    · simp only [roundSchedule, roundMessageParallel, bind_eq_ok, Except.ok.injEq]
      constructor
      · rintro (⟨a, b, h1, h2, h3⟩ | ⟨e, h1, -⟩)
        · exact ⟨a, (ihl.1 a).1 h1, b, (ihr.1 b).1 h2, h3.symm⟩
        · cases h1
      · rintro ⟨a, h1, b, h2, h3⟩
        exact .inl ⟨a, b, (ihl.1 a).2 h1, (ihr.1 b).2 h2, h3.symm⟩
    · simp only [roundSchedule, roundMessageParallel]
      constructor
      · rintro ⟨e, ⟨a, b, -, -, h3⟩ | ⟨e', h1, h2 | h2⟩⟩
        · cases h3
        · obtain ⟨e2, h3⟩ := ihl.2.1 ⟨e', h2⟩
          exact ⟨e2, by rw [h3]; rfl⟩
        · obtain ⟨e2, h3⟩ := ihr.2.1 ⟨e', h2⟩
          cases hl : roundMessageParallel polys d comb l with
          | error e3 => exact ⟨e3, rfl⟩
          | ok a => exact ⟨e2, by rw [h3]; rfl⟩
      · rintro ⟨e, h⟩
        cases hl : roundMessageParallel polys d comb l with
        | error e3 =>
          obtain ⟨e2, h3⟩ := ihl.2.2 ⟨e3, hl⟩
          exact ⟨e2, .inr ⟨e2, rfl, .inl h3⟩⟩
        | ok a =>
          cases hr : roundMessageParallel polys d comb r with
          | error e3 =>
            obtain ⟨e2, h3⟩ := ihr.2.2 ⟨e3, hr⟩
            exact ⟨e2, .inr ⟨e2, rfl, .inr h3⟩⟩
          | ok b =>
            rw [hl, hr] at h
            cases h

theorem same_round (polys : List (Mle R)) (d : Nat) (comb : List R → Res R) (k : Nat) :
    SameResult (roundMessage polys d comb k) (Verif.roundMessage polys d comb k) := by
  have hiff : ∀ (t : Schedule), t.toList = List.range (2 ^ k) → ∀ m, roundMessageParallel polys d comb t = .ok m ↔
      Verif.roundMessage polys d comb k = .ok m := by
    intro t ht m
    classical
    rw [parallel_iff, ht]
    exact (foldRes_foldStep polys d comb _ _ _).symm
  refine ⟨fun m => ?_, ?_⟩
  · constructor
    · rintro ⟨t, ht, h⟩
      exact (hiff t ht m).1 (((same_schedule polys d comb t).1 m).1 h)
    · intro h
      exact ⟨.chunk (List.range (2 ^ k)), rfl, ((same_schedule polys d comb _).1 m).2 ((hiff _ rfl m).2 h)⟩
  · constructor
    · rintro ⟨e, t, ht, h⟩
      obtain ⟨e', h'⟩ := (same_schedule polys d comb t).2.1 ⟨e, h⟩
      cases hr : Verif.roundMessage polys d comb k with
      | error e2 => exact ⟨e2, rfl⟩
      | ok m =>
        rw [(hiff t ht m).2 hr] at h'
        cases h'
    · rintro ⟨e, h⟩
      obtain ⟨e', h'⟩ := (same_schedule polys d comb (.chunk (List.range (2 ^ k)))).2.2 ⟨e, h⟩
      exact ⟨e', _, rfl, h'⟩

variable [CommRing F] [Algebra F R]

theorem same_receive (st : ProverState F R) (v : Option F) : SameResult (proverReceive st v) (Verif.proverReceive st v) := by
  cases v with
  | none => exact same_ite (fun _ => same_seq _) fun _ => same_seq _
  | some r =>
    refine same_ite (fun _ => same_seq _) fun _ => ?_
    exact same_bind (same_seq _) fun _ _ => same_bind (same_parMap fun _ _ => same_seq _) fun _ _ => same_seq _

theorem same_proveRound (st : ProverState F R) (v : Option F) (comb : List R → Res R) :
    SameResult (proveRound st v comb) (Verif.proveRound st v comb) :=
  same_bind (same_receive st v) fun _ _ => same_ite (fun _ => same_seq _) fun _ =>
    same_bind (same_round _ _ _ _) fun _ _ => same_seq _

theorem same_proveLoop (T : Transcript F R σ) (comb : List R → Res R) (k : Nat) (s : σ) (st : ProverState F R) (v : Option F) :
    SameResult (proveLoop T comb k s st v) (Verif.proveLoop T comb k s st v) := by
  induction k generalizing s st v with
  | zero => exact same_seq _
  | succ k ih => exact same_bind (same_proveRound st v comb) fun _ _ => same_bind (ih _ _ _) fun _ _ => same_seq _

theorem same_subprotocol (T : Transcript F R σ) (s : σ) (mles : List (Mle R)) (n d : Nat) (comb : List R → Res R) :
    SameResult (proveAsSubprotocol T s mles n d comb) (Verif.proveAsSubprotocol T s mles n d comb) :=
  same_bind (same_seq _) fun _ _ => same_bind (same_proveLoop _ _ _ _ _ _) fun x _ => by
    obtain ⟨msgs, v, st, s⟩ := x
    cases v <;> exact same_seq _

theorem same_buildEqHelper (r : List R) : SameResult (buildEqHelper r) (Verif.buildEqHelper r) := by
  induction r with
  | nil => exact same_seq _
  | cons r0 rs ih => cases rs with
    | nil => exact same_seq _
    | cons r1 rs => exact same_bind ih fun _ _ => same_parMap fun _ _ => same_seq _

theorem same_buildEq (r : List R) : SameResult (buildEq r) (Verif.buildEq r) :=
  same_bind (same_buildEqHelper r) fun _ _ => same_seq _

theorem same_evaluateMles (ms : List (Mle R)) (p : List R) : SameResult (evaluateMles ms p) (Verif.evaluateMles ms p) :=
  same_parMap fun _ _ => same_seq _

theorem same_matVecMul (M : SpMat R) (z : List R) : SameResult (matVecMul M z) (Verif.matVecMul M z) :=
  same_ite (fun _ => same_seq _) fun _ => same_parMap fun _ _ => same_seq _

theorem toMlesErr_eq (nv : Nat) (Ms : List (SpMat R)) (z : List R) :
    toMlesErr nv (Ms.map fun M => Verif.matVecMul M z) = mapRes (fun M => do
      let m ← Verif.matVecMul M z
      if 2 ^ nv < m.length then .error (.mleIncorrectLength (2 ^ nv) m.length) else Mle.fromEvals nv m) Ms := by
  unfold toMlesErr
  induction Ms with
  | nil => rfl
  | cons M Ms ih =>
    simp only [List.map_cons, mapRes]
    rw [ih]
    cases Verif.matVecMul M z <;> rfl

theorem same_mzMles (nv : Nat) (Ms : List (SpMat R)) (z : List R) :
    SameResult (mzMles nv Ms z) (toMlesErr nv (Ms.map fun M => Verif.matVecMul M z)) := by
  rw [toMlesErr_eq]
  exact same_parMap fun M _ => same_bind (same_matVecMul M z) fun _ _ => same_seq _

end

section
variable [Field F] [DecidableEq F] [CommRing R] [DecidableEq R] [Algebra F R]

theorem same_linProve (T : Transcript F R σ) (s : σ) (cm : CCCS R) (wit : Witness R C) (ccs : CCS R) :
    SameResult (linProve T s cm wit ccs) (Verif.linProve T s cm wit ccs) :=
  same_bind (same_mzMles _ _ _) fun _ _ => same_bind
    (same_bind (same_seq _) fun _ _ => same_bind (same_buildEq _) fun _ _ => same_seq _) fun _ _ =>
    same_bind (same_subprotocol _ _ _ _ _ _) fun _ _ => same_bind (same_evaluateMles _ _) fun _ _ =>
      same_bind (same_evaluateMles _ _) fun _ _ => same_seq _

end

section
variable [Field Fp] [Field F] [DecidableEq F] [Algebra Fp F] [CommRing C] [Algebra Fp C]

theorem same_commit [CommRing R] (P : Params) (wits : List (Witness R C)) (scheme : Ajtai R) (cmi : LCCCS R) :
    SameResult (commitWitnesses P wits scheme cmi) (Verif.commitWitnesses P wits scheme cmi) :=
  same_ite (fun _ => same_seq _) fun _ => same_bind (same_parMap fun _ _ => same_seq _) fun _ _ => same_seq _

theorem same_mz [CommRing R] (wits : List (Witness R C)) (M : List (SpMat R)) (xs : List (List R)) (nv : Nat) :
    SameResult (computeMzMles wits M xs nv) (Verif.computeMzMles wits M xs nv) :=
  same_parMap fun _ _ => same_bind (same_seq _) fun _ _ => same_mzMles _ _ _

theorem same_decProve (rd : RingData Fp F C N τ) (P : Params) (T : Transcript F (Fin N → F) σ) (s : σ)
    (cmi : LCCCS (Fin N → F)) (wit : Witness (Fin N → F) C) (ccs : CCS (Fin N → F)) (scheme : Ajtai (Fin N → F)) :
    SameResult (decProve rd P T s cmi wit ccs scheme) (Verif.decProve rd P T s cmi wit ccs scheme) :=
  same_bind (same_seq _) fun _ _ => same_bind (same_seq _) fun _ _ => same_bind (same_parMap fun _ _ => same_seq _) fun _ _ =>
    same_bind (same_seq _) fun _ _ => same_bind (same_commit _ _ _ _) fun _ _ =>
    same_bind (same_parMap fun _ _ => same_evaluateMles _ _) fun _ _ => same_bind (same_mz _ _ _ _) fun _ _ =>
    same_bind (same_parMap fun _ _ => same_evaluateMles _ _) fun _ _ => same_bind (same_seq _) fun _ _ => same_seq _

theorem same_foldPoly [CommRing R] [DecidableEq R] (P : Params) (logm : Nat) (fHats : List (List (Mle R))) (alpha : List R)
    (ch1 ch2 : Mle R) (rs : List (List R)) (beta mu : List R) :
    SameResult (createFoldPoly P logm fHats alpha ch1 ch2 rs beta mu) (Verif.createFoldPoly P logm fHats alpha ch1 ch2 rs beta mu) :=
  same_ite (fun _ => same_seq _) fun _ => same_bind (same_seq _) fun _ _ => same_bind (same_seq _) fun _ _ =>
    same_bind (same_buildEq _) fun _ _ => same_bind (same_seq _) fun _ _ => same_bind (same_seq _) fun _ _ =>
    same_bind (same_seq _) fun _ _ => same_bind (same_seq _) fun _ _ => same_bind (same_buildEq _) fun _ _ =>
    same_bind (same_seq _) fun _ _ => same_bind (same_seq _) fun _ _ => same_bind (same_seq _) fun _ _ =>
    same_bind (same_buildEq _) fun _ _ => same_seq _

theorem same_bind_pure {m : ND α} {a : α} {f : α → ND β} {x : Res β} (h : SameResult m (.ok a)) (hf : SameResult (f a) x) :
    SameResult (m >>= f) x := by
  have := same_bind (g := fun _ => x) h fun b hb => by
    cases hb
    exact hf
  exact this

theorem same_fHats (ws : List (Witness R C)) :
    SameResult (parMap (fun w : Witness R C => seq (.ok w.fHat)) ws) (.ok (ws.map Witness.fHat)) := by
  have := same_parMap (f := fun w : Witness R C => seq (.ok w.fHat)) (g := fun w => .ok w.fHat) (l := ws)
    fun _ _ => same_seq _
  rwa [mapRes_ok fun _ _ => rfl] at this

theorem same_foldProve (rd : RingData Fp F C N τ) (P : Params) (cs : ChallengeSet C) (T : Transcript F (Fin N → F) σ)
    (s : σ) (cms : List (LCCCS (Fin N → F))) (ws : List (Witness (Fin N → F) C)) (ccs : CCS (Fin N → F))
    (mz : List (List (Mle (Fin N → F)))) :
    SameResult (foldProve rd P cs T s cms ws ccs mz) (Verif.foldProve rd P cs T s cms ws ccs mz) :=
  same_bind (same_seq _) fun _ _ => same_ite (fun _ => same_seq _) fun _ => same_bind (same_seq _) fun _ _ =>
    same_bind_pure (same_fHats ws) <| same_bind (same_seq _) fun _ _ => same_bind (same_seq _) fun _ _ => same_bind (same_seq _) fun _ _ =>
        same_bind (same_seq _) fun _ _ => same_bind (same_seq _) fun _ _ => same_bind (same_seq _) fun _ _ =>
        same_bind (same_foldPoly _ _ _ _ _ _ _ _ _) fun _ _ => same_bind (same_subprotocol _ _ _ _ _ _) fun _ _ =>
        same_bind (same_parMap fun _ _ => same_evaluateMles _ _) fun _ _ =>
        same_bind (same_parMap fun _ _ => same_evaluateMles _ _) fun _ _ => same_bind (same_seq _) fun _ _ =>
        same_bind (same_seq _) fun _ _ => same_bind (same_seq _) fun _ _ => same_bind (same_seq _) fun _ _ =>
        same_bind (same_seq _) fun _ _ => same_seq _

theorem same_nifsProve (rd : RingData Fp F C N τ) (P : Params) (cs : ChallengeSet C) (T : Transcript F (Fin N → F) σ)
    (s : σ) (acc : LCCCS (Fin N → F)) (wAcc : Witness (Fin N → F) C) (cm : CCCS (Fin N → F))
    (w : Witness (Fin N → F) C) (ccs : CCS (Fin N → F)) (scheme : Ajtai (Fin N → F)) :
    SameResult (nifsProve rd P cs T s acc wAcc cm w ccs scheme) (Verif.nifsProve rd P cs T s acc wAcc cm w ccs scheme) :=
  same_bind (same_seq _) fun _ _ => same_bind (same_linProve _ _ _ _ _) fun _ _ => same_bind (same_decProve _ _ _ _ _ _ _ _) fun _ _ =>
    same_bind (same_decProve _ _ _ _ _ _ _ _) fun _ _ => same_bind (same_foldProve _ _ _ _ _ _ _ _ _) fun _ _ => same_seq _

end

end Verif.Par
