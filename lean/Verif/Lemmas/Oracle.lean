import Verif.Spec.Oracle
import Verif.Lemmas.SumcheckSound
import Mathlib.Algebra.Order.BigOperators.Group.Finset
import Mathlib.Data.Fintype.BigOperators
import Mathlib.Algebra.BigOperators.Ring.Finset

/-! Counting oracles for which an algorithm meets a bad answer; transcripts as algorithms. -/

set_option linter.unusedSectionVars false
set_option linter.unusedSimpArgs false

namespace Verif

open Finset Spec

namespace Alg'

variable {H F α β : Type}

/-- The queries made with the oracle `O`. -/
def asked (O : H → F) : Alg H F α → List H
  | .done _ => []
  | .ask h k => h :: asked O (k (O h))

/-- All queries made for some answers. -/
noncomputable def support [Fintype F] [DecidableEq H] : Alg H F α → Finset H
  | .done _ => ∅
  | .ask h k => insert h (univ.biUnion fun c => support (k c))

/-- One algorithm after another. -/
def bind (t : Alg H F α) (f : α → Alg H F β) : Alg H F β :=
  match t with
  | .done a => f a
  | .ask h k => .ask h fun c => bind (k c) f

theorem run_bind (O : H → F) (t : Alg H F α) (f : α → Alg H F β) : (bind t f).run O = (f (t.run O)).run O := by
  induction t with
  | done a => rfl
  | ask h k ih => exact ih (O h)

theorem asked_bind (O : H → F) (t : Alg H F α) (f : α → Alg H F β) :
    asked O (bind t f) = asked O t ++ asked O (f (t.run O)) := by
  induction t with
  | done a => rfl
  | ask h k ih =>
    change h :: asked O (bind (k (O h)) f) = h :: asked O (k (O h)) ++ _
    rw [ih]
    rfl

theorem atMost_bind (t : Alg H F α) (f : α → Alg H F β) (p q : Nat) (ht : t.AtMost p) (hf : ∀ a, (f a).AtMost q) :
    (bind t f).AtMost (p + q) := by
  induction t generalizing p with
  | done a =>
    have mono : ∀ (s : Alg H F β) (q : Nat), s.AtMost q → ∀ p, s.AtMost (p + q) := by
      intro s
      induction s with
      | done b => intro q _ p; cases p + q <;> trivial
      | ask h k ih =>
        intro q hq p
        cases q with
        | zero => exact hq.elim
        | succ q => exact fun c => ih c q (hq c) p
    exact mono _ _ (hf a) p
  | ask h k ih =>
    cases p with
    | zero => exact ht.elim
    | succ p =>
      rw [Nat.succ_add]
      exact fun c => ih c p (ht c)

theorem asked_support [Fintype F] [DecidableEq H] (O : H → F) (t : Alg H F α) : ∀ h ∈ asked O t, h ∈ support t := by
  induction t with
  | done a => intro h hh; cases hh
  | ask h k ih =>
    intro x hx
    rw [support, mem_insert]
    rcases List.mem_cons.1 hx with rfl | hx
    · exact Or.inl rfl
    · exact Or.inr (mem_biUnion.2 ⟨O h, mem_univ _, ih _ x hx⟩)

/-! ### The count -/

variable [Fintype F] [DecidableEq F]

open Classical in
/-- Oracles on `X` which agree with `f` on the part `D` of `X`. -/
noncomputable def agree {X : Type} [Fintype X] (D : Finset X) (f : X → F) : Finset (X → F) := univ.filter fun o => ∀ x ∈ D, o x = f x

theorem mem_agree {X : Type} [Fintype X] (D : Finset X) (f o : X → F) : o ∈ agree D f ↔ ∀ x ∈ D, o x = f x := by
  classical
  unfold agree
  simp

theorem card_agree {X : Type} [Fintype X] [DecidableEq X] (D : Finset X) (f : X → F) :
    (agree D f).card = Fintype.card F ^ (Fintype.card X - D.card) := by
  classical
  have : agree D f = Fintype.piFinset fun x => if x ∈ D then {f x} else univ := by
    ext o
    rw [mem_agree, Fintype.mem_piFinset]
    refine forall_congr' fun x => ?_
    by_cases hx : x ∈ D <;> simp [hx]
  rw [this, Fintype.card_piFinset]
  have e : ∀ x, (if x ∈ D then ({f x} : Finset F) else univ).card = if x ∈ D then 1 else Fintype.card F := by
    intro x
    split <;> simp
  simp only [e]
  rw [prod_ite]
  simp only [prod_const_one, one_mul, prod_const]
  congr 1
  rw [filter_not, card_sdiff_of_subset (filter_subset _ _)]
  simp [card_univ]

open Classical in
/-- The number of oracles for which one of the answers is bad. -/
theorem hit_count (X : Finset H) (E : H → F) (Bad : H → Finset F) (δ : Nat) (hBad : ∀ h, (Bad h).card ≤ δ) (t : Alg H F α) (q : Nat)
    (ht : t.AtMost q) (D : Finset X) (f : X → F) (hD : ∀ x ∈ D, f x ∉ Bad x) :
    Fintype.card F * ((agree D f).filter fun o => ∃ h ∈ asked (onSet X E o) t, h ∈ X ∧ onSet X E o h ∈ Bad h).card
      ≤ q * δ * (agree D f).card := by
  induction t generalizing q D f with
  | done a =>
    have : ((agree D f).filter fun o => ∃ h ∈ asked (onSet X E o) (Alg.done a : Alg H F α), h ∈ X ∧ onSet X E o h ∈ Bad h) = ∅ := by
      rw [filter_eq_empty_iff]
      rintro o - ⟨h, hh, -⟩
      cases hh
    rw [this]
    simp
  | ask h k ih =>
    cases q with
    | zero => exact ht.elim
    | succ q =>
      have ht' : ∀ c, (k c).AtMost q := ht
      by_cases hX : h ∈ X
      · by_cases hhD : (⟨h, hX⟩ : X) ∈ D
        · have hval : ∀ o ∈ agree D f, onSet X E o h = f ⟨h, hX⟩ := by
            intro o ho
            rw [mem_agree] at ho
            rw [onSet, dif_pos hX, ho _ hhD]
          have := ih (f ⟨h, hX⟩) q (ht' _) D f hD
          refine le_trans ?_ (le_trans this (Nat.mul_le_mul_right _ (Nat.mul_le_mul_right _ (Nat.le_succ q))))
          refine Nat.mul_le_mul_left _ (card_le_card ?_)
          intro o ho
          rw [mem_filter] at ho ⊢
          obtain ⟨ho, x, hx, hxX, hb⟩ := ho
          refine ⟨ho, ?_⟩
          rcases List.mem_cons.1 hx with rfl | hx
          · rw [hval o ho] at hb
            exact absurd hb (hD _ hhD)
          · rw [hval o ho] at hx
            exact ⟨x, hx, hxX, hb⟩
        · -- a new query
          set x : X := ⟨h, hX⟩ with hx
          have hval : ∀ o : X → F, onSet X E o h = o x := by
            intro o
            rw [onSet, dif_pos hX]
          have hsplit : ∀ c, (agree D f).filter (fun o => o x = c) = agree (insert x D) (Function.update f x c) := by
            intro c
            ext o
            rw [mem_filter, mem_agree, mem_agree]
            simp only [forall_mem_insert, Function.update_self]
            constructor
            · rintro ⟨h1, h2⟩
              refine ⟨h2, fun y hy => ?_⟩
              rw [Function.update_of_ne (by rintro rfl; exact hhD hy)]
              exact h1 y hy
            · rintro ⟨h1, h2⟩
              refine ⟨fun y hy => ?_, h1⟩
              rw [h2 y hy, Function.update_of_ne (by rintro rfl; exact hhD hy)]
          set G := (agree (insert x D) (Function.update f x (f x))).card with hG
          have hGc : ∀ c, (agree (insert x D) (Function.update f x c)).card = G := by
            intro c
            rw [hG, card_agree, card_agree]
          have htot : (agree D f).card = Fintype.card F * G := by
            rw [card_eq_sum_card_fiberwise (f := fun o : X → F => o x) (t := univ) fun _ _ => mem_univ _]
            rw [sum_congr rfl fun c _ => by rw [hsplit c, hGc c], sum_const, smul_eq_mul, card_univ]
          set Ev := (agree D f).filter fun o => ∃ y ∈ asked (onSet X E o) (Alg.ask h k), y ∈ X ∧ onSet X E o y ∈ Bad y with hEv
          have hle : ∀ c, (Ev.filter fun o => o x = c).card ≤ if c ∈ Bad h then G else
              ((agree (insert x D) (Function.update f x c)).filter fun o =>
                ∃ y ∈ asked (onSet X E o) (k c), y ∈ X ∧ onSet X E o y ∈ Bad y).card := by
            intro c
            split
            · rw [← hGc c, ← hsplit c]
              exact card_le_card (filter_subset_filter _ (filter_subset _ _))
            · rename_i hc
              apply card_le_card
              intro o ho
              rw [mem_filter] at ho ⊢
              obtain ⟨ho, hoc⟩ := ho
              rw [hEv, mem_filter] at ho
              obtain ⟨ho, y, hy, hyX, hb⟩ := ho
              rw [← hsplit c, mem_filter]
              refine ⟨⟨ho, hoc⟩, ?_⟩
              rcases List.mem_cons.1 hy with rfl | hy
              · rw [hval, hoc] at hb
                exact absurd hb hc
              · rw [hval, hoc] at hy
                exact ⟨y, hy, hyX, hb⟩
          have hrec : ∀ c, c ∉ Bad h → Fintype.card F * ((agree (insert x D) (Function.update f x c)).filter fun o =>
                ∃ y ∈ asked (onSet X E o) (k c), y ∈ X ∧ onSet X E o y ∈ Bad y).card ≤ q * δ * G := by
            intro c hc
            have := ih c q (ht' c) (insert x D) (Function.update f x c) (by
              intro y hy
              rcases mem_insert.1 hy with rfl | hy
              · rw [Function.update_self]; exact hc
              · rw [Function.update_of_ne (by rintro rfl; exact hhD hy)]; exact hD y hy)
            rwa [hGc c] at this
          have hEvc : Ev.card = ∑ c, (Ev.filter fun o => o x = c).card :=
            card_eq_sum_card_fiberwise (f := fun o : X → F => o x) (t := univ) fun _ _ => mem_univ _
          change Fintype.card F * Ev.card ≤ _
          rw [hEvc, mul_sum, htot]
          have hterm : ∀ c, Fintype.card F * (Ev.filter fun o => o x = c).card
              ≤ (if c ∈ Bad h then Fintype.card F * G else 0) + q * δ * G := by
            intro c
            refine (Nat.mul_le_mul_left _ (hle c)).trans ?_
            split
            · exact Nat.le_add_right _ _
            · rename_i hc
              rw [Nat.zero_add]
              exact hrec c hc
          refine (sum_le_sum fun c _ => hterm c).trans ?_
          rw [sum_add_distrib, sum_const, smul_eq_mul, card_univ, sum_ite_mem, univ_inter, sum_const, smul_eq_mul]
          calc (Bad h).card * (Fintype.card F * G) + Fintype.card F * (q * δ * G)
              ≤ δ * (Fintype.card F * G) + Fintype.card F * (q * δ * G) :=
                Nat.add_le_add_right (Nat.mul_le_mul_right _ (hBad h)) _
            _ = (q + 1) * δ * (Fintype.card F * G) := by ring
      · -- a query outside the domain
        have hval : ∀ o : X → F, onSet X E o h = E h := by
          intro o
          rw [onSet, dif_neg hX]
        have := ih (E h) q (ht' _) D f hD
        refine le_trans ?_ (le_trans this (Nat.mul_le_mul_right _ (Nat.mul_le_mul_right _ (Nat.le_succ q))))
        refine Nat.mul_le_mul_left _ (card_le_card ?_)
        intro o ho
        rw [mem_filter] at ho ⊢
        obtain ⟨ho, x, hx, hxX, hb⟩ := ho
        refine ⟨ho, ?_⟩
        rcases List.mem_cons.1 hx with rfl | hx
        · exact absurd hxX hX
        · rw [hval o] at hx
          exact ⟨x, hx, hxX, hb⟩

open Classical in
/-- The same for all oracles on `X`. -/
theorem hit_count' (X : Finset H) (E : H → F) (Bad : H → Finset F) (δ : Nat) (hBad : ∀ h, (Bad h).card ≤ δ) (t : Alg H F α) (q : Nat)
    (ht : t.AtMost q) :
    (univ.filter fun o : X → F => ∃ h ∈ asked (onSet X E o) t, h ∈ X ∧ onSet X E o h ∈ Bad h).card
      ≤ q * δ * Fintype.card F ^ (X.card - 1) := by
  by_cases hX : X = ∅
  · subst hX
    have : (univ.filter fun o : (∅ : Finset H) → F => ∃ h ∈ asked (onSet ∅ E o) t, h ∈ (∅ : Finset H) ∧ onSet ∅ E o h ∈ Bad h) = ∅ := by
      rw [filter_eq_empty_iff]
      rintro o - ⟨h, -, hh, -⟩
      exact absurd hh (notMem_empty h)
    rw [this]
    simp
  rcases isEmpty_or_nonempty F with hF | ⟨⟨c0⟩⟩
  · obtain ⟨x, hx⟩ := nonempty_iff_ne_empty.2 hX
    have : IsEmpty (X → F) := ⟨fun o => hF.elim (o ⟨x, hx⟩)⟩
    rw [filter_eq_empty_iff.2 (by intro o; exact (this.false o).elim)]
    simp
  have h := hit_count X E Bad δ hBad t q ht ∅ (fun _ => c0) (by simp)
  have hu : agree (∅ : Finset X) (fun _ => c0) = univ := by
    ext o
    rw [mem_agree]
    simp
  rw [hu, card_univ, Fintype.card_fun, Fintype.card_coe] at h
  have hpos : 0 < Fintype.card F := Fintype.card_pos_iff.2 ⟨c0⟩
  have hXpos : 1 ≤ X.card := card_pos.2 (nonempty_iff_ne_empty.2 hX)
  obtain ⟨n, hn⟩ : ∃ n, X.card = n + 1 := ⟨X.card - 1, by omega⟩
  rw [hn] at h ⊢
  rw [Nat.add_sub_cancel]
  rw [pow_succ, show q * δ * (Fintype.card F ^ n * Fintype.card F) = Fintype.card F * (q * δ * Fintype.card F ^ n) by ring] at h
  exact Nat.le_of_mul_le_mul_left h hpos

end Alg'

end Verif
