import Verif.Basic
import Verif.Ext.Linalg
import Mathlib.Algebra.BigOperators.Group.Finset.Basic
import Mathlib.Algebra.BigOperators.Ring.Finset
import Mathlib.Algebra.BigOperators.Intervals
import Mathlib.Tactic.Ring

/-! Helper lemmas on lists and results. -/

namespace Verif

open Finset

section
variable {α β : Type}

@[simp] theorem bind_ok' (a : α) (f : α → Res β) : ((Except.ok a : Res α) >>= f) = f a := rfl
@[simp] theorem bind_error' (e : Err) (f : α → Res β) :
    ((Except.error e : Res α) >>= f) = Except.error e := rfl
@[simp] theorem pure_eq_ok (a : α) : (pure a : Res α) = Except.ok a := rfl

theorem bind_eq_ok {x : Res α} {f : α → Res β} {b : β} :
    (x >>= f) = .ok b ↔ ∃ a, x = .ok a ∧ f a = .ok b := by
  cases x <;> simp

theorem idx_ok {site : String} {l : List α} {i : Nat} (h : i < l.length) :
    idx site l i = .ok l[i] := by simp [idx, h]

theorem idx_getD {site : String} {l : List α} {i : Nat} (d : α) (h : i < l.length) :
    idx site l i = .ok (l.getD i d) := by simp [idx, h]

theorem idx_eq_ok {site : String} {l : List α} {i : Nat} {a : α} :
    idx site l i = .ok a ↔ l[i]? = some a := by
  unfold idx; cases h : l[i]? <;> simp

theorem idx_error {site : String} {l : List α} {i : Nat} (h : l.length ≤ i) :
    idx site l i = .error (.panic site) := by simp [idx, h]

theorem mapRes_ok {f : α → Res β} {g : α → β} {l : List α} (h : ∀ a ∈ l, f a = .ok (g a)) :
    mapRes f l = .ok (l.map g) := by
  induction l with
  | nil => rfl
  | cons a as ih =>
    simp only [mapRes, h a (by simp), ih (fun x hx => h x (by simp [hx])), List.map_cons]

theorem mapRes_eq_ok_iff {f : α → Res β} {l : List α} {bs : List β} :
    mapRes f l = .ok bs ↔ List.Forall₂ (fun a b => f a = .ok b) l bs := by
  induction l generalizing bs with
  | nil => simp [mapRes, eq_comm]
  | cons a as ih =>
    simp only [mapRes]
    cases hf : f a with
    | error e =>
      simp only [reduceCtorEq, false_iff]
      intro h; cases h with
      | cons h1 _ => simp [hf] at h1
    | ok b =>
      cases hm : mapRes f as with
      | error e =>
        simp only [reduceCtorEq, false_iff]
        intro h; cases h with
        | cons h1 h2 => rw [← ih] at h2; simp [hm] at h2
      | ok bs' =>
        rw [hm] at ih
        constructor
        · intro h
          simp only [Except.ok.injEq] at h
          subst h
          exact .cons hf ((ih).1 rfl)
        · intro h
          cases h with
          | cons h1 h2 =>
            rw [hf] at h1
            have := (ih).2 h2
            simp_all

theorem mapRes_length {f : α → Res β} {l : List α} {bs : List β} (h : mapRes f l = .ok bs) :
    bs.length = l.length := by
  rw [mapRes_eq_ok_iff] at h
  exact h.length_eq.symm

theorem foldRes_ok {f : β → α → Res β} {g : β → α → β} {l : List α} {b : β}
    (h : ∀ b, ∀ a ∈ l, f b a = .ok (g b a)) : foldRes f b l = .ok (l.foldl g b) := by
  induction l generalizing b with
  | nil => rfl
  | cons a as ih =>
    simp only [foldRes, h b a (by simp), List.foldl_cons]
    exact ih (fun b x hx => h b x (by simp [hx]))

/-- Invariant version. -/
theorem foldRes_ok_inv (I : β → Prop) {f : β → α → Res β} {g : β → α → β} {l : List α} {b : β}
    (h0 : I b) (h : ∀ b, I b → ∀ a ∈ l, f b a = .ok (g b a) ∧ I (g b a)) :
    foldRes f b l = .ok (l.foldl g b) ∧ I (l.foldl g b) := by
  induction l generalizing b with
  | nil => exact ⟨rfl, h0⟩
  | cons a as ih =>
    have h1 := h b h0 a (by simp)
    simp only [foldRes, h1.1, List.foldl_cons]
    exact ih h1.2 (fun b hb x hx => h b hb x (by simp [hx]))

theorem foldRes_append {f : β → α → Res β} {l l' : List α} {b : β} :
    foldRes f b (l ++ l') = (foldRes f b l >>= fun b' => foldRes f b' l') := by
  induction l generalizing b with
  | nil => rfl
  | cons a as ih =>
    simp only [List.cons_append, foldRes]
    cases f b a with
    | error e => rfl
    | ok b' => exact ih

theorem zipAssign_length (f : α → β → α) (a : List α) (b : List β) :
    (zipAssign f a b).length = a.length := by
  induction a generalizing b with
  | nil => cases b <;> rfl
  | cons x xs ih => cases b with
    | nil => rfl
    | cons y ys => simp [zipAssign, ih]

theorem zipAssign_nil (f : α → β → α) (a : List α) : zipAssign f a [] = a := by
  cases a <;> rfl

theorem zipAssign_eq_zipWith (f : α → β → α) (a : List α) (b : List β)
    (h : a.length ≤ b.length) : zipAssign f a b = List.zipWith f a b := by
  induction a generalizing b with
  | nil => cases b <;> rfl
  | cons x xs ih => cases b with
    | nil => simp at h
    | cons y ys => simp [zipAssign, ih ys (by simpa using h)]

theorem zipAssign_getElem? (f : α → β → α) (a : List α) (b : List β) (i : Nat) :
    (zipAssign f a b)[i]? = (a[i]?).map (fun x => match b[i]? with
      | some y => f x y
      | none => x) := by
  induction a generalizing b i with
  | nil => cases b <;> simp [zipAssign]
  | cons x xs ih => cases b with
    | nil => cases h : (x :: xs)[i]? <;> simp [zipAssign, h]
    | cons y ys => cases i with
      | zero => simp [zipAssign]
      | succ i => simp [zipAssign, ih]

end

section Ring
variable {R : Type} [CommRing R]

theorem getD_zipWith_mul (a b : List R) (i : Nat) :
    (List.zipWith (· * ·) a b).getD i 0 = a.getD i 0 * b.getD i 0 := by
  simp only [List.getD_eq_getElem?_getD, List.getElem?_zipWith]
  cases a[i]? <;> cases b[i]? <;> simp

theorem list_sum_eq_range (l : List R) (n : Nat) (h : l.length ≤ n) :
    l.sum = ∑ i ∈ range n, l.getD i 0 := by
  induction l generalizing n with
  | nil => simp
  | cons a as ih =>
    cases n with
    | zero => simp at h
    | succ n =>
      rw [Finset.sum_range_succ', List.sum_cons, ih n (by simpa using h)]
      simp [add_comm]

theorem dot_eq_sum (a b : List R) (n : Nat) (h : a.length ≤ n ∨ b.length ≤ n) :
    dot a b = ∑ i ∈ range n, a.getD i 0 * b.getD i 0 := by
  unfold dot
  rw [list_sum_eq_range _ n (by simp; omega)]
  exact Finset.sum_congr rfl fun i _ => getD_zipWith_mul a b i

end Ring

end Verif
