import Verif.Model.Serialize
import Verif.Spec.Serialize

set_option linter.unusedSectionVars false
set_option linter.unusedSimpArgs false

namespace Verif.Ser

open Verif.Poseidon Verif.Spec

theorem bind_ok_iff {α β : Type} {x : Except SerErr α} {f : α → Except SerErr β} {b : β} :
    (x >>= f) = .ok b ↔ ∃ a, x = .ok a ∧ f a = .ok b := by
  cases x with
  | error e => exact ⟨fun h => (nomatch h), fun ⟨a, h, _⟩ => (nomatch h)⟩
  | ok a => exact ⟨fun h => ⟨a, rfl, h⟩, fun ⟨_, h, g⟩ => by cases h; exact g⟩

theorem ok_bind {α β : Type} (a : α) (f : α → Except SerErr β) : ((Except.ok a : Except SerErr α) >>= f) = f a := rfl

/-- Reading inverts writing on the values `ok`, and only the written bytes are read as a value. -/
structure Good {α : Type} (c : Codec α) (ok : α → Prop) : Prop where
  round : ∀ x rest, ok x → c.read (c.write x ++ rest) = .ok (x, rest)
  strict : ∀ bs x rest, c.read bs = .ok (x, rest) → bs = c.write x ++ rest ∧ ok x

theorem leWrite_length (w x : Nat) : (leWrite w x).length = w := by
  induction w generalizing x with
  | zero => rfl
  | succ w ih => simp [leWrite, ih]

theorem leRead_leWrite (w x : Nat) (h : x < 256 ^ w) : leRead (leWrite w x) = x := by
  induction w generalizing x with
  | zero => simp at h; simp [leWrite, leRead, h]
  | succ w ih =>
    simp only [leWrite, leRead]
    rw [ih _ (Nat.div_lt_of_lt_mul (by rw [pow_succ] at h; omega))]
    simp only [UInt8.toNat_ofNat']
    omega

theorem leRead_lt (bs : List UInt8) : leRead bs < 256 ^ bs.length := by
  induction bs with
  | nil => simp [leRead]
  | cons b bs ih =>
    have := b.toNat_lt
    simp only [leRead, List.length_cons, pow_succ]
    omega

theorem leWrite_leRead (bs : List UInt8) : leWrite bs.length (leRead bs) = bs := by
  induction bs with
  | nil => rfl
  | cons b bs ih =>
    have := b.toNat_lt
    simp only [leRead, List.length_cons, leWrite]
    rw [show (b.toNat + 256 * leRead bs) / 256 = leRead bs by omega, ih,
      show (b.toNat + 256 * leRead bs) % 256 = b.toNat by omega]
    simp

theorem readExact_append (a rest : List UInt8) : readExact a.length (a ++ rest) = .ok (a, rest) := by
  simp [readExact]

theorem readExact_ok {w : Nat} {bs a rest : List UInt8} (h : readExact w bs = .ok (a, rest)) : bs = a ++ rest ∧ a.length = w := by
  unfold readExact at h
  split at h
  · cases h
    exact ⟨(List.take_append_drop _ _).symm, by simpa⟩
  · cases h

theorem good_u64 : Good u64 (fun n => n < 2 ^ 64) where
  round x rest h := by
    have := readExact_append (leWrite 8 x) rest
    rw [leWrite_length] at this
    simp only [u64, this, ok_bind]
    rw [leRead_leWrite 8 x (by norm_num; exact h)]
  strict bs x rest h := by
    simp only [u64, bind_ok_iff, Prod.exists] at h
    obtain ⟨a, bs', h1, h2⟩ := h
    obtain ⟨rfl, h3⟩ := readExact_ok h1
    cases h2
    refine ⟨?_, ?_⟩
    · simp only [u64]
      rw [← h3, leWrite_leRead]
    · have := leRead_lt a
      rw [h3] at this
      norm_num at this ⊢
      exact this

theorem good_prime (p w : Nat) [NeZero p] (h : p ≤ 256 ^ w) : Good (prime p w) (fun _ => True) where
  round x rest _ := by
    have := readExact_append (leWrite w x.val) rest
    rw [leWrite_length] at this
    simp only [prime, this, ok_bind]
    have hx := ZMod.val_lt x
    rw [leRead_leWrite w _ (hx.trans_le h), if_pos hx, ZMod.natCast_zmod_val]
  strict bs x rest h' := by
    simp only [prime, bind_ok_iff, Prod.exists] at h'
    obtain ⟨a, bs', h1, h2⟩ := h'
    obtain ⟨rfl, h3⟩ := readExact_ok h1
    split at h2
    · rename_i hlt
      cases h2
      refine ⟨?_, trivial⟩
      simp only [prime]
      rw [ZMod.val_natCast_of_lt hlt, ← h3, leWrite_leRead]
    · cases h2

section
variable {α β : Type} {c : Codec α} {ok : α → Prop}

theorem readN_round (g : Good c ok) (l : List α) (rest : List UInt8) (h : ∀ x ∈ l, ok x) :
    readN c l.length (l.flatMap c.write ++ rest) = .ok (l, rest) := by
  induction l with
  | nil => rfl
  | cons a l ih =>
    simp only [List.length_cons, readN, List.flatMap_cons, List.append_assoc]
    rw [g.round a _ (h a (by simp)), ok_bind]
    simp only
    rw [ih fun x hx => h x (by simp [hx]), ok_bind]

theorem readN_strict (g : Good c ok) (n : Nat) (bs : List UInt8) (l : List α) (rest : List UInt8) (h : readN c n bs = .ok (l, rest)) :
    bs = l.flatMap c.write ++ rest ∧ l.length = n ∧ ∀ x ∈ l, ok x := by
  induction n generalizing bs l with
  | zero =>
    simp only [readN] at h
    cases h
    simp
  | succ n ih =>
    simp only [readN, bind_ok_iff, Prod.exists] at h
    obtain ⟨x, bs1, h1, xs, bs2, h2, h3⟩ := h
    cases h3
    obtain ⟨e1, e2⟩ := g.strict _ _ _ h1
    obtain ⟨e3, e4, e5⟩ := ih _ _ h2
    refine ⟨by rw [e1, e3, List.flatMap_cons, List.append_assoc], by simp [e4], ?_⟩
    intro y hy
    rcases List.mem_cons.1 hy with rfl | hy
    · exact e2
    · exact e5 y hy

theorem good_array (g : Good c (fun _ => True)) (n : Nat) : Good (array c n) (fun _ => True) where
  round x rest _ := by
    have := readN_round g (List.ofFn x) rest fun _ _ => trivial
    rw [List.length_ofFn] at this
    simp only [array, this, ok_bind, List.length_ofFn, dif_pos, List.getElem_ofFn]
  strict bs x rest h := by
    simp only [array, bind_ok_iff, Prod.exists] at h
    obtain ⟨xs, bs', h1, h2⟩ := h
    obtain ⟨e1, e2, -⟩ := readN_strict g _ _ _ _ h1
    rw [dif_pos e2] at h2
    cases h2
    refine ⟨?_, trivial⟩
    subst e2
    simpa [array] using e1

theorem good_via {c : Codec β} {ok : β → Prop} (g : Good c ok) (f : α ≃ β) : Good (via c f) (fun x => ok (f x)) where
  round x rest h := by simp only [via, g.round _ _ h, ok_bind, Equiv.symm_apply_apply]
  strict bs x rest h := by
    simp only [via, bind_ok_iff, Prod.exists] at h
    obtain ⟨y, bs', h1, h2⟩ := h
    cases h2
    simpa [via] using g.strict _ _ _ h1

theorem good_vec (g : Good c ok) : Good (vec c) (fun l => l.length < 2 ^ 64 ∧ ∀ x ∈ l, ok x) where
  round l rest h := by
    simp only [vec, List.append_assoc]
    rw [good_u64.round _ _ h.1, ok_bind]
    exact readN_round g l rest h.2
  strict bs l rest h := by
    simp only [vec, bind_ok_iff, Prod.exists] at h
    obtain ⟨n, bs', h1, h2⟩ := h
    obtain ⟨e1, e2⟩ := good_u64.strict _ _ _ h1
    obtain ⟨e3, e4, e5⟩ := readN_strict g _ _ _ _ h2
    subst e4
    exact ⟨by rw [e1, e3]; simp [vec], e2, e5⟩

end

theorem Good.congr {α : Type} {c : Codec α} {ok ok' : α → Prop} (g : Good c ok) (h : ∀ x, ok x ↔ ok' x) : Good c ok' :=
  ⟨fun x rest hx => g.round x rest ((h x).2 hx), fun bs x rest hx => ⟨(g.strict bs x rest hx).1, (h x).1 (g.strict bs x rest hx).2⟩⟩

section
variable {R : Type} {c : Codec R} (g : Good c (fun _ => True))
include g

theorem good_row : Good (vec c) Len64 := (good_vec g).congr fun l => by simp [Len64]

theorem good_table : Good (vec (vec c)) Lens64 := good_vec (good_row g)

theorem good_commitment : Good (commitment c) (fun y => Len64 y.val) where
  round y rest h := by simp only [commitment, (good_row g).round _ _ h, ok_bind]
  strict bs y rest h := by
    simp only [commitment, bind_ok_iff, Prod.exists] at h
    obtain ⟨v, bs', h1, h2⟩ := h
    cases h2
    exact (good_row g).strict _ _ _ h1

theorem good_commitments : Good (vec (commitment c)) (fun ys => Lens64 (ys.map (·.val))) :=
  (good_vec (good_commitment g)).congr fun ys => by simp [Lens64, Len64]

theorem good_lin : Good (linProof c) (fun p => Lens64 p.sumcheck ∧ Len64 p.v ∧ Len64 p.u) where
  round p rest h := by
    simp only [linProof, sumcheck, List.append_assoc, (good_table g).round _ _ h.1, (good_row g).round _ _ h.2.1,
      (good_row g).round _ _ h.2.2, ok_bind]
  strict bs p rest h := by
    simp only [linProof, sumcheck, bind_ok_iff, Prod.exists] at h
    obtain ⟨a, b1, h1, b, b2, h2, d, b3, h3, h4⟩ := h
    cases h4
    obtain ⟨e1, f1⟩ := (good_table g).strict _ _ _ h1
    obtain ⟨e2, f2⟩ := (good_row g).strict _ _ _ h2
    obtain ⟨e3, f3⟩ := (good_row g).strict _ _ _ h3
    exact ⟨by simp only [linProof, sumcheck, e1, e2, e3, List.append_assoc], f1, f2, f3⟩

theorem good_dec : Good (decProof c) (fun p => Lens64 p.uS ∧ Lens64 p.vS ∧ Lens64 p.xS ∧ Lens64 (p.yS.map (·.val))) where
  round p rest h := by
    simp only [decProof, List.append_assoc, (good_table g).round _ _ h.1, (good_table g).round _ _ h.2.1,
      (good_table g).round _ _ h.2.2.1, (good_commitments g).round _ _ h.2.2.2, ok_bind]
  strict bs p rest h := by
    simp only [decProof, bind_ok_iff, Prod.exists] at h
    obtain ⟨a, b1, h1, b, b2, h2, d, b3, h3, f, b4, h4, h5⟩ := h
    cases h5
    obtain ⟨e1, f1⟩ := (good_table g).strict _ _ _ h1
    obtain ⟨e2, f2⟩ := (good_table g).strict _ _ _ h2
    obtain ⟨e3, f3⟩ := (good_table g).strict _ _ _ h3
    obtain ⟨e4, f4⟩ := (good_commitments g).strict _ _ _ h4
    exact ⟨by simp only [decProof, e1, e2, e3, e4, List.append_assoc], f1, f2, f3, f4⟩

theorem good_fold : Good (foldProof c) (fun p => Lens64 p.sumcheck ∧ Lens64 p.thetaS ∧ Lens64 p.etaS) where
  round p rest h := by
    simp only [foldProof, sumcheck, List.append_assoc, (good_table g).round _ _ h.1, (good_table g).round _ _ h.2.1,
      (good_table g).round _ _ h.2.2, ok_bind]
  strict bs p rest h := by
    simp only [foldProof, sumcheck, bind_ok_iff, Prod.exists] at h
    obtain ⟨a, b1, h1, b, b2, h2, d, b3, h3, h4⟩ := h
    cases h4
    obtain ⟨e1, f1⟩ := (good_table g).strict _ _ _ h1
    obtain ⟨e2, f2⟩ := (good_table g).strict _ _ _ h2
    obtain ⟨e3, f3⟩ := (good_table g).strict _ _ _ h3
    exact ⟨by simp only [foldProof, sumcheck, e1, e2, e3, List.append_assoc], f1, f2, f3⟩

theorem good_lf : Good (lfProof c) Proof64 where
  round p rest h := by
    have hl := h.dec p.decL (by simp)
    have hr := h.dec p.decR (by simp)
    simp only [lfProof, List.append_assoc, (good_lin g).round _ _ ⟨h.linSumcheck, h.linV, h.linU⟩, (good_dec g).round _ _ hl,
      (good_dec g).round _ _ hr, (good_fold g).round _ _ ⟨h.foldSumcheck, h.theta, h.eta⟩, ok_bind]
  strict bs p rest h := by
    simp only [lfProof, bind_ok_iff, Prod.exists] at h
    obtain ⟨a, b1, h1, b, b2, h2, d, b3, h3, f, b4, h4, h5⟩ := h
    cases h5
    obtain ⟨e1, f1⟩ := (good_lin g).strict _ _ _ h1
    obtain ⟨e2, f2⟩ := (good_dec g).strict _ _ _ h2
    obtain ⟨e3, f3⟩ := (good_dec g).strict _ _ _ h3
    obtain ⟨e4, f4⟩ := (good_fold g).strict _ _ _ h4
    refine ⟨by simp only [lfProof, e1, e2, e3, e4, List.append_assoc], f1.1, f1.2.1, f1.2.2, ?_, f4.1, f4.2.1, f4.2.2⟩
    intro q hq
    simp only [List.mem_cons, List.not_mem_nil, or_false] at hq
    rcases hq with rfl | rfl
    · exact f2
    · exact f3

end

theorem good_ring {p N τ : Nat} [NeZero p] {F R : Type} [AddCommGroup F] [AddCommGroup R] (w : Nat) (h : p ≤ 256 ^ w)
    (e : Encoding (ZMod p) F R N τ) : Good (ring w e) (fun _ => True) :=
  good_via (good_array (good_via (good_array (good_prime p w h) τ) e.base.toEquiv) N) e.coeffs.toEquiv

/-! ## Sizes -/

theorem flatMap_size {α : Type} {c : Codec α} {k : Nat} (h : ∀ x, (c.write x).length = k) (l : List α) :
    (l.flatMap c.write).length = l.length * k := by
  induction l with
  | nil => simp
  | cons a l ih =>
    simp only [List.flatMap_cons, List.length_append, h, ih, List.length_cons]
    ring_nf

theorem ring_size {p N τ : Nat} {F R : Type} [AddCommGroup F] [AddCommGroup R] (w : Nat) (e : Encoding (ZMod p) F R N τ) (x : R) :
    ((ring w e).write x).length = N * (τ * w) := by
  have hp : ∀ x : ZMod p, ((prime p w).write x).length = w := fun x => leWrite_length _ _
  have hF : ∀ x : F, ((via (array (prime p w) τ) e.base.toEquiv).write x).length = τ * w := fun x => by
    simp only [via, array]
    rw [flatMap_size hp, List.length_ofFn]
  have h := flatMap_size hF (List.ofFn (e.coeffs x))
  rw [List.length_ofFn] at h
  exact h

section
variable {R : Type} {c : Codec R} {k : Nat} (h : ∀ x, (c.write x).length = k)
include h

theorem row_size (l : List R) : ((vec c).write l).length = 8 + l.length * k := by
  simp only [vec, List.length_append, u64, leWrite_length, flatMap_size h]

theorem rows_size (l : List (List R)) : (l.flatMap (vec c).write).length = 8 * l.length + (l.map List.length).sum * k := by
  induction l with
  | nil => simp
  | cons a l ih =>
    simp only [List.flatMap_cons, List.length_append, row_size h, ih, List.length_cons, List.map_cons, List.sum_cons]
    ring_nf

theorem table_size (l : List (List R)) : ((vec (vec c)).write l).length = 8 * (1 + l.length) + (l.map List.length).sum * k := by
  have := rows_size h l
  simp only [vec, List.length_append, u64, leWrite_length] at this ⊢
  rw [this]
  ring_nf

theorem commitments_size (l : List (Commitment R)) :
    ((vec (commitment c)).write l).length = 8 * (1 + (l.map (·.val)).length) + ((l.map (·.val)).map List.length).sum * k := by
  rw [← table_size h]
  simp [vec, commitment, List.flatMap_map]

theorem lf_size (p : LFProof R) : ((lfProof c).write p).length = 8 * vecCount p + elemCount p * k := by
  simp only [lfProof, linProof, decProof, foldProof, sumcheck, List.length_append, row_size h, table_size h, commitments_size h,
    vecCount, elemCount, tables, List.map_cons, List.map_nil, List.sum_cons, List.sum_nil, List.flatten_cons, List.flatten_nil,
    List.map_append, List.sum_append]
  ring_nf

end

end Verif.Ser
