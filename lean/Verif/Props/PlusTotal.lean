import Verif.Spec.ProofShape
import Verif.Lemmas.PlusSetCheck
import Verif.Props.VerifierTotal
import Verif.Props.PlusR1CS
import Verif.Props.PlusRange

/-!
# C97: how the verifiers of latticefold-plus reject proofs
-/

set_option linter.unusedSectionVars false
set_option linter.unusedSimpArgs false

namespace Verif.Props

open Spec Verif Plus

/-! ## Results that are values or aborts -/

/-- A result that is no reported error. -/
def ValueOrAbort {α : Type} (x : Res α) : Prop := (∃ a, x = .ok a) ∨ x.isPanic = true

theorem va_bind {α β : Type} {x : Res α} {f : α → Res β} (hx : ValueOrAbort x) (hf : ∀ a, x = .ok a → ValueOrAbort (f a)) :
    ValueOrAbort (x >>= f) := by
  rcases hx with ⟨a, rfl⟩ | h
  · exact hf a rfl
  · exact .inr (panic_bind h)

theorem va_ok {α : Type} (a : α) : ValueOrAbort (.ok a : Res α) := .inl ⟨a, rfl⟩

theorem va_panic {α : Type} (s : String) : ValueOrAbort (.error (.panic s) : Res α) := .inr rfl

theorem va_idx {α : Type} (s : String) (l : List α) (i : Nat) : ValueOrAbort (idx s l i) := by
  unfold idx
  split
  · exact va_ok _
  · exact va_panic _

theorem va_unwrap {α : Type} (s : String) (x : Res α) : ValueOrAbort (unwrapRes s x) := by
  unfold unwrapRes
  split
  · exact va_ok _
  · exact va_panic _

theorem va_mapRes {α β : Type} {f : α → Res β} {l : List α} (h : ∀ a, ValueOrAbort (f a)) : ValueOrAbort (mapRes f l) := by
  induction l with
  | nil => exact va_ok _
  | cons a l ih =>
    simp only [mapRes]
    rcases h a with ⟨b, hb⟩ | hb
    · rw [hb]
      rcases ih with ⟨bs, hbs⟩ | hbs
      · rw [hbs]; exact va_ok _
      · right
        revert hbs
        cases mapRes f l with
        | ok _ => intro hbs; cases hbs
        | error e => intro hbs; exact hbs
    · right
      cases hf : f a with
      | ok _ => rw [hf] at hb; cases hb
      | error e => rw [hf] at hb; cases e <;> first | rfl | cases hb

variable {F R σ : Type} {d : Nat} [Field F] [CommRing R] [Algebra F R]

theorem va_evalVec (n : Nat) (v p : List R) : ValueOrAbort (evalVec n v p) := by
  unfold evalVec
  refine va_bind ?_ fun m _ => ?_
  · unfold Mle.fromEvals
    split
    · exact va_ok _
    · exact va_panic _
  · split
    · exact va_ok _
    · exact va_panic _

theorem va_short (pr : PlusRing F R d) (l : Nat) (T : Transcript F R σ) (s : σ) : ValueOrAbort (Plus.shortChallenge pr l T s) := by
  unfold Plus.shortChallenge
  split
  · exact va_panic _
  · simp only
    split
    · exact va_ok _
    · exact va_panic _

theorem va_shorts (pr : PlusRing F R d) (T : Transcript F R σ) (n : Nat) (s : σ) : ValueOrAbort (Plus.shortChallenges pr T n s) := by
  induction n generalizing s with
  | zero => exact va_ok _
  | succ n ih => exact va_bind (va_short _ _ _ _) fun _ _ => va_bind (ih _) fun _ _ => va_ok _

theorem va_sPrime (pr : PlusRing F R d) (T : Transcript F R σ) (n : Nat) (s : σ) : ValueOrAbort (sPrime pr T n s) := by
  induction n generalizing s with
  | zero => exact va_ok _
  | succ n ih => exact va_bind (va_shorts _ _ _ _) fun _ _ => va_bind (ih _) fun _ _ => va_ok _

variable [DecidableEq F] [DecidableEq R]

theorem va_cmVerifySumcheck (T : Transcript F R σ) (s : σ) (dcom : Dcom F R) (L m : Nat) (us : List (List R)) (a b c e : List R)
    (proof : List (List R)) (evals : List (InstanceEvals R)) :
    ValueOrAbort (cmVerifySumcheck T s dcom L m us a b c e proof evals) := by
  unfold cmVerifySumcheck
  refine va_bind (va_mapRes fun p => ?_) fun _ _ => va_bind (va_unwrap _ _) fun _ _ => va_bind (va_evalVec _ _ _) fun _ _ =>
    va_bind (va_evalVec _ _ _) fun _ _ => va_bind (va_unwrap _ _) fun _ _ => va_bind (va_mapRes fun p => ?_) fun _ _ => ?_
  · unfold claimOne
    exact va_bind (va_idx _ _ _) fun _ _ => va_bind (va_mapRes fun _ => va_bind (va_idx _ _ _) fun _ _ => va_bind (va_idx _ _ _) fun _ _ =>
      va_bind (va_idx _ _ _) fun _ _ => va_bind (va_idx _ _ _) fun _ _ => va_ok _) fun _ _ =>
      va_bind (va_idx _ _ _) fun _ _ => va_bind (va_idx _ _ _) fun _ _ => va_ok _
  · unfold evalOne
    exact va_bind (va_mapRes fun _ => va_bind (va_idx _ _ _) fun _ _ => va_ok _) fun _ _ => va_bind (va_idx _ _ _) fun _ _ => va_ok _
  · split
    · exact va_ok _
    · exact va_panic _

/-- **C97**, negation: the commitment transformation never returns the error of its signature. Every proof that is not accepted aborts. -/
theorem C97_cm_never_err (pr : PlusRing F R d) (T : Transcript F R σ) (s : σ) (M : List (SpMat R)) (p : CmProof F R) :
    (∃ x s', cmVerify pr T s M p = .ok (x, s')) ∨ (cmVerify pr T s M p).isPanic = true := by
  have h : ValueOrAbort (cmVerify pr T s M p) := by
    unfold cmVerify
    refine va_bind (va_unwrap _ _) fun _ _ => va_bind (va_shorts _ _ _ _) fun _ _ => va_bind (va_sPrime _ _ _ _) fun _ _ =>
      va_bind (va_idx _ _ _) fun _ _ => va_bind (va_cmVerifySumcheck _ _ _ _ _ _ _ _ _ _ _ _) fun _ _ =>
      va_bind (va_cmVerifySumcheck _ _ _ _ _ _ _ _ _ _ _ _) fun _ _ => va_bind ?_ fun _ _ => va_ok _
    unfold CmProof.x
    exact va_bind (va_idx _ _ _) fun _ _ => va_bind (va_idx _ _ _) fun _ _ => va_bind (va_idx _ _ _) fun _ _ =>
      va_bind (va_mapRes fun _ => va_bind (va_idx _ _ _) fun _ _ => va_ok _) fun _ _ =>
      va_bind (va_mapRes fun _ => va_bind (va_idx _ _ _) fun _ _ => va_bind (va_idx _ _ _) fun _ _ => va_ok _) fun _ _ => va_ok _
  rcases h with ⟨⟨x, s'⟩, h⟩ | h
  · exact .inl ⟨x, s', h⟩
  · exact .inr h

/-- **C97**, negation: the verifier of a linearized R1CS never returns `false`. -/
theorem C97_r1cs_never_false (T : Transcript F R σ) (s : σ) (p : ComR1CSProof R) :
    (∃ s', p.verify T s = .ok (true, s')) ∨ (p.verify T s).isPanic = true := by
  unfold ComR1CSProof.verify
  simp only
  rcases va_unwrap "verify_as_subprotocol.unwrap()" (verifyAsSubprotocol T (T.challenges p.nvars s).2 p.nvars 3 (0 : R) p.sumcheck)
    with ⟨⟨sc, s2⟩, h⟩ | h
  · rw [h]
    simp only [bind_ok']
    rcases va_unwrap "eq_eval.unwrap()" (eqEval ((T.challenges p.nvars s).1.map (algebraMap F R)) (sc.point.map (algebraMap F R)))
      with ⟨e, he⟩ | he
    · rw [he]
      simp only [bind_ok']
      split
      · exact .inl ⟨_, rfl⟩
      · exact .inr rfl
    · exact .inr (panic_bind he)
  · exact .inr (panic_bind h)

/-- **C97**, negation: the verifier of latticefold-plus never returns `false`. For every proof it returns `true` or aborts. -/
theorem C97_plus_never_false (pr : PlusRing F R d) (T : Transcript F R σ) (M : List (SpMat R)) (params : PlusParams) (s : σ)
    (p : PlusProof F R (ComR1CSProof R)) :
    (∃ s', plusVerify pr T (fun s q => ComR1CSProof.verify T s q) M params s p = .ok (true, s')) ∨
      (plusVerify pr T (fun s q => ComR1CSProof.verify T s q) M params s p).isPanic = true := by
  have hall : ∀ (ps : List (ComR1CSProof R)) (s : σ), ValueOrAbort (verifyAll (fun s q => ComR1CSProof.verify T s q) ps s) := by
    intro ps
    induction ps with
    | nil => exact fun s => va_ok _
    | cons q ps ih =>
      intro s
      refine va_bind ?_ fun _ _ => ih _
      rcases C97_r1cs_never_false T s q with ⟨s', h⟩ | h
      · exact .inl ⟨_, h⟩
      · exact .inr h
  unfold plusVerify
  rcases hall p.lproof s with ⟨s1, h1⟩ | h1
  · rw [h1]
    simp only [bind_ok']
    rcases va_unwrap "cmproof.verify.unwrap()" (cmVerify pr T s1 M p.cmproof) with ⟨⟨x, s2⟩, h2⟩ | h2
    · rw [h2]
      simp only [bind_ok']
      have h3 : ValueOrAbort (decompVerify p.dproof p.linb2x.cmG p.linb2x.vo params.B) := by
        unfold decompVerify
        simp only
        split
        · split
          · exact va_ok _
          · exact va_panic _
        · exact va_panic _
      rcases h3 with ⟨u, h3⟩ | h3
      · rw [h3]
        exact .inl ⟨_, rfl⟩
      · exact .inr (panic_bind h3)
    · exact .inr (panic_bind h2)
  · exact .inr (panic_bind h1)

/-- **C97**, negation: the range check reports no error of the set check, it aborts. -/
theorem C97_range_aborts (pr : PlusRing F R d) (T : Transcript F R σ) (s : σ) (dcom : Dcom F R)
    (h : ∀ s', setVerify pr T s dcom.out ≠ .ok s') : (dcomVerify pr T s dcom).isPanic = true := by
  unfold dcomVerify
  refine panic_bind ?_
  unfold unwrapRes
  split
  · rename_i s' hs
    exact absurd hs (h s')
  · rfl

/-- **C97**, the part that holds for the set check: if there is an entry `e[0]` and the sum-check proof has the right lengths, the verifier
returns a value or reports an error. Missing for the full property: proofs of other lengths, and the callers, which unwrap the result. -/
theorem C97_set_check_partial (pr : PlusRing F R d) (T : Transcript F R σ) (s : σ) (out : SetOut F R) (hn : out.nvars ≠ 0)
    (hc : CharGt F 3) (he : out.e ≠ []) (hm : MsgsFit out.nvars 3 out.sumcheck) : (setVerify pr T s out).isPanic = false := by
  unfold setVerify
  rw [idx_ok (List.length_pos_iff.2 he)]
  simp only [bind_ok']
  set e0 := out.e[0]'(List.length_pos_iff.2 he)
  have hl : (drawAll T out.nvars e0.length out.b.length s).1.1.length = e0.length + out.b.length := by
    rw [drawAll_eq]
    exact (drawClaims_length T _ _ _)
  rcases hd : drawAll T out.nvars e0.length out.b.length s with ⟨⟨cba, rc⟩, s1⟩
  rw [hd] at hl
  simp only at hl ⊢
  refine np_bind (np_of_or ?_) fun _ _ => np_bind ?_ fun _ _ => ?_
  · rcases C25_total_on_shaped_proofs_partial T s1 out.nvars 3 hn (by omega) hc 0 out.sumcheck hm.1 hm.2 with ⟨sc, s', h⟩ | h
    · exact .inl ⟨_, h⟩
    · exact .inr h
  · unfold setVer
    refine np_bind (np_foldRes fun _ p hp => ?_) fun _ _ => np_foldRes fun _ p hp => ?_
    · have := List.snd_lt_of_mem_zipIdx hp
      rw [idx_ok (by simp at this; omega)]
      exact np_bind rfl fun _ _ => np_bind (np_eqEval _ _) fun _ _ => rfl
    · have := List.snd_lt_of_mem_zipIdx hp
      rw [idx_ok (by simp at this; omega)]
      exact np_bind rfl fun _ _ => np_bind (np_eqEval _ _) fun _ _ => rfl
  · split <;> rfl

/-- **C97**, the part that holds for the range check: after an accepted set check, failing checks of the range check are reported if there are as
many evaluations `c` as `e`. Missing for the full property: a rejected set check, and the callers, which unwrap the result. -/
theorem C97_range_partial (pr : PlusRing F R d) (T : Transcript F R σ) (s s' : σ) (dcom : Dcom F R)
    (h : setVerify pr T s dcom.out = .ok s') (hc : ∀ ev ∈ dcom.evals, dcom.out.e.length ≤ ev.c.length) :
    (dcomVerify pr T s dcom).isPanic = false := by
  unfold dcomVerify
  rw [h]
  refine np_bind rfl fun _ _ => np_bind (np_foldRes fun _ p hp => np_bind ?_ fun _ _ => np_foldRes fun _ q hq => ?_) fun _ _ => rfl
  · unfold psiCheckAB
    exact np_foldRes fun _ _ _ => by split <;> rfl
  · unfold psiCheckU
    simp only
    split
    · split <;> rfl
    · have h1 := List.snd_lt_of_mem_zipIdx hq
      have h2 := hc p.1 (List.fst_mem_of_mem_zipIdx hp)
      rw [idx_ok (by simp at h1; omega)]
      simp only [bind_ok']
      split <;> rfl

/-- A proof for a linearized R1CS with `v_A v_B ≠ v_C`, and one with `v_A v_B = v_C`. -/
def badR1 : ComR1CSProof Example.R17 := ⟨[[0, 0, 0, 0]], 1, [], 0, 1, 2, 3⟩
def goodR1 : ComR1CSProof Example.R17 := ⟨[[0, 0, 0, 0]], 1, [], 0, 1, 2, 2⟩

example : (badR1.verify tr17 0).isPanic = true := by decide +kernel
example : (match goodR1.verify tr17 0 with
    | .ok (b, _) => b
    | .error _ => false) = true := by decide +kernel

/-- A set check with a wrong evaluation is reported by the set check, but aborts the range check. -/
def badSet : SetOut (ZMod 17) Example.R17 := ⟨1, [], [[0, 0, 0, 0]], [[[2]]], []⟩

example : (setVerify Example.plus17 tr17 0 badSet).isPanic = false :=
  C97_set_check_partial Example.plus17 tr17 0 badSet (by decide) charGt17 (by decide) ⟨by decide, by decide⟩
example : (dcomVerify Example.plus17 tr17 0 ⟨[], [], badSet, ⟨2, 1, 1⟩⟩).isPanic = true := by decide +kernel
example : (match setVerify Example.plus17 tr17 0 badSet with
    | .ok _ => true
    | .error _ => false) = false := by decide +kernel

end Verif.Props
