import Verif.Lemmas.Knowledge

/-!
# The messages of the prover depend only on earlier challenges
-/

set_option linter.unusedSectionVars false
set_option linter.unusedSimpArgs false

namespace Verif

open Finset Spec Props

section Sum
variable {F R β : Type} [Field F] [CommRing R] [Algebra F R] [DecidableEq R] {g : β → Nat → List UInt8 × β}

theorem proveLoop_len {σ : Type} (T : Transcript F R σ) (comb : List R → Res R) : ∀ (k : Nat) (s : σ) (st : ProverState F R)
    (r : Option F) (out : List (List R) × Option F × ProverState F R × σ), proveLoop T comb k s st r = .ok out → out.1.length = k
  | 0, s, st, r, out, h => by cases h; rfl
  | k + 1, s, st, r, out, h => by
    unfold proveLoop at h
    simp only [bind_eq_ok, Prod.exists] at h
    obtain ⟨msg, st1, -, m2, r2, st2, s2, h2, h3⟩ := h
    cases h3
    have := proveLoop_len T comb k _ _ _ _ h2
    simpa using this

theorem proveLoop_causal (comb : List R → Res R) : ∀ (k j : Nat) (v v' : List F) (b : β) (st : ProverState F R) (r : Option F)
    (out out' : List (List R) × Option F × ProverState F R × (List F × β)), v.take j = v'.take j →
    proveLoop (coinBT g) comb k (v, b) st r = .ok out → proveLoop (coinBT g) comb k (v', b) st r = .ok out' →
    out.1.take (j + 1) = out'.1.take (j + 1)
  | 0, j, v, v', b, st, r, out, out', _, h, h' => by cases h; cases h'; rfl
  | k + 1, j, v, v', b, st, r, out, out', he, h, h' => by
    unfold proveLoop at h h'
    simp only [bind_eq_ok, Prod.exists] at h h'
    obtain ⟨msg, st1, h1, m2, r2, st2, s2, t2, h2, h3⟩ := h
    obtain ⟨msg', st1', h1', m2', r2', st2', s2', t2', h2', h3'⟩ := h'
    rw [h1] at h1'
    cases h1'
    cases h3
    cases h3'
    cases j with
    | zero => simp
    | succ j =>
      rw [List.take_succ_cons, List.take_succ_cons]
      congr 1
      have e1 : v.headD 0 = v'.headD 0 := by
        cases v <;> cases v' <;> simp_all
      have e2 : v.tail.take j = v'.tail.take j := by
        cases v <;> cases v' <;> simp_all
      have a1 : ∀ (s : List F × β) (m : List R), (coinBT g).absorbSlice s m = s := by
        intro s m
        unfold Transcript.absorbSlice
        induction m with
        | nil => rfl
        | cons a m ih => exact ih
      rw [a1] at h2 h2'
      change proveLoop _ _ _ (v.tail, b) _ (some (v.headD 0)) = _ at h2
      change proveLoop _ _ _ (v'.tail, b) _ (some (v'.headD 0)) = _ at h2'
      rw [← e1] at h2'
      exact proveLoop_causal comb k j _ _ b _ _ _ _ e2 h2 h2'

theorem prove_causal (mles : List (Mle R)) (n deg : Nat) (comb : List R → Res R) (j : Nat) (v v' : List F) (b : β)
    (out out' : (List (List R) × ProverState F R) × (List F × β)) (he : v.take j = v'.take j)
    (h : proveAsSubprotocol (coinBT g) (v, b) mles n deg comb = .ok out)
    (h' : proveAsSubprotocol (coinBT g) (v', b) mles n deg comb = .ok out') :
    out.1.1.take (j + 1) = out'.1.1.take (j + 1) ∧ out.1.1.length = n := by
  unfold proveAsSubprotocol at h h'
  simp only [bind_eq_ok, Prod.exists] at h h'
  obtain ⟨st, h1, m, r, st1, s1, t1, h2, h3⟩ := h
  obtain ⟨st', h1', m', r', st1', s1', t1', h2', h3'⟩ := h'
  rw [h1] at h1'
  cases h1'
  have hc := proveLoop_causal comb n j v v' b st none _ _ he h2 h2'
  have hl := proveLoop_len _ comb n _ _ _ _ h2
  cases r with
  | none => cases h3
  | some r =>
    cases r' with
    | none => cases h3'
    | some r' =>
      cases h3
      cases h3'
      exact ⟨hc, hl⟩

end Sum

section Gen
variable {Fp F C : Type} {N τ : Nat} [Field Fp] [Field F] [DecidableEq F] [Algebra Fp F] [CommRing C]
  [Algebra Fp C]

/-- Message `j` of the folding prover depends on the challenges before the sum-check and its first `j` ones. -/
theorem fold_causal (rd : RingData Fp F C N τ) (P : Params) (hK : 1 ≤ P.K) (cs : ChallengeSet C) (B : Nat → Nat → List UInt8)
    (w w' : List F) (cms : List (LCCCS (Fin N → F)))
    (ws : List (Witness (Fin N → F) C)) (ccs : CCS (Fin N → F)) (mz : List (List (Mle (Fin N → F))))
    (st st' : LCCCS (Fin N → F)) (wit wit' : Witness (Fin N → F) C) (proof proof' : FoldProof (Fin N → F)) (t t' : List F × Nat)
    (j : Nat) (hw : 6 * P.K - 1 + ccs.s ≤ w.length)
    (he : w.take (6 * P.K - 1 + ccs.s + j) = w'.take (6 * P.K - 1 + ccs.s + j))
    (h : foldProve rd P cs (scripted (coinT F (Fin N → F)) B) (w, 0) cms ws ccs mz = .ok ((st, wit, proof), t))
    (h' : foldProve rd P cs (scripted (coinT F (Fin N → F)) B) (w', 0) cms ws ccs mz = .ok ((st', wit', proof'), t')) :
    proof.sumcheck.take (j + 1) = proof'.sumcheck.take (j + 1) ∧ proof.sumcheck.length = ccs.s := by
  have e1 : w.take (6 * P.K - 1 + ccs.s) = w'.take (6 * P.K - 1 + ccs.s) := by
    have := congrArg (List.take (6 * P.K - 1 + ccs.s)) he
    rwa [List.take_take, List.take_take, Nat.min_eq_left (by omega)] at this
  have e2 : (w.drop (6 * P.K - 1 + ccs.s)).take j = (w'.drop (6 * P.K - 1 + ccs.s)).take j := by
    have := congrArg (List.drop (6 * P.K - 1 + ccs.s)) he
    rwa [List.drop_take, List.drop_take, Nat.add_sub_cancel_left] at this
  have s1 : w = w.take (6 * P.K - 1 + ccs.s) ++ w.drop (6 * P.K - 1 + ccs.s) := (List.take_append_drop _ _).symm
  have s2 : w' = w.take (6 * P.K - 1 + ccs.s) ++ w'.drop (6 * P.K - 1 + ccs.s) := by
    rw [e1]; exact (List.take_append_drop _ _).symm
  generalize hu : w.take (6 * P.K - 1 + ccs.s) = u at s1 s2
  have hul : u.length = 6 * P.K - 1 + ccs.s := by rw [← hu, List.length_take]; omega
  generalize w.drop (6 * P.K - 1 + ccs.s) = v at s1 e2
  generalize w'.drop (6 * P.K - 1 + ccs.s) = v' at s2 e2
  rw [scripted_coin, s1] at h
  rw [scripted_coin, s2] at h'
  unfold foldProve at h h'
  cases hsc : sanityCheck ccs P.L with
  | error e => rw [hsc] at h; cases h
  | ok _ =>
  rw [hsc] at h h'
  simp only [bind_ok'] at h h'
  split at h
  · cases h
  rename_i hne
  rw [if_neg hne] at h'
  rw [squeezeFold_coin _ P hK ccs.s _ _ 0 hul] at h h'
  simp only [bind_ok'] at h h'
  simp only [bind_eq_ok, Prod.exists] at h h'
  obtain ⟨mz1, a1, z1, a2, c1, a3, mz2, a4, z2, a5, c2, a6, g, deg, a7, pr, pst, t1, t2, a8, th, a9, et, a10, _, _, _, _, a11,
    _, a12, _, _, _, _, a13, _, a14, _, a15, a16⟩ := h
  obtain ⟨mz1', a1', z1', a2', c1', a3', mz2', a4', z2', a5', c2', a6', g', deg', a7', pr', pst', t1', t2', a8', th', a9', et',
    a10', _, _, _, _, a11', _, a12', _, _, _, _, a13', _, a14', _, a15', a16'⟩ := h'
  rw [a1] at a1'; cases a1'
  rw [a2] at a2'; cases a2'
  rw [a3] at a3'; cases a3'
  rw [a4] at a4'; cases a4'
  rw [a5] at a5'; cases a5'
  rw [a6] at a6'; cases a6'
  rw [a7] at a7'; cases a7'
  have hq := prove_causal _ _ _ _ j v v' 0 _ _ e2 a8 a8'
  cases a16
  cases a16'
  exact hq

end Gen
end Verif
