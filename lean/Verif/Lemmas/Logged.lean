import Verif.Lemmas.Parse
import Verif.Props.RandomOracleFold

/-! Algorithms which record the answers they get; the verifiers depend on the oracle only through the answers to their queries. -/

set_option linter.unusedSectionVars false
set_option linter.unusedSimpArgs false

namespace Verif

open Finset Spec Verif.Props

namespace Alg'

variable {H F α : Type}

/-- The algorithm with a record of queries and answers. -/
def logged : Alg H F α → Alg H F (α × List (H × F))
  | .done a => .done (a, [])
  | .ask h k => .ask h fun c => bind (logged (k c)) fun r => .done (r.1, (h, c) :: r.2)

theorem logged_run (O : H → F) (t : Alg H F α) : (logged t).run O = (t.run O, (asked O t).map fun h => (h, O h)) := by
  induction t with
  | done a => rfl
  | ask h k ih =>
    change (bind (logged (k (O h))) _).run O = _
    rw [run_bind, ih]
    rfl

theorem logged_asked (O : H → F) (t : Alg H F α) : asked O (logged t) = asked O t := by
  induction t with
  | done a => rfl
  | ask h k ih =>
    change h :: asked O (bind (logged (k (O h))) _) = h :: asked O (k (O h))
    rw [asked_bind, ih]
    simp [asked]

theorem logged_atMost (t : Alg H F α) (q : Nat) (h : t.AtMost q) : (logged t).AtMost q := by
  induction t generalizing q with
  | done a => cases q <;> trivial
  | ask x k ih =>
    cases q with
    | zero => exact h.elim
    | succ q => exact fun c => atMost_bind _ _ q 0 (ih c q (h c)) fun _ => trivial

open Classical in
/-- The oracle with the recorded answers, `d` elsewhere. -/
noncomputable def tableO (d : F) (log : List (H × F)) (h : H) : F :=
  match log.find? fun p => p.1 = h with
  | some p => p.2
  | none => d

theorem tableO_asked (O : H → F) (d : F) (l : List H) (h : H) (hh : h ∈ l) : tableO d (l.map fun x => (x, O x)) h = O h := by
  classical
  unfold tableO
  cases hf : (l.map fun x => (x, O x)).find? fun p => p.1 = h with
  | none =>
    rw [List.find?_eq_none] at hf
    exact absurd (decide_eq_true rfl) (hf (h, O h) (List.mem_map_of_mem hh))
  | some p =>
    have h1 := List.find?_some hf
    have h2 := List.mem_of_find?_eq_some hf
    obtain ⟨x, -, rfl⟩ := List.mem_map.1 h2
    simp only [decide_eq_true_eq] at h1
    subst h1
    rfl

theorem run_congr {O O' : H → F} (t : Alg H F α) (h : ∀ x ∈ asked O t, O' x = O x) : t.run O' = t.run O := by
  induction t with
  | done a => rfl
  | ask x k ih =>
    change (k (O' x)).run O' = (k (O x)).run O
    rw [h x List.mem_cons_self]
    exact ih _ fun y hy => h y (List.mem_cons_of_mem _ hy)

end Alg'

section
variable {F R : Type} [Field F] [DecidableEq F] [CommRing R] [DecidableEq R] [Algebra F R]

theorem absorbSlice_any (O O' : History F R → F) (B : History F R → Nat → List UInt8) :
    (oracleT O' B).absorbSlice = (oracleT O B).absorbSlice := rfl

theorem sumcheck_congr {O O' : History F R → F} (B : History F R → Nat → List UInt8) (h : History F R) (n d : Nat) (hn : n ≠ 0) (c : R)
    (proof : List (List R)) (ha : ∀ x ∈ Alg'.asked O (drA (.elem (d : R) :: .elem (n : R) :: h) (proof.take n)), O' x = O x) :
    verifyAsSubprotocol (oracleT O' B) h n d c proof = verifyAsSubprotocol (oracleT O B) h n d c proof := by
  by_cases hl : n ≤ proof.length
  swap
  · rw [verify_short _ _ _ _ _ _ (by omega), verify_short _ _ _ _ _ _ (by omega)]
  have e : ∀ O : History F R → F, (oracleT O B).absorb ((oracleT O B).absorb h (n : R)) (d : R) = .elem (d : R) :: .elem (n : R) :: h :=
    fun _ => rfl
  rw [verify_eq _ _ _ _ hn _ _ hl, verify_eq _ _ _ _ hn _ _ hl, e, e, ← drA_run, ← drA_run, Alg'.run_congr _ ha]

theorem linVerify_congr {O O' : History F R → F} (B : History F R → Nat → List UInt8) (ccs : CCS R) (hs : ccs.s ≠ 0) (h : History F R)
    (cm : CCCS R) (proof : LinProof R) (ha : ∀ x ∈ Alg'.asked O (linA ccs h proof), O' x = O x) :
    linVerify (oracleT O' B) h cm proof ccs = linVerify (oracleT O B) h cm proof ccs := by
  unfold linA at ha
  rw [Alg'.asked_bind] at ha
  have e1 : squeezeBeta (oracleT O' B) h ccs.s = squeezeBeta (oracleT O B) h ccs.s := by
    have e : ∀ O : History F R → F, squeezeBeta (oracleT O B) h ccs.s
        = ((((chA ccs.s (.elem (algebraMap F R ((labelNat "beta_s" : Nat) : F)) :: h)).run O).1).map (algebraMap F R),
          ((chA ccs.s (.elem (algebraMap F R ((labelNat "beta_s" : Nat) : F)) :: h)).run O).2) := by
      intro O
      rw [chA_run O B]
      rfl
    rw [e, e, Alg'.run_congr (O := O) _ fun x hx => ha x (List.mem_append_left _ hx)]
  have e2 : (squeezeBeta (oracleT O B) h ccs.s).2
      = ((chA ccs.s (.elem (algebraMap F R ((labelNat "beta_s" : Nat) : F)) :: h)).run O).2 := by
    rw [chA_run O B]
    rfl
  unfold linVerify
  rw [e1]
  simp only
  rw [sumcheck_congr (O := O) B _ ccs.s (ccs.d + 1) hs 0 proof.sumcheck (by
    intro x hx
    rw [e2] at hx
    exact ha x (List.mem_append_right _ hx))]
  rfl

theorem sqA_asked_lt (P : Params) (n : Nat) (O : History F R → F) (h : History F R) :
    ∀ x ∈ Alg'.asked O (sqA P n h), x.length < ((sqA P n h).run O).2.length := by
  unfold sqA
  simp only [Alg'.asked_bind, Alg'.run_bind, List.mem_append, Alg.run]
  set r1 := (chA (2 * P.K) (labelled "alpha_s" h)).run O with hr1
  set r2 := (chA (2 * P.K) (labelled "zeta_s" r1.2)).run O with hr2
  set r3 := (chA (2 * P.K - 1) (labelled "mu_s" r2.2)).run O with hr3
  have e1 : r1.2.length = _ := chA_history_length O _ _
  have e2 : r2.2.length = _ := chA_history_length O _ _
  have e3 : r3.2.length = _ := chA_history_length O _ _
  rw [chA_history_length]
  simp only [labelled, List.length_cons] at e1 e2 e3 ⊢
  rintro x (hx | hx | hx | hx | hx)
  · have := (chA_asked_length O _ _ x hx).2
    simp only [labelled, List.length_cons] at this
    omega
  · have := (chA_asked_length O _ _ x hx).2
    simp only [labelled, List.length_cons] at this
    omega
  · have := (chA_asked_length O _ _ x hx).2
    simp only [labelled, List.length_cons] at this
    omega
  · have := (chA_asked_length O _ _ x hx).2
    simp only [labelled, List.length_cons] at this
    omega
  · simp [Alg'.asked] at hx

theorem linA_asked_length (O : History F R → F) (ccs : CCS R) (h : History F R) (proof : LinProof R) :
    ∀ x ∈ Alg'.asked O (linA ccs h proof), h.length ≤ x.length := by
  unfold linA
  rw [Alg'.asked_bind]
  intro x hx
  rcases List.mem_append.1 hx with hx | hx
  · have := (chA_asked_length O _ _ x hx).1
    simp only [List.length_cons] at this
    omega
  · have := (drA_asked_length O _ _ x hx).1
    simp only [List.length_cons, chA_history_length] at this
    omega

theorem decVerify_congr (O O' : History F R → F) (B : History F R → Nat → List UInt8) (P : Params) (h : History F R) (cmi : LCCCS R)
    (proof : DecProof R) : decVerify P (oracleT O' B) h cmi proof = decVerify P (oracleT O B) h cmi proof := by
  have : ∀ r, decPieces (oracleT O' B) h r proof = decPieces (oracleT O B) h r proof := fun _ => rfl
  unfold decVerify
  rw [this]

theorem shortChallenges_congr {C : Type} (O O' : History F R → F) (B : History F R → Nat → List UInt8) (cs : ChallengeSet C) (n : Nat)
    (h : History F R) : shortChallenges (oracleT O' B) cs n h = shortChallenges (oracleT O B) cs n h := by
  induction n generalizing h with
  | zero => rfl
  | succ n ih =>
    unfold shortChallenges
    have : shortChallenge (oracleT O' B) cs h = shortChallenge (oracleT O B) cs h := rfl
    rw [this]
    congr 1
    funext p
    simp only [ih]

/-- One entry per coefficient. -/
theorem shortChallenges_length {C : Type} (O : History F R → F) (B : History F R → Nat → List UInt8) (cs : ChallengeSet C) (n : Nat)
    (h s' : History F R) (l : List C) (hr : shortChallenges (oracleT O B) cs n h = .ok (l, s')) : s'.length = h.length + n := by
  induction n generalizing h l with
  | zero =>
    simp only [shortChallenges, Except.ok.injEq, Prod.mk.injEq] at hr
    rw [hr.2]
    rfl
  | succ n ih =>
    unfold shortChallenges at hr
    simp only [bind_eq_ok, Prod.exists] at hr
    obtain ⟨c, s1, h1, r, s2, h2, h3⟩ := hr
    simp only [Except.ok.injEq, Prod.mk.injEq] at h3
    obtain ⟨-, rfl⟩ := h3
    rw [ih s1 r h2]
    unfold shortChallenge at h1
    simp only at h1
    split at h1
    · simp only [Except.ok.injEq, Prod.mk.injEq] at h1
      rw [← h1.2]
      simp only [oracleT, List.length_cons]
      omega
    · cases h1

end

section
variable {Fp F C : Type} {N τ : Nat} [Field Fp] [Field F] [DecidableEq F] [Algebra Fp F] [CommRing C] [Algebra Fp C]

theorem foldVerify_congr {O O' : History F (Fin N → F) → F} (B : History F (Fin N → F) → Nat → List UInt8) (rd : RingData Fp F C N τ)
    (P : Params) (hK : 1 ≤ P.K) (cs : ChallengeSet C) (ccs : CCS (Fin N → F)) (hs : ccs.s ≠ 0) (h : History F (Fin N → F))
    (cms : List (LCCCS (Fin N → F))) (proof : FoldProof (Fin N → F)) (ha : ∀ x ∈ Alg'.asked O (foldA P ccs h proof), O' x = O x) :
    foldVerify rd P cs (oracleT O' B) h cms proof ccs = foldVerify rd P cs (oracleT O B) h cms proof ccs := by
  unfold foldA at ha
  rw [Alg'.asked_bind] at ha
  have e1 : squeezeFold P (oracleT O' B) h ccs.s = squeezeFold P (oracleT O B) h ccs.s := by
    rw [sqA_run P hK, sqA_run P hK, Alg'.run_congr (O := O) _ fun x hx => ha x (List.mem_append_left _ hx)]
  have e3 : ∀ s, getRhos rd P cs (oracleT O' B) s = getRhos rd P cs (oracleT O B) s := by
    intro s
    unfold getRhos
    simp only [shortChallenges_congr O O' B]
    rfl
  unfold foldVerify
  rw [e1, sqA_run P hK]
  simp only [bind_ok']
  rw [sumcheck_congr (O := O) B _ ccs.s (2 * P.bSmall) hs _ proof.sumcheck fun x hx => ha x (List.mem_append_right _ hx)]
  simp only [e3, absorbSlice_any O O' B]

end

end Verif
