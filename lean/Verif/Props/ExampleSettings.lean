import Verif.Spec.ExampleEnv
import Verif.Props.NormGrowth
import Verif.Props.BenchEnv

/-! # Property C114: configuration of the examples -/

namespace Verif.Props
open Verif Verif.Spec Verif.BenchEnv Verif.ExampleEnv Verif.Poseidon

/-- **C114**, the ring: the generated file is for the ring named by `RING`, for Goldilocks if it is not set, and other names abort the build. -/
theorem C114_ring (vars : Vars) :
    (∀ g, generate vars = .ok g → ((vars "RING").getD "Goldilocks", g.ring) ∈ ringNames) ∧
    ((∀ r, ((vars "RING").getD "Goldilocks", r) ∉ ringNames) → generate vars = .error (.panic "Unknown ring configuration")) ∧
    (∀ r, ((vars "RING").getD "Goldilocks", r) ∈ ringNames → ∃ g, generate vars = .ok g ∧ g.ring = r) := by
  unfold generate texts varOr ringNames
  generalize (vars "RING").getD "Goldilocks" = s
  by_cases h1 : s = "Goldilocks"
  · subst h1; simp
  by_cases h2 : s = "BabyBear"
  · subst h2; simp
  by_cases h3 : s = "Frog"
  · subst h3; simp
  by_cases h4 : s = "StarkPrime"
  · subst h4; simp
  · simp [h1, h2, h3, h4]

/-- **C114**, the parameters: each constant has the value of its variable if that is a numeral, and the documented default if the variable is not set;
`N` is the length of the decomposed witness. `PARAM_X_LEN`, which the documentation does not mention, has to be unset here. -/
theorem C114_parameters (eval : String → Option Nat) (he : EvalOK eval) (vars : Vars) (val : String → Option Nat)
    (hval : ∀ v, vars v = (val v).map Nat.repr ∨ v = "RING") (hsmall : ∀ v n, val v = some n → n < 2 ^ 64) (hx : vars "PARAM_X_LEN" = none)
    (g : Generated) (hg : generate vars = .ok g) :
    ∃ c, consts eval g.texts = some c ∧ c.xLen = 1 ∧ c.n = c.witLen * c.P.L ∧ ∀ x ∈ documented g.ring c, x.2.2 = (val x.1).getD x.2.1 := by
  have hd : ∀ (v t : String) (d : Nat), v ≠ "RING" → eval t = some d → eval (varOr vars v t) = some ((val v).getD d) := by
    intro v t d hv ht
    rcases hval v with h | h
    · unfold varOr
      rw [h]
      cases hn : val v with
      | none => exact ht
      | some n => exact he.num n (hsmall v n hn)
    · exact absurd h hv
  have n2 : eval "2" = some 2 := he.num 2 (by norm_num)
  have n4 : eval "4" = some 4 := he.num 4 (by norm_num)
  have n5 : eval "5" = some 5 := he.num 5 (by norm_num)
  have n9 : eval "9" = some 9 := he.num 9 (by norm_num)
  have n15 : eval "15" = some 15 := he.num 15 (by norm_num)
  have n30 : eval "30" = some 30 := he.num 30 (by norm_num)
  have n1 : eval "1" = some 1 := he.num 1 (by norm_num)
  have hxl : eval (varOr vars "PARAM_X_LEN" "1") = some 1 := by unfold varOr; rw [hx]; exact n1
  have hring : (g.ring = .stark ↔ varOr vars "RING" "Goldilocks" = "StarkPrime") ∧ g.texts = (texts vars).2 := by
    unfold generate at hg
    simp only [texts] at hg ⊢
    by_cases h4 : varOr vars "RING" "Goldilocks" = "StarkPrime"
    · simp [h4] at hg
      subst hg
      simp [h4]
    · simp only [ne_eq, h4, not_false_eq_true, if_true, if_false] at hg ⊢
      split at hg
      · obtain rfl := Except.ok.inj hg; simp
      · split at hg
        · obtain rfl := Except.ok.inj hg; simp
        · split at hg
          · obtain rfl := Except.ok.inj hg; simp
          · cases hg
  rw [hring.2]
  unfold texts
  simp only
  by_cases hs : varOr vars "RING" "Goldilocks" = "StarkPrime"
  · have hst := hring.1.2 hs
    rw [if_neg (not_not.2 hs)]
    refine ⟨⟨⟨(val "PARAM_B").getD 1073741824, (val "PARAM_L").getD 9, (val "PARAM_B_SMALL").getD 2, (val "PARAM_K").getD 30⟩,
        (val "PARAM_KAPPA").getD 4, (val "PARAM_WIT_LEN").getD 4, 1, (val "PARAM_WIT_LEN").getD 4 * (val "PARAM_L").getD 9⟩, ?_, rfl, rfl, ?_⟩
    · unfold consts
      simp only [hd "PARAM_B" _ _ (by decide) he.suffix, hd "PARAM_L" _ _ (by decide) n9, hd "PARAM_B_SMALL" _ _ (by decide) n2,
        hd "PARAM_K" _ _ (by decide) n30, hd "PARAM_KAPPA" _ _ (by decide) n4, hd "PARAM_WIT_LEN" _ _ (by decide) n4, hxl]
      rfl
    · rw [hst]
      simp [documented]
  · have hst : g.ring ≠ .stark := fun h => hs (hring.1.1 h)
    rw [if_pos hs]
    refine ⟨⟨⟨(val "PARAM_B").getD 32768, (val "PARAM_L").getD 5, (val "PARAM_B_SMALL").getD 2, (val "PARAM_K").getD 15⟩,
        (val "PARAM_KAPPA").getD 4, (val "PARAM_WIT_LEN").getD 4, 1, (val "PARAM_WIT_LEN").getD 4 * (val "PARAM_L").getD 5⟩, ?_, rfl, rfl, ?_⟩
    · unfold consts
      simp only [hd "PARAM_B" _ _ (by decide) he.shift, hd "PARAM_L" _ _ (by decide) n5, hd "PARAM_B_SMALL" _ _ (by decide) n2,
        hd "PARAM_K" _ _ (by decide) n15, hd "PARAM_KAPPA" _ _ (by decide) n4, hd "PARAM_WIT_LEN" _ _ (by decide) n4, hxl]
      rfl
    · simp [documented, hst]

theorem script_ok_iff (w : World) (o : Generated × Nat) :
    script w = .ok o ↔ generate w.vars = .ok o.1 ∧ w.files "benches/config.toml" = some o.2 := by
  unfold script
  match generate w.vars, w.files "benches/config.toml" with
  | .error e, _ => simp [Except.bind, bind]
  | .ok g, none => simp [Except.bind, bind]
  | .ok g, some v => simp [Except.bind, bind, Prod.ext_iff]

theorem build_eq (last : Option (World × Generated × Nat)) (w : World) (hm : w.files "latticefold/benches/config.toml" = none) :
    build watch last w = (script w).map fun o => (w, o) := by
  have hre : ∀ old, rerun watch old w = true := by
    intro old
    unfold rerun watch
    simp [hm]
  unfold build
  match last with
  | none => rfl
  | some (old, out) => simp only [hre, if_true]

/-- **C114**, no stale settings: whatever was built before, a build that succeeds leaves the output for the present environment and the present
configuration of the benchmarks. This rests on the watched path `latticefold/benches/config.toml` not existing in the package. -/
theorem C114_fresh (last : Option (World × Generated × Nat)) (w : World) (hm : w.files "latticefold/benches/config.toml" = none)
    (r : World × Generated × Nat) (h : build watch last w = .ok r) : 
    r.1 = w ∧ generate w.vars = .ok r.2.1 ∧ w.files "benches/config.toml" = some r.2.2 := by
  rw [← script_ok_iff]
  have := (build_eq last w hm).symm.trans h
  match hs : script w with
  | .error e => rw [hs] at this; cases this
  | .ok o => rw [hs] at this; cases this; exact ⟨rfl, rfl⟩

/-- **C114**, over a whole history: the settings in use after any sequence of builds are those of the last build that succeeded. -/
theorem C114_history (ws : List World) (hm : ∀ w ∈ ws, w.files "latticefold/benches/config.toml" = none) (w : World) (o : Generated × Nat) :
    builds watch none ws = some (w, o) ↔
      ∃ pre post, ws = pre ++ w :: post ∧ (generate w.vars = .ok o.1 ∧ w.files "benches/config.toml" = some o.2) ∧
        ∀ w' ∈ post, ∀ o' : Generated × Nat, ¬ (generate w'.vars = .ok o'.1 ∧ w'.files "benches/config.toml" = some o'.2) := by
  simp only [← script_ok_iff]
  induction ws using List.reverseRecOn with
  | nil => simp [builds]
  | append_singleton ws v ih =>
    have hv : build watch (builds watch none ws) v = (script v).map fun o => (v, o) := build_eq _ _ (hm v (by simp))
    have hb : builds watch none (ws ++ [v]) = match build watch (builds watch none ws) v with
        | .ok r => some r
        | .error _ => builds watch none ws := by
      conv_lhs => unfold builds
      rw [List.foldl_append]
      rfl
    rw [hb, hv]
    match hs : script v with
    | .ok o' =>
      simp only [Except.map]
      constructor
      · intro h
        obtain ⟨rfl, rfl⟩ := Prod.mk.inj (Option.some.inj h)
        exact ⟨ws, [], rfl, hs, by simp⟩
      · rintro ⟨pre, post, h1, h2, h3⟩
        rcases List.eq_nil_or_concat post with rfl | ⟨post', x, rfl⟩
        · obtain ⟨-, h⟩ := List.append_inj' h1 rfl
          obtain rfl := (List.cons.inj h).1
          rw [Except.ok.inj (hs.symm.trans h2)]
        · rw [List.concat_eq_append, ← List.cons_append, ← List.append_assoc] at h1
          obtain ⟨-, h⟩ := List.append_inj' h1 rfl
          obtain rfl := (List.cons.inj h).1
          exact absurd hs (h3 v (by simp) o')
    | .error e =>
      simp only [Except.map]
      rw [ih fun w' hw' => hm w' (List.mem_append_left _ hw')]
      constructor
      · rintro ⟨pre, post, rfl, h2, h3⟩
        refine ⟨pre, post ++ [v], by simp, h2, fun w' hw' o' => ?_⟩
        rcases List.mem_append.1 hw' with h | h
        · exact h3 w' h o'
        · rw [List.mem_singleton.1 h, hs]; simp
      · rintro ⟨pre, post, h1, h2, h3⟩
        rcases List.eq_nil_or_concat post with rfl | ⟨post', x, rfl⟩
        · obtain ⟨-, h⟩ := List.append_inj' h1 rfl
          obtain rfl := (List.cons.inj h).1
          rw [hs] at h2; cases h2
        · rw [List.concat_eq_append, ← List.cons_append, ← List.append_assoc] at h1
          obtain ⟨h, -⟩ := List.append_inj' h1 rfl
          exact ⟨pre, post', h, h2, fun w' hw' => h3 w' (by simp [hw'])⟩

/-- The variable `RING` is not watched: if the watched path existed (or were corrected to the path that is read), the examples would stay with the
ring of an earlier build. Here `RING` is set to `Frog` for the second build. -/
theorem C114_ring_unwatched (v : Nat) (files : String → Option Nat) (hf : ∀ p, files p = some v) :
    ∃ vars vars' : Vars, ∃ g, generate vars' = .ok g ∧ g.ring = .frog ∧
      ∀ wt ∈ [watch, ⟨["build.rs", "benches/config.toml"], watch.vars⟩], ∃ r g0, builds wt none [⟨vars, files⟩, ⟨vars', files⟩] = some r ∧
        r.2.1 = g0 ∧ g0.ring = .goldilocks := by
  refine ⟨fun _ => none, fun k => if k = "RING" then some "Frog" else none, _, rfl, rfl, ?_⟩
  intro wt hwt
  have hs : script ⟨fun _ => none, files⟩ = .ok (⟨.goldilocks, ⟨"1 << 15", "5", "2", "15", "4", "4", "1"⟩⟩, v) := by
    unfold script
    simp only [hf]
    rfl
  have hr : rerun wt ⟨fun _ => none, files⟩ ⟨fun k => if k = "RING" then some "Frog" else none, files⟩ = false := by
    simp only [List.mem_cons, List.not_mem_nil, or_false] at hwt
    rcases hwt with rfl | rfl <;> simp [rerun, watch, hf]
  refine ⟨(⟨fun _ => none, files⟩, ⟨.goldilocks, ⟨"1 << 15", "5", "2", "15", "4", "4", "1"⟩⟩, v), _, ?_, rfl, rfl⟩
  unfold builds
  simp only [List.foldl_cons, List.foldl_nil]
  have hb : build wt none ⟨fun _ => none, files⟩ = .ok (⟨fun _ => none, files⟩, ⟨.goldilocks, ⟨"1 << 15", "5", "2", "15", "4", "4", "1"⟩⟩, v) := by
    unfold build
    simp only [hs]
    rfl
  rw [hb]
  simp only [build, hr]
  rfl

/-- **C114**, the documented settings fit: the defaults satisfy the conditions on the parameters (C85) for their ring, and so do the values in the
documentation's example (`PARAM_B=65536`, `PARAM_L=6`, `PARAM_K=16`) for Goldilocks, BabyBear and Frog. They do not for `StarkPrime`. -/
theorem C114_documented_fit :
    ParamsFit pGoldilocks ⟨32768, 5, 2, 15⟩ ∧ ParamsFit pBabyBear ⟨32768, 5, 2, 15⟩ ∧ ParamsFit pFrog ⟨32768, 5, 2, 15⟩ ∧
    ParamsFit pStark ⟨1073741824, 9, 2, 30⟩ ∧
    ParamsFit pGoldilocks ⟨65536, 6, 2, 16⟩ ∧ ParamsFit pBabyBear ⟨65536, 6, 2, 16⟩ ∧ ParamsFit pFrog ⟨65536, 6, 2, 16⟩ ∧
    ¬ ParamsFit pStark ⟨65536, 6, 2, 16⟩ := by
  refine ⟨?_, ?_, ?_, ?_, ?_, ?_, ?_, ?_⟩ <;> (unfold ParamsFit; decide +kernel)

section Examples

/-- A reading of constant expressions as required, and the README's export of `PARAM_K` for the ring `Frog`. -/
def evalTexts (s : String) : Option Nat :=
  if s = "1 << 15" then some 32768 else if s = "1073741824u128" then some 1073741824 else parseUInt 64 s

theorem evalTexts_ok : EvalOK evalTexts where
  num n hn := by
    have h0 := parseUInt_repr 64 n
    rw [if_pos hn] at h0
    have h1 : Nat.repr n ≠ "1 << 15" := fun h => by
      rw [h] at h0
      exact absurd h0 (by rw [show parseUInt 64 "1 << 15" = none by decide +kernel]; simp)
    have h2 : Nat.repr n ≠ "1073741824u128" := fun h => by
      rw [h] at h0
      exact absurd h0 (by rw [show parseUInt 64 "1073741824u128" = none by decide +kernel]; simp)
    unfold evalTexts
    rw [if_neg h1, if_neg h2, h0]
  shift := rfl
  suffix := rfl

def frogVars : Vars := fun k => if k = "RING" then some "Frog" else if k = "PARAM_K" then some "16" else none

example : (generate frogVars).map (fun g => (g.ring, consts evalTexts g.texts)) =
    .ok (.frog, some ⟨⟨32768, 5, 2, 16⟩, 4, 4, 1, 20⟩) := by decide +kernel

example : generate (fun k => if k = "RING" then some "Stark" else none) = .error (.panic "Unknown ring configuration") := by decide +kernel

/-- A second build with another ring, the watched path missing as in the repository. -/
example : (builds watch none
      [⟨fun _ => none, fun p => if p = "latticefold/benches/config.toml" then none else some 7⟩,
       ⟨frogVars, fun p => if p = "latticefold/benches/config.toml" then none else some 7⟩]).map (fun r => (r.2.1.ring, r.2.2)) =
    some (.frog, 7) := by decide +kernel

end Examples

end Verif.Props
