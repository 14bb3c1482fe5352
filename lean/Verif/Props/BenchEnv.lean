import Verif.Spec.BenchEnv
import Mathlib.Logic.Function.Basic
import Mathlib.Tactic.Tauto

/-!
# C108: the environment variables select the benchmarks the documentation says
-/

namespace Verif.Props

open Verif Verif.Spec Verif.BenchEnv

theorem parseUInt_repr (bits v : Nat) : parseUInt bits (Nat.repr v) = if v < 2 ^ bits then some v else none := by
  have h1 : (Nat.repr v).toList = Nat.toDigits 10 v := by simp [Nat.repr_eq_ofList_toDigits]
  have hd : ∀ c ∈ Nat.toDigits 10 v, c.isDigit := fun c hc => Nat.isDigit_of_mem_toDigits (by decide) (by decide) hc
  have h2 : stripPlus (Nat.toDigits 10 v) = Nat.toDigits 10 v := by
    unfold stripPlus
    split
    · rename_i c t he
      exact absurd (hd '+' (by rw [he]; simp)) (by decide)
    · rfl
  unfold parseUInt
  rw [h1]
  dsimp only
  rw [h2, if_neg, Nat.ofDigitChars_ten_toDigits]
  rintro (h | h)
  · exact Nat.toDigits_ne_nil h
  · exact h (List.all_eq_true.2 hd)

theorem filter_iff (bits : Nat) (vars : Vars) (key : String) (p : Nat) :
    (p == (getNum bits vars key).getD p) = true ↔ ∀ s, vars key = some s → ∀ v, parseUInt bits s = some v → p = v := by
  unfold getNum
  cases h : vars key with
  | none => simp
  | some s => cases h' : parseUInt bits s <;> simp [h']

theorem selected_ring (vars : Vars) (x : RingName) : (env vars).ring x = true ↔ Selected vars ringFlags (ringFlag x) := by
  cases x <;> simp [env, Env.ring, Selected, ringFlags, ringFlag, isSet, Option.isSome_iff_ne_none] <;> tauto

theorem selected_sub (vars : Vars) (x : Subprotocol) : (env vars).sub x = true ↔ Selected vars subFlags (subFlag x) := by
  cases x <;> simp [env, Env.sub, Selected, subFlags, subFlag, isSet, Option.isSome_iff_ne_none] <;> tauto

theorem selected_role (vars : Vars) (x : Role) : (env vars).role x = true ↔ Selected vars roleFlags (roleFlag x) := by
  cases x <;> simp [env, Env.role, Selected, roleFlags, roleFlag, isSet, Option.isSome_iff_ne_none] <;> tauto

/-- **C108**: which benchmarks of the protocols run: those selected by all three groups of flags whose parameters agree with all variables
that parse as numbers. -/
theorem C108_protocol (vars : Vars) (sub : Subprotocol) (ring : RingName) (role : Role) (r : BenchRecord) :
    runsProtocol (env vars) sub ring role r = true ↔
      Selected vars subFlags (subFlag sub) ∧ Selected vars ringFlags (ringFlag ring) ∧ Selected vars roleFlags (roleFlag role) ∧
      ∀ f ∈ filters r, ∀ s, vars f.1 = some s → ∀ v, parseUInt f.2.1 s = some v → f.2.2 = v := by
  rw [← selected_sub, ← selected_ring, ← selected_role]
  have hf : (∀ f ∈ filters r, ∀ s, vars f.1 = some s → ∀ v, parseUInt f.2.1 s = some v → f.2.2 = v) ↔
      ∀ f ∈ filters r, (f.2.2 == (getNum f.2.1 vars f.1).getD f.2.2) = true :=
    forall_congr' fun f => imp_congr_right fun _ => (filter_iff f.2.1 vars f.1 f.2.2).symm
  rw [hf]
  have hr : (∀ f ∈ filters r, (f.2.2 == (getNum f.2.1 vars f.1).getD f.2.2) = true) ↔
      (r.xLen == (env vars).xLen.getD r.xLen && r.kappa == (env vars).kappa.getD r.kappa && r.n * r.l == (env vars).n.getD (r.n * r.l) &&
        r.n == (env vars).witLen.getD r.n && r.b == (env vars).b.getD r.b && r.l == (env vars).l.getD r.l &&
        r.bSmall == (env vars).bSmall.getD r.bSmall && r.k == (env vars).k.getD r.k) = true := by
    simp only [filters, List.forall_mem_cons, List.not_mem_nil, false_imp_iff, implies_true, and_true, Bool.and_eq_true, and_assoc]
    exact Iff.rfl
  rw [hr]
  unfold runsProtocol
  generalize (r.xLen == _ && _ && _ && _ && _ && _ && _ && _ : Bool) = c
  cases (env vars).sub sub <;> cases (env vars).ring ring <;> cases c <;> simp

/-- **C108** (partial): if the values of all numeric variables are plain decimal numerals that fit in the type, the benchmarks of the protocols
run as documented: selected by the flags and with exactly the parameters given. Left out are other values, which are ignored
(`C108_bad_number_ignored`), and the commitment benchmarks (`C108_ajtai`). -/
theorem C108_documented_partial (vars : Vars) (sub : Subprotocol) (ring : RingName) (role : Role) (r : BenchRecord)
    (hn : ∀ f ∈ filters r, ∀ s, vars f.1 = some s → Numeral f.2.1 s) :
    runsProtocol (env vars) sub ring role r = true ↔
      Selected vars subFlags (subFlag sub) ∧ Selected vars ringFlags (ringFlag ring) ∧ Selected vars roleFlags (roleFlag role) ∧
      ∀ f ∈ filters r, ∀ s, vars f.1 = some s → s = Nat.repr f.2.2 := by
  rw [C108_protocol]
  refine and_congr_right fun _ => and_congr_right fun _ => and_congr_right fun _ => ?_
  refine forall_congr' fun f => forall_congr' fun hf => forall_congr' fun s => forall_congr' fun hs => ?_
  obtain ⟨v, hv, rfl⟩ := hn f hf s hs
  rw [parseUInt_repr, if_pos hv]
  constructor
  · intro h
    rw [h v rfl]
  · rintro h w hw
    obtain rfl := Option.some.inj hw
    have := parseUInt_repr f.2.1 f.2.2
    rw [← h, parseUInt_repr, if_pos hv] at this
    split at this
    · exact (Option.some.inj this).symm
    · cases this

/-- **C108** (negation): a commitment benchmark runs or not whatever its ring and parameters are, and whatever variables but `PROVER`,
`VERIFIER` and `AJTAI` say. -/
theorem C108_ajtai (vars : Vars) (ring : RingName) (kappa n : Nat) :
    runsAjtai (env vars) ring kappa n = true ↔ Selected vars roleFlags "AJTAI" := by
  simp [env, runsAjtai, Selected, roleFlags, isSet, Option.isSome_iff_ne_none]
  tauto

/-- **C108** (negation): the first command of the documentation, `LINEARIZATION=1 cargo bench`, "run only `LINEARIZATION` benchmarks", runs all
commitment benchmarks too; so does the third one, `KAPPA=10 GOLDILOCKS=1 L=8`, those of the other rings and with other `kappa`. -/
theorem C108_readme_commands (vars : Vars) (ring : RingName) (kappa n : Nat)
    (h : vars = (fun x => if x = "LINEARIZATION" then some "1" else none) ∨
      vars = (fun x => if x = "KAPPA" then some "10" else if x = "GOLDILOCKS" then some "1" else if x = "L" then some "8" else none)) :
    runsAjtai (env vars) ring kappa n = true := by
  rw [C108_ajtai]
  right
  rcases h with rfl | rfl <;> decide

/-- **C108** (negation): a numeric variable whose value does not parse selects nothing: the same benchmarks run as without it. -/
theorem C108_bad_number_ignored (vars : Vars) (key s : String) (hk : key ∈ (filters ⟨0, 0, 0, 0, 0, 0, 0⟩).map (·.1))
    (hs : parseUInt 128 s = none) (h64 : parseUInt 64 s = none) (hv : vars key = none) (sub : Subprotocol) (ring : RingName) (role : Role)
    (r : BenchRecord) :
    runsProtocol (env (Function.update vars key (some s))) sub ring role r = runsProtocol (env vars) sub ring role r := by
  have hflag : ∀ x ∈ subFlags ++ ringFlags ++ roleFlags, Function.update vars key (some s) x = vars x := by
    intro x hx
    refine Function.update_of_ne ?_ _ _
    rintro rfl
    simp only [filters, List.map_cons, List.map_nil, List.mem_cons, List.not_mem_nil, or_false] at hk
    rcases hk with rfl | rfl | rfl | rfl | rfl | rfl | rfl | rfl <;> revert hx <;> decide
  have hsel : ∀ group flag, (∀ g ∈ group, g ∈ subFlags ++ ringFlags ++ roleFlags) → flag ∈ subFlags ++ ringFlags ++ roleFlags →
      (Selected (Function.update vars key (some s)) group flag ↔ Selected vars group flag) := by
    intro group flag hg hf
    unfold Selected
    rw [hflag flag hf]
    exact or_congr_right (forall_congr' fun g => forall_congr' fun h => by rw [hflag g (hg g h)])
  rw [Bool.eq_iff_iff, C108_protocol, C108_protocol, hsel _ _ (by decide) (by cases sub <;> decide), hsel _ _ (by decide) (by cases ring <;> decide),
    hsel _ _ (by decide) (by cases role <;> decide)]
  refine and_congr_right fun _ => and_congr_right fun _ => and_congr_right fun _ => ?_
  refine forall_congr' fun f => forall_congr' fun hf => ?_
  by_cases hkey : f.1 = key
  · subst hkey
    simp only [Function.update_self, hv]
    refine iff_of_true ?_ (by simp)
    rintro _ h v h'
    obtain rfl := Option.some.inj h
    have hb : f.2.1 = 64 ∨ f.2.1 = 128 := by
      simp only [filters, List.mem_cons, List.not_mem_nil, or_false] at hf
      rcases hf with rfl | rfl | rfl | rfl | rfl | rfl | rfl | rfl <;> simp
    rcases hb with hb | hb <;> rw [hb] at h'
    · rw [h64] at h'; cases h'
    · rw [hs] at h'; cases h'
  · rw [Function.update_of_ne hkey]

/-- **C108** (negation): the documented filter `W` does nothing. -/
theorem C108_w_ignored (vars : Vars) (s : Option String) : env (Function.update vars "W" s) = env vars := by
  have h : ∀ x, x ≠ "W" → Function.update vars "W" s x = vars x := fun x hx => Function.update_of_ne hx _ _
  simp only [env, isSet, getNum]
  rw [h "GOLDILOCKS" (by decide), h "STARK" (by decide), h "BABYBEAR" (by decide), h "FROG" (by decide), h "PROVER" (by decide),
    h "VERIFIER" (by decide), h "AJTAI" (by decide), h "LINEARIZATION" (by decide), h "DECOMPOSITION" (by decide), h "FOLDING" (by decide),
    h "E2E" (by decide), h "X_LEN" (by decide), h "KAPPA" (by decide), h "N" (by decide), h "WIT_LEN" (by decide), h "B" (by decide),
    h "L" (by decide), h "B_SMALL" (by decide), h "K" (by decide)]

/-! ## Examples -/

/-- The third command of the documentation and a record of `config.toml`. -/
def kappaTen : Vars := fun x => if x = "KAPPA" then some "10" else if x = "GOLDILOCKS" then some "1" else if x = "L" then some "8" else none

example : runsProtocol (env kappaTen) .folding .goldilocks .prover ⟨1, 10, 512, 256, 8, 2, 8⟩ = true := by decide +kernel
example : runsProtocol (env kappaTen) .folding .goldilocks .prover ⟨1, 11, 512, 256, 8, 2, 8⟩ = false := by decide +kernel
example : runsProtocol (env kappaTen) .folding .frog .prover ⟨1, 10, 512, 256, 8, 2, 8⟩ = false := by decide +kernel
example : runsAjtai (env kappaTen) .frog 11 512 = true := C108_readme_commands _ _ _ _ (.inr rfl)

/-- With `PROVER=1 DECOMPOSITION=1` neither the commitment benchmarks nor those of the verifier run. -/
def proverDec : Vars := fun x => if x = "PROVER" then some "1" else if x = "DECOMPOSITION" then some "1" else none

example : runsAjtai (env proverDec) .frog 11 512 = false ∧
    runsProtocol (env proverDec) .decomposition .stark .verifier ⟨1, 10, 512, 256, 8, 2, 8⟩ = false ∧
    runsProtocol (env proverDec) .decomposition .stark .prover ⟨1, 10, 512, 256, 8, 2, 8⟩ = true := by decide +kernel

/-- `B="1 << 15"`, the form in which `build.rs` itself writes the default of `PARAM_B`, does not filter. -/
example (sub : Subprotocol) (ring : RingName) (role : Role) (r : BenchRecord) :
    runsProtocol (env (Function.update (fun _ => none) "B" (some "1 << 15"))) sub ring role r = true := by
  rw [C108_bad_number_ignored _ "B" "1 << 15" (by decide) (by decide +kernel) (by decide +kernel) rfl, C108_protocol]
  exact ⟨.inr (by simp), .inr (by simp), .inr (by simp), by simp⟩

example : parseUInt 64 "+12" = some 12 ∧ parseUInt 64 "012" = some 12 ∧ parseUInt 64 "+" = none ∧ parseUInt 64 "" = none ∧
    parseUInt 64 "18446744073709551616" = none ∧ parseUInt 128 "18446744073709551616" = some (2 ^ 64) := by decide +kernel

end Verif.Props
