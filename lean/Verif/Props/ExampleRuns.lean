import Verif.Props.ExampleSettings
import Verif.Props.Bench
import Verif.Props.ChallengeSet

set_option linter.unusedSectionVars false

/-! # Property C114: with the documented settings the example runs through -/

namespace Verif.Props
open Verif Verif.Spec Verif.BenchEnv Verif.ExampleEnv Verif.Poseidon Finset Plus

variable {σ G : Type}

section Ring
variable {Fp F C : Type} {N τ : Nat} [Field Fp] [Field F] [DecidableEq F] [Algebra Fp F] [CommRing C] [Algebra Fp C]

/-- The example runs through and its proof is accepted, for challenge sets that may contain elements without inverse (in contrast to C102, where the validity
of the result is traced). -/
theorem example_runs (rd : RingData Fp F C N τ) (P : Params) (cs : ChallengeSet C) (e : Fin N → F) (rnd : G → (Fin N → F) × G) (rng : G)
    (T : Transcript F (Fin N → F) σ) (s0 : σ) (w kappa : Nat)
    (hP : ParamsOK Fp P) (hL : 2 ≤ P.L) (hw : 2 ≤ w) (hk : 1 ≤ kappa)
    (hc : CharGt F (2 * P.bSmall)) (hd : CharGt F 4)
    (hT : ∀ s n, (T.bytes s n).1.length = n)
    (hcs : ∀ bs, bs.length = cs.bytesNeeded → ∃ c, cs.decode bs = .ok c) :
    ∃ run, exampleMain rd P cs e rnd rng T s0 1 (w * P.L) w kappa = .ok run ∧ run.verified = run.newAcc := by
  obtain ⟨i, i1, g, hS, hfr, -, -, -, hx1⟩ := setupR1CS_ok rd P hP e rnd rng w kappa hk hw hL .degreeThreeNonScalar (by decide)
  replace i1 : witAndCcsGenDegreeThree rd P e rnd rng 1 (w * P.L) w (1 + w + 1) kappa = .ok i := i1
  obtain ⟨wa, a1, a2, a3, a4, -⟩ := fromWCcs_ok rd P hP ((List.range w).map fun k : Nat => (k : Fin N → F))
  have hcn : i.ccs.n - i.ccs.l - 1 = w := by rw [g.n, g.l]; omega
  have hwa : WitOK rd P (i.ccs.n - i.ccs.l - 1) wa := by
    rw [hcn]; simpa using a2
  have hd3 : CharGt F (i.ccs.d + 1) := fun k h1 h2 => hd k h1 (by have := g.d; omega)
  obtain ⟨acc, lp, s1, l1, -, l3, l4, l5, -, l7⟩ := linearization_prover T s0 i.cm wa i.ccs g.sh g.al hd3
    (by rw [hx1, a3, g.n]; simp; omega) (fun m hm => by rw [hwa.hatvars m hm, hS.hat])
  have hcml : i.cm.cm.val.length = i.scheme.matrix.vals.length := by
    rw [Except.ok.inj (hfr.opens.symm.trans (commit_trueCm hS hfr.witOK))]
    exact trueCm_len _ _
  have hacc : LcccsUpToCm rd P i.ccs i.scheme acc wa := ⟨hwa, by rw [l3]; exact hcml, by rw [l4, hx1, g.l], l7⟩
  obtain ⟨st, w', proof, s', c', h1, h2, -⟩ := C101_errors_combine rd P cs T s0 i.ccs i.scheme acc wa i.cm i.wit _ _ hP hS g.t g.al hc hd3 hT hcs
    hacc (short_reach_of_B hP a4) (commit_trueCm hS hwa) hfr.witOK hcml hfr.xlen hfr.sat hfr.short hfr.opens
  refine ⟨⟨acc, wa, i, st, w', proof, st⟩, ?_, rfl⟩
  unfold exampleMain setupExample
  simp only [i1, bind_ok', a1, l1, unwrapRes, h1, h2]

end Ring

/-- The constants lead to a run of the example whose proof is accepted, for every transcript, sample of the commitment matrix and witness element. -/
def Runs (σ G : Type) {Fp F C : Type} {N τ : Nat} [Field Fp] [Field F] [DecidableEq F] [Algebra Fp F] [CommRing C] [Algebra Fp C]
    (rd : RingData Fp F C N τ) (cs : ChallengeSet C) (c : Consts) : Prop :=
  ∀ (e : Fin N → F) (rnd : G → (Fin N → F) × G) (rng : G) (T : Transcript F (Fin N → F) σ) (s0 : σ), (∀ s n, (T.bytes s n).1.length = n) →
    ∃ run, exampleMain rd c.P cs e rnd rng T s0 c.xLen c.n c.witLen c.kappa = .ok run ∧ run.verified = run.newAcc

theorem runs_of {p : Nat} [Fact p.Prime] {F C : Type} {N τ : Nat} [Field F] [DecidableEq F] [Algebra (ZMod p) F] [CommRing C] [Algebra (ZMod p) C]
    (rd : RingData (ZMod p) F C N τ) (cs : ChallengeSet C) (c : Consts) (hP : ParamsFit p c.P) (hL : 2 ≤ c.P.L) (hw : 2 ≤ c.witLen)
    (hk : 1 ≤ c.kappa) (hx : c.xLen = 1) (hn : c.n = c.witLen * c.P.L) (hb : 2 * c.P.bSmall < p) (h4 : 4 < p)
    (hcs : ∀ bs, bs.length = cs.bytesNeeded → ∃ c, cs.decode bs = .ok c) : Runs σ G rd cs c := by
  intro e rnd rng T s0 hT
  rw [hx, hn]
  exact example_runs rd c.P cs e rnd rng T s0 c.witLen c.kappa (paramsOK_of_fit hP) hL hw hk (charGt_algebra (p := p) hb) (charGt_algebra (p := p) h4) hT hcs

/-- The conditions under which the example runs: `K = log_b B`, `p < B^L`, an even base (C85), at least two digits and two witness elements, and
at least one row of the commitment matrix. -/
structure GoodConsts (p : Nat) (c : Consts) : Prop where
  fit : ParamsFit p c.P
  digits : 2 ≤ c.P.L
  wit : 2 ≤ c.witLen
  rows : 1 ≤ c.kappa
  small : 2 * c.P.bSmall < p

/-- **C114**, what the settings are for: with settings that satisfy the documented conditions, in particular with the defaults, the example for each
of the four rings runs through and its proof is accepted. -/
theorem C114_runs (eval : String → Option Nat) (he : EvalOK eval) (vars : Vars) (val : String → Option Nat)
    (hval : ∀ v, vars v = (val v).map Nat.repr ∨ v = "RING") (hsmall : ∀ v n, val v = some n → n < 2 ^ 64) (hx : vars "PARAM_X_LEN" = none)
    (g : Generated) (hg : generate vars = .ok g) :
    ∃ c, consts eval g.texts = some c ∧
      (g.ring = .goldilocks → GoodConsts pGoldilocks c → ∀ (F C : Type) [Field F] [DecidableEq F] [CommRing C] [Algebra (ZMod pGoldilocks) F]
        [Algebra (ZMod pGoldilocks) C] (rd : RingData (ZMod pGoldilocks) F C 8 3), Runs σ G rd (packedSet rd.coeff) c) ∧
      (g.ring = .babybear → GoodConsts pBabyBear c → ∀ (F C : Type) [Field F] [DecidableEq F] [CommRing C] [Algebra (ZMod pBabyBear) F]
        [Algebra (ZMod pBabyBear) C] (rd : RingData (ZMod pBabyBear) F C 8 9), Runs σ G rd (packedSet rd.coeff) c) ∧
      (g.ring = .frog → GoodConsts pFrog c → ∀ (F C : Type) [Field F] [DecidableEq F] [CommRing C] [Algebra (ZMod pFrog) F]
        [Algebra (ZMod pFrog) C] (rd : RingData (ZMod pFrog) F C 4 4), Runs σ G rd (frogSet rd.coeff) c) ∧
      (g.ring = .stark → GoodConsts pStark c → ∀ (F C : Type) [Field F] [DecidableEq F] [CommRing C] [Algebra (ZMod pStark) F]
        [Algebra (ZMod pStark) C] (rd : RingData (ZMod pStark) F C 16 1), Runs σ G rd (starkSet rd.coeff) c) := by
  obtain ⟨c, h1, h2, h3, -⟩ := C114_parameters eval he vars val hval hsmall hx g hg
  refine ⟨c, h1, ?_, ?_, ?_, ?_⟩
  · intro _ hc F C _ _ _ _ _ rd
    exact runs_of rd _ c hc.fit hc.digits hc.wit hc.rows h2 h3 hc.small (by decide +kernel) fun bs hbs =>
      let ⟨x, h, _⟩ := C44_packed_value rd.coeff bs hbs; ⟨x, h⟩
  · intro _ hc F C _ _ _ _ _ rd
    exact runs_of rd _ c hc.fit hc.digits hc.wit hc.rows h2 h3 hc.small (by decide +kernel) fun bs hbs =>
      let ⟨x, h, _⟩ := C44_packed_value rd.coeff bs hbs; ⟨x, h⟩
  · intro _ hc F C _ _ _ _ _ rd
    exact runs_of rd _ c hc.fit hc.digits hc.wit hc.rows h2 h3 hc.small (by decide +kernel) fun bs hbs =>
      let ⟨x, _, h, _⟩ := C45_values rd.coeff bs hbs; ⟨x, h⟩
  · intro _ hc F C _ _ _ _ _ rd
    exact runs_of rd _ c hc.fit hc.digits hc.wit hc.rows h2 h3 hc.small (by decide +kernel) fun bs hbs =>
      let ⟨_, y, _, h, _⟩ := C45_values rd.coeff bs hbs; ⟨y, h⟩

/-- The conditions hold for the defaults. -/
theorem goodConsts_defaults : GoodConsts pGoldilocks ⟨⟨32768, 5, 2, 15⟩, 4, 4, 1, 20⟩ ∧ GoodConsts pBabyBear ⟨⟨32768, 5, 2, 15⟩, 4, 4, 1, 20⟩ ∧
    GoodConsts pFrog ⟨⟨32768, 5, 2, 15⟩, 4, 4, 1, 20⟩ ∧ GoodConsts pStark ⟨⟨1073741824, 9, 2, 30⟩, 4, 4, 1, 36⟩ := by
  obtain ⟨f1, f2, f3, f4, -⟩ := C114_documented_fit
  exact ⟨⟨f1, by decide, by decide, by decide, by decide +kernel⟩, ⟨f2, by decide, by decide, by decide, by decide +kernel⟩,
    ⟨f3, by decide, by decide, by decide, by decide +kernel⟩, ⟨f4, by decide, by decide, by decide, by decide +kernel⟩⟩

/-- **C114**, the defaults: if no parameter is set, the example is built for whichever ring `RING` names, and it runs through with an accepted proof. -/
theorem C114_default_runs (eval : String → Option Nat) (he : EvalOK eval) (vars : Vars) (hv : ∀ v, v ≠ "RING" → vars v = none)
    (r : RingName) (hr : ((vars "RING").getD "Goldilocks", r) ∈ ringNames) :
    ∃ g c, generate vars = .ok g ∧ g.ring = r ∧ consts eval g.texts = some c ∧
      (r = .goldilocks → ∀ (F C : Type) [Field F] [DecidableEq F] [CommRing C] [Algebra (ZMod pGoldilocks) F]
        [Algebra (ZMod pGoldilocks) C] (rd : RingData (ZMod pGoldilocks) F C 8 3), Runs σ G rd (packedSet rd.coeff) c) ∧
      (r = .babybear → ∀ (F C : Type) [Field F] [DecidableEq F] [CommRing C] [Algebra (ZMod pBabyBear) F]
        [Algebra (ZMod pBabyBear) C] (rd : RingData (ZMod pBabyBear) F C 8 9), Runs σ G rd (packedSet rd.coeff) c) ∧
      (r = .frog → ∀ (F C : Type) [Field F] [DecidableEq F] [CommRing C] [Algebra (ZMod pFrog) F]
        [Algebra (ZMod pFrog) C] (rd : RingData (ZMod pFrog) F C 4 4), Runs σ G rd (frogSet rd.coeff) c) ∧
      (r = .stark → ∀ (F C : Type) [Field F] [DecidableEq F] [CommRing C] [Algebra (ZMod pStark) F]
        [Algebra (ZMod pStark) C] (rd : RingData (ZMod pStark) F C 16 1), Runs σ G rd (starkSet rd.coeff) c) := by
  obtain ⟨g, hg, hgr⟩ := (C114_ring vars).2.2 r hr
  have hval : ∀ v, vars v = ((fun _ => none : String → Option Nat) v).map Nat.repr ∨ v = "RING" := fun v => by
    by_cases h : v = "RING"
    · exact .inr h
    · exact .inl (hv v h)
  have hx := hv "PARAM_X_LEN" (by decide)
  obtain ⟨c, h1, h2, h3, h4⟩ := C114_parameters eval he vars _ hval (by simp) hx g hg
  obtain ⟨c', h1', r1, r2, r3, r4⟩ := C114_runs (σ := σ) (G := G) eval he vars _ hval (by simp) hx g hg
  obtain rfl : c = c' := Option.some.inj (h1.symm.trans h1')
  obtain ⟨⟨B, L, bs, K⟩, kappa, wl, xl, n⟩ := c
  obtain ⟨d1, d2, d3, d4⟩ := goodConsts_defaults
  refine ⟨g, _, hg, hgr, h1, ?_, ?_, ?_, ?_⟩ <;> intro hc <;> rw [hc] at hgr <;> simp [documented, hgr] at h4 h2 h3 <;>
    obtain ⟨rfl, rfl, rfl, rfl, rfl, rfl⟩ := h4 <;> subst h2 <;> subst h3
  · exact r1 hgr d1
  · exact r2 hgr d2
  · exact r3 hgr d3
  · exact r4 hgr d4

section Examples

/-- The defaults, read with `evalTexts`, for the ring `Frog`. -/
example : ∃ g c, generate (fun v => if v = "RING" then some "Frog" else none) = .ok g ∧ g.ring = .frog ∧ consts evalTexts g.texts = some c ∧
    ∀ (F C : Type) [Field F] [DecidableEq F] [CommRing C] [Algebra (ZMod pFrog) F] [Algebra (ZMod pFrog) C] (rd : RingData (ZMod pFrog) F C 4 4),
      Runs Nat Nat rd (frogSet rd.coeff) c := by
  obtain ⟨g, c, h1, h2, h3, -, -, h4, -⟩ := C114_default_runs (σ := Nat) (G := Nat) evalTexts evalTexts_ok
    (fun v => if v = "RING" then some "Frog" else none) (fun v h => by simp [h]) .frog (by decide)
  exact ⟨g, c, h1, h2, h3, h4 rfl⟩

end Examples

end Verif.Props
