import Verif.Props.RandomOracleBits
import Verif.Props.DecExtract

/-!
# C95 for extension degree one (Stark): all norms are enforced
-/

set_option linter.unusedSectionVars false
set_option linter.unusedSimpArgs false

namespace Verif.Props

open Finset Spec Verif Verif.Poseidon

variable {Fp F C : Type} {N τ : Nat} [Field Fp] [Field F] [DecidableEq F] [Algebra Fp F] [CommRing C]
  [Algebra Fp C]

/-- What a folding step is supposed to guarantee: the opening of the fresh commitment is a witness below `b^K` of the fresh statement, the
recombined openings of the left pieces are a witness below `b^K` of the accumulator, and all pieces are below `b`. -/
structure StepSound (rd : RingData Fp F C N τ) (P : Params) (ccs : CCS (Fin N → F)) (scheme : Ajtai (Fin N → F))
    (op : Commitment (Fin N → F) → Witness (Fin N → F) C) (acc : LCCCS (Fin N → F)) (cm : CCCS (Fin N → F))
    (proof : LFProof (Fin N → F)) : Prop where
  opens : scheme.commit (op cm.cm).f = .ok cm.cm
  holds : CCSHolds ccs (cm.x_ccs ++ [1] ++ (op cm.cm).wCcs)
  short : WitBelow rd (P.bSmall ^ P.K) (op cm.cm)
  acc : ∃ w, Recombined P (proof.decL.yS.map op) w ∧ LcccsHolds rd P ccs scheme acc w ∧ WitBelow rd (P.bSmall ^ P.K) w
  below : ∀ y ∈ proof.decL.yS ++ proof.decR.yS, WitBelow rd P.bSmall (op y)

/-- With the oracle `O`, the adversary `A` outputs a chain of at most `n` accepted folding steps with openings as in `StepOpened`, some step of
which is not sound. -/
def ChainUnsound (rd : RingData Fp F C N τ) (P : Params) (cs : ChallengeSet C) (ccs : CCS (Fin N → F)) (scheme : Ajtai (Fin N → F))
    (κ L0 n : Nat) (op : Commitment (Fin N → F) → Witness (Fin N → F) C) (B : History F (Fin N → F) → Nat → List UInt8)
    (A : Alg (History F (Fin N → F)) F
      (History F (Fin N → F) × LCCCS (Fin N → F) × List (CCCS (Fin N → F) × LFProof (Fin N → F))))
    (O : History F (Fin N → F) → F) : Prop :=
  ∃ h0 acc steps accs last s', A.run O = (h0, acc, steps) ∧ h0.length = L0 ∧ steps.length ≤ n ∧
    ivcVerify rd P cs (oracleT O B) ccs steps h0 acc = .ok ((accs, last), s') ∧
    (∀ (k : Nat) (a st : LCCCS (Fin N → F)) (p : CCCS (Fin N → F) × LFProof (Fin N → F)),
      (acc :: accs)[k]? = some a → accs[k]? = some st → steps[k]? = some p → StepOpened rd P ccs scheme κ op a p.1 p.2 st) ∧
    ∃ (k : Nat) (a : LCCCS (Fin N → F)) (p : CCCS (Fin N → F) × LFProof (Fin N → F)),
      (acc :: accs)[k]? = some a ∧ steps[k]? = some p ∧ ¬ StepSound rd P ccs scheme op a p.1 p.2

/-- For extension degree one the slot sums are the range polynomials themselves. -/
theorem slots_below (rd : RingData Fp F C N 1) (b : Nat) (w : Witness (Fin N → F) C) (h : SlotSumsVanish rd b w) : WitBelow rd b w := by
  intro c hcm i
  obtain ⟨⟨j, a⟩, rfl⟩ := finProdFinEquiv.surjective i
  have h0 := h c hcm a
  rw [Fin.sum_univ_one] at h0
  have hj : j = 0 := Subsingleton.elim _ _
  subst hj
  by_contra hcon
  push Not at hcon
  exact rangePoly_ne_zero _ _ hcon h0

theorem valid_sound (rd : RingData Fp F C N 1) (P : Params) (hK : 1 ≤ P.K) (hb : 1 ≤ P.bSmall) (ccs : CCS (Fin N → F))
    (scheme : Ajtai (Fin N → F)) (κ : Nat) (op : Commitment (Fin N → F) → Witness (Fin N → F) C) (acc : LCCCS (Fin N → F))
    (cm : CCCS (Fin N → F)) (proof : LFProof (Fin N → F)) (st : LCCCS (Fin N → F))
    (ho : StepOpened rd P ccs scheme κ op acc cm proof st) (hv : StepValid rd P ccs scheme op acc cm proof) :
    StepSound rd P ccs scheme op acc cm proof := by
  have hbelow : ∀ y ∈ proof.decL.yS ++ proof.decR.yS, WitBelow rd P.bSmall (op y) := by
    intro y hy
    obtain ⟨k, hk, rfl⟩ := List.mem_iff_getElem.1 hy
    by_cases hl : k < 2 * P.K - 1
    · exact hv.below k _ hl (List.getElem?_eq_getElem hk)
    · have h2 : (proof.decL.yS ++ proof.decR.yS).length = 2 * P.K := by
        rw [List.length_append, ho.fits.decL.y.1, ho.fits.decR.y.1]
        omega
      have hk' : k = 2 * P.K - 1 := by omega
      subst hk'
      exact slots_below rd _ _ (hv.slots _ (List.getElem?_eq_getElem hk))
  refine ⟨hv.opens, hv.holds, ?_, hv.acc, hbelow⟩
  have hpiece : ∀ (k : Nat) (w : Witness (Fin N → F) C), (proof.decR.yS.map op)[k]? = some w → WitBelow rd P.bSmall w := by
    intro k w hw
    rw [List.getElem?_map] at hw
    cases hy : proof.decR.yS[k]? with
    | none => rw [hy] at hw; cases hw
    | some y =>
      rw [hy] at hw
      cases hw
      exact hbelow y (List.mem_append_right _ (List.mem_of_getElem? hy))
  have := C89_norm rd P hK hb P.bSmall (proof.decR.yS.map op) (by simp [ho.fits.decR.y.1])
    (fun k w _ hw => hpiece k w hw) (fun w hw => hpiece _ w hw) hb (op cm.cm) ho.recombined
  rwa [← pow_succ, Nat.sub_add_cancel hK] at this

theorem oracleCount_mono {H : Type} [Fintype F] (X : Finset H) (E : H → F) (p q : (H → F) → Prop) (h : ∀ O, p O → q O) :
    oracleCount X E p ≤ oracleCount X E q := by
  classical
  unfold oracleCount
  refine card_le_card fun o ho => ?_
  rw [mem_filter] at ho ⊢
  exact ⟨ho.1, h _ ho.2⟩

theorem ivc_length {σ : Type} (rd : RingData Fp F C N τ) (P : Params) (cs : ChallengeSet C) (T : Transcript F (Fin N → F) σ)
    (ccs : CCS (Fin N → F)) : ∀ (steps : List (CCCS (Fin N → F) × LFProof (Fin N → F))) (s : σ) (acc : LCCCS (Fin N → F))
      (accs : List (LCCCS (Fin N → F))) (last : LCCCS (Fin N → F)) (s' : σ),
      ivcVerify rd P cs T ccs steps s acc = .ok ((accs, last), s') → accs.length = steps.length
  | [], s, acc, accs, last, s', h => by
    simp only [ivcVerify] at h
    cases h
    rfl
  | (cm, proof) :: rest, s, acc, accs, last, s', h => by
    simp only [ivcVerify] at h
    simp only [bind_eq_ok, Prod.exists] at h
    obtain ⟨st, s1, _, accs', last', s2, h2, h⟩ := h
    cases h
    rw [List.length_cons, List.length_cons, ivc_length rd P cs T ccs rest s1 st accs' _ _ h2]

theorem unsound_forged (rd : RingData Fp F C N 1) (P : Params) (hK : 1 ≤ P.K) (hb : 1 ≤ P.bSmall) (cs : ChallengeSet C)
    (ccs : CCS (Fin N → F)) (scheme : Ajtai (Fin N → F)) (κ L0 n : Nat) (op : Commitment (Fin N → F) → Witness (Fin N → F) C)
    (B : History F (Fin N → F) → Nat → List UInt8)
    (A : Alg (History F (Fin N → F)) F
      (History F (Fin N → F) × LCCCS (Fin N → F) × List (CCCS (Fin N → F) × LFProof (Fin N → F))))
    (O : History F (Fin N → F) → F) (h : ChainUnsound rd P cs ccs scheme κ L0 n op B A O) : ChainForged rd P cs ccs scheme κ L0 n op B A O := by
  obtain ⟨h0, acc, steps, accs, last, s', h1, h2, h3, h4, h5, k, a, p, h6, h7, h8⟩ := h
  refine ⟨h0, acc, steps, accs, last, s', h1, h2, h3, h4, h5, k, a, p, h6, h7, fun hv => h8 ?_⟩
  have hlen : accs.length = steps.length := ivc_length rd P cs _ ccs steps h0 acc accs last s' h4
  have hk : k < accs.length := by rw [hlen]; exact (List.getElem?_eq_some_iff.1 h7).1
  exact valid_sound rd P hK hb ccs scheme κ op a p.1 p.2 accs[k] (h5 k a accs[k] p h6 (List.getElem?_eq_getElem hk) h7) hv

/-- **C95** for extension degree one: full soundness of a chain of folding steps, with all norms. -/
theorem C95_degree_one [Fintype F] (rd : RingData Fp F C N 1) (P : Params) (hK : 1 ≤ P.K) (hb : 1 ≤ P.bSmall) (cs : ChallengeSet C)
    (ccs : CCS (Fin N → F)) (scheme : Ajtai (Fin N → F)) (hS : SizesOK P ccs scheme) (hc : CharGt F (2 * P.bSmall))
    (hcd : CharGt F (ccs.d + 1)) (κ L0 n : Nat) (op : Commitment (Fin N → F) → Witness (Fin N → F) C)
    (hop : ∀ y, WitOK rd P (ccs.n - ccs.l - 1) (op y)) (B : History F (Fin N → F) → Nat → List UInt8)
    (A : Alg (History F (Fin N → F)) F
      (History F (Fin N → F) × LCCCS (Fin N → F) × List (CCCS (Fin N → F) × LFProof (Fin N → F)))) (Q : Nat) (hA : A.AtMost Q) :
    ∃ X0 : Finset (History F (Fin N → F)), ∀ X, X0 ⊆ X → ∀ E : History F (Fin N → F) → F,
      oracleCount X E (ChainUnsound rd P cs ccs scheme κ L0 n op B A)
        ≤ (Q + n * (6 * P.K - 1 + 4 * ccs.s)) * max (ccs.d + 1) (max (max 1 ccs.M.length) (2 * P.bSmall))
          * Fintype.card F ^ (X.card - 1) := by
  obtain ⟨X0, h⟩ := C95_chain rd P hK hb cs ccs scheme hS hc hcd κ L0 n op hop B A Q hA
  exact ⟨X0, fun X hX E => (oracleCount_mono X E _ _ fun O hO => unsound_forged rd P hK hb cs ccs scheme κ L0 n op B A O hO).trans (h X hX E)⟩

/-- **C95** for the Stark ring, in numbers. -/
theorem C95_stark {F C : Type} [Field F] [DecidableEq F] [CommRing C] [Algebra (ZMod pStark) F] [Algebra (ZMod pStark) C] [Fintype F]
    (rd : RingData (ZMod pStark) F C N 1) (P : Params) (hK : 1 ≤ P.K) (hb : 1 ≤ P.bSmall)
    (cs : ChallengeSet C) (ccs : CCS (Fin N → F)) (scheme : Ajtai (Fin N → F)) (hS : SizesOK P ccs scheme)
    (κ L0 n : Nat) (op : Commitment (Fin N → F) → Witness (Fin N → F) C)
    (hop : ∀ y, WitOK rd P (ccs.n - ccs.l - 1) (op y)) (B : History F (Fin N → F) → Nat → List UInt8)
    (A : Alg (History F (Fin N → F)) F
      (History F (Fin N → F) × LCCCS (Fin N → F) × List (CCCS (Fin N → F) × LFProof (Fin N → F)))) (hA : A.AtMost (2 ^ 100))
    (hn : n ≤ 2 ^ 30) (hs : 6 * P.K + 4 * ccs.s ≤ 2 ^ 16) (hd : ccs.d + 1 ≤ 2 ^ 16) (hM : ccs.M.length ≤ 2 ^ 16) (hb2 : 2 * P.bSmall ≤ 2 ^ 16) :
    ∃ X0 : Finset (History F (Fin N → F)), ∀ X, X0 ⊆ X → X.Nonempty → ∀ E : History F (Fin N → F) → F,
      oracleCount X E (ChainUnsound rd P cs ccs scheme κ L0 n op B A) * 2 ^ 74 ≤ Fintype.card F ^ X.card := by
  obtain ⟨X0, h⟩ := C95_four_rings .stark rd P hK hb cs ccs scheme hS κ L0 n op hop B A hA hn hs hd hM hb2
  exact ⟨X0, fun X hX hne E => (Nat.mul_le_mul_right _ (oracleCount_mono X E _ _ fun O hO =>
    unsound_forged rd P hK hb cs ccs scheme κ L0 n op B A O hO)).trans (h X hX hne E)⟩

/-! ## A concrete case -/

section Examples
open Verif.Example

/-- Over the field of 257 elements: an adversary with 20 queries breaks the soundness of one of up to three folding steps with at most 188 of
257 oracles. -/
example (L0 : Nat) (B : History (ZMod 257) C257 → Nat → List UInt8)
    (A : Alg (History (ZMod 257) C257) (ZMod 257) (History (ZMod 257) C257 × LCCCS C257 × List (CCCS C257 × LFProof C257)))
    (hA : A.AtMost 20) :
    ∃ X0 : Finset (History (ZMod 257) C257), ∀ X, X0 ⊆ X → ∀ E : History (ZMod 257) C257 → ZMod 257,
      oracleCount X E (ChainUnsound ring257 par257one cs257 ccs257 scheme257 2 L0 3 open257 B A) ≤ 188 * 257 ^ (X.card - 1) := by
  have h := C95_degree_one ring257 par257one (by decide) (by decide) cs257 ccs257 scheme257 sizes257one (charGt257 _ (by decide))
    (charGt257 _ (by decide)) 2 L0 3 open257 (fun _ => mkWit_ok ring257 par257one (wl := 1) _ rfl) B A 20 hA
  rw [ZMod.card] at h
  exact h

end Examples

end Verif.Props
