import Verif.Props.RandomOracleChain
import Verif.Lemmas.Primes
import Verif.Model.Poseidon
import Verif.Props.ExampleFour

/-!
# C95 for the four rings: the bound in numbers
-/

set_option linter.unusedSectionVars false
set_option linter.unusedSimpArgs false

namespace Verif.Props

open Finset Spec Verif Verif.Poseidon

section Card
variable {Fp F C : Type} {N τ : Nat} [Field Fp] [Field F] [Algebra Fp F] [CommRing C] [Algebra Fp C]

/-- The challenge field has `q ^ τ` elements. -/
theorem card_challenges [Fintype Fp] [Fintype F] (rd : RingData Fp F C N τ) : Fintype.card F = Fintype.card Fp ^ τ := by
  have e : (Fin (τ * N) → Fp) ≃ (Fin N → F) := rd.coeff.symm.toEquiv.trans rd.crt.toEquiv
  have h := Fintype.card_congr e
  rw [Fintype.card_fun, Fintype.card_fun, Fintype.card_fin, Fintype.card_fin, pow_mul] at h
  exact (Nat.pow_left_injective (Nat.pos_iff_ne_zero.1 rd.npos) h).symm

end Card

/-- The four rings: the prime and the degree of the challenge field. -/
inductive RingField : Nat → Nat → Prop
  | goldilocks : RingField pGoldilocks 3
  | babybear : RingField pBabyBear 9
  | frog : RingField pFrog 4
  | stark : RingField pStark 1

theorem ringField_card {p τ : Nat} (h : RingField p τ) : 2 ^ 191 ≤ p ^ τ := by
  cases h <;> norm_num

variable {F C : Type} [Field F] [DecidableEq F] [CommRing C] {p N τ : Nat} [Fact p.Prime] [Algebra (ZMod p) F] [Algebra (ZMod p) C]

theorem charGt_prime (n : Nat) (h : n < p) : CharGt F n := by
  intro k hk hkn h0
  have h1 : algebraMap (ZMod p) F (k : ZMod p) = 0 := by rw [map_natCast]; exact h0
  rw [map_eq_zero, ZMod.natCast_eq_zero_iff] at h1
  exact absurd (Nat.le_of_dvd hk h1) (by omega)

/-- **C95** in numbers, for the fields of all four rings: with at most `2^100` queries to the oracle, a chain of at most `2^30` folding steps, and
sizes below `2^16`, an adversary forges a step with at most one of `2^74` oracles. -/
theorem C95_four_rings [Fintype F] (hp : RingField p τ) (rd : RingData (ZMod p) F C N τ) (P : Params) (hK : 1 ≤ P.K) (hb : 1 ≤ P.bSmall)
    (cs : ChallengeSet C) (ccs : CCS (Fin N → F)) (scheme : Ajtai (Fin N → F)) (hS : SizesOK P ccs scheme)
    (κ L0 n : Nat) (op : Commitment (Fin N → F) → Witness (Fin N → F) C)
    (hop : ∀ y, WitOK rd P (ccs.n - ccs.l - 1) (op y)) (B : History F (Fin N → F) → Nat → List UInt8)
    (A : Alg (History F (Fin N → F)) F
      (History F (Fin N → F) × LCCCS (Fin N → F) × List (CCCS (Fin N → F) × LFProof (Fin N → F)))) (hA : A.AtMost (2 ^ 100))
    (hn : n ≤ 2 ^ 30) (hs : 6 * P.K + 4 * ccs.s ≤ 2 ^ 16) (hd : ccs.d + 1 ≤ 2 ^ 16) (hM : ccs.M.length ≤ 2 ^ 16) (hb2 : 2 * P.bSmall ≤ 2 ^ 16) :
    ∃ X0 : Finset (History F (Fin N → F)), ∀ X, X0 ⊆ X → X.Nonempty → ∀ E : History F (Fin N → F) → F,
      oracleCount X E (ChainForged rd P cs ccs scheme κ L0 n op B A) * 2 ^ 74 ≤ Fintype.card F ^ X.card := by
  have hpl : 2 ^ 16 < p := by cases hp <;> norm_num
  have hc : CharGt F (2 * P.bSmall) := charGt_prime (p := p) _ (by omega)
  have hcd : CharGt F (ccs.d + 1) := charGt_prime (p := p) _ (by omega)
  obtain ⟨X0, h⟩ := C95_chain rd P hK hb cs ccs scheme hS hc hcd κ L0 n op hop B A (2 ^ 100) hA
  refine ⟨X0, fun X hX hne E => ?_⟩
  have hcard : 2 ^ 191 ≤ Fintype.card F := by
    rw [card_challenges rd, ZMod.card]
    exact ringField_card hp
  have hτ : τ ≤ 2 ^ 16 := by cases hp <;> norm_num
  have h1 : (2 ^ 100 + n * (6 * P.K - 1 + 4 * ccs.s)) * max (ccs.d + 1) (max (max τ ccs.M.length) (2 * P.bSmall)) ≤ (2 ^ 100 + 2 ^ 30 * 2 ^ 16) * 2 ^ 16 :=
    Nat.mul_le_mul (Nat.add_le_add_left (Nat.mul_le_mul hn (by omega)) _) (max_le hd (max_le (max_le hτ hM) hb2))
  have h2 := h X hX E
  have h3 : X.card = (X.card - 1) + 1 := by have := hne.card_pos; omega
  calc _ ≤ ((2 ^ 100 + 2 ^ 30 * 2 ^ 16) * 2 ^ 16 * Fintype.card F ^ (X.card - 1)) * 2 ^ 74 :=
        Nat.mul_le_mul_right _ (h2.trans (Nat.mul_le_mul_right _ h1))
    _ = Fintype.card F ^ (X.card - 1) * ((2 ^ 100 + 2 ^ 30 * 2 ^ 16) * 2 ^ 16 * 2 ^ 74) := by ring
    _ ≤ Fintype.card F ^ (X.card - 1) * 2 ^ 191 := Nat.mul_le_mul_left _ (by norm_num)
    _ ≤ Fintype.card F ^ (X.card - 1) * Fintype.card F := Nat.mul_le_mul_left _ hcard
    _ = Fintype.card F ^ X.card := by rw [← pow_succ, ← h3]

/-! ## A concrete case -/

section Examples
open Verif.Example Verif.SmallNorm

/-- The CCS `ccs257` over any ring. -/
def ccsAny (R : Type) [CommRing R] : CCS R :=
  { m := 2, n := 3, l := 1, t := 3, q := 2, d := 2, s := 1, s_prime := 2
    M := [⟨2, 3, [[(1, 0)], [(1, 1)]]⟩, ⟨2, 3, [[(1, 2)], [(1, 1)]]⟩, ⟨2, 3, [[(1, 2)], [(1, 1)]]⟩]
    S := [[0, 1], [2]]
    c := [1, -1] }

theorem ccsAny_shape (R : Type) [CommRing R] [DecidableEq R] : LinShape (ccsAny R) := by
  refine ⟨⟨?_, rfl, rfl, ?_⟩, by simp [ccsAny], rfl, ?_, ?_⟩
  · intro M hM
    simp only [ccsAny, List.mem_cons, List.not_mem_nil, or_false] at hM
    rcases hM with rfl | rfl | rfl <;> exact ⟨⟨rfl, by simp⟩, rfl⟩
  · simp [ccsAny]
  · intro M hM
    simp only [ccsAny, List.mem_cons, List.not_mem_nil, or_false] at hM
    rcases hM with rfl | rfl | rfl <;> simp [ccsAny]
  · intro k hk _
    have : k < 2 := hk
    interval_cases k <;> simp [ccsAny]

/-- The Goldilocks ring with `b = 2`, `K = 16`. -/
example [DecidableEq (GaloisField pGoldilocks 3)] [Fintype (GaloisField pGoldilocks 3)] (cs : ChallengeSet (Rq pGoldilocks 72)) (L0 : Nat)
    (B : History (GaloisField pGoldilocks 3) (Fin 8 → GaloisField pGoldilocks 3) → Nat → List UInt8)
    (A : Alg (History (GaloisField pGoldilocks 3) (Fin 8 → GaloisField pGoldilocks 3)) (GaloisField pGoldilocks 3)
      (History (GaloisField pGoldilocks 3) (Fin 8 → GaloisField pGoldilocks 3) × LCCCS (Fin 8 → GaloisField pGoldilocks 3) ×
        List (CCCS (Fin 8 → GaloisField pGoldilocks 3) × LFProof (Fin 8 → GaloisField pGoldilocks 3)))) (hA : A.AtMost (2 ^ 100)) :
    ∃ X0 : Finset (History (GaloisField pGoldilocks 3) (Fin 8 → GaloisField pGoldilocks 3)), ∀ X, X0 ⊆ X → X.Nonempty → ∀ E,
      oracleCount X E (ChainForged (ringRq goldilocksData (by norm_num)) ⟨65536, 2, 2, 16⟩ cs (ccsAny _) ⟨⟨2, 2, [[1, 2], [0, 1]]⟩⟩ 2 L0 (2 ^ 20)
        (fun y => mkWit (ringRq goldilocksData (by norm_num)) ⟨65536, 2, 2, 16⟩ 1
          ([y.val.getD 0 0 - 2 * y.val.getD 1 0, y.val.getD 1 0].map (ringRq goldilocksData (by norm_num)).crt.symm)) B A) * 2 ^ 74
        ≤ Fintype.card (GaloisField pGoldilocks 3) ^ X.card :=
  C95_four_rings .goldilocks _ _ (by norm_num) (by norm_num) cs (ccsAny _) _
    ⟨ccsAny_shape _, by simp [ccsAny], by simp [ccsAny]; decide, ⟨rfl, by simp⟩, rfl⟩ 2 L0 (2 ^ 20) _
    (fun _ => mkWit_ok _ _ (wl := 1) _ rfl) B A hA (by norm_num) (by simp [ccsAny]) (by simp [ccsAny]) (by simp [ccsAny]) (by norm_num)

end Examples

end Verif.Props
