import Verif.Ext.Poseidon
import Verif.Ext.Transcript
import Verif.Model.PoseidonConsts
import Verif.Lemmas.Primes

/-!
# Model of the Poseidon configurations and transcripts

`crates/cyclotomic-rings/src/rings/poseidon/*.rs`, `crates/latticefold/src/transcript/poseidon.rs`,
`crates/latticefold-plus/src/transcript.rs`.
-/

namespace Verif.Poseidon

/-! ## Configurations -/

/-- The moduli of the four base prime fields (`stark-rings`). -/
abbrev pGoldilocks : Nat := 18446744069414584321
abbrev pBabyBear : Nat := 2013265921
abbrev pFrog : Nat := 15912092521325583641
abbrev pStark : Nat := 3618502788666131213697322783095070105623107215331596699973092056135872020481

/-- A table of integer literals as field elements: `Fq::from(0x.._i128)`, `MontFp!("..")`. -/
def ofTable (p : Nat) (t : List (List Nat)) : List (List (ZMod p)) :=
  t.map (List.map (Nat.cast : Nat → ZMod p))

/-- `Fq::from(-1)` and the like. -/
def ofIntTable (p : Nat) (t : List (List Int)) : List (List (ZMod p)) :=
  t.map (List.map (Int.cast : Int → ZMod p))

/-- `poseidon/goldilocks.rs:8-1424` `get_poseidon_config`. -/
def goldilocksConfig : Res (PoseidonConfig (ZMod pGoldilocks)) :=
  PoseidonConfig.new 8 22 7 (ofTable _ mds64) (ofTable _ ark64) 20 4

/-- `poseidon/babybear.rs:8-1424` `get_poseidon_config`: the literals of the Goldilocks file. -/
def babybearConfig : Res (PoseidonConfig (ZMod pBabyBear)) :=
  PoseidonConfig.new 8 22 7 (ofTable _ mds64) (ofTable _ ark64) 20 4

/-- `poseidon/frog.rs:10-1426` `get_poseidon_config`: the literals of the Goldilocks file. -/
def frogConfig : Res (PoseidonConfig (ZMod pFrog)) :=
  PoseidonConfig.new 8 22 7 (ofTable _ mds64) (ofTable _ ark64) 20 4

/-- `poseidon/stark.rs:11-1027` `get_poseidon_config`. -/
def starkConfig : Res (PoseidonConfig (ZMod pStark)) :=
  PoseidonConfig.new 8 83 3 (ofIntTable _ mdsStark) (ofTable _ arkStark) 2 1

/-! ## Transcripts -/

/-- Contract of `PolyRing::coeffs`, `Field::to_base_prime_field_elements` and
`Field::from_base_prime_field_elems`: a ring element is given by `N` elements of the base field `F`, and
such an element by `τ` elements of the prime field `K`; all conversions are additive. -/
structure Encoding (K F R : Type) (N τ : Nat) [AddCommGroup K] [AddCommGroup F] [AddCommGroup R] where
  coeffs : R ≃+ (Fin N → F)
  base : F ≃+ (Fin τ → K)

variable {K F R : Type} {N τ : Nat} [AddCommGroup F] [AddCommGroup R]

section
variable [AddCommGroup K]

/-- `to_base_prime_field_elements`. -/
def Encoding.toBase (e : Encoding K F R N τ) (x : F) : List K := List.ofFn (e.base x)

/-- `from_base_prime_field_elems`: `None` unless there are `extension_degree` elements. -/
def Encoding.fromBase (e : Encoding K F R N τ) (xs : List K) : Option F :=
  if h : xs.length = τ then some (e.base.symm fun i => xs[i.val]) else none

/-- `v.coeffs().iter().flat_map(|x| x.to_base_prime_field_elements())`. -/
def Encoding.flat (e : Encoding K F R N τ) (v : R) : List K :=
  (List.ofFn (e.coeffs v)).flatMap e.toBase

end

section
variable [CommRing K] (c : PoseidonConfig K) (e : Encoding K F R N τ)

/-- `transcript/poseidon.rs:40-47` and `latticefold-plus/src/transcript.rs:33-40` `absorb`. -/
def transcriptAbsorb (s : Sponge K c.width) (v : R) : Sponge K c.width := c.absorb s (e.flat v)

/-- `transcript/poseidon.rs:49-57` and `latticefold-plus/src/transcript.rs:42-50` `get_challenge`: squeeze
`extension_degree` elements, absorb them, and convert (`expect`). -/
def getChallenge (s : Sponge K c.width) : Res F × Sponge K c.width :=
  let r := c.squeeze s τ
  let s' := c.absorb r.2 r.1
  match e.fromBase r.1 with
  | some x => (.ok x, s')
  | none => (.error (.panic "c does not contain extension_degree elements"), s')

end

/-- `transcript/poseidon.rs:32-61`, `latticefold-plus/src/transcript.rs:28-54`: the Poseidon transcript as a
`Transcript`. The `expect` of `get_challenge` never fails (`C74_transcript`), so the challenge is given
without an error value. -/
def poseidonT {p : Nat} (c : PoseidonConfig (ZMod p)) (e : Encoding (ZMod p) F R N τ) :
    Transcript F R (Sponge (ZMod p) c.width) where
  absorb := transcriptAbsorb c e
  challenge s :=
    let r := c.squeeze s τ
    (e.base.symm fun i => r.1.getD i 0, c.absorb r.2 r.1)
  bytes s n := c.squeezeBytes s n

/-- `BasePrimeField::from_be_bytes_mod_order`. -/
def fromBeBytes (p : Nat) (bs : List UInt8) : ZMod p :=
  ((bs.foldl (fun acc b => 256 * acc + b.toNat) 0 : Nat) : ZMod p)

section
variable {F R : Type}

/-- `latticefold-plus/src/transcript.rs:57-67` `squeeze_challenges`; `fromPrime` is
`BaseRing::from_base_prime_field`, `name` the bytes of the label. -/
def squeezeChallenges {σ : Type} {p : Nat} [CommSemiring F] [Semiring R] [Algebra F R]
    (T : Transcript F R σ) (fromPrime : ZMod p → F) (s : σ) (name : List UInt8) (n : Nat) : List F × σ :=
  T.challenges n (T.absorbField s (fromPrime (fromBeBytes p name)))

/-- `latticefold-plus/src/transcript.rs:69-78` `squeeze_rchallenges`. -/
def squeezeRChallenges {σ : Type} {p : Nat} [CommSemiring F] [Semiring R] [Algebra F R]
    (T : Transcript F R σ) (fromPrime : ZMod p → F) (s : σ) (name : List UInt8) (n : Nat) : List R × σ :=
  let r := squeezeChallenges T fromPrime s name n
  (r.1.map (algebraMap F R), r.2)

end

end Verif.Poseidon
