import Verif.Ext.Ring
import Verif.Ext.Transcript

/-!
# Model of the short challenge sets

`crates/cyclotomic-rings/src/rings/{goldilocks,babybear,frog,stark}.rs`. Bytes are `UInt8` with the
bit operations of the code; the `i16` results of the subtractions are integers (they lie in
`[-128, 256)`, so the Rust subtraction cannot overflow). `RqPoly::from(coeffs)` (stark-rings) is the
element whose first coefficients are the given ones and whose other coefficients are zero.
-/

namespace Verif

variable {Fp C : Type} [Field Fp] [AddCommGroup C] [Module Fp C] {D : Nat}

/-- `RqPoly::from(Vec<Fq>)` for at most `D` coefficients. -/
def polyFrom (coeff : C ≃ₗ[Fp] (Fin D → Fp)) (cs : List ℤ) : C :=
  coeff.symm fun i => ((cs.getD i 0 : ℤ) : Fp)

/-- `goldilocks.rs:54-63`, identical to `babybear.rs:54-63`: four coefficients from bytes `3i, 3i+1, 3i+2`. -/
def unpack4 (b0 b1 b2 : UInt8) : List ℤ :=
  [((b0 &&& 0b00111111).toNat : ℤ) - 32,
   (((b0 &&& 0b11000000) >>> 6 ||| (b1 &&& 0b00001111) <<< 2).toNat : ℤ) - 32,
   (((b1 &&& 0b11110000) >>> 4 ||| (b2 &&& 0b00000011) <<< 4).toNat : ℤ) - 32,
   (((b2 &&& 0b11111100) >>> 2).toNat : ℤ) - 32]

/-- `goldilocks.rs:41-67`, `babybear.rs:41-67` `short_challenge_from_random_bytes`, before the conversion
to a ring element. -/
def packedCoeffs (bs : List UInt8) : Res (List ℤ) :=
  if bs.length ≠ 18 then .error (.tooFewBytes bs.length 18) else
  foldRes (fun cs i => do
    let b0 ← idx "bs[3 * i]" bs (3 * i)
    let b1 ← idx "bs[3 * i + 1]" bs (3 * i + 1)
    let b2 ← idx "bs[3 * i + 2]" bs (3 * i + 2)
    .ok (cs ++ unpack4 b0 b1 b2)) [] (List.range 6)

/-- `GoldilocksChallengeSet` / `BabyBearChallengeSet`. -/
def packedChallenge (coeff : C ≃ₗ[Fp] (Fin D → Fp)) (bs : List UInt8) : Res C := do
  let cs ← packedCoeffs bs
  .ok (polyFrom coeff cs)

/-- `frog.rs:37-55` `FrogChallengeSet`: one coefficient `byte - 128` per byte. -/
def frogChallenge (coeff : C ≃ₗ[Fp] (Fin D → Fp)) (bs : List UInt8) : Res C :=
  if bs.length ≠ 16 then .error (.tooFewBytes bs.length 16) else
  .ok (polyFrom coeff (bs.map fun x => (x.toNat : ℤ) - 128))

/-- `stark.rs:37-51` `StarkChallengeSet`: one coefficient per byte. -/
def starkChallenge (coeff : C ≃ₗ[Fp] (Fin D → Fp)) (bs : List UInt8) : Res C :=
  if bs.length ≠ 16 then .error (.tooFewBytes bs.length 16) else
  .ok (polyFrom coeff (bs.map fun x => (x.toNat : ℤ)))

/-- A short challenge set: number of bytes and decoder (`challenge_set.rs:12-24`). -/
structure ChallengeSet (C : Type) where
  bytesNeeded : Nat
  decode : List UInt8 → Res C

/-- `goldilocks.rs:41-67` `GoldilocksChallengeSet`, `babybear.rs:41-67` `BabyBearChallengeSet`:
`BYTES_NEEDED = 18`. -/
def packedSet (coeff : C ≃ₗ[Fp] (Fin D → Fp)) : ChallengeSet C := ⟨18, packedChallenge coeff⟩

/-- `frog.rs:37-55` `FrogChallengeSet`: `BYTES_NEEDED = 16`. -/
def frogSet (coeff : C ≃ₗ[Fp] (Fin D → Fp)) : ChallengeSet C := ⟨16, frogChallenge coeff⟩

/-- `stark.rs:37-51` `StarkChallengeSet`: `BYTES_NEEDED = 16`. -/
def starkSet (coeff : C ≃ₗ[Fp] (Fin D → Fp)) : ChallengeSet C := ⟨16, starkChallenge coeff⟩

variable {F R σ : Type}

/-- `transcript/poseidon.rs:69-74` `get_short_challenge`: squeeze `BYTES_NEEDED` bytes and decode,
`expect`ing success. -/
def shortChallenge (T : Transcript F R σ) (cs : ChallengeSet C) (s : σ) : Res (C × σ) :=
  let (bs, s) := T.bytes s cs.bytesNeeded
  match cs.decode bs with
  | .ok c => .ok (c, s)
  | .error _ => .error (.panic "not enough bytes to get a small challenge")

/-- `transcript.rs:45-49` `get_small_challenges`. -/
def shortChallenges (T : Transcript F R σ) (cs : ChallengeSet C) : Nat → σ → Res (List C × σ)
  | 0, s => .ok ([], s)
  | n + 1, s => do
    let (c, s) ← shortChallenge T cs s
    let (r, s) ← shortChallenges T cs n s
    .ok (c :: r, s)

end Verif
