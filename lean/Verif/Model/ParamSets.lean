import Verif.Ext.Ring

/-!
# The decomposition parameters shipped with the repository

Parameter sets `(B, L, B_SMALL, K)` of the benchmarks (`crates/latticefold/benches/config.toml`, without the
repetitions for different witness lengths), the defaults of the examples (`crates/latticefold/build.rs:28-46`)
and those of the unit tests (`crates/latticefold/src/decomposition_parameters.rs:48-111`).
-/

namespace Verif

/-- `build.rs:29-32` defaults for Goldilocks, BabyBear and Frog. -/
def exampleParams : Params := ⟨2 ^ 15, 5, 2, 15⟩

/-- `build.rs:37-40` defaults for `StarkPrime`. -/
def exampleParamsStark : Params := ⟨1073741824, 9, 2, 30⟩

/-- `benches/config.toml:117-165, 169-217, 221-269`. -/
def benchGoldilocks : List Params :=
  [⟨256, 8, 2, 8⟩,
   ⟨1024, 7, 2, 10⟩,
   ⟨2048, 6, 2, 11⟩,
   ⟨8192, 5, 2, 13⟩,
   ⟨65536, 4, 2, 16⟩,
   ⟨4194304, 3, 2, 22⟩,
   ⟨4294967296, 2, 2, 32⟩]

/-- `benches/config.toml:3-37, 41-75, 79-113`. -/
def benchBabyBear : List Params :=
  [⟨16, 8, 2, 4⟩,
   ⟨32, 7, 2, 5⟩,
   ⟨64, 6, 2, 6⟩,
   ⟨128, 5, 2, 7⟩,
   ⟨256, 4, 2, 8⟩,
   ⟨2048, 3, 2, 11⟩,
   ⟨65536, 2, 2, 16⟩]

/-- `benches/config.toml:450-505, 509-564, 568-623`. -/
def benchFrog : List Params :=
  [⟨256, 9, 2, 8⟩,
   ⟨512, 8, 2, 9⟩,
   ⟨1024, 7, 2, 10⟩,
   ⟨4096, 6, 2, 12⟩,
   ⟨16384, 5, 2, 14⟩,
   ⟨131072, 4, 2, 17⟩,
   ⟨8388608, 3, 2, 23⟩,
   ⟨17179869184, 2, 2, 34⟩]

/-- `benches/config.toml:273-328, 332-387, 391-446`. -/
def benchStark : List Params :=
  [⟨268435456, 9, 2, 28⟩,
   ⟨4294967296, 8, 2, 32⟩,
   ⟨68719476736, 7, 2, 36⟩,
   ⟨4398046511104, 6, 2, 42⟩,
   ⟨2251799813685248, 5, 2, 51⟩,
   ⟨9223372036854775808, 4, 2, 63⟩,
   ⟨19342813113834066795298816, 3, 2, 84⟩,
   ⟨85070591730234615865843651857942052864, 2, 2, 126⟩]

/-- `decomposition_parameters.rs:54-59` `DP`. -/
def testDP : Params := ⟨1024, 2, 2, 10⟩

/-- `decomposition_parameters.rs:65-70` `DPL1`. -/
def testDPL1 : Params := ⟨1024, 1, 2, 10⟩

/-- `decomposition_parameters.rs:73-78` `StarkDP`. -/
def testStarkDP : Params := ⟨10485760000, 8, 320, 4⟩

/-- `decomposition_parameters.rs:81-86` `StarkFoldingDP`. -/
def testStarkFoldingDP : Params := ⟨3010936384, 8, 38, 6⟩

/-- `decomposition_parameters.rs:90-95` `GoldilocksDP`. -/
def testGoldilocksDP : Params := ⟨2 ^ 15, 5, 2, 15⟩

/-- `decomposition_parameters.rs:99-104` `BabyBearDP`. -/
def testBabyBearDP : Params := ⟨2 ^ 8, 4, 2, 8⟩

/-- `decomposition_parameters.rs:108-113` `FrogDP`. -/
def testFrogDP : Params := ⟨2 ^ 8, 8, 2, 10⟩

end Verif
