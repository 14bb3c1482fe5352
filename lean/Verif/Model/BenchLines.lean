import Verif.Model.ParamSets

/-!
# The lines of the benchmark configuration

The rows of `crates/latticefold/benches/config.toml` for the rings of extension degree at least 2, in order. The lists for the three kinds of
instances of a ring are the same.
-/

namespace Verif

/-- A row: `kappa`, `n`, and `b`, `l`, `b_small`, `k`. `x_len` is 1 throughout. As generated by `build.rs:588-609` the witness has `n`
elements (`WIT_LEN = n`) and the commitment matrix `n * l` columns (`N = n * l`). -/
structure BenchLine where
  kappa : Nat
  witLen : Nat
  P : Params
  deriving DecidableEq

/-- `benches/config.toml:117-165, 169-217, 221-269`. -/
def linesGoldilocks : List BenchLine :=
  [⟨8, 512, ⟨256, 8, 2, 8⟩⟩,
   ⟨9, 512, ⟨1024, 7, 2, 10⟩⟩,
   ⟨11, 512, ⟨2048, 6, 2, 11⟩⟩,
   ⟨14, 512, ⟨8192, 5, 2, 13⟩⟩,
   ⟨21, 512, ⟨65536, 4, 2, 16⟩⟩,
   ⟨38, 512, ⟨4194304, 3, 2, 22⟩⟩,
   ⟨99, 512, ⟨4294967296, 2, 2, 32⟩⟩,
   ⟨8, 1024, ⟨256, 8, 2, 8⟩⟩,
   ⟨9, 1024, ⟨1024, 7, 2, 10⟩⟩,
   ⟨11, 1024, ⟨2048, 6, 2, 11⟩⟩,
   ⟨14, 1024, ⟨8192, 5, 2, 13⟩⟩,
   ⟨22, 1024, ⟨65536, 4, 2, 16⟩⟩,
   ⟨39, 1024, ⟨4194304, 3, 2, 22⟩⟩,
   ⟨99, 1024, ⟨4294967296, 2, 2, 32⟩⟩,
   ⟨9, 2048, ⟨256, 8, 2, 8⟩⟩,
   ⟨10, 2048, ⟨1024, 7, 2, 10⟩⟩,
   ⟨12, 2048, ⟨2048, 6, 2, 11⟩⟩,
   ⟨15, 2048, ⟨8192, 5, 2, 13⟩⟩,
   ⟨23, 2048, ⟨65536, 4, 2, 16⟩⟩,
   ⟨40, 2048, ⟨4194304, 3, 2, 22⟩⟩,
   ⟨99, 2048, ⟨4294967296, 2, 2, 32⟩⟩,
   ⟨9, 4096, ⟨256, 8, 2, 8⟩⟩,
   ⟨10, 4096, ⟨1024, 7, 2, 10⟩⟩,
   ⟨12, 4096, ⟨2048, 6, 2, 11⟩⟩,
   ⟨16, 4096, ⟨8192, 5, 2, 13⟩⟩,
   ⟨24, 4096, ⟨65536, 4, 2, 16⟩⟩,
   ⟨41, 4096, ⟨4194304, 3, 2, 22⟩⟩,
   ⟨99, 4096, ⟨4294967296, 2, 2, 32⟩⟩,
   ⟨10, 8192, ⟨256, 8, 2, 8⟩⟩,
   ⟨11, 8192, ⟨1024, 7, 2, 10⟩⟩,
   ⟨13, 8192, ⟨2048, 6, 2, 11⟩⟩,
   ⟨16, 8192, ⟨8192, 5, 2, 13⟩⟩,
   ⟨25, 8192, ⟨65536, 4, 2, 16⟩⟩,
   ⟨42, 8192, ⟨4194304, 3, 2, 22⟩⟩,
   ⟨99, 8192, ⟨4294967296, 2, 2, 32⟩⟩,
   ⟨10, 16384, ⟨256, 8, 2, 8⟩⟩,
   ⟨11, 16384, ⟨1024, 7, 2, 10⟩⟩,
   ⟨13, 16384, ⟨2048, 6, 2, 11⟩⟩,
   ⟨17, 16384, ⟨8192, 5, 2, 13⟩⟩,
   ⟨25, 16384, ⟨65536, 4, 2, 16⟩⟩,
   ⟨43, 16384, ⟨4194304, 3, 2, 22⟩⟩,
   ⟨99, 16384, ⟨4294967296, 2, 2, 32⟩⟩,
   ⟨11, 32768, ⟨256, 8, 2, 8⟩⟩,
   ⟨12, 32768, ⟨1024, 7, 2, 10⟩⟩,
   ⟨14, 32768, ⟨2048, 6, 2, 11⟩⟩,
   ⟨18, 32768, ⟨8192, 5, 2, 13⟩⟩,
   ⟨26, 32768, ⟨65536, 4, 2, 16⟩⟩,
   ⟨44, 32768, ⟨4194304, 3, 2, 22⟩⟩,
   ⟨99, 32768, ⟨4294967296, 2, 2, 32⟩⟩]

/-- `benches/config.toml:3-37, 41-75, 79-113`. -/
def linesBabyBear : List BenchLine :=
  [⟨3, 512, ⟨16, 8, 2, 4⟩⟩,
   ⟨4, 512, ⟨64, 6, 2, 6⟩⟩,
   ⟨6, 512, ⟨256, 4, 2, 8⟩⟩,
   ⟨10, 512, ⟨2048, 3, 2, 11⟩⟩,
   ⟨15, 512, ⟨65536, 2, 2, 16⟩⟩,
   ⟨4, 1024, ⟨32, 7, 2, 5⟩⟩,
   ⟨5, 1024, ⟨128, 5, 2, 7⟩⟩,
   ⟨6, 1024, ⟨256, 4, 2, 8⟩⟩,
   ⟨10, 1024, ⟨2048, 3, 2, 11⟩⟩,
   ⟨15, 1024, ⟨65536, 2, 2, 16⟩⟩,
   ⟨4, 2048, ⟨32, 7, 2, 5⟩⟩,
   ⟨5, 2048, ⟨128, 5, 2, 7⟩⟩,
   ⟨7, 2048, ⟨256, 4, 2, 8⟩⟩,
   ⟨10, 2048, ⟨2048, 3, 2, 11⟩⟩,
   ⟨15, 2048, ⟨65536, 2, 2, 16⟩⟩,
   ⟨4, 4096, ⟨16, 8, 2, 4⟩⟩,
   ⟨5, 4096, ⟨64, 6, 2, 6⟩⟩,
   ⟨7, 4096, ⟨256, 4, 2, 8⟩⟩,
   ⟨11, 4096, ⟨2048, 3, 2, 11⟩⟩,
   ⟨15, 4096, ⟨65536, 2, 2, 16⟩⟩,
   ⟨4, 8192, ⟨16, 8, 2, 4⟩⟩,
   ⟨5, 8192, ⟨64, 6, 2, 6⟩⟩,
   ⟨7, 8192, ⟨256, 4, 2, 8⟩⟩,
   ⟨11, 8192, ⟨2048, 3, 2, 11⟩⟩,
   ⟨15, 8192, ⟨65536, 2, 2, 16⟩⟩,
   ⟨5, 16384, ⟨32, 7, 2, 5⟩⟩,
   ⟨6, 16384, ⟨128, 5, 2, 7⟩⟩,
   ⟨8, 16384, ⟨256, 4, 2, 8⟩⟩,
   ⟨12, 16384, ⟨2048, 3, 2, 11⟩⟩,
   ⟨15, 16384, ⟨65536, 2, 2, 16⟩⟩,
   ⟨5, 32768, ⟨16, 8, 2, 4⟩⟩,
   ⟨6, 32768, ⟨64, 6, 2, 6⟩⟩,
   ⟨8, 32768, ⟨256, 4, 2, 8⟩⟩,
   ⟨12, 32768, ⟨2048, 3, 2, 11⟩⟩,
   ⟨15, 32768, ⟨65536, 2, 2, 16⟩⟩]

/-- `benches/config.toml:450-505, 509-564, 568-623`. -/
def linesFrog : List BenchLine :=
  [⟨10, 512, ⟨256, 9, 2, 8⟩⟩,
   ⟨11, 512, ⟨512, 8, 2, 9⟩⟩,
   ⟨14, 512, ⟨1024, 7, 2, 10⟩⟩,
   ⟨16, 512, ⟨4096, 6, 2, 12⟩⟩,
   ⟨21, 512, ⟨16384, 5, 2, 14⟩⟩,
   ⟨32, 512, ⟨131072, 4, 2, 17⟩⟩,
   ⟨60, 512, ⟨8388608, 3, 2, 23⟩⟩,
   ⟨157, 512, ⟨17179869184, 2, 2, 34⟩⟩,
   ⟨11, 1024, ⟨256, 9, 2, 8⟩⟩,
   ⟨12, 1024, ⟨512, 8, 2, 9⟩⟩,
   ⟨14, 1024, ⟨1024, 7, 2, 10⟩⟩,
   ⟨17, 1024, ⟨4096, 6, 2, 12⟩⟩,
   ⟨22, 1024, ⟨16384, 5, 2, 14⟩⟩,
   ⟨34, 1024, ⟨131072, 4, 2, 17⟩⟩,
   ⟨61, 1024, ⟨8388608, 3, 2, 23⟩⟩,
   ⟨157, 1024, ⟨17179869184, 2, 2, 34⟩⟩,
   ⟨11, 2048, ⟨256, 9, 2, 8⟩⟩,
   ⟨12, 2048, ⟨512, 8, 2, 9⟩⟩,
   ⟨15, 2048, ⟨1024, 7, 2, 10⟩⟩,
   ⟨18, 2048, ⟨4096, 6, 2, 12⟩⟩,
   ⟨23, 2048, ⟨16384, 5, 2, 14⟩⟩,
   ⟨35, 2048, ⟨131072, 4, 2, 17⟩⟩,
   ⟨63, 2048, ⟨8388608, 3, 2, 23⟩⟩,
   ⟨157, 2048, ⟨17179869184, 2, 2, 34⟩⟩,
   ⟨12, 4096, ⟨256, 9, 2, 8⟩⟩,
   ⟨13, 4096, ⟨512, 8, 2, 9⟩⟩,
   ⟨16, 4096, ⟨1024, 7, 2, 10⟩⟩,
   ⟨19, 4096, ⟨4096, 6, 2, 12⟩⟩,
   ⟨24, 4096, ⟨16384, 5, 2, 14⟩⟩,
   ⟨36, 4096, ⟨131072, 4, 2, 17⟩⟩,
   ⟨64, 4096, ⟨8388608, 3, 2, 23⟩⟩,
   ⟨157, 4096, ⟨17179869184, 2, 2, 34⟩⟩,
   ⟨12, 8192, ⟨256, 9, 2, 8⟩⟩,
   ⟨14, 8192, ⟨512, 8, 2, 9⟩⟩,
   ⟨17, 8192, ⟨1024, 7, 2, 10⟩⟩,
   ⟨20, 8192, ⟨4096, 6, 2, 12⟩⟩,
   ⟨25, 8192, ⟨16384, 5, 2, 14⟩⟩,
   ⟨37, 8192, ⟨131072, 4, 2, 17⟩⟩,
   ⟨66, 8192, ⟨8388608, 3, 2, 23⟩⟩,
   ⟨157, 8192, ⟨17179869184, 2, 2, 34⟩⟩,
   ⟨13, 16384, ⟨256, 9, 2, 8⟩⟩,
   ⟨14, 16384, ⟨512, 8, 2, 9⟩⟩,
   ⟨17, 16384, ⟨1024, 7, 2, 10⟩⟩,
   ⟨20, 16384, ⟨4096, 6, 2, 12⟩⟩,
   ⟨26, 16384, ⟨16384, 5, 2, 14⟩⟩,
   ⟨38, 16384, ⟨131072, 4, 2, 17⟩⟩,
   ⟨68, 16384, ⟨8388608, 3, 2, 23⟩⟩,
   ⟨157, 16384, ⟨17179869184, 2, 2, 34⟩⟩,
   ⟨14, 32768, ⟨256, 9, 2, 8⟩⟩,
   ⟨15, 32768, ⟨512, 8, 2, 9⟩⟩,
   ⟨18, 32768, ⟨1024, 7, 2, 10⟩⟩,
   ⟨21, 32768, ⟨4096, 6, 2, 12⟩⟩,
   ⟨27, 32768, ⟨16384, 5, 2, 14⟩⟩,
   ⟨39, 32768, ⟨131072, 4, 2, 17⟩⟩,
   ⟨69, 32768, ⟨8388608, 3, 2, 23⟩⟩,
   ⟨157, 32768, ⟨17179869184, 2, 2, 34⟩⟩]

end Verif
