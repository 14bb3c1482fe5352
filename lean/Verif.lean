import Verif.Props.Commitment
import Verif.Props.Arith
import Verif.Props.ConstraintSystem
import Verif.Props.Builder
import Verif.Props.Mle
import Verif.Props.Sumcheck
import Verif.Props.Linearization
import Verif.Props.Witness
import Verif.Props.Decomposition
import Verif.Props.Rotation
import Verif.Props.ChallengeSet
import Verif.Props.Folding
import Verif.Props.Nifs
import Verif.Props.PlusSetCheck
import Verif.Props.Soundness
import Verif.Props.FoldingSound
import Verif.Props.Binding
import Verif.Spec.PlusRange
import Verif.Lemmas.PlusRange
import Verif.Lemmas.PlusFromF
import Verif.Props.PlusRange
import Verif.Spec.PlusCm
import Verif.Lemmas.PlusCm
import Verif.Lemmas.PlusCmTail
import Verif.Props.PlusCm
import Verif.Spec.PlusFold
import Verif.Lemmas.PlusFold
import Verif.Props.PlusR1CS
import Verif.Props.PlusFold
import Verif.Props.PlusOne
import Verif.Props.LongStep
import Verif.Props.LongRandom
import Verif.Props.LongUnnoticed
import Verif.Props.LongMost
import Verif.Props.LongBench
import Verif.Props.ExampleSettings
import Verif.Props.ExampleRuns
import Verif.Props.SingleDigit
import Verif.Spec.PlusLog
import Verif.Lemmas.PlusLog
import Verif.Props.PlusBinding
import Verif.Props.PlusAdaptive
import Verif.Lemmas.PlusCmForge
import Verif.Props.PlusCmSound
import Verif.Spec.PlusNorm
import Verif.Model.PlusBound
import Verif.Lemmas.PlusNorm
import Verif.Props.ExampleCyclo
import Verif.Props.PlusNorm
import Verif.Props.PlusChallenge
import Verif.Ext.Poseidon
import Verif.Model.PoseidonConsts
import Verif.Lemmas.Primes
import Verif.Model.Poseidon
import Verif.Spec.Poseidon
import Verif.Lemmas.Poseidon
import Verif.Lemmas.PoseidonData
import Verif.Lemmas.PoseidonCheck
import Verif.Lemmas.PoseidonVecData
import Verif.Props.Poseidon
import Verif.Props.PoseidonBytes
import Verif.Props.PoseidonVector
import Verif.Model.SecurityCheck
import Verif.Spec.SecurityCheck
import Verif.Props.SecurityCheck
import Verif.Props.RandPoly
import Verif.Model.Dummy
import Verif.Props.Dummy
import Verif.Lemmas.SmallNorm
import Verif.Lemmas.Invertible
import Verif.Lemmas.FourRings
import Verif.Props.ExampleFour
import Verif.Props.Invertible
import Verif.Props.RingStructure
import Verif.Model.ParamSets
import Verif.Model.BenchLines
import Verif.Lemmas.NormGrowth
import Verif.Lemmas.NormFold
import Verif.Props.NormTables
import Verif.Props.NormGrowth
import Verif.Props.LabelRecord
import Verif.Spec.Fork
import Verif.Lemmas.Extract
import Verif.Lemmas.ExtractRun
import Verif.Props.Extract
import Verif.Spec.Knowledge
import Verif.Lemmas.Forking
import Verif.Lemmas.Knowledge
import Verif.Lemmas.Causal
import Verif.Props.Knowledge
import Verif.Lemmas.DecExtract
import Verif.Props.DecExtract
import Verif.Lemmas.NifsTape
import Verif.Spec.NifsKnowledge
import Verif.Props.ExampleRing257
import Verif.Props.NifsKnowledge
import Verif.Spec.Extractor
import Verif.Lemmas.Extractor
import Verif.Props.ExampleCompress257
import Verif.Props.Extractor
import Verif.Spec.NifsExtractor
import Verif.Props.NifsExtractor
import Verif.Spec.Oracle
import Verif.Lemmas.Oracle
import Verif.Lemmas.RoundByRound
import Verif.Props.RandomOracle
import Verif.Lemmas.RoundByRoundFold
import Verif.Props.RandomOracleFold
import Verif.Lemmas.Parse
import Verif.Props.RandomOracleNifs
import Verif.Lemmas.Logged
import Verif.Props.RandomOracleChain
import Verif.Props.RandomOracleHonest
import Verif.Spec.ProofShape
import Verif.Props.VerifierTotal
import Verif.Props.PlusTensor
import Verif.Props.PlusTotal
import Verif.Props.PoseidonPairs
import Verif.Props.RandomOracleBits
import Verif.Props.RandomOracleStark
import Verif.Props.Serialize
import Verif.Props.Parallel
import Verif.Props.Mismatch
import Verif.Props.Bench
import Verif.Props.PlusBench
import Verif.Props.PlusLin
import Verif.Props.GalleryBasic
import Verif.Props.GalleryProtocol
import Verif.Props.GalleryPlus
import Verif.Props.BenchEnv
import Verif.Props.PlusPoint
import Verif.Props.PlusParams
import Verif.Props.PlusChain
import Verif.Lemmas.FoldForge
import Verif.Props.SurplusEta
import Verif.Props.SurplusStep
