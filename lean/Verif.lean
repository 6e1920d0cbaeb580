import Verif.Model.Distr
import Verif.Model.Float
import Verif.Model.GenObjs
import Verif.Model.GenSources
import Verif.Model.Go
import Verif.Model.LFG
import Verif.Model.LfgTable
import Verif.Model.MT64
import Verif.Model.RNG
import Verif.Model.RandString
import Verif.Model.Source
import Verif.Model.Store
import Verif.Model.Util
import Verif.Model.Width
import Verif.Model.WidthSeed
import Verif.Model.Xoroshiro
import Verif.Model.Xoshiro
import Verif.Model.Yield
import Verif.Model.Yielders
import Verif.Model.ZigPy
import Verif.Model.ZigTables
import Verif.Proofs.Api
import Verif.Proofs.Average
import Verif.Proofs.Big
import Verif.Proofs.BitRec
import Verif.Proofs.Bytes
import Verif.Proofs.Cycle
import Verif.Proofs.ExactZig
import Verif.Proofs.ExpCert
import Verif.Proofs.ExpoDist
import Verif.Proofs.Float
import Verif.Proofs.FloatNear
import Verif.Proofs.Fuel
import Verif.Proofs.Gens
import Verif.Proofs.Gf2
import Verif.Proofs.Kron
import Verif.Proofs.LFG
import Verif.Proofs.LFGState
import Verif.Proofs.Leap
import Verif.Proofs.LfgBits
import Verif.Proofs.LfgCert
import Verif.Proofs.LfgCert2
import Verif.Proofs.LfgCert3
import Verif.Proofs.LfgCert4
import Verif.Proofs.LfgFree
import Verif.Proofs.LfgLow
import Verif.Proofs.LinCx
import Verif.Proofs.LinCxCertA
import Verif.Proofs.LinCxCertB
import Verif.Proofs.LinCxCertC
import Verif.Proofs.LinCxCertD
import Verif.Proofs.LinCxUp
import Verif.Proofs.MSeq
import Verif.Proofs.MT64
import Verif.Proofs.MersenneCert
import Verif.Proofs.Mills
import Verif.Proofs.Mimic
import Verif.Proofs.Moment
import Verif.Proofs.MtCert1
import Verif.Proofs.MtCert2
import Verif.Proofs.MtCert3
import Verif.Proofs.MtCert4
import Verif.Proofs.MtCtx
import Verif.Proofs.MtCycle
import Verif.Proofs.MtLin
import Verif.Proofs.MtTemper
import Verif.Proofs.NormDist
import Verif.Proofs.NormGives
import Verif.Proofs.NormTail
import Verif.Proofs.NormTail2
import Verif.Proofs.NormTail3
import Verif.Proofs.NormTail4
import Verif.Proofs.Prob
import Verif.Proofs.RNG
import Verif.Proofs.Reads
import Verif.Proofs.Sample
import Verif.Proofs.SeqPoly
import Verif.Proofs.SmMix
import Verif.Proofs.Stream
import Verif.Proofs.UintnLaw
import Verif.Proofs.UserZig
import Verif.Proofs.Words
import Verif.Proofs.XoCert
import Verif.Proofs.XoInj
import Verif.Proofs.XoLin
import Verif.Proofs.XoSeed
import Verif.Proofs.XoStep
import Verif.Proofs.ZigCert
import Verif.Proofs.ZigProb
import Verif.Proofs.ZigRec
import Verif.Proofs.ZigRound
import Verif.Proofs.ZigRows
import Verif.Proofs.ZigSide
import Verif.Proofs.ZigSide2
import Verif.Proofs.ZigSum
import Verif.Props.Adapters
import Verif.Props.Apart
import Verif.Props.ApiPeriod
import Verif.Props.Big
import Verif.Props.BignLaw
import Verif.Props.BignTerm
import Verif.Props.BitRec
import Verif.Props.CallPeriod
import Verif.Props.Compose
import Verif.Props.Compose2
import Verif.Props.Copy
import Verif.Props.Cost
import Verif.Props.Cost2
import Verif.Props.DeadState
import Verif.Props.EvenReads
import Verif.Props.EvenTuples
import Verif.Props.ExpoDist
import Verif.Props.FirstDraw
import Verif.Props.Histogram
import Verif.Props.History
import Verif.Props.IdealUintn
import Verif.Props.Independent
import Verif.Props.Landing
import Verif.Props.Leap
import Verif.Props.LfgBits
import Verif.Props.LfgExact
import Verif.Props.LfgLongIv
import Verif.Props.LfgLow
import Verif.Props.LfgPeriod
import Verif.Props.LfgRef
import Verif.Props.LfgSeed
import Verif.Props.LinCx
import Verif.Props.Misses
import Verif.Props.Moments
import Verif.Props.Moments2
import Verif.Props.MtArray
import Verif.Props.MtArray2
import Verif.Props.MtEqui
import Verif.Props.MtLongIv
import Verif.Props.MtPeriod
import Verif.Props.MtRef
import Verif.Props.MtSeed
import Verif.Props.NormDist
import Verif.Props.Period
import Verif.Props.Period2
import Verif.Props.PeriodBign
import Verif.Props.PeriodCalls
import Verif.Props.PeriodDist
import Verif.Props.PeriodSample
import Verif.Props.Predict
import Verif.Props.RandBad
import Verif.Props.RandString
import Verif.Props.RandText
import Verif.Props.RandomSeed
import Verif.Props.Read
import Verif.Props.Recover
import Verif.Props.Repeat
import Verif.Props.RngInts
import Verif.Props.Sample
import Verif.Props.SeedAlive
import Verif.Props.SeedBits
import Verif.Props.SeedHelpers
import Verif.Props.SeedRef
import Verif.Props.SeedShare
import Verif.Props.Seeding
import Verif.Props.SelectLeak
import Verif.Props.SelectPeriod
import Verif.Props.Shuffle
import Verif.Props.Special
import Verif.Props.State
import Verif.Props.Stopping
import Verif.Props.StoppingAll
import Verif.Props.StoppingTime
import Verif.Props.Terminates
import Verif.Props.Terminates2
import Verif.Props.Tokens
import Verif.Props.Uintn
import Verif.Props.UintnPeriod
import Verif.Props.Uniform
import Verif.Props.UniformDist
import Verif.Props.UniformMoments
import Verif.Props.UserZig
import Verif.Props.Width
import Verif.Props.WidthRand
import Verif.Props.WidthSeed
import Verif.Props.XorMethods
import Verif.Props.XorPeriod
import Verif.Props.Yield
import Verif.Props.Yielders
import Verif.Props.ZigAccept
import Verif.Props.ZigCount
import Verif.Props.ZigDensity
import Verif.Props.ZigExpo
import Verif.Props.ZigNormal
import Verif.Props.ZigSolve
import Verif.Props.ZigSplit
import Verif.Props.ZigTables
import Verif.Props.ZigTerm
import Verif.Props.ZigTermLfg
import Verif.Spec.Apart
import Verif.Spec.Api
import Verif.Spec.CallPeriod
import Verif.Spec.Calls
import Verif.Spec.Cost
import Verif.Spec.Count
import Verif.Spec.CountBytes
import Verif.Spec.EvenReads
import Verif.Spec.EvenTuples
import Verif.Spec.ExactZig
import Verif.Spec.FirstDraw
import Verif.Spec.Float
import Verif.Spec.History
import Verif.Spec.Landing
import Verif.Spec.LfgRef
import Verif.Spec.LowBits
import Verif.Spec.LowPatterns
import Verif.Spec.MT
import Verif.Spec.MTSeed
import Verif.Spec.MathLib
import Verif.Spec.Misses
import Verif.Spec.Moment
import Verif.Spec.Pair
import Verif.Spec.Period
import Verif.Spec.PeriodBign
import Verif.Spec.PeriodCalls
import Verif.Spec.PeriodDist
import Verif.Spec.PeriodSample
import Verif.Spec.Predict
import Verif.Spec.Prob
import Verif.Spec.ProbBytes
import Verif.Spec.RandomSeed
import Verif.Spec.Repeat
import Verif.Spec.Sample
import Verif.Spec.SeedShare
import Verif.Spec.Select
import Verif.Spec.SplitMix
import Verif.Spec.Stopping
import Verif.Spec.StoppingAll
import Verif.Spec.Stream
import Verif.Spec.Trials
import Verif.Spec.UintnEven
import Verif.Spec.Uniform
import Verif.Spec.UserZig
import Verif.Spec.Zig
