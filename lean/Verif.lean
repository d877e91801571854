import Verif.Model.Res
import Verif.Model.Arith
import Verif.Model.DataStructure
import Verif.Model.File
import Verif.Model.Correlator
import Verif.Model.Python
import Verif.Lemmas.Res
import Verif.Lemmas.DataStructure
import Verif.Lemmas.Blocks
import Verif.Lemmas.Pipeline
import Verif.Lemmas.Loop
import Verif.Spec.Rational
import Verif.Props.Construct
import Verif.Lemmas.Select
import Verif.Spec.Reach
import Verif.Lemmas.Reach
import Verif.Props.Driver
import Verif.Spec.Acf
import Verif.Lemmas.Exact
import Verif.Props.Stats
import Verif.Lemmas.Grid
import Verif.Props.LagGrid
import Verif.Lemmas.Result
import Verif.Props.Acf
import Verif.Lemmas.Round
import Verif.Props.Selection
import Verif.Props.Weights
import Verif.Lemmas.Scale
import Verif.Props.Invariance
import Verif.Props.Fast
import Verif.Props.Witness
import Verif.Props.Total
import Verif.Spec.PyArgs
import Verif.Props.PyArgs
import Verif.Props.ZeroDim
import Verif.Props.Series
import Verif.Spec.File
import Verif.Lemmas.File
import Verif.Props.File
import Verif.Model.Heap
import Verif.Lemmas.Heap
import Verif.Props.Lifetime
import Verif.Model.Binary64
import Verif.Lemmas.Binary
import Verif.Props.Binary
import Verif.Props.More
import Verif.Props.Rounded
import Verif.Props.Api
import Verif.Spec.Units
import Verif.Lemmas.Units
import Verif.Props.Units
import Verif.Model.SignedZero
import Verif.Lemmas.SignedZero
import Verif.Props.SignedZero
import Verif.Spec.Error
import Verif.Lemmas.Error
import Verif.Props.Error
import Verif.Spec.Error64
import Verif.Spec.Gauss64
import Verif.Spec.Sampling
import Verif.Props.Error64
import Verif.Props.ErrorExp
import Verif.Props.ErrorCor
import Verif.Props.Rescale
import Verif.Spec.IntAbs
import Verif.Props.IntAbs
import Verif.Props.Missing
import Verif.Props.LagRounded
import Verif.Props.StatsRounded
import Verif.Props.Constant
import Verif.Model.Session
import Verif.Lemmas.Session
import Verif.Spec.Session
import Verif.Props.Session
import Verif.Props.Contract
import Verif.Props.RepoTests
import Verif.Spec.AnyTimes
import Verif.Props.AnyTimes
import Verif.Props.AnyLags
import Verif.Props.AnyShift
import Verif.Model.Iterator
import Verif.Lemmas.Iterator
import Verif.Spec.Work
import Verif.Props.Iterator
import Verif.Props.Work
import Verif.Props.Reuse
import Verif.Lemmas.ErrorObs
import Verif.Props.MissingRounded
import Verif.Props.MeansMissing
import Verif.Props.Narrowed
import Verif.Props.FastRounded
import Verif.Props.Signals
import Verif.Props.Stability
import Verif.Props.Spectrum
import Verif.Props.Gaps
import Verif.Props.Shapes
import Verif.Props.Permutation
import Verif.Props.Significance
import Verif.Cases.Base
import Verif.Cases.Doubles
import Verif.Cases.DoublesMore
import Verif.Cases.Driver
import Verif.Cases.File
import Verif.Cases.LagGrid
import Verif.Cases.Objects
import Verif.Cases.Reuse
import Verif.Cases.Selection
import Verif.Cases.Stats
import Verif.Cases.Values
import Verif.Props.Gauss64
import Verif.Props.Sampling
import Verif.Model.Threads
import Verif.Lemmas.Threads
import Verif.Props.Threads
import Verif.Cases.Threads
import Verif.Lemmas.Shared
import Verif.Props.Shared
import Verif.Props.Races
import Verif.Cases.Shared
import Verif.Model.Interrupt
import Verif.Props.Interrupt
import Verif.Cases.Interrupt
import Verif.Props.Classical
import Verif.Cases.Classical
import Verif.Props.Readers
import Verif.Cases.Readers
import Verif.Props.Alpha
import Verif.Lemmas.Dyadic
import Verif.Props.ValueUnit
import Verif.Cases.Alpha
import Verif.Cases.ValueUnit
import Verif.Props.Smooth
import Verif.Props.Sinusoid
import Verif.Cases.Smooth
import Verif.Props.MoreRounded
import Verif.Cases.MoreRounded
import Verif.Props.AnyGauss
import Verif.Props.GapsGauss
import Verif.Props.GaussMore
import Verif.Props.GridWeights
import Verif.Cases.AnyGauss
import Verif.Cases.GapsGauss
import Verif.Cases.GaussMore
import Verif.Cases.GridWeights
import Verif.Props.NamesFast
import Verif.Cases.NamesFast
import Verif.Props.SumsAnyTimes
import Verif.Cases.SumsAnyTimes
import Verif.Props.Levels
import Verif.Cases.Levels
import Verif.Props.GridAny
import Verif.Props.GridPerm
import Verif.Cases.GridAny
import Verif.Cases.GridPerm
import Verif.Props.Periodogram
import Verif.Cases.Periodogram
import Verif.Model.Alloc
import Verif.Props.Leak
import Verif.Cases.Leak
import Verif.Props.Fft
import Verif.Cases.Fft
import Verif.Model.Cost
import Verif.Props.Cost
import Verif.Cases.Cost
import Verif.Props.Words
import Verif.Cases.Words
import Verif.Props.Dates
import Verif.Cases.Dates
import Verif.Props.Julian
import Verif.Cases.Julian
import Verif.Props.LagCount
import Verif.Cases.LagCount
import Verif.Model.CostPython
import Verif.Props.CostPython
import Verif.Cases.CostPython
import Verif.Props.MissingTimes
import Verif.Cases.MissingTimes
import Verif.Props.OrderNoticed
import Verif.Cases.OrderNoticed
import Verif.Props.MostLags
import Verif.Cases.MostLags
import Verif.Props.Middle
import Verif.Cases.Middle
import Verif.Props.SameLags
import Verif.Cases.SameLags
import Verif.Props.EvenLags
import Verif.Cases.EvenLags
