import Verif.Core.Binary64
import Verif.Core.Eval
import Verif.Core.Exact
import Verif.Core.FloatInst
import Verif.Core.Laws
import Verif.Core.LoopBatch
import Verif.Core.Loops
import Verif.Core.Num
import Verif.Core.RatInst
import Verif.Core.RealInst
import Verif.Core.Rounding
import Verif.Core.Rows
import Verif.Core.Stream
import Verif.Core.StreamLemmas
import Verif.Core.UB
import Verif.Model.Adaptive
import Verif.Model.Alloc
import Verif.Model.Average
import Verif.Model.CSharp
import Verif.Model.Chan
import Verif.Model.Codegen
import Verif.Model.Counter
import Verif.Model.Cycle
import Verif.Model.Direction
import Verif.Model.Ema
import Verif.Model.Extremum
import Verif.Model.Filters
import Verif.Model.Flow
import Verif.Model.Fractal
import Verif.Model.Fuzzer
import Verif.Model.Hampel
import Verif.Model.InPlace
import Verif.Model.InPlaceBars
import Verif.Model.InPlaceMore
import Verif.Model.InPlaceWindows
import Verif.Model.LocalBuf
import Verif.Model.Osc
import Verif.Model.PyArgs
import Verif.Model.Python
import Verif.Model.Range
import Verif.Model.Rank
import Verif.Model.Refs
import Verif.Model.Regress
import Verif.Model.Ring
import Verif.Model.Scratch
import Verif.Model.Simple
import Verif.Model.Smooth
import Verif.Model.Stats
import Verif.Model.StreamSources
import Verif.Model.Sum
import Verif.Model.Table
import Verif.Model.Testing
import Verif.Model.TiBuf
import Verif.Model.Trail
import Verif.Model.Trend
import Verif.Model.Volume
import Verif.Model.Weighted
import Verif.Model.Window
import Verif.Model.World
import Verif.Proof.Accuracy
import Verif.Proof.Adaptive
import Verif.Proof.Alloc
import Verif.Proof.Average
import Verif.Proof.Binary64
import Verif.Proof.BinaryExact
import Verif.Proof.Chan
import Verif.Proof.Codegen
import Verif.Proof.Contract
import Verif.Proof.Converge
import Verif.Proof.Cutoff
import Verif.Proof.CutoffTables
import Verif.Proof.Cycle
import Verif.Proof.Decay
import Verif.Proof.Direction
import Verif.Proof.Doubles
import Verif.Proof.DoublesStream
import Verif.Proof.Ema
import Verif.Proof.EmaField
import Verif.Proof.Extremum
import Verif.Proof.ExtremumField
import Verif.Proof.Fading
import Verif.Proof.FadingFilters
import Verif.Proof.Filters
import Verif.Proof.FiltersField
import Verif.Proof.Flow
import Verif.Proof.Fractal
import Verif.Proof.Frama
import Verif.Proof.Gain
import Verif.Proof.GainTables
import Verif.Proof.Hampel
import Verif.Proof.InPlace
import Verif.Proof.LocalBuf
import Verif.Proof.Loop
import Verif.Proof.Memory
import Verif.Proof.Mirror
import Verif.Proof.Missing
import Verif.Proof.Osc
import Verif.Proof.Raise
import Verif.Proof.Rank
import Verif.Proof.Regress
import Verif.Proof.Related
import Verif.Proof.Report
import Verif.Proof.Ring
import Verif.Proof.RingMax
import Verif.Proof.Simple
import Verif.Proof.Smooth
import Verif.Proof.SmoothField
import Verif.Proof.Stats
import Verif.Proof.StochRsi
import Verif.Proof.StreamErr
import Verif.Proof.Sum
import Verif.Proof.Table
import Verif.Proof.TiBuf
import Verif.Proof.Trail
import Verif.Proof.Traj
import Verif.Proof.Trend
import Verif.Proof.Units
import Verif.Proof.UnitsBars
import Verif.Proof.Volume
import Verif.Proof.Weighted
import Verif.Proof.WeightedField
import Verif.Proof.Window
import Verif.Proof.WindowField
import Verif.Props.Account
import Verif.Props.Accuracy
import Verif.Props.AccuracyMore
import Verif.Props.Adaptive
import Verif.Props.Alternate
import Verif.Props.Average
import Verif.Props.Bars
import Verif.Props.Buffers
import Verif.Props.CSharp
import Verif.Props.Chan
import Verif.Props.Codegen
import Verif.Props.Converge
import Verif.Props.ConvergeMore
import Verif.Props.ConvergeReal
import Verif.Props.Counter
import Verif.Props.Cutoff
import Verif.Props.Cycle
import Verif.Props.Direction
import Verif.Props.Doubles
import Verif.Props.DoublesAny
import Verif.Props.DoublesMore
import Verif.Props.DoublesRange
import Verif.Props.DoublesSame
import Verif.Props.DoublesStream
import Verif.Props.Elementwise
import Verif.Props.Ema
import Verif.Props.Extremum
import Verif.Props.Fading
import Verif.Props.FadingFilters
import Verif.Props.Filters
import Verif.Props.Flow
import Verif.Props.Fractal
import Verif.Props.Fractions
import Verif.Props.Fuzzer
import Verif.Props.Gain
import Verif.Props.Hampel
import Verif.Props.InPlace
import Verif.Props.InPlaceBars
import Verif.Props.InPlaceBatch
import Verif.Props.InPlaceMore
import Verif.Props.InPlaceWindows
import Verif.Props.Lag
import Verif.Props.LagMore
import Verif.Props.LagRmta
import Verif.Props.LocalBuf
import Verif.Props.Memory
import Verif.Props.Mirror
import Verif.Props.MirrorFits
import Verif.Props.MirrorLimits
import Verif.Props.Missing
import Verif.Props.MissingMore
import Verif.Props.Options
import Verif.Props.Osc
import Verif.Props.Progress
import Verif.Props.PyArgs
import Verif.Props.Python
import Verif.Props.Raise
import Verif.Props.Rank
import Verif.Props.Refs
import Verif.Props.Regress
import Verif.Props.Related
import Verif.Props.RelatedMore
import Verif.Props.Release
import Verif.Props.Repeat
import Verif.Props.RepeatMore
import Verif.Props.Report
import Verif.Props.Rounding
import Verif.Props.Scratch
import Verif.Props.Smooth
import Verif.Props.Stats
import Verif.Props.StreamSources
import Verif.Props.Sum
import Verif.Props.Table
import Verif.Props.Testing
import Verif.Props.Trail
import Verif.Props.Trend
import Verif.Props.Units
import Verif.Props.UnitsBars
import Verif.Props.UnitsFits
import Verif.Props.UnitsLimits
import Verif.Props.Volume
import Verif.Props.Weighted
import Verif.Props.Window
import Verif.Props.World
import Verif.Props.Writes
import Verif.Spec.Accuracy
import Verif.Spec.Adaptive
import Verif.Spec.Alloc
import Verif.Spec.Alternate
import Verif.Spec.Average
import Verif.Spec.Binary64
import Verif.Spec.Buffer
import Verif.Spec.Chan
import Verif.Spec.Contract
import Verif.Spec.Converge
import Verif.Spec.Cutoff
import Verif.Spec.Cycle
import Verif.Spec.Direction
import Verif.Spec.DoubleData
import Verif.Spec.Ema
import Verif.Spec.Extremum
import Verif.Spec.Filters
import Verif.Spec.Flow
import Verif.Spec.Fractal
import Verif.Spec.Gain
import Verif.Spec.Hampel
import Verif.Spec.Lag
import Verif.Spec.LocalBuf
import Verif.Spec.Memory
import Verif.Spec.Mirror
import Verif.Spec.Missing
import Verif.Spec.Options
import Verif.Spec.Osc
import Verif.Spec.Progress
import Verif.Spec.PyArgs
import Verif.Spec.Raise
import Verif.Spec.Range
import Verif.Spec.Rank
import Verif.Spec.Regress
import Verif.Spec.Repeat
import Verif.Spec.Report
import Verif.Spec.Scratch
import Verif.Spec.Smooth
import Verif.Spec.Stats
import Verif.Spec.Trail
import Verif.Spec.Trend
import Verif.Spec.Units
import Verif.Spec.Volume
import Verif.Spec.Weighted
import Verif.Spec.Window
import Verif.Spec.Witness
import Verif.Spec.World
