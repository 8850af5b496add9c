import Verif.Model.AlertExample
import Verif.Model.Base
import Verif.Model.BucketEnsemblers
import Verif.Model.ByReference
import Verif.Model.Calibration
import Verif.Model.DataFiles
import Verif.Model.DecomposerInterrupt
import Verif.Model.DecomposerLengths
import Verif.Model.Defaults
import Verif.Model.DetectorInterrupt
import Verif.Model.Ensemblers
import Verif.Model.Examples
import Verif.Model.F64
import Verif.Model.FixedInt
import Verif.Model.HalfSpaceTrees
import Verif.Model.HstArrays
import Verif.Model.HstInterrupt
import Verif.Model.Inqmad
import Verif.Model.Integrations
import Verif.Model.Interrupt
import Verif.Model.KitNet
import Verif.Model.KitNetInterrupt
import Verif.Model.KitNetLengths
import Verif.Model.KnnCad
import Verif.Model.LiveStream
import Verif.Model.Loda
import Verif.Model.Loop
import Verif.Model.MetricInterrupt
import Verif.Model.Metrics
import Verif.Model.MissingValues
import Verif.Model.ModifiedStl
import Verif.Model.MoreExamples
import Verif.Model.Nan
import Verif.Model.Num
import Verif.Model.Numpy
import Verif.Model.Pipeline
import Verif.Model.Postprocessors
import Verif.Model.Projection
import Verif.Model.RankMetrics
import Verif.Model.RefWindowInterrupt
import Verif.Model.RelativeEntropy
import Verif.Model.RelativeEntropyF64
import Verif.Model.Rrcf
import Verif.Model.RrcfInterrupt
import Verif.Model.RsHash
import Verif.Model.RsHashInit
import Verif.Model.RsHashInt32
import Verif.Model.RsHashInterrupt
import Verif.Model.Scalers
import Verif.Model.ScalersF64
import Verif.Model.ScipyEntropy
import Verif.Model.SeasonalEsd
import Verif.Model.SeasonalTrend
import Verif.Model.Seed
import Verif.Model.SimpleModels
import Verif.Model.SimpleModelsF64
import Verif.Model.StatHistory
import Verif.Model.Statistics
import Verif.Model.Streamers
import Verif.Model.ThreadScores
import Verif.Model.Threads
import Verif.Model.TransformArray
import Verif.Model.Utils
import Verif.Model.Window
import Verif.Model.WrongLength
import Verif.Model.XStream
import Verif.Model.XStreamInit
import Verif.Model.XStreamInt32
import Verif.Model.XStreamInterrupt
import Verif.Prelude
import Verif.Proofs.Approx
import Verif.Proofs.Base
import Verif.Proofs.Calls
import Verif.Proofs.Division
import Verif.Proofs.Expectation
import Verif.Proofs.Extreme
import Verif.Proofs.FiniteHoeffding
import Verif.Proofs.Grubbs
import Verif.Proofs.Hoeffding
import Verif.Proofs.KitNetCorrelation
import Verif.Proofs.KitNetVectors
import Verif.Proofs.Lists
import Verif.Proofs.Majority
import Verif.Proofs.Meters
import Verif.Proofs.Moments
import Verif.Proofs.Rounding
import Verif.Proofs.RoundingMono
import Verif.Proofs.Running
import Verif.Proofs.Shifts
import Verif.Proofs.Sqrt
import Verif.Proofs.Statistics
import Verif.Props.Alarms
import Verif.Props.AlertExample
import Verif.Props.Argument
import Verif.Props.ArgumentMore
import Verif.Props.AutoProjection
import Verif.Props.Base
import Verif.Props.Baselines
import Verif.Props.BetterRanking
import Verif.Props.BrokenDetector
import Verif.Props.BucketEnsemblers
import Verif.Props.ByReference
import Verif.Props.Calibration
import Verif.Props.CalibrationMore
import Verif.Props.Change
import Verif.Props.ClassRatio
import Verif.Props.Consistency
import Verif.Props.ConstantFeature
import Verif.Props.Continuity
import Verif.Props.DataFiles
import Verif.Props.DecomposerInfluence
import Verif.Props.DecomposerLengths
import Verif.Props.DecomposerRecovery
import Verif.Props.DecomposerWindowOne
import Verif.Props.Decomposition
import Verif.Props.Defaults
import Verif.Props.DetectorRecovery
import Verif.Props.Deviation
import Verif.Props.DeviationFloat
import Verif.Props.Direction
import Verif.Props.DirectionMore
import Verif.Props.EnsembleRating
import Verif.Props.Ensemblers
import Verif.Props.Examples
import Verif.Props.Extreme
import Verif.Props.FalseAlarms
import Verif.Props.Familiarity
import Verif.Props.FeatureOrder
import Verif.Props.FixedInt
import Verif.Props.FixedIntOrder
import Verif.Props.Float
import Verif.Props.FloatAverage
import Verif.Props.FloatOrder
import Verif.Props.FloatVariance
import Verif.Props.Forgetting
import Verif.Props.HalfSpaceTrees
import Verif.Props.HstArrays
import Verif.Props.HstClamped
import Verif.Props.HstFloat
import Verif.Props.HstGrid
import Verif.Props.HstKernel
import Verif.Props.HstRecovery
import Verif.Props.HstReliability
import Verif.Props.Influence
import Verif.Props.Inqmad
import Verif.Props.InqmadKernel
import Verif.Props.Integrations
import Verif.Props.Interrupt
import Verif.Props.Kernels
import Verif.Props.KitNet
import Verif.Props.KitNetCorrelation
import Verif.Props.KitNetDescent
import Verif.Props.KitNetGradient
import Verif.Props.KitNetLengths
import Verif.Props.KitNetRange
import Verif.Props.KitNetRecovery
import Verif.Props.KitNetUtils
import Verif.Props.KnnCad
import Verif.Props.KnnCadAlarms
import Verif.Props.KnnCadExample
import Verif.Props.KnnCadScore
import Verif.Props.Labels
import Verif.Props.LiveStream
import Verif.Props.Loda
import Verif.Props.LodaProjections
import Verif.Props.Loop
import Verif.Props.MeanMedian
import Verif.Props.Memory
import Verif.Props.MemoryMore
import Verif.Props.MetricRecovery
import Verif.Props.Metrics
import Verif.Props.Mirror
import Verif.Props.MirrorSesd
import Verif.Props.MissingValues
import Verif.Props.MixedCalls
import Verif.Props.ModifiedStl
import Verif.Props.MoreExamples
import Verif.Props.MovedValues
import Verif.Props.Nan
import Verif.Props.NewValues
import Verif.Props.NoRecovery
import Verif.Props.Parameters
import Verif.Props.PartlyLabelled
import Verif.Props.Passes
import Verif.Props.Pipeline
import Verif.Props.PostprocessedRating
import Verif.Props.Postprocessors
import Verif.Props.Projection
import Verif.Props.ProjectionAverage
import Verif.Props.RandomBaseline
import Verif.Props.RankMetrics
import Verif.Props.ReadOnly
import Verif.Props.RefWindowRecovery
import Verif.Props.Rejected
import Verif.Props.RejectedMore
import Verif.Props.RelEntFloat
import Verif.Props.RelativeEntropy
import Verif.Props.Reliability
import Verif.Props.Repeating
import Verif.Props.Robust
import Verif.Props.Rrcf
import Verif.Props.RrcfRecovery
import Verif.Props.RsHash
import Verif.Props.RsHashInit
import Verif.Props.RsHashInt32
import Verif.Props.RsHashRecovery
import Verif.Props.SameWindow
import Verif.Props.Sampling
import Verif.Props.Scalers
import Verif.Props.ScoreCeiling
import Verif.Props.SeasonDrift
import Verif.Props.SeasonalEsd
import Verif.Props.SeasonalTrend
import Verif.Props.Seed
import Verif.Props.SesdSpike
import Verif.Props.SesdSpikes
import Verif.Props.SesdUnits
import Verif.Props.Shared
import Verif.Props.SimpleModels
import Verif.Props.SmallWindow
import Verif.Props.Smoothing
import Verif.Props.StatUnits
import Verif.Props.Statistics
import Verif.Props.Steady
import Verif.Props.StreamBeside
import Verif.Props.Streamers
import Verif.Props.StuckWindow
import Verif.Props.ThreadReads
import Verif.Props.ThreadScores
import Verif.Props.Threads
import Verif.Props.TransformArray
import Verif.Props.UnitNormFloat
import Verif.Props.Units
import Verif.Props.UnitsMore
import Verif.Props.Untrained
import Verif.Props.Utils
import Verif.Props.Window
import Verif.Props.WindowChange
import Verif.Props.WindowOrder
import Verif.Props.WindowedFailures
import Verif.Props.WrongLength
import Verif.Props.XStream
import Verif.Props.XStreamInit
import Verif.Props.XStreamInt32
import Verif.Props.XStreamRecovery
import Verif.Spec.Arrays
import Verif.Spec.Basic
import Verif.Spec.Batch
import Verif.Spec.Calls
import Verif.Spec.Correlation
import Verif.Spec.Decomposition
import Verif.Spec.Erfc
import Verif.Spec.Expectation
import Verif.Spec.HalfSpaceTrees
import Verif.Spec.KitNet
import Verif.Spec.KnnCad
import Verif.Spec.Meters
import Verif.Spec.Metrics
import Verif.Spec.Norms
import Verif.Spec.NumOrder
import Verif.Spec.Program
import Verif.Spec.Ranking
import Verif.Spec.Scores
import Verif.Spec.Shared
import Verif.Spec.Shifts
import Verif.Spec.XStream
