import Verif.Conform.Bars
import Verif.Conform.Basic
import Verif.Conform.Features
import Verif.Conform.Label
import Verif.Conform.Objects
import Verif.Lemmas.Bars
import Verif.Lemmas.Cusum
import Verif.Lemmas.Directional
import Verif.Lemmas.Float64
import Verif.Lemmas.Footprint
import Verif.Lemmas.Indexers
import Verif.Lemmas.Indicators
import Verif.Lemmas.Median
import Verif.Lemmas.RangeSum
import Verif.Lemmas.Search
import Verif.Lemmas.Store
import Verif.Model.Archive
import Verif.Model.Backends
import Verif.Model.BarKit
import Verif.Model.Bars
import Verif.Model.Checked
import Verif.Model.CheckedFeatures
import Verif.Model.CheckedLabel
import Verif.Model.CheckedPrep
import Verif.Model.ColumnTypes
import Verif.Model.Config
import Verif.Model.CusumFilter
import Verif.Model.CusumFilterNan
import Verif.Model.CusumTest
import Verif.Model.DayFeatures
import Verif.Model.Entropy
import Verif.Model.External
import Verif.Model.FeatureAlgebra
import Verif.Model.FeatureKit
import Verif.Model.FixedWidth
import Verif.Model.Float64
import Verif.Model.Float64Balance
import Verif.Model.Float64Bars
import Verif.Model.Float64Bollinger
import Verif.Model.Float64Break
import Verif.Model.Float64Buckets
import Verif.Model.Float64Candle
import Verif.Model.Float64Correlation
import Verif.Model.Float64Cusum
import Verif.Model.Float64Directional
import Verif.Model.Float64Dispersion
import Verif.Model.Float64Ewm
import Verif.Model.Float64Features
import Verif.Model.Float64Footprint
import Verif.Model.Float64FootprintStats
import Verif.Model.Float64Label
import Verif.Model.Float64Mean0
import Verif.Model.Float64Profile
import Verif.Model.Float64Range
import Verif.Model.Float64Returns
import Verif.Model.Float64TickSize
import Verif.Model.Float64TradeSize
import Verif.Model.Float64Trades
import Verif.Model.Float64Vwap
import Verif.Model.Float64Weights
import Verif.Model.Footprint
import Verif.Model.FootprintCast
import Verif.Model.FootprintData
import Verif.Model.Graph
import Verif.Model.Ieee
import Verif.Model.IndexUnit
import Verif.Model.Indexers
import Verif.Model.Indicators
import Verif.Model.Inspector
import Verif.Model.Label
import Verif.Model.Logging
import Verif.Model.Months
import Verif.Model.NanIndicators
import Verif.Model.Orchestrate
import Verif.Model.PandasFeatures
import Verif.Model.Parallel
import Verif.Model.QuickStart
import Verif.Model.Routing
import Verif.Model.RunFeatures
import Verif.Model.Store
import Verif.Model.StoreFile
import Verif.Model.TbmObject
import Verif.Model.TickSize
import Verif.Model.TickSizeOld
import Verif.Model.TimeBarStore
import Verif.Model.TimestampWidth
import Verif.Model.TradeSize
import Verif.Model.Trades
import Verif.Model.TradesInit
import Verif.Model.TrainingSet
import Verif.Model.TransformNames
import Verif.Model.TutorialSet
import Verif.Model.VolTarget
import Verif.Model.VolumePro
import Verif.Model.VolumeProfile
import Verif.Prelude
import Verif.Props.Append
import Verif.Props.Archive
import Verif.Props.Backends
import Verif.Props.Balance64
import Verif.Props.BarKit
import Verif.Props.BarrierOrder
import Verif.Props.Bollinger64
import Verif.Props.Break64
import Verif.Props.BreakCritical64
import Verif.Props.Buckets
import Verif.Props.Buckets32
import Verif.Props.Candle64
import Verif.Props.Causal
import Verif.Props.Checked
import Verif.Props.CheckedBars
import Verif.Props.CheckedBreak
import Verif.Props.CheckedEvents
import Verif.Props.CheckedFeatures
import Verif.Props.CheckedIndexers
import Verif.Props.CheckedLabel
import Verif.Props.CheckedPrep
import Verif.Props.CheckedProfile
import Verif.Props.CheckedTrend
import Verif.Props.CheckedWindows
import Verif.Props.ColumnTypes
import Verif.Props.CombinedSeries
import Verif.Props.Compounding
import Verif.Props.Config
import Verif.Props.Correlation
import Verif.Props.Correlation64
import Verif.Props.Cusum64
import Verif.Props.CusumBars
import Verif.Props.CusumFilterNan
import Verif.Props.CusumShared
import Verif.Props.CusumTest
import Verif.Props.DateBounds
import Verif.Props.DayFeatures
import Verif.Props.Directional
import Verif.Props.Directional64
import Verif.Props.Dispersion64
import Verif.Props.Entropy
import Verif.Props.EventOrder
import Verif.Props.Ewm64
import Verif.Props.Ewma
import Verif.Props.Ewmst64
import Verif.Props.External
import Verif.Props.FeatureAlgebra
import Verif.Props.FeatureGraph
import Verif.Props.FeatureKit
import Verif.Props.FeatureNames
import Verif.Props.Features64
import Verif.Props.FixedWidth
import Verif.Props.FlatPrices
import Verif.Props.Footprint
import Verif.Props.Footprint64
import Verif.Props.FootprintCast
import Verif.Props.FootprintData
import Verif.Props.FootprintStats32
import Verif.Props.Graph
import Verif.Props.Ieee
import Verif.Props.IndexUnit
import Verif.Props.Inspector
import Verif.Props.JoinedBars
import Verif.Props.KitCausal
import Verif.Props.LaggedReturns
import Verif.Props.LaggedReturns64
import Verif.Props.LargerMoves
import Verif.Props.LatestUp
import Verif.Props.LogReal64
import Verif.Props.Logging
import Verif.Props.Mean064
import Verif.Props.Memory
import Verif.Props.MemoryTime
import Verif.Props.Merge
import Verif.Props.MergeBars
import Verif.Props.MergeFootprints
import Verif.Props.MirroredProfile
import Verif.Props.Months
import Verif.Props.NanIndicators
import Verif.Props.Ohlcv
import Verif.Props.Ohlcv64
import Verif.Props.Orchestrate
import Verif.Props.Oscillators
import Verif.Props.Oscillators64
import Verif.Props.PandasRolling
import Verif.Props.PandasShift
import Verif.Props.Parallel
import Verif.Props.Parkinson64
import Verif.Props.Pipeline
import Verif.Props.Profile32
import Verif.Props.QuickStart
import Verif.Props.RaisedPrices
import Verif.Props.Range64
import Verif.Props.Reals
import Verif.Props.Regression
import Verif.Props.Resample
import Verif.Props.ResampleTrades
import Verif.Props.Resave
import Verif.Props.Restart
import Verif.Props.Returns64
import Verif.Props.Rolling
import Verif.Props.Routing
import Verif.Props.RunFeatures
import Verif.Props.RunningSums64
import Verif.Props.Search64
import Verif.Props.SecondBars
import Verif.Props.Selections
import Verif.Props.SettledLabels
import Verif.Props.SortTrades
import Verif.Props.Spread64
import Verif.Props.SpreadMean
import Verif.Props.Store
import Verif.Props.StoreFile
import Verif.Props.Symmetry
import Verif.Props.SymmetryIndicators
import Verif.Props.TbmLabel
import Verif.Props.TbmObject
import Verif.Props.ThresholdBars
import Verif.Props.ThresholdBars64
import Verif.Props.ThresholdOrder
import Verif.Props.TickSize
import Verif.Props.TickSize64
import Verif.Props.TickSizeExact
import Verif.Props.TickSizeOld
import Verif.Props.TieOrder
import Verif.Props.TimeBarStore
import Verif.Props.TimeBars
import Verif.Props.TimeBars64
import Verif.Props.TimeCues
import Verif.Props.TimestampWidth
import Verif.Props.Timestamps
import Verif.Props.TradeSide
import Verif.Props.TradeSize
import Verif.Props.TradeSize64
import Verif.Props.Trades64
import Verif.Props.TradesInit
import Verif.Props.TrainingSet
import Verif.Props.TransformNames
import Verif.Props.TrendReal
import Verif.Props.TripleBarrier
import Verif.Props.TripleBarrier64
import Verif.Props.TripleBarrierReal
import Verif.Props.TutorialSet
import Verif.Props.Units
import Verif.Props.UnitsBars
import Verif.Props.ValueArea
import Verif.Props.Variance
import Verif.Props.VolTarget
import Verif.Props.Volatility
import Verif.Props.VolumePro
import Verif.Props.VolumeWindows
import Verif.Props.Weights
import Verif.Props.Weights64
import Verif.Props.WeightsAppend
import Verif.Props.ZScore64
import Verif.Spec.Bars
import Verif.Spec.Basic
import Verif.Spec.Cusum
import Verif.Spec.Directional
import Verif.Spec.Footprint
import Verif.Spec.Label
