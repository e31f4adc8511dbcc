import Verif.Lemmas.Binary32
import Verif.Lemmas.CascadeFloat
import Verif.Lemmas.ClassSelect
import Verif.Lemmas.Confusion
import Verif.Lemmas.CountFloat
import Verif.Lemmas.CutArrays
import Verif.Lemmas.CutScores
import Verif.Lemmas.Dataset
import Verif.Lemmas.Dataset2
import Verif.Lemmas.Dataset3
import Verif.Lemmas.DecimalText
import Verif.Lemmas.Digits
import Verif.Lemmas.DotCounts
import Verif.Lemmas.DotText
import Verif.Lemmas.DotTree
import Verif.Lemmas.DumpLines
import Verif.Lemmas.DumpText
import Verif.Lemmas.Effectiveness
import Verif.Lemmas.Ensemble
import Verif.Lemmas.Etree
import Verif.Lemmas.EtreeBad
import Verif.Lemmas.Eval
import Verif.Lemmas.ExactNumbers
import Verif.Lemmas.Feature
import Verif.Lemmas.FeatureAgree
import Verif.Lemmas.FeatureForest
import Verif.Lemmas.FeatureGeneric
import Verif.Lemmas.FeatureSpec
import Verif.Lemmas.FeatureTree
import Verif.Lemmas.Fetcher
import Verif.Lemmas.FetcherLive
import Verif.Lemmas.Fill
import Verif.Lemmas.Gain
import Verif.Lemmas.Graphviz
import Verif.Lemmas.Heap
import Verif.Lemmas.HeapGood
import Verif.Lemmas.Histogram
import Verif.Lemmas.JforestsText
import Verif.Lemmas.Kfold
import Verif.Lemmas.KfoldScoring
import Verif.Lemmas.LightgbmText
import Verif.Lemmas.LoadArrays
import Verif.Lemmas.LoadCoreml
import Verif.Lemmas.LoadDump
import Verif.Lemmas.Loader
import Verif.Lemmas.MetricThreads
import Verif.Lemmas.Metrics
import Verif.Lemmas.Ndcg
import Verif.Lemmas.NdcgFloat
import Verif.Lemmas.NdcgThreads
import Verif.Lemmas.Order
import Verif.Lemmas.Pairwise
import Verif.Lemmas.Parallel
import Verif.Lemmas.ParentFirst
import Verif.Lemmas.QuickRank
import Verif.Lemmas.QuickRankNums
import Verif.Lemmas.QuickRankText
import Verif.Lemmas.RandomizationFloat
import Verif.Lemmas.RankCorr
import Verif.Lemmas.RankCorrFin
import Verif.Lemmas.Ranking
import Verif.Lemmas.Regex
import Verif.Lemmas.ReprExact
import Verif.Lemmas.ReprText
import Verif.Lemmas.Rounding
import Verif.Lemmas.ScoreThreads
import Verif.Lemmas.SingleOrder
import Verif.Lemmas.SingleRounded
import Verif.Lemmas.SquaresFloat
import Verif.Lemmas.Statistical
import Verif.Lemmas.Svmlight
import Verif.Lemmas.SvmlightDump
import Verif.Lemmas.SvmlightText
import Verif.Lemmas.Swap
import Verif.Lemmas.Tables
import Verif.Lemmas.Topology
import Verif.Lemmas.TopologyBits
import Verif.Lemmas.TopologyCount
import Verif.Lemmas.TopologyResult
import Verif.Lemmas.TreeStats
import Verif.Model.Analyses
import Verif.Model.BiasMetric
import Verif.Model.CascadeFloat
import Verif.Model.Catalogue
import Verif.Model.Classes
import Verif.Model.CountFloat
import Verif.Model.Dataset
import Verif.Model.DecimalText
import Verif.Model.DotFile
import Verif.Model.DotText
import Verif.Model.DumpText
import Verif.Model.Effectiveness
import Verif.Model.Ensemble
import Verif.Model.Eval
import Verif.Model.ExportNumbers
import Verif.Model.Feature
import Verif.Model.FeatureGeneric
import Verif.Model.Fetcher
import Verif.Model.Graphviz
import Verif.Model.Heap
import Verif.Model.JforestsText
import Verif.Model.LightgbmText
import Verif.Model.LoadArrays
import Verif.Model.LoadCoreml
import Verif.Model.LoadDump
import Verif.Model.Loader
import Verif.Model.MeanFloat
import Verif.Model.Memory
import Verif.Model.MetricName
import Verif.Model.MetricThreads
import Verif.Model.Metrics
import Verif.Model.NanScores
import Verif.Model.Ndcg
import Verif.Model.NdcgFloat
import Verif.Model.NdcgThreads
import Verif.Model.OpenModel
import Verif.Model.Parallel
import Verif.Model.Parts
import Verif.Model.PlotLabels
import Verif.Model.Plots
import Verif.Model.PruneAny
import Verif.Model.QuickRank
import Verif.Model.QuickRankText
import Verif.Model.Random
import Verif.Model.RandomizationFloat
import Verif.Model.RankCorr
import Verif.Model.Recursion
import Verif.Model.ReprText
import Verif.Model.ScoreCache
import Verif.Model.ScoreThreads
import Verif.Model.Scorer
import Verif.Model.Session
import Verif.Model.SingleOrder
import Verif.Model.SkFile
import Verif.Model.SquaresFloat
import Verif.Model.Statistical
import Verif.Model.Svmlight
import Verif.Model.SvmlightFiles
import Verif.Model.SvmlightNative
import Verif.Model.SvmlightStreams
import Verif.Model.Tables
import Verif.Model.Topology
import Verif.Model.TopologyFloat
import Verif.Model.TopologyResult
import Verif.Props.Analyses
import Verif.Props.BiasMetric
import Verif.Props.CascadeFloat
import Verif.Props.Catalogue
import Verif.Props.Classes
import Verif.Props.Confusion
import Verif.Props.CountFloat
import Verif.Props.CutArrays
import Verif.Props.Dataset
import Verif.Props.DatasetEdges
import Verif.Props.DecimalText
import Verif.Props.Decisions
import Verif.Props.Digits
import Verif.Props.Distribution
import Verif.Props.DotFile
import Verif.Props.DotText
import Verif.Props.DumpLines
import Verif.Props.DumpText
import Verif.Props.Effect
import Verif.Props.EffectAll
import Verif.Props.EndToEnd
import Verif.Props.Eval
import Verif.Props.ExportNumbers
import Verif.Props.Feature
import Verif.Props.FeatureCount
import Verif.Props.FeatureGeneric
import Verif.Props.Fetcher
import Verif.Props.FetcherLive
import Verif.Props.FileNdcg
import Verif.Props.FileScores
import Verif.Props.Graphviz
import Verif.Props.Heap
import Verif.Props.JforestsText
import Verif.Props.LightgbmText
import Verif.Props.LoadArrays
import Verif.Props.LoadCoreml
import Verif.Props.LoadDump
import Verif.Props.LoadedTopology
import Verif.Props.MeanRounding
import Verif.Props.Memory
import Verif.Props.MetricName
import Verif.Props.MetricThreads
import Verif.Props.MetricsCount
import Verif.Props.MetricsGain
import Verif.Props.MetricsOrder
import Verif.Props.MetricsOrderMore
import Verif.Props.NanCurves
import Verif.Props.NanScores
import Verif.Props.Ndcg
import Verif.Props.NdcgFloat
import Verif.Props.NdcgThreads
import Verif.Props.OpenModel
import Verif.Props.Parallel
import Verif.Props.Parts
import Verif.Props.PlotEffectiveness
import Verif.Props.PlotFeature
import Verif.Props.PlotLabels
import Verif.Props.PlotShape
import Verif.Props.PruneAny
import Verif.Props.QuickRank
import Verif.Props.QuickRankText
import Verif.Props.Random
import Verif.Props.RandomizationFloat
import Verif.Props.RankCorr
import Verif.Props.Recursion
import Verif.Props.ReprText
import Verif.Props.Rounding
import Verif.Props.RowOrder
import Verif.Props.ScoreCache
import Verif.Props.ScoreThreads
import Verif.Props.Scorer
import Verif.Props.Scoring
import Verif.Props.Session
import Verif.Props.SkFile
import Verif.Props.SquaresFloat
import Verif.Props.Statistical
import Verif.Props.Svmlight
import Verif.Props.SvmlightFiles
import Verif.Props.SvmlightNative
import Verif.Props.SvmlightOrder
import Verif.Props.SvmlightStreams
import Verif.Props.Tables
import Verif.Props.TextScores
import Verif.Props.Topology
import Verif.Props.TopologyFloat
import Verif.Props.TopologyResult
import Verif.Props.TreeWise
import Verif.Props.XgbMissing
import Verif.Py.Basic
import Verif.Py.Binary32
import Verif.Py.Etree
import Verif.Py.Float32
import Verif.Py.Regex
import Verif.Spec.Analyses
import Verif.Spec.Arrays
import Verif.Spec.BareAmp
import Verif.Spec.CascadeFloat
import Verif.Spec.Coreml
import Verif.Spec.CountFloat
import Verif.Spec.CutArrays
import Verif.Spec.Dataset
import Verif.Spec.DecimalText
import Verif.Spec.Digits
import Verif.Spec.DotFile
import Verif.Spec.DotText
import Verif.Spec.Dump
import Verif.Spec.DumpLines
import Verif.Spec.DumpText
import Verif.Spec.Effect
import Verif.Spec.EffectAll
import Verif.Spec.Effectiveness
import Verif.Spec.Ensemble
import Verif.Spec.Etree
import Verif.Spec.ExactFiles
import Verif.Spec.ExactNumbers
import Verif.Spec.ExportNumbers
import Verif.Spec.Feature
import Verif.Spec.FeatureGeneric
import Verif.Spec.Fetcher
import Verif.Spec.FileScores
import Verif.Spec.Graphviz
import Verif.Spec.Heap
import Verif.Spec.JforestsText
import Verif.Spec.LightgbmText
import Verif.Spec.MeanRounding
import Verif.Spec.Metrics
import Verif.Spec.NdcgFloat
import Verif.Spec.ParentFirst
import Verif.Spec.Parts
import Verif.Spec.PlotLabels
import Verif.Spec.QuickRank
import Verif.Spec.QuickRankText
import Verif.Spec.RankCorr
import Verif.Spec.Regex
import Verif.Spec.Rounding
import Verif.Spec.Session
import Verif.Spec.SkFile
import Verif.Spec.Statistical
import Verif.Spec.Svmlight
import Verif.Spec.SvmlightOrder
import Verif.Spec.SvmlightStreams
import Verif.Spec.Topology
import Verif.Spec.TopologyResult
import Verif.Spec.Tree
import Verif.Spec.XgbMissing
