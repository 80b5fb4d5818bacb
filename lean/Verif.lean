import Verif.Base
import Verif.Lemmas.Accuracy
import Verif.Lemmas.Alike
import Verif.Lemmas.Bagged
import Verif.Lemmas.Binary32
import Verif.Lemmas.BucketBuild
import Verif.Lemmas.BucketColumn
import Verif.Lemmas.BucketCrash
import Verif.Lemmas.BucketRows
import Verif.Lemmas.BucketShare
import Verif.Lemmas.Buckets
import Verif.Lemmas.CatOptimal
import Verif.Lemmas.DataStore
import Verif.Lemmas.ExactSplit
import Verif.Lemmas.FMap
import Verif.Lemmas.FeatureOrder
import Verif.Lemmas.FitGain
import Verif.Lemmas.FitNodes
import Verif.Lemmas.FitTotal
import Verif.Lemmas.FitTree
import Verif.Lemmas.FlatTrain
import Verif.Lemmas.Flatfile
import Verif.Lemmas.FloatSplit
import Verif.Lemmas.GainSum
import Verif.Lemmas.Group
import Verif.Lemmas.Havoc
import Verif.Lemmas.Histogram
import Verif.Lemmas.Ieee
import Verif.Lemmas.JsonText
import Verif.Lemmas.Main
import Verif.Lemmas.Metrics
import Verif.Lemmas.NamedColumns
import Verif.Lemmas.NumberText
import Verif.Lemmas.PairProgress
import Verif.Lemmas.PairTasks
import Verif.Lemmas.Pairwise
import Verif.Lemmas.Partition
import Verif.Lemmas.Pipeline
import Verif.Lemmas.PowerOfTwo
import Verif.Lemmas.Progress
import Verif.Lemmas.PyStore
import Verif.Lemmas.Scaled
import Verif.Lemmas.Score
import Verif.Lemmas.ScoreText
import Verif.Lemmas.Shift
import Verif.Lemmas.SixDigits
import Verif.Lemmas.SplitPoint
import Verif.Lemmas.SplitSides
import Verif.Lemmas.Stretch
import Verif.Lemmas.StringColumn
import Verif.Lemmas.StringSplit
import Verif.Lemmas.Tasks
import Verif.Lemmas.Text
import Verif.Lemmas.ThreadPool
import Verif.Lemmas.Train
import Verif.Lemmas.Tree
import Verif.Lemmas.Tsv
import Verif.Lemmas.TsvLoad
import Verif.Lemmas.TwiceRounded
import Verif.Lemmas.Twin
import Verif.Lemmas.TwinStore
import Verif.Lemmas.TwinTrain
import Verif.Lemmas.Useless
import Verif.Model.Bagged
import Verif.Model.Benchmark
import Verif.Model.BucketColumn
import Verif.Model.Cli
import Verif.Model.ConfigJson
import Verif.Model.Converter
import Verif.Model.DataStore
import Verif.Model.Describe
import Verif.Model.DrawTrees
import Verif.Model.FlatTrain
import Verif.Model.Flatfile
import Verif.Model.Generators
import Verif.Model.Group
import Verif.Model.Importance
import Verif.Model.Json
import Verif.Model.JsonText
import Verif.Model.Main
import Verif.Model.MetaInfo
import Verif.Model.Metrics
import Verif.Model.NumberText
import Verif.Model.PairProgress
import Verif.Model.PairTasks
import Verif.Model.Pairwise
import Verif.Model.PartialDependency
import Verif.Model.Pipeline
import Verif.Model.PlotDraw
import Verif.Model.Pointwise
import Verif.Model.Progress
import Verif.Model.ProgressTime
import Verif.Model.PyForest
import Verif.Model.PyObjects
import Verif.Model.PyStore
import Verif.Model.Score
import Verif.Model.ScoreText
import Verif.Model.Split
import Verif.Model.Stopwatch
import Verif.Model.StringColumn
import Verif.Model.Subsampling
import Verif.Model.Tasks
import Verif.Model.Text
import Verif.Model.ThreadPool
import Verif.Model.Train
import Verif.Model.TrainPy
import Verif.Model.Tree
import Verif.Model.Tsv
import Verif.Model.Visualizer
import Verif.Num
import Verif.Props.Accuracy
import Verif.Props.Bagged
import Verif.Props.Benchmark
import Verif.Props.Binary32
import Verif.Props.Boost
import Verif.Props.BucketColumn
import Verif.Props.BucketShare
import Verif.Props.CatSplit
import Verif.Props.Chance
import Verif.Props.Checkpoints
import Verif.Props.CliPython
import Verif.Props.Config
import Verif.Props.ConfigDict
import Verif.Props.ConfigJson
import Verif.Props.Converter
import Verif.Props.DataStore
import Verif.Props.Describe
import Verif.Props.Dominates
import Verif.Props.DrawTrees
import Verif.Props.EqualGroup
import Verif.Props.FeatureOrder
import Verif.Props.FeatureOrderTrain
import Verif.Props.FitTree
import Verif.Props.FlatTrain
import Verif.Props.FlatTsv
import Verif.Props.Flatfile
import Verif.Props.FlatfileConcurrent
import Verif.Props.FloatConstant
import Verif.Props.Generators
import Verif.Props.Group
import Verif.Props.GroupScores
import Verif.Props.HingeError
import Verif.Props.Importance
import Verif.Props.Json
import Verif.Props.JsonDeep
import Verif.Props.JsonRead
import Verif.Props.JsonText
import Verif.Props.Limits
import Verif.Props.LogError
import Verif.Props.LogWarm
import Verif.Props.LossMath
import Verif.Props.LossNames
import Verif.Props.Main
import Verif.Props.MetaInfo
import Verif.Props.Metrics
import Verif.Props.MoreLeaves
import Verif.Props.NamedColumns
import Verif.Props.NumberText
import Verif.Props.OtherStore
import Verif.Props.PairCounts
import Verif.Props.PairDescent
import Verif.Props.PairFall
import Verif.Props.PairProgress
import Verif.Props.PairRise
import Verif.Props.PairSchedule
import Verif.Props.Pairwise
import Verif.Props.PairwiseDefined
import Verif.Props.PartialDependency
import Verif.Props.Partition
import Verif.Props.Pipeline
import Verif.Props.PipelineCli
import Verif.Props.PlotDraw
import Verif.Props.Pointwise
import Verif.Props.PowerOfTwo
import Verif.Props.Progress
import Verif.Props.ProgressTime
import Verif.Props.PyBuckets
import Verif.Props.PyDataFrame
import Verif.Props.PyEmpty
import Verif.Props.PyForest
import Verif.Props.PyIndex
import Verif.Props.PyObjects
import Verif.Props.PyStore
import Verif.Props.Range
import Verif.Props.RankScale
import Verif.Props.Ranking
import Verif.Props.Rescale
import Verif.Props.RowOrder
import Verif.Props.SameTarget
import Verif.Props.Scaling
import Verif.Props.Schedule
import Verif.Props.Score
import Verif.Props.ScoreFiles
import Verif.Props.ScoreMetrics
import Verif.Props.ScoreRmse
import Verif.Props.Shift
import Verif.Props.SplitGain
import Verif.Props.SplitPoint
import Verif.Props.SplitWitness
import Verif.Props.Stopwatch
import Verif.Props.StringColumn
import Verif.Props.Subsampling
import Verif.Props.TargetOrder
import Verif.Props.Text
import Verif.Props.ThreadPool
import Verif.Props.Threads
import Verif.Props.Train
import Verif.Props.TrainError
import Verif.Props.TrainInto
import Verif.Props.TrainLosses
import Verif.Props.TsvBlock
import Verif.Props.TsvLoad
import Verif.Props.TsvPipeline
import Verif.Props.Unseen
import Verif.Props.Useless
import Verif.Props.Visualizer
import Verif.Props.ZeroShrinkage
import Verif.Props.ZeroWeight
import Verif.Props.ZeroWeightDouble
import Verif.Spec.Alike
import Verif.Spec.Binary32
import Verif.Spec.Dot
import Verif.Spec.FlatDisk
import Verif.Spec.Forest
import Verif.Spec.Ieee
import Verif.Spec.JsonText
import Verif.Spec.Limits
import Verif.Spec.Rescale
import Verif.Spec.Schedule
import Verif.Spec.SixDigits
import Verif.Spec.Split
import Verif.Spec.Stretch
import Verif.Spec.Train
import Verif.Spec.Tree
import Verif.Spec.Useless
