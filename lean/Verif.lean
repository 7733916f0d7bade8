import Verif.Py
import Verif.Lemmas.Py
import Verif.Model.Names
import Verif.Lemmas.Names
import Verif.Lemmas.NamesPartial
import Verif.Props.Names
import Verif.Model.Obj
import Verif.Lemmas.Obj
import Verif.Lemmas.Structural
import Verif.Lemmas.Targets
import Verif.Props.Structural
import Verif.Model.NameChecks
import Verif.Model.Insert
import Verif.Lemmas.Permute
import Verif.Props.Permute
import Verif.Lemmas.Sort
import Verif.Props.Sort
import Verif.Lemmas.NameChecks
import Verif.Model.Binary
import Verif.Props.Binary
import Verif.Lemmas.Insert
import Verif.Props.Insert
import Verif.Props.History
import Verif.Model.Folds
import Verif.Lemmas.Group
import Verif.Props.Folds
import Verif.Model.Tuning
import Verif.Props.Tuning
import Verif.Props.Consecutive
import Verif.Model.TuneRange
import Verif.Props.TuneRange
import Verif.Model.Config
import Verif.Lemmas.Config
import Verif.Props.Config
import Verif.Model.Random
import Verif.Props.Random
import Verif.Props.ConsecutiveLoops
import Verif.Model.Fill
import Verif.Props.Fill
import Verif.Props.Transform
import Verif.Model.Calculate
import Verif.Props.Calculate
import Verif.Model.Query
import Verif.Props.Query
import Verif.Model.Create
import Verif.Model.Group
import Verif.Model.RepeatUnique
import Verif.Props.Create
import Verif.Props.Group
import Verif.Props.RepeatUnique
import Verif.Model.Encode
import Verif.Props.Encode
import Verif.Model.TrainTest
import Verif.Lemmas.Window
import Verif.Props.TrainTest
import Verif.Props.GetItem
import Verif.Props.SetItem
import Verif.Props.View
import Verif.Props.Identical
import Verif.Props.Flatten
import Verif.Props.Display
import Verif.Props.SparseDup
import Verif.Props.MatMul
import Verif.Props.Collapse
import Verif.Props.CollapseSplit
import Verif.Props.SparseCore
import Verif.Props.SparseOps
import Verif.Props.Sparse
import Verif.Props.SparseMore
import Verif.Props.SparseReplace
import Verif.Props.SparseViews
import Verif.Props.Replace
import Verif.Props.HeapHistory
import Verif.Props.Merge
import Verif.Props.MergeJoin
import Verif.Props.MergeCases
import Verif.Props.MergeStrict
import Verif.Props.Metrics
import Verif.Props.MetricsBinary
import Verif.Props.MetricsReal
import Verif.Props.Normalize
import Verif.Props.NormalizePercentile
import Verif.Props.CsvText
import Verif.Props.CsvColumn
import Verif.Props.CsvLoad
import Verif.Props.CsvNames
import Verif.Props.CsvWitness
import Verif.Props.MultiClass
import Verif.Props.MultiClassVote
import Verif.Props.Statistic
import Verif.Props.StatisticMode
import Verif.Props.Convert
import Verif.Props.Stretch
import Verif.Props.Atomic
import Verif.Props.Knn
import Verif.Props.Ridge
import Verif.Props.LogSessions
import Verif.Props.LogShow
import Verif.Props.EntryPoint
import Verif.Model.Match
import Verif.Props.Match
import Verif.Model.LearnFill
import Verif.Props.LearnFill
import Verif.Model.Learner
import Verif.Model.Holdout
import Verif.Model.Iterative
import Verif.Props.Learner
import Verif.Props.Holdout
import Verif.Props.Iterative
import Verif.Props.IterativeHold
import Verif.Model.TuneResults
import Verif.Props.TuneResults
import Verif.Model.ApplyScores
import Verif.Props.ApplyScores
import Verif.Model.ValidatorData
import Verif.Props.ValidatorData
import Verif.Model.TrainRun
import Verif.Props.TrainRun
import Verif.Model.CustomSig
import Verif.Props.CustomSig
import Verif.Model.DetectBest
import Verif.Props.DetectBest
import Verif.Model.AxisReplace
import Verif.Props.AxisReplace
import Verif.Model.Keep
import Verif.Props.Keep
import Verif.Model.CsvKeep
import Verif.Props.CsvKeep
import Verif.Model.Elements
import Verif.Props.Elements
import Verif.Model.CalcElements
import Verif.Props.CalcElements
import Verif.Model.Iterate
import Verif.Props.Iterate
import Verif.Props.HighDim
import Verif.Props.ScalarOps
import Verif.Model.Sources
import Verif.Props.Sources
import Verif.Model.ConvertType
import Verif.Props.ConvertType
import Verif.Model.Parsing
import Verif.Props.Parsing
import Verif.Model.NormalizeFeatures
import Verif.Props.NormalizeFeatures
import Verif.Model.MergeReps
import Verif.Props.MergeMatrix
import Verif.Lemmas.MergeSparse
import Verif.Props.MergeSparse
import Verif.Model.MergeDf
import Verif.Lemmas.MergeDf
import Verif.Props.MergeDf
import Verif.Model.SparseArith
import Verif.Lemmas.SparseArith
import Verif.Props.SparseArith
import Verif.Model.CollapseSparse
import Verif.Lemmas.CollapseSparse
import Verif.Props.CollapseSparse
import Verif.Model.SparseCsv
import Verif.Props.SparseCsv
import Verif.Model.Mtx
import Verif.Props.Mtx
import Verif.Model.ExtractSparse
import Verif.Props.ExtractSparse
import Verif.Model.TransformTypes
import Verif.Props.TransformTypes
import Verif.Model.EncodeSparse
import Verif.Props.EncodeSparse
import Verif.Model.FeatureReport
import Verif.Props.FeatureReport
import Verif.Model.HashCode
import Verif.Props.HashCode
import Verif.Model.LogArgs
import Verif.Props.LogArgs
import Verif.Model.Confidence
import Verif.Props.Confidence
import Verif.Model.AxisStats
import Verif.Props.AxisStats
import Verif.Props.Similarities
import Verif.Props.Report
import Verif.Props.Solve
import Verif.Props.LearnerLookup
import Verif.Props.TableString
import Verif.Props.Residuals
