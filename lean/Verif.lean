import Verif.Props.Search
import Verif.Props.Partition
import Verif.Props.Resample
import Verif.Props.Distance
import Verif.Props.Unweight
import Verif.Props.Run
import Verif.Props.Reader
import Verif.Props.Records
import Verif.Props.CombinedIO
import Verif.Props.Detect
import Verif.Props.NTuple
import Verif.Props.Malformed
import Verif.Props.CellCollector
import Verif.Props.CombineCells
import Verif.Props.RandomCells
import Verif.Props.Options
import Verif.Props.CApi
import Verif.Props.ProgressBar
import Verif.Props.Cluster
import Verif.Props.SplitUnique
import Verif.Props.Classify
import Verif.Props.ClassifyReread
import Verif.Spec.RecordText
import Verif.Proofs.RecordText
import Verif.Props.ParseHepMC
import Verif.Props.ParseLhef
import Verif.Props.ParseStripper
import Verif.Props.ParseNTuple
import Verif.Spec.Reread
import Verif.Proofs.UpdateShape
import Verif.Proofs.Reread
import Verif.Props.Reread
import Verif.Model.Program
import Verif.Spec.Program
import Verif.Proofs.Program
import Verif.Props.Program
import Verif.Model.Rounding
import Verif.Spec.Rounding
import Verif.Proofs.Rounding
import Verif.Proofs.RoundingCells
import Verif.Proofs.Float64
import Verif.Props.Rounding
import Verif.Model.Paths
import Verif.Model.Main
import Verif.Spec.Paths
import Verif.Proofs.Paths
import Verif.Proofs.Main
import Verif.Props.Main
import Verif.Props.ClassifyPaths
import Verif.Proofs.OneThread
import Verif.Spec.Negative
import Verif.Proofs.Negative
import Verif.Props.Negative
import Verif.Props.DefaultRun
import Verif.Spec.Named
import Verif.Proofs.Named
import Verif.Props.Named
import Verif.Model.F64Format
import Verif.Spec.FloatRun
import Verif.Proofs.FloatRun
import Verif.Proofs.FloatXml
import Verif.Props.FloatRun
import Verif.Proofs.SearchRounded
import Verif.Props.SearchRounded
import Verif.Spec.Written
import Verif.Proofs.Written
import Verif.Props.Written
import Verif.Model.Disk
import Verif.Proofs.Disk
import Verif.Proofs.DiskTrace
import Verif.Proofs.RunTrace
import Verif.Proofs.Again
import Verif.Props.Crash
import Verif.Props.CrashMain
import Verif.Proofs.Truncated
import Verif.Props.Truncated
import Verif.Spec.Layout
import Verif.Proofs.Layout
import Verif.Proofs.Survivors
import Verif.Proofs.Reorder
import Verif.Props.Layout
import Verif.Spec.Scaled
import Verif.Proofs.Scaled
import Verif.Props.Scaled
import Verif.Spec.Moved
import Verif.Proofs.Moved
import Verif.Proofs.MovedRun
import Verif.Props.Moved
import Verif.Spec.Unweighted
import Verif.Proofs.Unweighted
import Verif.Props.Unweighted
import Verif.Model.ParallelSum
import Verif.Proofs.UnweightRounded
import Verif.Spec.UnweightRounded
import Verif.Props.UnweightRounded
import Verif.Spec.InfiniteDistance
import Verif.Proofs.InfiniteDistance
import Verif.Props.InfiniteDistance
import Verif.Proofs.ClassifyHepMC
import Verif.Proofs.ClassifyStripper
import Verif.Spec.ClassifyRun
import Verif.Props.ClassifyRun
import Verif.Model.Compressed
import Verif.Proofs.Compressed
import Verif.Props.Compressed
import Verif.Proofs.Ends
import Verif.Proofs.EndsFiles
import Verif.Props.Ends
import Verif.Spec.Choices
import Verif.Proofs.Choices
import Verif.Props.Choices
import Verif.Proofs.Relabel
import Verif.Props.Determined
import Verif.Model.Together
import Verif.Spec.Together
import Verif.Proofs.Together
import Verif.Proofs.TogetherRun
import Verif.Props.Together
import Verif.Spec.Apart
import Verif.Proofs.Project
import Verif.Proofs.Apart
import Verif.Props.Apart
import Verif.Spec.Select
import Verif.Proofs.Select
import Verif.Proofs.SelectNames
import Verif.Props.Select
import Verif.Model.CommandLine
import Verif.Spec.CommandLine
import Verif.Proofs.Unlimited
import Verif.Props.CommandLine
import Verif.Props.Overwrite
import Verif.Props.NTupleRun
import Verif.Props.CollectorRun
import Verif.Props.Report
import Verif.Props.Categories
import Verif.Model.MixedRun
import Verif.Spec.MixedRun
import Verif.Proofs.MixedRun
import Verif.Props.MixedRun
import Verif.Spec.Separate
import Verif.Proofs.Separate
import Verif.Proofs.SeparateRun
import Verif.Props.Separate
import Verif.Proofs.Limit
import Verif.Props.Limit
import Verif.Spec.Observable
import Verif.Proofs.Observable
import Verif.Props.Observable
import Verif.Model.Varying
import Verif.Proofs.Varying
import Verif.Props.Varying
import Verif.Spec.TextOnly
import Verif.Proofs.TextOnly
import Verif.Props.TextOnly
import Verif.Props.ReportUnweighted
import Verif.Props.Unusable
import Verif.Props.CellInfo
import Verif.Props.Builders
import Verif.Props.Completion
import Verif.Props.CellView
import Verif.Props.CErrors
import Verif.Props.Capacity
import Verif.Props.ExampleDistance
import Verif.Props.MixedFar
import Verif.Props.EventOrder
import Verif.Props.Excerpt
import Verif.Props.Bias
import Verif.Props.Balance
import Verif.Props.PartitionFile
import Verif.Props.ClassifyNTuple
import Verif.Model.ClassifyDisk
import Verif.Props.ClassifyDisk
import Verif.Model.PartitionRun
import Verif.Props.PartitionRun
import Verif.Model.ClassifyInPlace
import Verif.Props.ClassifyInPlace
import Verif.Props.Convex
import Verif.Props.Similar
import Verif.Props.Histogram
import Verif.Props.BinUncertainty
import Verif.Props.SignFlip
import Verif.Props.SecondRun
import Verif.Props.OneFile
