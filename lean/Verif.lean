import Verif.Props.LevelSets
import Verif.Props.Hypercube
import Verif.Props.Adaptive
import Verif.Props.Classical
import Verif.Props.WorkDistribution
import Verif.Props.Indexing
import Verif.Props.Levels1d
import Verif.Props.SubspacePoints
import Verif.Props.Storage
import Verif.Props.Transfer
import Verif.Props.Hierarchization
import Verif.Props.DistributedHierarchization
import Verif.Props.GridTransform
import Verif.Props.Reduce
import Verif.Props.Combine
import Verif.Props.FileIO
import Verif.Props.Communicators
import Verif.Props.ExchangeFiles
import Verif.Props.Network
import Verif.Props.ThirdLevel
import Verif.Props.SmallParts
import Verif.Props.CommandArguments
import Verif.Props.Stats
import Verif.Props.Parameters
import Verif.Props.Rescheduler
import Verif.Props.GroupStatus
import Verif.Props.TaskLists
import Verif.Props.FaultTolerance
import Verif.Props.PartitionDOF
import Verif.Props.Interpolation
import Verif.Model.SerialHierarchization
import Verif.Lemmas.SerialHierarchization
import Verif.Props.SerialHierarchization
import Verif.Props.FullGridEval
import Verif.Props.LevelIndex
import Verif.Props.CombineExact
import Verif.Props.CombineAtOnce
import Verif.Props.InterpolateValues
import Verif.Props.LoadModels
import Verif.Props.GroupGrid
import Verif.Props.Norms
import Verif.Props.Recovery
import Verif.Props.Compression
import Verif.Props.FaultLayer
import Verif.Props.SchemeGenerator
import Verif.Props.Kahan
import Verif.Props.WideCombine
import Verif.Props.SystemCombine
import Verif.Props.SystemOutgroup
import Verif.Props.History
import Verif.Props.FaultSchedule
import Verif.Props.IndexRange
import Verif.Props.DistributedGrid
import Verif.Props.DistributedCombine
import Verif.Props.DefaultDecomposition
import Verif.Props.Plot
import Verif.Props.DistributedHistory
import Verif.Props.Conjoint
import Verif.Props.ReduceLmax
import Verif.Props.SeveralGrids
import Verif.Props.CombinedValues
import Verif.Props.InterpolationOutput
import Verif.Props.SchemeFile
import Verif.Props.SystemAtOnce
import Verif.Props.ThirdLevelHistory
import Verif.Props.FaultMessages
import Verif.Props.FaultHistory
import Verif.Props.Threads
import Verif.Props.ThreadReduce
import Verif.Props.SubspaceWriter
import Verif.Props.Advection
import Verif.Props.VtkFile
import Verif.Props.CombinedMass
import Verif.Props.RoundedGrid
import Verif.Props.MachineGrid
import Verif.Props.RoundedCombine
import Verif.Props.AdvectionExample
import Verif.Props.Selalib
import Verif.Props.Evaluation
import Verif.Props.GenePreparation
import Verif.Props.AdaptiveExact
import Verif.Props.GeneTask
import Verif.Props.AnisotropyLoad
import Verif.Props.SelalibPhi
import Verif.Props.BitFlips
import Verif.Props.GeneError
import Verif.Props.RawTransfer
import Verif.Props.Broadcast
import Verif.Props.TaskDirs
import Verif.Props.MemoryUsage
import Verif.Props.PlotAdvection
import Verif.Props.ErrorTable
import Verif.Props.ExperimentList
import Verif.Props.ErrorNorms
import Verif.Props.BoundaryCheck
