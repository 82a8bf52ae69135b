import Verif.Lemmas.Conv
import Verif.Lemmas.ConvMap
import Verif.Lemmas.ConvRun
import Verif.Lemmas.ConvStack
import Verif.Lemmas.ConvStep
import Verif.Lemmas.ConvStep2
import Verif.Lemmas.ConvTen
import Verif.Lemmas.ConvTenHook
import Verif.Lemmas.ConvView
import Verif.Lemmas.Gather
import Verif.Lemmas.Length
import Verif.Lemmas.PipelineTen
import Verif.Lemmas.Ravel
import Verif.Lemmas.Rows
import Verif.Lemmas.Sync
import Verif.Lemmas.SyncInv
import Verif.Lemmas.SyncMemory
import Verif.Lemmas.SyncRepeat
import Verif.Lemmas.SyncTruncate
import Verif.Lemmas.Tensor
import Verif.Lemmas.Zip
import Verif.Model.Accessors
import Verif.Model.Branches
import Verif.Model.Cache
import Verif.Model.Call
import Verif.Model.Checkpoint
import Verif.Model.Collate
import Verif.Model.CollectCost
import Verif.Model.CollectOrder
import Verif.Model.Collector
import Verif.Model.CollectorDict
import Verif.Model.CollectorMem
import Verif.Model.Construct
import Verif.Model.Conv
import Verif.Model.ConvArgs
import Verif.Model.ConvMask
import Verif.Model.ConvMem
import Verif.Model.ConvStack
import Verif.Model.ConvTen
import Verif.Model.Copying
import Verif.Model.Dataset
import Verif.Model.DatasetAttr
import Verif.Model.Demo
import Verif.Model.DimNames
import Verif.Model.Dispatch
import Verif.Model.Elementwise
import Verif.Model.Fallback
import Verif.Model.FromFiles
import Verif.Model.Gen
import Verif.Model.Grad
import Verif.Model.Heap
import Verif.Model.Index
import Verif.Model.Iterate
import Verif.Model.Lazy
import Verif.Model.Lists
import Verif.Model.Live
import Verif.Model.LoaderLive
import Verif.Model.LoaderOpts
import Verif.Model.Machine
import Verif.Model.Machine64
import Verif.Model.MaskIndex
import Verif.Model.Meta
import Verif.Model.MetaCat
import Verif.Model.MetaIndex
import Verif.Model.Modes
import Verif.Model.Move
import Verif.Model.Numba
import Verif.Model.Overrides
import Verif.Model.Pad
import Verif.Model.Pickle
import Verif.Model.Pipeline
import Verif.Model.PipelineTen
import Verif.Model.Program
import Verif.Model.Quantize
import Verif.Model.Ragged
import Verif.Model.Reads
import Verif.Model.Reduce
import Verif.Model.Registry
import Verif.Model.Residual
import Verif.Model.ScalarIndex
import Verif.Model.Scrape
import Verif.Model.Setitem
import Verif.Model.Sync
import Verif.Model.SyncMemory
import Verif.Model.Take
import Verif.Model.Tensor
import Verif.Model.Threads
import Verif.Model.Timing
import Verif.Model.Warn
import Verif.Model.Workers
import Verif.Props.Accessors
import Verif.Props.Align
import Verif.Props.Axes
import Verif.Props.Axes2
import Verif.Props.AxisRange
import Verif.Props.BatchBounds
import Verif.Props.BatchIndex
import Verif.Props.BatchWidth
import Verif.Props.Batches
import Verif.Props.Branches
import Verif.Props.Cache
import Verif.Props.Call
import Verif.Props.CatBatch
import Verif.Props.CatLen
import Verif.Props.CatLength
import Verif.Props.CatOps
import Verif.Props.Checkpoint
import Verif.Props.Closure
import Verif.Props.Collate
import Verif.Props.CollectCost
import Verif.Props.CollectEnd
import Verif.Props.CollectOrder
import Verif.Props.CollectStreams
import Verif.Props.Collector
import Verif.Props.CollectorDict
import Verif.Props.CollectorMem
import Verif.Props.Construct
import Verif.Props.Conv
import Verif.Props.ConvAct
import Verif.Props.ConvAny
import Verif.Props.ConvArgs
import Verif.Props.ConvChain
import Verif.Props.ConvCollect
import Verif.Props.ConvField
import Verif.Props.ConvFirst
import Verif.Props.ConvMem
import Verif.Props.ConvMore
import Verif.Props.ConvPad
import Verif.Props.ConvReuse
import Verif.Props.ConvReuse2
import Verif.Props.ConvSession
import Verif.Props.ConvStack
import Verif.Props.ConvStackLengths
import Verif.Props.ConvStackLoose
import Verif.Props.ConvTen
import Verif.Props.ConvValues
import Verif.Props.Copying
import Verif.Props.Damage
import Verif.Props.Dataset
import Verif.Props.DatasetAttr
import Verif.Props.Demo
import Verif.Props.DimNames
import Verif.Props.Dispatch
import Verif.Props.Elementwise
import Verif.Props.Ellipsis
import Verif.Props.EmptyBatch
import Verif.Props.EpochWork
import Verif.Props.Epochs
import Verif.Props.EpochsCollect
import Verif.Props.EpochsFiles
import Verif.Props.EpochsFiles2
import Verif.Props.EpochsStack
import Verif.Props.Exact
import Verif.Props.Fallback
import Verif.Props.Faults
import Verif.Props.FilesCollect
import Verif.Props.FilesStacks
import Verif.Props.Flatten
import Verif.Props.FromFiles
import Verif.Props.FromFiles2
import Verif.Props.FromFilesDrop
import Verif.Props.FromFilesRuns
import Verif.Props.Gather
import Verif.Props.Getitem
import Verif.Props.Grad
import Verif.Props.Heap
import Verif.Props.Inception
import Verif.Props.Infinite
import Verif.Props.Iterate
import Verif.Props.JointIndex
import Verif.Props.Latency
import Verif.Props.LengthIndex
import Verif.Props.ListOrder
import Verif.Props.Lists
import Verif.Props.Live
import Verif.Props.Loader
import Verif.Props.LoaderExact
import Verif.Props.LoaderLive
import Verif.Props.LoaderLiveFiles
import Verif.Props.LoaderOpts
import Verif.Props.Machine
import Verif.Props.Machine64
import Verif.Props.Mask2D
import Verif.Props.MaskEllipsis
import Verif.Props.MaskIndex
import Verif.Props.MetaIndex
import Verif.Props.MetaMisc
import Verif.Props.Modes
import Verif.Props.Move
import Verif.Props.MoveExact
import Verif.Props.Narrow
import Verif.Props.Order
import Verif.Props.Outside
import Verif.Props.Pad
import Verif.Props.Partition
import Verif.Props.Pickle
import Verif.Props.Pipeline
import Verif.Props.PipelineRun
import Verif.Props.PipelineTen
import Verif.Props.Program
import Verif.Props.Quantize
import Verif.Props.Ragged
import Verif.Props.Readme
import Verif.Props.Reads
import Verif.Props.Recouple
import Verif.Props.Reduce
import Verif.Props.Registry
import Verif.Props.Repeat
import Verif.Props.RepeatAll
import Verif.Props.Residual
import Verif.Props.ScalarIndex
import Verif.Props.ScatterExact
import Verif.Props.Scrape
import Verif.Props.Setitem
import Verif.Props.SetitemNamed
import Verif.Props.Shuffle
import Verif.Props.Split
import Verif.Props.SplitEmpty
import Verif.Props.SplitKeys
import Verif.Props.SplitLength
import Verif.Props.StackCollect
import Verif.Props.StreamDrop
import Verif.Props.StreamLeak
import Verif.Props.StreamMemory
import Verif.Props.StreamWork
import Verif.Props.Subclass
import Verif.Props.Sync
import Verif.Props.SyncDrop
import Verif.Props.SyncMemory
import Verif.Props.SyncOrder
import Verif.Props.Take
import Verif.Props.TakeMore
import Verif.Props.TensorSplit
import Verif.Props.Threads
import Verif.Props.ThreadsCollect
import Verif.Props.Timing
import Verif.Props.Truncate
import Verif.Props.Undo
import Verif.Props.Unpadded
import Verif.Props.UnpaddedTotal
import Verif.Props.Waiting
import Verif.Props.Warn
import Verif.Props.Workers
import Verif.Props.WorkersFiles
import Verif.Py
import Verif.Spec.Align
import Verif.Spec.Branches
import Verif.Spec.Cat
import Verif.Spec.CollectOrder
import Verif.Spec.Collector
import Verif.Spec.CollectorDict
import Verif.Spec.CollectorMem
import Verif.Spec.Conv
import Verif.Spec.ConvStack
import Verif.Spec.ConvTen
import Verif.Spec.Damage
import Verif.Spec.Data
import Verif.Spec.EmptyBatch
import Verif.Spec.Fallback
import Verif.Spec.Faults
import Verif.Spec.Grad
import Verif.Spec.Index
import Verif.Spec.Infinite
import Verif.Spec.Latency
import Verif.Spec.Length
import Verif.Spec.ListOrder
import Verif.Spec.Live
import Verif.Spec.LoaderLive
import Verif.Spec.Move
import Verif.Spec.Order
import Verif.Spec.Outside
import Verif.Spec.Program
import Verif.Spec.Reads
import Verif.Spec.Repeat
import Verif.Spec.Rows
import Verif.Spec.Shuffle
import Verif.Spec.StreamMemory
import Verif.Spec.StreamWork
import Verif.Spec.SyncMemory
import Verif.Spec.SyncOrder
import Verif.Spec.Tensor
import Verif.Spec.Threads
import Verif.Spec.Timing
import Verif.Spec.Truncate
import Verif.Spec.Undo
import Verif.Spec.Unpadded
import Verif.Spec.Waiting
import Verif.Spec.Workers
import Verif.Tests.Conv
import Verif.Tests.Data
import Verif.Tests.Tensor
