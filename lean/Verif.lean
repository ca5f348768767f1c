import Verif.Basic.GoMap
import Verif.Basic.GoSlice
import Verif.Basic.GoStr
import Verif.Model.Backends
import Verif.Model.Benchmark
import Verif.Model.Config
import Verif.Model.Durable
import Verif.Model.EngineSearch
import Verif.Model.Examples
import Verif.Model.Fine
import Verif.Model.Float32
import Verif.Model.Full
import Verif.Model.HasDoc
import Verif.Model.HttpForm
import Verif.Model.Indexer
import Verif.Model.Int64
import Verif.Model.Json
import Verif.Model.Lifecycle
import Verif.Model.Lookup
import Verif.Model.Misc
import Verif.Model.Net
import Verif.Model.NetDocs
import Verif.Model.Options
import Verif.Model.Pipeline
import Verif.Model.Proximity
import Verif.Model.Ranker
import Verif.Model.RankerConc
import Verif.Model.SearchProto
import Verif.Model.Segment
import Verif.Model.Shard
import Verif.Model.Sort
import Verif.Model.StoreLib
import Verif.Model.Types
import Verif.Model.Wire
import Verif.Model.WireNet
import Verif.Proofs.AddDocs
import Verif.Proofs.Alike
import Verif.Proofs.Between
import Verif.Proofs.Cache
import Verif.Proofs.EngineSearch
import Verif.Proofs.Fine
import Verif.Proofs.FineFresh
import Verif.Proofs.FineGentle
import Verif.Proofs.FineInv
import Verif.Proofs.FineLive
import Verif.Proofs.FineVis
import Verif.Proofs.Float32
import Verif.Proofs.Float32Index
import Verif.Proofs.Float32Lookup
import Verif.Proofs.Float32Near
import Verif.Proofs.Float32Run
import Verif.Proofs.Float32Shape
import Verif.Proofs.Full
import Verif.Proofs.FullFine
import Verif.Proofs.FullGentle
import Verif.Proofs.FullHist
import Verif.Proofs.FullLive
import Verif.Proofs.Gentle
import Verif.Proofs.IndexRun
import Verif.Proofs.JsonGrammar
import Verif.Proofs.JsonNumber
import Verif.Proofs.JsonParse
import Verif.Proofs.JsonText
import Verif.Proofs.JsonUtf8
import Verif.Proofs.JsonVal
import Verif.Proofs.Linear
import Verif.Proofs.LogicLookup
import Verif.Proofs.Lookup
import Verif.Proofs.Pipeline
import Verif.Proofs.PipelineCalls
import Verif.Proofs.PipelineCalls2
import Verif.Proofs.PipelineFlush
import Verif.Proofs.PipelineFlushed
import Verif.Proofs.PipelineIndex
import Verif.Proofs.PipelineLive
import Verif.Proofs.PipelineOverlap
import Verif.Proofs.PipelineRounds
import Verif.Proofs.PipelineRun
import Verif.Proofs.PipelineStore
import Verif.Proofs.Proximity
import Verif.Proofs.QuickSort
import Verif.Proofs.Ranker
import Verif.Proofs.Refresh
import Verif.Proofs.Repeated
import Verif.Proofs.Rows
import Verif.Proofs.Search
import Verif.Proofs.SearchProto
import Verif.Proofs.Segment
import Verif.Proofs.Shard
import Verif.Proofs.ShardLive
import Verif.Proofs.ShardLost
import Verif.Proofs.ShardVis
import Verif.Proofs.Sort
import Verif.Proofs.Sound
import Verif.Proofs.StableSort
import Verif.Proofs.TopK
import Verif.Proofs.Trace
import Verif.Proofs.Updated
import Verif.Proofs.Wire
import Verif.Proofs.WireMsgs
import Verif.Proofs.WireTotal
import Verif.Proofs.WireWrite
import Verif.Props.Algebra
import Verif.Props.Backends
import Verif.Props.Benchmark
import Verif.Props.Between
import Verif.Props.Collection
import Verif.Props.Concurrent
import Verif.Props.Config
import Verif.Props.Counting
import Verif.Props.Criteria
import Verif.Props.Dist
import Verif.Props.Durable
import Verif.Props.EndToEnd
import Verif.Props.EngineSearch
import Verif.Props.Examples
import Verif.Props.ExamplesDemo
import Verif.Props.Float32
import Verif.Props.FlushLive
import Verif.Props.Full
import Verif.Props.FullGentle
import Verif.Props.FullLive
import Verif.Props.FullLost
import Verif.Props.FullQuiet
import Verif.Props.FullText
import Verif.Props.Gone
import Verif.Props.HasDoc
import Verif.Props.History
import Verif.Props.HistoryDemo
import Verif.Props.HttpClient
import Verif.Props.HttpForm
import Verif.Props.Idle
import Verif.Props.Index
import Verif.Props.Int64
import Verif.Props.Json
import Verif.Props.JsonText
import Verif.Props.Lifecycle
import Verif.Props.Logic
import Verif.Props.Misc
import Verif.Props.Net
import Verif.Props.NetDocs
import Verif.Props.Never
import Verif.Props.Options
import Verif.Props.OwnText
import Verif.Props.Paging
import Verif.Props.Pinyin
import Verif.Props.PinyinProgram
import Verif.Props.Pipeline
import Verif.Props.PipelineOverlap
import Verif.Props.PipelineRank
import Verif.Props.Programs
import Verif.Props.Races
import Verif.Props.Ranker
import Verif.Props.RankerConc
import Verif.Props.RemovedAfter
import Verif.Props.Repeated
import Verif.Props.Requests
import Verif.Props.Restart
import Verif.Props.RoundsDb
import Verif.Props.Search
import Verif.Props.Segment
import Verif.Props.Shard
import Verif.Props.Sharding
import Verif.Props.ShardingRun
import Verif.Props.Sort
import Verif.Props.Sound
import Verif.Props.Stats
import Verif.Props.Store
import Verif.Props.StoreLib
import Verif.Props.Survives
import Verif.Props.Updated
import Verif.Props.Wire
import Verif.Props.WireNet
import Verif.Props.WireRelay
import Verif.Props.WireTotal
import Verif.Spec.Backends
import Verif.Spec.Benchmark
import Verif.Spec.Concurrent
import Verif.Spec.Config
import Verif.Spec.Criteria
import Verif.Spec.EngineSearch
import Verif.Spec.EngineState
import Verif.Spec.Examples
import Verif.Spec.Fine
import Verif.Spec.FineWitness
import Verif.Spec.Float32
import Verif.Spec.Full
import Verif.Spec.FullText
import Verif.Spec.FullWitness
import Verif.Spec.Gentle
import Verif.Spec.History
import Verif.Spec.HttpForm
import Verif.Spec.Index
import Verif.Spec.Json
import Verif.Spec.JsonBody
import Verif.Spec.JsonText
import Verif.Spec.Net
import Verif.Spec.Paging
import Verif.Spec.PinyinProgram
import Verif.Spec.PipeWitness
import Verif.Spec.Pipeline
import Verif.Spec.Programs
import Verif.Spec.Proximity
import Verif.Spec.Races
import Verif.Spec.Ranker
import Verif.Spec.RankerConc
import Verif.Spec.Repeated
import Verif.Spec.Search
import Verif.Spec.Segment
import Verif.Spec.Shard
import Verif.Spec.Store
import Verif.Spec.Survives
import Verif.Spec.Updated
import Verif.Spec.Wire
import Verif.Spec.Witness
import Verif.Tests.Core
import Verif.Tests.Engine
import Verif.Tests.Ranker
