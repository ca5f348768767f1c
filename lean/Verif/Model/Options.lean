import Verif.Model.Pipeline
import Verif.Model.EngineSearch

/-!
# Options of an engine (types/engine_init_options.go, engine.go, riot.go)

Not modelled: dictionary loading, toml files, the fields `Model` and `StoreOnly` (never read). `F` is the type of scoring fields.
-/

namespace Riot

variable {F : Type}

/-- types/engine_init_options.go:47-107 `EngineOpts` (the fields `Init` and the channels and workers
depend on). Go `int` is modelled by `Int`. -/
structure EngineOpts (F : Type) extends TextOpts where
  gseDict : Str := []
  stopTokenFile : Str := []
  numGseThreads : Int := 0
  numShards : Int := 0
  indexerBufLen : Int := 0
  numIndexerThreads : Int := 0
  rankerBufLen : Int := 0
  numRankerThreads : Int := 0
  indexerOpts : Option IndexerOpts := none
  defRankOpts : Option (ReqRankOpts F) := none
  useStore : Bool := false
  storeFolder : Str := []
  storeShards : Int := 0
  storeEngine : Str := []
  idOnly : Bool := false

/-- types/engine_init_options.go:39-42 `defaultBM25Parameters`. -/
def defaultBM25 : BM25Parameters := ⟨2, 3/4⟩

/-- types/engine_init_options.go:35-38 `defaultIndexerOpts`. -/
def defaultIndexerOpts : IndexerOpts := { indexType := .freqs, docCacheSize := 0, bm25 := some defaultBM25 }

/-- types/engine_init_options.go:32-34 `defaultRankOpts`. -/
def defaultRankOpts : ReqRankOpts F := { score := some rankByBM25 }

/-- engine.go:261-274 `initDef`; `loaded`: a segmenter was given with `WithGse`. -/
def EngineOpts.initDef (loaded : Bool) (o : EngineOpts F) : EngineOpts F :=
  let o := if o.gseDict = [] ∧ o.notUseGse = false ∧ loaded = false then { o with gseDict := str "zh" } else o
  if o.useStore = true ∧ o.storeFolder = [] then { o with storeFolder := str "./riot-index" } else o

/-- types/engine_init_options.go:141-147: the indexer options, with BM25 parameters. -/
def initIndexerOpts (ix : Option IndexerOpts) : IndexerOpts :=
  let ix := ix.getD defaultIndexerOpts
  { ix with bm25 := match ix.bm25 with
              | none => some defaultBM25
              | some p => some p }

/-- types/engine_init_options.go:149-155: the rank options, with scoring criteria. -/
def initRankOpts (ro : Option (ReqRankOpts F)) : ReqRankOpts F :=
  let ro := ro.getD defaultRankOpts
  { ro with score := match ro.score with
              | none => some rankByBM25
              | some c => some c }

/-- types/engine_init_options.go:111-160 `Init`; `cpu` is `runtime.NumCPU()`. The sequence of `if`
statements is written as one record update: each of them reads and sets its own field. -/
def EngineOpts.init (cpu : Nat) (o : EngineOpts F) : EngineOpts F :=
  { o with
    numGseThreads := if o.numGseThreads = 0 then cpu else o.numGseThreads
    numShards := if o.numShards = 0 then 8 else o.numShards
    indexerBufLen := if o.indexerBufLen = 0 then cpu else o.indexerBufLen
    numIndexerThreads := if o.numIndexerThreads = 0 then cpu else o.numIndexerThreads
    rankerBufLen := if o.rankerBufLen = 0 then cpu else o.rankerBufLen
    numRankerThreads := if o.numRankerThreads = 0 then cpu else o.numRankerThreads
    indexerOpts := some (initIndexerOpts o.indexerOpts)
    defRankOpts := some (initRankOpts o.defRankOpts)
    storeShards := if o.storeShards = 0 then 8 else o.storeShards }

/-- What `Engine.Init` allocates and starts. -/
structure EngineRes (F : Type) where
  /-- channels, and the workers of the pipeline -/
  size : PipeSize
  /-- lookup workers per shard -/
  lookups : Nat
  /-- rank workers per shard -/
  ranks : Nat
  /-- the dictionary that is loaded (`none`: no segmenter, or the user's) -/
  dict : Option Str
  /-- the stop token file that is read (`none`: no segmenter) -/
  stopFile : Option Str
  /-- the folder of the databases (`none`: no store) -/
  folder : Option Str
  /-- the options of every index shard -/
  index : IndexerOpts
  search : SearchOpts F

/-- `make([]T, n)` or `make(chan T, n)`: panics for a negative size. -/
def goMake (n : Int) : Option Nat := if n < 0 then none else some n.toNat

/-- The criteria and options of a search after `Init` (`none`: nil pointer dereference). -/
def EngineOpts.searchOpts (o : EngineOpts F) : Option (SearchOpts F) :=
  match o.defRankOpts with
  | none => none
  | some ro => match ro.score with
    | none => none
    | some sc => some {
        toTextOpts := o.toTextOpts
        idOnly := o.idOnly
        defRankOpts := { score := sc, reverseOrder := ro.reverseOrder, outputOffset := ro.outputOffset,
                         maxOutputs := ro.maxOutputs } }

/-- engine.go:166-182 `CheckMem`: `usedMem` is the used part of the machine's memory in percent,
printed with two decimals. -/
def EngineOpts.checkMem (usedMem : Str) (o : EngineOpts F) : EngineOpts F :=
  if o.useStore then o
  else if usedMem = str "99.99" then { o with useStore := true, storeFolder := str "./riot-index" }
  else o

/-- engine.go:277-356 `Engine.Init`: dictionary and stop tokens (292-301), the shards (304-310), the channels
(313-328), the workers (331-348: a loop to a negative bound starts none) and the store (351-353, see
Model/Config). `none`: panic. The clients are not part of the options; `loaded`: a segmenter was given with
`WithGse`. -/
def EngineOpts.resources (clients : Nat) (loaded : Bool) (o : EngineOpts F) : Option (EngineRes F) := do
  let ix ← o.indexerOpts
  let search ← o.searchOpts
  let segCap ← goMake o.numGseThreads
  let shards ← goMake o.numShards
  let idxCap ← goMake (if o.numShards > 0 then o.indexerBufLen else 0)
  let rankCap ← goMake (if o.numShards > 0 then o.rankerBufLen else 0)
  let stores ← goMake (if o.useStore then o.storeShards else 0)
  return { size := { clients := clients, gse := o.numGseThreads.toNat, shards := shards, stores := stores,
                     segCap := segCap, idxCap := idxCap, rankCap := rankCap, useStore := o.useStore },
           lookups := o.numIndexerThreads.toNat, ranks := o.numRankerThreads.toNat,
           dict := if o.notUseGse || loaded then none else some o.gseDict,
           stopFile := if o.notUseGse then none else some o.stopTokenFile,
           folder := if o.useStore then some o.storeFolder else none,
           index := ix, search := search }

/-- engine.go:277-356 `Engine.Init` on the user's options. Simplification: `CheckMem` runs after the
channels of the indexers and rankers were made; it does not concern them. -/
def EngineOpts.engine (cpu clients : Nat) (loaded : Bool) (usedMem : Str) (o : EngineOpts F) : Option (EngineRes F) :=
  (((o.initDef loaded).init cpu).checkMem usedMem).resources clients loaded

/-- riot.go:53-99 `NewEngine(dict, path, shards)` (`path` nil: `DefaultPath`; `shards` nil: 10). -/
def newEngineOpts (dict : Str) (path : Option Str) (shards : Option Int) : EngineOpts F :=
  { storeShards := shards.getD 10, numShards := shards.getD 10,
    indexerOpts := some { indexType := .docIds, docCacheSize := 0, bm25 := none },
    useStore := true, storeFolder := path.getD (str "./riot-index"), gseDict := dict }

end Riot
