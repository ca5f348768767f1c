import Verif.Model.Indexer
import Mathlib.Logic.Function.Basic
import Mathlib.Tactic.DeriveFintype
import Mathlib.Data.Fintype.Sum

/-!
# The indexing pipeline: calls, channels, workers, counters, store

Index, RemoveDoc and Flush may be called by any number of goroutines at the same time
(`Thread.client`). They put requests into bounded channels; segmenter, index, ranker and store
workers take them out. A thread is the list of atomic actions (`Micro`) it still has to execute;
a worker whose list is empty takes the next message from its channel and expands it. Any
interleaving of threads is a run. What the index calls do to a shard is given by the list of
calls executed on it (`idxLog`), in the order of execution, which Model/Indexer interprets.

Simplifications: one index call (AddDocToCache, RemoveDocToCache) on a shard is one atomic
action (their locks are in Model/Shard); the unbuffered store channels have capacity
1; database calls are atomic and do not fail.
-/

namespace Riot

/-- Sizes: client goroutines, segmenter threads, index shards, store shards, and channel
capacities (engine.go:106-162, types/engine_init_options.go:106-160). -/
structure PipeSize where
  clients : Nat
  gse : Nat
  shards : Nat
  stores : Nat
  segCap : Nat   -- NumGseThreads
  idxCap : Nat   -- IndexerBufLen
  rankCap : Nat  -- RankerBufLen
  useStore : Bool
  deriving DecidableEq

/-- The functions of the document data the pipeline uses. `D` is the document data of a call
(it may also determine the iteration order of Go maps). -/
structure PipeCfg (D : Type) extends PipeSize where
  /-- The document the segmenter produces (segment.go:281-297). -/
  docOf : Str → D → DocIndex
  /-- The shard of a document: `getShard(murmur(docId + content))`, engine.go:415, segment.go:261. -/
  route : Str → D → Fin shards
  /-- The store shard: `murmur(docId) % StoreShards`, engine.go:387, 458. -/
  storeRoute : Str → Fin stores
  /-- Does gob encode the data (store_worker.go:41-46)? -/
  encodes : D → Bool
  /-- `types.DocData{}` (engine.go:832) -/
  emptyData : D

/-- The goroutines of an engine (engine.go:331-348, 207-244), and its callers. -/
inductive Thread (z : PipeSize)
  | client (i : Fin z.clients)
  | init (m : Fin z.stores)     -- storeInit (only before Init returns)
  | seg (j : Fin z.gse)
  | idxAdd (s : Fin z.shards)
  | idxRem (s : Fin z.shards)
  | rankAdd (s : Fin z.shards)
  | rankRem (s : Fin z.shards)
  | store (m : Fin z.stores)
  deriving DecidableEq, Fintype

/-- The channels (engine.go:88-104). -/
inductive Chan (z : PipeSize)
  | seg
  | idxAdd (s : Fin z.shards)
  | idxRem (s : Fin z.shards)
  | rankAdd (s : Fin z.shards)
  | rankRem (s : Fin z.shards)
  | store (m : Fin z.stores)
  deriving DecidableEq, Fintype

/-- The channel a worker receives from. -/
def Thread.input {z : PipeSize} : Thread z → Option (Chan z)
  | .client _ => none
  | .init _ => none
  | .seg _ => some .seg
  | .idxAdd s => some (.idxAdd s)
  | .idxRem s => some (.idxRem s)
  | .rankAdd s => some (.rankAdd s)
  | .rankRem s => some (.rankRem s)
  | .store m => some (.store m)

/-- Channel capacities. -/
def PipeSize.cap (z : PipeSize) : Chan z → Nat
  | .seg => z.segCap
  | .idxAdd _ => z.idxCap
  | .idxRem _ => z.idxCap
  | .rankAdd _ => z.rankCap
  | .rankRem _ => z.rankCap
  | .store _ => 1

/-- Requests in channels (segment.go:31, indexer_worker.go:24-45, ranker_worker.go:23-50,
store_worker.go:27). -/
inductive Msg (D : Type)
  | seg (id : Str) (d : D) (force : Bool)
  | add (doc : Option (Str × D)) (force : Bool)  -- none: the nil document of a flush
  | rem (id : Str) (force : Bool)
  | rankAdd (id : Str) (d : D)
  | rankRem (id : Str)
  | store (id : Str) (d : D)
  deriving DecidableEq

/-- Atomic counters (engine.go:66-76). `stored` counts only the increments of the store
workers (see `Pipe`). -/
inductive Counter
  | indexingReqs | removingReqs | forceReqs
  | indexed | removed | forced | tokens | stored
  deriving DecidableEq

/-- The loops of Flush wait for these equations (engine.go:813-841). The two sides of an equation are
loaded one after the other (see `Pipe.holds`). The last round of the first loop reads the equations one
after the other, all with success; earlier rounds have no effect. -/
inductive Wait
  | indexed | removed | stored | forced
  deriving DecidableEq

/-- What happens to a ranker. -/
inductive RankEv (D : Type)
  | add (id : Str) (d : D)
  | remove (id : Str)
  deriving DecidableEq

/-- What happens to a database. -/
inductive DbOp (D : Type)
  | set (id : Str) (d : D)
  | del (id : Str)
  deriving DecidableEq

/-- Atomic actions of a thread. -/
inductive Micro (z : PipeSize) (D : Type)
  | tick (c : Counter) (n : Nat)
  | send (q : Chan z) (m : Msg D)
  | await (w : Wait)
  | idx (s : Fin z.shards) (op : IdxOp)
  | rank (s : Fin z.shards) (e : RankEv D)
  | db (m : Fin z.stores) (op : DbOp D)
  | spawn (m : Fin z.stores) (op : DbOp D)  -- `go engine.storeRemoveDoc`
  deriving DecidableEq

variable {D : Type}

/-- The shards in ascending order. -/
def PipeSize.allShards (z : PipeSize) : List (Fin z.shards) := List.finRange z.shards

/-- What a worker does with a message: segment.go:248-314 `segmenterWorker`,
indexer_worker.go:47-73, ranker_worker.go:46-58, 75-80, store_worker.go:33-63. -/
def PipeCfg.expand (c : PipeCfg D) : Chan c.toPipeSize → Msg D → List (Micro c.toPipeSize D)
  | .seg, .seg id d force =>
    if id = str "0" then
      if force then c.allShards.map (fun s => .send (.idxAdd s) (.add none true)) else []
    else
      .send (.idxAdd (c.route id d)) (.add (some (id, d)) force) ::
      (if force then
        (c.allShards.filter (fun s => s ≠ c.route id d)).map
          (fun s => .send (.idxAdd s) (.add none true))
       else []) ++
      [.send (.rankAdd (c.route id d)) (.rankAdd id d)]
  | .idxAdd s, .add (some (id, d)) force =>
    [.idx s (.add (c.docOf id d) force), .tick .tokens (c.docOf id d).keywords.length, .tick .indexed 1] ++
      if force then [.tick .forced 1] else []
  | .idxAdd s, .add none force =>
    .idx s (.flush force) :: if force then [.tick .forced 1] else []
  | .idxRem s, .rem id force =>
    .idx s (.remove id force) :: (if id ≠ str "0" then [.tick .removed 1] else []) ++
      if force then [.tick .forced 1] else []
  | .rankAdd s, .rankAdd id d => [.rank s (.add id d)]
  | .rankRem s, .rankRem id => [.rank s (.remove id)]
  | .store m, .store id d =>
    if c.encodes d then [.db m (.set id d), .tick .stored 1] else [.tick .stored 1]
  | _, _ => []

/-- The API calls. -/
inductive Call (D : Type)
  | index (id : Str) (d : D) (force : Bool)
  | remove (id : Str) (force : Bool)
  | flush
  deriving DecidableEq

/-- engine.go:399-417 `internalIndexDoc` -/
def PipeCfg.internalIndex (c : PipeCfg D) (id : Str) (d : D) (force : Bool) :
    List (Micro c.toPipeSize D) :=
  (if id ≠ str "0" then [.tick .indexingReqs 1] else []) ++
  (if force then [.tick .forceReqs 1] else []) ++ [.send .seg (.seg id d force)]

/-- engine.go:376-397 `Index`, 429-463 `RemoveDoc`, 812-842 `Flush`. -/
def PipeCfg.call (c : PipeCfg D) : Call D → List (Micro c.toPipeSize D)
  | .index id d force =>
    c.internalIndex id d force ++
      if c.useStore ∧ id ≠ str "0" then [.send (.store (c.storeRoute id)) (.store id d)] else []
  | .remove id force =>
    (if id ≠ str "0" then [.tick .removingReqs 1] else []) ++
    (if force then [.tick .forceReqs 1] else []) ++
    c.allShards.flatMap (fun s => .send (.idxRem s) (.rem id force) ::
      if id = str "0" then [] else [.send (.rankRem s) (.rankRem id)]) ++
    if c.useStore ∧ id ≠ str "0" then [.spawn (c.storeRoute id) (.del id)] else []
  | .flush =>
    [.await .indexed, .await .removed, .await .stored] ++
      c.internalIndex (str "0") c.emptyData true ++ [.await .forced]

/-- State of an engine. `stored` and `credit` together are numDocsStored (`credit` is what
engine.go:355 adds at the end of Init). -/
structure Pipe (c : PipeCfg D) where
  inited : Bool
  prog : Thread c.toPipeSize → List (Micro c.toPipeSize D)
  chan : Chan c.toPipeSize → List (Msg D)
  spawned : List (Fin c.stores × DbOp D)
  count : Counter → Nat
  credit : Nat
  idxLog : Fin c.shards → List IdxOp
  rankLog : Fin c.shards → List (RankEv D)
  dbLog : Fin c.stores → List (DbOp D)
  seen : Thread c.toPipeSize → Counter → Nat  -- the counters when the thread did its last action
  calls : List (Fin c.clients × Call D)  -- ghost: the calls started so far

/-- A new engine whose databases contain `db` (in iteration order): engine.go:277-356 `Init`
has started the workers and one `storeInit` goroutine per store shard
(store_worker.go:72-92). Without a store `Init` reads no database. -/
def Pipe.start (c : PipeCfg D) (db : Fin c.stores → List (Str × D)) : Pipe c where
  inited := false
  prog := fun t => match t with
    | .init m => if c.useStore then (db m).flatMap (fun x => c.internalIndex x.1 x.2 false) else []
    | _ => []
  chan := fun _ => []
  spawned := []
  count := fun _ => 0
  credit := 0
  idxLog := fun _ => []
  rankLog := fun _ => []
  dbLog := fun _ => []
  seen := fun _ _ => 0
  calls := []

/-- The left sides of the equations (engine.go:817, 818, 821, 837), before multiplication with NumShards. -/
def Wait.left (count : Counter → Nat) : Wait → Nat
  | .indexed => count .indexingReqs
  | .removed => count .removingReqs
  | .stored => count .indexingReqs
  | .forced => count .forceReqs

/-- ... the factors ... -/
def PipeCfg.factor (c : PipeCfg D) : Wait → Nat
  | .indexed => 1
  | .removed => c.shards
  | .stored => 1
  | .forced => c.shards

/-- ... and the right sides. -/
def Wait.right (count : Counter → Nat) (credit : Nat) : Wait → Nat
  | .indexed => count .indexed
  | .removed => count .removed
  | .stored => count .stored + credit
  | .forced => count .forced

/-- Go leaves open which side of the equations of lines 817 and 821 is loaded first; in lines 818-819 and
837-838 it is the left one. -/
def Wait.anyOrder : Wait → Bool
  | .indexed | .stored => true
  | .removed | .forced => false

/-- Can the equation be found true now (engine.go:817-823, 837-838)? The two sides are loaded one after the
other: the first load happened at some moment since the thread did its last action, when the counters were
`seen`, the second one happens now. All counters on both sides are incremented by 1, so they had all values from
the one seen to the current one. -/
def Pipe.holds {c : PipeCfg D} (st : Pipe c) (seen : Counter → Nat) (w : Wait) : Bool :=
  (w = .stored && !c.useStore) ||
  (List.range (w.left st.count + 1)).any
    (fun v => w.left seen ≤ v && v * c.factor w == w.right st.count st.credit) ||
  (w.anyOrder && w.right seen st.credit ≤ w.left st.count * c.factor w &&
    w.left st.count * c.factor w ≤ w.right st.count st.credit)

/-- Scheduling choices. -/
inductive Act (z : PipeSize) (D : Type)
  | call (i : Fin z.clients) (a : Call D)  -- a client starts a call
  | run (t : Thread z)                    -- a thread executes its next action
  | recv (t : Thread z)                   -- an idle worker receives
  | bg (k : Nat)                          -- a spawned goroutine runs
  | ready                                 -- Init returns (engine.go:207-245, 351-356)
  deriving DecidableEq

open Function (update)

/-- Execute one atomic action; `none`: blocked. `seen`: the counters at the previous action of the thread. -/
def Pipe.exec {c : PipeCfg D} (st : Pipe c) (seen : Counter → Nat) : Micro c.toPipeSize D → Option (Pipe c)
  | .tick k n => some { st with count := update st.count k (st.count k + n) }
  | .send q m =>
    if (st.chan q).length < c.cap q then
      some { st with chan := update st.chan q (st.chan q ++ [m]) }
    else none
  | .await w => if st.holds seen w then some st else none
  | .idx s op => some { st with idxLog := update st.idxLog s (st.idxLog s ++ [op]) }
  | .rank s e => some { st with rankLog := update st.rankLog s (st.rankLog s ++ [e]) }
  | .db m op => some { st with dbLog := update st.dbLog m (st.dbLog m ++ [op]) }
  | .spawn m op => some { st with spawned := st.spawned ++ [(m, op)] }

/-- One step of the engine; `none`: not enabled. -/
def Pipe.step {c : PipeCfg D} (st : Pipe c) : Act c.toPipeSize D → Option (Pipe c)
  | .call i a =>
    if st.inited ∧ st.prog (.client i) = [] then
      some { st with prog := update st.prog (.client i) (c.call a), calls := st.calls ++ [(i, a)],
                     seen := update st.seen (.client i) st.count }
    else none
  | .run t =>
    match st.prog t with
    | [] => none
    | x :: l =>
      -- `seen` is set before the action; the actions before a wait of Flush do not change the counters
      { st with prog := update st.prog t l, seen := update st.seen t st.count }.exec (st.seen t) x
  | .recv t =>
    match t.input with
    | none => none
    | some q =>
      match st.prog t, st.chan q with
      | [], m :: l =>
        some { st with prog := update st.prog t (c.expand q m), chan := update st.chan q l }
      | _, _ => none
  | .bg k =>
    match st.spawned[k]? with
    | none => none
    | some (m, op) =>
      some { st with spawned := st.spawned.eraseIdx k,
                     dbLog := update st.dbLog m (st.dbLog m ++ [op]) }
  | .ready =>
    if !st.inited ∧ (∀ m, st.prog (.init m) = []) ∧
        (c.useStore = true → st.count .indexingReqs = st.count .indexed) then
      some { st with inited := true, credit := st.count .indexingReqs }
    else none

/-- A run of the engine. -/
def Pipe.run {c : PipeCfg D} (st : Pipe c) : List (Act c.toPipeSize D) → Option (Pipe c)
  | [] => some st
  | a :: l => (st.step a).bind (fun st' => st'.run l)

end Riot
