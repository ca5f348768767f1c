import Verif.Model.Fine
import Verif.Model.RankerConc
import Verif.Model.EngineSearch
import Verif.Spec.EngineState

/-!
# The whole engine: indexing pipeline, locked shards, searches

Model/Fine (calls, channels, workers, locked index shards, rankers as logs) together with any number
of concurrent searches: the request of a search goes to every shard (engine.go:798-800), a lookup
worker of the shard locks its table for reading, looks up, and answers or passes the documents to the
shard's ranker (indexer_worker.go:115-149); a rank worker reads the ranker once per document
(ranker_worker.go:60-73, core/ranker.go:116-241); the searcher collects one answer or time-out per
shard (engine.go:557-630). Between any two of these actions everything else may happen.
-/

namespace Riot

open Function (update)

variable {D F A : Type}

/-- What an engine is given besides the sizes of its pipeline: sort routines, logarithm, text functions,
options, the parts of the document data that go to the ranker, and thread numbers
(engine.go:336-348: NumIndexerThreads and NumRankerThreads per shard). -/
structure EngCfg (D F A : Type) where
  so : Sorter
  gs : GSort
  log2 : Rat → Rat
  text : TextEnv
  opts : SearchOpts F
  info : RankInfo D F A
  lookupThreads : Nat
  rankThreads : Nat

/-- Where the request of a search is, on one shard. -/
inductive ReqAt (F A : Type)
  | unsent
  | queued                            -- in indexerLookupChans[shard]
  | taken                             -- received by a lookup worker (indexer_worker.go:117)
  | locked                            -- ... which holds tableLock for reading (core/indexer.go:379)
  | looked (out : LookupOut F A)      -- ... and has returned from Lookup (indexer_worker.go:119-121)
  | waiting (docs : List IndexedDoc)  -- in rankerRankChans[shard]
  | ranking (call : RankCall F A)     -- in the hands of a rank worker (ranker_worker.go:62)
  | answered

/-- State of an engine. An answer in the channel of a search carries the (ghost) number of its shard. -/
structure Full (c : PipeCfg D) (F A : Type) where
  fine : Fine c
  searches : List (SearchReq F)        -- the searches started so far; they are numbered in this order
  sent : Nat → Nat                     -- search ↦ number of shards the request was sent to
  req : Nat → Fin c.shards → ReqAt F A -- search, shard ↦ where the request is
  lookupQ : Fin c.shards → List Nat    -- indexerLookupChans
  lookBusy : Fin c.shards → Nat        -- lookup workers holding a request
  rankQ : Fin c.shards → List Nat      -- rankerRankChans
  rankBusy : Fin c.shards → Nat        -- rank workers holding a request
  chan : Nat → List (Fin c.shards × Answer F A)         -- search ↦ rankerReturnChan
  got : Nat → List (Option (Fin c.shards × Answer F A)) -- search ↦ outcomes of its receive rounds
  dead : Bool                          -- a lookup or rank worker has panicked

/-- A new engine. -/
def Full.start (c : PipeCfg D) (o : IndexerOpts) (db : Fin c.stores → List (Str × D)) : Full c F A where
  fine := Fine.start c o db
  searches := []
  sent := fun _ => 0
  req := fun _ _ => .unsent
  lookupQ := fun _ => []
  lookBusy := fun _ => 0
  rankQ := fun _ => []
  rankBusy := fun _ => 0
  chan := fun _ => []
  got := fun _ => []
  dead := false

/-- Scheduling choices. `k` is the number of a search. -/
inductive EAct (z : PipeSize) (D F : Type)
  | pipe (a : Act z D)                    -- pipeline, as in Model/Fine
  | beginAdd (s : Fin z.shards)
  | beginRem (s : Fin z.shards)
  | add (s : Fin z.shards)
  | rem (s : Fin z.shards)
  | start (r : SearchReq F)               -- a user calls Search
  | send (k : Nat)                        -- engine.go:798-800, next shard
  | take (s : Fin z.shards)               -- indexer_worker.go:117
  | lock (s : Fin z.shards) (k : Nat)     -- core/indexer.go:379
  | look (s : Fin z.shards) (k : Nat)     -- core/indexer.go:380-416, including the unlock
  | reply (s : Fin z.shards) (k : Nat)    -- indexer_worker.go:124, 129, 92, 108
  | forward (s : Fin z.shards) (k : Nat)  -- indexer_worker.go:141-147
  | takeRank (s : Fin z.shards)           -- ranker_worker.go:62-66
  | read (s : Fin z.shards) (k : Nat)     -- core/ranker.go:127-151, 182-216: next document
  | replyRank (s : Fin z.shards) (k : Nat)-- core/ranker.go:162-176, 227-241, ranker_worker.go:70
  | recv (k : Nat)                        -- engine.go:567, 607
  | timer (k : Nat)                       -- engine.go:617

/-- The action of Model/Fine an action is, if it is one of the pipeline. -/
def EAct.fine? {z : PipeSize} : EAct z D F → Option (FAct z D)
  | .pipe a => some (.pipe a)
  | .beginAdd s => some (.beginAdd s)
  | .beginRem s => some (.beginRem s)
  | .add s => some (.add s)
  | .rem s => some (.rem s)
  | _ => none

variable {c : PipeCfg D}

/-- Move the request of search `k` on shard `s`. -/
def Full.setReq (st : Full c F A) (k : Nat) (s : Fin c.shards) (x : ReqAt F A) : Full c F A :=
  { st with req := update st.req k (update (st.req k) s x) }

/-- The tokens of a search (engine.go:767). -/
def EngCfg.tokens (E : EngCfg D F A) (r : SearchReq F) : List Str := Engine.tokens E.text E.opts r

/-- The ranker of shard `s`. -/
def Full.ranker (E : EngCfg D F A) (st : Full c F A) (s : Fin c.shards) : Ranker F A :=
  Ranker.run E.opts.idOnly (st.fine.pipe.rankHistory E.info E.opts.idOnly s)

/-- Deliver an answer; `none`: the channel (of capacity NumShards, engine.go:782) is full. -/
def Full.deliver (st : Full c F A) (k : Nat) (s : Fin c.shards) (a : Answer F A) : Option (Full c F A) :=
  if (st.chan k).length < c.shards then
    some { st.setReq k s .answered with chan := update st.chan k (st.chan k ++ [(s, a)]) }
  else none

/-- A search action (not one of the pipeline). -/
def Full.search (E : EngCfg D F A) (st : Full c F A) : EAct c.toPipeSize D F → Option (Full c F A)
  | .start r => if st.fine.pipe.inited then some { st with searches := st.searches ++ [r] } else none
  | .send k =>
    if h : k < st.searches.length ∧ st.sent k < c.shards then
      let s : Fin c.shards := ⟨st.sent k, h.2⟩
      if (st.lookupQ s).length < c.idxCap then
        some { st.setReq k s .queued with
          lookupQ := update st.lookupQ s (st.lookupQ s ++ [k])
          sent := update st.sent k (st.sent k + 1) }
      else none
    else none
  | .take s =>
    match st.lookupQ s with
    | k :: q =>
      if st.lookBusy s < E.lookupThreads then
        some { st.setReq k s .taken with
          lookupQ := update st.lookupQ s q, lookBusy := update st.lookBusy s (st.lookBusy s + 1) }
      else none
    | [] => none
  | .lock s k =>
    match st.req k s with
    | .taken => (st.fine.step E.so (.search s)).map (fun f => { st.setReq k s .locked with fine := f })
    | _ => none
  | .look s k =>
    match st.req k s, st.searches[k]? with
    | .locked, some r =>
      match Engine.indexerLookup E.log2 E.opts (st.fine.shard s).ix (E.tokens r) r with
      | none => some { st with dead := true }
      | some out => (st.fine.step E.so (.searched s)).map (fun f => { st.setReq k s (.looked out) with fine := f })
    | _, _ => none
  | .reply s k =>
    match st.req k s with
    | .looked (.answer a) =>
      (st.deliver k s a).map (fun st => { st with lookBusy := update st.lookBusy s (st.lookBusy s - 1) })
    | _ => none
  | .forward s k =>
    match st.req k s with
    | .looked (.rank docs) =>
      if (st.rankQ s).length < c.rankCap then
        some { st.setReq k s (.waiting docs) with
          rankQ := update st.rankQ s (st.rankQ s ++ [k])
          lookBusy := update st.lookBusy s (st.lookBusy s - 1) }
      else none
    | _ => none
  | .takeRank s =>
    match st.rankQ s with
    | k :: q =>
      match st.req k s, st.searches[k]? with
      | .waiting docs, some r =>
        if st.rankBusy s < E.rankThreads then
          some { st.setReq k s (.ranking { opts := shardOpts (Engine.rankOpts E.opts r), countOnly := false,
                                           todo := docs }) with
            rankQ := update st.rankQ s q, rankBusy := update st.rankBusy s (st.rankBusy s + 1) }
        else none
      | _, _ => none
    | [] => none
  | .read s k =>
    match st.req k s with
    | .ranking call =>
      match call.todo with
      | d :: rest => some (st.setReq k s (.ranking (call.read (st.ranker E s) d rest)))
      | [] => none
    | _ => none
  | .replyRank s k =>
    match st.req k s with
    | .ranking call =>
      match call.todo with
      | [] =>
        match call.finish E.gs E.opts.idOnly with
        | none => some { st with dead := true }
        | some x => (st.deliver k s { docs := some x.1, numDocs := x.2 }).map
            (fun st => { st with rankBusy := update st.rankBusy s (st.rankBusy s - 1) })
      | _ :: _ => none
    | _ => none
  | .recv k =>
    match st.chan k with
    | a :: q =>
      if k < st.searches.length ∧ st.sent k = c.shards ∧ (st.got k).length < c.shards then
        some { st with chan := update st.chan k q, got := update st.got k (st.got k ++ [some a]) }
      else none
    | [] => none
  | .timer k =>
    match st.searches[k]? with
    | some r =>
      if st.sent k = c.shards ∧ (st.got k).length < c.shards ∧ 0 < r.timeout then
        some { st with got := update st.got k (st.got k ++ [none]) }
      else none
    | none => none
  | _ => none

/-- One step; `none`: not possible now. -/
def Full.step (E : EngCfg D F A) (st : Full c F A) (a : EAct c.toPipeSize D F) : Option (Full c F A) :=
  if st.dead || st.fine.dead then none else
  match a.fine? with
  | some b => (st.fine.step E.so b).map (fun f => { st with fine := f })
  | none => st.search E a

/-- A run. -/
def Full.run (E : EngCfg D F A) (st : Full c F A) : List (EAct c.toPipeSize D F) → Option (Full c F A)
  | [] => some st
  | a :: l => (st.step E a).bind (fun st' => st'.run E l)

/-- What the call of Search number `k` returns, once it has received one outcome per shard
(engine.go:633-736). -/
def Full.response (E : EngCfg D F A) (st : Full c F A) (k : Nat) : Option (SearchResp F A) :=
  match st.searches[k]? with
  | some r =>
    if (st.got k).length = c.shards then
      Engine.respond E.gs E.opts r (E.tokens r) ((st.got k).map (Option.map (·.2)))
    else none
  | none => none

end Riot
