import Mathlib.Logic.Function.Basic
import Mathlib.Data.List.Basic

/-!
# The workers of Search: queues, threads and channels

engine.go:762-809 (`Search` makes a channel of capacity NumShards, sends the request to every
shard, then runs NumShards receive rounds), indexer_worker.go:115-149 (`indexerLookup`
threads) and ranker_worker.go:60-73 (`rankerRank` threads), for any number of concurrent
searches. Everything that can block in Go (a send to a full channel, a receive from an empty
one) is an action that is not enabled (`none`). What a shard computes is given by an oracle
(`direct`, `ans`), so that the index and ranker contents may differ at every moment.
-/

namespace Riot

/-- engine.go:106-149 channel capacities and 336-348 thread numbers. -/
structure ProtoCfg where
  numShards : Nat
  lookupCap : Nat      -- IndexerBufLen
  lookupThreads : Nat  -- NumIndexerThreads (per shard)
  rankCap : Nat        -- RankerBufLen
  rankThreads : Nat    -- NumRankerThreads (per shard)

/-- Per search and shard: does the lookup worker answer directly (count-only, nothing found,
orderless) or pass the request to the ranker, and the answer; per search: is there a timeout. -/
structure ProtoOracle (α : Type) where
  direct : Nat → Nat → Bool
  ans : Nat → Nat → α
  timeout : Nat → Bool

/-- State of all queues. Searches are numbered in the order in which they start. -/
structure PState (α : Type) where
  started : Nat                -- number of searches started
  sent : Nat → Nat             -- search ↦ number of shards the request was sent to
  lookupQ : Nat → List Nat     -- shard ↦ indexerLookupChans[shard]
  lookW : Nat → List Nat       -- shard ↦ requests held by its indexerLookup threads
  rankQ : Nat → List Nat       -- shard ↦ rankerRankChans[shard]
  rankW : Nat → List Nat       -- shard ↦ requests held by its rankerRank threads
  chan : Nat → List α          -- search ↦ its rankerReturnChan
  got : Nat → List (Option α)  -- search ↦ outcome of its receive rounds (none = timer)
  answered : Nat → List Nat    -- ghost: search ↦ shards that have answered, in order

/-- No search yet. -/
def PState.init {α : Type} : PState α :=
  { started := 0, sent := fun _ => 0, lookupQ := fun _ => [], lookW := fun _ => [],
    rankQ := fun _ => [], rankW := fun _ => [], chan := fun _ => [], got := fun _ => [],
    answered := fun _ => [] }

/-- Atomic actions. -/
inductive PAct
  | start                 -- a user calls Search
  | send (s : Nat)        -- engine.go:798-800, next shard
  | takeLookup (i : Nat)  -- indexer_worker.go:117
  | answer (i s : Nat)    -- indexer_worker.go:124, 129 and 92, 108
  | forward (i s : Nat)   -- indexer_worker.go:147
  | takeRank (i : Nat)    -- ranker_worker.go:62
  | answerRank (i s : Nat)-- ranker_worker.go:70
  | recv (s : Nat)        -- engine.go:567, 607
  | timer (s : Nat)       -- engine.go:617
  deriving DecidableEq

open Function (update)

/-- One action; `none` = not enabled (blocked). -/
def PState.step {α : Type} (c : ProtoCfg) (o : ProtoOracle α) (st : PState α) :
    PAct → Option (PState α)
  | .start => some { st with started := st.started + 1 }
  | .send s =>
    if s < st.started ∧ st.sent s < c.numShards ∧ (st.lookupQ (st.sent s)).length < c.lookupCap then
      some { st with
        lookupQ := update st.lookupQ (st.sent s) (st.lookupQ (st.sent s) ++ [s])
        sent := update st.sent s (st.sent s + 1) }
    else none
  | .takeLookup i =>
    match st.lookupQ i with
    | s :: q =>
      if i < c.numShards ∧ (st.lookW i).length < c.lookupThreads then
        some { st with lookupQ := update st.lookupQ i q, lookW := update st.lookW i (s :: st.lookW i) }
      else none
    | [] => none
  | .answer i s =>
    if i < c.numShards ∧ s ∈ st.lookW i ∧ o.direct s i = true ∧ (st.chan s).length < c.numShards then
      some { st with
        lookW := update st.lookW i ((st.lookW i).erase s)
        chan := update st.chan s (st.chan s ++ [o.ans s i])
        answered := update st.answered s (st.answered s ++ [i]) }
    else none
  | .forward i s =>
    if i < c.numShards ∧ s ∈ st.lookW i ∧ o.direct s i = false ∧ (st.rankQ i).length < c.rankCap then
      some { st with
        lookW := update st.lookW i ((st.lookW i).erase s)
        rankQ := update st.rankQ i (st.rankQ i ++ [s]) }
    else none
  | .takeRank i =>
    match st.rankQ i with
    | s :: q =>
      if i < c.numShards ∧ (st.rankW i).length < c.rankThreads then
        some { st with rankQ := update st.rankQ i q, rankW := update st.rankW i (s :: st.rankW i) }
      else none
    | [] => none
  | .answerRank i s =>
    if i < c.numShards ∧ s ∈ st.rankW i ∧ (st.chan s).length < c.numShards then
      some { st with
        rankW := update st.rankW i ((st.rankW i).erase s)
        chan := update st.chan s (st.chan s ++ [o.ans s i])
        answered := update st.answered s (st.answered s ++ [i]) }
    else none
  | .recv s =>
    match st.chan s with
    | a :: q =>
      if s < st.started ∧ st.sent s = c.numShards ∧ (st.got s).length < c.numShards then
        some { st with chan := update st.chan s q, got := update st.got s (st.got s ++ [some a]) }
      else none
    | [] => none
  | .timer s =>
    if s < st.started ∧ st.sent s = c.numShards ∧ (st.got s).length < c.numShards ∧
        o.timeout s = true then
      some { st with got := update st.got s (st.got s ++ [none]) }
    else none

/-- A schedule. -/
def PState.run {α : Type} (c : ProtoCfg) (o : ProtoOracle α) (st : PState α) :
    List PAct → Option (PState α)
  | [] => some st
  | a :: as => (st.step c o a).bind (fun st' => st'.run c o as)

end Riot
