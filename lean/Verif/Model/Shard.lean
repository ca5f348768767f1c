import Verif.Model.Indexer

/-!
# One shard with its two writing goroutines and its locks (core/indexer.go:32-366)

Model/Indexer executes an index call as one action. Here the add worker (indexer_worker.go:47-60,
AddDocToCache) and the remove worker (indexer_worker.go:62-73, RemoveDocToCache) of a shard run
concurrently, as do any number of searches; they interleave at the lock operations. `removeCache`
is the array of the code with its pointer: the slice `removeCache[:pointer]` given to
RemoveDocs (line 288) shares its memory with the cache.

Who holds a lock is a function of where the goroutines are: the remove worker holds tableLock only
inside one action, the add worker during its scan; removeCacheLock is held at `lockTable` and
`check`. addCacheLock is used by the add worker only, so it never blocks. Searches hold tableLock
for reading (`readers`).

Simplification: `sort.Sort` of the removal slice (line 289, executed without a lock) is one action.
-/

namespace Riot

/-- Where a goroutine is inside RemoveDocToCache (core/indexer.go:258-296). -/
inductive RemPC
  | lockCache (id : Str) (force : Bool)  -- 265: about to lock removeCacheLock
  | lockTable (id : Str) (force : Bool)  -- 267: holds removeCacheLock, about to lock tableLock
  | check (force : Bool)                 -- 284: holds removeCacheLock
  | sort (n : Nat)                       -- 289: sort.Sort(removeCache[:n]); holds nothing
  | remove (n : Nat)                     -- 290, 304: about to lock tableLock in RemoveDocs
  | ret (removed : Bool)                 -- returned
  deriving DecidableEq

/-- Where the add worker is inside AddDocToCache (core/indexer.go:115-176). -/
inductive AddPC
  | idle
  | put (doc : Option DocIndex) (force : Bool)          -- 121-127
  | lockTable (force : Bool)                            -- 129: about to lock tableLock
  | scan (fuel i position : Nat) (force : Bool)         -- 132-160: holds tableLock
  | lockCache (fuel i position : Nat) (force : Bool) (id : Str)
                                                        -- 146: holds tableLock, about to lock removeCacheLock
  | remove (pc : RemPC) (position : Nat)                -- 163: inside RemoveDocToCache("0", force)
  | lockTable2 (docs : List DocIndex)                   -- 172, 184: about to lock tableLock in AddDocs

/-- A shard. `ix.removeCache` is not used: the removal cache is `arr[:ptr]`. -/
structure CShard where
  ix : Indexer
  arr : List Str
  ptr : Nat
  readers : Nat
  dead : Bool       -- a goroutine has panicked
  add : AddPC
  rem : Option RemPC

/-- core/indexer.go:76-93 `Init`; the removal cache has length 2 * DocCacheSize (line 91). -/
def CShard.init (o : IndexerOpts) : CShard where
  ix := Indexer.init o
  arr := List.replicate (2 * o.init.docCacheSize) []
  ptr := 0
  readers := 0
  dead := false
  add := .idle
  rem := none

/-- The index of Model/Indexer a shard with idle workers represents. -/
def CShard.abs (st : CShard) : Indexer := { st.ix with removeCache := st.arr.take st.ptr }

/-- The add worker holds tableLock. -/
def AddPC.holdsTable : AddPC → Bool
  | .scan .. => true
  | .lockCache .. => true
  | _ => false

/-- A goroutine in RemoveDocToCache holds removeCacheLock. -/
def RemPC.holdsCache : RemPC → Bool
  | .lockTable .. => true
  | .check _ => true
  | _ => false

def AddPC.holdsCache : AddPC → Bool
  | .remove pc _ => pc.holdsCache
  | _ => false

/-- core/indexer.go:274-275, 147-149: append to the removal cache. -/
def CShard.push (st : CShard) (id : Str) : Option CShard :=
  (goSet st.arr st.ptr id).map (fun arr => { st with arr := arr, ptr := st.ptr + 1 })

/-- A panic ends the process. -/
def CShard.orDie (st : CShard) : Option CShard → CShard
  | some st' => st'
  | none => { st with dead := true }

/-- core/indexer.go:266-282: the section of RemoveDocToCache under both locks. -/
def CShard.register (st : CShard) (id : Str) : Option CShard :=
  match st.ix.docsState.get id with
  | some 0 => (st.push id).map (fun st =>
      { st with ix := { st.ix with docsState := st.ix.docsState.set id 1, numDocs := st.ix.numDocs - 1 } })
  | some 2 => some { st with ix := { st.ix with docsState := st.ix.docsState.set id 1 } }
  | _ => some st

/-- One action of a goroutine in RemoveDocToCache; `tableFree`, `cacheFree`: can it lock? `none`:
blocked (or returned). -/
def CShard.remStep (so : Sorter) (st : CShard) (tableFree cacheFree : Bool) : RemPC → Option (CShard × RemPC)
  | .lockCache id force =>
    if cacheFree then some (st, if id ≠ str "0" then .lockTable id force else .check force) else none
  | .lockTable id force =>
    if tableFree then some (st.orDie (st.register id), .check force) else none
  | .check force =>
    if st.ptr > 0 ∧ (st.ptr ≥ st.ix.opts.docCacheSize ∨ force = true) then
      some ({ st with ptr := 0 }, .sort st.ptr)
    else some (st, .ret false)
  | .sort n => some ({ st with arr := so.ids (st.arr.take n) ++ st.arr.drop n }, .remove n)
  | .remove n =>
    if tableFree then
      some (st.orDie ((st.ix.removeDocs (st.arr.take n)).map (fun ix => { st with ix := ix })), .ret true)
    else none
  | .ret _ => none

/-- One action of the add worker; `none`: blocked or idle. -/
def CShard.addStep (so : Sorter) (st : CShard) : Option CShard :=
  let cacheFree := !(st.rem.any RemPC.holdsCache)
  match st.add with
  | .idle => none
  | .put doc force =>
    match (match doc with
      | none => some st.ix
      | some d =>
        if st.ix.addCache.length < st.ix.opts.docCacheSize then
          some { st.ix with addCache := st.ix.addCache ++ [d] }
        else none) with
    | none => some { st with dead := true }
    | some ix =>
      some { st with ix := ix, add :=
        if ix.addCache.length ≥ ix.opts.docCacheSize ∨ force = true then .lockTable force else .idle }
  | .lockTable force =>
    if st.readers = 0 then some { st with add := .scan st.ix.addCache.length 0 0 force } else none
  | .scan 0 _ position force =>
    some { st with add := .remove (.lockCache (str "0") force) position }
  | .scan (fuel + 1) i position force =>
    match st.ix.addCache[i]? with
    | none => some { st with dead := true }
    | some doc =>
      match st.ix.docsState.get doc.docId with
      | none => some { st with
          ix := { st.ix with docsState := st.ix.docsState.set doc.docId 2 },
          add := .scan fuel (i + 1) position force }
      | some s =>
        if s ≤ 1 then
          match swapCache st.ix.addCache position i doc with
          | none => some { st with dead := true }
          | some cache =>
            some { st with
              ix := { st.ix with addCache := cache },
              add := if s = 0 then .lockCache fuel i position force doc.docId
                     else .scan fuel (i + 1) (position + 1) force }
        else some { st with add := .scan fuel (i + 1) position force }
  | .lockCache fuel i position force id =>
    if cacheFree then
      some (st.orDie ((st.push id).map (fun st => { st with
        ix := { st.ix with docsState := st.ix.docsState.set id 1, numDocs := st.ix.numDocs - 1 },
        add := .scan fuel (i + 1) (position + 1) force })))
    else none
  | .remove (.ret removed) position =>
    let position := if removed then 0 else position
    some { st with
      ix := { st.ix with addCache := st.ix.addCache.take position },
      add := .lockTable2 (so.docs (st.ix.addCache.drop position)) }
  | .remove pc position =>
    (st.remStep so (st.readers = 0) cacheFree pc).map (fun x => { x.1 with add := .remove x.2 position })
  | .lockTable2 docs =>
    if st.readers = 0 then
      some (st.orDie ((st.ix.addDocs docs).map (fun ix => { st with ix := ix, add := .idle })))
    else none

/-- One action of the remove worker; `none`: blocked or idle. -/
def CShard.remWorkerStep (so : Sorter) (st : CShard) : Option CShard :=
  match st.rem with
  | none => none
  | some (.ret _) => some { st with rem := none }
  | some pc =>
    (st.remStep so (st.readers = 0 ∧ !st.add.holdsTable) (!st.add.holdsCache) pc).map
      (fun x => { x.1 with rem := some x.2 })

/-- Scheduling choices on a shard. -/
inductive SAct
  | begin (op : IdxOp)  -- a worker takes a request and starts its index call
  | add                 -- the add worker acts
  | rem                 -- the remove worker acts
  | search              -- a search locks tableLock for reading
  | searched            -- ... and unlocks it
  deriving DecidableEq

/-- One step of a shard; `none`: not possible now. -/
def CShard.step (so : Sorter) (st : CShard) : SAct → Option CShard
  | .begin op =>
    if st.dead then none else
    match op with
    | .add d f => match st.add with | .idle => some { st with add := .put (some d) f } | _ => none
    | .flush f => match st.add with | .idle => some { st with add := .put none f } | _ => none
    | .remove id f => match st.rem with | none => some { st with rem := some (.lockCache id f) } | _ => none
  | .add => if st.dead then none else st.addStep so
  | .rem => if st.dead then none else st.remWorkerStep so
  | .search => if st.dead ∨ st.add.holdsTable then none else some { st with readers := st.readers + 1 }
  | .searched => if st.dead ∨ st.readers = 0 then none else some { st with readers := st.readers - 1 }

/-- A run of a shard. -/
def CShard.run (so : Sorter) (st : CShard) : List SAct → Option CShard
  | [] => some st
  | a :: l => (st.step so a).bind (fun st' => st'.run so l)

end Riot
