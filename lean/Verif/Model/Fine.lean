import Verif.Model.Pipeline
import Verif.Model.Shard

/-!
# The indexing pipeline with the locks of its shards

Model/Pipeline with shards of Model/Shard: an index worker that has received a request executes
the actions of AddDocToCache / RemoveDocToCache one by one, interleaved with everything else. The
call is entered into `idxLog` when it returns. A panic anywhere ends the program.
-/

namespace Riot

open Function (update)

variable {D : Type}

/-- State of an engine whose index calls take time. -/
structure Fine (c : PipeCfg D) where
  pipe : Pipe c
  shard : Fin c.shards → CShard

/-- A new engine, as in `Pipe.start`; the index shards are initialised with `o` (engine.go:304-310). -/
def Fine.start (c : PipeCfg D) (o : IndexerOpts) (db : Fin c.stores → List (Str × D)) : Fine c where
  pipe := Pipe.start c db
  shard := fun _ => CShard.init o

/-- Scheduling choices. -/
inductive FAct (z : PipeSize) (D : Type)
  | pipe (a : Act z D)              -- anything but the execution of an index call
  | beginAdd (s : Fin z.shards)     -- the add worker enters AddDocToCache (indexer_worker.go:49)
  | beginRem (s : Fin z.shards)     -- the remove worker enters RemoveDocToCache (indexer_worker.go:65)
  | add (s : Fin z.shards)          -- an action of AddDocToCache
  | rem (s : Fin z.shards)          -- an action of RemoveDocToCache
  | search (s : Fin z.shards)       -- a search locks the table for reading (core/indexer.go:379)
  | searched (s : Fin z.shards)
  deriving DecidableEq

/-- The index call the thread is about to execute or is executing. -/
def Pipe.nextIdx {c : PipeCfg D} (st : Pipe c) (t : Thread c.toPipeSize) : Option IdxOp :=
  match st.prog t with
  | .idx _ op :: _ => some op
  | _ => none

/-- The thread of an action executes an index call next. -/
def Pipe.atIdx {c : PipeCfg D} (st : Pipe c) : Act c.toPipeSize D → Bool
  | .run t => (st.nextIdx t).isSome
  | _ => false

/-- Replace the state of a shard. -/
def Fine.setShard {c : PipeCfg D} (st : Fine c) (s : Fin c.shards) (x : CShard) : Fine c :=
  { st with shard := update st.shard s x }

/-- A step of a shard that does not end a call. -/
def Fine.onShard {c : PipeCfg D} (so : Sorter) (st : Fine c) (s : Fin c.shards) (a : SAct) : Option (Fine c) :=
  ((st.shard s).step so a).map (st.setShard s)

/-- The thread returns from its index call. -/
def Fine.return {c : PipeCfg D} (st : Fine c) (t : Thread c.toPipeSize) : Option (Fine c) :=
  (st.pipe.step (.run t)).map (fun p => { st with pipe := p })

/-- Has a goroutine panicked? -/
def Fine.dead {c : PipeCfg D} (st : Fine c) : Bool := (List.finRange c.shards).any (fun s => (st.shard s).dead)

/-- One step; `none`: not possible now. -/
def Fine.step {c : PipeCfg D} (so : Sorter) (st : Fine c) (a : FAct c.toPipeSize D) : Option (Fine c) :=
  if st.dead then none else
  match a with
  | .pipe a => if st.pipe.atIdx a then none else (st.pipe.step a).map (fun p => { st with pipe := p })
  | .beginAdd s =>
    match st.pipe.nextIdx (.idxAdd s) with
    | some (.add d f) => st.onShard so s (.begin (.add d f))
    | some (.flush f) => st.onShard so s (.begin (.flush f))
    | _ => none
  | .beginRem s =>
    match st.pipe.nextIdx (.idxRem s) with
    | some (.remove id f) => st.onShard so s (.begin (.remove id f))
    | _ => none
  | .add s =>
    (st.onShard so s .add).bind (fun st' =>
      match (st'.shard s).add with
      | .idle => st'.return (.idxAdd s)
      | _ => some st')
  | .rem s =>
    (st.onShard so s .rem).bind (fun st' =>
      match (st'.shard s).rem with
      | none => st'.return (.idxRem s)
      | some _ => some st')
  | .search s => st.onShard so s .search
  | .searched s => st.onShard so s .searched

/-- A run. -/
def Fine.run {c : PipeCfg D} (so : Sorter) (st : Fine c) : List (FAct c.toPipeSize D) → Option (Fine c)
  | [] => some st
  | a :: l => (st.step so a).bind (fun st' => st'.run so l)

end Riot
