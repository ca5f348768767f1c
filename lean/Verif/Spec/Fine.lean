import Verif.Model.Fine
import Verif.Spec.Shard
import Verif.Spec.Pipeline

/-!
# Engines whose index calls overlap
-/

namespace Riot

variable {D : Type} {c : PipeCfg D}

/-- On no shard does a refresh of the index overlap a removal, at any time of the run. -/
def Fine.NoClash (so : Sorter) (st : Fine c) (as : List (FAct c.toPipeSize D)) : Prop :=
  ∀ pre st', pre <+: as → st.run so pre = some st' → ∀ s, ¬ (st'.shard s).Clash

/-- Shard `s` is executing no index call. -/
def Fine.ShardIdle (st : Fine c) (s : Fin c.shards) : Prop := (st.shard s).add = .idle ∧ (st.shard s).rem = none

/-- The steps of the pipeline of Model/Pipeline (where an index call is one step, executed when it
returns) an action leads to. -/
def FAct.coarse (so : Sorter) (st : Fine c) : FAct c.toPipeSize D → List (Act c.toPipeSize D)
  | .pipe a => [a]
  | .add s => match (st.shard s).step so .add with
    | some x => match x.add with | .idle => [.run (.idxAdd s)] | _ => []
    | none => []
  | .rem s => match (st.shard s).step so .rem with
    | some x => match x.rem with | none => [.run (.idxRem s)] | some _ => []
    | none => []
  | _ => []

/-- The action starts a call or a search. -/
def FAct.isNew {z : PipeSize} : FAct z D → Bool
  | .pipe (.call _ _) => true
  | .search _ => true
  | _ => false

/-- Nothing can happen except that a client starts a call or a search. -/
def Fine.Stuck (so : Sorter) (st : Fine c) : Prop := ∀ a : FAct c.toPipeSize D, a.isNew = false → st.step so a = none

/-- Everything is done: all calls and searches have returned, all channels are empty, all workers
are idle. -/
def Fine.Done (st : Fine c) : Prop :=
  st.pipe.inited = true ∧ st.pipe.Quiet ∧ ∀ s, st.ShardIdle s ∧ (st.shard s).readers = 0

/-- Shard `s` is blocked for ever: whatever happens, its workers never finish the index calls they
are executing, and no search can start on it. -/
def Fine.Deadlocked (so : Sorter) (st : Fine c) (s : Fin c.shards) : Prop :=
  ∀ as st', st.run so as = some st' → (st'.shard s).Busy ∧
    st'.step so (.add s) = none ∧ st'.step so (.rem s) = none ∧ st'.step so (.search s) = none

/-- The identifier of the document of an Index call. -/
def Call.indexed : Call D → Option Str
  | .index id _ _ => if id = str "0" then none else some id
  | _ => none

end Riot
