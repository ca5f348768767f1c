import Verif.Model.Pipeline
import Verif.Spec.Index

/-!
# What the calls of an engine mean for its shards
-/

namespace Riot

variable {D : Type}

/-- The index calls an API call leads to on shard `s`: a document goes to its shard, a forced
refresh to every shard, a removal to every shard. -/
def PipeCfg.callOps (c : PipeCfg D) (s : Fin c.shards) : Call D → List IdxOp
  | .index id d force =>
    if id = str "0" then (if force then [.flush true] else [])
    else if c.route id d = s then [.add (c.docOf id d) force]
    else if force then [.flush true] else []
  | .remove id force => [.remove id force]
  | .flush => [.flush true]

/-- The index calls the databases lead to on shard `s` when an engine starts. -/
def PipeCfg.recoverOps (c : PipeCfg D) (db : Fin c.stores → List (Str × D)) (s : Fin c.shards) :
    List IdxOp :=
  if c.useStore then
    (List.finRange c.stores).flatMap (fun m => (db m).flatMap (fun x =>
      c.callOps s (.index x.1 x.2 false)))
  else []

/-- All index calls issued to shard `s` so far. -/
def Pipe.issued {c : PipeCfg D} (db : Fin c.stores → List (Str × D)) (st : Pipe c)
    (s : Fin c.shards) : List IdxOp :=
  c.recoverOps db s ++ st.calls.flatMap (fun x => c.callOps s x.2)

/-- The ranker events an API call leads to on shard `s`. -/
def PipeCfg.callRank (c : PipeCfg D) (s : Fin c.shards) : Call D → List (RankEv D)
  | .index id d _ => if id ≠ str "0" ∧ c.route id d = s then [.add id d] else []
  | .remove id _ => if id ≠ str "0" then [.remove id] else []
  | .flush => []

/-- All ranker events issued to shard `s` so far. -/
def Pipe.issuedRank {c : PipeCfg D} (db : Fin c.stores → List (Str × D)) (st : Pipe c)
    (s : Fin c.shards) : List (RankEv D) :=
  (if c.useStore then
    (List.finRange c.stores).flatMap (fun m => (db m).flatMap (fun x =>
      c.callRank s (.index x.1 x.2 false)))
  else []) ++ st.calls.flatMap (fun x => c.callRank s x.2)

/-- The database operations an API call leads to on store shard `m`. -/
def PipeCfg.callDb (c : PipeCfg D) (m : Fin c.stores) : Call D → List (DbOp D)
  | .index id d _ =>
    if c.useStore ∧ id ≠ str "0" ∧ c.storeRoute id = m ∧ c.encodes d then [.set id d] else []
  | .remove id _ => if c.useStore ∧ id ≠ str "0" ∧ c.storeRoute id = m then [.del id] else []
  | .flush => []

/-- All database operations issued to store shard `m` so far. -/
def Pipe.issuedDb {c : PipeCfg D} (st : Pipe c) (m : Fin c.stores) : List (DbOp D) :=
  st.calls.flatMap (fun x => c.callDb m x.2)

/-- Every client is idle: all its calls have returned. -/
def Pipe.ClientsIdle {c : PipeCfg D} (st : Pipe c) : Prop :=
  ∀ i, st.prog (.client i) = []

/-- Nothing is left to do anywhere. -/
def Pipe.Quiet {c : PipeCfg D} (st : Pipe c) : Prop :=
  (∀ t, st.prog t = []) ∧ (∀ q, st.chan q = []) ∧ st.spawned = []

/-- The action starts a call. -/
def Act.isCall {z : PipeSize} : Act z D → Bool
  | .call _ _ => true
  | _ => false

/-- Calls of Index with a real id; calls of RemoveDoc with a real id. -/
def Call.isIndex : Call D → Bool
  | .index id _ _ => id ≠ str "0"
  | _ => false

def Call.isRemove : Call D → Bool
  | .remove id _ => id ≠ str "0"
  | _ => false

/-- The configurations `Init` produces (types/engine_init_options.go:106-160): at least one
thread and buffer slot of each kind, at least one shard. -/
structure PipeSize.Ok (z : PipeSize) : Prop where
  gse : 1 ≤ z.gse
  shards : 1 ≤ z.shards
  segCap : 1 ≤ z.segCap
  idxCap : 1 ≤ z.idxCap
  rankCap : 1 ≤ z.rankCap

/-- A Flush by client `i` with nothing else going on: all calls made before have returned when
it starts (in state `st`), and no call starts before it returns (in state `st'`). -/
def FlushCompletes {c : PipeCfg D} (i : Fin c.clients) (st st' : Pipe c) : Prop :=
  st.ClientsIdle ∧ ∃ (st1 : Pipe c) (as : List (Act c.toPipeSize D)),
    st.step (.call i .flush) = some st1 ∧ (∀ a ∈ as, a.isCall = false) ∧
    st1.run as = some st' ∧ st'.prog (.client i) = []

/-- The index call adds a document or removes one (`RemoveDoc "0"` removes nothing). -/
def IdxOp.isWork : IdxOp → Bool
  | .add _ _ => true
  | .remove id _ => id ≠ str "0"
  | .flush _ => false

/-- The index call includes a refresh. -/
def IdxOp.force : IdxOp → Bool
  | .add _ f => f
  | .remove _ f => f
  | .flush f => f

/-- A Flush by client `i` starts in `st` and has returned in `st'`; `during` are the actions in between, which
may include calls by others. -/
def FlushReturns {c : PipeCfg D} (i : Fin c.clients) (st st' : Pipe c) (during : List (Act c.toPipeSize D)) : Prop :=
  (∀ a ∈ during, ∀ b, a ≠ .call i b) ∧ ∃ st1 : Pipe c,
    st.step (.call i .flush) = some st1 ∧ st1.run during = some st' ∧ st'.prog (.client i) = []

/-- What a Flush promises for a shard: the shard has executed all additions and removals that were issued
before the Flush and made a refresh afterwards. -/
def Pipe.Flushed {c : PipeCfg D} (db : Fin c.stores → List (Str × D)) (st st' : Pipe c) (s : Fin c.shards) : Prop :=
  ∃ L M : List IdxOp, st'.idxLog s = L ++ M ∧
    ((st.issued db s).filter IdxOp.isWork).Subperm L ∧ ∃ op ∈ M, op.force = true

/-- The call is about document `d`. -/
def Call.about (d : Str) : Call D → Bool
  | .index id _ _ => id = d
  | .remove id _ => id = d
  | .flush => false

/-- The index calls about document `d`. -/
def docOps (d : Str) (l : List IdxOp) : List IdxOp := l.filter (fun op => op.id? = some d)

/-- The documents in the databases an engine starts with. -/
def PipeCfg.recovered (c : PipeCfg D) (db : Fin c.stores → List (Str × D)) : List (Str × D) :=
  if c.useStore then (List.finRange c.stores).flatMap db else []

/-- `d` is used with discipline: every two calls about `d` are separated by a Flush. The state
`st` is reached after a Flush that followed the last call about `d`, and `l` are the calls about
`d` so far, in order (a document found in a database counts as a call of Index). -/
inductive Rounds {c : PipeCfg D} (db : Fin c.stores → List (Str × D)) (d : Str) :
    Pipe c → List (Call D) → Prop
  | first (as : List (Act c.toPipeSize D)) (i : Fin c.clients) (st1 st2 : Pipe c) :
      (Pipe.start c db).run as = some st1 → FlushCompletes i st1 st2 →
      (((c.recovered db).map (fun x => Call.index x.1 x.2 false) ++
        st1.calls.map (·.2)).filter (Call.about d)).length ≤ 1 →
      Rounds db d st2 (((c.recovered db).map (fun x => Call.index x.1 x.2 false) ++
        st1.calls.map (·.2)).filter (Call.about d))
  | next (st : Pipe c) (l : List (Call D)) (as : List (Act c.toPipeSize D)) (i : Fin c.clients)
      (st1 st2 : Pipe c) (news : List (Fin c.clients × Call D)) :
      Rounds db d st l → st.run as = some st1 → FlushCompletes i st1 st2 →
      st1.calls = st.calls ++ news →
      ((news.map (·.2)).filter (Call.about d)).length ≤ 1 →
      Rounds db d st2 (l ++ (news.map (·.2)).filter (Call.about d))
  | later (st : Pipe c) (l : List (Call D)) (as : List (Act c.toPipeSize D)) (st2 : Pipe c)
      (news : List (Fin c.clients × Call D)) :
      Rounds db d st l → st.run as = some st2 → st2.calls = st.calls ++ news →
      (news.map (·.2)).filter (Call.about d) = [] → Rounds db d st2 l

end Riot
