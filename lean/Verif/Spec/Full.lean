import Verif.Model.Full
import Verif.Spec.Shard
import Verif.Spec.Gentle
import Verif.Spec.Concurrent

/-!
# Searches while the engine works
-/

namespace Riot

variable {D F A : Type} {c : PipeCfg D}

/-- The engine after the first `t` actions of a schedule (the state in which action number `t` is
executed). -/
def Full.after (E : EngCfg D F A) (st0 : Full c F A) (as : List (EAct c.toPipeSize D F)) (t : Nat) : Full c F A :=
  (st0.run E (as.take t)).getD st0

/-- The action is a call of Search. -/
def EAct.isStart {z : PipeSize} : EAct z D F → Bool
  | .start _ => true
  | _ => false

/-- Search number `k` (from 0) is the call of Search with request `r` that is action number `b` of the schedule. -/
def Began {z : PipeSize} (as : List (EAct z D F)) (k b : Nat) (r : SearchReq F) : Prop :=
  as[b]? = some (.start r) ∧ ((as.take b).filter EAct.isStart).length = k

/-- The documents the index of shard `s` finds for a request, in this state. -/
def Full.found (E : EngCfg D F A) (st : Full c F A) (s : Fin c.shards) (r : SearchReq F) : Option (List IndexedDoc) :=
  ((st.fine.shard s).ix.lookup E.log2 (E.tokens r) r.labels r.docIds false (some r.logic)).map (·.1)

/-- What shard `s` has registered about the documents, in this state. -/
def Full.registered (E : EngCfg D F A) (st : Full c F A) (s : Fin c.shards) : Str → Option (RankData F A) :=
  rankIdeal (st.fine.pipe.rankHistory E.info E.opts.idOnly s)

/-- One shard's part in a search: the moment at which its index was searched, the documents found, and
for each of them the moment at which it was looked up in the ranker. -/
structure Part (c : PipeCfg D) where
  shard : Fin c.shards
  look : Nat
  docs : List IndexedDoc
  reads : List Nat

/-- The index was searched after the search began, and it contained these documents. -/
structure FoundOk (E : EngCfg D F A) (st0 : Full c F A) (as : List (EAct c.toPipeSize D F)) (b : Nat)
    (r : SearchReq F) (p : Part c) : Prop where
  during : b < p.look ∧ p.look < as.length
  found : (Full.after E st0 as p.look).found E p.shard r = some p.docs

/-- The index was searched after the search began, and then the documents found were looked up in the
ranker, one after the other. -/
structure PartOk (E : EngCfg D F A) (st0 : Full c F A) (as : List (EAct c.toPipeSize D F)) (b : Nat)
    (r : SearchReq F) (p : Part c) : Prop extends FoundOk E st0 as b r p where
  reads : p.reads.length = p.docs.length ∧ p.reads.Pairwise (· < ·) ∧ ∀ t ∈ p.reads, p.look < t ∧ t < as.length

/-- The entries the documents `docs` get if they are looked up at the moments `ts` in the ranker of
shard `s`: those that are registered then and get a score. -/
def entriesDuring (E : EngCfg D F A) (st0 : Full c F A) (as : List (EAct c.toPipeSize D F)) (s : Fin c.shards)
    (r : SearchReq F) (docs : List IndexedDoc) (ts : List Nat) : List (ScoredDoc F A) :=
  (docs.zip ts).filterMap (fun x => expectedScored ((Full.after E st0 as x.2).registered E s)
    (wantedRank E.opts r).score x.1)

/-- At some moment after the search began shard `s` had these statistics. -/
def StatsDuring (E : EngCfg D F A) (st0 : Full c F A) (as : List (EAct c.toPipeSize D F)) (b : Nat)
    (s : Fin c.shards) (n avg : Rat) (df : Str → Nat) : Prop :=
  ∃ t, b < t ∧ t < as.length ∧ (Full.after E st0 as t).fine.Stats s n avg df

/-- The entries of a part. -/
def Part.entries (E : EngCfg D F A) (st0 : Full c F A) (as : List (EAct c.toPipeSize D F)) (r : SearchReq F)
    (p : Part c) : List (ScoredDoc F A) := entriesDuring E st0 as p.shard r p.docs p.reads

/-- Entry `e` shows the fields, the content and the attri of a version of its document that was given to shard `s`
(an IDOnly engine keeps neither content nor attri). -/
def ShowsVersion (c : PipeCfg D) (E : EngCfg D F A) (given : List (Call D)) (s : Fin c.shards) (e : ScoredDoc F A) : Prop :=
  ∃ y g, Call.index e.scoredID.docId y g ∈ given ∧ c.route e.scoredID.docId y = s ∧ e.fields = E.info.fields y ∧
    (E.opts.idOnly = false → e.content = E.info.content y ∧ e.attri = E.info.attri y)

/-- The scores and the locations of entry `e` are those of `doc`, as it was found in the index. -/
def ScoredAs (E : EngCfg D F A) (r : SearchReq F) (doc : IndexedDoc) (e : ScoredDoc F A) : Prop :=
  e.scoredID.scores = (wantedRank E.opts r).score doc e.fields ∧ e.scoredID.tokenLocs = doc.tokenLocs ∧
    e.scoredID.tokenSnippetLocs = doc.tokenSnippetLocs

/-- On no shard does a refresh overlap a removal, at any moment of the run. -/
def Full.NoClash (E : EngCfg D F A) (st0 : Full c F A) (as : List (EAct c.toPipeSize D F)) : Prop :=
  ∀ t, t ≤ as.length → ∀ s, ¬ ((Full.after E st0 as t).fine.shard s).Clash

/-- From action number `b` on, no call about document `d` is made. -/
def NobodyCalls {z : PipeSize} (as : List (EAct z D F)) (b : Nat) (d : Str) : Prop :=
  ∀ t i (a : Call D), b ≤ t → as[t]? = some (.pipe (.call i a)) → a.about d = false

/-- The ranker event is about document `d`. -/
def RankEv.about (d : Str) : RankEv D → Bool
  | .add id _ => id = d
  | .remove id => id = d

/-- The rankers have done their work for document `d`: each has executed all the events about it that
the calls so far lead to. -/
def Pipe.RankersDone (db : Fin c.stores → List (Str × D)) (st : Pipe c) (d : Str) : Prop :=
  ∀ s, (((st.given db).flatMap (c.callRank s)).filter (RankEv.about d)).Perm ((st.rankLog s).filter (RankEv.about d))

/-- The action starts a call or a search. -/
def EAct.isNew {z : PipeSize} : EAct z D F → Bool
  | .pipe (.call _ _) => true
  | .start _ => true
  | _ => false

/-- The action is the expiry of the time-out of a search. -/
def EAct.isTimer {z : PipeSize} : EAct z D F → Bool
  | .timer _ => true
  | _ => false

/-- A goroutine in RemoveDocToCache is about to lock the table of its shard (core/indexer.go:267, 304). -/
def RemPC.wantsTable : RemPC → Bool
  | .lockTable .. => true
  | .remove _ => true
  | _ => false

/-- The add worker is about to lock the table of its shard (core/indexer.go:129, 184; 163 for the call of
RemoveDocToCache). -/
def AddPC.wantsTable : AddPC → Bool
  | .lockTable _ => true
  | .lockTable2 _ => true
  | .remove pc _ => pc.wantsTable
  | _ => false

/-- A worker of the shard waits for the table in order to write. A reader that comes now is not let in before
the writer has had the lock (sync.RWMutex: a waiting Lock excludes new readers). -/
def CShard.writerWaits (x : CShard) : Bool := x.add.wantsTable || x.rem.any RemPC.wantsTable

/-- Nothing has to happen: no action is possible, except that a client starts a call or a search, a time-out
expires, or a search takes the read lock of a table for which a writer waits. -/
def Full.Stuck (E : EngCfg D F A) (st : Full c F A) : Prop :=
  ∀ a : EAct c.toPipeSize D F, a.isNew = false → a.isTimer = false →
    st.step E a = none ∨ ∃ s k, a = .lock s k ∧ (st.fine.shard s).writerWaits = true

/-- In the schedule `as`, executed from `st`, no search takes the read lock of a table for which a writer waits. -/
def Full.WritersFirst (E : EngCfg D F A) (st : Full c F A) (as : List (EAct c.toPipeSize D F)) : Prop :=
  ∀ t s k, as[t]? = some (.lock s k) → ((Full.after E st as t).fine.shard s).writerWaits = false

/-- Search number `k` has returned: it was started, and has received an answer or a time-out for every shard. -/
def Full.Returned (st : Full c F A) (k : Nat) : Prop := k < st.searches.length ∧ (st.got k).length = c.shards

/-- A worker has panicked. -/
def Full.crashed (st : Full c F A) : Bool := st.dead || st.fine.dead

/-- Every call of a schedule is gentle (Spec/Gentle). -/
def Full.Gentle (E : EngCfg D F A) (o : IndexerOpts) (db : Fin c.stores → List (Str × D)) (st0 : Full c F A)
    (as : List (EAct c.toPipeSize D F)) : Prop :=
  ∀ t (i : Fin c.clients) (a : Call D), as[t]? = some (.pipe (.call i a)) →
    GentleCall o db (Full.after E st0 as t).fine.pipe a

/-- A request that is none of the shapes that crash (C13, C22): labels without tokens and without logic on a
location index; the Must flag with an explicit Should list but without keywords; a negative offset or a
negative number of outputs. -/
structure SafeReq (o : IndexerOpts) (E : EngCfg D F A) (r : SearchReq F) : Prop where
  labels : ¬ (o.indexType = .locs ∧ E.tokens r = [] ∧ r.labels ≠ [] ∧ r.logic.must = false ∧ r.logic.should = false ∧
    r.logic.notIn = false ∧ r.logic.expr.must = [] ∧ r.logic.expr.should = [])
  must : ¬ (E.tokens r = [] ∧ r.labels = [] ∧ r.logic.must = true ∧ r.logic.expr.must = [] ∧ r.logic.expr.should ≠ [])
  offset : 0 ≤ (wantedRank E.opts r).outputOffset
  max : 0 ≤ (wantedRank E.opts r).maxOutputs

end Riot
