import Verif.Spec.Pipeline
import Verif.Spec.EngineSearch

/-!
# The shards of a running engine, as a search sees them
-/

namespace Riot

variable {D F A : Type}

/-- The parts of the document data that go to the ranker (types/doc_index_data.go:19-42 `DocData`). -/
structure RankInfo (D F A : Type) where
  fields : D → Option F
  content : D → Str
  attri : D → Option A

/-- The ranker call of an event: ranker_worker.go:46-58 `rankerAddDoc` (an IDOnly engine passes
neither content nor attri), 75-80 `rankerRemoveDoc`. -/
def RankEv.op (info : RankInfo D F A) (idOnly : Bool) : RankEv D → RankerOp F A
  | .add id d =>
    .add id (info.fields d) (if idOnly then none else some (info.content d, some (info.attri d)))
  | .remove id => .remove id

/-- The calls of a ranker so far. -/
def Pipe.rankHistory {c : PipeCfg D} (info : RankInfo D F A) (idOnly : Bool) (st : Pipe c)
    (s : Fin c.shards) : List (RankerOp F A) :=
  (st.rankLog s).map (RankEv.op info idOnly)

/-- What was given to an engine so far: the documents found in the databases at its start
(seen as Index calls) and the calls. -/
def Pipe.given {c : PipeCfg D} (db : Fin c.stores → List (Str × D)) (st : Pipe c) : List (Call D) :=
  (c.recovered db).map (fun x => Call.index x.1 x.2 false) ++ st.calls.map (·.2)

end Riot
