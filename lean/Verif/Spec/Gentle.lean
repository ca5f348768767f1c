import Verif.Spec.Fine
import Verif.Spec.EngineState

/-!
# Gentle use of an engine

No forced calls, Flush only while no other call is in progress, and never so many documents
between two Flushes that a shard refreshes its index on its own.
-/

namespace Riot

variable {D : Type} {c : PipeCfg D}

def Call.isFlush : Call D → Bool
  | .flush => true
  | _ => false

/-- The call gives a document to shard `s`. -/
def PipeCfg.addsTo (c : PipeCfg D) (s : Fin c.shards) : Call D → Bool
  | .index id d _ => id ≠ str "0" && c.route id d = s
  | _ => false

/-- The calls of a list after the last Flush in it. -/
def sinceFlush (l : List (Call D)) : List (Call D) := (l.reverse.takeWhile (fun a => !a.isFlush)).reverse

/-- The number of documents given to shard `s` since the last Flush started (documents found in
a database included). -/
def Pipe.docsSince (db : Fin c.stores → List (Str × D)) (st : Pipe c) (s : Fin c.shards) : Nat :=
  (sinceFlush (st.given db)).countP (c.addsTo s)

/-- No Flush is in progress (a Flush in progress would be the last call). -/
def Pipe.NoFlushRunning (st : Pipe c) : Prop :=
  ∀ (i : Fin c.clients) (l : List (Fin c.clients × Call D)), st.calls = l ++ [(i, .flush)] → st.prog (.client i) = []

/-- A call that is gentle when started in state `st`. -/
def GentleCall (o : IndexerOpts) (db : Fin c.stores → List (Str × D)) (st : Pipe c) : Call D → Prop
  | .index id d f =>
    f = false ∧ st.NoFlushRunning ∧ st.docsSince db (c.route id d) + 1 < o.init.docCacheSize
  | .remove id f => f = false ∧ id ≠ str "0" ∧ st.NoFlushRunning
  | .flush => st.ClientsIdle

/-- The databases at the start do not overfill a shard. -/
def GentleStart (c : PipeCfg D) (o : IndexerOpts) (db : Fin c.stores → List (Str × D)) : Prop :=
  ∀ s, ((c.recovered db).map (fun x => Call.index x.1 x.2 false)).countP (c.addsTo s) < o.init.docCacheSize

/-- Every call of a schedule is gentle. -/
def Fine.Gentle (so : Sorter) (o : IndexerOpts) (db : Fin c.stores → List (Str × D)) (st : Fine c)
    (as : List (FAct c.toPipeSize D)) : Prop :=
  ∀ pre (i : Fin c.clients) (a : Call D) post (st' : Fine c), as = pre ++ .pipe (.call i a) :: post →
    st.run so pre = some st' → GentleCall o db st'.pipe a

end Riot
