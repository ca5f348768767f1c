import Verif.Model.Backends
import Verif.Model.Pipeline

/-!
# The engine's databases in a store library (store_worker.go)

Model/Pipeline has abstract databases: the log of the operations of each store shard. Here the operations are calls of
a library of Model/Backends. `enc` and `dec` are gob's encoder and decoder of `types.DocData`; a nil and an empty slice are
not distinguished.
-/

namespace Riot

variable {D : Type}

/-- store_worker.go:58-59 (`Set(b, buf.Bytes())`) and store_worker.go:65-70 `storeRemoveDoc` (`Delete(b)`). The errors
are ignored. (A document that cannot be encoded is not in the log, store_worker.go:41-45.) -/
def DbOp.onLib (enc : D → Str) : DbOp D → Store.Op
  | .set id x => .set id (enc x)
  | .del id => .delete id

/-- store_worker.go:74-90: the callback of `storeInit`; a value that cannot be decoded is skipped. -/
def storeInitFn (dec : Str → Option D) (acc : List (Str × D)) (k v : Str) : List (Str × D) × Option Unit :=
  match dec v with
  | some x => (acc ++ [(k, x)], none)
  | none => (acc, none)

/-- store_worker.go:73-92 `storeInit`: the documents it indexes, in this order. -/
def storeInitReads (dec : Str → Option D) (m : Store.Db) : List (Str × D) :=
  (Store.forEach m (storeInitFn dec) []).1

/-- The database files, one per store shard, after the operations of an engine. -/
def libAfter {c : PipeCfg D} (b : Store.Lib) (enc : D → Str) (files : Fin c.stores → Store.Db) (st : Pipe c) :
    Fin c.stores → Store.Db :=
  fun m => (Store.run b (files m) ((st.dbLog m).map (DbOp.onLib enc))).1

end Riot
