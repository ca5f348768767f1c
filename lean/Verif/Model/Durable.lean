import Verif.Model.StoreLib

/-!
# Power failures and Close

What of the databases' writes is on the disk when the machine fails, and what Close leaves.
-/

namespace Riot

variable {D : Type}

/-- The stores `OpenStore` knows (store/store.go:29-35); "ldb" is the default (store/store.go:22-27). -/
inductive Bundled
  | ldb
  | bolt
  | bg (tooBig : Str → Str → Bool)

/-- The library behind a store. -/
def Bundled.lib : Bundled → Store.Lib
  | .ldb => Store.leveldb
  | .bolt => Store.bbolt
  | .bg tooBig => Store.badgerDb tooBig

/-- Is a write on the disk when it returns? goleveldb: no (store/ldb_store.go:48, 68: `Put(k, v, nil)`, `Delete(k, nil)`; nil write
options do not sync). bbolt: yes, a transaction syncs the file when it commits unless NoSync is set (store/bolt_store.go:32 does not
set it). badger v1.6.1: yes, `DefaultOptions` has SyncWrites (store/badger_store.go:37-41). -/
def Bundled.synced : Bundled → Bool
  | .ldb => false
  | .bolt => true
  | .bg _ => true

/-- What a power failure can leave of the databases of an engine in state `st` that was started on `files`: of the writes of each
database a first part (goleveldb journals its writes in order and drops an incomplete end when it is opened), all of them if the
library syncs. Simplification: the files an engine was started on are on the disk (goleveldb writes the recovered journal into a
synced table when it opens). -/
def AfterPowerLoss {c : PipeCfg D} (b : Bundled) (enc : D → Str) (files : Fin c.stores → Store.Db) (st : Pipe c)
    (left : Fin c.stores → Store.Db) : Prop :=
  ∀ m, ∃ k, (b.synced = true → (st.dbLog m).length ≤ k) ∧
    left m = (Store.run b.lib (files m) (((st.dbLog m).take k).map (DbOp.onLib enc))).1

/-- engine.go:852-859 `Close` after its Flush, which ended in state `st`: each database is closed at some moment of the following
actions `during` (other goroutines go on), and later calls on it are refused with an error that store_worker.go:59 and 69 ignore. `left`
are the files. -/
def ClosedFiles {c : PipeCfg D} (b : Store.Lib) (enc : D → Str) (files : Fin c.stores → Store.Db) (st : Pipe c)
    (during : List (Act c.toPipeSize D)) (left : Fin c.stores → Store.Db) : Prop :=
  ∀ m, ∃ (n : Nat) (u : Pipe c), st.run (during.take n) = some u ∧ left m = libAfter b enc files u m

end Riot
