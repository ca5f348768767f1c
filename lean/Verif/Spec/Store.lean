import Verif.Spec.EngineState

/-!
# Databases and restart
-/

namespace Riot

variable {D : Type}

/-- A database operation on a map. -/
def dbStep (m : Str → Option D) : DbOp D → Str → Option D
  | .set id x => fun k => if k = id then some x else m k
  | .del id => fun k => if k = id then none else m k

/-- The content of a database after operations. -/
def dbApply (m : Str → Option D) (ops : List (DbOp D)) : Str → Option D := ops.foldl dbStep m

/-- `l` lists the content `m` of a database: every key once, with its value (what `ForEach`
visits). -/
def ListsDb (l : List (Str × D)) (m : Str → Option D) : Prop :=
  (l.map (·.1)).Nodup ∧ ∀ id x, (id, x) ∈ l ↔ m id = some x

/-- The content of a database that is listed by `l`. -/
def listedDb (l : List (Str × D)) (id : Str) : Option D := (l.find? (fun x => x.1 = id)).map (·.2)

/-- The content of the database of store shard `m`. -/
def Pipe.dbContent {c : PipeCfg D} (db : Fin c.stores → List (Str × D)) (st : Pipe c) (m : Fin c.stores) :
    Str → Option D := dbApply (listedDb (db m)) (st.dbLog m)

/-- Databases written by engines: every document once, in its store shard. -/
def DbOk (c : PipeCfg D) (db : Fin c.stores → List (Str × D)) : Prop :=
  ∀ m, ((db m).map (·.1)).Nodup ∧ ∀ x ∈ db m, c.storeRoute x.1 = m ∧ x.1 ≠ str "0" ∧ c.encodes x.2 = true

/-- The data of document `d` after calls: the last one given to Index whose encoding succeeded;
the one in the database before, if there is none. -/
def lastStored (c : PipeCfg D) (d : Str) (before : Option D) (calls : List (Call D)) : Option D :=
  calls.foldl (fun acc a => match a with
    | .index id x _ => if id = d ∧ c.encodes x = true then some x else acc
    | _ => acc) before

/-- Every call of Index(d) starts when no other call is in progress. -/
def SequentialFor {c : PipeCfg D} (d : Str) (st : Pipe c) (as : List (Act c.toPipeSize D)) : Prop :=
  ∀ as1 i x f as2 u, as = as1 ++ Act.call i (.index d x f) :: as2 → st.run as1 = some u → u.ClientsIdle

/-- riot.go:122-131 `HasDocDB`: is there a value for the id in its store shard? (Has of the
backends: Model/Backends.) -/
def Pipe.hasDocDB {c : PipeCfg D} (db : Fin c.stores → List (Str × D)) (st : Pipe c) (d : Str) : Bool :=
  (st.dbContent db (c.storeRoute d) d).isSome

/-- riot.go:136-148 `GetDBAllIds`: the keys of all databases in the order `ForEach` visits them. -/
def getDBAllIds {n : Nat} (lists : Fin n → List (Str × D)) : List Str :=
  (List.finRange n).flatMap (fun m => (lists m).map (·.1))

/-- The store shard of a document: engine.go:387, 458, riot.go:123
`murmur.Sum32(docId) % uint32(StoreShards)`; `none`: division by zero. -/
def storeShard (murmur : Str → Nat) (shards : Nat) (id : Str) : Option Nat :=
  if shards % 2 ^ 32 = 0 then none else some (murmur id % 2 ^ 32 % (shards % 2 ^ 32))

end Riot
