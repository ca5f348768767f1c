import Verif.Model.Options
import Verif.Model.Net
import Verif.Basic.GoMap

/-!
# Opening the store (store/store.go, engine.go:185-246) and configuring a server (net/com/search.go)

Not modelled: what a library finds in a file another library wrote (a parameter decides whether an open
succeeds), directory permissions, `toml` files.
-/

namespace Riot

/-- The library behind an open function: the three of store/store.go:30-36, or the n-th one of the user's. -/
inductive Backend
  | leveldb
  | badger
  | bolt
  | user (n : Nat)
  deriving DecidableEq, Repr

/-- store/store.go:30-36 `supportedStore`. -/
def supportedStore : GoMap Backend :=
  ((GoMap.empty.set (str "bolt") .bolt).set (str "bg") .badger).set (str "ldb") .leveldb

/-- store/store.go:39-41 `RegisterStore`, a sequence of calls. -/
def registerStores (calls : List (Str × Backend)) : GoMap Backend :=
  calls.foldl (fun m c => m.set c.1 c.2) supportedStore

/-- store/store.go:55-72 `OpenStore`: the open function that is called; `env` is the environment variable
`Riot_Store_Engine` (empty if it is not set). -/
def openStore (reg : GoMap Backend) (env : Str) (args : List Str) : Option Backend :=
  let storeName := str "ldb"
  let storeName := match args with
    | a :: _ => if a ≠ [] then a else if env ≠ [] then env else storeName
    | [] => if env ≠ [] then env else storeName
  reg.get storeName

/-- `strconv.Itoa` of a number that is not negative. -/
def itoa (n : Nat) : Str :=
  if n < 10 then [Fin.ofNat 256 (48 + n)] else itoa (n / 10) ++ [Fin.ofNat 256 (48 + n % 10)]
termination_by n
decreasing_by omega

/-- engine.go:196-197, 231-232: the file of a store shard. -/
def dbPath (folder : Str) (shard : Nat) : Str := folder ++ str "/" ++ (str "riot" ++ str "." ++ itoa shard)

/-- engine.go:195-204 (and 229-239): open the databases of all shards; `opens` tells whether the library
can open the file. `none`: `log.Fatal`. -/
def openShards (reg : GoMap Backend) (env : Str) (opens : Backend → Str → Bool) (folder engine : Str) (shards : Nat) :
    Option (List (Str × Backend)) :=
  (List.range shards).mapM fun shard => do
    let b ← openStore reg env [engine]
    if opens b (dbPath folder shard) then some (dbPath folder shard, b) else none

/-- engine.go:185-246 `Store`: the databases are opened, read (storeInit, see Spec/Pipeline `Pipe.start`),
closed and opened again. `mkdir`: the folder can be made. The result: the databases documents are
recovered from, and those documents are stored in. -/
def EngineOpts.openStores {F : Type} (o : EngineOpts F) (reg : GoMap Backend) (env : Str) (mkdir : Str → Bool)
    (opens reopens : Backend → Str → Bool) : Option (List (Str × Backend) × List (Str × Backend)) := do
  if mkdir o.storeFolder then
    let first ← openShards reg env opens o.storeFolder o.storeEngine o.storeShards.toNat
    let second ← openShards reg env reopens o.storeFolder o.storeEngine o.storeShards.toNat
    return (first, second)
  else none

/-- engine.go:277-356 `Engine.Init`: the databases of an engine (351-353; `some none`: it has no
store; `none`: it does not start). -/
def EngineOpts.databases {F : Type} (o : EngineOpts F) (cpu clients : Nat) (loaded : Bool) (usedMem : Str)
    (reg : GoMap Backend) (env : Str) (mkdir : Str → Bool) (opens reopens : Backend → Str → Bool) :
    Option (Option (List (Str × Backend) × List (Str × Backend))) := do
  let o' := ((o.initDef loaded).init cpu).checkMem usedMem
  let _ ← o'.resources clients loaded
  if o'.useStore then
    let dbs ← o'.openStores reg env mkdir opens reopens
    return some dbs
  else return none

namespace Net

/-- net/com/conf.go:29-46 `Engine`: the section `engine` of a server's configuration (the fields `Mode`, `Relation`,
`Time` and `Ts` are never read). -/
structure EngineConf extends Conf where
  using_ : Int := 0
  storeShards : Int := 0
  storeEngine : Str := []
  storeFolder : Str := []
  numShards : Int := 0
  gseDict : Str := []
  gseMode : Str := []
  stopTokenFile : Str := []

/-- net/com/search.go:34-82 `InitEngine`: the options of the server's engine. -/
def comEngineOpts {F : Type} (conf : EngineConf) : EngineOpts F :=
  let path := str "./riot-index"
  let path := if conf.storeFolder ≠ [] then conf.storeFolder else path
  let path := if conf.storeFolder ≠ [] then conf.storeFolder else path
  let storageShards := if conf.storeShards ≠ 0 then conf.storeShards else 10
  let numShards := if conf.numShards ≠ 0 then conf.numShards else 10
  let segmentDict := if conf.gseDict ≠ [] then conf.gseDict else str "../dict/dictionary.txt"
  { using_ := conf.using_, storeShards := storageShards, numShards := numShards,
    indexerOpts := some { indexType := .docIds, docCacheSize := 0, bm25 := none },
    useStore := true, storeFolder := path, storeEngine := conf.storeEngine,
    gseDict := segmentDict, stopTokenFile := conf.stopTokenFile }

end Net

end Riot
