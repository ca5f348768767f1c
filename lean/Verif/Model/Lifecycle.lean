import Verif.Model.Options

/-!
# How calls of an engine end: life cycle (engine.go, riot.go)

Each call of the API either returns, ends the program with `log.Fatal`, or panics. Modelled are the conditions that depend on
the calls made before and on the options: the check `engine.initialized`, the divisions by numbers of shards, and the list of
databases. One goroutine calls. Not modelled here: panics that depend on the request or the documents (C05, C13, C25, C97),
errors of the file system and of the libraries (`log.Fatal` in `Store` and `LoadDict`), and waiting (C32, C65: options that are
not negative start all workers; the waiting loops of Flush end).
-/

namespace Riot

variable {F : Type}

/-- engine.go:62-103: the fields of `Engine` that decide how a call ends. -/
structure Life (F : Type) where
  /-- `engine.initialized` -/
  initialized : Bool := false
  /-- `engine.loaded` -/
  loaded : Bool := false
  /-- `engine.initOptions`, before `Init` the zero value -/
  opts : EngineOpts F := {}
  /-- `len(engine.dbs)` -/
  dbs : Nat := 0

/-- Calls of the API; the arguments that matter here. -/
inductive ApiCall (F : Type)
  | init (o : EngineOpts F) (usedMem : Str)  -- `Init`, while `usedMem` percent of the memory are in use
  | withGse
  | index (docId : Str)                      -- `Index`, `IndexDoc`
  | removeDoc (docId : Str)
  | search                                   -- `Search`, `SearchDoc`, `SearchID`
  | flush                                    -- `Flush`, `FlushIndex`
  | close
  | hasDoc (docId : Str)
  | hasDocDB (docId : Str)
  | allIds                                   -- `GetDBAllIds`, `GetAllDocIds`, `GetDBAllDocs`
  | counters                                 -- `NumIndexed`, `NumRemoved`, `NumTokenAdded` and the deprecated ones

/-- How a call ends. -/
inductive CallEnd
  | returns
  | fatal   -- `log.Fatal`: a message, exit status 1
  | panics
  deriving DecidableEq, Repr

/-- Go's conversion `uint32(n)` of an `int`. -/
def goUint32 (n : Int) : Nat := (n % 2 ^ 32).toNat

/-- engine.go:371-410: `Index(docId, ...)`: the check (400), the store shard (387, a division also without a store), and, in the
segmenter, `getShard` (867-870, segment.go:261). -/
def Life.index (s : Life F) (docId : Str) : CallEnd :=
  if s.initialized = false then .fatal
  else if goUint32 s.opts.storeShards = 0 then .panics
  else if docId ≠ str "0" ∧ goUint32 s.opts.numShards = 0 then .panics
  else .returns

/-- How a call ends, and the engine after it. -/
def Life.call (cpu clients : Nat) (murmur : Str → Nat) (s : Life F) : ApiCall F → CallEnd × Life F
  -- engine.go:277-356
  | .init o usedMem =>
    if s.initialized then (.fatal, s)
    else match o.engine cpu clients s.loaded usedMem with
      | none => (.panics, s)
      | some res => (.returns, { initialized := true, loaded := s.loaded || !o.notUseGse,
                                 opts := ((o.initDef s.loaded).init cpu).checkMem usedMem, dbs := res.size.stores })
  -- engine.go:245-257
  | .withGse => if s.initialized then (.fatal, s) else (.returns, { s with loaded := true })
  | .index docId => (s.index docId, s)
  -- engine.go:431-463
  | .removeDoc docId =>
    (if s.initialized = false then .fatal
     else if s.opts.useStore = true ∧ docId ≠ str "0" ∧ goUint32 s.opts.storeShards = 0 then .panics
     else .returns, s)
  -- engine.go:762-806
  | .search => (if s.initialized = false then .fatal else .returns, s)
  -- engine.go:810-839: after the waiting, IndexDoc("0", ...)
  | .flush => (s.index (str "0"), s)
  -- engine.go:850-857
  | .close => (s.index (str "0"), s)
  -- riot.go:106-118
  | .hasDoc _ => (.returns, s)
  -- riot.go:122-131
  | .hasDocDB docId =>
    (if goUint32 s.opts.storeShards = 0 then .panics
     else if murmur docId % goUint32 s.opts.storeShards < s.dbs then .returns
     else .panics, s)
  -- riot.go:136-180
  | .allIds => (.returns, s)
  -- counters.go:18-45
  | .counters => (.returns, s)

/-- A program: its calls in order, up to the first that does not return. -/
def Life.run (cpu clients : Nat) (murmur : Str → Nat) : Life F → List (ApiCall F) → List CallEnd
  | _, [] => []
  | s, c :: cs =>
    let r := s.call cpu clients murmur c
    r.1 :: (if r.1 = .returns then Life.run cpu clients murmur r.2 cs else [])

end Riot
