import Verif.Basic.GoStr

/-!
# Engine.HasDoc and the slice of indexers (riot.go:105-117, engine.go:305-307)

`engine.indexers` is a Go slice of `core.Indexer` **values**. Every call `engine.indexers[shard].F()`
takes the address of an element of the backing array at the start of the call. `HasDoc` appends to
the slice; when the capacity is exceeded `append` copies all elements to a new backing array,
with their mutexes. What the copies share are the maps (`table`, `docsState`, `docTokenLens`) and
the cache slices; the mutexes, cache pointers and counters are copied.

Simplifications: the locks of an indexer are one flag, set while a call of a worker is in progress
(`AddDocToCache` and `RemoveDocToCache` hold a lock for most of their duration); at most one worker
call per shard is in progress; `HasDoc` is one atomic action (its unsynchronised read of the map
during a write, which the Go runtime may punish by ending the process, is not modelled).
-/

namespace Riot.HasDoc

/-- The copied part of a `core.Indexer`: is a mutex held, and the counters and cache pointers. -/
structure Cell (P : Type) where
  locked : Bool
  priv : P
  deriving DecidableEq, Repr

/-- `engine.indexers`: backing arrays (by generation), the current header, the shared maps of each
shard, and the worker calls in progress (with the array their receiver points into). -/
structure Eng (P M : Type) where
  cells : Nat → Nat → Cell P
  gen : Nat
  len : Nat
  cap : Nat
  maps : Nat → M
  busy : Nat → Option Nat

variable {P M : Type}

/-- `append(engine.indexers, core.Indexer{})`; `grow cap` is the capacity Go chooses for a larger
array. -/
def Eng.append (grow : Nat → Nat) (blank : P) (s : Eng P M) : Eng P M :=
  if s.len < s.cap then
    { s with
      cells := fun g i => if g = s.gen ∧ i = s.len then ⟨false, blank⟩ else s.cells g i
      len := s.len + 1 }
  else
    { s with
      cells := fun g i =>
        if g = s.gen + 1 then (if i = s.len then ⟨false, blank⟩ else s.cells s.gen i)
        else s.cells g i
      gen := s.gen + 1
      len := s.len + 1
      cap := grow s.cap }

/-- riot.go:105-117 `HasDoc`, the loop from `shard` on (`todo` shards left); `present` is
core/indexer.go:101-108 (`docsState[docId] == 0`). -/
def Eng.hasDocLoop (grow : Nat → Nat) (blank : P) (present : M → Bool) (shard : Nat) :
    Nat → Eng P M → Eng P M × Bool
  | 0, s => (s, false)
  | todo + 1, s =>
    if present ((s.append grow blank).maps shard) then (s.append grow blank, true)
    else Eng.hasDocLoop grow blank present (shard + 1) todo (s.append grow blank)

/-- riot.go:105-117 `HasDoc` of an engine with `n` shards. -/
def Eng.hasDoc (grow : Nat → Nat) (blank : P) (n : Nat) (present : M → Bool) (s : Eng P M) :
    Eng P M × Bool :=
  Eng.hasDocLoop grow blank present 0 n s

/-- The actions. -/
inductive Act (P M : Type)
  /-- a worker calls `engine.indexers[shard].F(…)` and acquires its lock -/
  | enter (shard : Nat)
  /-- the call ends: its effect, and the unlock, on the element it was called on -/
  | leave (shard : Nat) (effect : P → M → P × M)
  /-- a user calls HasDoc -/
  | hasDoc (present : M → Bool)

/-- One action (`none`: not possible now, for `enter` because a mutex is held). -/
def Eng.step (grow : Nat → Nat) (blank : P) (n : Nat) (s : Eng P M) : Act P M → Option (Eng P M)
  | .enter sh =>
    if sh < n ∧ s.busy sh = none ∧ (s.cells s.gen sh).locked = false then
      some { s with
        cells := fun g i => if g = s.gen ∧ i = sh then { s.cells g i with locked := true } else s.cells g i
        busy := fun x => if x = sh then some s.gen else s.busy x }
    else none
  | .leave sh f =>
    match s.busy sh with
    | none => none
    | some g0 =>
      some { s with
        cells := fun g i =>
          if g = g0 ∧ i = sh then ⟨false, (f (s.cells g0 sh).priv (s.maps sh)).1⟩ else s.cells g i
        maps := fun x => if x = sh then (f (s.cells g0 sh).priv (s.maps sh)).2 else s.maps x
        busy := fun x => if x = sh then none else s.busy x }
  | .hasDoc p => some (s.hasDoc grow blank n p).1

/-- A schedule. -/
def Eng.run (grow : Nat → Nat) (blank : P) (n : Nat) (s : Eng P M) : List (Act P M) → Option (Eng P M)
  | [] => some s
  | a :: as => (s.step grow blank n a).bind (fun s' => s'.run grow blank n as)

/-- engine.go:305-307: the slice after `Init`, grown element by element. -/
def Eng.init (grow : Nat → Nat) (blank : P) (maps : Nat → M) : Nat → Eng P M
  | 0 => { cells := fun _ _ => ⟨false, blank⟩, gen := 0, len := 0, cap := 0, maps := maps,
           busy := fun _ => none }
  | n + 1 => (Eng.init grow blank maps n).append grow blank

/-- What the engine's next call on a shard works on. -/
def Eng.view (s : Eng P M) (shard : Nat) : Cell P × M := (s.cells s.gen shard, s.maps shard)

end Riot.HasDoc
