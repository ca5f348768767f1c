import Verif.Spec.Pipeline
import Verif.Spec.Witness

/-!
# Concrete engines and schedules, for witnesses
-/

namespace Riot

variable {D : Type}

/-- Execute, up to `n` times, the first possible action of the list; returns the schedule. -/
def Pipe.greedy {c : PipeCfg D} (cands : List (Act c.toPipeSize D)) : Nat → Pipe c → List (Act c.toPipeSize D)
  | 0, _ => []
  | n + 1, st =>
    match cands.findSome? (fun a => (st.step a).map (fun st' => (a, st'))) with
    | none => []
    | some (a, st') => a :: st'.greedy cands n

/-- A small engine: content is a number, the only key of the document; the shard is the number
modulo the number of shards. -/
def demoPipe (clients shards stores : Nat) (hs : 0 < shards) (hm : 0 < stores) (useStore : Bool) :
    PipeCfg Nat where
  clients := clients
  gse := 1
  shards := shards
  stores := stores
  segCap := 2
  idxCap := 2
  rankCap := 2
  useStore := useStore
  docOf id n := ⟨id, 1, [⟨str s!"k{n}", 1, [0]⟩]⟩
  route _ n := ⟨n % shards, Nat.mod_lt _ hs⟩
  storeRoute id := ⟨id.length % stores, Nat.mod_lt _ hm⟩
  encodes _ := true
  emptyData := 0

/-- All actions that are not calls, with the rankers last. -/
def demoActs (z : PipeSize) : List (Act z D) :=
  [.ready] ++ (List.finRange z.stores).map (fun m => .run (.init m)) ++
  (List.finRange z.gse).flatMap (fun j => [.run (.seg j), .recv (.seg j)]) ++
  (List.finRange z.shards).flatMap (fun s =>
    [.run (.idxAdd s), .recv (.idxAdd s), .run (.idxRem s), .recv (.idxRem s)]) ++
  (List.finRange z.stores).flatMap (fun m => [.run (.store m), .recv (.store m)]) ++
  (List.finRange z.clients).map (fun i => .run (.client i))

/-- The actions of the rankers. -/
def demoRanks (z : PipeSize) : List (Act z D) :=
  (List.finRange z.shards).flatMap (fun s =>
    [.run (.rankAdd s), .recv (.rankAdd s), .run (.rankRem s), .recv (.rankRem s)])

/-- Run `calls` one after the other, each followed by actions from `cands`. -/
def Pipe.session {c : PipeCfg D} (cands : List (Act c.toPipeSize D)) :
    List (Fin c.clients × Call D) → Pipe c → List (Act c.toPipeSize D)
  | [], st => st.greedy cands 100
  | (i, a) :: l, st =>
    let as := st.greedy cands 100 ++ [.call i a]
    match st.run as with
    | none => []
    | some st' => as ++ st'.session cands l

end Riot

namespace Riot

variable {D : Type}

/-- Execute a Flush by client `i` with the given schedule; checks that all clients are idle
before and that the Flush has returned after. -/
def Pipe.flushBy {c : PipeCfg D} (i : Fin c.clients) (as : List (Act c.toPipeSize D)) (st : Pipe c) :
    Option (Pipe c) :=
  if (List.finRange c.clients).all (fun j => (st.prog (.client j)).isEmpty) ∧ as.all (fun a => !a.isCall) then
    (st.step (.call i .flush)).bind (fun st1 => (st1.run as).bind (fun st2 =>
      if (st2.prog (.client i)).isEmpty then some st2 else none))
  else none

theorem flushBy_completes {c : PipeCfg D} {i : Fin c.clients} {as : List (Act c.toPipeSize D)}
    {st st' : Pipe c} (h : st.flushBy i as = some st') : FlushCompletes i st st' := by
  unfold Pipe.flushBy at h
  split at h
  · rename_i hc
    obtain ⟨st1, h1, h2⟩ := Option.bind_eq_some_iff.1 h
    obtain ⟨st2, h3, h4⟩ := Option.bind_eq_some_iff.1 h2
    split at h4
    · rename_i he
      rw [Option.some.injEq] at h4
      subst h4
      refine ⟨?_, st1, as, h1, ?_, h3, by simpa using he⟩
      · intro j
        have := List.all_eq_true.1 hc.1 j (List.mem_finRange j)
        simpa using this
      · intro a ha
        have := List.all_eq_true.1 hc.2 a ha
        simpa using this
    · simp at h4
  · simp at h

/-- The schedule of a Flush that lets the threads of `cands` run. -/
def Pipe.flushSched {c : PipeCfg D} (cands : List (Act c.toPipeSize D)) (i : Fin c.clients) (st : Pipe c) :
    List (Act c.toPipeSize D) :=
  match st.step (.call i .flush) with
  | none => []
  | some st1 => st1.greedy cands 100

/-- Run `calls` with the schedule `session`, then a Flush. -/
def Pipe.round {c : PipeCfg D} (cands : List (Act c.toPipeSize D)) (i : Fin c.clients)
    (calls : List (Fin c.clients × Call D)) (st : Pipe c) : Option (Pipe c) :=
  (st.run (st.session cands calls)).bind (fun st1 => st1.flushBy i (st1.flushSched cands i))

end Riot
