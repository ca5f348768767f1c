import Verif.Model.Segment
import Verif.Model.Backends

/-!
# Smaller parts: stop token file, document registry, memory figures, heartbeat, reading the store
-/

namespace Riot

/-! ## Stop token file (stop_tokens.go:31-51, bufio.Scanner with ScanLines) -/

/-- bufio `dropCR`: one trailing carriage return is not part of the line. -/
def dropCR (l : Str) : Str := if l.getLast? = some 13 then l.dropLast else l

/-- The lines `scanner.Scan()`/`scanner.Text()` deliver; `line` is what was read since the last newline.
A buffer of `bufio.MaxScanTokenSize` (65536) bytes without a newline ends the scan (`ErrTooLong`;
stop_tokens.go does not look at `scanner.Err()`). -/
def scanLines (line : Str) : Str → List Str
  | [] => if line = [] then [] else [dropCR line]
  | c :: cs =>
    if c = 10 then dropCR line :: scanLines [] cs
    else if line.length + 1 ≥ 65536 then []
    else scanLines (line ++ [c]) cs

/-- stop_tokens.go:31-57: `Init` with a file of this content, then `IsStopToken`. -/
def isStopToken (file : Str) (t : Str) : Bool := decide (t ∈ (scanLines [] file).filter (fun l => l ≠ []))

/-! ## Registry of documents and of inverted indices (core/data.go) -/

/-- types/doc_info.go:23-27 `DocInfosShard`, types/doc_info.go:38-42 `InvertedIndexShard`: a map and a
counter (`TotalTokenLen` is a float32; modelled by a natural number). -/
structure InfoShard (V : Type) where
  infos : GoMap V := .empty
  num : Nat := 0

/-- core/data.go:24-27, 68-71: the groups, by shard. -/
abbrev InfoGroup (V : Type) := List (Int × InfoShard V)

/-- Shard of a group. -/
def InfoGroup.find {V : Type} (g : InfoGroup V) (shard : Int) : Option (InfoShard V) := g.lookup shard

/-- core/data.go:30-38 `AddDocInfosShard`, 74-82 `AddInvertedIndexShard`. -/
def InfoGroup.addShard {V : Type} (g : InfoGroup V) (shard : Int) : InfoGroup V :=
  match g.find shard with
  | some _ => g
  | none => g ++ [(shard, {})]

/-- core/data.go:41-52 `AddDocInfo`, 85-95 `AddKeywordIndices`. -/
def InfoGroup.add {V : Type} (g : InfoGroup V) (shard : Int) (id : Str) (v : V) : InfoGroup V :=
  (g.addShard shard).map (fun x =>
    if x.1 = shard then (x.1, { infos := x.2.infos.set id v, num := x.2.num + 1 }) else x)

/-- core/data.go:55-65 `IsDocExist`. -/
def InfoGroup.isDocExist {V : Type} (g : InfoGroup V) (id : Str) : Bool :=
  g.any (fun x => (x.2.infos.get id).isSome)

/-- Calls; each holds the group's lock from beginning to end. -/
inductive InfoCall (V : Type)
  | addShard (shard : Int)
  | add (shard : Int) (id : Str) (v : V)

/-- A history of calls. -/
def InfoGroup.run {V : Type} (g : InfoGroup V) : List (InfoCall V) → InfoGroup V
  | [] => g
  | .addShard s :: l => (g.addShard s).run l
  | .add s id v :: l => (g.add s id v).run l

/-! ## Memory figures (info.go:51-83, 102-109) -/

/-- info.go:51-58 `UsedMem`, 102-109 `UsedDisk`: `start` was read when the package was initialised. -/
def usedSince (start now : UInt64) : UInt64 := now - start

/-- info.go:71-73 -/
def toKB (x : UInt64) : UInt64 := x / 1024
/-- info.go:76-78 -/
def toMB (x : UInt64) : UInt64 := x / 1024 / 1024
/-- info.go:81-83 -/
def toGB (x : UInt64) : UInt64 := x / 1024 / 1024 / 1024

/-! ## Heartbeat (net/heartb/heart.go) -/

/-- What happens: a heartbeat is answered properly, or it fails (error, or a result other than 1:
heart.go:75-98), or a handler calls `kill` (heart.go:124-132, 147-171). -/
inductive Beat
  | ok
  | fail
  | kill
  deriving DecidableEq, Repr

/-- The package variable `rpc` and the number of restarts `Grpcc` has made so far. -/
structure HeartState where
  rpc : Nat := 0
  restarts : Nat := 0
  deriving DecidableEq, Repr

/-- heart.go:57-71 one round of `Grpcc` (with `heart`, 75-98, and `restart`, 102-113, which resets the
counter), or a call of `kill`. Unsynchronised access to `rpc` is not modelled. -/
def HeartState.step (s : HeartState) : Beat → HeartState
  | .kill => { s with rpc := 0 }
  | .ok => if s.rpc > 3 then { rpc := 0, restarts := s.restarts + 1 } else s
  | .fail =>
    let rpc := s.rpc + 1
    if rpc > 3 then { rpc := 0, restarts := s.restarts + 1 } else { s with rpc := rpc }

/-- A history. -/
def HeartState.run (s : HeartState) (l : List Beat) : HeartState := l.foldl HeartState.step s

/-! ## All stored documents (riot.go:136-180) -/

/-- riot.go:136-147 `GetDBAllIds` (and 178-180 `GetAllDocIds`). -/
def readAllIds : List Store.Db → List Str → List Str
  | [], acc => acc
  | m :: dbs, acc =>
    readAllIds dbs (Store.forEach (E := Unit) m (fun s k _ => (s ++ [k], none)) acc).1

/-- riot.go:151-174 `GetDBAllDocs`; `dec` is gob's decoder. Simplification: a value that cannot be decoded
leaves the zero value (in Go possibly a partly filled one). -/
def readAllDocs {D : Type} (dec : Str → Option D) (zero : D) :
    List Store.Db → List Str × List D → List Str × List D
  | [], acc => acc
  | m :: dbs, acc =>
    readAllDocs dec zero dbs
      (Store.forEach (E := Unit) m (fun s k v => ((s.1 ++ [k], s.2 ++ [(dec v).getD zero]), none)) acc).1

end Riot
