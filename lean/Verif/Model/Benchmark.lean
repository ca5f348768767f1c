import Verif.Model.Examples
import Verif.Model.Pipeline

/-!
# examples/benchmark/benchmark.go

The program indexes every post of a file several times, waits for Flush, removes documents, waits for Flush, and lets several goroutines
repeat searches; in the end it prints for each query how many documents it found. Not modelled: times, profiles, garbage collection, the
second engine of `useStore`, the flags themselves (their values are parameters), and the reading of the file (the lines are those of
`bufio.Scanner`).
-/

namespace Riot

/-- benchmark.go:99-109: the text of a line; `none`: the line is skipped. -/
def benchText (line : Str) : Option Str :=
  let data := splitBars line
  if data.length ≠ 10 then none
  else if data.getD 9 [] ≠ [] then some (data.getD 9 []) else none

/-- benchmark.go:130-136: the documents indexed, in order; `perm` is `rand.Perm(numRepeatText * len(lines))`, `texts` the slice `lines`. -/
def benchIndexed (perm : List Nat) (repeats : Nat) (texts : List Str) : List (Str × Str) :=
  ((List.replicate repeats texts).flatten.zip perm).map (fun x => (itoa (x.2 + 1), x.1))

/-- benchmark.go:156-158: the ids removed. -/
def benchRemoved (n : Nat) : List Str := (List.range n).map (fun i => itoa (i + 1))

/-- benchmark.go:235-239 (`openFile`, `Flush`, `deleteDoc` with its own `Flush`, line 159): the calls of the program before it searches. -/
def benchCalls (perm : List Nat) (repeats : Nat) (file : List Str) (deletes : Nat) : List (Call Str) :=
  (benchIndexed perm repeats (file.filterMap benchText)).map (fun x => Call.index x.1 x.2 false) ++ [.flush] ++
    (benchRemoved deletes).map (fun id => Call.remove id false) ++ [.flush]

/-- benchmark.go:279: the request for a query. -/
def benchReq {F : Type} (query : Str) : SearchReq F := { text := query }

/-- benchmark.go:273-276 `recordResponseLock`, and the goroutines between `RUnlock` and `Lock` (lines 282-283), with what they will write. -/
structure BenchRecord where
  count : GoMap Nat := .empty
  pending : List (Str × Nat) := []

/-- A step of the goroutines that run `search`. -/
inductive BenchAct
  /-- benchmark.go:279-282, 287: a search returned `docs` for `query`, and the map is read. -/
  | look (query : Str) (docs : List ScoredID)
  /-- benchmark.go:283-285: one of the waiting goroutines writes. -/
  | write (n : Nat)

/-- benchmark.go:277-292 `search`: one step. -/
def BenchRecord.step (s : BenchRecord) : BenchAct → Option BenchRecord
  | .look q docs =>
    match s.count.get q with
    | some _ => some s
    | none => some { s with pending := s.pending ++ [(q, docs.length)] }
  | .write n =>
    match s.pending[n]? with
    | none => none
    | some (q, k) => some { count := s.count.set q k, pending := s.pending.eraseIdx n }

/-- benchmark.go:277-292 `search`, by any number of goroutines. -/
def BenchRecord.run (s : BenchRecord) : List BenchAct → Option BenchRecord
  | [] => some s
  | a :: as => (s.step a).bind (fun t => t.run as)

end Riot
