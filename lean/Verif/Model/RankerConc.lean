import Verif.Model.Ranker

/-!
# A ranker used by several goroutines (core/ranker.go)

The add, remove and rank workers of a shard (ranker_worker.go) call one ranker. AddDoc and
RemoveDoc hold the write lock from beginning to end: one action. `rankOutDocs`/`rankOutIDs` lock
for reading once per candidate (core/ranker.go:127, 182): one action per candidate, and between two
of them other goroutines act. Scoring, sorting and cutting work on local variables.
-/

namespace Riot

open Function (update)

variable {F A : Type}

/-- A call of `Rank` in progress: its arguments, the candidates not yet looked up, and the local
variables `outputDocs` and `numDocs`. -/
structure RankCall (F A : Type) where
  opts : RankOpts F
  countOnly : Bool
  todo : List IndexedDoc
  ids : List ScoredID := []
  docs : List (ScoredDoc F A) := []
  num : Nat := 0

/-- A ranker, the calls of `Rank` in progress by caller, and what each caller's last call
returned (`none`: it panicked). -/
structure CRanker (F A : Type) where
  r : Ranker F A
  calls : Nat → Option (RankCall F A) := fun _ => none
  result : Nat → Option (Option (RankOut F A × Nat)) := fun _ => none

/-- Scheduling choices. -/
inductive RAct (F A : Type)
  | op (x : RankerOp F A)      -- AddDoc or RemoveDoc, under the write lock (core/ranker.go:72-89, 98-108)
  | start (i : Nat) (docs : List IndexedDoc) (o : RankOpts F) (countOnly : Bool) -- caller i enters Rank
  | read (i : Nat)             -- the next candidate of caller i (core/ranker.go:127-151, 182-216)
  | finish (i : Nat)           -- sort, cut, return (core/ranker.go:162-176, 227-241)

/-- One iteration of the loop of `rankOutIDs` (core/ranker.go:126-151) or `rankOutDocs`
(core/ranker.go:181-216): the function on one candidate, appended to the local variables. -/
def RankCall.read (r : Ranker F A) (c : RankCall F A) (d : IndexedDoc) (rest : List IndexedDoc) : RankCall F A :=
  if r.idOnly then
    { c with todo := rest, ids := c.ids ++ (r.rankOutIDs c.opts c.countOnly [d]).1,
             num := c.num + (r.rankOutIDs c.opts c.countOnly [d]).2 }
  else
    { c with todo := rest, docs := c.docs ++ (r.rankOutDocs c.opts c.countOnly [d]).1,
             num := c.num + (r.rankOutDocs c.opts c.countOnly [d]).2 }

/-- The end of `RankDocID`/`RankDocs` and `Rank` (core/ranker.go:162-176, 227-241, 252-260). -/
def RankCall.finish (gs : GSort) (idOnly : Bool) (c : RankCall F A) : Option (RankOut F A × Nat) :=
  if idOnly then (sortAndCut gs c.opts c.countOnly (c.ids, c.num)).map (fun x => (.ids x.1, x.2))
  else (sortAndCut gs c.opts c.countOnly (c.docs, c.num)).map (fun x => (.docs x.1, x.2))

/-- One step; `none`: not possible now. -/
def CRanker.step (gs : GSort) (st : CRanker F A) : RAct F A → Option (CRanker F A)
  | .op x => some { st with r := st.r.step x }
  | .start i docs o co =>
    match st.calls i with
    | none => some { st with calls := update st.calls i (some { opts := o, countOnly := co, todo := docs }) }
    | some _ => none
  | .read i =>
    match st.calls i with
    | some c => match c.todo with
      | d :: rest => some { st with calls := update st.calls i (some (c.read st.r d rest)) }
      | [] => none
    | none => none
  | .finish i =>
    match st.calls i with
    | some c => match c.todo with
      | [] => some { st with calls := update st.calls i none,
                             result := update st.result i (some (c.finish gs st.r.idOnly)) }
      | _ :: _ => none
    | none => none

/-- A run. -/
def CRanker.run (gs : GSort) (st : CRanker F A) : List (RAct F A) → Option (CRanker F A)
  | [] => some st
  | a :: l => (st.step gs a).bind (fun st' => st'.run gs l)

/-- A new ranker. -/
def CRanker.init (idOnly : Bool) : CRanker F A := { r := .init idOnly }

end Riot
