import Verif.Model.Lookup
import Verif.Model.Ranker
import Verif.Model.Segment

/-!
# Engine.Search (engine.go, indexer_worker.go, ranker_worker.go)

One search: the tokens of the request, what each shard answers, and how the answers are
collected, sorted and cut. The interleaving of the workers of all shards and searches is in
`Model/SearchProto`; here an answer is a function of the index and ranker contents the shard's
workers see. `none` is a Go panic.
-/

namespace Riot

/-- types/search_request.go:56-69 `RankOpts`, with the criteria possibly nil. -/
structure ReqRankOpts (F : Type) where
  score : Option (IndexedDoc → Option F → List F32) := none
  reverseOrder : Bool := false
  outputOffset : Int := 0
  maxOutputs : Int := 0

/-- types/search_request.go:18-54 `SearchReq`. -/
structure SearchReq (F : Type) where
  text : Str := []
  tokens : List Str := []
  labels : List Str := []
  logic : Logic := {}
  docIds : Option (List Str) := none
  rankOpts : Option (ReqRankOpts F) := none
  timeout : Int := 0
  countDocsOnly : Bool := false
  orderless : Bool := false

/-- types/engine_init_options.go:47-107, the options a search uses, after `Init` (lines
108-160: `DefRankOpts` and its criteria are never nil then). -/
structure SearchOpts (F : Type) extends TextOpts where
  idOnly : Bool := false
  defRankOpts : RankOpts F

/-- engine.go:500-525 `Tokens`. -/
def Engine.tokens {F : Type} (env : TextEnv) (e : SearchOpts F) (r : SearchReq F) : List Str :=
  if r.text ≠ [] then
    let t := env.lower r.text
    (if e.notUseGse then splitSpace t else segmentText env e.toTextOpts t) ++ r.tokens
  else r.tokens

/-- engine.go:769-778: the rank options of a search. -/
def Engine.rankOpts {F : Type} (e : SearchOpts F) (r : SearchReq F) : RankOpts F :=
  match r.rankOpts with
  | none => e.defRankOpts
  | some o =>
    { score := o.score.getD e.defRankOpts.score, reverseOrder := o.reverseOrder,
      outputOffset := o.outputOffset, maxOutputs := o.maxOutputs }

/-- ranker_worker.go:38-42 `rankerReturnReq`: `docs` is nil (`none`), `ScoredIDs` or
`ScoredDocs`. -/
structure Answer (F A : Type) where
  docs : Option (RankOut F A) := none
  numDocs : Nat := 0

/-- indexer_worker.go:75-112 `orderLess`. -/
def Engine.orderLess {F A : Type} (idOnly : Bool) (docs : List IndexedDoc) : Answer F A :=
  let ids := docs.map (fun d => mkScoredID d [])
  if idOnly then { docs := some (.ids ids), numDocs := ids.length }
  else { docs := some (.docs (ids.map (fun i => { scoredID := i }))), numDocs := ids.length }

/-- ranker_worker.go:63-66: the options a shard's ranker gets. -/
def shardOpts {F : Type} (o : RankOpts F) : RankOpts F :=
  { o with
    maxOutputs := if o.maxOutputs ≠ 0 then o.maxOutputs + o.outputOffset else o.maxOutputs
    outputOffset := 0 }

/-- ranker_worker.go:60-73 `rankerRank`. -/
def Engine.rankerRank {F A : Type} (gs : GSort) (r : Ranker F A) (docs : List IndexedDoc)
    (o : RankOpts F) : Option (Answer F A) :=
  (r.rank gs docs (shardOpts o) false).map (fun x => { docs := some x.1, numDocs := x.2 })

/-- What `indexerLookup` does with a request: answer it, or pass documents to the ranker. -/
inductive LookupOut (F A : Type)
  | answer (a : Answer F A)
  | rank (docs : List IndexedDoc)

/-- indexer_worker.go:115-149 `indexerLookup`. The request's logic options are always passed
(line 121). -/
def Engine.indexerLookup {F A : Type} (log2 : Rat → Rat) (e : SearchOpts F) (s : Indexer)
    (tokens : List Str) (r : SearchReq F) : Option (LookupOut F A) := do
  let (docs, n) ← s.lookup log2 tokens r.labels r.docIds r.countDocsOnly (some r.logic)
  if r.countDocsOnly then return .answer { numDocs := n }
  if docs.length = 0 then return .answer {}
  if r.orderless then return .answer (Engine.orderLess e.idOnly docs)
  return .rank docs

/-- The answer of one shard to a search (indexer worker, then possibly ranker worker). -/
def Engine.shardAnswer {F A : Type} (log2 : Rat → Rat) (gs : GSort) (e : SearchOpts F)
    (r : SearchReq F) (tokens : List Str) (s : Indexer) (rk : Ranker F A) :
    Option (Answer F A) := do
  match ← Engine.indexerLookup log2 e s tokens r with
  | .answer a => return a
  | .rank docs => Engine.rankerRank gs rk docs (Engine.rankOpts e r)

/-- engine.go:540-546 `rankerOutput.docs.(types.ScoredIDs)`. -/
def asIDs {F A : Type} : RankOut F A → Option (List ScoredID)
  | .ids l => some l
  | .docs _ => none

/-- engine.go:548-554 `rankerOutput.docs.(types.ScoredDocs)`. -/
def asDocs {F A : Type} : RankOut F A → Option (List (ScoredDoc F A))
  | .docs l => some l
  | .ids _ => none

/-- What was collected: documents, number of documents, timeout flag. -/
structure Collected (α : Type) where
  out : List α := []
  numDocs : Nat := 0
  timeout : Bool := false

/-- engine.go:557-588 `NotTimeOut` and 591-630 `TimeOut`: one entry per round of the loop over
the shards, `some answer` if an answer was received and `none` if the timer fired (the `break`
on line 618 leaves only the `select`). Without a timeout there are only answers. `cast` is
the type assertion (`asIDs` or `asDocs`). -/
def collect {F A α : Type} (cast : RankOut F A → Option (List α)) (countOnly : Bool)
    (acc : Collected α) : List (Option (Answer F A)) → Option (Collected α)
  | [] => some acc
  | none :: es => collect cast countOnly { acc with timeout := true } es
  | some a :: es =>
    match countOnly, a.docs with
    | false, some d =>
      match cast d with
      | none => none
      | some l =>
        collect cast countOnly { acc with out := acc.out ++ l, numDocs := acc.numDocs + a.numDocs } es
    | _, _ => collect cast countOnly { acc with numDocs := acc.numDocs + a.numDocs } es

/-- types/search_response.go:21-46 `SearchResp` (`BaseResp` flattened). -/
structure SearchResp (F A : Type) where
  tokens : List Str
  timeout : Bool
  numDocs : Nat
  docs : Option (RankOut F A)

/-- engine.go:527-538 `maxRankOutput`. -/
def maxRankOutput {F : Type} (o : RankOpts F) (len : Int) : Int × Int :=
  if o.maxOutputs = 0 then (min o.outputOffset len, len)
  else (min o.outputOffset len, min (min o.outputOffset len + o.maxOutputs) len)

/-- engine.go:657-683 (`RankID`) and 710-736 (`Ranks`): sort, cut, fill the response. -/
def finishSearch {F A α : Type} [HasScores α] (gs : GSort) (wrap : List α → RankOut F A)
    (r : SearchReq F) (o : RankOpts F) (tokens : List Str) (c : Collected α) :
    Option (SearchResp F A) :=
  let out := if !r.countDocsOnly && !r.orderless then sortScored gs o.reverseOrder c.out else c.out
  if r.countDocsOnly then
    some { tokens := tokens, timeout := c.timeout, numDocs := c.numDocs, docs := none }
  else if r.orderless then
    some { tokens := tokens, timeout := c.timeout, numDocs := c.numDocs, docs := some (wrap out) }
  else
    let se := maxRankOutput o out.length
    (goSub out se.1 se.2).map (fun x =>
      { tokens := tokens, timeout := c.timeout, numDocs := c.numDocs, docs := some (wrap x) })

/-- engine.go:762-809 `Search`, from the events of its receive loop on (engine.go:633-736
`RankID`, `Ranks`). -/
def Engine.respond {F A : Type} (gs : GSort) (e : SearchOpts F) (r : SearchReq F)
    (tokens : List Str) (events : List (Option (Answer F A))) : Option (SearchResp F A) :=
  if e.idOnly then do
    let c ← collect asIDs r.countDocsOnly {} events
    finishSearch gs .ids r (Engine.rankOpts e r) tokens c
  else do
    let c ← collect asDocs r.countDocsOnly {} events
    finishSearch gs .docs r (Engine.rankOpts e r) tokens c

/-- engine.go:740-747 `SearchDoc`: the type assertion fails (panics) on nil and on ids. -/
def Engine.searchDoc {F A : Type} (resp : Option (SearchResp F A)) :
    Option (SearchResp F A × List (ScoredDoc F A)) := do
  let x ← resp
  let d ← x.docs
  let l ← asDocs d
  return (x, l)

/-- engine.go:750-758 `SearchID`. -/
def Engine.searchID {F A : Type} (resp : Option (SearchResp F A)) :
    Option (SearchResp F A × List ScoredID) := do
  let x ← resp
  let d ← x.docs
  let l ← asIDs d
  return (x, l)

/-- engine.go:862-865 `getShard` (`uint32` arithmetic). -/
def getShard (numShards hash : UInt32) : UInt32 := hash - hash / numShards * numShards

end Riot
