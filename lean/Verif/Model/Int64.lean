import Verif.Model.EngineSearch

/-!
# 64-bit arithmetic of offsets, limits and time-outs

`Model/EngineSearch` and `Model/Ranker` compute with unbounded integers. Here the same
functions with Go's `int` of 64 bits, which wraps around silently. Everything else of a search
is as before.
-/

namespace Riot

/-- Go's wrap-around of 64-bit `int` results. -/
def int64 (x : Int) : Int := (x + 2 ^ 63) % 2 ^ 64 - 2 ^ 63

/-- core/ranker.go:111-122 `maxOutput`, `OutputOffset+MaxOutputs` in 64 bits. -/
def maxOutput64 {F : Type} (o : RankOpts F) (docsLen : Int) : Int × Int :=
  if o.maxOutputs ≠ 0 then
    (min o.outputOffset docsLen, min (int64 (o.outputOffset + o.maxOutputs)) docsLen)
  else (min o.outputOffset docsLen, docsLen)

/-- core/ranker.go:162-176, 227-241: sort and cut. -/
def sortAndCut64 {F : Type} (gs : GSort) {α : Type} [HasScores α] (o : RankOpts F)
    (countOnly : Bool) (out : List α × Nat) : Option (List α × Nat) :=
  if countOnly then some out
  else
    let l := sortScored gs o.reverseOrder out.1
    let se := maxOutput64 o l.length
    (goSub l se.1 se.2).map (fun x => (x, out.2))

/-- core/ranker.go:245-260 `Rank` (with lines 157-176 `RankDocID`, 222-241 `RankDocs`). -/
def Ranker.rank64 {F A : Type} (gs : GSort) (r : Ranker F A) (docs : List IndexedDoc)
    (o : RankOpts F) (countOnly : Bool) : Option (RankOut F A × Nat) :=
  if r.idOnly then
    (sortAndCut64 gs o countOnly (r.rankOutIDs o countOnly docs)).map (fun x => (.ids x.1, x.2))
  else
    (sortAndCut64 gs o countOnly (r.rankOutDocs o countOnly docs)).map (fun x => (.docs x.1, x.2))

/-- ranker_worker.go:63-66: `MaxOutputs += OutputOffset` in 64 bits. -/
def shardOpts64 {F : Type} (o : RankOpts F) : RankOpts F :=
  { o with
    maxOutputs := if o.maxOutputs ≠ 0 then int64 (o.maxOutputs + o.outputOffset) else o.maxOutputs
    outputOffset := 0 }

/-- ranker_worker.go:60-73 `rankerRank`. -/
def Engine.rankerRank64 {F A : Type} (gs : GSort) (r : Ranker F A) (docs : List IndexedDoc)
    (o : RankOpts F) : Option (Answer F A) :=
  (r.rank64 gs docs (shardOpts64 o) false).map (fun x => { docs := some x.1, numDocs := x.2 })

/-- The answer of one shard to a search (indexer worker, then possibly ranker worker). -/
def Engine.shardAnswer64 {F A : Type} (log2 : Rat → Rat) (gs : GSort) (e : SearchOpts F)
    (r : SearchReq F) (tokens : List Str) (s : Indexer) (rk : Ranker F A) :
    Option (Answer F A) := do
  match ← Engine.indexerLookup log2 e s tokens r with
  | .answer a => return a
  | .rank docs => Engine.rankerRank64 gs rk docs (Engine.rankOpts e r)

/-- engine.go:527-538 `maxRankOutput`, `start+MaxOutputs` in 64 bits. -/
def maxRankOutput64 {F : Type} (o : RankOpts F) (len : Int) : Int × Int :=
  if o.maxOutputs = 0 then (min o.outputOffset len, len)
  else (min o.outputOffset len, min (int64 (min o.outputOffset len + o.maxOutputs)) len)

/-- engine.go:657-683 (`RankID`) and 710-736 (`Ranks`): sort, cut, fill the response. -/
def finishSearch64 {F A α : Type} [HasScores α] (gs : GSort) (wrap : List α → RankOut F A)
    (r : SearchReq F) (o : RankOpts F) (tokens : List Str) (c : Collected α) :
    Option (SearchResp F A) :=
  let out := if !r.countDocsOnly && !r.orderless then sortScored gs o.reverseOrder c.out else c.out
  if r.countDocsOnly then
    some { tokens := tokens, timeout := c.timeout, numDocs := c.numDocs, docs := none }
  else if r.orderless then
    some { tokens := tokens, timeout := c.timeout, numDocs := c.numDocs, docs := some (wrap out) }
  else
    let se := maxRankOutput64 o out.length
    (goSub out se.1 se.2).map (fun x =>
      { tokens := tokens, timeout := c.timeout, numDocs := c.numDocs, docs := some (wrap x) })

/-- engine.go:762-809 `Search`, from the events of its receive loop on. -/
def Engine.respond64 {F A : Type} (gs : GSort) (e : SearchOpts F) (r : SearchReq F)
    (tokens : List Str) (events : List (Option (Answer F A))) : Option (SearchResp F A) :=
  if e.idOnly then do
    let c ← collect asIDs r.countDocsOnly {} events
    finishSearch64 gs .ids r (Engine.rankOpts e r) tokens c
  else do
    let c ← collect asDocs r.countDocsOnly {} events
    finishSearch64 gs .docs r (Engine.rankOpts e r) tokens c

/-- engine.go:595-596: the nanoseconds until the deadline of a search with a time-out,
`NumNanosecondsInAMillisecond*request.Timeout` (engine.go:50: 1000000) in 64 bits. -/
def timeoutNanos (timeout : Int) : Int := int64 (1000000 * timeout)

end Riot
