import Verif.Spec.Ranker
import Verif.Model.EngineSearch

/-!
# Sharded search: what a user expects

A shard is seen through the content of its index and the history of its ranker.
-/

namespace Riot

/-- What the workers of one shard see when they process a search. -/
structure ShardView (F A : Type) where
  index : Indexer
  history : List (RankerOp F A)

/-- The documents the shard's index finds for the request (characterised by C01, C14, C15). -/
def ShardView.found {F A : Type} (log2 : Rat → Rat) (v : ShardView F A) (tokens : List Str)
    (r : SearchReq F) : Option (List IndexedDoc) :=
  (v.index.lookup log2 tokens r.labels r.docIds false (some r.logic)).map (·.1)

/-- The entries of the found documents: those that are registered and get a score. -/
def ShardView.scored {F A : Type} (v : ShardView F A) (score : IndexedDoc → Option F → List F32)
    (docs : List IndexedDoc) : List (ScoredDoc F A) :=
  docs.filterMap (expectedScored (rankIdeal v.history) score)

/-- The entries of an orderless search: no scores and no stored data. -/
def bareEntry {F A : Type} (d : IndexedDoc) : ScoredDoc F A :=
  { scoredID := { docId := d.docId, scores := [], tokenSnippetLocs := d.tokenSnippetLocs,
                  tokenLocs := d.tokenLocs } }

/-- `Docs` of a response: ids only for an IDOnly engine. -/
def resultDocs {F A : Type} (idOnly : Bool) (l : List (ScoredDoc F A)) : RankOut F A :=
  if idOnly then .ids (l.map (·.scoredID)) else .docs l

/-- The answers of the shards of an engine to a search. -/
def shardAnswers {F A : Type} (log2 : Rat → Rat) (gs : GSort) (e : SearchOpts F) (r : SearchReq F)
    (tokens : List Str) (views : List (ShardView F A)) : Option (List (Answer F A)) :=
  views.mapM (fun v =>
    Engine.shardAnswer log2 gs e r tokens v.index (Ranker.run e.idOnly v.history))

/-- The response of a search in which the answers arrive in the order `arrived`. -/
def completeSearch {F A : Type} (gs : GSort) (e : SearchOpts F) (r : SearchReq F)
    (tokens : List Str) (arrived : List (Answer F A)) : Option (SearchResp F A) :=
  Engine.respond gs e r tokens (arrived.map some)

/-- The rank options a request asks for: its own order, offset and limit if it has rank options, and
its own criteria if it has some; whatever it does not set is the engine's. -/
def wantedRank {F : Type} (e : SearchOpts F) (r : SearchReq F) : RankOpts F where
  score := (r.rankOpts.bind (·.score)).getD e.defRankOpts.score
  reverseOrder := (r.rankOpts.map (·.reverseOrder)).getD e.defRankOpts.reverseOrder
  outputOffset := (r.rankOpts.map (·.outputOffset)).getD e.defRankOpts.outputOffset
  maxOutputs := (r.rankOpts.map (·.maxOutputs)).getD e.defRankOpts.maxOutputs

theorem rankOpts_eq {F : Type} (e : SearchOpts F) (r : SearchReq F) :
    Engine.rankOpts e r = wantedRank e r := by
  unfold Engine.rankOpts wantedRank
  split <;> rename_i h <;> simp [h]

/-- `resp` answers the request with page `off`, `m` of a ranking of `all`, and with the total
number of entries. -/
def IsPageOf {F A : Type} (idOnly reverse : Bool) (tokens : List Str) (off m : Nat)
    (all : List (ScoredDoc F A)) (resp : SearchResp F A) : Prop :=
  ∃ R : List (ScoredDoc F A), R.Perm all ∧ Ranked reverse R ∧
    resp.docs = some (resultDocs idOnly (page off m R)) ∧
    resp.numDocs = all.length ∧ resp.tokens = tokens

end Riot
