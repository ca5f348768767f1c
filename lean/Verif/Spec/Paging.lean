import Verif.Spec.History

/-!
# Paging: what a user expects

A user who wants more than the first results repeats the request with another offset.
-/

namespace Riot

/-- The request `r` with the rank options `o`, asking for `m` results from position `off` on. -/
def SearchReq.paged {F : Type} (r : SearchReq F) (o : ReqRankOpts F) (off m : Nat) : SearchReq F :=
  { r with rankOpts := some { o with outputOffset := off, maxOutputs := m } }

/-- `x` is a complete response of the engine with the shards `views` to the request `r`: the shards answered, in any order,
and the answers were merged, with any sort. -/
def CompleteResponse {F A : Type} (log2 : Rat → Rat) (e : SearchOpts F) (r : SearchReq F) (tokens : List Str)
    (views : List (ShardView F A)) (x : SearchResp F A) : Prop :=
  ∃ (gs : GSort) (answers arrived : List (Answer F A)), GSortOk gs ∧ shardAnswers log2 gs e r tokens views = some answers ∧
    arrived.Perm answers ∧ completeSearch gs e r tokens arrived = some x

/-- The results a response shows: for an IDOnly engine without contents. -/
def SearchResp.shown {F A : Type} (x : SearchResp F A) : List (ScoredDoc F A) :=
  match x.docs with
  | some (.docs l) => l
  | some (.ids l) => l.map (fun s => { scoredID := s })
  | none => []

/-- What a response shows of a result. -/
def shownAs {F A : Type} (idOnly : Bool) (d : ScoredDoc F A) : ScoredDoc F A :=
  if idOnly then { scoredID := d.scoredID } else d

/-- The results of the pages 0, 1, …, `n - 1`, one after the other. -/
def shownPages {F A : Type} (pages : Nat → SearchResp F A) (n : Nat) : List (ScoredDoc F A) :=
  (List.range n).flatMap (fun k => (pages k).shown)

end Riot
