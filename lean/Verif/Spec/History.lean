import Verif.Spec.EngineSearch
import Verif.Spec.Index

/-!
# When do two indexes hold the same documents?
-/

namespace Riot

/-- The same document; the keywords may come in another order (the engine builds them from a Go map, whose iteration
order is random). -/
def SameDoc (a b : DocIndex) : Prop := a.docId = b.docId ∧ a.tokenLen = b.tokenLen ∧ a.keywords.Perm b.keywords

/-- Two maps hold the same documents. -/
def HoldSame (m m' : Str → Option DocIndex) : Prop :=
  ∀ d, (m d = none ∧ m' d = none) ∨ ∃ a b : DocIndex, m d = some a ∧ m' d = some b ∧ SameDoc a b

/-- The index `s` was made by a disciplined history with a refresh at its end that leaves the documents `m`; `o` are the
options it was created with. -/
def Indexer.HoldsExactly (s : Indexer) (o : IndexerOpts) (m : Str → Option DocIndex) : Prop :=
  ∃ (so : Sorter) (h : List IdxOp) (op : IdxOp), SortOk so ∧ (∀ x ∈ h ++ [op], OpOk x) ∧ Disciplined (h ++ [op]) ∧
    op.refreshes = true ∧ (Indexer.init o).run so (h ++ [op]) = some s ∧ ideal (h ++ [op]) = m

/-- Two shards hold the same documents with the same data: their indexes after a refresh, their rankers at any time. -/
def ShardView.Same {F A : Type} (it : IndexType) (bm : Option BM25Parameters) (v v' : ShardView F A) : Prop :=
  (∃ o m o' m', v.index.HoldsExactly o m ∧ v'.index.HoldsExactly o' m' ∧ HoldSame m m' ∧ o.indexType = it ∧
    o'.indexType = it ∧ o.bm25 = bm ∧ o'.bm25 = bm) ∧
  rankIdeal v.history = rankIdeal v'.history

/-- The score vectors of a list of results. -/
def RankOut.scores {F A : Type} : RankOut F A → List (List (WithBot (WithTop Rat)))
  | .ids l => l.map (fun x => scoreKey x.scores)
  | .docs l => l.map (fun x => scoreKey x.scoredID.scores)

end Riot
