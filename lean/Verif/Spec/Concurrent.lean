import Verif.Spec.Fine
import Verif.Spec.Search

/-!
# Searches during index calls
-/

namespace Riot

variable {D : Type} {c : PipeCfg D}

/-- Document `d` is being changed on shard `s`: the remove worker is executing a removal of it, or
the add worker is refreshing the index and the call it executes is about `d` or a version of `d`
is waiting. `a`: the state after the calls that have returned. -/
def Fine.Changing (st : Fine c) (s : Fin c.shards) (a : AbsIndex) (d : Str) : Prop :=
  ((st.shard s).rem ≠ none ∧ ∃ f, st.pipe.nextIdx (.idxRem s) = some (.remove d f)) ∨
  ((st.shard s).add.refreshing = true ∧
    ((∃ op, st.pipe.nextIdx (.idxAdd s) = some op ∧ op.id? = some d) ∨ ∃ x, a.pend d x))

/-- What a search sees in the middle of calls: the documents of `a`, except that those being
changed may be missing. -/
def Fine.SeesNow (st : Fine c) (s : Fin c.shards) (a : AbsIndex) (vis : Str → Option DocIndex) : Prop :=
  ∀ d, vis d = a.vis d ∨ (vis d = none ∧ st.Changing s a d)

/-- No call that is in progress on shard `s` is about `d`. -/
def Fine.Untouched (st : Fine c) (s : Fin c.shards) (d : Str) : Prop :=
  ((st.shard s).rem ≠ none → ∀ f, st.pipe.nextIdx (.idxRem s) ≠ some (.remove d f)) ∧
  ((st.shard s).add ≠ .idle → ∀ op, st.pipe.nextIdx (.idxAdd s) = some op → op.id? ≠ some d)

/-- The statistics a search of shard `s` computes BM25 scores with (core/indexer.go 444-446, 523-546): `n` the number of its documents,
`avg` their average length, `df` the number of documents in the row of a key. -/
def Fine.Stats (st : Fine c) (s : Fin c.shards) (n avg : Rat) (df : Str → Nat) : Prop :=
  n = (st.shard s).ix.numDocs ∧ avg = (st.shard s).ix.totalTokenLen / (st.shard s).ix.numDocs ∧
    ∀ k, df k = (((st.shard s).ix.table.get k).map (·.docIds.length)).getD 0

end Riot
