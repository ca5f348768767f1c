import Verif.Model.Types
import Verif.Basic.GoSlice

/-!
# The inverted index: mutation (core/indexer.go:32-366)

`none` is a Go panic (index or slice bounds out of range). One call runs to completion
before the next starts (sequential semantics; interleavings are in `Model/Shard`).
-/

namespace Riot

/-- core/indexer.go:68-74 `KeywordIndices`: one row of the inverted index, three parallel
slices (frequencies / locations are filled according to the index type). -/
structure KeywordIndices where
  docIds : List Str := []
  frequencies : List Rat := []
  locations : List (List Int) := []
  deriving DecidableEq, Repr

/-- core/indexer.go:32-66 `Indexer`. Locks omitted. `addCache` / `removeCache` are the
filled prefixes `[0, pointer)` of the fixed-size slices; the pointer is the length and the
capacity checks are explicit. `docsState` values 0, 1, 2 as in the comment on line 40.
`numDocs uint64` is an unbounded integer (it is shown never to go below zero). -/
structure Indexer where
  opts : IndexerOpts
  table : GoMap KeywordIndices
  docsState : GoMap Nat
  addCache : List DocIndex
  removeCache : List Str
  numDocs : Int
  totalTokenLen : Rat
  docTokenLens : GoMap Rat

/-- core/indexer.go:76-93 `Init` (first call). -/
def Indexer.init (o : IndexerOpts) : Indexer where
  opts := o.init
  table := .empty
  docsState := .empty
  addCache := []
  removeCache := []
  numDocs := 0
  totalTokenLen := 0
  docTokenLens := .empty

/-- core/indexer.go:101-108 `HasDoc`. -/
def Indexer.hasDoc (s : Indexer) (docId : Str) : Bool :=
  match s.docsState.get docId with
  | some st => st == 0
  | none => false

/-- core/indexer.go:707-720: the binary-search loop of `searchIndex`
(`for end-start > 1 { middle = (start+end)/2 ... }; return end, false`). -/
def searchIndexLoop (docIds : List Str) (docId : Str) (start e : Nat) : Option (Nat × Bool) :=
  if e - start > 1 then
    let middle := (start + e) / 2
    match docIds[middle]? with
    | none => none
    | some m =>
      if docId = m then some (middle, true)
      else if docId > m then searchIndexLoop docIds docId middle e
      else searchIndexLoop docIds docId start middle
  else some (e, false)
termination_by e - start

/-- core/indexer.go:687-721 `searchIndex(indices, start, end, docId)`. `start` and `end`
are naturals; Go's `end = -1` only occurs for an empty row with `start = 0`, where the
first test returns before `end` is used. -/
def searchIndex (docIds : List Str) (start e : Nat) (docId : Str) : Option (Nat × Bool) :=
  if docIds.length = start then some (start, false)
  else
    match docIds[start]? with
    | none => none
    | some ds =>
      if docId < ds then some (start, false)
      else if docId = ds then some (start, true)
      else
        match docIds[e]? with
        | none => none
        | some de =>
          if docId > de then some (e + 1, false)
          else if docId = de then some (e, true)
          else searchIndexLoop docIds docId start e

/-- core/indexer.go:211-224: a new row for a key that is not in the table. -/
def newRow (it : IndexType) (docId : Str) (kw : KeywordIndex) : KeywordIndices :=
  match it with
  | .locs => { docIds := [docId], locations := [kw.starts] }
  | .freqs => { docIds := [docId], frequencies := [kw.frequency] }
  | .docIds => { docIds := [docId] }

/-- core/indexer.go:231-247: insertion of a document at `position` of an existing row. -/
def insertRow (it : IndexType) (ki : KeywordIndices) (position : Nat) (docId : Str)
    (kw : KeywordIndex) : Option KeywordIndices := do
  let ki ← match it with
    | .locs => do
      let locs ← goInsert ki.locations position [] kw.starts
      pure { ki with locations := locs }
    | .freqs => do
      let fr ← goInsert ki.frequencies position 0 kw.frequency
      pure { ki with frequencies := fr }
    | .docIds => pure ki
  let ids ← goInsert ki.docIds position (str "0") docId
  pure { ki with docIds := ids }

/-- core/indexer.go:209-248: one iteration of the loop over the keywords of a document.
`ptrs` is `indexPointers` (a missing entry reads as 0). -/
def addKeyword (it : IndexType) (docId : Str) (table : GoMap KeywordIndices) (ptrs : GoMap Nat)
    (kw : KeywordIndex) : Option (GoMap KeywordIndices × GoMap Nat) :=
  match table.get kw.text with
  | none => some (table.set kw.text (newRow it docId kw), ptrs)
  | some ki => do
    let (position, _) ← searchIndex ki.docIds ((ptrs.get kw.text).getD 0)
      (ki.docIds.length - 1) docId
    let ptrs := ptrs.set kw.text position
    let ki ← insertRow it ki position docId kw
    pure (table.set kw.text ki, ptrs)

/-- core/indexer.go:209-248: the loop over `doc.Keywords`. -/
def addKeywords (it : IndexType) (docId : Str) :
    List KeywordIndex → GoMap KeywordIndices → GoMap Nat →
      Option (GoMap KeywordIndices × GoMap Nat)
  | [], table, ptrs => some (table, ptrs)
  | kw :: kws, table, ptrs => do
    let (table, ptrs) ← addKeyword it docId table ptrs kw
    addKeywords it docId kws table ptrs

/-- core/indexer.go:195-254: the body of the loop over documents for a document that is
not skipped as a duplicate. -/
def addOneDoc (s : Indexer) (ptrs : GoMap Nat) (doc : DocIndex) :
    Option (Indexer × GoMap Nat) :=
  if s.docsState.get doc.docId = some 1 then some (s, ptrs)
  else do
    let s := if doc.tokenLen ≠ 0 then
        { s with docTokenLens := s.docTokenLens.set doc.docId doc.tokenLen,
                 totalTokenLen := s.totalTokenLen + doc.tokenLen }
      else s
    let (table, ptrs) ← addKeywords s.opts.indexType doc.docId doc.keywords s.table ptrs
    pure ({ s with table := table, docsState := s.docsState.set doc.docId 0,
                   numDocs := s.numDocs + 1 }, ptrs)

/-- core/indexer.go:189-255: the loop over the sorted documents; of a run of equal ids
only the last one is added (lines 190-193). -/
def addDocsLoop : List DocIndex → Indexer → GoMap Nat → Option Indexer
  | [], s, _ => some s
  | doc :: rest, s, ptrs =>
    match rest with
    | next :: _ =>
      if doc.docId = next.docId then addDocsLoop rest s ptrs
      else do
        let (s, ptrs) ← addOneDoc s ptrs doc
        addDocsLoop rest s ptrs
    | [] => do
      let (s, ptrs) ← addOneDoc s ptrs doc
      addDocsLoop rest s ptrs

/-- core/indexer.go:178-256 `AddDocs`. -/
def Indexer.addDocs (s : Indexer) (docs : List DocIndex) : Option Indexer :=
  addDocsLoop docs s .empty

/-- core/indexer.go:328-335: `indices[top] = indices[pointer]` for the slices in use. -/
def moveRow (it : IndexType) (ki : KeywordIndices) (top ptr : Nat) : Option KeywordIndices := do
  let ki ← match it with
    | .locs => do
      let x ← ki.locations[ptr]?
      let l ← goSet ki.locations top x
      pure { ki with locations := l }
    | .freqs => do
      let x ← ki.frequencies[ptr]?
      let l ← goSet ki.frequencies top x
      pure { ki with frequencies := l }
    | .docIds => pure ki
  let x ← ki.docIds[ptr]?
  let l ← goSet ki.docIds top x
  pure { ki with docIds := l }

theorem goSet_length {α : Type} {l l' : List α} {i : Nat} {x : α} (h : goSet l i x = some l') :
    l'.length = l.length := by
  simp only [goSet] at h; split at h <;> simp at h; simp [← h]

/-- `moveRow` does not change the number of documents (used for termination). -/
theorem moveRow_length {it : IndexType} {ki ki' : KeywordIndices} {top ptr : Nat}
    (h : moveRow it ki top ptr = some ki') : ki'.docIds.length = ki.docIds.length := by
  cases it <;> simp only [moveRow, bind, pure, Option.bind_eq_some_iff] at h
  · obtain ⟨x, hx, l, hl, h⟩ := by simpa using h
    simp [← h, goSet_length hl]
  · obtain ⟨x, hx, a, ha, y, hy, l, hl, h⟩ := by simpa using h
    simp [← h, goSet_length hl]
  · obtain ⟨x, hx, a, ha, y, hy, l, hl, h⟩ := by simpa using h
    simp [← h, goSet_length hl]

/-- core/indexer.go:323-346: the two-pointer scan; returns the row, `indicesTop` and
`indicesPointer`. -/
def removeLoop (it : IndexType) (docs : List Str) (ki : KeywordIndices)
    (top ptr dptr : Nat) : Option (KeywordIndices × Nat × Nat) :=
  if h : dptr < docs.length ∧ ptr < ki.docIds.length then
    if ki.docIds[ptr] < docs[dptr] then
      if top ≠ ptr then
        match hm : moveRow it ki top ptr with
        | none => none
        | some ki' => removeLoop it docs ki' (top + 1) (ptr + 1) dptr
      else removeLoop it docs ki (top + 1) (ptr + 1) dptr
    else if ki.docIds[ptr] = docs[dptr] then removeLoop it docs ki top (ptr + 1) (dptr + 1)
    else removeLoop it docs ki top ptr (dptr + 1)
  else some (ki, top, ptr)
termination_by (docs.length - dptr) + (ki.docIds.length - ptr)
decreasing_by
  · have := moveRow_length hm; omega
  all_goals omega

/-- core/indexer.go:348-360: cut the scanned-out part. -/
def cutRow (it : IndexType) (ki : KeywordIndices) (top ptr : Nat) : Option KeywordIndices :=
  if top ≠ ptr then do
    let ki ← match it with
      | .locs => do
        let l ← goCut ki.locations top ptr
        pure { ki with locations := l }
      | .freqs => do
        let l ← goCut ki.frequencies top ptr
        pure { ki with frequencies := l }
      | .docIds => pure ki
    let l ← goCut ki.docIds top ptr
    pure { ki with docIds := l }
  else some ki

/-- core/indexer.go:318-320: the predicate `(*docs)[i] >= indices.docIds[0]`. -/
def removeStartPred (docs : List Str) (ki : KeywordIndices) (i : Nat) : Option Bool :=
  match docs[i]?, ki.docIds[0]? with
  | some d, some x => some (decide (x ≤ d))
  | _, _ => none

/-- core/indexer.go:314-365: the body of the loop over the table: `some none` deletes the
row (lines 362-364). -/
def removeRow (it : IndexType) (docs : List Str) (ki : KeywordIndices) :
    Option (Option KeywordIndices) := do
  let dptr ← goSearch docs.length (removeStartPred docs ki)
  let (ki, top, ptr) ← removeLoop it docs ki 0 0 dptr
  let ki ← cutRow it ki top ptr
  pure (if ki.docIds.length = 0 then none else some ki)

/-- core/indexer.go:307-312: the first loop of `RemoveDocs`. -/
def forgetDocs : List Str → Indexer → Indexer
  | [], s => s
  | d :: ds, s => forgetDocs ds
      { s with totalTokenLen := s.totalTokenLen - (s.docTokenLens.get d).getD 0,
               docTokenLens := s.docTokenLens.del d,
               docsState := s.docsState.del d }

/-- core/indexer.go:298-366 `RemoveDocs`. -/
def Indexer.removeDocs (s : Indexer) (docs : List Str) : Option Indexer := do
  let s := forgetDocs docs s
  let table ← s.table.rangeUpdate (removeRow s.opts.indexType docs)
  pure { s with table := table }

/-- The two `sort.Sort` calls of the indexer (core/indexer.go:171 on `types.DocsIndex`,
core/indexer.go:289 on `types.DocsId`). The standard library function is a parameter;
theorems assume only its contract `Sorter.Ok` (sorted permutation, NOT stability). -/
structure Sorter where
  docs : List DocIndex → List DocIndex
  ids : List Str → List Str

/-- core/indexer.go:265-281: the registration of one id in the removal cache. `"0"` is the
sentinel "no document". -/
def registerRemoval (s : Indexer) (docId : Str) : Option Indexer :=
  if docId ≠ str "0" then
    match s.docsState.get docId with
    | some 0 =>
      if s.removeCache.length < 2 * s.opts.docCacheSize then
        some { s with removeCache := s.removeCache ++ [docId],
                      docsState := s.docsState.set docId 1,
                      numDocs := s.numDocs - 1 }
      else none
    | some 2 => some { s with docsState := s.docsState.set docId 1 }
    | _ => some s
  else some s

/-- core/indexer.go:258-296 `RemoveDocToCache`; also returns Go's boolean result. -/
def Indexer.removeDocToCache (so : Sorter) (s : Indexer) (docId : Str) (force : Bool) :
    Option (Indexer × Bool) := do
  let s ← registerRemoval s docId
  if s.removeCache.length > 0 ∧ (s.removeCache.length ≥ s.opts.docCacheSize ∨ force = true) then
    let docs := so.ids s.removeCache
    let s ← { s with removeCache := [] }.removeDocs docs
    pure (s, true)
  else pure (s, false)

/-- core/indexer.go:139-142: `if position != i { swap addCache[position], addCache[i] }`
(`doc` is `addCache[i]`). -/
def swapCache (cache : List DocIndex) (position i : Nat) (doc : DocIndex) :
    Option (List DocIndex) :=
  if position ≠ i then
    match cache[position]? with
    | none => none
    | some p => some ((cache.set position doc).set i p)
  else some cache

/-- core/indexer.go:131-157: the scan of the add cache (`i` from 0 to the pointer, `fuel`
iterations left, `position` as in the code). `addCache[i]` is read before the swap. -/
def scanCache : Nat → Nat → Nat → Indexer → Option (Indexer × Nat)
  | 0, _, position, s => some (s, position)
  | fuel + 1, i, position, s =>
    match s.addCache[i]? with
    | none => none
    | some doc =>
      match s.docsState.get doc.docId with
      | none => scanCache fuel (i + 1) position
          { s with docsState := s.docsState.set doc.docId 2 }
      | some st =>
        if st ≤ 1 then
          match swapCache s.addCache position i doc with
          | none => none
          | some cache =>
            let s := { s with addCache := cache }
            if st = 0 then
              if s.removeCache.length < 2 * s.opts.docCacheSize then
                scanCache fuel (i + 1) (position + 1)
                  { s with removeCache := s.removeCache ++ [doc.docId],
                           docsState := s.docsState.set doc.docId 1,
                           numDocs := s.numDocs - 1 }
              else none
            else scanCache fuel (i + 1) (position + 1) s
        else scanCache fuel (i + 1) position s

/-- core/indexer.go:128-172: the flush part of `AddDocToCache`. -/
def flushAdds (so : Sorter) (s : Indexer) (force : Bool) : Option Indexer := do
  let (s, position) ← scanCache s.addCache.length 0 0 s
  let (s, removed) ← s.removeDocToCache so (str "0") force
  let position := if removed then 0 else position
  let docs := s.addCache.drop position
  { s with addCache := s.addCache.take position }.addDocs (so.docs docs)

/-- core/indexer.go:115-176 `AddDocToCache(doc, forceUpdate)`; `none` document = Go `nil`.
The write `addCache[addCachePointer] = doc` panics when the cache is full. -/
def Indexer.addDocToCache (so : Sorter) (s : Indexer) (doc : Option DocIndex) (force : Bool) :
    Option Indexer := do
  let s ← match doc with
    | none => some s
    | some d =>
      if s.addCache.length < s.opts.docCacheSize then
        some { s with addCache := s.addCache ++ [d] }
      else none
  if s.addCache.length ≥ s.opts.docCacheSize ∨ force = true then flushAdds so s force
  else pure s

/-- The mutating calls of the index API. -/
inductive IdxOp
  | add (doc : DocIndex) (force : Bool)
  | remove (docId : Str) (force : Bool)
  /-- `AddDocToCache(nil, force)`, sent by the engine's flush (indexer_worker.go). -/
  | flush (force : Bool)
  deriving DecidableEq, Repr

/-- One API call. -/
def Indexer.step (so : Sorter) (s : Indexer) : IdxOp → Option Indexer
  | .add d f => s.addDocToCache so (some d) f
  | .remove d f => (s.removeDocToCache so d f).map (·.1)
  | .flush f => s.addDocToCache so none f

/-- A history of API calls; `none` as soon as one call panics. -/
def Indexer.run (so : Sorter) (s : Indexer) : List IdxOp → Option Indexer
  | [] => some s
  | op :: ops => (s.step so op).bind (fun s' => Indexer.run so s' ops)

end Riot
