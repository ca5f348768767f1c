import Verif.Model.Lookup
import Mathlib.Data.Int.Log
import Mathlib.Data.Rat.Floor

/-!
# The index with float32 arithmetic (core/indexer.go)

The other models compute token totals and BM25 values exactly. Here the same functions are given
with a rounding function `rnd` after every arithmetic operation on `float32` values: the index
mutations that touch `totalTokenLen`, and the BM25 computation of `Lookup`. The rest of the index
code contains no floating-point arithmetic and is shared with Model/Indexer and Model/Lookup.

`f32` is IEEE binary32 rounding to nearest, ties to even, without bounds on the exponent: overflow
and underflow are not modelled. (Go may fuse `x*y + z` on some architectures; not modelled.)
-/

namespace Riot

/-- The integer closest to `q`, the even one of two. -/
def roundEven (q : Rat) : Int :=
  if q - ⌊q⌋ < 1 / 2 then ⌊q⌋
  else if 1 / 2 < q - ⌊q⌋ then ⌊q⌋ + 1
  else if ⌊q⌋ % 2 = 0 then ⌊q⌋
  else ⌊q⌋ + 1

/-- The value of the last of the 24 binary digits of a float32 of the size of `x`. -/
def ulp32 (x : Rat) : Rat := (2 : Rat) ^ (Int.log 2 |x| - 23)

/-- Rounding of an exact result to float32. -/
def f32 (x : Rat) : Rat := roundEven (x / ulp32 x) * ulp32 x

/-! ## Mutations -/

/-- core/indexer.go:195-254 (cf. `addOneDoc`); line 205 rounds. -/
def addOneDocF (rnd : Rat → Rat) (s : Indexer) (ptrs : GoMap Nat) (doc : DocIndex) :
    Option (Indexer × GoMap Nat) :=
  if s.docsState.get doc.docId = some 1 then some (s, ptrs)
  else do
    let s := if doc.tokenLen ≠ 0 then
        { s with docTokenLens := s.docTokenLens.set doc.docId doc.tokenLen,
                 totalTokenLen := rnd (s.totalTokenLen + doc.tokenLen) }
      else s
    let (table, ptrs) ← addKeywords s.opts.indexType doc.docId doc.keywords s.table ptrs
    pure ({ s with table := table, docsState := s.docsState.set doc.docId 0,
                   numDocs := s.numDocs + 1 }, ptrs)

/-- core/indexer.go:189-255 (cf. `addDocsLoop`). -/
def addDocsLoopF (rnd : Rat → Rat) : List DocIndex → Indexer → GoMap Nat → Option Indexer
  | [], s, _ => some s
  | doc :: rest, s, ptrs =>
    match rest with
    | next :: _ =>
      if doc.docId = next.docId then addDocsLoopF rnd rest s ptrs
      else do
        let (s, ptrs) ← addOneDocF rnd s ptrs doc
        addDocsLoopF rnd rest s ptrs
    | [] => do
      let (s, ptrs) ← addOneDocF rnd s ptrs doc
      addDocsLoopF rnd rest s ptrs

/-- core/indexer.go:178-256 `AddDocs`. -/
def Indexer.addDocsF (rnd : Rat → Rat) (s : Indexer) (docs : List DocIndex) : Option Indexer :=
  addDocsLoopF rnd docs s .empty

/-- core/indexer.go:307-312 (cf. `forgetDocs`); line 309 rounds. -/
def forgetDocsF (rnd : Rat → Rat) : List Str → Indexer → Indexer
  | [], s => s
  | d :: ds, s => forgetDocsF rnd ds
      { s with totalTokenLen := rnd (s.totalTokenLen - (s.docTokenLens.get d).getD 0),
               docTokenLens := s.docTokenLens.del d,
               docsState := s.docsState.del d }

/-- core/indexer.go:298-366 `RemoveDocs`. -/
def Indexer.removeDocsF (rnd : Rat → Rat) (s : Indexer) (docs : List Str) : Option Indexer := do
  let s := forgetDocsF rnd docs s
  let table ← s.table.rangeUpdate (removeRow s.opts.indexType docs)
  pure { s with table := table }

/-- core/indexer.go:258-296 `RemoveDocToCache`. -/
def Indexer.removeDocToCacheF (rnd : Rat → Rat) (so : Sorter) (s : Indexer) (docId : Str)
    (force : Bool) : Option (Indexer × Bool) := do
  let s ← registerRemoval s docId
  if s.removeCache.length > 0 ∧ (s.removeCache.length ≥ s.opts.docCacheSize ∨ force = true) then
    let docs := so.ids s.removeCache
    let s ← { s with removeCache := [] }.removeDocsF rnd docs
    pure (s, true)
  else pure (s, false)

/-- core/indexer.go:128-172 (cf. `flushAdds`). -/
def flushAddsF (rnd : Rat → Rat) (so : Sorter) (s : Indexer) (force : Bool) : Option Indexer := do
  let (s, position) ← scanCache s.addCache.length 0 0 s
  let (s, removed) ← s.removeDocToCacheF rnd so (str "0") force
  let position := if removed then 0 else position
  let docs := s.addCache.drop position
  { s with addCache := s.addCache.take position }.addDocsF rnd (so.docs docs)

/-- core/indexer.go:115-176 `AddDocToCache`. -/
def Indexer.addDocToCacheF (rnd : Rat → Rat) (so : Sorter) (s : Indexer) (doc : Option DocIndex)
    (force : Bool) : Option Indexer := do
  let s ← match doc with
    | none => some s
    | some d =>
      if s.addCache.length < s.opts.docCacheSize then
        some { s with addCache := s.addCache ++ [d] }
      else none
  if s.addCache.length ≥ s.opts.docCacheSize ∨ force = true then flushAddsF rnd so s force
  else pure s

/-- One API call. -/
def Indexer.stepF (rnd : Rat → Rat) (so : Sorter) (s : Indexer) : IdxOp → Option Indexer
  | .add d f => s.addDocToCacheF rnd so (some d) f
  | .remove d f => (s.removeDocToCacheF rnd so d f).map (·.1)
  | .flush f => s.addDocToCacheF rnd so none f

/-- A history of API calls. -/
def Indexer.runF (rnd : Rat → Rat) (so : Sorter) (s : Indexer) : List IdxOp → Option Indexer
  | [] => some s
  | op :: ops => (s.stepF rnd so op).bind (fun s' => Indexer.runF rnd so s' ops)

/-! ## BM25 -/

/-- core/indexer.go:543: one term of the sum, every operation rounded, in Go's order of
evaluation. -/
def bm25TermF (rnd : Rat → Rat) (idf frequency k1 b d avg : Rat) : Rat :=
  let num := rnd (rnd (idf * frequency) * rnd (k1 + 1))
  let norm := rnd (rnd (1 - b) + rnd (rnd (b * d) / avg))
  rnd (num / rnd (frequency + rnd (k1 * norm)))

/-- core/indexer.go:526-545 (cf. `bm25Sum`): the loop over the token rows, from the left; `acc` is
`bm25`. `idf n df` is the float32 value of line 540 (computed in float64 with `math.Log2`). -/
def bm25SumF (rnd : Rat → Rat) (idf : Int → Nat → Rat) (o : IndexerOpts) (n : Int) (d avg : Rat) :
    Rat → List (KeywordIndices × Nat) → Option Rat
  | acc, [] => some acc
  | acc, (ki, ptr) :: rows => do
    let frequency ← rowFrequency o.indexType ki ptr
    match o.bm25 with
    | some p =>
      if ki.docIds.length > 0 ∧ frequency > 0 ∧ avg ≠ 0 then
        bm25SumF rnd idf o n d avg
          (rnd (acc + bm25TermF rnd (idf n ki.docIds.length) frequency p.k1 p.b d avg)) rows
      else bm25SumF rnd idf o n d avg acc rows
    | none => bm25SumF rnd idf o n d avg acc rows

/-- core/indexer.go:486-553 (cf. `scoreDoc`). -/
def scoreDocF (rnd : Rat → Rat) (idf : Int → Nat → Rat) (s : Indexer) (avg : Rat) (base : Str)
    (rows : List (KeywordIndices × Nat)) (lens : List Nat) : Option IndexedDoc := do
  let bm25 := fun (_ : Unit) =>
    bm25SumF rnd idf s.opts s.numDocs ((s.docTokenLens.get base).getD 0) avg 0 rows
  match s.opts.indexType with
  | .locs =>
    let locs ← locsAt rows
    if locs.countP (fun l => l.length > 0) ≠ lens.length then
      pure { docId := base }
    else
      let (prox, snippet) ← computeTokenProximity locs lens
      let v ← bm25 ()
      pure { docId := base, bm25 := v, tokenProximity := int32 prox,
             tokenSnippetLocs := snippet, tokenLocs := locs }
  | .freqs =>
    let v ← bm25 ()
    pure { docId := base, bm25 := v }
  | .docIds => pure { docId := base }

/-- core/indexer.go:446-555 (cf. `lookupLoop`). -/
def lookupLoopF (rnd : Rat → Rat) (idf : Int → Nat → Rat) (s : Indexer) (avg : Rat)
    (row0 : KeywordIndices) (tokens : List Str) (docIds : Option (List Str)) (countOnly : Bool) :
    Nat → List (KeywordIndices × Nat) → List IndexedDoc × Nat → Option (List IndexedDoc × Nat)
  | 0, _, acc => some acc
  | p + 1, rows, acc =>
    match row0.docIds[p]? with
    | none => none
    | some base =>
      if notAllowed docIds base then
        lookupLoopF rnd idf s avg row0 tokens docIds countOnly p rows acc
      else
        match probeRows rows base with
        | none => none
        | some .stop => some acc
        | some (.miss rows) => lookupLoopF rnd idf s avg row0 tokens docIds countOnly p rows acc
        | some (.hit rows) =>
          if s.docsState.get base ≠ some 0 then
            lookupLoopF rnd idf s avg row0 tokens docIds countOnly p rows acc
          else
            match scoreDocF rnd idf s avg base (((row0, p) :: rows).take tokens.length)
                (tokens.map List.length) with
            | none => none
            | some doc =>
              lookupLoopF rnd idf s avg row0 tokens docIds countOnly p rows
                (if countOnly then acc.1 else acc.1 ++ [doc], acc.2 + 1)

/-- core/indexer.go:417-558 `internalLookup`; line 445: the number of documents is converted to
float32 and the quotient rounded. -/
def Indexer.internalLookupF (rnd : Rat → Rat) (idf : Int → Nat → Rat) (s : Indexer)
    (keywords tokens : List Str) (docIds : Option (List Str)) (countOnly : Bool) :
    Option (List IndexedDoc × Nat) :=
  match collectRows s.table keywords with
  | none => some ([], 0)
  | some [] => some ([], 0)
  | some (row0 :: rows) =>
    lookupLoopF rnd idf s (rnd (s.totalTokenLen / rnd s.numDocs)) row0 tokens docIds countOnly
      row0.docIds.length (rows.map (fun ki => (ki, ki.docIds.length - 1))) ([], 0)

/-- core/indexer.go:368-415 `Lookup`. -/
def Indexer.lookupF (rnd : Rat → Rat) (idf : Int → Nat → Rat) (s : Indexer)
    (tokens labels : List Str) (docIds : Option (List Str)) (countOnly : Bool)
    (logic : Option Logic := none) : Option (List IndexedDoc × Nat) :=
  if s.numDocs = 0 then some ([], 0)
  else
    let keywords := tokens ++ labels
    match logic with
    | none => s.internalLookupF rnd idf keywords tokens docIds countOnly
    | some l =>
      if keywords.length > 0 ∧ (l.must || l.should || l.notIn) = true then
        s.logicLookup docIds countOnly keywords l
      else if l.expr.must.length > 0 ∨ l.expr.should.length > 0 then
        s.logicLookup docIds countOnly keywords l
      else s.internalLookupF rnd idf keywords tokens docIds countOnly

end Riot
