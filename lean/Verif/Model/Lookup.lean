import Verif.Model.Proximity

/-!
# Searching the inverted index (core/indexer.go:368-685, 815-905)

`none` is a Go panic. `docIds : Option (List Str)` is the key set of the Go map
(`nil` = `none`; the code ignores the values). `log2` is `math.Log2` on rationals, a
parameter; floating-point rounding is not modelled.
-/

namespace Riot

/-- Result of probing the rows after the first one for the base document. -/
inductive Probe
  /-- every row contains the document; the updated pointers -/
  | hit (rows : List (KeywordIndices × Nat))
  /-- some row does not; the updated pointers -/
  | miss (rows : List (KeywordIndices × Nat))
  /-- some row has only larger documents: stop the whole search (lines 468-472) -/
  | stop

/-- core/indexer.go:455-479: loop over `iTable = 1 ..`, each row with its pointer. -/
def probeRows : List (KeywordIndices × Nat) → Str → Option Probe
  | [], _ => some (.hit [])
  | (ki, ptr) :: rest, base => do
    let (position, found) ← searchIndex ki.docIds 0 ptr base
    if found then
      let r ← probeRows rest base
      match r with
      | .hit rows => pure (.hit ((ki, position) :: rows))
      | .miss rows => pure (.miss ((ki, position) :: rows))
      | .stop => pure .stop
    else if position = 0 then pure .stop
    else pure (.miss ((ki, position - 1) :: rest))

/-- core/indexer.go:421-430: fetch the rows of all search keys; `none` = some key has no row. -/
def collectRows (table : GoMap KeywordIndices) : List Str → Option (List KeywordIndices)
  | [] => some []
  | k :: ks =>
    match table.get k, collectRows table ks with
    | some ki, some rows => some (ki :: rows)
    | _, _ => none

/-- `t.locations[indexPointers[i]]` for a list of rows with pointers; `none` = panic. -/
def locsAt : List (KeywordIndices × Nat) → Option (List (List Int))
  | [] => some []
  | (ki, ptr) :: rows => do
    let l ← ki.locations[ptr]?
    let ls ← locsAt rows
    pure (l :: ls)

/-- core/indexer.go:530-535: the frequency of a token at a row position; `none` = panic. -/
def rowFrequency (it : IndexType) (ki : KeywordIndices) (ptr : Nat) : Option Rat :=
  match it with
  | .locs => (ki.locations[ptr]?).map (fun l => (l.length : Rat))
  | _ => ki.frequencies[ptr]?

/-- core/indexer.go:526-545: the BM25 sum over the token rows. `n` is `numDocs`, `d` the
token length of the document, `avg` the average document length. -/
def bm25Sum (log2 : Rat → Rat) (o : IndexerOpts) (n : Rat) (d avg : Rat) :
    List (KeywordIndices × Nat) → Option Rat
  | [] => some 0
  | (ki, ptr) :: rows => do
    let frequency ← rowFrequency o.indexType ki ptr
    let rest ← bm25Sum log2 o n d avg rows
    match o.bm25 with
    | some p =>
      if ki.docIds.length > 0 ∧ frequency > 0 ∧ avg ≠ 0 then
        let idf := log2 (n / (ki.docIds.length : Rat) + 1)
        pure (idf * frequency * (p.k1 + 1) / (frequency + p.k1 * (1 - p.b + p.b * d / avg)) + rest)
      else pure rest
    | none => pure rest

/-- core/indexer.go:486-553: what the loop body appends for a document that is in all rows
and in state 0. `rows` are the rows of the *tokens* with their pointers, `lens` the byte
lengths of the tokens. -/
def scoreDoc (log2 : Rat → Rat) (s : Indexer) (avg : Rat) (base : Str)
    (rows : List (KeywordIndices × Nat)) (lens : List Nat) : Option IndexedDoc := do
  let bm25 := fun (_ : Unit) =>
    bm25Sum log2 s.opts s.numDocs ((s.docTokenLens.get base).getD 0) avg rows
  match s.opts.indexType with
  | .locs =>
    let locs ← locsAt rows
    -- lines 490-507: some token without locations
    if locs.countP (fun l => l.length > 0) ≠ lens.length then
      pure { docId := base }
    else
      let (prox, snippet) ← computeTokenProximity locs lens
      let v ← bm25 ()
      pure { docId := base, bm25 := v, tokenProximity := int32 prox,
             tokenSnippetLocs := snippet, tokenLocs := locs }
  | .freqs =>
    let v ← bm25 ()
    pure { docId := base, bm25 := v }
  | .docIds => pure { docId := base }

/-- core/indexer.go:449-453 and 632-637: a document outside a non-nil `docIds` is skipped. -/
def notAllowed (docIds : Option (List Str)) (d : Str) : Bool :=
  match docIds with
  | none => false
  | some ds => !ds.contains d

/-- core/indexer.go:446-555: the loop on `indexPointers[0]`; the first argument is
`indexPointers[0] + 1`. -/
def lookupLoop (log2 : Rat → Rat) (s : Indexer) (avg : Rat) (row0 : KeywordIndices)
    (tokens : List Str) (docIds : Option (List Str)) (countOnly : Bool) :
    Nat → List (KeywordIndices × Nat) → List IndexedDoc × Nat → Option (List IndexedDoc × Nat)
  | 0, _, acc => some acc
  | p + 1, rows, acc =>
    match row0.docIds[p]? with
    | none => none
    | some base =>
      if notAllowed docIds base then
        lookupLoop log2 s avg row0 tokens docIds countOnly p rows acc
      else
        match probeRows rows base with
        | none => none
        | some .stop => some acc
        | some (.miss rows) => lookupLoop log2 s avg row0 tokens docIds countOnly p rows acc
        | some (.hit rows) =>
          if s.docsState.get base ≠ some 0 then
            lookupLoop log2 s avg row0 tokens docIds countOnly p rows acc
          else
            match scoreDoc log2 s avg base (((row0, p) :: rows).take tokens.length)
                (tokens.map List.length) with
            | none => none
            | some doc =>
              lookupLoop log2 s avg row0 tokens docIds countOnly p rows
                (if countOnly then acc.1 else acc.1 ++ [doc], acc.2 + 1)

/-- core/indexer.go:417-558 `internalLookup`. -/
def Indexer.internalLookup (log2 : Rat → Rat) (s : Indexer) (keywords tokens : List Str)
    (docIds : Option (List Str)) (countOnly : Bool) : Option (List IndexedDoc × Nat) :=
  match collectRows s.table keywords with
  | none => some ([], 0)
  | some [] => some ([], 0)
  | some (row0 :: rows) =>
    lookupLoop log2 s (s.totalTokenLen / s.numDocs) row0 tokens docIds countOnly
      row0.docIds.length (rows.map (fun ki => (ki, ki.docIds.length - 1))) ([], 0)

/-- core/indexer.go:815-828 `findInMustTable`. -/
def findInMust : List KeywordIndices → Str → Option Bool
  | [], _ => some true
  | ki :: rows, d => do
    let (_, found) ← searchIndex ki.docIds 0 (ki.docIds.length - 1) d
    if found then findInMust rows d else pure false

/-- The loop shared by core/indexer.go:834-841 and core/indexer.go:854-861: is `d` in one
of the rows. -/
def findInAny : List KeywordIndices → Str → Option Bool
  | [], _ => some false
  | ki :: rows, d => do
    let (_, found) ← searchIndex ki.docIds 0 (ki.docIds.length - 1) d
    if found then pure true else findInAny rows d

/-- core/indexer.go:830-848 `findInShouldTable`: true for an empty table. -/
def findInShould (rows : List KeywordIndices) (d : Str) : Option Bool := do
  let r ← findInAny rows d
  if r then pure true else pure (rows.length == 0)

/-- core/indexer.go:850-864 `findInNotInTable`. -/
def findInNotIn (rows : List KeywordIndices) (d : Str) : Option Bool := findInAny rows d

/-- core/indexer.go:875-889: the inner loop of `unionTable` over one row. -/
def unionRow (notIn : List KeywordIndices) : List Str → List Str → Option (List Str)
  | [], acc => some acc
  | d :: ds, acc => do
    let n ← findInNotIn notIn d
    if n then unionRow notIn ds acc
    else if acc.contains d then unionRow notIn ds acc
    else unionRow notIn ds (acc ++ [d])

/-- core/indexer.go:874-890: the outer loop of `unionTable`. -/
def unionRows (notIn : List KeywordIndices) : List KeywordIndices → List Str → Option (List Str)
  | [], acc => some acc
  | ki :: rows, acc => do
    let acc ← unionRow notIn ki.docIds acc
    unionRows notIn rows acc

/-- core/indexer.go:894-902 and 673-681: turn ids into the result (documents carry only
their id). -/
def idsResult (ids : List Str) (countOnly : Bool) : List IndexedDoc × Nat :=
  (if countOnly then [] else ids.map (fun d => { docId := d }), ids.length)

/-- core/indexer.go:866-905 `unionTable`. -/
def unionTable (rows notIn : List KeywordIndices) (countOnly : Bool) :
    Option (List IndexedDoc × Nat) := do
  let ids ← unionRows notIn rows []
  pure (idsResult ids countOnly)

/-- core/indexer.go:664-668: the loop over the rows of the NotIn keys. -/
def notInRow (notIn : List KeywordIndices) : List Str → Option (List Str)
  | [] => some []
  | d :: ds => do
    let n ← findInNotIn notIn d
    let rest ← notInRow notIn ds
    pure (if n then d :: rest else rest)

/-- core/indexer.go:661-669. -/
def notInRows (notIn : List KeywordIndices) : List KeywordIndices → Option (List Str)
  | [] => some []
  | ki :: rows => do
    let a ← notInRow notIn ki.docIds
    let b ← notInRows notIn rows
    pure (a ++ b)

/-- core/indexer.go:630-651: the loop over the first Must row, `p = idx + 1`. -/
def mustLoop (row0 : KeywordIndices) (mustRest should notIn : List KeywordIndices)
    (docIds : Option (List Str)) : Nat → Option (List Str)
  | 0 => some []
  | p + 1 =>
    match row0.docIds[p]? with
    | none => none
    | some base =>
      if notAllowed docIds base then
        mustLoop row0 mustRest should notIn docIds p
      else do
        let m ← findInMust mustRest base
        let sh ← findInShould should base
        let n ← findInNotIn notIn base
        let rest ← mustLoop row0 mustRest should notIn docIds p
        pure (if m && sh && !n then base :: rest else rest)

/-- `indices, found := table[keyword]; if found { append }` for every keyword
(core/indexer.go:598-603, 618-623). -/
def foundRows (table : GoMap KeywordIndices) (ks : List Str) : List KeywordIndices :=
  ks.filterMap table.get

/-- core/indexer.go:560-685 `LogicLookup(docIds, countDocsOnly, logicExpr, logic)`; the
variable `logicExpr` is overwritten by `Expr.Must` / `Expr.Should` / `Expr.NotIn` when
these are not empty, and keeps the last value otherwise. -/
def Indexer.logicLookup (s : Indexer) (docIds : Option (List Str)) (countOnly : Bool)
    (logicExpr : List Str) (logic : Logic) : Option (List IndexedDoc × Nat) :=
  let expr1 := if logic.expr.must.length > 0 then logic.expr.must else logicExpr
  let useMust := logic.must || logic.expr.must.length > 0
  match (if useMust then collectRows s.table expr1 else some []) with
  | none => some ([], 0)
  | some mustTable =>
    let expr2 := if logic.expr.should.length > 0 then logic.expr.should else expr1
    let useShould := logic.should || logic.expr.should.length > 0
    let shouldTable := if useShould then foundRows s.table expr2 else []
    if useShould && shouldTable.length == 0 then some ([], 0)
    else
      let expr3 := if logic.expr.notIn.length > 0 then logic.expr.notIn else expr2
      let useNotIn := logic.notIn || logic.expr.notIn.length > 0
      let notInTable := if useNotIn then foundRows s.table expr3 else []
      if useMust then
        match mustTable with
        | [] => none -- `mustTable[0]`: index out of range
        | row0 :: rest => do
          let ids ← mustLoop row0 rest shouldTable notInTable docIds row0.docIds.length
          pure (idsResult ids countOnly)
      else if useShould then unionTable shouldTable notInTable countOnly
      else do
        let ids ← notInRows notInTable notInTable
        pure (idsResult ids countOnly)

/-- core/indexer.go:368-415 `Lookup(tokens, labels, docIds, countDocsOnly, logic...)`. -/
def Indexer.lookup (log2 : Rat → Rat) (s : Indexer) (tokens labels : List Str)
    (docIds : Option (List Str)) (countOnly : Bool) (logic : Option Logic := none) :
    Option (List IndexedDoc × Nat) :=
  if s.numDocs = 0 then some ([], 0)
  else
    let keywords := tokens ++ labels
    match logic with
    | none => s.internalLookup log2 keywords tokens docIds countOnly
    | some l =>
      if keywords.length > 0 ∧ (l.must || l.should || l.notIn) = true then
        s.logicLookup docIds countOnly keywords l
      else if l.expr.must.length > 0 ∨ l.expr.should.length > 0 then
        s.logicLookup docIds countOnly keywords l
      else s.internalLookup log2 keywords tokens docIds countOnly

end Riot
