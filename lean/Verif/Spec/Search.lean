import Verif.Model.Lookup

/-!
# What a search should return, in terms of documents only
-/

namespace Riot

/-- The search keys of a document. -/
def DocIndex.keys (doc : DocIndex) : List Str := doc.keywords.map (·.text)

/-- The locations a document was added with for a key (none if it is not a key). -/
def DocIndex.startsOf (doc : DocIndex) (k : Str) : List Int :=
  ((doc.keywords.find? (fun kw => kw.text = k)).map (·.starts)).getD []

/-- The frequency a document was added with for a key. -/
def DocIndex.freqOf (doc : DocIndex) (k : Str) : Rat :=
  ((doc.keywords.find? (fun kw => kw.text = k)).map (·.frequency)).getD 0

/-- Term frequency used for BM25: the number of locations in a location index, the stored
frequency in a frequency index. -/
def DocIndex.tfOf (doc : DocIndex) (it : IndexType) (k : Str) : Rat :=
  match it with
  | .locs => ((doc.startsOf k).length : Rat)
  | _ => doc.freqOf k

/-- The documented BM25 sum (docs/bm25.md): `IDF * TF * (k1+1) / (TF + k1*(1-b+b*D/L))`,
`IDF = log2(N/df + 1)`, over the query tokens; tokens with no positive frequency, a
missing parameter set or a zero average length contribute 0. -/
def bm25Spec (log2 : Rat → Rat) (bm : Option BM25Parameters) (n avg d : Rat)
    (tf : Str → Rat) (df : Str → Nat) (tokens : List Str) : Rat :=
  (tokens.map (fun t =>
    match bm with
    | none => 0
    | some p =>
      if tf t > 0 ∧ avg ≠ 0 then
        log2 (n / (df t : Rat) + 1) * tf t * (p.k1 + 1) /
          (tf t + p.k1 * (1 - p.b + p.b * d / avg))
      else 0)).sum

/-- The result entry for a document, in terms of the document as it was added and of three
statistics. -/
def expectedDoc (log2 : Rat → Rat) (o : IndexerOpts) (n avg : Rat) (df : Str → Nat)
    (tokens : List Str) (doc : DocIndex) : IndexedDoc :=
  let bm := bm25Spec log2 o.bm25 n avg doc.tokenLen (doc.tfOf o.indexType) df tokens
  match o.indexType with
  | .docIds => { docId := doc.docId }
  | .freqs => { docId := doc.docId, bm25 := bm }
  | .locs =>
    if ∀ t ∈ tokens, doc.startsOf t ≠ [] then
      let r := (computeTokenProximity (tokens.map doc.startsOf) (tokens.map List.length)).getD (0, [])
      { docId := doc.docId, bm25 := bm, tokenProximity := int32 r.1, tokenSnippetLocs := r.2,
        tokenLocs := tokens.map doc.startsOf }
    else { docId := doc.docId }

/-- `d` is allowed by the DocIds restriction of the request. -/
def Allowed (docIds : Option (List Str)) (d : Str) : Prop :=
  ∀ ds, docIds = some ds → d ∈ ds

/-- `d` matches an AND request on the visible documents `vis`. -/
def Matches (vis : Str → Option DocIndex) (docIds : Option (List Str)) (keys : List Str)
    (d : Str) : Prop :=
  keys ≠ [] ∧ Allowed docIds d ∧ ∃ doc, vis d = some doc ∧ ∀ k ∈ keys, k ∈ doc.keys

/-- The keys of one clause (Must, Should or NotIn) of a logic request: the explicit list of
`Expr` if it is not empty, else the keywords of the request if the flag is set, else the
clause is absent. -/
def clauseKeys (keywords : List Str) (flag : Bool) (explicit : List Str) : Option (List Str) :=
  if explicit ≠ [] then some explicit else if flag then some keywords else none

/-- `d` satisfies the Must, Should and NotIn clauses, on the documents `docs`. -/
def LogicMatches (docs : Str → Option DocIndex) (must should notIn : Option (List Str))
    (d : Str) : Prop :=
  ∃ doc, docs d = some doc ∧
    (∀ ks, must = some ks → ∀ k ∈ ks, k ∈ doc.keys) ∧
    (∀ ks, should = some ks → ∃ k ∈ ks, k ∈ doc.keys) ∧
    (∀ ks, notIn = some ks → ∀ k ∈ ks, k ∉ doc.keys)

/-- It is clear which keys each clause of a logic request is about: a clause asked for by its flag alone, which is about the
keywords of the request, does not stand behind a clause with an explicit list (in the order Must, Should, NotIn). Requests
written with flags only or with explicit lists only are clear, and so is the mixture of examples/logic `logic1`. For the other
requests the code takes the keys of the previous clause for the flagged one (`C14_refuted_mixed`). -/
def Logic.Clear (l : Logic) : Prop :=
  (l.should = true → l.expr.should = [] → l.expr.must = []) ∧
  (l.notIn = true → l.expr.notIn = [] → l.expr.must = [] ∧ l.expr.should = [])

end Riot
