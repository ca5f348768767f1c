import Verif.Spec.Witness

/-!
# The project's own unit tests of the index, on the model (core/indexer_test.go)

These are tests of the model, not proofs of properties: each `tt.Expect` of the Go tests, transcribed (by a script) and
evaluated by the kernel. They are evidence that the model behaves like the code.
-/

namespace Riot.CoreTest

/-- Expected ids. -/
def ids (l : List String) : Option (List Str) := some (l.map str)

/-- Expected documents. -/
def docs (l : List (String × Int × List Int)) : Option (List (Str × Int × List Int)) := some (l.map (fun x => (str x.1, x.2)))

/-- `types.KeywordIndex{...}` -/
def kw (t : String) (f : Rat) (l : List Int) : KeywordIndex := ⟨str t, f, l⟩

/-- `AddDocToCache(&types.DocIndex{...}, force)` -/
def add (id : String) (len : Rat) (kws : List KeywordIndex) (force : Bool) : IdxOp := .add ⟨str id, len, kws⟩ force

/-- The index after the calls. -/
def after (o : IndexerOpts) (h : List IdxOp) : Option Indexer := (Indexer.init o).run insSort h

/-- core/test_utils.go:9-16 `indicesToString`, as a list. -/
def indices (s : Option Indexer) (token : String) : Option (List Str) :=
  s.map (fun s => ((s.table.get (str token)).map (·.docIds)).getD [])

/-- core/test_utils.go:18-24 `indexedDocsToString`, as a list. -/
def found (s : Option Indexer) (tokens labels : List String) (docIds : Option (List String)) :
    Option (List (Str × Int × List Int)) :=
  (s.bind (fun s => s.lookup (fun x => x) (tokens.map str) (labels.map str) (docIds.map (·.map str)) false)).map
    (fun r => r.1.map (fun d => (d.docId, d.tokenProximity, d.tokenSnippetLocs)))

/-! ## TestAddKeywords (core/indexer_test.go:10-43) -/

def testAddKeywords : List IdxOp :=
  [add "1" 0 [kw "token1" 0 []] false,
   add "2" 0 [kw "token2" 0 []] false,
   add "3" 0 [kw "token3" 0 []] false,
   add "7" 0 [kw "token7" 0 []] false,
   add "1" 0 [kw "token2" 0 []] false,
   add "7" 0 [kw "token77" 0 []] false,
   .flush true]

example : indices (after ⟨.locs, 0, none⟩ (testAddKeywords)) "token1" = ids [] := by decide +kernel

example : indices (after ⟨.locs, 0, none⟩ (testAddKeywords)) "token2" = ids ["1", "2"] := by decide +kernel

example : indices (after ⟨.locs, 0, none⟩ (testAddKeywords)) "token3" = ids ["3"] := by decide +kernel

example : indices (after ⟨.locs, 0, none⟩ (testAddKeywords)) "token77" = ids ["7"] := by decide +kernel

/-! ## TestRemoveDocToCache (core/indexer_test.go:45-134) -/

def testRemoveDocToCache : List IdxOp :=
  [add "1" 0 [kw "token2" 0 [0], kw "token3" 0 [7]] false,
   add "2" 0 [kw "token1" 0 [0], kw "token2" 0 [7]] true,
   .remove (str "2") false,
   add "1" 0 [kw "token1" 0 [0], kw "token3" 0 [7]] true,
   add "2" 0 [kw "token1" 0 [0], kw "token2" 0 [7], kw "token3" 0 [14]] true,
   add "3" 0 [kw "token1" 0 [0], kw "token2" 0 [7]] true,
   .remove (str "3") true,
   add "2" 0 [kw "token2" 0 [0], kw "token3" 0 [7]] true,
   add "3" 0 [kw "token1" 0 [0], kw "token2" 0 [7]] true]

example : indices (after ⟨.locs, 0, none⟩ (testRemoveDocToCache.take 2)) "token1" = ids ["2"] := by decide +kernel

example : indices (after ⟨.locs, 0, none⟩ (testRemoveDocToCache.take 2)) "token2" = ids ["1", "2"] := by decide +kernel

example : indices (after ⟨.locs, 0, none⟩ (testRemoveDocToCache.take 2)) "token3" = ids ["1"] := by decide +kernel

example : indices (after ⟨.locs, 0, none⟩ (testRemoveDocToCache.take 4)) "token1" = ids ["1"] := by decide +kernel

example : indices (after ⟨.locs, 0, none⟩ (testRemoveDocToCache.take 4)) "token2" = ids [] := by decide +kernel

example : indices (after ⟨.locs, 0, none⟩ (testRemoveDocToCache.take 4)) "token3" = ids ["1"] := by decide +kernel

example : indices (after ⟨.locs, 0, none⟩ (testRemoveDocToCache.take 5)) "token1" = ids ["1", "2"] := by decide +kernel

example : indices (after ⟨.locs, 0, none⟩ (testRemoveDocToCache.take 5)) "token2" = ids ["2"] := by decide +kernel

example : indices (after ⟨.locs, 0, none⟩ (testRemoveDocToCache.take 5)) "token3" = ids ["1", "2"] := by decide +kernel

example : indices (after ⟨.locs, 0, none⟩ (testRemoveDocToCache.take 7)) "token1" = ids ["1", "2"] := by decide +kernel

example : indices (after ⟨.locs, 0, none⟩ (testRemoveDocToCache.take 7)) "token2" = ids ["2"] := by decide +kernel

example : indices (after ⟨.locs, 0, none⟩ (testRemoveDocToCache.take 7)) "token3" = ids ["1", "2"] := by decide +kernel

example : indices (after ⟨.locs, 0, none⟩ (testRemoveDocToCache)) "token1" = ids ["1", "3"] := by decide +kernel

example : indices (after ⟨.locs, 0, none⟩ (testRemoveDocToCache)) "token2" = ids ["2", "3"] := by decide +kernel

example : indices (after ⟨.locs, 0, none⟩ (testRemoveDocToCache)) "token3" = ids ["1", "2"] := by decide +kernel

/-! ## TestLookupLocsIndex (core/indexer_test.go:136-230) -/

def testLookupLocsIndex : List IdxOp :=
  [add "1" 0 [kw "token2" 0 [0], kw "token3" 0 [7]] false,
   add "2" 0 [kw "token1" 0 [0], kw "token2" 0 [7], kw "token3" 0 [14]] false,
   add "3" 0 [kw "token1" 0 [0], kw "token2" 0 [7]] false,
   add "4" 0 [kw "token2" 0 [0]] false,
   add "7" 0 [kw "token1" 0 [0], kw "token3" 0 [7]] false,
   add "9" 0 [kw "token3" 0 [0]] true]

example : indices (after ⟨.locs, 0, none⟩ (testLookupLocsIndex)) "token1" = ids ["2", "3", "7"] := by decide +kernel

example : indices (after ⟨.locs, 0, none⟩ (testLookupLocsIndex)) "token2" = ids ["1", "2", "3", "4"] := by decide +kernel

example : indices (after ⟨.locs, 0, none⟩ (testLookupLocsIndex)) "token3" = ids ["1", "2", "7", "9"] := by decide +kernel

example : found (after ⟨.locs, 0, none⟩ (testLookupLocsIndex)) ["token4"] [] none = docs [] := by decide +kernel

example : found (after ⟨.locs, 0, none⟩ (testLookupLocsIndex)) ["token1"] [] none = docs [("7", 0, [0]), ("3", 0, [0]), ("2", 0, [0])] := by decide +kernel

example : found (after ⟨.locs, 0, none⟩ (testLookupLocsIndex)) ["token1", "token4"] [] none = docs [] := by decide +kernel

example : found (after ⟨.locs, 0, none⟩ (testLookupLocsIndex)) ["token1", "token2"] [] none = docs [("3", 1, [0, 7]), ("2", 1, [0, 7])] := by decide +kernel

example : found (after ⟨.locs, 0, none⟩ (testLookupLocsIndex)) ["token2", "token1"] [] none = docs [("3", 13, [7, 0]), ("2", 13, [7, 0])] := by decide +kernel

example : found (after ⟨.locs, 0, none⟩ (testLookupLocsIndex)) ["token1", "token3"] [] none = docs [("7", 1, [0, 7]), ("2", 8, [0, 14])] := by decide +kernel

example : found (after ⟨.locs, 0, none⟩ (testLookupLocsIndex)) ["token3", "token1"] [] none = docs [("7", 13, [7, 0]), ("2", 20, [14, 0])] := by decide +kernel

example : found (after ⟨.locs, 0, none⟩ (testLookupLocsIndex)) ["token2", "token3"] [] none = docs [("2", 1, [7, 14]), ("1", 1, [0, 7])] := by decide +kernel

example : found (after ⟨.locs, 0, none⟩ (testLookupLocsIndex)) ["token3", "token2"] [] none = docs [("2", 13, [14, 7]), ("1", 13, [7, 0])] := by decide +kernel

example : found (after ⟨.locs, 0, none⟩ (testLookupLocsIndex)) ["token1", "token2", "token3"] [] none = docs [("2", 2, [0, 7, 14])] := by decide +kernel

example : found (after ⟨.locs, 0, none⟩ (testLookupLocsIndex)) ["token3", "token2", "token1"] [] none = docs [("2", 26, [14, 7, 0])] := by decide +kernel

/-! ## TestLookupDocIdsIndex (core/indexer_test.go:232-326) -/

def testLookupDocIdsIndex : List IdxOp :=
  [add "1" 0 [kw "token2" 0 [0], kw "token3" 0 [7]] false,
   add "2" 0 [kw "token1" 0 [0], kw "token2" 0 [7], kw "token3" 0 [14]] false,
   add "3" 0 [kw "token1" 0 [0], kw "token2" 0 [7]] false,
   add "4" 0 [kw "token2" 0 [0]] false,
   add "7" 0 [kw "token1" 0 [0], kw "token3" 0 [7]] false,
   add "9" 0 [kw "token3" 0 [0]] true]

example : indices (after ⟨.docIds, 0, none⟩ (testLookupDocIdsIndex)) "token1" = ids ["2", "3", "7"] := by decide +kernel

example : indices (after ⟨.docIds, 0, none⟩ (testLookupDocIdsIndex)) "token2" = ids ["1", "2", "3", "4"] := by decide +kernel

example : indices (after ⟨.docIds, 0, none⟩ (testLookupDocIdsIndex)) "token3" = ids ["1", "2", "7", "9"] := by decide +kernel

example : found (after ⟨.docIds, 0, none⟩ (testLookupDocIdsIndex)) ["token4"] [] none = docs [] := by decide +kernel

example : found (after ⟨.docIds, 0, none⟩ (testLookupDocIdsIndex)) ["token1"] [] none = docs [("7", 0, []), ("3", 0, []), ("2", 0, [])] := by decide +kernel

example : found (after ⟨.docIds, 0, none⟩ (testLookupDocIdsIndex)) ["token1", "token4"] [] none = docs [] := by decide +kernel

example : found (after ⟨.docIds, 0, none⟩ (testLookupDocIdsIndex)) ["token1", "token2"] [] none = docs [("3", 0, []), ("2", 0, [])] := by decide +kernel

example : found (after ⟨.docIds, 0, none⟩ (testLookupDocIdsIndex)) ["token2", "token1"] [] none = docs [("3", 0, []), ("2", 0, [])] := by decide +kernel

example : found (after ⟨.docIds, 0, none⟩ (testLookupDocIdsIndex)) ["token1", "token3"] [] none = docs [("7", 0, []), ("2", 0, [])] := by decide +kernel

example : found (after ⟨.docIds, 0, none⟩ (testLookupDocIdsIndex)) ["token3", "token1"] [] none = docs [("7", 0, []), ("2", 0, [])] := by decide +kernel

example : found (after ⟨.docIds, 0, none⟩ (testLookupDocIdsIndex)) ["token2", "token3"] [] none = docs [("2", 0, []), ("1", 0, [])] := by decide +kernel

example : found (after ⟨.docIds, 0, none⟩ (testLookupDocIdsIndex)) ["token3", "token2"] [] none = docs [("2", 0, []), ("1", 0, [])] := by decide +kernel

example : found (after ⟨.docIds, 0, none⟩ (testLookupDocIdsIndex)) ["token1", "token2", "token3"] [] none = docs [("2", 0, [])] := by decide +kernel

example : found (after ⟨.docIds, 0, none⟩ (testLookupDocIdsIndex)) ["token3", "token2", "token1"] [] none = docs [("2", 0, [])] := by decide +kernel

/-! ## TestLookupWithProximity (core/indexer_test.go:328-372) -/

def testLookupWithProximity : List IdxOp :=
  [add "1" 0 [kw "token2" 0 [0, 21], kw "token3" 0 [28], kw "token4" 0 [7, 14, 35]] true,
   add "1" 0 [kw "t1" 0 [3], kw "t2" 0 [0, 12], kw "t3" 0 [15]] true,
   add "1" 0 [kw "t1" 0 [6], kw "t2" 0 [3, 19], kw "t3" 0 [0, 22]] true]

example : found (after ⟨.locs, 0, none⟩ (testLookupWithProximity.take 1)) ["token2", "token3"] [] none = docs [("1", 1, [21, 28])] := by decide +kernel

example : found (after ⟨.locs, 0, none⟩ (testLookupWithProximity.take 2)) ["t1", "t2", "t3"] [] none = docs [("1", 8, [3, 12, 15])] := by decide +kernel

example : found (after ⟨.locs, 0, none⟩ (testLookupWithProximity)) ["t1", "t2", "t3"] [] none = docs [("1", 10, [6, 3, 0])] := by decide +kernel

/-! ## TestLookupWithPartialLocations (core/indexer_test.go:374-403) -/

def testLookupWithPartialLocations : List IdxOp :=
  [add "1" 0 [kw "token2" 0 [0, 21], kw "token3" 0 [28], kw "label1" 0 [], kw "token4" 0 [7, 14, 35]] false,
   add "2" 0 [kw "token2" 0 [0, 21], kw "token3" 0 [28], kw "token4" 0 [7, 14, 35]] true]

example : indices (after ⟨.locs, 0, none⟩ (testLookupWithPartialLocations)) "label1" = ids ["1"] := by decide +kernel

example : found (after ⟨.locs, 0, none⟩ (testLookupWithPartialLocations)) ["token2", "token3"] ["label1"] none = docs [("1", 1, [21, 28])] := by decide +kernel

/-! ## TestLookupWithBM25 (core/indexer_test.go:405-441) -/

def testLookupWithBM25 : List IdxOp :=
  [add "1" 6 [kw "token2" 3 [0, 21], kw "token3" 7 [28], kw "token4" 15 [7, 14, 35]] false,
   add "2" 2 [kw "token6" 3 [0], kw "token7" 15 [7]] true]

/-- `int(outputs[0].BM25*10000)`; log2(3) to ten digits. -/
example : ((after ⟨.freqs, 0, some ⟨1, 1⟩⟩ testLookupWithBM25).bind (fun s => s.lookup (fun x => if x = 3 then 15849625007 / 10000000000 else 0)
    ([str "token2", str "token3", str "token4"]) [] none false)).map (fun r => r.1.map (fun d => (d.bm25 * 10000).floor)) =
    some [76055] := by decide +kernel

/-! ## TestLookupWithinDocIds (core/indexer_test.go:443-488) -/

def testLookupWithinDocIds : List IdxOp :=
  [add "1" 0 [kw "token2" 0 [0], kw "token3" 0 [7]] false,
   add "2" 0 [kw "token1" 0 [0], kw "token2" 0 [7], kw "token3" 0 [14]] false,
   add "3" 0 [kw "token1" 0 [0], kw "token2" 0 [7]] false,
   add "4" 0 [kw "token2" 0 [0]] true]

example : found (after ⟨.locs, 0, none⟩ (testLookupWithinDocIds)) ["token2"] [] (some ["1", "3"]) = docs [("3", 0, [7]), ("1", 0, [0])] := by decide +kernel

/-! ## TestLookupWithLocations (core/indexer_test.go:490-517) -/

def testLookupWithLocations : List IdxOp :=
  [add "1" 0 [kw "token2" 0 [0, 21], kw "token3" 0 [28], kw "token4" 0 [7, 14, 35]] true,
   add "2" 0 [kw "token3" 0 [0, 21], kw "token5" 0 [28], kw "token2" 0 [7, 14, 35]] true,
   .remove (str "2") true]

/-- `docs[0].TokenLocs` -/
example : ((after ⟨.locs, 0, none⟩ testLookupWithLocations).bind (fun s => s.lookup (fun x => x) [str "token2", str "token3"] [] none false)).map
    (fun r => r.1.map (·.tokenLocs)) = some [[[0, 21], [28]]] := by decide +kernel

end Riot.CoreTest
