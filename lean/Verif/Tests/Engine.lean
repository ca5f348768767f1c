import Verif.Props.Segment
import Verif.Props.EngineSearch

/-!
# The project's own engine tests, on the model (engine_test.go, riot_test.go)

These are tests of the model, not proofs of properties. Transcribed are the tests that do not need the big dictionary. What
the model leaves open is filled in as follows: the segmenter `gse` by longest match in the small dictionaries of testdata/
(words of latin letters in lower case), `murmur` by MurmurHash3 with seed 1, log2 by a table of values to ten digits, and
the pipeline (proved in C32, C54) by giving each shard its calls in order. Scores are compared like in the Go tests, as
`int(score*1000)`. The values of TestFrequenciesIndex, TestSearchNotUseGse and TestEngineIndexWithNewStore depend on which
documents share a shard, so they test the routing, too.
-/

namespace Riot.EngineTest

/-! ## The environment -/

/-- A letter or digit. -/
def alnum (b : Fin 256) : Bool := (97 ≤ b.val && b.val ≤ 122) || (65 ≤ b.val && b.val ≤ 90) || (48 ≤ b.val && b.val ≤ 57)

/-- Lower case of ASCII. -/
def lower (s : Str) : Str := s.map (fun b => if 65 ≤ b.val && b.val ≤ 90 then b + 32 else b)

/-- Number of bytes of the UTF-8 sequence that begins with `b`. -/
def runeLen (b : Fin 256) : Nat := if b.val < 192 then 1 else if b.val < 224 then 2 else if b.val < 240 then 3 else 4

/-- The UTF-8 sequences. -/
def explodeN : Nat → Str → List Str
  | 0, _ => []
  | _, [] => []
  | n + 1, b :: s => ((b :: s).take (runeLen b)) :: explodeN n ((b :: s).drop (runeLen b))

def explode (s : Str) : List Str := explodeN s.length s

/-- The first segment of a text that is not empty. -/
def firstWord (dict : List Str) (s : Str) : Str :=
  match s with
  | [] => []
  | b :: _ =>
    if alnum b then s.takeWhile alnum
    else (dict.find? (fun w => w.isPrefixOf s)).getD (s.take (runeLen b))

/-- Longest match (`dict` lists longer words first); the segments with their positions. -/
def segmentN (dict : List Str) : Nat → Nat → Str → List (Str × Int)
  | 0, _, _ => []
  | _, _, [] => []
  | n + 1, pos, s =>
    let w := firstWord dict s
    (w, (pos : Int)) :: segmentN dict n (pos + w.length) (s.drop w.length)

/-- testdata/test_dict.txt, test_dict_jp.txt -/
def dict : List Str := ["七十亿", "七十", "世界", "人口", "世", "界", "有", "七", "亿", "人", "口"].map str
def dictJp : List Str := ["こんにちは", "イ長調", "世界"].map str

def env (dict : List Str) : TextEnv where
  lower := lower
  explode := explode
  cut := fun _ _ s => (segmentN dict s.length 0 s).map (·.1)
  modeSegment := fun _ s => segmentN dict s.length 0 (lower s)
  lazyConvert := fun _ => []
  phrasePinyin := fun _ => []
  stopLines := []

/-- MurmurHash3 (32 bit), a 4-byte block. -/
def mix (h k : Nat) : Nat :=
  let k := k * 0xcc9e2d51 % 2 ^ 32
  let k := (k * 2 ^ 15 + k / 2 ^ 17) % 2 ^ 32
  let k := k * 0x1b873593 % 2 ^ 32
  h ^^^ k

def blocks : Nat → Nat → Str → Nat
  | n + 1, h, a :: b :: c :: d :: s =>
    let h := mix h (a.val + b.val * 2 ^ 8 + c.val * 2 ^ 16 + d.val * 2 ^ 24)
    let h := (h * 2 ^ 13 + h / 2 ^ 19) % 2 ^ 32
    blocks n ((h * 5 + 0xe6546b64) % 2 ^ 32) s
  | _, h, [a, b, c] => mix h (a.val + b.val * 2 ^ 8 + c.val * 2 ^ 16)
  | _, h, [a, b] => mix h (a.val + b.val * 2 ^ 8)
  | _, h, [a] => mix h a.val
  | _, h, _ => h

/-- `murmur.Sum32` -/
def murmur (s : Str) : Nat :=
  let h := blocks s.length 1 s
  let h := h ^^^ s.length
  let h := (h ^^^ (h / 2 ^ 16)) * 0x85ebca6b % 2 ^ 32
  let h := (h ^^^ (h / 2 ^ 13)) * 0xc2b2ae35 % 2 ^ 32
  h ^^^ (h / 2 ^ 16)

/-- `math.Log2` of the numbers that occur. -/
def log2 (x : Rat) : Rat :=
  if x = 2 then 1 else if x = 3 then 15849625007 / 10000000000 else if x = 4 then 2
  else if x = 3 / 2 then 5849625007 / 10000000000 else if x = 5 / 2 then 13219280949 / 10000000000 else 0

/-! ## Engines -/

/-- `ScoringFields{A, B, C}` -/
abbrev Fields := Rat × Rat × Rat

inductive Step
  | index (id : String) (d : DocText) (fields : Option Fields) (force : Bool := false)
  | remove (id : String) (force : Bool := false)
  | flush

structure Eng where
  env : TextEnv := env dict
  opts : SearchOpts Fields
  index : IndexerOpts
  shards : Nat := 8

/-- The shard of a document (engine.go:415, segment.go:261). -/
def Eng.shardOf (e : Eng) (id : String) (d : DocText) : Nat := murmur (str id ++ d.content) % e.shards

/-- The calls the index of a shard gets. -/
def Eng.idxOps (e : Eng) (s : Nat) : Step → List IdxOp
  | .index id d _ force =>
    if e.shardOf id d = s then [.add (docOf e.env e.opts.toTextOpts (str id) d) force] else if force then [.flush true] else []
  | .remove id force => [.remove (str id) force]
  | .flush => [.flush true]

/-- The calls the ranker of a shard gets. -/
def Eng.rankOps (e : Eng) (s : Nat) : Step → List (RankerOp Fields Unit)
  | .index id d f _ => if e.shardOf id d = s then [.add (str id) f (some (d.content, some none))] else []
  | .remove id _ => [.remove (str id)]
  | .flush => []

/-- The shards after the calls. -/
def Eng.views (e : Eng) (h : List Step) : Option (List (ShardView Fields Unit)) :=
  (List.range e.shards).mapM (fun s => ((Indexer.init e.index).run insSort (h.flatMap (e.idxOps s))).map (fun i =>
    { index := i, history := h.flatMap (e.rankOps s) }))

/-- `engine.Search(r)` after the calls. -/
def Eng.search (e : Eng) (h : List Step) (r : SearchReq Fields) : Option (SearchResp Fields Unit) :=
  (e.views h).bind (fun vs => (shardAnswers log2 insGSort e.opts r (Engine.tokens e.env e.opts r) vs).bind (fun as =>
    completeSearch insGSort e.opts r (Engine.tokens e.env e.opts r) as))

/-- `int(score*1000)` -/
def milli : F32 → Int
  | .fin q => (q * 1000).floor
  | _ => -1

/-- DocId, `int(Scores[0]*1000)` and TokenSnippetLocs of the documents of a response. -/
def shown (x : Option (SearchResp Fields Unit)) : Option (List (Str × List Int × List Int)) :=
  x.bind (fun y => (y.docs.bind asDocs).map (fun l => l.map (fun d =>
    (d.scoredID.docId, d.scoredID.scores.map milli, d.scoredID.tokenSnippetLocs))))

/-- The number of documents shown with `IDOnly`, the number of tokens and NumDocs. -/
def shownIds (x : Option (SearchResp Fields Unit)) : Option (Option Nat × Nat × Nat) :=
  x.map (fun y => ((y.docs.bind asIDs).map (·.length), y.tokens.length, y.numDocs))

def numbers (x : Option (SearchResp Fields Unit)) : Option (Option Nat × Nat × Nat) :=
  x.map (fun y => ((y.docs.bind asDocs).map (·.length), y.tokens.length, y.numDocs))

def tokensOf (x : Option (SearchResp Fields Unit)) : Option (List Str) := x.map (·.tokens)

/-- The expected documents. -/
def docs (l : List (String × List Int × List Int)) : Option (List (Str × List Int × List Int)) :=
  some (l.map (fun x => (str x.1, x.2)))

/-! ## test_utils.go -/

def score1 : Fields := (1, 2, 3)
def score091 : Fields := (0, 9, 1)
def text (s : String) : DocText := { content := str s }

/-- test_utils.go `AddDocs` -/
def addDocs : List Step :=
  [.index "1" (text "The world, 有七十亿人口人口") (some score1), .index "2" (text "The world, 人口") none,
   .index "3" (text "The world") none, .index "4" (text "有人口") (some (2, 3, 1)),
   .index "5" (text "The world, 七十亿人口") (some score091), .index "6" (text "有七十亿人口") (some (2, 3, 3)), .flush]

/-- `RankByTokenProximity` -/
def byProximity : IndexedDoc → Option Fields → List F32 := fun d _ =>
  if d.tokenProximity < 0 then [] else [.fin (1 / (d.tokenProximity + 1))]

/-- `TestScoringCriteria` -/
def testCriteria : IndexedDoc → Option Fields → List F32 := fun d f =>
  match f with
  | none => []
  | some (a, b, c) => [.fin (d.tokenProximity * a + b * c)]

/-- `BM25ScoringCriteria` -/
def bm25Criteria : IndexedDoc → Option Fields → List F32 := fun d f =>
  match f with
  | none => []
  | some _ => [.fin d.bm25]

def rankOptsOrder (r : Bool) : RankOpts Fields := { reverseOrder := r, maxOutputs := 10, score := byProximity }
def rankOptsMax (o m : Int) : RankOpts Fields := { reverseOrder := true, outputOffset := o, maxOutputs := m, score := byProximity }

def bm25 : Option BM25Parameters := some ⟨2, 3 / 4⟩
def locs : IndexerOpts := ⟨.locs, 0, bm25⟩
def freqs : IndexerOpts := ⟨.freqs, 0, bm25⟩

/-- `rankEngineOpts` -/
def rankEngine (r : RankOpts Fields) : Eng := { opts := { using_ := 1, defRankOpts := r }, index := locs }

def req1 : SearchReq Fields := { text := str "World人口" }

/-! ## engine_test.go -/

/-- TestEngineIndexDoc -/
example : tokensOf ((rankEngine (rankOptsOrder false)).search addDocs req1) = some [str "world", str "人口"] ∧
    shown ((rankEngine (rankOptsOrder false)).search addDocs req1) =
      docs [("2", [333], [4, 11]), ("5", [83], [4, 20]), ("1", [66], [4, 23])] := by decide +kernel

/-- TestReverseOrder -/
example : (shown ((rankEngine (rankOptsOrder true)).search addDocs req1)).map (·.map (·.1)) = some [str "1", str "5", str "2"] := by
  decide +kernel

/-- TestOffsetAndMaxOutputs -/
example : (shown ((rankEngine (rankOptsMax 1 3)).search addDocs req1)).map (·.map (·.1)) = some [str "5", str "2"] := by
  decide +kernel

/-- TestSearchWithCriteria -/
example : (shown ((rankEngine { score := testCriteria }).search addDocs req1)).map (·.map (fun d => (d.1, d.2.1))) =
    some [(str "1", [20000]), (str "5", [9000])] := by decide +kernel

/-- `useOpts` -/
def useEngine : Eng := { opts := { using_ := 1, defRankOpts := { score := testCriteria } }, index := freqs }

/-- TestCompactIndex -/
example : (shown (useEngine.search addDocs req1)).map (·.map (fun d => (d.1, d.2.1))) =
    some [(str "5", [9000]), (str "1", [6000])] := by decide +kernel

/-- TestFrequenciesIndex -/
example : (shown ({ useEngine with opts := { using_ := 1, defRankOpts := { score := bm25Criteria } } : Eng}.search addDocs req1)).map
    (·.map (fun d => (d.1, d.2.1))) = some [(str "1", [2374]), (str "5", [2133])] := by decide +kernel

/-- TestRemoveDoc -/
example : (shown (useEngine.search (addDocs ++ [.remove "5", .remove "6", .flush,
      .index "6" (text "World, 人口有七十亿") (some score091), .flush]) req1)).map (·.map (fun d => (d.1, d.2.1))) =
    some [(str "6", [9000]), (str "1", [6000])] := by decide +kernel

/-- TestEngineIndexWithTokens -/
example : shown ((rankEngine (rankOptsOrder false)).search
      [.index "1" { tokens := [⟨str "world", [0]⟩, ⟨str "人口", [18, 24]⟩] } (some score1),
       .index "2" { tokens := [⟨str "world", [0]⟩, ⟨str "人口", [6]⟩] } (some score1),
       .index "3" (text "The world, 七十亿人口") (some score091), .flush] req1) =
    docs [("2", [500], [0, 6]), ("3", [83], [4, 20]), ("1", [71], [0, 18])] := by decide +kernel

/-- TestEngineIndexWithStore: the second engine indexes what the first one left in the store. -/
example : shown ((rankEngine (rankOptsOrder false)).search (addDocs.eraseIdx 4) req1) =
    docs [("2", [333], [4, 11]), ("1", [66], [4, 23])] := by decide +kernel

/-- AddDocs, RemoveDoc("5"), Flush -/
def without5 : List Step := addDocs ++ [.remove "5", .flush]

/-- TestCountDocsOnly -/
example : numbers ((rankEngine (rankOptsMax 0 1)).search without5 { req1 with countDocsOnly := true }) = some (none, 2, 2) := by
  decide +kernel

/-- TestDocOrderless -/
example : (numbers ({ opts := { using_ := 1, defRankOpts := { score := rankByBM25 } }, index := freqs : Eng}.search without5
      { req1 with orderless := true })).map (·.2) = some (2, 2) ∧
    (shownIds ({ opts := { using_ := 1, idOnly := true, defRankOpts := { score := rankByBM25 } }, index := freqs : Eng}.search without5
      { req1 with orderless := true })).map (·.2) = some (2, 2) := by decide +kernel

/-- `makeDocIds` -/
def someIds : Option (List Str) := some (["5", "3", "1", "2"].map str)

/-- TestDocOnlyID (and TestDocRankID; without time-out) -/
example : shownIds ({ opts := { idOnly := true, defRankOpts := rankOptsMax 0 1 }, index := locs : Eng}.search without5
    { req1 with docIds := someIds }) = some (some 1, 2, 2) := by decide +kernel

/-- TestDocRanks -/
example : numbers ((rankEngine (rankOptsMax 0 1)).search without5 { req1 with docIds := someIds }) = some (some 1, 2, 2) := by
  decide +kernel

/-- TestSearchWithin -/
example : shown ((rankEngine (rankOptsOrder true)).search addDocs { req1 with docIds := some [str "5", str "1"] }) =
    docs [("1", [66], [4, 23]), ("5", [83], [4, 20])] := by decide +kernel

/-- `testJPOpts` -/
def jpEngine (u : Int) : Eng :=
  { env := env dictJp, opts := { using_ := u, defRankOpts := rankOptsOrder true }, index := locs }

def addJp : List Step := addDocs ++ [.index "7" (text "こんにちは世界, こんにちは") (some score1)]

/-- TestSearchJp -/
example : tokensOf ((jpEngine 1).search (addJp ++ [.flush]) { text := str "こんにちは世界", docIds := some (["5", "1", "7"].map str) }) =
      some [str "こんにちは", str "世界"] ∧
    shown ((jpEngine 1).search (addJp ++ [.flush]) { text := str "こんにちは世界", docIds := some (["5", "1", "7"].map str) }) =
      docs [("7", [1000], [0, 15])] := by decide +kernel

/-- `text1` with `tokenData()` -/
def withToken : DocText := { content := str "Hello world, 你好世界!", tokens := [⟨str "こんにちは", [10, 20]⟩] }

/-- TestSearchGse -/
example : shown ((jpEngine 0).search (addJp ++ [.index "8" withToken (some (4, 5, 6)), .flush])
      { text := str "こんにちは世界", docIds := some (["5", "1", "6", "7", "8"].map str) }) =
    docs [("8", [142], [10, 19]), ("7", [1000], [0, 15])] := by decide +kernel

def google : DocText :=
  { content := str "Google Is Experimenting With Virtual Reality Advertising", tokens := [⟨str "test", []⟩] }

/-- TestSearchNotUseGse, first engine -/
example : (shown ({ opts := { notUseGse := true, using_ := 4, defRankOpts := { score := rankByBM25 } }, index := freqs : Eng}.search
      (addDocs ++ [.index "7" google (some score1), .index "8" google (some score1), .flush])
      { text := str "google is", docIds := some (["5", "1", "6", "7", "8"].map str) })) =
    docs [("8", [3736], []), ("7", [2994], [])] := by decide +kernel

/-- ... second engine -/
example : (shownIds ({ opts := { notUseGse := true, idOnly := true, defRankOpts := { score := rankByBM25 } }, index := freqs : Eng}.search
      (addDocs ++ [.index "7" google (some score1) true, .index "8" google (some score1) true, .flush])
      { text := str "google", docIds := some (["5", "1", "6", "7", "8"].map str) })).map (·.2) = some (1, 2) := by decide +kernel

/-- TestSearchLogic (the DocIds "0", ..., "9" of the request do not keep "10" out) -/
example : shown ((jpEngine 0).search (addJp ++ [.index "8" withToken (some score1),
      .index "9" (text "Hello world, 你好世界!") (some score1),
      .index "10" { content := str "Hello, 你好世界!", tokens := [⟨str "世界", [2, 3]⟩] } (some score091), .flush])
      { text := str "こんにちは世界", docIds := some (["0", "1", "2", "3", "4", "5", "6", "7", "8", "9"].map str),
        logic := { should := true, expr := { notIn := [str "こんにちは"] } } }) =
    docs [("10", [1000], []), ("9", [1000], [])] := by decide +kernel

/-! ## riot_test.go -/

/-- TestEngineIndexWithNewStore: the second engine indexes what the first one left in the store. -/
example : (shown ({ opts := { defRankOpts := { score := rankByBM25 } }, index := freqs : Eng}.search (addDocs.eraseIdx 4) req1)).map
    (·.map (fun d => d.2)) = some [([2500], []), ([2215], [])] := by decide +kernel

/-- TestDocGetAllDocAndID: the store shards of the ids and their order in `GetDBAllIds`. -/
example : (List.range 8).flatMap (fun m => (["1", "2", "3", "4", "6"].map str).filter (fun d => murmur d % 8 = m)) =
    ["3", "4", "1", "6", "2"].map str := by decide +kernel

/-- ... its search (five shards) -/
example : shownIds ({ opts := { using_ := 1, idOnly := true, defRankOpts := rankOptsMax 0 1 }, index := locs, shards := 5 : Eng}.search
    without5 { req1 with docIds := some [str "5", str "1"] }) = some (some 1, 2, 1) := by decide +kernel

/-- TestDocCounters: `NumTokenAdded`. -/
example : ((addDocs.flatMap (fun x => match x with
    | .index _ d _ _ => (docOf (env dict) { using_ := 1 } [] d).keywords
    | _ => [])).length) = 26 := by decide +kernel

/-- TestForSplitData, the search -/
example : shownIds ({ opts := { using_ := 4, idOnly := true, defRankOpts := { score := rankByBM25 } }, index := freqs : Eng}.search
    (without5 ++ [.index "10" (text "在路上") none true]) { req1 with docIds := some [str "5", str "1"] }) = some (some 0, 2, 0) := by
  decide +kernel

end Riot.EngineTest
