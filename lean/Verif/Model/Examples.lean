import Verif.Model.EngineSearch
import Verif.Model.Config

/-!
# The example programs (examples/codelab/search_server.go, examples/weibo/custom_scoring_criteria.go)

A search server and a search program for posts ("weibo"), which come from a text file, one post per line.
The lines are what `bufio.Scanner` gives (the reading of the file itself is not modelled). Scores are exact numbers
(the rounding to float32 is not modelled here; see Model/Float32 for the BM25 value itself).
-/

namespace Riot

/-- Go `strings.Split(s, "||||")` (search_server.go:67, custom_scoring_criteria.go:127): cut at the separators, found from the
left to the right. -/
def splitBars : Str → List Str
  | [] => [[]]
  | a :: b :: c :: d :: s =>
    if a = 124 ∧ b = 124 ∧ c = 124 ∧ d = 124 then [] :: splitBars s
    else
      match splitBars (b :: c :: d :: s) with
      | [] => [[a]]
      | w :: ws => (a :: w) :: ws
  | [a, b, c] => [[a, b, c]]
  | [a, b] => [[a, b]]
  | [a] => [[a]]

/-- The loop of Go `strconv.ParseUint(s, 10, bits)` with the maximal value `m`; the error is dropped by the callers, the
value returned with it is not: 0 for a byte that is no digit, `m` for a number that is too large. (The two overflow checks of the library,
on `n*10` and on the sum, are one comparison of unbounded numbers here.) -/
def parseLoop (m : Nat) (n : Nat) : Str → Nat
  | [] => n
  | b :: s =>
    if 48 ≤ b.val ∧ b.val ≤ 57 then
      if n * 10 + (b.val - 48) > m then m else parseLoop m (n * 10 + (b.val - 48)) s
    else 0

/-- `v, _ := strconv.ParseUint(s, 10, bits)` (0 for the empty string). -/
def parseUint (bits : Nat) (s : Str) : Nat := parseLoop (2 ^ bits - 1) 0 s

/-! ## examples/codelab/search_server.go -/

/-- search_server.go:44-52 `Weibo`. -/
structure Weibo where
  id : Str := []
  timestamp : Nat := 0
  userName : Str := []
  reposts : Nat := 0
  text : Str := []
  deriving DecidableEq, Repr

/-- search_server.go:67-78: the post in a line; `none`: the line is skipped. -/
def codelabPost (line : Str) : Option Weibo :=
  let data := splitBars line
  if data.length ≠ 10 then none
  else some { id := data.getD 0 [], timestamp := parseUint 64 (data.getD 1 []), userName := data.getD 3 [],
              reposts := parseUint 64 (data.getD 4 []), text := data.getD 9 [] }

/-- search_server.go:65-80: the map `wbs` filled from the lines. -/
def codelabLoad (lines : List Str) : GoMap Weibo :=
  lines.foldl (fun wbs line => match codelabPost line with
    | none => wbs
    | some w => wbs.set w.id w) .empty

/-- The fields of a document: search_server.go:101-105 `WeiboScoringFields`, or a value of another type. -/
inductive CodelabFields
  | weibo (timestamp reposts : Nat)
  | other
  deriving DecidableEq, Repr

/-- search_server.go:86-89: the fields of a post. -/
def Weibo.fields (w : Weibo) : CodelabFields := .weibo w.timestamp w.reposts

/-- search_server.go:112-127 `WeiboScoringCriteria.Score` (`MaxTokenProximity` = 2, `SecondsInADay` = 86400, lines 23-28). -/
def codelabScore (doc : IndexedDoc) (fields : Option CodelabFields) : List F32 :=
  match fields with
  | some (.weibo ts reposts) =>
    [.fin (if doc.tokenProximity > 2 then 1 / (doc.tokenProximity : Rat) else 1),
     .fin ((ts / (86400 * 3) : Nat) : Rat),
     .fin (doc.bm25 * (1 + (reposts : Rat) / 10000))]
  | _ => []

/-- search_server.go:140-148: the request for a query. -/
def codelabReq (query : Str) : SearchReq CodelabFields :=
  { text := query, rankOpts := some { score := some codelabScore, outputOffset := 0, maxOutputs := 100 } }

/-- search_server.go:139-159 `JsonRpcServer`: the posts sent to the browser. A map read of a missing id gives the zero `Weibo`; `none` is a
panic of `SearchDoc`. -/
def codelabPage {A : Type} (wbs : GoMap Weibo) (resp : Option (SearchResp CodelabFields A)) : Option (List Weibo) :=
  (Engine.searchDoc resp).map (fun x => x.2.map (fun doc =>
    { (wbs.get doc.scoredID.docId).getD {} with text := doc.content }))

/-! ## examples/weibo/custom_scoring_criteria.go -/

/-- custom_scoring_criteria.go:64-74 `WeiboScoringFields`, with the text of the post (lines 133-135). -/
structure Tweet where
  timestamp : Nat
  reposts : Nat
  text : Str
  deriving DecidableEq, Repr

/-- custom_scoring_criteria.go:127-142: the post in a line; `none`: the line is skipped. `uint32(timestamp)` is exact,
since `ParseUint` was asked for 32 bits. -/
def tweetOf (line : Str) : Option Tweet :=
  let data := splitBars line
  if data.length ≠ 10 then none
  else if data.getD 9 [] = [] then none
  else some { timestamp := parseUint 32 (data.getD 1 []), reposts := parseUint 32 (data.getD 4 []), text := data.getD 9 [] }

/-- custom_scoring_criteria.go:148-153: the documents indexed: the id of a post is its number. -/
def tweetDocs (lines : List Str) : List (Str × Tweet) :=
  ((lines.filterMap tweetOf).zipIdx).map (fun x => (itoa x.2, x.1))

/-- The fields of a document: `WeiboScoringFields`, or a value of another type. -/
inductive TweetFields
  | weibo (timestamp reposts textLength : Nat)
  | other
  deriving DecidableEq, Repr

/-- custom_scoring_criteria.go:136-140. -/
def Tweet.fields (t : Tweet) : TweetFields := .weibo t.timestamp t.reposts t.text.length

/-- Go `int(x)`: towards zero. -/
def truncInt (q : Rat) : Int := Int.tdiv q.num q.den

/-- custom_scoring_criteria.go:81-96 `WeiboScoringCriteria.Score` (`MaxTokenProximity` = 150, line 34). -/
def tweetScore (doc : IndexedDoc) (fields : Option TweetFields) : List F32 :=
  if doc.tokenProximity > 150 then []
  else
    match fields with
    | some (.weibo ts reposts len) =>
      [.fin ((ts / 86400 : Nat) : Rat), .fin (truncInt doc.bm25 : Rat), .fin (reposts : Rat), .fin (len : Rat)]
    | _ => []

/-- `i, _ := strconv.Atoi(s)` for a text without a sign, with 64-bit numbers (the largest value is 2^63 - 1). -/
def atoi (s : Str) : Nat := parseUint 63 s

/-- custom_scoring_criteria.go:159-166: the texts shown for a response, `lines[i]` with the number `i` that is the id; `none` is a
panic (of `SearchDoc`, or an index out of range). `lines` are the texts of lines 124, 135. -/
def tweetPage {A : Type} (lines : List Str) (resp : Option (SearchResp TweetFields A)) : Option (List Str) :=
  (Engine.searchDoc resp).bind (fun x => x.2.mapM (fun doc => lines[atoi doc.scoredID.docId]?))

/-! ## examples/pinyin_weibo/main.go -/

/-- The document data given to the engine (main.go:79, 83-84); tokens have no locations. -/
structure PinyinDoc where
  content : Str := []
  tokens : List Str := []
  fields : Option Str := none
  deriving DecidableEq, Repr

/-- The part of the data the segmenter uses. -/
def PinyinDoc.text (d : PinyinDoc) : DocText := { content := d.content, tokens := d.tokens.map (fun t => ⟨t, []⟩) }

/-- main.go:66-90: the documents indexed, with the ids `index`, `index + 1`, ...; `py` is `searcher.PinYin`, `toks` the slice `tokenDatas`, which
is declared before the loop (line 59). A document keeps the slice as it is then (later appends only write behind its end). The lines are what
`ReadLine` gives. -/
def pinyinLoop (py : Str → List Str) (toks : List Str) (index : Nat) : List Str → List (Str × PinyinDoc)
  | [] => []
  | line :: lines =>
    let toks' := toks ++ py line
    (itoa index, { tokens := toks', fields := some line }) :: (itoa (index + 1), { content := line, tokens := toks' }) ::
      pinyinLoop py toks' (index + 2) lines

/-- main.go:46-94 `indexWeibo` -/
def pinyinDocs (py : Str → List Str) (lines : List Str) : List (Str × PinyinDoc) := pinyinLoop py [] 1 lines

/-- main.go:109-115: the request for a query. -/
def pinyinReq {F : Type} (query : Str) : SearchReq F := { text := query, rankOpts := some { score := none, outputOffset := 0, maxOutputs := 100 } }

/-- main.go:119-125: the posts sent to the browser. `wbs` stays empty (lines 29, 164), so `wbs[doc.DocId]` is the zero `Weibo`. -/
def pinyinPage {F A : Type} (resp : Option (SearchResp F A)) : Option (List Weibo) :=
  (Engine.searchDoc resp).map (fun x => x.2.map (fun doc => { text := doc.content }))

end Riot
