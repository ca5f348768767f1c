import Verif.Basic.GoMap
import Verif.Model.Types

/-!
# From a document to its search keys (segment.go, stop_tokens.go)

The dictionary segmenter (gse), the pinyin libraries (gpy) and two standard library functions
on Unicode text are parameters (`TextEnv`).
-/

namespace Riot

/-- Functions outside the repository, and the stop token file. -/
structure TextEnv where
  /-- `strings.ToLower` -/
  lower : Str → Str
  /-- `strings.Split(s, "")`: the UTF-8 sequences of a string. -/
  explode : Str → List Str
  /-- `gse.Segmenter.Cut` (`search = false`) and `CutSearch` (`search = true`). -/
  cut : (search hmm : Bool) → Str → List Str
  /-- `gse.Segmenter.ModeSegment`: token text and start of each segment. -/
  modeSegment : (search : Bool) → Str → List (Str × Int)
  /-- `gpy.LazyConvert` -/
  lazyConvert : Str → List Str
  /-- `phrase.Pinyin` -/
  phrasePinyin : Str → List Str
  /-- The lines of the stop token file (none if no file is configured). -/
  stopLines : List Str

/-- types/engine_init_options.go:47-107, the options used for text. -/
structure TextOpts where
  notUseGse : Bool := false
  using_ : Int := 0
  pinYin : Bool := false
  usePhrase : Bool := false
  gseMode : Bool := false
  hmm : Bool := false

/-- stop_tokens.go:28-57 `Init`, `IsStopToken`; the list is only loaded when the segmenter is
used (engine.go:292-301). -/
def isStop (env : TextEnv) (e : TextOpts) (t : Str) : Bool :=
  !e.notUseGse && decide (t ∈ env.stopLines.filter (fun l => l ≠ []))

/-- segment.go:29 `TMap` -/
abbrev TMap := GoMap (List Int)

/-- `numTokens++; tokensMap[k] = append(tokensMap[k], numTokens)` unless `k` is a stop token
(segment.go:49-52, 55-58, 66-69). -/
def addLoc (stop : Str → Bool) (st : TMap × Nat) (k : Str) : TMap × Nat :=
  if stop k then st
  else (st.1.set k ((st.1.get k).getD [] ++ [((st.2 + 1 : Nat) : Int)]), st.2 + 1)

/-- segment.go:60-71: the inner loop of `ForSplitData` for Using = 6. -/
def combos (stop : Str → Bool) (acc : Str) (st : TMap × Nat) : List Str → TMap × Nat
  | [] => st
  | w :: ws => combos stop (acc ++ w) (addLoc stop st (acc ++ w)) ws

/-- segment.go:40-77: the loop of `ForSplitData` (`acc` is `splitStr`). -/
def splitLoop (stop : Str → Bool) (six : Bool) (acc : Str) (st : TMap × Nat) : List Str → TMap × Nat
  | [] => st
  | w :: ws =>
    if w ≠ [] then
      let st := addLoc stop st w
      let st := addLoc stop st (acc ++ w)
      let st := if six then combos stop [] st ws else st
      splitLoop stop six (acc ++ w) st ws
    else splitLoop stop six acc st ws

/-- segment.go:40-77 `ForSplitData(strData, len(strData))`. -/
def forSplitData (env : TextEnv) (e : TextOpts) (strData : List Str) : TMap × Nat :=
  splitLoop (isStop env e) (decide (e.using_ = 6)) [] (.empty, 0) strData

/-- types/doc_index_data.go:45-51 `TokenData`. -/
structure TokenData where
  text : Str
  locations : List Int

/-- types/doc_index_data.go:19-42 `DocData` (fields and attributes are in Model/Ranker). -/
structure DocText where
  content : Str := []
  tokens : List TokenData := []
  labels : List Str := []

/-- segment.go:137-142 (and 160-165, 93-98): the segments of the content. -/
def addSegments (stop : Str → Bool) (m : TMap) : List (Str × Int) → TMap
  | [] => m
  | (t, start) :: l =>
    addSegments stop (if stop t then m else m.set t ((m.get t).getD [] ++ [start])) l

/-- segment.go:144-148 (and 117-121, 176-180, 222-226): the user's tokens. -/
def addTokens (stop : Str → Bool) (m : TMap) : List TokenData → TMap
  | [] => m
  | t :: l => addTokens stop (if stop t.text then m else m.set t.text t.locations) l

/-- `for key, val := range tokenMap { tokensMap[key] = val }` (segment.go:111-113, 202-204). -/
def mergeInto (m : TMap) : List (Str × List Int) → TMap
  | [] => m
  | (k, v) :: l => mergeInto (m.set k v) l

/-- segment.go:192-208 `defaultTokens` (`strings.Split` never returns an empty list). -/
def defaultTokens (env : TextEnv) (e : TextOpts) (content : Str) : TMap × Nat :=
  let r := forSplitData env e (splitSpace content)
  (mergeInto .empty r.1.entries, r.2)

/-- segment.go:79-126 `splitData`. -/
def splitData (env : TextEnv) (e : TextOpts) (d : DocText) : TMap × Nat :=
  let stop := isStop env e
  let r : TMap × Nat :=
    if d.content ≠ [] then
      let content := env.lower d.content
      let r : TMap × Nat :=
        if e.using_ = 3 then
          (addSegments stop .empty (env.modeSegment e.gseMode content),
            (env.modeSegment e.gseMode content).length)
        else (.empty, 0)
      if e.using_ = 4 then defaultTokens env e content
      else
        let s := forSplitData env e (env.explode content)
        (mergeInto r.1 s.1.entries, r.2 + s.2)
    else (.empty, 0)
  (addTokens stop r.1 d.tokens, r.2 + d.tokens.length)

/-- segment.go:128-190 `segmenterData`. -/
def segmenterData (env : TextEnv) (e : TextOpts) (d : DocText) : TMap × Nat :=
  let stop := isStop env e
  let segs := env.modeSegment e.gseMode d.content
  if e.using_ = 0 ∧ d.content ≠ [] then
    (addTokens stop (addSegments stop .empty segs) d.tokens, segs.length + d.tokens.length)
  else if e.using_ = 1 ∧ d.content ≠ [] then
    (addSegments stop .empty segs, segs.length)
  else if e.using_ = 2 ∨ ((e.using_ = 1 ∨ e.using_ = 3) ∧ d.content = []) then
    (addTokens stop .empty d.tokens, d.tokens.length)
  else splitData env e d

/-- segment.go:335-346: the characters of the text and their prefixes. -/
def pinyinChars (stop : Str → Bool) (acc : Str) : List Str → List Str
  | [] => []
  | w :: ws =>
    let own := if w ≠ [] ∧ stop w = false then [w] else []
    let acc := if w ≠ [] then acc ++ w else acc
    own ++ (if stop acc = false then [acc] else []) ++ pinyinChars stop acc ws

/-- segment.go:362-375: the syllables (`full`) and their first bytes (`short`). -/
def pinyinSyllables (stop : Str → Bool) (full short : Str) : List Str → List Str
  | [] => []
  | p :: ps =>
    let full := full ++ p
    let short' := if p ≠ [] then short ++ p.take 1 else short
    (if stop full = false then [full] else []) ++
      (if p ≠ [] ∧ stop short' = false then [short'] else []) ++
      pinyinSyllables stop full short' ps

/-- engine.go:479-497 `Segment`. -/
def segmentText (env : TextEnv) (e : TextOpts) (content : Str) : List Str :=
  (env.cut e.gseMode e.hmm content).filter (fun t => !isStop env e t)

/-- segment.go:316-379 `PinYin`. -/
def pinYin (env : TextEnv) (e : TextOpts) (hans : Str) : List Str :=
  if e.usePhrase then env.phrasePinyin hans
  else
    let stop := isStop env e
    pinyinChars stop [] (env.explode hans) ++
      (if e.notUseGse then [] else (segmentText env e hans).filter (fun t => !stop t)) ++
      pinyinSyllables stop [] [] (env.lazyConvert hans)

/-- segment.go:235-240: the pinyin keys with their positions in the list. -/
def addPinyin (stop : Str → Bool) (m : TMap) (i : Nat) : List Str → TMap
  | [] => m
  | s :: l => addPinyin stop (if stop s then m else m.set s [(i : Int)]) (i + 1) l

/-- segment.go:210-246 `makeTokensMap`. -/
def makeTokensMap (env : TextEnv) (e : TextOpts) (d : DocText) : TMap × Nat :=
  let stop := isStop env e
  let r : TMap × Nat :=
    if ¬ (e.notUseGse = true ∧ e.using_ = 0) then segmenterData env e d
    else
      let r : TMap × Nat :=
        if d.content ≠ [] then defaultTokens env e (env.lower d.content) else (.empty, 0)
      (addTokens stop r.1 d.tokens, r.2 + d.tokens.length)
  if e.pinYin then
    let arr := pinYin env e d.content
    (addPinyin stop r.1 0 arr, r.2 + arr.length)
  else r

/-- segment.go:265-279: the labels. -/
def addLabels (env : TextEnv) (e : TextOpts) (m : TMap) : List Str → TMap
  | [] => m
  | l :: ls =>
    let m' := if (m.get l).isSome then m else m.set l []
    addLabels env e (if e.notUseGse then m' else if isStop env e l then m else m') ls

/-- segment.go:261-297: the keys, their locations and the token count of a document. -/
def documentKeys (env : TextEnv) (e : TextOpts) (d : DocText) : TMap × Nat :=
  let r := makeTokensMap env e d
  (addLabels env e r.1 d.labels, r.2)

/-- segment.go:281-297: `doc` is what the segmenter worker sends to the indexer for document
`docId`. The keywords come out of a Go map in an unspecified order. -/
structure IsDocIndexOf (env : TextEnv) (e : TextOpts) (docId : Str) (d : DocText) (doc : DocIndex) :
    Prop where
  id : doc.docId = docId
  tokenLen : doc.tokenLen = ((documentKeys env e d).2 : Rat)
  keywords : doc.keywords.Perm ((documentKeys env e d).1.entries.map
    (fun x => { text := x.1, frequency := (x.2.length : Rat), starts := x.2 }))

end Riot
