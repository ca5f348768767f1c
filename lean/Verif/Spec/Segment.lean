import Verif.Model.Segment

/-!
# Search keys of a document: specification

Independent of the map manipulations of the code: the tokens a text is split into, as a list,
and the positions of a token in that list.
-/

namespace Riot

/-- The tokens of a text given as a list of pieces, in order: for every non-empty piece the
piece itself and the concatenation of the text up to and including it; in mode 6 also every
concatenation of pieces that starts with the next one. -/
def splitTokens (six : Bool) (pieces : List Str) : List Str :=
  (List.range pieces.length).flatMap fun i =>
    if pieces.getD i [] = [] then []
    else pieces.getD i [] :: (pieces.take (i + 1)).flatten ::
      if six then
        (List.range (pieces.length - (i + 1))).map
          (fun j => ((pieces.drop (i + 1)).take (j + 1)).flatten)
      else []

/-- The positions of `k` in `l`, counted from 1. -/
def positions (k : Str) (l : List Str) : List Int :=
  (List.range l.length).filterMap (fun (i : Nat) => if l[i]? = some k then some ((i : Int) + 1) else none)

/-- `t` is a stop token: it is a (non-empty) line of the stop token file. -/
def IsStopLine (env : TextEnv) (t : Str) : Prop := t ∈ env.stopLines ∧ t ≠ []

/-- The words of a text: its non-empty space-separated parts, lower-cased. -/
def wordsOf (env : TextEnv) (text : Str) : List Str :=
  (splitSpace (env.lower text)).filter (fun w => w ≠ [])

/-- The texts of the segments of a content. -/
def segmentTexts (env : TextEnv) (e : TextOpts) (content : Str) : List Str :=
  (env.modeSegment e.gseMode content).map (·.1)

/-- The pieces the split modes cut a text into, and the tokens made from them. Mode 0 (without
a segmenter) and mode 4 cut at spaces, the others after every character. -/
def splitOf (env : TextEnv) (e : TextOpts) (content : Str) : List Str :=
  let pieces := if e.using_ = 0 ∨ e.using_ = 4 then splitSpace (env.lower content)
    else env.explode (env.lower content)
  splitTokens (decide (e.using_ = 6)) pieces

/-- The rule of docs/en/segmenter.md (mode 0 without a segmenter: content split at spaces, and
the tokens): where the keys of a document come from. -/
def documentedKeys (env : TextEnv) (e : TextOpts) (d : DocText) (k : Str) : Prop :=
  (e.using_ = 0 ∧ d.content ≠ [] ∧ e.notUseGse = false ∧
    (k ∈ segmentTexts env e d.content ∨ k ∈ d.tokens.map (·.text))) ∨
  (e.using_ = 1 ∧ d.content ≠ [] ∧ k ∈ segmentTexts env e d.content) ∨
  ((e.using_ = 2 ∨ (e.using_ = 1 ∨ e.using_ = 3) ∧ d.content = []) ∧ k ∈ d.tokens.map (·.text)) ∨
  (e.using_ = 3 ∧ d.content ≠ [] ∧
    (k ∈ segmentTexts env e (env.lower d.content) ∨
      k ∈ env.explode (env.lower d.content) ∧ k ≠ [])) ∨
  (e.using_ = 4 ∧ d.content ≠ [] ∧ k ∈ wordsOf env d.content)

/-- Where the keys actually come from (content and tokens). -/
def actualKeys (env : TextEnv) (e : TextOpts) (d : DocText) (k : Str) : Prop :=
  (d.content ≠ [] ∧ (e.using_ = 0 ∧ e.notUseGse = false ∨ e.using_ = 1) ∧
    k ∈ segmentTexts env e d.content) ∨
  (d.content ≠ [] ∧ e.using_ = 3 ∧ k ∈ segmentTexts env e (env.lower d.content)) ∨
  (d.content ≠ [] ∧ (e.using_ = 0 ∧ e.notUseGse = true ∨ e.using_ ≠ 0 ∧ e.using_ ≠ 1 ∧ e.using_ ≠ 2) ∧
    k ∈ splitOf env e d.content) ∨
  ((e.using_ ≠ 1 ∨ d.content = []) ∧ k ∈ d.tokens.map (·.text))

/-- The pinyin keys of a text, before stop tokens are dropped: for each character the character (if it is not empty) and the text up
to it; the words of the segmenter, if it is used; for each syllable the pinyin of the text up to it and (if the syllable is not
empty) the first letters of these syllables. -/
def pinyinTokens (env : TextEnv) (e : TextOpts) (text : Str) : List Str :=
  let chars := env.explode text
  let sylls := env.lazyConvert text
  ((List.range chars.length).flatMap fun i =>
    (if chars.getD i [] = [] then [] else [chars.getD i []]) ++ [(chars.take (i + 1)).flatten]) ++
  (if e.notUseGse then [] else env.cut e.gseMode e.hmm text) ++
  ((List.range sylls.length).flatMap fun i =>
    (sylls.take (i + 1)).flatten ::
      if sylls.getD i [] = [] then [] else [((sylls.take (i + 1)).map (fun s => s.take 1)).flatten])

/-- The pinyin keys of a text. With UsePhrase they come from the phrase library. -/
def pinyinOf (env : TextEnv) (e : TextOpts) (text : Str) : List Str :=
  if e.usePhrase then env.phrasePinyin text
  else (pinyinTokens env e text).filter (fun t => e.notUseGse = true ∨ ¬ (t ∈ env.stopLines ∧ t ≠ []))

/-- The starts of the segments with text `k`, in order. -/
def segStarts (k : Str) (segs : List (Str × Int)) : List Int :=
  (segs.filter (fun x => x.1 = k)).map (·.2)

/-- The locations the user gave to the last token with text `k`. -/
def tokenLocs (k : Str) (ts : List TokenData) : Option (List Int) :=
  ((ts.filter (fun t => t.text = k)).getLast?).map (·.locations)

/-- The last index (from 0) of `k` in `l`. -/
def lastIndex (k : Str) (l : List Str) : Option Nat :=
  ((List.range l.length).filter (fun i => l[i]? = some k)).getLast?

/-- Does the content go through the segmenter, in this mode? -/
def BySegments (e : TextOpts) : Prop := e.using_ = 0 ∧ e.notUseGse = false ∨ e.using_ = 1

/-- Is the content split into pieces, in this mode? -/
def BySplit (e : TextOpts) : Prop := e.using_ = 0 ∧ e.notUseGse = true ∨ e.using_ ≠ 0 ∧ e.using_ ≠ 1 ∧ e.using_ ≠ 2

instance (e : TextOpts) : Decidable (BySegments e) := by unfold BySegments; infer_instance
instance (e : TextOpts) : Decidable (BySplit e) := by unfold BySplit; infer_instance

/-- The tokens of a split that are not stop tokens. -/
def keptOf (env : TextEnv) (e : TextOpts) (content : Str) : List Str :=
  (splitOf env e content).filter (fun t => e.notUseGse = true ∨ ¬ (t ∈ env.stopLines ∧ t ≠ []))

/-- The locations a key gets from the content: the starts of its segments (byte offsets), or its
positions among the tokens of the split; in mode 3 the latter win. -/
def contentLocs (env : TextEnv) (e : TextOpts) (content k : Str) : List Int :=
  if content = [] then []
  else if BySegments e then segStarts k (env.modeSegment e.gseMode content)
  else if BySplit e then
    if k ∈ keptOf env e content then positions k (keptOf env e content)
    else if e.using_ = 3 then segStarts k (env.modeSegment e.gseMode (env.lower content))
    else []
  else []

/-- Are the tokens of the user keys, in this mode? -/
def UsesTokens (e : TextOpts) (d : DocText) : Prop := e.using_ ≠ 1 ∨ d.content = []

instance (e : TextOpts) (d : DocText) : Decidable (UsesTokens e d) := by unfold UsesTokens; infer_instance

/-- The locations of key `k`: its last index among the pinyin keys, else the locations the user gave,
else those of the content, else (labels) none. -/
def locsOf (env : TextEnv) (e : TextOpts) (d : DocText) (k : Str) : List Int :=
  ((if e.pinYin then (lastIndex k (pinyinOf env e d.content)).map (fun i => [(i : Int)]) else none).or
    (if UsesTokens e d then tokenLocs k d.tokens else none)).getD (contentLocs env e d.content k)

/-- The length of a document: segments and kept tokens of the content, tokens of the user, pinyin
keys. -/
def lengthOf (env : TextEnv) (e : TextOpts) (d : DocText) : Nat :=
  (if d.content = [] then 0
   else (if BySegments e then (env.modeSegment e.gseMode d.content).length else 0) +
     (if e.using_ = 3 then (env.modeSegment e.gseMode (env.lower d.content)).length else 0) +
     (if BySplit e then (keptOf env e d.content).length else 0)) +
  (if UsesTokens e d then d.tokens.length else 0) +
  (if e.pinYin then (pinyinOf env e d.content).length else 0)

/-- The search keys of a document. -/
def IsKeyOf (env : TextEnv) (e : TextOpts) (d : DocText) (k : Str) : Prop :=
  ((documentKeys env e d).1.get k).isSome

end Riot
