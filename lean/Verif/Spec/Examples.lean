import Verif.Spec.Criteria
import Verif.Model.Examples

/-!
# The example programs: what their users expect
-/

namespace Riot

/-- Fields joined by `||||`: a line of the data file. -/
def joinBars : List Str → Str
  | [] => []
  | [w] => w
  | w :: ws => w ++ [124, 124, 124, 124] ++ joinBars ws

/-- Post `w` is what the file says about `id`: it comes from the last line with ten fields about `id`. -/
def SaidLast (lines : List Str) (id : Str) (w : Weibo) : Prop :=
  ∃ l1 line l2, lines = l1 ++ line :: l2 ∧ codelabPost line = some w ∧ w.id = id ∧
    ∀ line' ∈ l2, ∀ w', codelabPost line' = some w' → w'.id ≠ id

/-- Should the post `a`, found as `x`, come before the post `b`, found as `y`? First the closeness of the words decides (all distances up to 2 are
the same), then the date (in periods of three days), then the relevance of the text, increased by a percent for every hundred reposts. -/
def BetterPost (x : IndexedDoc) (a : Weibo) (y : IndexedDoc) (b : Weibo) : Prop :=
  max x.tokenProximity 2 < max y.tokenProximity 2 ∨
  (max x.tokenProximity 2 = max y.tokenProximity 2 ∧
    (b.timestamp / 259200 < a.timestamp / 259200 ∨
    (a.timestamp / 259200 = b.timestamp / 259200 ∧ y.bm25 * (10000 + b.reposts) < x.bm25 * (10000 + a.reposts))))

/-- Should the post `a`, found as `x`, come before the post `b`, found as `y`? First the day decides, then the
relevance, rounded down, then the number of reposts, then the length. -/
def BetterTweet (x : IndexedDoc) (a : Tweet) (y : IndexedDoc) (b : Tweet) : Prop :=
  b.timestamp / 86400 < a.timestamp / 86400 ∨ (a.timestamp / 86400 = b.timestamp / 86400 ∧
    (truncInt y.bm25 < truncInt x.bm25 ∨ (truncInt x.bm25 = truncInt y.bm25 ∧
      (b.reposts < a.reposts ∨ (a.reposts = b.reposts ∧ b.text.length < a.text.length)))))

/-- The engine of the search server: it gets the posts as documents, keeps their contents and scores them by their fields. -/
structure CodelabEngine {A : Type} (E : EngCfg Weibo CodelabFields A) : Prop where
  contents : E.opts.idOnly = false
  fields : ∀ w, E.info.fields w = some w.fields
  content : ∀ w, E.info.content w = w.text

/-- The engine of the search program. -/
structure TweetEngine {A : Type} (E : EngCfg Tweet TweetFields A) : Prop where
  contents : E.opts.idOnly = false
  fields : ∀ t, E.info.fields t = some t.fields
  content : ∀ t, E.info.content t = t.text
  rank : E.opts.defRankOpts = { score := tweetScore, outputOffset := 0, maxOutputs := 100 }

/-- The engine of the pinyin example (it keeps contents and scores by BM25, the default). -/
structure PinyinEngine {F A : Type} (E : EngCfg PinyinDoc F A) : Prop where
  contents : E.opts.idOnly = false
  content : ∀ d, E.info.content d = d.content
  mode : E.opts.using_ = 3
  score : E.opts.defRankOpts.score = rankByBM25

/-- What is indexed for the line number `k` (from 0): a document with the text as a field and a document with the text as its content, both with the
tokens `toks`. -/
def lineDocs (toks : List Str) (k : Nat) (line : Str) : List (Str × PinyinDoc) :=
  [(itoa (2 * k + 1), { tokens := toks, fields := some line }), (itoa (2 * k + 2), { content := line, tokens := toks })]

open Classical in
/-- The documents that have all words of the query among the keys of their texts; the id "0" is never indexed. -/
noncomputable def withWords {D F A : Type} (E : EngCfg D F A) (textOf : D → DocText) (words : List Str) (docs : List (Str × D)) :
    List (Str × D) :=
  docs.filter (fun y => decide (y.1 ≠ str "0" ∧ ∀ w ∈ words, TextHasKey E.text E.opts.toTextOpts (textOf y.2) w))

end Riot
