import Verif.Spec.Full
import Verif.Spec.Segment

/-!
# From texts to answers
-/

namespace Riot

variable {D F A : Type}

/-- The engine makes its index documents from texts: `textOf` is the content, tokens and labels of the
document data, and the segmenter worker turns them into an index document by the rules of the
options (`D` may contain more than the text: scoring fields, and the iteration order of Go maps). -/
def FromTexts (c : PipeCfg D) (E : EngCfg D F A) (textOf : D → DocText) : Prop :=
  ∀ id x, IsDocIndexOf E.text E.opts.toTextOpts id (textOf x) (c.docOf id x)

/-- `k` is a search key of a text: it is no stop token, and it comes from the content and the tokens by the
rule of the segmentation mode, or it is a pinyin key, or a label. -/
def TextHasKey (env : TextEnv) (e : TextOpts) (t : DocText) (k : Str) : Prop :=
  ¬ (e.notUseGse = false ∧ IsStopLine env k) ∧
    (actualKeys env e t k ∨ (e.pinYin = true ∧ k ∈ pinyinOf env e t.content) ∨ k ∈ t.labels)

/-- `x` is the last data of document `d` given to shard `s`, and `d` was not removed since. -/
def LatestOn (c : PipeCfg D) (s : Fin c.shards) (calls : List (Call D)) (d : Str) (x : D) : Prop :=
  ∃ l1 g l2, calls = l1 ++ Call.index d x g :: l2 ∧ c.route d x = s ∧ (∀ f, Call.remove d f ∉ l2) ∧
    ∀ y h, Call.index d y h ∈ l2 → c.route d y ≠ s

/-- `x` is the last data of document `d`, and `d` was not removed since. -/
def LatestIn (calls : List (Call D)) (d : Str) (x : D) : Prop :=
  ∃ l1 g l2, calls = l1 ++ Call.index d x g :: l2 ∧ (∀ f, Call.remove d f ∉ l2) ∧ ∀ y h, Call.index d y h ∉ l2

/-- `live` lists, without repetition, the documents of shard `s` with their last data. -/
def LiveOn (c : PipeCfg D) (s : Fin c.shards) (calls : List (Call D)) (live : List (Str × D)) : Prop :=
  (live.map (·.1)).Nodup ∧ ∀ d x, (d, x) ∈ live ↔ d ≠ str "0" ∧ LatestOn c s calls d x

/-- `live` lists, without repetition, the documents of the engine with their last data. -/
def LiveIn (calls : List (Call D)) (live : List (Str × D)) : Prop :=
  (live.map (·.1)).Nodup ∧ ∀ d x, (d, x) ∈ live ↔ d ≠ str "0" ∧ LatestIn calls d x

open Classical in
/-- The statistics of a list of documents: their number `n`, the average `avg` of the lengths of their texts, and for every key
the number `df` of texts that have it. -/
def TextStats (env : TextEnv) (e : TextOpts) (textOf : D → DocText) (live : List (Str × D)) (n avg : Rat) (df : Str → Nat) :
    Prop :=
  n = live.length ∧ avg = (live.map (fun p => (lengthOf env e (textOf p.2) : Rat))).sum / live.length ∧
    ∀ k, df k = (live.filter (fun p => decide (TextHasKey env e (textOf p.2) k))).length

/-- The keys a request with the keywords `kw` asks for with Must. A request without logic asks for all its keywords. -/
def mustOf (kw : List Str) (l : Logic) : Option (List Str) :=
  if l = {} then some kw else clauseKeys kw l.must l.expr.must

/-- The text with the keys `has` of the document `d` satisfies the request: it has all Must keys, one of the Should keys and none of the NotIn
keys; and the id is one of the DocIds, if the request has Must keys (the code ignores DocIds otherwise, C02). -/
def Satisfies (kw : List Str) (l : Logic) (docIds : Option (List Str)) (d : Str) (has : Str → Prop) : Prop :=
  (mustOf kw l ≠ none → Allowed docIds d) ∧
  (∀ ks, mustOf kw l = some ks → ∀ k ∈ ks, has k) ∧
  (∀ ks, clauseKeys kw l.should l.expr.should = some ks → ∃ k ∈ ks, has k) ∧
  (∀ ks, clauseKeys kw l.notIn l.expr.notIn = some ks → ∀ k ∈ ks, ¬ has k)

/-- The request says what to look for: it is clear which keys each clause is about (`Logic.Clear`), and it has Must keys, or no Must
clause but a Should clause. (The other requests are those of C16 and C13.) -/
def Logic.Asks (kw : List Str) (l : Logic) : Prop :=
  l.Clear ∧ ((∃ M, mustOf kw l = some M ∧ M ≠ []) ∨ (mustOf kw l = none ∧ clauseKeys kw l.should l.expr.should ≠ none))

/-- `docs` are the documents a request finds on shard `s`, after the calls `calls`: each document of the shard whose last text
satisfies the request, once; with ids only for a logic request, and with the locations of its last version for a plain one. -/
structure FindsOn (c : PipeCfg D) (E : EngCfg D F A) (o : IndexerOpts) (textOf : D → DocText) (calls : List (Call D))
    (r : SearchReq F) (s : Fin c.shards) (docs : List IndexedDoc) : Prop where
  nodup : (docs.map (·.docId)).Nodup
  exact_ : ∀ d, d ∈ docs.map (·.docId) ↔ d ≠ str "0" ∧ ∃ x, LatestOn c s calls d x ∧
    Satisfies (E.tokens r ++ r.labels) r.logic r.docIds d (TextHasKey E.text E.opts.toTextOpts (textOf x))
  logic : r.logic ≠ {} → ∀ x ∈ docs, x = { docId := x.docId }
  plain : r.logic = {} → ∀ x ∈ docs, ∃ y n avg df, LatestOn c s calls x.docId y ∧
    x = expectedDoc E.log2 o.init n avg df (E.tokens r) (c.docOf x.docId y)

end Riot
