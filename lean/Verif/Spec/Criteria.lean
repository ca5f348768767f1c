import Verif.Spec.FullText

/-!
# A collection of documents, ranked by scoring criteria that may drop documents
-/

namespace Riot

variable {D F A : Type} {c : PipeCfg D}

/-- The calls index the documents `docs`, whose ids are distinct, and otherwise only Flush. -/
structure GivenOnce (calls : List (Call D)) (docs : List (Str × D)) : Prop where
  distinct : (docs.map (·.1)).Nodup
  only : ∀ a ∈ calls, a = Call.flush ∨ ∃ d x g, (d, x) ∈ docs ∧ a = Call.index d x g
  all : ∀ d x, (d, x) ∈ docs → ∃ g, Call.index d x g ∈ calls

/-- The calls leave exactly the documents `docs` (no id twice): each of them was indexed, with this data only (any number of times), and never removed; every other
document that was indexed was removed after it was indexed for the last time. -/
structure Remains (calls : List (Call D)) (docs : List (Str × D)) : Prop where
  distinct : (docs.map (·.1)).Nodup
  given : ∀ d x, (d, x) ∈ docs → ∃ g, Call.index d x g ∈ calls
  kept : ∀ d x, (d, x) ∈ docs → (∀ f, Call.remove d f ∉ calls) ∧ ∀ y g, Call.index d y g ∈ calls → y = x
  gone : ∀ d x g, Call.index d x g ∈ calls → (d, x) ∈ docs ∨
    ∃ l1 f l2, calls = l1 ++ Call.remove d f :: l2 ∧ ∀ y h, Call.index d y h ∉ l2

/-- What the ranker knows about a document with the data `x` (an IDOnly engine keeps neither content nor attri). -/
def EngCfg.knows (E : EngCfg D F A) (x : D) : RankData F A :=
  { fields := E.info.fields x
    content := if E.opts.idOnly then [] else E.info.content x
    attri := if E.opts.idOnly then none else E.info.attri x }

/-- The result for the document with the data `x`, found in the index as `doc`: its scores by the criteria of the request, its
locations and its data; no result if the criteria give no scores. -/
def EngCfg.resultFor (E : EngCfg D F A) (r : SearchReq F) (doc : IndexedDoc) (x : D) : Option (ScoredDoc F A) :=
  if (wantedRank E.opts r).score doc (E.info.fields x) = [] then none
  else some
    { scoredID := { docId := doc.docId, scores := (wantedRank E.opts r).score doc (E.info.fields x),
                    tokenSnippetLocs := doc.tokenSnippetLocs, tokenLocs := doc.tokenLocs }
      content := (E.knows x).content, attri := (E.knows x).attri, fields := E.info.fields x }

open Classical in
/-- The documents of `docs` on shard `s`; the id "0" is never indexed. -/
noncomputable def onShard (c : PipeCfg D) (s : Fin c.shards) (docs : List (Str × D)) : List (Str × D) :=
  docs.filter (fun y => decide (y.1 ≠ str "0" ∧ c.route y.1 y.2 = s))

open Classical in
/-- The documents of `docs` whose text satisfies the request. -/
noncomputable def askedFor (E : EngCfg D F A) (textOf : D → DocText) (r : SearchReq F) (docs : List (Str × D)) : List (Str × D) :=
  docs.filter (fun y => decide (Satisfies (Engine.tokens E.text E.opts r ++ r.labels) r.logic r.docIds y.1
    (TextHasKey E.text E.opts.toTextOpts (textOf y.2))))

/-- The collection `docs` was indexed and flushed on an engine, under some schedule `as` of its clients and workers, and other documents may have been indexed and
removed again meanwhile; then, when all work was done, the `k`-th search was made, with request `r`, and has returned. The texts of the documents are `textOf`. -/
structure SearchedCollection (c : PipeCfg D) (E : EngCfg D F A) (textOf : D → DocText) (o : IndexerOpts) (db : Fin c.stores → List (Str × D))
    (as : List (EAct c.toPipeSize D F)) (st : Full c F A) (k : Nat) (r : SearchReq F) (docs : List (Str × D)) : Prop where
  texts : FromTexts c E textOf
  sorts : SortOk E.so
  gsorts : GSortOk E.gs
  fits : GentleStart c o db
  runs : (Full.start c o db).run E as = some st
  gentle : (Full.start c o db).Gentle E o db as
  returned : st.Returned k
  searched : ∃ b f i, Began as k b r ∧ (Full.after E (Full.start c o db) as b).fine.pipe.Quiet ∧
    (∀ d, d ≠ str "0" → ∃ l, Rounds db d (Full.after E (Full.start c o db) as b).fine.pipe l) ∧
    as[f]? = some (.pipe (.call i .flush)) ∧ f < b ∧ (∀ t j (a : Call D), f < t → as[t]? ≠ some (.pipe (.call j a))) ∧
    Remains ((Full.after E (Full.start c o db) as b).fine.pipe.given db) docs

end Riot
