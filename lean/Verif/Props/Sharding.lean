import Verif.Props.History
import Verif.Props.Requests

/-!
# C104: the number of shards does not show, except in BM25 values

Two engines that hold the same documents, on different numbers of shards and distributed in different ways, give the same answers to
every request whose scores do not use BM25 (whose statistics are per shard, C95).
-/

namespace Riot

variable {F A : Type}

/-- The shards `views` hold together exactly the documents `m`, each on one shard, together with the data `data` that was registered for it. The indexes are
as disciplined histories with a refresh at the end leave them. -/
def HoldTogether (it : IndexType) (views : List (ShardView F A)) (m : Str → Option DocIndex) (data : Str → Option (RankData F A)) : Prop :=
  ∃ ms : List (Str → Option DocIndex),
    List.Forall₂ (fun (v : ShardView F A) (mv : Str → Option DocIndex) =>
      (∃ o : IndexerOpts, o.indexType = it ∧ v.index.HoldsExactly o mv) ∧ ∀ d, mv d ≠ none → rankIdeal v.history d = data d) views ms ∧
    ms.Pairwise (fun a b => ∀ d, a d = none ∨ b d = none) ∧
    ∀ d x, m d = some x ↔ ∃ mv ∈ ms, mv d = some x

/-- The criteria do not look at the BM25 value. -/
def NoBM25 (score : IndexedDoc → Option F → List F32) : Prop :=
  ∀ (d : IndexedDoc) (f : Option F) (b : Rat), score { d with bm25 := b } f = score d f

/-- What a request finds of the document `doc`, without the BM25 value. -/
def foundEntry (it : IndexType) (tokens : List Str) (l : Logic) (doc : DocIndex) : IndexedDoc :=
  if l = {} then { expectedDoc (fun x => x) { indexType := it, docCacheSize := 0, bm25 := none } 0 0 (fun _ => 0) tokens doc with bm25 := 0 }
  else { docId := doc.docId }

theorem find_perm {l l' : List KeywordIndex} (h : l.Perm l') (hn : (l.map (·.text)).Nodup) (k : Str) :
    l.find? (fun kw => kw.text = k) = l'.find? (fun kw => kw.text = k) := by
  have hu : ∀ L : List KeywordIndex, (L.map (·.text)).Nodup → ∀ x ∈ L, x.text = k → L.find? (fun kw => kw.text = k) = some x := by
    intro L
    induction L with
    | nil => intro _ x hx; cases hx
    | cons y L ih =>
      intro hL x hx hk
      rw [List.map_cons, List.nodup_cons] at hL
      rcases List.mem_cons.1 hx with rfl | hx
      · simp [hk]
      · have : y.text ≠ k := fun e => hL.1 (by rw [e, ← hk]; exact List.mem_map.2 ⟨x, hx, rfl⟩)
        rw [List.find?_cons_of_neg (by simpa using this)]
        exact ih hL.2 x hx hk
  cases e : l.find? (fun kw => kw.text = k) with
  | none =>
    symm
    rw [List.find?_eq_none] at e ⊢
    exact fun x hx => e x (h.mem_iff.2 hx)
  | some x =>
    have h1 := List.find?_some e
    have h2 := List.mem_of_find?_eq_some e
    exact (hu l' ((h.map _).nodup_iff.1 hn) x (h.mem_iff.1 h2) (by simpa using h1)).symm

theorem startsOf_same {a b : DocIndex} (h : SameDoc a b) (hn : (a.keywords.map (·.text)).Nodup) (k : Str) : a.startsOf k = b.startsOf k := by
  simp only [DocIndex.startsOf, find_perm h.2.2 hn]

theorem foundEntry_same {it : IndexType} {tokens : List Str} {l : Logic} {a b : DocIndex} (h : SameDoc a b)
    (hn : (a.keywords.map (·.text)).Nodup) : foundEntry it tokens l a = foundEntry it tokens l b := by
  have hs : a.startsOf = b.startsOf := funext (startsOf_same h hn)
  unfold foundEntry
  split
  · unfold expectedDoc
    cases it with
    | docIds => simp only [h.1]
    | freqs => simp only [h.1]
    | locs =>
      by_cases hh : ∀ t ∈ tokens, b.startsOf t ≠ []
      · simp only [h.1, hs, if_pos hh]
      · simp only [h.1, hs, if_neg hh]
  · rw [h.1]

/-- Every entry found is the one of its document, up to the BM25 value. -/
theorem found_entry {log2 : Rat → Rat} {o : IndexerOpts} {n avg : Rat} {df : Str → Nat} {tokens : List Str} {doc : DocIndex} :
    { expectedDoc log2 o n avg df tokens doc with bm25 := 0 } = foundEntry o.indexType tokens {} doc := by
  unfold foundEntry expectedDoc
  rw [if_pos rfl]
  cases o.indexType with
  | docIds => rfl
  | freqs => rfl
  | locs => dsimp only; split <;> rfl

/-- The result entry of a document, if it is registered and scored. -/
def entryOf (it : IndexType) (tokens : List Str) (l : Logic) (score : IndexedDoc → Option F → List F32) (m : Str → Option DocIndex)
    (data : Str → Option (RankData F A)) (d : Str) : Option (ScoredDoc F A) :=
  (m d).bind (fun doc => expectedScored data score (foundEntry it tokens l doc))

theorem expectedScored_noBM25 {score : IndexedDoc → Option F → List F32} (hs : NoBM25 score) (data : Str → Option (RankData F A))
    (x : IndexedDoc) : expectedScored data score { x with bm25 := 0 } = expectedScored data score x := by
  unfold expectedScored
  simp only
  cases data x.docId with
  | none => rfl
  | some y => simp only [hs x y.fields 0]

theorem filterMap_map_congr {α β γ : Type} (f : α → Option γ) (g : β → Option γ) (k : α → β) (l : List α)
    (h : ∀ x ∈ l, f x = g (k x)) : l.filterMap f = (l.map k).filterMap g := by
  rw [List.filterMap_map]
  exact List.filterMap_congr h

/-- What one shard finds. -/
theorem view_found {it : IndexType} {v : ShardView F A} {mv : Str → Option DocIndex} {o : IndexerOpts} (hit : o.indexType = it)
    (h : v.index.HoldsExactly o mv) {log2 : Rat → Rat} {tokens : List Str} {r : SearchReq F} (ha : r.logic.Asks (tokens ++ r.labels))
    {docs : List IndexedDoc} (hf : v.found log2 tokens r = some docs) :
    (docs.map (·.docId)).Nodup ∧
    (∀ d, d ∈ docs.map (·.docId) ↔ ∃ doc, mv d = some doc ∧ Satisfies (tokens ++ r.labels) r.logic r.docIds d (· ∈ doc.keys)) ∧
    ∀ x ∈ docs, ∃ doc : DocIndex, mv x.docId = some doc ∧ { x with bm25 := 0 } = foundEntry it tokens r.logic doc ∧ doc.docId = x.docId ∧
      (doc.keywords.map (·.text)).Nodup := by
  obtain ⟨known, h1, h2, h3, h4, rfl⟩ := holds_state h
  unfold ShardView.found at hf
  obtain ⟨⟨ds, n⟩, hl, rfl⟩ := Option.map_eq_some_iff.1 hf
  obtain ⟨_, b, c, d1, d2⟩ := found_state h2 (funext (vis_eq_known h2 h3)) log2 tokens r.labels r.docIds r.logic ha ds n hl
  refine ⟨b, c, fun x hx => ?_⟩
  by_cases hlog : r.logic = {}
  · obtain ⟨doc, n, avg, df, e1, e2⟩ := d2 hlog x hx
    refine ⟨doc, e1, ?_, (h2.core.ok _ _ e1).1, (h2.core.ok _ _ e1).2⟩
    rw [hlog, e2, found_entry, h1, o.init_it.1, hit]
  · obtain ⟨doc, e1, _⟩ := (c x.docId).1 (List.mem_map.2 ⟨x, hx, rfl⟩)
    refine ⟨doc, e1, ?_, (h2.core.ok _ _ e1).1, (h2.core.ok _ _ e1).2⟩
    rw [foundEntry, if_neg hlog, d1 hlog x hx, (h2.core.ok _ _ e1).1]

/-- What all shards find. -/
theorem all_found {it : IndexType} {views : List (ShardView F A)} {m : Str → Option DocIndex} {data : Str → Option (RankData F A)}
    (h : HoldTogether it views m data) {log2 : Rat → Rat} {tokens : List Str} {r : SearchReq F}
    (ha : r.logic.Asks (tokens ++ r.labels)) {docsOf : ShardView F A → List IndexedDoc}
    (hf : ∀ v ∈ views, v.found log2 tokens r = some (docsOf v)) :
    ((views.flatMap docsOf).map (·.docId)).Nodup ∧
    (∀ d, d ∈ (views.flatMap docsOf).map (·.docId) ↔
      ∃ doc, m d = some doc ∧ Satisfies (tokens ++ r.labels) r.logic r.docIds d (· ∈ doc.keys)) ∧
    (∀ x ∈ views.flatMap docsOf, ∃ doc : DocIndex, m x.docId = some doc ∧ { x with bm25 := 0 } = foundEntry it tokens r.logic doc ∧
      doc.docId = x.docId ∧ (doc.keywords.map (·.text)).Nodup) ∧
    ∀ score : IndexedDoc → Option F → List F32, NoBM25 score →
      views.flatMap (fun v => v.scored score (docsOf v)) =
        ((views.flatMap docsOf).map (·.docId)).filterMap (entryOf it tokens r.logic score m data) := by
  obtain ⟨ms, h1, h2, h3⟩ := h
  have hsub : ∀ mv ∈ ms, ∀ d x, mv d = some x → m d = some x := fun mv hmv d x hx => (h3 d x).2 ⟨mv, hmv, hx⟩
  have hall : ∀ d, d ∈ (views.flatMap docsOf).map (·.docId) ↔ ∃ mv ∈ ms, ∃ doc, mv d = some doc ∧
      Satisfies (tokens ++ r.labels) r.logic r.docIds d (· ∈ doc.keys) := by
    clear h2 h3 hsub
    induction h1 with
    | nil => intro d; simp
    | @cons v mv vs ms hv _ ih =>
      intro d
      obtain ⟨⟨o, hit, ho⟩, _⟩ := hv
      have hv2 := (view_found hit ho ha (hf v (by simp))).2.1 d
      have hv3 := ih (fun v hv => hf v (by simp [hv])) d
      rw [List.flatMap_cons, List.map_append, List.mem_append, hv2, hv3]
      simp
  have hent : ∀ x ∈ views.flatMap docsOf, ∃ doc : DocIndex, m x.docId = some doc ∧ { x with bm25 := 0 } = foundEntry it tokens r.logic doc ∧
      doc.docId = x.docId ∧ (doc.keywords.map (·.text)).Nodup := by
    intro x hx
    rw [List.mem_flatMap] at hx
    obtain ⟨v, hv, hx⟩ := hx
    obtain ⟨i, hi⟩ := List.getElem_of_mem hv
    obtain ⟨hi, rfl⟩ := hi
    have hm := h1.get hi (by rw [← h1.length_eq]; exact hi)
    simp only [List.get_eq_getElem] at hm
    obtain ⟨⟨o, hit, ho⟩, _⟩ := hm
    obtain ⟨doc, e1, e2, e3, e4⟩ := (view_found hit ho ha (hf _ hv)).2.2 x hx
    exact ⟨doc, hsub _ (List.getElem_mem _) _ _ e1, e2, e3, e4⟩
  refine ⟨?_, fun d => ?_, hent, ?_⟩
  · clear hall h3 hsub hent
    induction h1 with
    | nil => simp
    | @cons v mv vs ms hv hvs ih =>
      rw [List.pairwise_cons] at h2
      obtain ⟨⟨o, hit, ho⟩, _⟩ := hv
      have hv1 := view_found hit ho ha (hf v (by simp))
      rw [List.flatMap_cons, List.map_append, List.nodup_append]
      refine ⟨hv1.1, ih (fun v hv => hf v (by simp [hv])) h2.2, ?_⟩
      intro a hm b hb hab
      subst hab
      obtain ⟨doc, e1, _⟩ := (hv1.2.1 a).1 hm
      obtain ⟨x, hx, rfl⟩ := List.mem_map.1 hb
      obtain ⟨w, hw, hx⟩ := List.mem_flatMap.1 hx
      obtain ⟨i, hi⟩ := List.getElem_of_mem hw
      obtain ⟨hi, rfl⟩ := hi
      have hm' := hvs.get hi (by rw [← hvs.length_eq]; exact hi)
      simp only [List.get_eq_getElem] at hm'
      obtain ⟨⟨o', hit', ho'⟩, _⟩ := hm'
      obtain ⟨doc', e2, _⟩ := (view_found hit' ho' ha (hf _ (List.mem_cons_of_mem _ hw))).2.2 x hx
      rcases h2.1 _ (List.getElem_mem (by rw [← hvs.length_eq]; exact hi)) x.docId with e | e
      · rw [e1] at e; cases e
      · rw [e2] at e; cases e
  · rw [hall]
    constructor
    · rintro ⟨mv, hmv, doc, e1, e2⟩; exact ⟨doc, hsub _ hmv _ _ e1, e2⟩
    · rintro ⟨doc, e1, e2⟩
      obtain ⟨mv, hmv, e⟩ := (h3 d doc).1 e1
      exact ⟨mv, hmv, doc, e, e2⟩
  · intro score hs
    clear hall hent h2 h3
    induction h1 with
    | nil => simp
    | @cons v mv vs ms hv _ ih =>
      obtain ⟨⟨o, hit, ho⟩, hdata⟩ := hv
      obtain ⟨_, _, k3⟩ := view_found hit ho ha (hf v (by simp))
      have ih := ih (fun v hv => hf v (by simp [hv])) (fun mv hmv => hsub mv (by simp [hmv]))
      simp only [List.flatMap_cons, List.map_append, List.filterMap_append, ih]
      congr 1
      unfold ShardView.scored
      apply filterMap_map_congr
      intro x hx
      obtain ⟨doc, e1, e2, e3, _⟩ := k3 x hx
      have e4 := hsub mv (by simp) _ _ e1
      rw [entryOf, e4, Option.bind_some, ← e2, expectedScored_noBM25 hs]
      unfold expectedScored
      rw [hdata x.docId (by rw [e1]; simp)]

theorem satisfies_same {kw : List Str} {l : Logic} {docIds : Option (List Str)} {d : Str} {a b : DocIndex} (h : SameDoc a b) :
    Satisfies kw l docIds d (· ∈ a.keys) ↔ Satisfies kw l docIds d (· ∈ b.keys) :=
  satisfies_congr (fun k => by simp only [DocIndex.keys]; exact (h.2.2.map _).mem_iff)

/-- Two engines with the same documents find the same entries. -/
theorem found_perm {it : IndexType} {views views' : List (ShardView F A)} {m m' : Str → Option DocIndex}
    {data : Str → Option (RankData F A)} (h : HoldTogether it views m data) (h' : HoldTogether it views' m' data) (hm : HoldSame m m')
    {log2 log2' : Rat → Rat} {tokens : List Str} {r : SearchReq F} (ha : r.logic.Asks (tokens ++ r.labels))
    {docsOf docsOf' : ShardView F A → List IndexedDoc} (hf : ∀ v ∈ views, v.found log2 tokens r = some (docsOf v))
    (hf' : ∀ v ∈ views', v.found log2' tokens r = some (docsOf' v)) :
    ((views.flatMap docsOf).map (fun x => { x with bm25 := 0 })).Perm ((views'.flatMap docsOf').map (fun x => { x with bm25 := 0 })) ∧
    ∀ score : IndexedDoc → Option F → List F32, NoBM25 score →
      (views.flatMap (fun v => v.scored score (docsOf v))).Perm (views'.flatMap (fun v => v.scored score (docsOf' v))) := by
  obtain ⟨a1, a2, a3, a4⟩ := all_found h ha hf
  obtain ⟨b1, b2, b3, b4⟩ := all_found h' ha hf'
  have hp : ((views.flatMap docsOf).map (·.docId)).Perm ((views'.flatMap docsOf').map (·.docId)) := by
    rw [List.perm_ext_iff_of_nodup a1 b1]
    intro d
    rw [a2, b2]
    rcases hm d with ⟨e1, e2⟩ | ⟨x, y, e1, e2, e3⟩
    · rw [e1, e2]
    · rw [e1, e2]
      simp only [Option.some.injEq, exists_eq_left', satisfies_same e3]
  have hg : ∀ d doc doc', m d = some doc → (doc.keywords.map (·.text)).Nodup → m' d = some doc' →
      foundEntry it tokens r.logic doc = foundEntry it tokens r.logic doc' := by
    intro d doc doc' e1 hn e2
    rcases hm d with ⟨e, _⟩ | ⟨x, y, f1, f2, f3⟩
    · rw [e1] at e; cases e
    · rw [e1, Option.some.injEq] at f1
      rw [e2, Option.some.injEq] at f2
      subst f1 f2
      exact foundEntry_same f3 hn
  constructor
  · let g : Str → IndexedDoc := fun d => ((m d).map (foundEntry it tokens r.logic)).getD { docId := d }
    have q1 : (views.flatMap docsOf).map (fun x => { x with bm25 := 0 }) = ((views.flatMap docsOf).map (·.docId)).map g := by
      rw [List.map_map]
      apply List.map_congr_left
      intro x hx
      obtain ⟨doc, e1, e2, _⟩ := a3 x hx
      simp only [Function.comp, g, e1, Option.map_some, Option.getD_some, e2]
    have q2 : (views'.flatMap docsOf').map (fun x => { x with bm25 := 0 }) = ((views'.flatMap docsOf').map (·.docId)).map g := by
      rw [List.map_map]
      apply List.map_congr_left
      intro x hx
      obtain ⟨doc', e1, e2, _⟩ := b3 x hx
      obtain ⟨y, hy, hyx⟩ := List.mem_map.1 (hp.mem_iff.2 (List.mem_map.2 ⟨x, hx, rfl⟩))
      obtain ⟨doc, f1, _, _, f4⟩ := a3 y hy
      rw [hyx] at f1
      simp only [Function.comp, g, f1, Option.map_some, Option.getD_some]
      rw [hg _ _ _ f1 f4 e1, e2]
    rw [q1, q2]
    exact hp.map g
  · intro score hs
    rw [a4 score hs, b4 score hs]
    refine (hp.filterMap _).trans ?_
    rw [List.filterMap_congr]
    intro d hd
    obtain ⟨x, hx, rfl⟩ := List.mem_map.1 hd
    obtain ⟨doc', e1, _⟩ := b3 x hx
    obtain ⟨y, hy, hyx⟩ := List.mem_map.1 (hp.mem_iff.2 hd)
    obtain ⟨doc, f1, _, _, f4⟩ := a3 y hy
    rw [hyx] at f1
    rw [entryOf, entryOf, f1, e1, Option.bind_some, Option.bind_some, hg _ _ _ f1 f4 e1]

/-- **C104** (ordered requests) Two engines hold the same documents and the same data of them, on any numbers of shards and distributed in any way; the
criteria do not use the BM25 value. Asked the same, whatever order the answers of the shards arrive in and whatever sort is used: the responses report the
same number of documents and the same score vectors at the same places; and if no two documents have the same score vector, they list the same documents with the
same contents in the same order. -/
theorem C104_search {gs gs' : GSort} (hgs : GSortOk gs) (hgs' : GSortOk gs') (log2 log2' : Rat → Rat) (e : SearchOpts F) (r : SearchReq F)
    (tokens : List Str) {it : IndexType} {views views' : List (ShardView F A)} {m m' : Str → Option DocIndex}
    {data : Str → Option (RankData F A)} (h : HoldTogether it views m data) (h' : HoldTogether it views' m' data) (hm : HoldSame m m')
    (ha : r.logic.Asks (tokens ++ r.labels)) (hs : NoBM25 (wantedRank e r).score)
    {docsOf docsOf' : ShardView F A → List IndexedDoc} (hf : ∀ v ∈ views, v.found log2 tokens r = some (docsOf v))
    (hf' : ∀ v ∈ views', v.found log2' tokens r = some (docsOf' v)) {off mx : Nat}
    (hc : r.countDocsOnly = false) (hor : r.orderless = false)
    (ho : (wantedRank e r).outputOffset = off) (hmx : (wantedRank e r).maxOutputs = mx)
    (hnan : ∀ d f, NoNaN ((wantedRank e r).score d f)) :
    ∃ answers answers', shardAnswers log2 gs e r tokens views = some answers ∧
      shardAnswers log2' gs' e r tokens views' = some answers' ∧
      ∀ arrived arrived', arrived.Perm answers → arrived'.Perm answers' →
        ∃ x x', completeSearch gs e r tokens arrived = some x ∧ completeSearch gs' e r tokens arrived' = some x' ∧
          x.numDocs = x'.numDocs ∧ x.tokens = x'.tokens ∧ x.docs.map RankOut.scores = x'.docs.map RankOut.scores ∧
          (((views.flatMap (fun v => v.scored (wantedRank e r).score (docsOf v))).map
            (fun y => scoreKey y.scoredID.scores)).Nodup → x.docs = x'.docs) := by
  obtain ⟨as, a1, a2⟩ := C24_search_is_page_of_global_ranking hgs log2 e r tokens views docsOf off mx hf hc hor ho hmx
    (fun _ _ d _ f => hnan d f)
  obtain ⟨as', b1, b2⟩ := C24_search_is_page_of_global_ranking hgs' log2' e r tokens views' docsOf' off mx hf' hc hor ho hmx
    (fun _ _ d _ f => hnan d f)
  refine ⟨as, as', a1, b1, fun arr arr' p p' => ?_⟩
  obtain ⟨x, x1, _, x2⟩ := a2 arr p
  obtain ⟨x', y1, _, y2⟩ := b2 arr' p'
  obtain ⟨q1, q2, q3, q4⟩ := page_scores ((found_perm h h' hm ha hf hf').2 _ hs) x2 y2
  exact ⟨x, x', x1, y1, q1, q2, q3, q4⟩

/-- **C104** (orderless requests) As above, for requests without order and any criteria: the responses list the same documents, with the same
locations, and report the same number of them. -/
theorem C104_orderless {gs gs' : GSort} (log2 log2' : Rat → Rat) (e : SearchOpts F) (r : SearchReq F)
    (tokens : List Str) {it : IndexType} {views views' : List (ShardView F A)} {m m' : Str → Option DocIndex}
    {data : Str → Option (RankData F A)} (h : HoldTogether it views m data) (h' : HoldTogether it views' m' data) (hm : HoldSame m m')
    (ha : r.logic.Asks (tokens ++ r.labels))
    {docsOf docsOf' : ShardView F A → List IndexedDoc} (hf : ∀ v ∈ views, v.found log2 tokens r = some (docsOf v))
    (hf' : ∀ v ∈ views', v.found log2' tokens r = some (docsOf' v))
    (hc : r.countDocsOnly = false) (hor : r.orderless = true) :
    ∃ answers answers', shardAnswers log2 gs e r tokens views = some answers ∧
      shardAnswers log2' gs' e r tokens views' = some answers' ∧
      ∀ arrived arrived', arrived.Perm answers → arrived'.Perm answers' →
        ∃ (n : Nat) (R R' : List (ScoredDoc F A)), R.Perm R' ∧
          completeSearch gs e r tokens arrived =
            some { tokens := tokens, timeout := false, numDocs := n, docs := some (resultDocs e.idOnly R) } ∧
          completeSearch gs' e r tokens arrived' =
            some { tokens := tokens, timeout := false, numDocs := n, docs := some (resultDocs e.idOnly R') } := by
  obtain ⟨as, a1, a2⟩ := C24_orderless_returns_all_found (gs := gs) log2 e r tokens views docsOf hf hc hor
  obtain ⟨as', b1, b2⟩ := C24_orderless_returns_all_found (gs := gs') log2' e r tokens views' docsOf' hf' hc hor
  have hp := (found_perm h h' hm ha hf hf').1
  have hlen : (views.flatMap docsOf).length = (views'.flatMap docsOf').length := by simpa using hp.length_eq
  refine ⟨as, as', a1, b1, fun arr arr' p p' => ?_⟩
  obtain ⟨R, x1, x2⟩ := a2 arr p
  obtain ⟨R', y1, y2⟩ := b2 arr' p'
  refine ⟨(views.flatMap docsOf).length, R, R', ?_, x2, by rw [y2, hlen]⟩
  have hb : ∀ l : List IndexedDoc, l.map (bareEntry (F := F) (A := A)) = (l.map (fun x => { x with bm25 := 0 })).map bareEntry := by
    intro l
    rw [List.map_map]
    rfl
  refine x1.trans (List.Perm.trans ?_ y1.symm)
  rw [hb (views.flatMap docsOf), hb (views'.flatMap docsOf')]
  exact hp.map _

/-! ## An instance: the documents "1" and "2" on one shard, and each on its own shard -/

def dataOf (d : Str) : Option (RankData Nat Nat) :=
  if d = str "1" then some ⟨some 5, [], none⟩ else if d = str "2" then some ⟨some 9, [], none⟩ else none

def pairDocs : Str → Option DocIndex := ideal [.add (mkDoc "1" ["a", "b"]) true, .add (mkDoc "2" ["b"]) true]

theorem demo_together : ∃ v w w' : ShardView Nat Nat, HoldTogether .locs [v] pairDocs dataOf ∧ HoldTogether .locs [w, w'] pairDocs dataOf ∧
    (v.index.lookup (fun x => x) [str "b"] [] none false (some {})).map (fun x => x.1.map (·.docId)) = some [str "2", str "1"] ∧
    (w.index.lookup (fun x => x) [str "b"] [] none false (some {})).map (fun x => x.1.map (·.docId)) = some [str "1"] ∧
    (w'.index.lookup (fun x => x) [str "b"] [] none false (some {})).map (fun x => x.1.map (·.docId)) = some [str "2"] := by
  obtain ⟨s, r, h⟩ := holdsExactly_of (o := smallOpts .locs 10)
    (h := [.add (mkDoc "1" ["a", "b"]) true, .add (mkDoc "2" ["b"]) true]) (by decide +kernel) (by decide +kernel)
  obtain ⟨s1, r1, h1⟩ := holdsExactly_of (o := smallOpts .locs 10) (h := [.add (mkDoc "1" ["a", "b"]) true]) (by decide +kernel) (by decide +kernel)
  obtain ⟨s2, r2, h2⟩ := holdsExactly_of (o := smallOpts .locs 10) (h := [.add (mkDoc "2" ["b"]) true]) (by decide +kernel) (by decide +kernel)
  have n12 : str "1" ≠ str "2" := by decide +kernel
  have e1 : (mkDoc "1" ["a", "b"]).docId = str "1" := rfl
  have e2 : (mkDoc "2" ["b"]).docId = str "2" := rfl
  have m0 : ∀ d, pairDocs d = if d = str "2" then some (mkDoc "2" ["b"]) else if d = str "1" then some (mkDoc "1" ["a", "b"]) else none :=
    fun d => rfl
  have m1 : ∀ d, ideal [.add (mkDoc "1" ["a", "b"]) true] d = if d = str "1" then some (mkDoc "1" ["a", "b"]) else none := fun d => rfl
  have m2 : ∀ d, ideal [.add (mkDoc "2" ["b"]) true] d = if d = str "2" then some (mkDoc "2" ["b"]) else none := fun d => rfl
  have look : ∀ {h : List IdxOp} {s : Indexer} {out : Option (List Str)}, (Indexer.init (smallOpts .locs 10)).run insSort (h ++ [.flush true]) = some s →
      (((Indexer.init (smallOpts .locs 10)).run insSort (h ++ [.flush true])).bind
        (fun s => s.lookup (fun x => x) [str "b"] [] none false (some {}))).map (fun x => x.1.map (·.docId)) = out →
      (s.lookup (fun x => x) [str "b"] [] none false (some {})).map (fun x => x.1.map (·.docId)) = out := by
    intro h s out hr ho
    rw [hr] at ho
    exact ho
  refine ⟨⟨s, [.add (str "1") (some 5) none, .add (str "2") (some 9) none]⟩, ⟨s1, [.add (str "1") (some 5) none]⟩,
    ⟨s2, [.add (str "2") (some 9) none]⟩, ⟨[pairDocs], ?_, by simp, fun d x => by simp⟩, ⟨[ideal [.add (mkDoc "1" ["a", "b"]) true], ideal [.add (mkDoc "2" ["b"]) true]], ?_, ?_, fun d x => ?_⟩,
    look r (by decide +kernel), look r1 (by decide +kernel), look r2 (by decide +kernel)⟩
  · refine .cons ⟨⟨_, rfl, h⟩, fun d hd => ?_⟩ .nil
    by_cases d1 : d = str "1"
    · subst d1; simp [rankIdeal, rankIdealStep, dataOf, n12]
    · by_cases d2 : d = str "2"
      · subst d2; simp [rankIdeal, rankIdealStep, dataOf, n12.symm]
      · rw [m0] at hd; simp [d1, d2] at hd
  · refine .cons ⟨⟨_, rfl, h1⟩, fun d hd => ?_⟩ (.cons ⟨⟨_, rfl, h2⟩, fun d hd => ?_⟩ .nil)
    · by_cases d1 : d = str "1"
      · subst d1; simp [rankIdeal, rankIdealStep, dataOf]
      · rw [m1] at hd; simp [d1] at hd
    · by_cases d2 : d = str "2"
      · subst d2; simp [rankIdeal, rankIdealStep, dataOf, n12.symm]
      · rw [m2] at hd; simp [d2] at hd
  · simp only [List.pairwise_cons, List.mem_singleton, forall_eq, List.not_mem_nil, false_implies, implies_true, List.Pairwise.nil, and_self,
      and_true]
    intro d
    rw [m1, m2]
    by_cases d1 : d = str "1"
    · right; rw [if_neg (by rw [d1]; exact n12)]
    · left; rw [if_neg d1]
  · simp only [List.mem_cons, List.not_mem_nil, or_false, exists_eq_or_imp, exists_eq_left, m0, m1, m2]
    by_cases d1 : d = str "1"
    · subst d1; simp [n12]
    · by_cases d2 : d = str "2" <;> simp [d1, d2, n12.symm]

/-- The two engines give the same answer to a search for "b", ordered by the fields: here every hypothesis of `C104_search` holds, for
criteria that use the fields only. -/
example {gs : GSort} (hgs : GSortOk gs) : ∃ (views views' : List (ShardView Nat Nat)) (docsOf : ShardView Nat Nat → List IndexedDoc),
    views.length = 1 ∧ views'.length = 2 ∧
    ∀ (e : SearchOpts Nat), e.defRankOpts = { score := fun _ f => [F32.fin (f.getD 0 : Nat)], reverseOrder := false, outputOffset := 0, maxOutputs := 10 } →
      ∃ answers answers', shardAnswers (fun x => x) gs e {} [str "b"] views = some answers ∧
        shardAnswers (fun x => x) gs e {} [str "b"] views' = some answers' ∧
        ∀ arrived arrived', arrived.Perm answers → arrived'.Perm answers' →
          ∃ x x', completeSearch gs e {} [str "b"] arrived = some x ∧
            completeSearch gs e {} [str "b"] arrived' = some x' ∧ x.numDocs = x'.numDocs := by
  obtain ⟨v, w, w', h1, h2, l1, l2, l3⟩ := demo_together
  let docsOf : ShardView Nat Nat → List IndexedDoc := fun v => (v.found (fun x => x) [str "b"] {}).getD []
  have hfound : ∀ (u : ShardView Nat Nat) ids, (u.index.lookup (fun x => x) [str "b"] [] none false (some {})).map (fun x => x.1.map (·.docId)) = some ids →
      u.found (fun x => x) [str "b"] {} = some (docsOf u) := by
    intro u ids h
    obtain ⟨y, hy, _⟩ := Option.map_eq_some_iff.1 h
    have : u.found (fun x => x) [str "b"] {} = some y.1 := by
      show (u.index.lookup (fun x => x) [str "b"] [] none false (some {})).map (·.1) = some y.1
      rw [hy]; rfl
    simp only [docsOf, this, Option.getD_some]
  refine ⟨[v], [w, w'], docsOf, rfl, rfl, fun e he => ?_⟩
  have hw : wantedRank e ({} : SearchReq Nat) = e.defRankOpts := rfl
  obtain ⟨a, a', p1, p2, p3⟩ := C104_search hgs hgs (fun x => x) (fun x => x) e {} [str "b"] h1 h2
    (fun d => by cases h : pairDocs d with
      | none => exact Or.inl ⟨rfl, rfl⟩
      | some x => exact Or.inr ⟨x, x, rfl, rfl, rfl, rfl, .refl _⟩)
    (docsOf := docsOf) (docsOf' := docsOf) (off := 0) (mx := 10)
    ⟨clear_of_lists rfl rfl, Or.inl ⟨[str "b"], rfl, by simp⟩⟩ (by rw [hw, he]; intro _ _ _; rfl)
    (by intro u hu; simp only [List.mem_singleton] at hu; subst hu; exact hfound _ _ l1)
    (by intro u hu; simp only [List.mem_cons, List.not_mem_nil, or_false] at hu; rcases hu with rfl | rfl; exacts [hfound _ _ l2, hfound _ _ l3])
    rfl rfl (by rw [hw, he]; rfl) (by rw [hw, he]; rfl) (by rw [hw, he]; intro d f; simp [NoNaN])
  refine ⟨a, a', p1, p2, fun arr arr' q q' => ?_⟩
  obtain ⟨x, x', y1, y2, y3, _⟩ := p3 arr arr' q q'
  exact ⟨x, x', y1, y2, y3⟩

end Riot
