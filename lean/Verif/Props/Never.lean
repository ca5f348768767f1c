import Verif.Props.NetDocs
import Verif.Props.Between
import Verif.Props.FullText
import Verif.Props.Net
import Verif.Model.NetDocs

/-!
# C89: documents added through a server
-/

namespace Riot

open Function (update)

variable {D F A : Type} {c : PipeCfg D}

/-- What a search of a shard sees if nothing is visible. -/
theorem shard_empty (hk : c.KeysOk) {so : Sorter} (hso : SortOk so) {o : IndexerOpts}
    {db : Fin c.stores → List (Str × D)} {as : List (FAct c.toPipeSize D)} {st : Fine c}
    (h : (Fine.start c o db).run so as = some st) (hc : (Fine.start c o db).NoClash so as)
    (s : Fin c.shards) (hd : (st.shard s).dead = false) :
    ∃ tr, Trace (st.pipe.idxLog s) tr ∧ Followed so o (st.pipe.idxLog s) tr ∧
      ((∀ d, (tr (st.pipe.idxLog s).length).vis d = none) → (st.shard s).ix.numDocs = 0) := by
  have hV := vinv_run hk hso as (finv_start so o db) (vinv_start so o db) hc h
  obtain ⟨base, a, r, kb, known, tr, hS⟩ := hV s hd
  refine ⟨tr, hS.trace, hS.each, fun hn => ?_⟩
  have hvis : ∀ d, (absOf (st.shard s).ix known).vis d = none := by
    intro d
    rcases hS.sees d with e | ⟨e, _⟩
    · rw [e]; exact hn d
    · exact e
  rw [hS.w.core.num, ← GoMap.length_keysWhere]
  cases hl : (st.shard s).ix.docsState.keysWhere (· == 0) with
  | nil => rfl
  | cons d l =>
    exfalso
    have hm : d ∈ (st.shard s).ix.docsState.keysWhere (· == 0) := by rw [hl]; simp
    rw [GoMap.mem_keysWhere] at hm
    have h0 : (st.shard s).ix.docsState.get d = some 0 := by
      obtain ⟨v, h1, h2⟩ := hm
      rw [h1]; simpa using h2
    have h2 := hvis d
    simp only [absOf] at h2
    rw [if_pos h0] at h2
    have := (hS.w.core.state d).2 (.inl h0)
    rw [h2] at this
    simp at this

/-- At a moment `f` all work is done and no document was ever given. Until the next Flush the index of no shard
finds anything. -/
theorem found_nothing (hk : c.KeysOk) {E : EngCfg D F A} (hso : SortOk E.so) {o : IndexerOpts}
    {db : Fin c.stores → List (Str × D)} (hs : GentleStart c o db) {as : List (EAct c.toPipeSize D F)} {st : Full c F A}
    (h : (Full.start c o db).run E as = some st) (hg : (Full.start c o db).Gentle E o db as) {f t : Nat} (hft : f ≤ t)
    (ht : t < as.length) (hq : (Full.after E (Full.start c o db) as f).fine.pipe.Quiet)
    (hempty : ∀ d x g, Call.index d x g ∉ (Full.after E (Full.start c o db) as f).fine.pipe.given db)
    (hno : ∀ v i, f ≤ v → as[v]? ≠ some (.pipe (.call i .flush)))
    (r : SearchReq F) (s : Fin c.shards) :
    (Full.after E (Full.start c o db) as t).found E s r = some [] := by
  have hgt : ∀ u, (Full.start c o db).Gentle E o db (as.take u) := by
    intro u
    rw [← List.take_append_drop u as] at hg
    exact full_gentle_take hg
  obtain ⟨fs, g1, g2⟩ := full_run_gentle _ (after_run h (t := t)) (hgt t)
  have hI := ginv_run hk hso fs (ginv_start hs) g2 g1
  obtain ⟨fs0, g3, g4⟩ := full_run_gentle _ (after_run h (t := f)) (hgt f)
  have hreach := (ginv_run hk hso fs0 (ginv_start hs) g4 g3).finv.reach
  have hcl := full_gentle_noClash hk hso hs h hg
  obtain ⟨fs', g1', g2'⟩ := full_run_fine _ (after_run h (t := t)) (after_noClash hcl (Nat.le_of_lt ht))
  have hal := after_alive h ht s
  obtain ⟨tr, htr, hfo, hzero⟩ := shard_empty hk hso g1' g2' s hal
  obtain ⟨bs, hbs, hcall⟩ := after_pipe h hft
  obtain ⟨h2, hlog⟩ := run_idxLog bs _ _ hbs s
  obtain ⟨_, hforce⟩ := since_quiet hreach hq hbs s IdxOp.force (fun z hz => by
    obtain ⟨v, hv1, hv2⟩ := hcall z hz
    have := (gentle_ops (hg v _ _ hv2) s).1
    rw [this]
    cases hz2 : z.2 with
    | flush => rw [hz2] at hv2; exact absurd hv2 (hno v _ hv1)
    | _ => rfl)
  have hcalm : ∀ x ∈ h2, x.refreshes = false := by
    intro x hx
    have := hforce h2 hlog.symm x hx
    cases x <;> simp_all [IdxOp.force, IdxOp.refreshes]
  have hfits := hI.gentle.fits s
  have hok := log_ok hk hI.finv.reach s
  have hnoadd : ∀ x ∈ (Full.after E (Full.start c o db) as f).fine.pipe.idxLog s, x.adds = false := by
    obtain ⟨as0, ha0⟩ := hreach
    have hcons := idx_conserve s IdxOp.adds db as0 _ ha0
    have hz : ((Full.after E (Full.start c o db) as f).fine.pipe.issued db s).countP IdxOp.adds = 0 := by
      rw [issued_given, List.countP_flatMap, List.sum_eq_zero]
      intro n hn
      obtain ⟨z, hz, rfl⟩ := List.mem_map.1 hn
      cases z with
      | index d x g => exact absurd hz (hempty d x g)
      | remove d g => simp [PipeCfg.callOps, IdxOp.adds]
      | flush => simp [PipeCfg.callOps, IdxOp.adds]
    rw [hz] at hcons
    intro x hx
    cases hxa : x.adds with
    | false => rfl
    | true =>
      have := List.countP_pos_iff.2 ⟨x, hx, hxa⟩
      omega
  rw [← hlog] at htr hfo hfits hok
  have hbase := vis_none_noAdds htr.prefix hnoadd
  have hvis := vis_none_calm hso _ h2 htr hfo hfits hok hcalm (fun d => (hbase d).1)
  rw [hlog] at hvis
  unfold Full.found Indexer.lookup
  rw [if_pos (hzero hvis)]
  rfl

/-- A response with the number 0 and no documents (`count`: the request asks only for the number). -/
def SearchResp.FindsNothing {F A : Type} (resp : SearchResp F A) (idOnly count : Bool) : Prop :=
  resp.numDocs = 0 ∧ resp.docs = if count then none else some (resultDocs idOnly [])

/-- **C89 is refuted** At some moment all work of an engine is done and no document was ever given to it (the state after
`InitEngine` of a server with an empty folder; net/com/search.go:87 is the only Flush of a server). Whatever is indexed and
removed from then on, by whomever, however long ago, no search finds anything before somebody calls Flush, provided
that fewer documents are given to a shard than its cache holds, and the calls are not forced. -/
theorem C89_refuted_never_found (hk : c.KeysOk) {E : EngCfg D F A} (hso : SortOk E.so) (hgs : GSortOk E.gs) {o : IndexerOpts}
    {db : Fin c.stores → List (Str × D)} (hs : GentleStart c o db) {as : List (EAct c.toPipeSize D F)} {st : Full c F A}
    (h : (Full.start c o db).run E as = some st) (hg : (Full.start c o db).Gentle E o db as) {f : Nat}
    (hq : (Full.after E (Full.start c o db) as f).fine.pipe.Quiet)
    (hempty : ∀ d x g, Call.index d x g ∉ (Full.after E (Full.start c o db) as f).fine.pipe.given db)
    (hno : ∀ v i, f ≤ v → as[v]? ≠ some (.pipe (.call i .flush)))
    {k b : Nat} {r : SearchReq F} (hb : Began as k b r) (hfb : f ≤ b) (hret : st.Returned k) {off m : Nat}
    (ho : (wantedRank E.opts r).outputOffset = off) (hm : (wantedRank E.opts r).maxOutputs = m)
    (hnan : ∀ d f, NoNaN ((wantedRank E.opts r).score d f)) :
    ∃ resp, st.response E k = some resp ∧ resp.FindsNothing E.opts.idOnly r.countDocsOnly := by
  have hnil : ∀ (q : Part c), FoundOk E (Full.start c o db) as b r q → q.docs = [] := by
    intro q hq'
    have h1 := hq'.found
    rw [found_nothing hk hso hs h hg (show f ≤ q.look by have := hq'.during.1; omega) hq'.during.2 hq hempty hno r q.shard] at h1
    exact (Option.some.inj h1).symm
  cases hc : r.countDocsOnly with
  | true =>
    obtain ⟨parts, timeout, _, g2, _, g4⟩ := C73_count_during_everything h hb hret.2 hc
    refine ⟨_, g4, ?_, rfl⟩
    have : parts.flatMap (·.docs) = [] := List.flatMap_eq_nil_iff.2 (fun q hq' => hnil q (g2 q hq'))
    show ((parts.flatMap (·.docs)).length) = 0
    rw [this]; rfl
  | false =>
    cases hor : r.orderless with
    | true =>
      obtain ⟨parts, timeout, _, g2, _, g4⟩ := C73_orderless_during_everything h hb hret.2 hc hor
      have : parts.flatMap (·.docs) = [] := List.flatMap_eq_nil_iff.2 (fun q hq' => hnil q (g2 q hq'))
      rw [this] at g4
      exact ⟨_, g4, rfl, rfl⟩
    | false =>
      obtain ⟨parts, resp, _, g2, g3, _, R, g4, _, g6, g7, _⟩ := C73_search_during_everything hgs h hb hret.2 hc hor ho hm hnan
      have : parts.flatMap (Part.entries E (Full.start c o db) as r) = [] := List.flatMap_eq_nil_iff.2 (fun q hq' => by
        unfold Part.entries entriesDuring
        rw [hnil q (g2 q hq').toFoundOk]; rfl)
      rw [this] at g4 g7
      rw [List.perm_nil.1 g4] at g6
      refine ⟨resp, g3, g7, ?_⟩
      rw [g6]
      unfold page
      simp


/-- What a request to the HTTP server makes the engine do: a document is added or deleted. -/
def HttpCall (a : Call (Net.DocData F)) : Prop :=
  (∃ docid query time ts, a = Net.httpAdd docid query time ts) ∨ ∃ docid, a = Net.httpDel docid

/-- **C89 is refuted** ... in terms of the HTTP server, started with an empty folder: until a shard was given as many
documents as its cache holds, every search is answered with no documents, whatever was added before. -/
theorem C89_refuted_http_shows_nothing {c : PipeCfg (Net.DocData F)} (hk : c.KeysOk)
    {E : EngCfg (Net.DocData F) F Net.AttriVal} (hso : SortOk E.so) (hgs : GSortOk E.gs) (hid : E.opts.idOnly = false)
    {o : IndexerOpts} {as : List (EAct c.toPipeSize (Net.DocData F) F)} {st : Full c F Net.AttriVal}
    (h : (Full.start c o (fun _ => [])).run E as = some st) (hg : (Full.start c o (fun _ => [])).Gentle E o (fun _ => []) as)
    {f : Nat} (hinit : ∀ t i a, t < f → as[t]? = some (.pipe (.call i a)) → a = .flush)
    (hq : (Full.after E (Full.start c o (fun _ => [])) as f).fine.pipe.Quiet)
    (hhttp : ∀ t i a, f ≤ t → as[t]? = some (.pipe (.call i a)) → HttpCall a)
    {conf : Net.Conf} {query : Str} {offset max : Int} {off m : Nat} (hask : Net.Asks conf offset max off m)
    {k b : Nat} (hb : Began as k b (Net.comReq query off m none {})) (hfb : f ≤ b) (hret : st.Returned k)
    (hnan : ∀ d f, NoNaN (E.opts.defRankOpts.score d f)) (search : SearchReq F → Option (SearchResp F Net.AttriVal))
    (hsearch : search (Net.comReq query off m none {}) = st.response E k) :
    Net.serverSearch E.gs conf search query offset max none {} = some [] := by
  have hs : GentleStart c o (fun _ => []) := by
    intro s
    have hn : c.recovered (fun _ => []) = [] := by
      unfold PipeCfg.recovered
      split <;> simp
    rw [hn]
    exact size_pos o
  have hempty : ∀ d x g, Call.index d x g ∉ (Full.after E (Full.start c o (fun _ => [])) as f).fine.pipe.given (fun _ => []) := by
    intro d x g hm
    unfold Pipe.given at hm
    have hf := after_run h (t := f)
    obtain ⟨bs, hbs, hcall⟩ := after_pipe hf (Nat.zero_le f)
    have hend : Full.after E (Full.start c o (fun _ => [])) (as.take f) f = Full.after E (Full.start c o (fun _ => [])) as f := by
      unfold Full.after; rw [List.take_take, Nat.min_self]
    have hn : c.recovered (fun _ => []) = [] := by
      unfold PipeCfg.recovered
      split <;> simp
    rw [hend] at hbs
    rw [hn, run_calls _ _ _ hbs] at hm
    have h0 : (Full.after E (Full.start c o (fun _ => [])) (as.take f) 0).fine.pipe.calls = [] := rfl
    rw [h0, List.map_nil, List.nil_append, List.nil_append] at hm
    obtain ⟨z, hz, e⟩ := List.mem_map.1 hm
    obtain ⟨v, _, hv⟩ := hcall z hz
    rw [List.getElem?_take] at hv
    split at hv
    · rename_i hlt
      rw [hinit v z.1 z.2 hlt hv] at e
      simp at e
    · simp at hv
  obtain ⟨resp, g1, g2, g3⟩ := C89_refuted_never_found hk hso hgs hs h hg hq hempty (fun v i hv e => by
      rcases hhttp v i _ hv e with ⟨_, _, _, _, e⟩ | ⟨_, e⟩ <;> simp [Net.httpAdd, Net.httpDel] at e)
    hb hfb hret (off := off) (m := m) rfl rfl hnan
  have hlim : Net.limits conf offset max = ((off : Int), (m : Int)) := by
    unfold Net.limits
    rcases hask with ⟨h1, h2, h3⟩ | ⟨h1, h2, h3⟩
    · rw [if_neg h1, h2, h3]
    · rw [if_pos h1, h2, h3]
  unfold Net.serverSearch
  simp only [hlim]
  rw [hsearch, g1]
  unfold Net.serverAnswer Engine.searchDoc
  have hc : (Net.comReq (F := F) query off m none {}).countDocsOnly = false := rfl
  rw [hc, if_neg (by simp)] at g3
  have hsort : E.gs Net.textLess [] = [] := List.perm_nil.1 (hgs.perm _ _)
  simp only [g3, resultDocs, hid, Bool.false_eq_true, if_false, asDocs, Option.bind_eq_bind, Option.bind_some,
    Option.pure_def, List.mapM_nil, Net.sortCut, hsort]
  rw [if_neg]
  simp

/-- **C89 (partial)** If the program that contains the server calls `com.Flush` after the last change and the work is done, a
search that the server forwards (with a limit of at least one) is answered with the texts of the requested page of the ranking of
exactly the documents whose last text has all the words of the query (on every shard that answered in time: all shards unless the
engine's time-out expired), newest first;
the texts and time stamps are those of a version given to that shard. Missing: answers without that Flush (`C89_refuted_http_shows_nothing`). -/
theorem C89_flushed_server_shows_page_partial {c : PipeCfg (Net.DocData F)} {E : EngCfg (Net.DocData F) F Net.AttriVal}
    (htext : FromTexts c E (·.text)) (hso : SortOk E.so) (hgs : GSortOk E.gs) (hid : E.opts.idOnly = false)
    (hinfo : ∀ x, E.info.attri x = x.attri)
    {o : IndexerOpts} {db : Fin c.stores → List (Str × Net.DocData F)} (hs : GentleStart c o db)
    {as : List (EAct c.toPipeSize (Net.DocData F) F)} {st : Full c F Net.AttriVal}
    (h : (Full.start c o db).run E as = some st) (hg : (Full.start c o db).Gentle E o db as)
    {conf : Net.Conf} {query : Str} {offset max : Int} {off m : Nat} (hask : Net.Asks conf offset max off m) (hm1 : 1 ≤ m)
    {docIds : Option (List Str)}
    {k b : Nat} (hb : Began as k b (Net.comReq query off m docIds {})) (hret : st.Returned k)
    (hquiet : (Full.after E (Full.start c o db) as b).fine.pipe.Quiet)
    (hround : ∀ d, d ≠ str "0" → ∃ l, Rounds db d (Full.after E (Full.start c o db) as b).fine.pipe l)
    (hre : ∀ d f x g l1 l2, (Full.after E (Full.start c o db) as b).fine.pipe.given db = l1 ++ Call.remove d f :: l2 →
      Call.index d x g ∉ l2)
    (hattri : ∀ d x g, Call.index d x g ∈ (Full.after E (Full.start c o db) as b).fine.pipe.given db →
      ∃ time ts, x.attri = some (.attri time ts))
    (hno : ∀ t i (a : Call (Net.DocData F)), b ≤ t → as[t]? ≠ some (.pipe (.call i a)))
    (htok : o.indexType = .locs → Engine.tokens E.text E.opts (Net.comReq (F := F) query off m docIds {}) ≠ [])
    (hsc : ∀ d f, E.opts.defRankOpts.score d f ≠ [] ∧ NoNaN (E.opts.defRankOpts.score d f))
    (search : SearchReq F → Option (SearchResp F Net.AttriVal))
    (hsearch : search (Net.comReq query off m docIds {}) = st.response E k) :
    ∃ (lists : List (Fin c.shards × List (ScoredDoc F Net.AttriVal))) (resp : SearchResp F Net.AttriVal)
      (out : List Net.Text) (R : List (ScoredDoc F Net.AttriVal)) (texts : List Net.Text),
      (lists.map (·.1)).Nodup ∧ st.response E k = some resp ∧
      (resp.timeout = false → ∀ s, s ∈ lists.map (·.1)) ∧
      Net.serverSearch E.gs conf search query offset max docIds {} = some out ∧
      R.Perm (lists.flatMap (·.2)) ∧ Ranked false R ∧ List.Forall₂ Net.Shows (page off m R) texts ∧
      out.Perm texts ∧ Net.NewestFirst out ∧
      ∀ p ∈ lists, ((p.2).map (·.scoredID.docId)).Nodup ∧ str "0" ∉ (p.2).map (·.scoredID.docId) ∧
        (∀ d, d ≠ str "0" → (d ∈ (p.2).map (·.scoredID.docId) ↔
          Engine.tokens E.text E.opts (Net.comReq (F := F) query off m docIds {}) ≠ [] ∧ Allowed docIds d ∧
          ∃ x, LatestOn c p.1 ((Full.after E (Full.start c o db) as b).fine.pipe.given db) d x ∧
            ∀ w ∈ Engine.tokens E.text E.opts (Net.comReq (F := F) query off m docIds {}),
              TextHasKey E.text E.opts.toTextOpts x.text w)) ∧
        ∀ e ∈ p.2, ShowsVersion c E ((Full.after E (Full.start c o db) as b).fine.pipe.given db) p.1 e := by
  obtain ⟨lists, resp, g1, g2, g3, ⟨R, r1, r2, r3, r4, r5⟩, g5⟩ := C84_text_search_exact htext hso hgs hs h hg hb hret hquiet
    hround hre hno rfl rfl rfl htok (off := off) (m := m) rfl rfl hsc
  have hshow : ∀ d ∈ page off m R, ∃ t, Net.toText d = some t := by
    intro d hd
    have hdR : d ∈ R := by
      unfold page at hd
      rw [if_neg (by omega)] at hd
      exact List.mem_of_mem_drop (List.mem_of_mem_take hd)
    obtain ⟨p, hp, hdp⟩ := List.mem_flatMap.1 (r1.mem_iff.1 hdR)
    obtain ⟨_, hz, n, avg, df, _, q⟩ := g5 p hp
    obtain ⟨⟨y, g, y1, _, _, y4⟩, _⟩ := (q d.scoredID.docId (fun e => hz (List.mem_map.2 ⟨d, hdp, e⟩))).2 d hdp rfl
    obtain ⟨time, ts, hts⟩ := hattri _ _ _ y1
    refine ⟨{ id := d.scoredID.docId, content := d.content, time := time, ts := ts }, ?_⟩
    unfold Net.toText
    rw [(y4 hid).2, hinfo, hts]
  obtain ⟨texts, ht⟩ := Net.mapM_exists hshow
  have hF : List.Forall₂ Net.Shows (page off m R) texts :=
    (Net.mapM_some_iff.1 ht).imp (fun _ _ h => Net.toText_shows.1 h)
  have hlen : texts.length ≤ m := by
    rw [← hF.length_eq]
    unfold page
    rw [if_neg (by omega)]
    simp
  have hlim : Net.limits conf offset max = ((off : Int), (m : Int)) := by
    unfold Net.limits
    rcases hask with ⟨h1, h2, h3⟩ | ⟨h1, h2, h3⟩
    · rw [if_neg h1, h2, h3]
    · rw [if_pos h1, h2, h3]
  have hl2 : (E.gs Net.textLess texts).length = texts.length := (hgs.perm _ _).length_eq
  refine ⟨lists, resp, E.gs Net.textLess texts, R, texts, g1, g2, g3, ?_, r1, r2, hF, hgs.perm _ _, Net.sort_newestFirst hgs _, ?_⟩
  · unfold Net.serverSearch
    simp only [hlim]
    rw [hsearch, g2]
    unfold Net.serverAnswer Engine.searchDoc
    simp only [r3, resultDocs, hid, Bool.false_eq_true, if_false, asDocs, Option.bind_eq_bind,
      Option.bind_some, Option.pure_def]
    rw [ht, Option.bind_some]
    have hl3 : ¬ ((E.gs Net.textLess texts).length : Int) > m := by omega
    exact if_neg hl3
  · intro p hp
    obtain ⟨q1, q2, n, avg, df, _, q3⟩ := g5 p hp
    refine ⟨q1, q2, fun d h0 => ?_, fun e he => ((q3 _ (fun h0 => q2 (List.mem_map.2 ⟨e, he, h0⟩))).2 e he rfl).1⟩
    have := (q3 d h0).1
    have hl : (Net.comReq (F := F) query off m docIds {}).labels = [] := rfl
    rw [hl, List.append_nil] at this
    exact this

/-- **C81 (partial: an engine that was flushed after its last change, offset and limit fit in 32 bits, a restriction to documents
names at least one, no Logic)** What a user of the repository's gRPC client sees: a search, sent by the client to a gRPC server, is
answered with the texts of the requested page of the ranking of exactly the documents whose last text has all the words of the query
(and that the restriction allows), newest first. Missing: other numbers and an empty restriction (`C81_refuted_large_limit`,
`C81_refuted_empty_restriction`), servers that are not flushed (C89). -/
theorem C81_grpc_client_shows_page_partial {c : PipeCfg (Net.DocData F)} {E : EngCfg (Net.DocData F) F Net.AttriVal}
    (htext : FromTexts c E (·.text)) (hso : SortOk E.so) (hgs : GSortOk E.gs) (hid : E.opts.idOnly = false)
    (hinfo : ∀ x, E.info.attri x = x.attri)
    {o : IndexerOpts} {db : Fin c.stores → List (Str × Net.DocData F)} (hs : GentleStart c o db)
    {as : List (EAct c.toPipeSize (Net.DocData F) F)} {st : Full c F Net.AttriVal}
    (h : (Full.start c o db).run E as = some st) (hg : (Full.start c o db).Gentle E o db as)
    {conf : Net.Conf} {query : Str} {offset max : Int} {off m : Nat} (hask : Net.Asks conf offset max off m) (hm1 : 1 ≤ m)
    {docIds : Option (List Str)} (h1 : -2 ^ 31 ≤ offset ∧ offset < 2 ^ 31) (h2 : -2 ^ 31 ≤ max ∧ max < 2 ^ 31) (h3 : docIds ≠ some [])
    {k b : Nat} (hb : Began as k b (Net.comReq query off m docIds {})) (hret : st.Returned k)
    (hquiet : (Full.after E (Full.start c o db) as b).fine.pipe.Quiet)
    (hround : ∀ d, d ≠ str "0" → ∃ l, Rounds db d (Full.after E (Full.start c o db) as b).fine.pipe l)
    (hre : ∀ d f x g l1 l2, (Full.after E (Full.start c o db) as b).fine.pipe.given db = l1 ++ Call.remove d f :: l2 →
      Call.index d x g ∉ l2)
    (hattri : ∀ d x g, Call.index d x g ∈ (Full.after E (Full.start c o db) as b).fine.pipe.given db →
      ∃ time ts, x.attri = some (.attri time ts))
    (hno : ∀ t i (a : Call (Net.DocData F)), b ≤ t → as[t]? ≠ some (.pipe (.call i a)))
    (htok : o.indexType = .locs → Engine.tokens E.text E.opts (Net.comReq (F := F) query off m docIds {}) ≠ [])
    (hsc : ∀ d f, E.opts.defRankOpts.score d f ≠ [] ∧ NoNaN (E.opts.defRankOpts.score d f))
    (search : SearchReq F → Option (SearchResp F Net.AttriVal))
    (hsearch : search (Net.comReq query off m docIds {}) = st.response E k) :
    ∃ (lists : List (Fin c.shards × List (ScoredDoc F Net.AttriVal))) (resp : SearchResp F Net.AttriVal)
      (out : List Net.Text) (R : List (ScoredDoc F Net.AttriVal)) (texts : List Net.Text),
      (lists.map (·.1)).Nodup ∧ st.response E k = some resp ∧
      (resp.timeout = false → ∀ s, s ∈ lists.map (·.1)) ∧
      Net.grpcServerSearch E.gs conf search (Net.clientSearch query offset max docIds {}) = some out ∧
      R.Perm (lists.flatMap (·.2)) ∧ Ranked false R ∧ List.Forall₂ Net.Shows (page off m R) texts ∧
      out.Perm texts ∧ Net.NewestFirst out ∧
      ∀ p ∈ lists, ((p.2).map (·.scoredID.docId)).Nodup ∧ str "0" ∉ (p.2).map (·.scoredID.docId) ∧
        (∀ d, d ≠ str "0" → (d ∈ (p.2).map (·.scoredID.docId) ↔
          Engine.tokens E.text E.opts (Net.comReq (F := F) query off m docIds {}) ≠ [] ∧ Allowed docIds d ∧
          ∃ x, LatestOn c p.1 ((Full.after E (Full.start c o db) as b).fine.pipe.given db) d x ∧
            ∀ w ∈ Engine.tokens E.text E.opts (Net.comReq (F := F) query off m docIds {}),
              TextHasKey E.text E.opts.toTextOpts x.text w)) ∧
        ∀ e ∈ p.2, ShowsVersion c E ((Full.after E (Full.start c o db) as b).fine.pipe.given db) p.1 e := by
  rw [Net.C81_client_search_partial E.gs conf search query offset max docIds {} h1 h2 h3]
  exact C89_flushed_server_shows_page_partial htext hso hgs hid hinfo hs h hg hask hm1 hb hret hquiet hround hre hattri hno htok hsc
    search hsearch

/-! ## Examples -/

/-- An engine with two shards behind an HTTP server. -/
def webEngine : PipeCfg (Net.DocData Nat) where
  clients := 2
  gse := 1
  shards := 2
  stores := 1
  segCap := 2
  idxCap := 2
  rankCap := 2
  useStore := false
  docOf := fun id x => docOf demoEnv (demoEng false).opts.toTextOpts id x.text
  route := fun _ x => ⟨x.text.content.length % 2, Nat.mod_lt _ (by decide)⟩
  storeRoute := fun _ => ⟨0, by decide⟩
  encodes := fun _ => true
  emptyData := { text := {} }

def webEng : EngCfg (Net.DocData Nat) Nat Net.AttriVal where
  so := insSort
  gs := insGSort
  log2 := fun x => x
  text := demoEnv
  opts := { notUseGse := true, idOnly := false, defRankOpts := { score := fun d _ => [.fin d.bm25] } }
  info := { fields := fun d => d.fields, content := fun d => d.text.content, attri := fun d => d.attri }
  lookupThreads := 2
  rankThreads := 2

def webStart : Full webEngine Nat Net.AttriVal := Full.start webEngine (smallOpts .docIds 10) (fun _ => [])
def webUser : Fin webEngine.clients := ⟨0, by decide⟩

/-- Three requests to the server. -/
def webX : Call (Net.DocData Nat) := Net.httpAdd (some (str "X")) (some (str "red house")) (str "now") 7
def webY : Call (Net.DocData Nat) := Net.httpAdd (some (str "Y")) (some (str "big red car")) (str "now") 8
def webZ : Call (Net.DocData Nat) := Net.httpAdd (some (str "Z")) (some (str "house of red")) (str "now") 9

/-- A search for two words with limit 5. -/
def webReq : SearchReq Nat := Net.comReq (str "red house") (0 : Nat) (5 : Nat) none {}

/-- `InitEngine`: the engine starts and is flushed. -/
def webInit : List (EAct webEngine.toPipeSize (Net.DocData Nat) Nat) := webStart.script webEng
  [.inr (engineCands _), .inl (.pipe (.call webUser .flush)), .inr (engineCands _)]
def webReady : Full webEngine Nat Net.AttriVal := (webStart.run webEng webInit).getD webStart

def webAdds : List (EAct webEngine.toPipeSize (Net.DocData Nat) Nat) := webReady.script webEng
  [.inl (.pipe (.call webUser webX)), .inr (engineCands _), .inl (.pipe (.call webUser webY)), .inr (engineCands _),
   .inl (.pipe (.call webUser webZ)), .inr (engineCands _)]
def webAdded : Full webEngine Nat Net.AttriVal := (webReady.run webEng webAdds).getD webReady
def webSearch (st : Full webEngine Nat Net.AttriVal) : List (EAct webEngine.toPipeSize (Net.DocData Nat) Nat) :=
  .start webReq :: ((st.step webEng (.start webReq)).getD st).greedy webEng (searchCands _ 1) 300

/-- The server is started, three documents are added, all work is done, then a search. -/
def webRun : List (EAct webEngine.toPipeSize (Net.DocData Nat) Nat) := webInit ++ (webAdds ++ webSearch webAdded)

def Call.isHttp : Call (Net.DocData Nat) → Bool
  | a => decide (a = webX ∨ a = webY ∨ a = webZ)

/-- The hypotheses of `C89_refuted_never_found` and `C89_refuted_http_shows_nothing` hold: nothing is shown. -/
example : ∃ st f b, webStart.run webEng webRun = some st ∧
    webStart.Gentle webEng (smallOpts .docIds 10) (fun _ => []) webRun ∧ f ≤ b ∧
    (∀ t i a, t < f → webRun[t]? = some (.pipe (.call i a)) → a = .flush) ∧
    (Full.after webEng webStart webRun f).fine.pipe.Quiet ∧
    (Full.after webEng webStart webRun b).fine.pipe.Quiet ∧
    (∀ t i a, f ≤ t → webRun[t]? = some (.pipe (.call i a)) → HttpCall a) ∧
    (∃ t i, f ≤ t ∧ t < b ∧ webRun[t]? = some (.pipe (.call i webX))) ∧
    Net.Asks {} 0 5 0 5 ∧ Began webRun 0 b webReq ∧ st.Returned 0 ∧
    Net.serverSearch webEng.gs {} (fun _ => st.response webEng 0) (str "red house") 0 5 none {} = some [] := by
  have h : (webStart.gentleRun webEng (smallOpts .docIds 10) (fun _ => []) webRun).any (fun st =>
    decide (0 < st.searches.length) && decide ((st.got 0).length = webEngine.shards) &&
    decide (Net.serverSearch webEng.gs {} (fun _ => st.response webEng 0) (str "red house") 0 5 none {} = some [])) = true := by
    decide +kernel
  have hl : (webStart.run webEng webInit).isSome = true := by decide +kernel
  have hf : (webReady.run webEng webAdds).isSome = true := by decide +kernel
  have hq1 : webReady.fine.pipe.quietB = true := by decide +kernel
  have hq2 : webAdded.fine.pipe.quietB = true := by decide +kernel
  have hb : ((webInit ++ webAdds).filter EAct.isStart).length = 0 := by decide +kernel
  have hc1 : webInit.all (fun a => a.call?.all Call.isFlush) = true := by decide +kernel
  have hc2 : (webAdds ++ webSearch webAdded).all (fun a => a.call?.all Call.isHttp) = true := by decide +kernel
  have hx : ∃ i, webAdds[0]? = some (.pipe (.call i webX)) := by
    have h0 : (webAdds[0]?.bind EAct.call?) = some webX := by decide +kernel
    obtain ⟨a, h1, h2⟩ := Option.bind_eq_some_iff.1 h0
    cases a with
    | pipe x =>
      cases x with
      | call i y =>
        simp only [EAct.call?, Option.some.injEq] at h2
        exact ⟨i, by rw [h1, h2]⟩
      | _ => simp [EAct.call?] at h2
    | _ => simp [EAct.call?] at h2
  obtain ⟨i0, hx⟩ := hx
  have rl : webStart.run webEng webInit = some webReady := by
    obtain ⟨x, hx⟩ := Option.isSome_iff_exists.1 hl
    rw [webReady, hx, Option.getD_some]
  have rf : webReady.run webEng webAdds = some webAdded := by
    obtain ⟨x, hx⟩ := Option.isSome_iff_exists.1 hf
    rw [webAdded, hx, Option.getD_some]
  have a1 : Full.after webEng webStart webRun webInit.length = webReady := by
    unfold Full.after
    rw [webRun, List.take_left, rl]; rfl
  have a2 : Full.after webEng webStart webRun (webInit ++ webAdds).length = webAdded := by
    unfold Full.after
    rw [webRun, ← List.append_assoc, List.take_left, full_run_append, rl, Option.bind_some, rf]; rfl
  obtain ⟨st, h1, h2⟩ := (Option.any_eq_true _ _).1 h
  simp only [Bool.and_eq_true, decide_eq_true_eq] at h2
  obtain ⟨g1, g2⟩ := full_gentleRun_spec _ h1
  refine ⟨st, webInit.length, (webInit ++ webAdds).length, g1, g2, by rw [List.length_append]; omega, ?_,
    by rw [a1]; exact quiet_of_B hq1, by rw [a2]; exact quiet_of_B hq2, ?_, ⟨webInit.length, i0, Nat.le_refl _, ?_, ?_⟩,
    .inl ⟨by decide, rfl, rfl⟩, ⟨?_, ?_⟩, ⟨h2.1.1, h2.1.2⟩, h2.2⟩
  · intro t i a ht e
    rw [webRun, List.getElem?_append_left ht] at e
    have := List.all_eq_true.1 hc1 _ (List.mem_of_getElem? e)
    simp only [EAct.call?, Option.all_some] at this
    cases a <;> simp_all [Call.isFlush]
  · intro t i a ht e
    rw [webRun, List.getElem?_append_right ht] at e
    have := List.all_eq_true.1 hc2 _ (List.mem_of_getElem? e)
    simp only [EAct.call?, Option.all_some, Call.isHttp, decide_eq_true_eq] at this
    rcases this with rfl | rfl | rfl
    · exact .inl ⟨_, _, _, _, rfl⟩
    · exact .inl ⟨_, _, _, _, rfl⟩
    · exact .inl ⟨_, _, _, _, rfl⟩
  · rw [List.length_append]
    have := (List.getElem?_eq_some_iff.1 hx).1
    omega
  · rw [webRun, List.getElem?_append_right (Nat.le_refl _), Nat.sub_self,
      List.getElem?_append_left (List.getElem?_eq_some_iff.1 hx).1]
    exact hx
  · rw [webRun, ← List.append_assoc, List.getElem?_append_right (Nat.le_refl _), Nat.sub_self]; rfl
  · rw [webRun, ← List.append_assoc, List.take_left]; exact hb

/-- The same documents, then `com.Flush`, then the search. -/
def webLoad : List (EAct webEngine.toPipeSize (Net.DocData Nat) Nat) := webStart.script webEng
  [.inr (engineCands _), .inl (.pipe (.call webUser webX)), .inr (engineCands _), .inl (.pipe (.call webUser webY)),
   .inr (engineCands _), .inl (.pipe (.call webUser webZ)), .inr (engineCands _)]
def webLoaded : Full webEngine Nat Net.AttriVal := (webStart.run webEng webLoad).getD webStart
def webTail : List (EAct webEngine.toPipeSize (Net.DocData Nat) Nat) :=
  ((webLoaded.step webEng (.pipe (.call webUser .flush))).getD webLoaded).greedy webEng (engineCands _) 300
def webFlush : List (EAct webEngine.toPipeSize (Net.DocData Nat) Nat) := .pipe (.call webUser .flush) :: webTail
def webFlushed : Full webEngine Nat Net.AttriVal := (webLoaded.run webEng webFlush).getD webLoaded
def webRun2 : List (EAct webEngine.toPipeSize (Net.DocData Nat) Nat) := webLoad ++ webFlush ++ webSearch webFlushed

/-- What the server shows. -/
def webAnswer : List Net.Text :=
  [{ id := str "Z", content := str "house of red", time := str "now", ts := 9 },
   { id := str "X", content := str "red house", time := str "now", ts := 7 }]

/-- The hypotheses of `C89_flushed_server_shows_page_partial` and `C81_grpc_client_shows_page_partial` hold; the two documents
with both words are shown. -/
theorem web_flushed : ∃ st b, FromTexts webEngine webEng (·.text) ∧ webStart.run webEng webRun2 = some st ∧
    webStart.Gentle webEng (smallOpts .docIds 10) (fun _ => []) webRun2 ∧
    GentleStart webEngine (smallOpts .docIds 10) (fun _ => []) ∧
    Began webRun2 0 b webReq ∧ st.Returned 0 ∧ (Full.after webEng webStart webRun2 b).fine.pipe.Quiet ∧
    (∀ d, d ≠ str "0" → ∃ l, Rounds (fun _ => []) d (Full.after webEng webStart webRun2 b).fine.pipe l) ∧
    (∀ d f x g l1 l2, (Full.after webEng webStart webRun2 b).fine.pipe.given (fun _ => []) =
      l1 ++ Call.remove d f :: l2 → Call.index d x g ∉ l2) ∧
    (∀ t i (a : Call (Net.DocData Nat)), b ≤ t → webRun2[t]? ≠ some (.pipe (.call i a))) ∧
    (∀ d x g, Call.index d x g ∈ (Full.after webEng webStart webRun2 b).fine.pipe.given (fun _ => []) →
      ∃ time ts, x.attri = some (.attri time ts)) ∧ (∀ resp, st.response webEng 0 = some resp → resp.timeout = false) ∧
    (Net.serverSearch webEng.gs {} (fun _ => st.response webEng 0) (str "red house") 0 5 none {}) = some webAnswer ∧
    (Net.grpcServerSearch webEng.gs {} (fun _ => st.response webEng 0) (Net.clientSearch (str "red house") 0 5 none {})) = some webAnswer := by
  have h : (webStart.gentleRun webEng (smallOpts .docIds 10) (fun _ => []) webRun2).any (fun st =>
    decide (0 < st.searches.length) && decide ((st.got 0).length = webEngine.shards) &&
    (st.response webEng 0).all (fun r => !r.timeout) &&
    decide ((Net.serverSearch webEng.gs {} (fun _ => st.response webEng 0) (str "red house") 0 5 none {}) = some webAnswer)) = true := by
    decide +kernel
  have hb : ((webLoad ++ webFlush).filter EAct.isStart).length = 0 := by decide +kernel
  have hl : (webStart.run webEng webLoad).isSome = true := by decide +kernel
  have hf : (webLoaded.run webEng webFlush).isSome = true := by decide +kernel
  have hidle : (decide (∀ i, webLoaded.fine.pipe.prog (.client i) = [])) = true := by decide +kernel
  have hcl1 : (webEngine.recovered (fun _ => [])).map (fun x => Call.index x.1 x.2 false) ++
      webLoaded.fine.pipe.calls.map (·.2) = [webX, webY, webZ] := by
    decide +kernel
  have hcl2 : (webFlushed.fine.pipe.given (fun _ => [])).all (fun a => a.indexed.isSome || a.isFlush) = true := by
    decide +kernel
  have hcl3 : (webFlushed.fine.pipe.given (fun _ => [])).all (fun a => decide (a = webX ∨ a = webY ∨ a = webZ ∨ a = .flush)) = true := by
    decide +kernel
  have hxy : str "X" ≠ str "Y" ∧ str "X" ≠ str "Z" ∧ str "Y" ≠ str "Z" := by decide +kernel
  have htail : webTail.all (fun a => a.call?.isNone) = true := by decide +kernel
  have hdone : webFlushed.fine.pipe.prog (.client webUser) = [] := by decide +kernel
  have hq : webFlushed.fine.pipe.quietB = true := by decide +kernel
  have hno : (webSearch webFlushed).all (fun a => a.call?.isNone) = true := by decide +kernel
  have rl : webStart.run webEng webLoad = some webLoaded := by
    obtain ⟨x, hx⟩ := Option.isSome_iff_exists.1 hl
    rw [webLoaded, hx, Option.getD_some]
  have rf : webLoaded.run webEng webFlush = some webFlushed := by
    obtain ⟨x, hx⟩ := Option.isSome_iff_exists.1 hf
    rw [webFlushed, hx, Option.getD_some]
  have hst : (webSearch webFlushed)[0]? = some (.start webReq) := rfl
  obtain ⟨b, k1, k2, k3, k4, k5, k6⟩ := late_hyps (E := webEng) (tail := webTail) (rest := webSearch webFlushed)
    (fun _ _ => rfl) rl rf (of_decide_eq_true hidle) htail hdone (quiet_of_B hq) hcl1 hxy hcl2 hb hst hno
    (as := webRun2) rfl
  obtain ⟨st, h1, h2⟩ := (Option.any_eq_true _ _).1 h
  simp only [Bool.and_eq_true, decide_eq_true_eq] at h2
  obtain ⟨g1, g2⟩ := full_gentleRun_spec _ h1
  refine ⟨st, b, fun id x => docOf_isDocIndexOf _ _ _ _, g1, g2, ?_, k1, ⟨h2.1.1.1, h2.1.1.2⟩, k2, k3, k4, k5, ?_, ?_, h2.2, h2.2⟩
  rotate_left
  · intro d x g hm
    have k7 : Full.after webEng webStart webRun2 b = webFlushed := k6
    rw [k7] at hm
    have := List.all_eq_true.1 hcl3 _ hm
    simp only [decide_eq_true_eq, webX, webY, webZ, Net.httpAdd, Call.index.injEq, reduceCtorEq, or_false] at this
    rcases this with ⟨_, rfl, _⟩ | ⟨_, rfl, _⟩ | ⟨_, rfl, _⟩ <;> exact ⟨_, _, rfl⟩
  · intro resp hr
    have := h2.1.2
    rw [hr] at this
    simpa using this
  intro s
  have : webEngine.recovered (fun _ => []) = [] := by decide +kernel
  rw [this]; simp only [List.map_nil, List.countP_nil]; decide +kernel

end Riot
