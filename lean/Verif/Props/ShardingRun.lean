import Verif.Props.Criteria
import Verif.Props.Sharding
import Verif.Props.Collection

/-!
# C104, C109: which engine, which schedule — it does not show
-/

namespace Riot

variable {D F A : Type}

section
variable {c : PipeCfg D} {E : EngCfg D F A} {textOf : D → DocText} {o : IndexerOpts} {db : Fin c.stores → List (Str × D)}
  {as : List (EAct c.toPipeSize D F)} {st : Full c F A} {k : Nat} {r : SearchReq F} {docs : List (Str × D)}

/-- **C105** (logic requests) ... the same for requests with Must, Should and NotIn; nothing is per shard. -/
theorem C105_whole_logic (hs : SearchedCollection c E textOf o db as st k r docs)
    (hc : r.countDocsOnly = false) (hor : r.orderless = false) (hto : r.timeout ≤ 0)
    (hlogic : r.logic ≠ {}) (hasks : r.logic.Asks (Engine.tokens E.text E.opts r ++ r.labels)) {off m : Nat}
    (ho : (wantedRank E.opts r).outputOffset = off) (hm : (wantedRank E.opts r).maxOutputs = m)
    (hnan : ∀ d f, NoNaN ((wantedRank E.opts r).score d f)) :
    ∃ resp : SearchResp F A, st.response E k = some resp ∧ resp.timeout = false ∧
      IsPageOf E.opts.idOnly (wantedRank E.opts r).reverseOrder (Engine.tokens E.text E.opts r) off m
        ((askedFor E textOf r (docs.filter (fun y => y.1 ≠ str "0"))).filterMap (fun y => E.resultFor r { docId := y.1 } y.2)) resp := by
  obtain ⟨b, f, i, h1, h2, h3, h4, h5, h6, h7⟩ := hs.searched
  obtain ⟨lists, resp, g1, g2, g3, g4, g5⟩ := C105_logic hs.texts hs.sorts hs.gsorts hs.fits hs.runs hs.gentle h1 hs.returned h2 h3 h4 h5 h6 hc hor
    hlogic hasks h7 ho hm hnan
  have ht := C73_no_timeout hs.runs h1 hto g2
  have hall := g3 ht
  refine ⟨resp, g2, ht, isPageOf_perm ?_ g4⟩
  refine List.Perm.trans ?_ (divide_shards (List.Nodup.of_map _ h7.distinct) g1 hall r (fun _ y => E.resultFor r { docId := y.1 } y.2))
  rw [List.flatMap_map]
  exact List.Perm.flatMap_left _ (fun p hp => g5 p hp)

end

theorem textStats_perm {env : TextEnv} {e : TextOpts} {textOf : D → DocText} {l l' : List (Str × D)} (hp : l.Perm l') {n n' avg avg' : Rat}
    {df df' : Str → Nat} (h : TextStats env e textOf l n avg df) (h' : TextStats env e textOf l' n' avg' df') :
    n = n' ∧ avg = avg' ∧ df = df' := by
  obtain ⟨a1, a2, a3⟩ := h
  obtain ⟨b1, b2, b3⟩ := h'
  refine ⟨by rw [a1, b1, hp.length_eq], ?_, funext fun k => ?_⟩
  · rw [a2, b2, hp.length_eq, (hp.map _).sum_eq]
  · rw [a3, b3]; exact (hp.filter _).length_eq

theorem sameDoc_of {env : TextEnv} {e : TextOpts} {id : Str} {t : DocText} {a b : DocIndex} (ha : IsDocIndexOf env e id t a)
    (hb : IsDocIndexOf env e id t b) : SameDoc a b :=
  ⟨ha.id.trans hb.id.symm, ha.tokenLen.trans hb.tokenLen.symm, ha.keywords.trans hb.keywords.symm⟩

theorem expectedDoc_same {log2 : Rat → Rat} {o o' : IndexerOpts} (hit : o.indexType = o'.indexType) (hbm : o.bm25 = o'.bm25) {n avg : Rat}
    {df : Str → Nat} {tokens : List Str} {a b : DocIndex} (h : SameDoc a b) (hn : (a.keywords.map (·.text)).Nodup) :
    expectedDoc log2 o n avg df tokens a = expectedDoc log2 o' n avg df tokens b := by
  have hs : a.startsOf = b.startsOf := funext (startsOf_same h hn)
  have hf : a.freqOf = b.freqOf := by
    funext k
    simp only [DocIndex.freqOf, find_perm h.2.2 hn]
  have ht : a.tfOf o'.indexType = b.tfOf o'.indexType := by
    funext k
    simp only [DocIndex.tfOf, hs, hf]
  unfold expectedDoc
  simp only [ht, hs, hbm, h.1, h.2.1, hit]

theorem askedFor_perm {E : EngCfg D F A} {textOf : D → DocText} {r : SearchReq F} {l l' : List (Str × D)} (h : l.Perm l') :
    (askedFor E textOf r l).Perm (askedFor E textOf r l') := h.filter _

/-- Two engines are asked the same in the same setting. -/
structure SameSetting (E E' : EngCfg D F A) : Prop where
  text : E'.text = E.text
  opts : E'.opts = E.opts
  info : E'.info = E.info

section
variable {c c' : PipeCfg D} {E E' : EngCfg D F A} {textOf : D → DocText} {o o' : IndexerOpts} {db : Fin c.stores → List (Str × D)}
  {db' : Fin c'.stores → List (Str × D)} {as : List (EAct c.toPipeSize D F)} {as' : List (EAct c'.toPipeSize D F)} {st : Full c F A}
  {st' : Full c' F A} {k k' : Nat} {r : SearchReq F} {docs docs' : List (Str × D)}

theorem resultFor_setting (hE : SameSetting E E') (r : SearchReq F) (doc : IndexedDoc) (x : D) : E'.resultFor r doc x = E.resultFor r doc x := by
  simp only [EngCfg.resultFor, EngCfg.knows, hE.opts, hE.info]

theorem askedFor_setting (hE : SameSetting E E') (r : SearchReq F) (l : List (Str × D)) : askedFor E' textOf r l = askedFor E textOf r l := by
  classical
  simp only [askedFor, hE.opts, hE.text]

/-- **C104** (running engines) The same collection was indexed and flushed on two engines, with any numbers of shards and any routing, in any order,
under any schedules. A search without a time-out whose criteria do not use the BM25 value gets the same answer from both: the same number of documents and
the same score vectors at the same places; and the same documents with the same data, if no two results have the same score vector. -/
theorem C104_engines (hs : SearchedCollection c E textOf o db as st k r docs) (hs' : SearchedCollection c' E' textOf o' db' as' st' k' r docs')
    (hE : SameSetting E E') (hd : docs.Perm docs') (hit : o.indexType = o'.indexType) (hsc : NoBM25 (wantedRank E.opts r).score)
    (hc : r.countDocsOnly = false) (hor : r.orderless = false) (hto : r.timeout ≤ 0)
    (hasks : r.logic.Asks (Engine.tokens E.text E.opts r ++ r.labels))
    (htok : r.logic = {} → o.indexType = .locs → E.tokens r ≠ []) {off m : Nat}
    (ho : (wantedRank E.opts r).outputOffset = off) (hm : (wantedRank E.opts r).maxOutputs = m)
    (hnan : ∀ d f, NoNaN ((wantedRank E.opts r).score d f)) :
    ∃ (all : List (ScoredDoc F A)) (x x' : SearchResp F A), st.response E k = some x ∧ st'.response E' k' = some x' ∧
      IsPageOf E.opts.idOnly (wantedRank E.opts r).reverseOrder (Engine.tokens E.text E.opts r) off m all x ∧
      x.numDocs = x'.numDocs ∧ x.tokens = x'.tokens ∧ x.timeout = false ∧ x'.timeout = false ∧
      x.docs.map RankOut.scores = x'.docs.map RankOut.scores ∧
      ((all.map (fun y => scoreKey y.scoredID.scores)).Nodup → x.docs = x'.docs) := by
  have hask : (askedFor E textOf r (docs.filter (fun y => y.1 ≠ str "0"))).Perm (askedFor E textOf r (docs'.filter (fun y => y.1 ≠ str "0"))) :=
    askedFor_perm (hd.filter _)
  by_cases hl : r.logic = {}
  · have hkw : Engine.tokens E.text E.opts r ++ r.labels ≠ [] := by
      obtain ⟨_, hk⟩ := hasks
      rcases hk with ⟨M, hM, hne⟩ | ⟨hM, _⟩
      · rw [hl] at hM
        simp only [mustOf, if_true, Option.some.injEq] at hM
        rw [hM]; exact hne
      · rw [hl] at hM; simp [mustOf] at hM
    obtain ⟨b, f, i, h1, h2, h3, h4, h5, h6, h7⟩ := hs.searched
    obtain ⟨b', f', i', h1', h2', h3', h4', h5', h6', h7'⟩ := hs'.searched
    have hw' : wantedRank E'.opts r = wantedRank E.opts r := by rw [hE.opts]
    have ht' : Engine.tokens E'.text E'.opts r = Engine.tokens E.text E.opts r := by rw [hE.opts, hE.text]
    obtain ⟨n, avg, df, x, _, x1, x2, x3⟩ := C105_whole hs.texts hs.sorts hs.gsorts hs.fits hs.runs hs.gentle h1 hs.returned h2 h3 h4 h5 h6 hc hor hto
      hl hkw (htok hl) h7 ho hm hnan
    obtain ⟨n', avg', df', x', _, y1, y2, y3⟩ := C105_whole hs'.texts hs'.sorts hs'.gsorts hs'.fits hs'.runs hs'.gentle h1' hs'.returned h2' h3' h4' h5'
      h6' hc hor hto hl (by rw [ht']; exact hkw) (fun hh => by have := htok hl (hit.trans hh); simpa [EngCfg.tokens, hE.text, hE.opts] using this)
      h7' (off := off) (m := m) (by rw [hw']; exact ho) (by rw [hw']; exact hm) (by rw [hw']; exact hnan)
    rw [hw', ht', hE.opts, askedFor_setting hE] at y3
    have hres : ∀ y : Str × D, E'.resultFor r (expectedDoc E'.log2 o'.init (n' (c'.route y.1 y.2)) (avg' (c'.route y.1 y.2)) (df' (c'.route y.1 y.2))
        (Engine.tokens E.text E.opts r) (c'.docOf y.1 y.2)) y.2 =
        E.resultFor r (expectedDoc E.log2 o.init (n (c.route y.1 y.2)) (avg (c.route y.1 y.2)) (df (c.route y.1 y.2))
        (Engine.tokens E.text E.opts r) (c.docOf y.1 y.2)) y.2 := by
      intro y
      rw [resultFor_setting hE]
      have hfe : ∀ (p q : IndexedDoc), { p with bm25 := 0 } = ({ q with bm25 := 0 } : IndexedDoc) → E.resultFor r p y.2 = E.resultFor r q y.2 := by
        intro p q hpq
        have e0 := hsc p (E.info.fields y.2) 0
        have e1 := hsc q (E.info.fields y.2) 0
        rw [hpq, e1] at e0
        simp only [IndexedDoc.mk.injEq] at hpq
        simp only [EngCfg.resultFor, e0, hpq]
      apply hfe
      rw [found_entry, found_entry, o.init_it.1, o'.init_it.1, hit]
      refine foundEntry_same (sameDoc_of (id := y.1) (t := textOf y.2) ?_ (hs.texts y.1 y.2)) (hs'.texts.keysOk y.1 y.2)
      have := hs'.texts y.1 y.2
      rwa [hE.text, hE.opts] at this
    have hperm : ((askedFor E textOf r (docs.filter (fun y => y.1 ≠ str "0"))).filterMap (fun y => E.resultFor r
          (expectedDoc E.log2 o.init (n (c.route y.1 y.2)) (avg (c.route y.1 y.2)) (df (c.route y.1 y.2))
            (Engine.tokens E.text E.opts r) (c.docOf y.1 y.2)) y.2)).Perm
        ((askedFor E textOf r (docs'.filter (fun y => y.1 ≠ str "0"))).filterMap (fun y => E'.resultFor r
          (expectedDoc E'.log2 o'.init (n' (c'.route y.1 y.2)) (avg' (c'.route y.1 y.2)) (df' (c'.route y.1 y.2))
            (Engine.tokens E.text E.opts r) (c'.docOf y.1 y.2)) y.2)) := by
      simp only [hres]
      exact hask.filterMap _
    obtain ⟨q1, q2, q3, q4⟩ := page_scores hperm x3 y3
    exact ⟨_, x, x', x1, y1, x3, q1, q2, x2, y2, q3, q4⟩
  · have hw' : wantedRank E'.opts r = wantedRank E.opts r := by rw [hE.opts]
    have ht' : Engine.tokens E'.text E'.opts r = Engine.tokens E.text E.opts r := by rw [hE.opts, hE.text]
    obtain ⟨x, x1, x2, x3⟩ := C105_whole_logic hs hc hor hto hl hasks ho hm hnan
    obtain ⟨x', y1, y2, y3⟩ := C105_whole_logic hs' hc hor hto hl (by rw [ht']; exact hasks) (off := off) (m := m) (by rw [hw']; exact ho)
      (by rw [hw']; exact hm) (by rw [hw']; exact hnan)
    rw [hw', ht', hE.opts, askedFor_setting hE] at y3
    simp only [resultFor_setting hE] at y3
    obtain ⟨q1, q2, q3, q4⟩ := page_scores (hask.filterMap _) x3 y3
    exact ⟨_, x, x', x1, y1, x3, q1, q2, x2, y2, q3, q4⟩

/-- **C109** The same collection was indexed and flushed on two engines that put the same documents together on a shard and compute logarithms and BM25 in the same
way; in any order, by any clients, with any numbers of threads, channel and cache sizes, under any schedules. Every search without a time-out
gets the same answer from both: the same number of documents and the same score vectors at the same places; and the same documents with the same data, if no two
results have the same score vector. -/
theorem C109_only_the_collection (hs : SearchedCollection c E textOf o db as st k r docs)
    (hs' : SearchedCollection c' E' textOf o' db' as' st' k' r docs')
    (hE : SameSetting E E') (hlog : E'.log2 = E.log2) (hd : docs.Perm docs') (hit : o.indexType = o'.indexType) (hbm : o.bm25 = o'.bm25)
    (hroute : ∀ y z : Str × D, c.route y.1 y.2 = c.route z.1 z.2 ↔ c'.route y.1 y.2 = c'.route z.1 z.2)
    (hc : r.countDocsOnly = false) (hor : r.orderless = false) (hto : r.timeout ≤ 0)
    (hasks : r.logic.Asks (Engine.tokens E.text E.opts r ++ r.labels))
    (htok : r.logic = {} → o.indexType = .locs → E.tokens r ≠ []) {off m : Nat}
    (ho : (wantedRank E.opts r).outputOffset = off) (hm : (wantedRank E.opts r).maxOutputs = m)
    (hnan : ∀ d f, NoNaN ((wantedRank E.opts r).score d f)) :
    ∃ (all : List (ScoredDoc F A)) (x x' : SearchResp F A), st.response E k = some x ∧ st'.response E' k' = some x' ∧
      IsPageOf E.opts.idOnly (wantedRank E.opts r).reverseOrder (Engine.tokens E.text E.opts r) off m all x ∧
      x.numDocs = x'.numDocs ∧ x.tokens = x'.tokens ∧ x.timeout = false ∧ x'.timeout = false ∧
      x.docs.map RankOut.scores = x'.docs.map RankOut.scores ∧
      ((all.map (fun y => scoreKey y.scoredID.scores)).Nodup → x.docs = x'.docs) := by
  have hask : (askedFor E textOf r (docs.filter (fun y => y.1 ≠ str "0"))).Perm (askedFor E textOf r (docs'.filter (fun y => y.1 ≠ str "0"))) :=
    askedFor_perm (hd.filter _)
  by_cases hl : r.logic = {}
  · have hkw : Engine.tokens E.text E.opts r ++ r.labels ≠ [] := by
      obtain ⟨_, hk⟩ := hasks
      rcases hk with ⟨M, hM, hne⟩ | ⟨hM, _⟩
      · rw [hl] at hM
        simp only [mustOf, if_true, Option.some.injEq] at hM
        rw [hM]; exact hne
      · rw [hl] at hM; simp [mustOf] at hM
    obtain ⟨b, f, i, h1, h2, h3, h4, h5, h6, h7⟩ := hs.searched
    obtain ⟨b', f', i', h1', h2', h3', h4', h5', h6', h7'⟩ := hs'.searched
    have hw' : wantedRank E'.opts r = wantedRank E.opts r := by rw [hE.opts]
    have ht' : Engine.tokens E'.text E'.opts r = Engine.tokens E.text E.opts r := by rw [hE.opts, hE.text]
    obtain ⟨n, avg, df, x, x0, x1, x2, x3⟩ := C105_whole hs.texts hs.sorts hs.gsorts hs.fits hs.runs hs.gentle h1 hs.returned h2 h3 h4 h5 h6 hc hor hto
      hl hkw (htok hl) h7 ho hm hnan
    obtain ⟨n', avg', df', x', y0, y1, y2, y3⟩ := C105_whole hs'.texts hs'.sorts hs'.gsorts hs'.fits hs'.runs hs'.gentle h1' hs'.returned h2' h3' h4' h5'
      h6' hc hor hto hl (by rw [ht']; exact hkw) (fun hh => by have := htok hl (hit.trans hh); simpa [EngCfg.tokens, hE.text, hE.opts] using this)
      h7' (off := off) (m := m) (by rw [hw']; exact ho) (by rw [hw']; exact hm) (by rw [hw']; exact hnan)
    rw [hw', ht', hE.opts, askedFor_setting hE] at y3
    rw [hE.text, hE.opts] at y0
    have hres : ∀ y : Str × D, E'.resultFor r (expectedDoc E'.log2 o'.init (n' (c'.route y.1 y.2)) (avg' (c'.route y.1 y.2)) (df' (c'.route y.1 y.2))
        (Engine.tokens E.text E.opts r) (c'.docOf y.1 y.2)) y.2 =
        E.resultFor r (expectedDoc E.log2 o.init (n (c.route y.1 y.2)) (avg (c.route y.1 y.2)) (df (c.route y.1 y.2))
        (Engine.tokens E.text E.opts r) (c.docOf y.1 y.2)) y.2 := by
      intro y
      have hsh : (onShard c (c.route y.1 y.2) docs).Perm (onShard c' (c'.route y.1 y.2) docs') := by
        classical
        have : onShard c (c.route y.1 y.2) docs = onShard c' (c'.route y.1 y.2) docs := by
          unfold onShard
          refine List.filter_congr (fun z _ => ?_)
          rw [Bool.eq_iff_iff]
          simp only [decide_eq_true_eq, hroute z y]
        rw [this]
        exact hd.filter _
      obtain ⟨e1, e2, e3⟩ := textStats_perm hsh (x0 _) (y0 _)
      rw [resultFor_setting hE, hlog, e1, e2, e3]
      congr 1
      refine expectedDoc_same (by rw [o.init_it.1, o'.init_it.1, hit]) (by rw [o.init_it.2, o'.init_it.2, hbm])
        (sameDoc_of (id := y.1) (t := textOf y.2) ?_ (hs.texts y.1 y.2)) (hs'.texts.keysOk y.1 y.2)
      have := hs'.texts y.1 y.2
      rwa [hE.text, hE.opts] at this
    have hperm : ((askedFor E textOf r (docs.filter (fun y => y.1 ≠ str "0"))).filterMap (fun y => E.resultFor r
          (expectedDoc E.log2 o.init (n (c.route y.1 y.2)) (avg (c.route y.1 y.2)) (df (c.route y.1 y.2))
            (Engine.tokens E.text E.opts r) (c.docOf y.1 y.2)) y.2)).Perm
        ((askedFor E textOf r (docs'.filter (fun y => y.1 ≠ str "0"))).filterMap (fun y => E'.resultFor r
          (expectedDoc E'.log2 o'.init (n' (c'.route y.1 y.2)) (avg' (c'.route y.1 y.2)) (df' (c'.route y.1 y.2))
            (Engine.tokens E.text E.opts r) (c'.docOf y.1 y.2)) y.2)) := by
      simp only [hres]
      exact hask.filterMap _
    obtain ⟨q1, q2, q3, q4⟩ := page_scores hperm x3 y3
    exact ⟨_, x, x', x1, y1, x3, q1, q2, x2, y2, q3, q4⟩
  · have hw' : wantedRank E'.opts r = wantedRank E.opts r := by rw [hE.opts]
    have ht' : Engine.tokens E'.text E'.opts r = Engine.tokens E.text E.opts r := by rw [hE.opts, hE.text]
    obtain ⟨x, x1, x2, x3⟩ := C105_whole_logic hs hc hor hto hl hasks ho hm hnan
    obtain ⟨x', y1, y2, y3⟩ := C105_whole_logic hs' hc hor hto hl (by rw [ht']; exact hasks) (off := off) (m := m) (by rw [hw']; exact ho)
      (by rw [hw']; exact hm) (by rw [hw']; exact hnan)
    rw [hw', ht', hE.opts, askedFor_setting hE] at y3
    simp only [resultFor_setting hE] at y3
    obtain ⟨q1, q2, q3, q4⟩ := page_scores (hask.filterMap _) x3 y3
    exact ⟨_, x, x', x1, y1, x3, q1, q2, x2, y2, q3, q4⟩

end

/-! ## Examples -/

/-- A schedule that was checked is a searched collection. -/
theorem coll_searched [DecidableEq D] {c : PipeCfg D} {E : EngCfg D F A} {textOf : D → DocText} {o : IndexerOpts} {i : Fin c.clients}
    {docs : List (Str × D)} {r : SearchReq F} {want : Option (SearchResp F A) → Bool} (ht : FromTexts c E textOf) (hso : SortOk E.so)
    (hgs : GSortOk E.gs) (hc : collCheck c E o i docs r want = true) :
    ∃ st, SearchedCollection c E textOf o (fun _ => []) (collRun c E o i docs r) st 0 r docs ∧ want (st.response E 0) = true := by
  obtain ⟨st, b, f, h1, h2, h3, h4, h5, h6, h7, h8, h9, h10, h11, h12⟩ := coll_hyps ht.docOk hc
  exact ⟨st, ⟨ht, hso, hgs, h3, h1, h2, h5, b, f, i, h4, h6, h7, h8, h9, h10, h11.remains⟩, h12⟩

/-- The engine of C84 with one shard, smaller channels and three clients. -/
def textOneShard : PipeCfg Nat :=
  { demoPipe 3 1 1 (by decide) (by decide) false with
    segCap := 1, idxCap := 1
    docOf := fun id n => docOf demoEnv (demoEng true).opts.toTextOpts id (demoTexts n) }

/-- The hypotheses of `C104_engines` hold: the same three documents on two shards, and in another order on one shard. -/
example : ∃ st st', SearchedCollection textEngine (demoEng true) demoTexts (smallOpts .docIds 10) (fun _ => [])
      (collRun textEngine (demoEng true) (smallOpts .docIds 10) textUser [(str "X", 4), (str "Y", 2), (str "Z", 3)] { text := str "red" })
      st 0 { text := str "red" } [(str "X", 4), (str "Y", 2), (str "Z", 3)] ∧
    SearchedCollection textOneShard (demoEng true) demoTexts (smallOpts .docIds 5) (fun _ => [])
      (collRun textOneShard (demoEng true) (smallOpts .docIds 5) ⟨2, by decide⟩ [(str "Z", 3), (str "X", 4), (str "Y", 2)] { text := str "red" })
      st' 0 { text := str "red" } [(str "Z", 3), (str "X", 4), (str "Y", 2)] ∧
    SameSetting (demoEng true) (demoEng true) ∧
    NoBM25 (wantedRank (demoEng true).opts ({ text := str "red" } : SearchReq Nat)).score ∧
    respIds (st.response (demoEng true) 0) = some ([str "X", str "Z", str "Y"], 3) ∧
    respIds (st'.response (demoEng true) 0) = some ([str "X", str "Z", str "Y"], 3) := by
  obtain ⟨st, h1, h2⟩ := coll_searched (c := textEngine) (E := demoEng true) (textOf := demoTexts) (o := smallOpts .docIds 10) (i := textUser)
    (docs := [(str "X", 4), (str "Y", 2), (str "Z", 3)]) (r := { text := str "red" })
    (want := fun r => decide (respIds r = some ([str "X", str "Z", str "Y"], 3)))
    (fun id x => docOf_isDocIndexOf _ _ _ _) insSort_ok insGSort_ok (by decide +kernel)
  obtain ⟨st', k1, k2⟩ := coll_searched (c := textOneShard) (E := demoEng true) (textOf := demoTexts) (o := smallOpts .docIds 5) (i := ⟨2, by decide⟩)
    (docs := [(str "Z", 3), (str "X", 4), (str "Y", 2)]) (r := { text := str "red" })
    (want := fun r => decide (respIds r = some ([str "X", str "Z", str "Y"], 3)))
    (fun id x => docOf_isDocIndexOf _ _ _ _) insSort_ok insGSort_ok (by decide +kernel)
  exact ⟨st, st', h1, k1, ⟨rfl, rfl, rfl⟩, fun _ _ _ => rfl, of_decide_eq_true h2, of_decide_eq_true k2⟩

/-- The engine of C95 with smaller channels and three clients; the same documents are on the same shards. -/
def statEngine2 : PipeCfg Nat :=
  { demoPipe 3 2 1 (by decide) (by decide) false with
    segCap := 1, idxCap := 1
    docOf := fun id n => docOf demoEnv statEng.opts.toTextOpts id (statTexts n) }

/-- The hypotheses of `C109_only_the_collection` hold of two runs, with the documents in different orders; the BM25 values agree. -/
example : ∃ st st', SearchedCollection statEngine statEng statTexts statOpts (fun _ => [])
      (collRun statEngine statEng statOpts statUser [(str "A", 1), (str "B", 2), (str "C", 4), (str "D", 6)] searchRed)
      st 0 searchRed [(str "A", 1), (str "B", 2), (str "C", 4), (str "D", 6)] ∧
    SearchedCollection statEngine2 statEng statTexts (smallOpts .freqs 5) (fun _ => [])
      (collRun statEngine2 statEng (smallOpts .freqs 5) ⟨1, by decide⟩ [(str "D", 6), (str "C", 4), (str "A", 1), (str "B", 2)] searchRed)
      st' 0 searchRed [(str "D", 6), (str "C", 4), (str "A", 1), (str "B", 2)] ∧
    (∀ y z : Str × Nat, statEngine.route y.1 y.2 = statEngine.route z.1 z.2 ↔ statEngine2.route y.1 y.2 = statEngine2.route z.1 z.2) ∧
    respScores (st.response statEng 0) = some [(str "B", [.fin 3]), (str "A", [.fin (3 / 2)])] ∧
    respScores (st'.response statEng 0) = some [(str "B", [.fin 3]), (str "A", [.fin (3 / 2)])] := by
  obtain ⟨st, h1, h2⟩ := coll_searched (c := statEngine) (E := statEng) (textOf := statTexts) (o := statOpts) (i := statUser)
    (docs := [(str "A", 1), (str "B", 2), (str "C", 4), (str "D", 6)]) (r := searchRed)
    (want := fun r => decide (respScores r = some [(str "B", [.fin 3]), (str "A", [.fin (3 / 2)])]))
    (fun id x => docOf_isDocIndexOf _ _ _ _) insSort_ok insGSort_ok (by decide +kernel)
  obtain ⟨st', k1, k2⟩ := coll_searched (c := statEngine2) (E := statEng) (textOf := statTexts) (o := smallOpts .freqs 5) (i := ⟨1, by decide⟩)
    (docs := [(str "D", 6), (str "C", 4), (str "A", 1), (str "B", 2)]) (r := searchRed)
    (want := fun r => decide (respScores r = some [(str "B", [.fin 3]), (str "A", [.fin (3 / 2)])]))
    (fun id x => docOf_isDocIndexOf _ _ _ _) insSort_ok insGSort_ok (by decide +kernel)
  exact ⟨st, st', h1, k1, fun _ _ => Iff.rfl, of_decide_eq_true h2, of_decide_eq_true k2⟩

end Riot
