import Verif.Spec.Criteria
import Verif.Props.Requests
import Verif.Props.HistoryDemo

/-!
# C105: scoring criteria that drop documents
-/

namespace Riot

variable {D F A : Type} {c : PipeCfg D}

theorem entries_filterMap {E : EngCfg D F A} {st0 : Full c F A} {as : List (EAct c.toPipeSize D F)} {r : SearchReq F} {s : Fin c.shards}
    {reg : Str → Option (RankData F A)} : ∀ (docs : List IndexedDoc) (ts : List Nat), ts.length = docs.length →
      (∀ t ∈ ts, ∀ doc ∈ docs, (Full.after E st0 as t).registered E s doc.docId = reg doc.docId) →
      entriesDuring E st0 as s r docs ts = docs.filterMap (expectedScored reg (wantedRank E.opts r).score) := by
  intro docs
  induction docs with
  | nil => intro ts _ _; simp [entriesDuring]
  | cons a docs ih =>
    intro ts hl hreg
    cases ts with
    | nil => simp at hl
    | cons t ts =>
      have i1 := ih ts (by simpa using hl) (fun u hu doc hd => hreg u (by simp [hu]) doc (by simp [hd]))
      unfold entriesDuring at i1 ⊢
      rw [List.zip_cons_cons, List.filterMap_cons, List.filterMap_cons, i1]
      have : expectedScored ((Full.after E st0 as t).registered E s) (wantedRank E.opts r).score a =
          expectedScored reg (wantedRank E.opts r).score a := by
        unfold expectedScored
        rw [hreg t (by simp) a (by simp)]
      simp only [this]

/-- What a ranker holds about a document that was added with one data only. -/
theorem rankIdeal_once (E : EngCfg D F A) {d : Str} {x : D} (l : List (RankEv D)) (hno : RankEv.remove d ∉ l)
    (hone : ∀ y, RankEv.add d y ∈ l → y = x) (hin : RankEv.add d x ∈ l) :
    rankIdeal (l.map (RankEv.op E.info E.opts.idOnly)) d = some (E.knows x) := by
  have gen : rankIdeal (l.map (RankEv.op E.info E.opts.idOnly)) d = some (E.knows x) ∨
      (rankIdeal (l.map (RankEv.op E.info E.opts.idOnly)) d = none ∧ RankEv.add d x ∉ l) := by
    clear hin
    induction l using List.reverseRecOn with
    | nil => right; simp [rankIdeal]
    | append_singleton l ev ih =>
      have ih := ih (fun hm => hno (by simp [hm])) (fun y hy => hone y (by simp [hy]))
      simp only [rankIdeal, List.map_append, List.foldl_append, List.map_cons, List.map_nil, List.foldl_cons, List.foldl_nil] at ih ⊢
      cases ev with
      | remove id =>
        have hid : d ≠ id := by rintro rfl; exact hno (by simp)
        simp only [RankEv.op, rankIdealStep, if_neg hid, List.mem_append, List.mem_singleton, reduceCtorEq, or_false]
        exact ih
      | add id y =>
        by_cases hid : d = id
        · subst hid
          obtain rfl := hone y (by simp)
          left
          simp only [RankEv.op, rankIdealStep, if_true, EngCfg.knows]
          rcases ih with ih | ⟨ih, _⟩
          · cases hb : E.opts.idOnly <;> simp [hb, EngCfg.knows] at ih ⊢ <;> simp [ih]
          · cases hb : E.opts.idOnly <;> simp [hb] at ih ⊢ <;> simp [ih]
        · simp only [RankEv.op, rankIdealStep, if_neg hid, List.mem_append, List.mem_singleton, RankEv.add.injEq, hid, false_and, or_false]
          exact ih
  rcases gen with h | ⟨_, h⟩
  · exact h
  · exact absurd hin h

variable {E : EngCfg D F A} {textOf : D → DocText} {o : IndexerOpts} {db : Fin c.stores → List (Str × D)}
  {as : List (EAct c.toPipeSize D F)} {st : Full c F A}

theorem last_index {calls : List (Call D)} {d : Str} {x : D} (h : ∃ g, Call.index d x g ∈ calls) :
    ∃ l1 g l2, calls = l1 ++ Call.index d x g :: l2 ∧ ∀ h', Call.index d x h' ∉ l2 := by
  induction calls with
  | nil => simp at h
  | cons a l ih =>
    by_cases hl : ∃ g', Call.index d x g' ∈ l
    · obtain ⟨l1, g, l2, e1, e2⟩ := ih hl
      exact ⟨a :: l1, g, l2, by rw [e1]; rfl, e2⟩
    · obtain ⟨g, hg⟩ := h
      rcases List.mem_cons.1 hg with rfl | hg
      · exact ⟨[], g, l, rfl, fun h' hh => hl ⟨h', hh⟩⟩
      · exact absurd ⟨g, hg⟩ hl

theorem GivenOnce.remains {calls : List (Call D)} {docs : List (Str × D)} (h : GivenOnce calls docs) : Remains calls docs := by
  have huniq : ∀ {d : Str} {x y : D}, (d, x) ∈ docs → (d, y) ∈ docs → x = y := by
    intro d x y hx hy
    have := List.inj_on_of_nodup_map h.distinct hx hy rfl
    simpa using this
  have hmem : ∀ {d : Str} {x : D} {g : Bool}, Call.index d x g ∈ calls → (d, x) ∈ docs := by
    intro d x g hm
    rcases h.only _ hm with e | ⟨d', x', g', h1, e⟩
    · cases e
    · cases e; exact h1
  refine ⟨h.distinct, h.all, fun d x hx => ⟨fun f hf => ?_, fun y g hy => huniq (hmem hy) hx⟩, fun d x g hm => Or.inl (hmem hm)⟩
  rcases h.only _ hf with e | ⟨_, _, _, _, e⟩ <;> cases e

/-- Without removals, the documents that remain are those that were given. -/
theorem Remains.once {calls : List (Call D)} {docs : List (Str × D)} (h : Remains calls docs) (hno : ∀ d f, Call.remove d f ∉ calls) :
    GivenOnce calls docs := by
  refine ⟨h.distinct, fun a ha => ?_, h.given⟩
  cases a with
  | flush => exact Or.inl rfl
  | remove d f => exact absurd ha (hno d f)
  | index d x g =>
    rcases h.gone d x g ha with h1 | ⟨l1, f, l2, e, _⟩
    · exact Or.inr ⟨d, x, g, h1, rfl⟩
    · exact absurd (by rw [e]; simp) (hno d f)

theorem Remains.latest {calls : List (Call D)} {docs : List (Str × D)} (h : Remains calls docs) (s : Fin c.shards) (d : Str) (x : D) :
    LatestOn c s calls d x ↔ c.route d x = s ∧ (d, x) ∈ docs := by
  constructor
  · rintro ⟨l1, g, l2, e, h2, h3, _⟩
    refine ⟨h2, ?_⟩
    rcases h.gone d x g (by rw [e]; simp) with h4 | ⟨k1, f, k2, e2, h5⟩
    · exact h4
    · rw [e] at e2
      rcases List.append_eq_append_iff.1 e2 with ⟨t, e3, e4⟩ | ⟨t, e3, e4⟩
      · cases t with
        | nil => simp at e4
        | cons a t =>
          simp only [List.cons_append, List.cons.injEq] at e4
          exact absurd (by rw [e4.2]; simp) (h3 f)
      · cases t with
        | nil => simp at e4
        | cons a t =>
          simp only [List.cons_append, List.cons.injEq] at e4
          exact absurd (by rw [e4.2]; simp) (h5 x g)
  · rintro ⟨h1, h2⟩
    obtain ⟨g, hg⟩ := h.given d x h2
    obtain ⟨l1, g', l2, e, hlast⟩ := last_index ⟨g, hg⟩
    refine ⟨l1, g', l2, e, h1, fun f hf => (h.kept d x h2).1 f (by rw [e]; simp [hf]), fun y g2 hy _ => ?_⟩
    obtain rfl := (h.kept d x h2).2 y g2 (by rw [e]; simp [hy])
    exact hlast g2 hy

/-- What the rankers hold when all work is done. -/
theorem registered_once {p : Pipe c} (hr : Reach db p) (hq : p.Quiet) {docs : List (Str × D)} (hg : Remains (p.given db) docs)
    {d : Str} {x : D} (hd : (d, x) ∈ docs) (h0 : d ≠ str "0") :
    rankIdeal (p.rankHistory E.info E.opts.idOnly (c.route d x)) d = some (E.knows x) := by
  unfold Pipe.rankHistory
  refine rankIdeal_once E _ ?_ ?_ ?_
  · intro hm
    exact rankHistory_no_remove hr (hg.kept d x hd).1 E.info E.opts.idOnly _ (List.mem_map.2 ⟨_, hm, rfl⟩)
  · intro y hy
    obtain ⟨_, _, g, h3⟩ := mem_callRank_add.1 (rank_mem hr _ hy)
    exact (hg.kept d x hd).2 y g h3
  · obtain ⟨g, h3⟩ := hg.given d x hd
    exact (rank_quiet hr hq _).mem_iff.2 (mem_callRank_add.2 ⟨h0, rfl, g, h3⟩)

/-- The entries of one part of a search over a collection. -/
theorem entries_once (htext : FromTexts c E textOf) (hso : SortOk E.so)
    (hs : GentleStart c o db) (h : (Full.start c o db).run E as = some st)
    (hg : (Full.start c o db).Gentle E o db as) {b f : Nat} {r : SearchReq F}
    (hquiet : (Full.after E (Full.start c o db) as b).fine.pipe.Quiet)
    (hround : ∀ d, d ≠ str "0" → ∃ l, Rounds db d (Full.after E (Full.start c o db) as b).fine.pipe l)
    {i : Fin c.clients} (hfl : as[f]? = some (.pipe (.call i .flush))) (hfb : f < b)
    (hlast : ∀ t j (a : Call D), f < t → as[t]? ≠ some (.pipe (.call j a)))
    (hasks : r.logic.Asks (Engine.tokens E.text E.opts r ++ r.labels)) {docs : List (Str × D)}
    (hgiven : Remains ((Full.after E (Full.start c o db) as b).fine.pipe.given db) docs)
    {p : Part c} (hp : PartOk E (Full.start c o db) as b r p) (found : Str → D → IndexedDoc) (hid : ∀ d x, (found d x).docId = d)
    (hfound : ∀ z ∈ p.docs, ∀ x, (z.docId, x) ∈ docs → z = found z.docId x) :
    (p.entries E (Full.start c o db) as r).Perm
      ((askedFor E textOf r (onShard c p.shard docs)).filterMap (fun y => E.resultFor r (found y.1 y.2) y.2)) := by
  classical
  obtain ⟨hlo, hhi⟩ := hp.during
  obtain ⟨hl, _, hts⟩ := hp.reads
  obtain ⟨f1, f2, _, _⟩ := found_after_flush htext hso hs h hg hfl hlast hfb hquiet hround hasks hp.toFoundOk
  have hreach := after_reach h b
  -- the entries are made from what is registered when the search begins
  have e1 : p.entries E (Full.start c o db) as r = p.docs.filterMap (expectedScored
      ((Full.after E (Full.start c o db) as b).registered E p.shard) (wantedRank E.opts r).score) := by
    refine entries_filterMap _ _ hl (fun t ht doc hd => ?_)
    have h0 : doc.docId ≠ str "0" := ((f2 doc.docId).1 (List.mem_map.2 ⟨doc, hd, rfl⟩)).1
    refine registered_after h (by have := (hts t ht).1; omega) hreach
      (fun t i a hbt ht => absurd ht (hlast t i a (by omega))) (fun s => ((rank_quiet hreach hquiet s).filter _).symm) p.shard
  -- the documents found are those asked for
  have hkey : ∀ y, y ∈ askedFor E textOf r (onShard c p.shard docs) ↔ y ∈ docs ∧ y.1 ≠ str "0" ∧ c.route y.1 y.2 = p.shard ∧
      Satisfies (Engine.tokens E.text E.opts r ++ r.labels) r.logic r.docIds y.1 (TextHasKey E.text E.opts.toTextOpts (textOf y.2)) := by
    intro y
    simp only [askedFor, onShard, List.mem_filter, decide_eq_true_eq, and_assoc]
  have hdn : docs.Nodup := List.Nodup.of_map _ hgiven.distinct
  have hn1 : (askedFor E textOf r (onShard c p.shard docs)).Nodup := (hdn.filter _).filter _
  have hn2 : ((askedFor E textOf r (onShard c p.shard docs)).map (fun y => found y.1 y.2)).Nodup := by
    refine List.Nodup.of_map (fun z => z.docId) ?_
    rw [List.map_map]
    have : ((fun z : IndexedDoc => z.docId) ∘ fun y : Str × D => found y.1 y.2) = Prod.fst := funext (fun y => hid y.1 y.2)
    rw [this]
    exact hgiven.distinct.sublist ((List.filter_sublist.trans List.filter_sublist).map _)
  have e2 : p.docs.Perm ((askedFor E textOf r (onShard c p.shard docs)).map (fun y => found y.1 y.2)) := by
    rw [List.perm_ext_iff_of_nodup (List.Nodup.of_map _ f1) hn2]
    intro z
    simp only [List.mem_map]
    constructor
    · intro hz
      obtain ⟨h0, x, hx, hsat⟩ := (f2 z.docId).1 (List.mem_map.2 ⟨z, hz, rfl⟩)
      obtain ⟨k1, k2⟩ := (hgiven.latest p.shard _ _).1 hx
      exact ⟨(z.docId, x), (hkey _).2 ⟨k2, h0, k1, hsat⟩, (hfound z hz x k2).symm⟩
    · rintro ⟨y, hy, rfl⟩
      obtain ⟨k1, k2, k3, k4⟩ := (hkey y).1 hy
      obtain ⟨z, hz, hz2⟩ := List.mem_map.1 ((f2 y.1).2 ⟨k2, y.2, (hgiven.latest p.shard _ _).2 ⟨k3, k1⟩, k4⟩)
      have := hfound z hz y.2 (by rw [hz2]; exact k1)
      rw [hz2] at this
      rwa [← this]
  rw [e1]
  refine (e2.filterMap _).trans (List.Perm.of_eq ?_)
  rw [List.filterMap_map]
  refine List.filterMap_congr (fun y hy => ?_)
  obtain ⟨k1, k2, k3, _⟩ := (hkey y).1 hy
  have hreg := registered_once (E := E) hreach hquiet hgiven k1 k2
  rw [k3] at hreg
  simp only [Function.comp_apply, expectedScored, EngCfg.resultFor, hid]
  have : (Full.after E (Full.start c o db) as b).registered E p.shard y.1 = some (E.knows y.2) := hreg
  rw [this]
  rfl

/-- **C105** Scoring criteria that drop documents. An engine that makes its documents from texts is given the documents `docs`, each
once, and the last call before a request is a Flush; the request comes when all work is done. Its response is the
requested page of a ranking of one list per answering shard (all shards unless a time-out expired); and the list of a shard
consists of the results for the documents of this shard that satisfy the request, without those to which the scoring criteria of the
request give no scores. The number of documents reported counts the results only. The scores are computed from the statistics of the documents of the
shard. -/
theorem C105_plain (htext : FromTexts c E textOf) (hso : SortOk E.so) (hgs : GSortOk E.gs)
    (hs : GentleStart c o db) (h : (Full.start c o db).run E as = some st)
    (hg : (Full.start c o db).Gentle E o db as) {k b f : Nat} {r : SearchReq F} (hb : Began as k b r)
    (hret : st.Returned k) (hquiet : (Full.after E (Full.start c o db) as b).fine.pipe.Quiet)
    (hround : ∀ d, d ≠ str "0" → ∃ l, Rounds db d (Full.after E (Full.start c o db) as b).fine.pipe l)
    {i : Fin c.clients} (hfl : as[f]? = some (.pipe (.call i .flush))) (hfb : f < b)
    (hlast : ∀ t j (a : Call D), f < t → as[t]? ≠ some (.pipe (.call j a)))
    (hc : r.countDocsOnly = false) (hor : r.orderless = false)
    (hlogic : r.logic = {}) (hkw : Engine.tokens E.text E.opts r ++ r.labels ≠ [])
    (htok : o.indexType = .locs → E.tokens r ≠ []) {docs : List (Str × D)}
    (hgiven : Remains ((Full.after E (Full.start c o db) as b).fine.pipe.given db) docs) {off m : Nat}
    (ho : (wantedRank E.opts r).outputOffset = off) (hm : (wantedRank E.opts r).maxOutputs = m)
    (hnan : ∀ d f, NoNaN ((wantedRank E.opts r).score d f)) :
    ∃ (lists : List (Fin c.shards × List (ScoredDoc F A))) (resp : SearchResp F A),
      (lists.map (·.1)).Nodup ∧ st.response E k = some resp ∧
      (resp.timeout = false → ∀ s, s ∈ lists.map (·.1)) ∧
      IsPageOf E.opts.idOnly (wantedRank E.opts r).reverseOrder (Engine.tokens E.text E.opts r) off m
        (lists.flatMap (·.2)) resp ∧
      ∀ p ∈ lists, ∃ n avg df, TextStats E.text E.opts.toTextOpts textOf (onShard c p.1 docs) n avg df ∧
        (p.2).Perm ((askedFor E textOf r (onShard c p.1 docs)).filterMap (fun y => E.resultFor r
          (expectedDoc E.log2 o.init n avg df (Engine.tokens E.text E.opts r) (c.docOf y.1 y.2)) y.2)) := by
  classical
  obtain ⟨parts, resp, g1, g2, g3, g4, g5⟩ := C73_search_during_everything hgs h hb hret.2 hc hor ho hm hnan
  refine ⟨parts.map (fun p => (p.shard, p.entries E (Full.start c o db) as r)), resp, ?_, g3, ?_, ?_, ?_⟩
  · rw [List.map_map]; exact g1
  · rw [List.map_map]; exact g4
  · rw [List.flatMap_map]; exact g5
  intro q hq
  obtain ⟨p, hp, rfl⟩ := List.mem_map.1 hq
  have hok := g2 p hp
  obtain ⟨hlo, hhi⟩ := hok.during
  have hcl := full_gentle_noClash htext.keysOk hso hs h hg
  obtain ⟨_, n, avg, df, hst, f2⟩ := found_untouched htext.docOk htext.keysOk hso h hcl (Nat.le_of_lt hlo) hhi hlogic htok p.shard hok.found
  obtain ⟨ds, e1, rfl, rfl, e4⟩ := stats_after_flush htext.docOk htext.keysOk hso hs h hg hfl hlast hfb hquiet hround
    ⟨p.look, hlo, hhi, hst⟩
  obtain rfl : df = fun k => ds.countP (fun doc => decide (k ∈ doc.keys)) := funext e4
  obtain ⟨live, l1, l2⟩ := textStats_of htext e1
  have hdn : docs.Nodup := List.Nodup.of_map _ hgiven.distinct
  have hlive : live.Perm (onShard c p.shard docs) := by
    have hn3 : (onShard c p.shard docs).Nodup := hdn.filter _
    rw [List.perm_ext_iff_of_nodup (List.Nodup.of_map _ l1.1) hn3]
    rintro ⟨d, x⟩
    rw [l1.2]
    simp only [onShard, List.mem_filter, decide_eq_true_eq]
    rw [hgiven.latest]
    tauto
  refine ⟨ds.length, (ds.map (·.tokenLen)).sum / ds.length, fun k => ds.countP (fun doc => decide (k ∈ doc.keys)), ?_, ?_⟩
  · obtain ⟨t1, t2, t3⟩ := l2
    refine ⟨by rw [t1, hlive.length_eq], ?_, fun k => by rw [t3 k]; exact (hlive.filter _).length_eq⟩
    rw [t2, (hlive.map _).sum_eq, hlive.length_eq]
  · refine entries_once htext hso hs h hg hquiet hround hfl hfb hlast ?_ hgiven hok
      (fun d x => expectedDoc E.log2 o.init _ _ _ (Engine.tokens E.text E.opts r) (c.docOf d x)) ?_ ?_
    · rw [hlogic]
      exact ⟨clear_of_lists rfl rfl, Or.inl ⟨_, by simp [mustOf], hkw⟩⟩
    · intro d x
      rw [expectedDoc_docId]
      exact htext.docOk d x
    · intro z hz x hx
      have hfo := found_after_flush (r := r) htext hso hs h hg hfl hlast hfb hquiet hround (by
        rw [hlogic]; exact ⟨clear_of_lists rfl rfl, Or.inl ⟨_, by simp [mustOf]; rfl, hkw⟩⟩) hok.toFoundOk
      have h0 : z.docId ≠ str "0" := ((hfo.exact_ z.docId).1 (List.mem_map.2 ⟨z, hz, rfl⟩)).1
      obtain ⟨l, hl⟩ := hround z.docId h0
      obtain ⟨doc, k1, k2⟩ := (f2 z.docId l h0 hl (fun t i a hbt ht => absurd ht (hlast t i a (by omega)))).2 z hz rfl
      obtain ⟨x', hx', rfl⟩ := (ideal_latest htext.docOk p.shard _ h0 _ doc).1 k1
      obtain ⟨_, hx'⟩ := (hgiven.latest p.shard _ _).1 hx'
      have : x' = x := by simpa using List.inj_on_of_nodup_map hgiven.distinct hx' hx rfl
      rw [← this]
      exact k2

/-- **C105** ... and for logic requests (those of `Logic.Asks`); they are scored without word statistics and locations. -/
theorem C105_logic (htext : FromTexts c E textOf) (hso : SortOk E.so) (hgs : GSortOk E.gs)
    (hs : GentleStart c o db) (h : (Full.start c o db).run E as = some st)
    (hg : (Full.start c o db).Gentle E o db as) {k b f : Nat} {r : SearchReq F} (hb : Began as k b r)
    (hret : st.Returned k) (hquiet : (Full.after E (Full.start c o db) as b).fine.pipe.Quiet)
    (hround : ∀ d, d ≠ str "0" → ∃ l, Rounds db d (Full.after E (Full.start c o db) as b).fine.pipe l)
    {i : Fin c.clients} (hfl : as[f]? = some (.pipe (.call i .flush))) (hfb : f < b)
    (hlast : ∀ t j (a : Call D), f < t → as[t]? ≠ some (.pipe (.call j a)))
    (hc : r.countDocsOnly = false) (hor : r.orderless = false)
    (hlogic : r.logic ≠ {}) (hasks : r.logic.Asks (Engine.tokens E.text E.opts r ++ r.labels)) {docs : List (Str × D)}
    (hgiven : Remains ((Full.after E (Full.start c o db) as b).fine.pipe.given db) docs) {off m : Nat}
    (ho : (wantedRank E.opts r).outputOffset = off) (hm : (wantedRank E.opts r).maxOutputs = m)
    (hnan : ∀ d f, NoNaN ((wantedRank E.opts r).score d f)) :
    ∃ (lists : List (Fin c.shards × List (ScoredDoc F A))) (resp : SearchResp F A),
      (lists.map (·.1)).Nodup ∧ st.response E k = some resp ∧
      (resp.timeout = false → ∀ s, s ∈ lists.map (·.1)) ∧
      IsPageOf E.opts.idOnly (wantedRank E.opts r).reverseOrder (Engine.tokens E.text E.opts r) off m
        (lists.flatMap (·.2)) resp ∧
      ∀ p ∈ lists, (p.2).Perm ((askedFor E textOf r (onShard c p.1 docs)).filterMap (fun y => E.resultFor r
        { docId := y.1 } y.2)) := by
  obtain ⟨parts, resp, g1, g2, g3, g4, g5⟩ := C73_search_during_everything hgs h hb hret.2 hc hor ho hm hnan
  refine ⟨parts.map (fun p => (p.shard, p.entries E (Full.start c o db) as r)), resp, ?_, g3, ?_, ?_, ?_⟩
  · rw [List.map_map]; exact g1
  · rw [List.map_map]; exact g4
  · rw [List.flatMap_map]; exact g5
  intro q hq
  obtain ⟨p, hp, rfl⟩ := List.mem_map.1 hq
  have hok := g2 p hp
  have hfo := found_after_flush (r := r) htext hso hs h hg hfl hlast hfb hquiet hround hasks hok.toFoundOk
  exact entries_once htext hso hs h hg hquiet hround hfl hfb hlast hasks hgiven hok (fun d _ => { docId := d }) (fun _ _ => rfl)
    (fun z hz x _ => hfo.logic hlogic z hz)

/-! ## Searches without a time-out -/

theorem collect_timeout {α : Type} (cast : RankOut F A → Option (List α)) (co : Bool) : ∀ (es : List (Option (Answer F A)))
    (acc x : Collected α), collect cast co acc es = some x → x.timeout = (acc.timeout || es.any (·.isNone)) := by
  intro es
  induction es with
  | nil => intro acc x h; simp only [collect, Option.some.injEq] at h; subst h; simp
  | cons e es ih =>
    intro acc x h
    cases e with
    | none => rw [collect] at h; rw [ih _ _ h]; simp
    | some a =>
      unfold collect at h
      split at h
      · split at h
        · simp at h
        · rw [ih _ _ h]; simp
      · rw [ih _ _ h]; simp

theorem finish_timeout {α : Type} [HasScores α] {gs : GSort} {wrap : List α → RankOut F A} {r : SearchReq F} {o : RankOpts F}
    {tokens : List Str} {x : Collected α} {resp : SearchResp F A} (h : finishSearch gs wrap r o tokens x = some resp) :
    resp.timeout = x.timeout := by
  unfold finishSearch at h
  simp only at h
  split at h
  · simp only [Option.some.injEq] at h; subst h; rfl
  · split at h
    · simp only [Option.some.injEq] at h; subst h; rfl
    · obtain ⟨_, _, rfl⟩ := Option.map_eq_some_iff.1 h; rfl

theorem respond_timeout {gs : GSort} {e : SearchOpts F} {r : SearchReq F} {tokens : List Str} {es : List (Option (Answer F A))}
    {resp : SearchResp F A} (h : Engine.respond gs e r tokens es = some resp) : resp.timeout = es.any (·.isNone) := by
  unfold Engine.respond at h
  split at h
  · obtain ⟨x, h1, h2⟩ := Option.bind_eq_some_iff.1 h
    rw [finish_timeout h2, collect_timeout _ _ _ _ _ h1]; simp
  · obtain ⟨x, h1, h2⟩ := Option.bind_eq_some_iff.1 h
    rw [finish_timeout h2, collect_timeout _ _ _ _ _ h1]; simp

/-- **C73** A search without a time-out (Timeout ≤ 0) never reports one, under every schedule. -/
theorem C73_no_timeout (h : (Full.start c o db).run E as = some st) {k b : Nat} {r : SearchReq F} (hb : Began as k b r)
    (ht : r.timeout ≤ 0) {resp : SearchResp F A} (hresp : st.response E k = some resp) : resp.timeout = false := by
  have hl : Limits E st := limits_run as (Limits.start E o db) h
  have hdone : (st.got k).length = c.shards := by
    unfold Full.response at hresp
    split at hresp
    · split at hresp
      · assumption
      · simp at hresp
    · simp at hresp
  obtain ⟨_, _, _, _, _, hr⟩ := got_parts h hb (P := fun _ => True) (Q := fun _ _ => True)
    (fun s _ _ => ⟨⟨s, 0, [], []⟩, rfl, trivial, trivial⟩) hdone
  unfold Full.response at hresp
  rw [hr] at hresp
  simp only at hresp
  split at hresp
  · rw [respond_timeout hresp, List.any_eq_false]
    intro x hx
    obtain ⟨y, hy, rfl⟩ := List.mem_map.1 hx
    cases y with
    | some y => simp
    | none =>
      obtain ⟨r', h1, h2⟩ := hl.timer k hy
      rw [hr, Option.some.injEq] at h1
      subst h1; omega
  · rename_i hno; exact absurd hdone hno

/-- The shards divide the documents. -/
theorem divide_shards {docs : List (Str × D)} (hd : docs.Nodup) {ss : List (Fin c.shards)} (hn : ss.Nodup) (hall : ∀ s, s ∈ ss)
    (r : SearchReq F) {β : Type} (e : Fin c.shards → Str × D → Option β) :
    (ss.flatMap (fun s => (askedFor E textOf r (onShard c s docs)).filterMap (e s))).Perm
      ((askedFor E textOf r (docs.filter (fun y => y.1 ≠ str "0"))).filterMap (fun y => e (c.route y.1 y.2) y)) := by
  classical
  have hp : (ss.flatMap (fun s => askedFor E textOf r (onShard c s docs))).Perm
      (askedFor E textOf r (docs.filter (fun y => y.1 ≠ str "0"))) := by
    have n1 : (ss.flatMap (fun s => askedFor E textOf r (onShard c s docs))).Nodup := by
      rw [List.nodup_flatMap]
      refine ⟨fun s _ => (hd.filter _).filter _, hn.imp (fun {a b} hab => ?_)⟩
      intro y h1 h2
      simp only [askedFor, onShard, List.mem_filter, decide_eq_true_eq] at h1 h2
      exact hab (h1.1.2.2.symm.trans h2.1.2.2)
    have n2 : (askedFor E textOf r (docs.filter (fun y => y.1 ≠ str "0"))).Nodup := (hd.filter _).filter _
    rw [List.perm_ext_iff_of_nodup n1 n2]
    intro y
    simp only [List.mem_flatMap, askedFor, onShard, List.mem_filter, decide_eq_true_eq]
    constructor
    · rintro ⟨s, _, ⟨a1, a2, _⟩, a3⟩; exact ⟨⟨a1, a2⟩, a3⟩
    · rintro ⟨⟨a1, a2⟩, a3⟩; exact ⟨c.route y.1 y.2, hall _, ⟨a1, a2, rfl⟩, a3⟩
  have he : ss.flatMap (fun s => (askedFor E textOf r (onShard c s docs)).filterMap (e s)) =
      (ss.flatMap (fun s => askedFor E textOf r (onShard c s docs))).filterMap (fun y => e (c.route y.1 y.2) y) := by
    rw [List.filterMap_flatMap]
    refine List.flatMap_congr (fun s _ => List.filterMap_congr (fun y hy => ?_))
    simp only [askedFor, onShard, List.mem_filter, decide_eq_true_eq] at hy
    rw [hy.1.2.2]
  rw [he]
  exact hp.filterMap _

theorem isPageOf_perm {b rev : Bool} {tokens : List Str} {off m : Nat} {l l' : List (ScoredDoc F A)} (hp : l.Perm l')
    {resp : SearchResp F A} (h : IsPageOf b rev tokens off m l resp) : IsPageOf b rev tokens off m l' resp := by
  obtain ⟨R, h1, h2, h3, h4, h5⟩ := h
  exact ⟨R, h1.trans hp, h2, h3, by rw [h4, hp.length_eq], h5⟩

/-- **C105** ... without a time-out the response is the requested page of a ranking of the results for all documents that satisfy the
request, without those to which the criteria give no scores. Only the statistics are per shard. -/
theorem C105_whole (htext : FromTexts c E textOf) (hso : SortOk E.so) (hgs : GSortOk E.gs)
    (hs : GentleStart c o db) (h : (Full.start c o db).run E as = some st)
    (hg : (Full.start c o db).Gentle E o db as) {k b f : Nat} {r : SearchReq F} (hb : Began as k b r)
    (hret : st.Returned k) (hquiet : (Full.after E (Full.start c o db) as b).fine.pipe.Quiet)
    (hround : ∀ d, d ≠ str "0" → ∃ l, Rounds db d (Full.after E (Full.start c o db) as b).fine.pipe l)
    {i : Fin c.clients} (hfl : as[f]? = some (.pipe (.call i .flush))) (hfb : f < b)
    (hlast : ∀ t j (a : Call D), f < t → as[t]? ≠ some (.pipe (.call j a)))
    (hc : r.countDocsOnly = false) (hor : r.orderless = false) (hto : r.timeout ≤ 0)
    (hlogic : r.logic = {}) (hkw : Engine.tokens E.text E.opts r ++ r.labels ≠ [])
    (htok : o.indexType = .locs → E.tokens r ≠ []) {docs : List (Str × D)}
    (hgiven : Remains ((Full.after E (Full.start c o db) as b).fine.pipe.given db) docs) {off m : Nat}
    (ho : (wantedRank E.opts r).outputOffset = off) (hm : (wantedRank E.opts r).maxOutputs = m)
    (hnan : ∀ d f, NoNaN ((wantedRank E.opts r).score d f)) :
    ∃ (n avg : Fin c.shards → Rat) (df : Fin c.shards → Str → Nat) (resp : SearchResp F A),
      (∀ s, TextStats E.text E.opts.toTextOpts textOf (onShard c s docs) (n s) (avg s) (df s)) ∧
      st.response E k = some resp ∧ resp.timeout = false ∧
      IsPageOf E.opts.idOnly (wantedRank E.opts r).reverseOrder (Engine.tokens E.text E.opts r) off m
        ((askedFor E textOf r (docs.filter (fun y => y.1 ≠ str "0"))).filterMap (fun y => E.resultFor r
          (expectedDoc E.log2 o.init (n (c.route y.1 y.2)) (avg (c.route y.1 y.2)) (df (c.route y.1 y.2))
            (Engine.tokens E.text E.opts r) (c.docOf y.1 y.2)) y.2)) resp := by
  obtain ⟨lists, resp, g1, g2, g3, g4, g5⟩ := C105_plain htext hso hgs hs h hg hb hret hquiet hround hfl hfb hlast hc hor hlogic hkw htok
    hgiven ho hm hnan
  have ht := C73_no_timeout h hb hto g2
  have hall := g3 ht
  have key : ∀ s, ∃ (x : Rat × Rat × (Str → Nat)), TextStats E.text E.opts.toTextOpts textOf (onShard c s docs) x.1 x.2.1 x.2.2 ∧
      ∀ p ∈ lists, p.1 = s → (p.2).Perm ((askedFor E textOf r (onShard c s docs)).filterMap (fun y => E.resultFor r
          (expectedDoc E.log2 o.init x.1 x.2.1 x.2.2 (Engine.tokens E.text E.opts r) (c.docOf y.1 y.2)) y.2)) := by
    intro s
    obtain ⟨p, hp, rfl⟩ := List.mem_map.1 (hall s)
    obtain ⟨n, avg, df, k1, k2⟩ := g5 p hp
    refine ⟨(n, avg, df), k1, fun q hq hqp => ?_⟩
    obtain rfl := List.inj_on_of_nodup_map g1 hq hp hqp
    exact k2
  choose x hx1 hx2 using key
  refine ⟨fun s => (x s).1, fun s => (x s).2.1, fun s => (x s).2.2, resp, hx1, g2, ht, isPageOf_perm ?_ g4⟩
  refine List.Perm.trans ?_ (divide_shards (List.Nodup.of_map _ hgiven.distinct) g1 hall r (fun s y => E.resultFor r
    (expectedDoc E.log2 o.init (x s).1 (x s).2.1 (x s).2.2 (Engine.tokens E.text E.opts r) (c.docOf y.1 y.2)) y.2))
  rw [List.flatMap_map]
  exact List.Perm.flatMap_left _ (fun p hp => hx2 p.1 p hp rfl)

end Riot
