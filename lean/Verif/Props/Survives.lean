import Verif.Props.Counting
import Verif.Props.Restart
import Verif.Props.RoundsDb
import Verif.Spec.Survives

/-!
# C123: a collection survives the end of the process

The documents of an engine with storage whose data can be encoded, given once each and flushed: a new engine on the same files is an engine
on which exactly this collection was indexed, so everything proved about collections (C105, C109, C122) holds of it.
-/

namespace Riot

variable {D F A : Type}

section
variable {c : PipeCfg D}

/-- When all database operations were executed, the databases contain exactly the storable documents of the collection, each where it belongs. -/
theorem content_collection (hu : c.useStore = true) {db : Fin c.stores → List (Str × D)} (hdb : DbOk c db) {p : Pipe c} (hr : Reach db p)
    (hround : ∀ d, d ≠ str "0" → ∃ l, Rounds db d p l)
    (hall : ∀ m (q : DbOp D → Bool), (p.dbLog m).countP q = (p.issuedDb m).countP q) {docs : List (Str × D)} (hg : Remains (p.given db) docs)
    (m : Fin c.stores) (d : Str) (x : D) :
    p.dbContent db m d = some x ↔ (d, x) ∈ c.storable docs ∧ c.storeRoute d = m := by
  classical
  have hval : ∀ {y}, p.dbContent db m d = some y → (d, y) ∈ docs := by
    intro y hy
    obtain ⟨_, h0, _⟩ := dbContent_route hdb hr hy
    obtain ⟨g, hgv⟩ : ∃ g, Call.index d y g ∈ p.given db := by
      have key : ∀ (ops : List (DbOp D)), (∀ op ∈ ops, op ∈ p.dbLog m) →
          ∀ y, dbApply (listedDb (db m)) ops d = some y → ∃ g, Call.index d y g ∈ p.given db := by
        intro ops
        induction ops using List.reverseRecOn with
        | nil =>
          intro _ y hy
          have hmem := ((listedDb_lists (hdb m).1).2 d y).2 hy
          refine ⟨false, List.mem_append_left _ (List.mem_map.2 ⟨(d, y), ?_, rfl⟩)⟩
          unfold PipeCfg.recovered
          rw [if_pos hu]
          exact List.mem_flatMap.2 ⟨m, List.mem_finRange m, hmem⟩
        | append_singleton ops op ih =>
          intro hin y hy
          have ih := ih (fun o ho => hin o (by simp [ho])) y
          unfold dbApply at ih hy
          rw [List.foldl_append] at hy
          simp only [List.foldl_cons, List.foldl_nil] at hy
          cases op with
          | set id z =>
            simp only [dbStep] at hy
            split at hy
            · rename_i he
              subst he
              simp only [Option.some.injEq] at hy
              subst hy
              obtain ⟨_, _, _, _, i, g, hc⟩ := db_mem_set hr (hin (.set d z) (by simp))
              exact ⟨g, List.mem_append_right _ (List.mem_map.2 ⟨_, hc, rfl⟩)⟩
            · exact ih hy
          | del id =>
            simp only [dbStep] at hy
            split at hy
            · simp at hy
            · exact ih hy
      exact key _ (fun _ h => h) y hy
    rcases hg.gone d y g hgv with h | ⟨l1, f, l2, e1, e2⟩
    · exact h
    · obtain ⟨l, hl⟩ := hround d h0
      rw [hl.db_gone hu hdb h0 hall e1 e2 m] at hy
      simp at hy
  have huniq : ∀ {y z}, (d, y) ∈ docs → (d, z) ∈ docs → y = z := by
    intro y z hy hz
    have := List.inj_on_of_nodup_map hg.distinct hy hz rfl
    simpa using this
  constructor
  · intro h
    obtain ⟨h1, h2, h3⟩ := dbContent_route hdb hr h
    exact ⟨List.mem_filter.2 ⟨hval h, by simpa using ⟨h2, h3⟩⟩, h1⟩
  · rintro ⟨h, hm⟩
    obtain ⟨hd, h0⟩ := List.mem_filter.1 h
    simp only [decide_eq_true_eq] at h0
    obtain ⟨h0, he⟩ := h0
    have hdel : DbOp.del d ∉ p.dbLog m := by
      intro h
      obtain ⟨i, f, hc⟩ := db_mem_del hr h
      exact (hg.kept d x hd).1 f (List.mem_append_right _ (List.mem_map.2 ⟨_, hc, rfl⟩))
    obtain ⟨y, hy⟩ : ∃ y, p.dbContent db m d = some y := by
      unfold Pipe.dbContent
      rw [dbApply_sets _ _ _ hdel]
      cases hl : ((p.dbLog m).filter (DbOp.isSet d)).getLast? with
      | some op =>
        have hmem := List.mem_of_getLast? hl
        obtain ⟨h1, h2⟩ := List.mem_filter.1 hmem
        cases op with
        | del id => simp [DbOp.isSet] at h2
        | set id z => exact ⟨z, rfl⟩
      | none =>
        rw [Option.elim_none]
        obtain ⟨g, hx⟩ := hg.given d x hd
        rcases List.mem_append.1 hx with hx | hx
        · obtain ⟨⟨d', x'⟩, h1, h2⟩ := List.mem_map.1 hx
          simp only [Call.index.injEq] at h2
          obtain ⟨rfl, rfl, _⟩ := h2
          unfold PipeCfg.recovered at h1
          rw [if_pos hu] at h1
          obtain ⟨m', _, h3⟩ := List.mem_flatMap.1 h1
          have hmm : m' = m := by rw [← hm, ((hdb m').2 _ h3).1]
          subst hmm
          exact ⟨_, ((listedDb_lists (hdb m').1).2 _ _).1 h3⟩
        · obtain ⟨⟨i, a⟩, h1, h2⟩ := List.mem_map.1 hx
          simp only at h2
          subst h2
          have hin : 0 < (p.issuedDb m).countP (DbOp.isSet d) := by
            refine List.countP_pos_iff.2 ⟨DbOp.set d x, List.mem_flatMap.2 ⟨_, h1, ?_⟩, by simp [DbOp.isSet]⟩
            simp only [PipeCfg.callDb]
            rw [if_pos ⟨hu, h0, hm, he⟩]
            simp
          rw [← hall, List.countP_eq_length_filter] at hin
          rw [List.getLast?_eq_none_iff] at hl
          rw [hl] at hin
          simp at hin
    rw [hy, huniq (hval hy) hd]

/-- When no work is left every database operation was executed. -/
theorem db_quiet {db : Fin c.stores → List (Str × D)} {p : Pipe c} (hr : Reach db p) (hq : p.Quiet) (m : Fin c.stores) (q : DbOp D → Bool) :
    (p.dbLog m).countP q = (p.issuedDb m).countP q := by
  obtain ⟨as, ha⟩ := hr
  have := db_conserve m q db as p ha
  rw [pending_zero_of _ (fun t => by rw [hq.1 t]; rfl) hq.2.1 hq.2.2] at this
  omega

end

section
variable {c c' : PipeCfg D} {E E' : EngCfg D F A} {textOf : D → DocText} {o o' : IndexerOpts} {db : Fin c.stores → List (Str × D)}
  {db' : Fin c'.stores → List (Str × D)}
  {as : List (EAct c.toPipeSize D F)} {as' : List (EAct c'.toPipeSize D F)} {st : Full c F A} {st' : Full c' F A} {k k' : Nat} {r r' : SearchReq F}
  {docs more : List (Str × D)}

/-- **C123** A collection was indexed and flushed on an engine with storage, under any schedule, and searched; then the process ended. Its databases contain
exactly the documents of the collection whose data can be encoded, each in its database, with its data. -/
theorem C123_stored (hs : SearchedCollection c E textOf o db as st k r docs) (hu : c.useStore = true) (hdb : DbOk c db)
    (m : Fin c.stores) (d : Str) (x : D) :
    st.fine.pipe.dbContent db m d = some x ↔ (d, x) ∈ c.storable docs ∧ c.storeRoute d = m := by
  obtain ⟨b, f, i, h1, h2, h3, h4, h5, h6, h7⟩ := hs.searched
  have hlen := after_length hs.runs
  have hb : b ≤ as.length := by
    obtain ⟨hlt, _⟩ := List.getElem?_eq_some_iff.1 h1.1
    omega
  obtain ⟨bs, hbs, hcalls⟩ := after_pipe hs.runs hb
  rw [hlen] at hbs
  have hc : st.fine.pipe.calls = (Full.after E (Full.start c o db) as b).fine.pipe.calls := by
    rw [run_calls _ _ bs hbs]
    have : bs.flatMap Act.called = [] := by
      rw [List.eq_nil_iff_forall_not_mem]
      intro x hx
      obtain ⟨v, hv, hcall⟩ := hcalls x hx
      exact h6 v _ _ (by omega) hcall
    rw [this, List.append_nil]
  have hr := after_reach hs.runs b
  refine content_collection hu hdb (hr.run hbs) ?_ ?_ ?_ m d x
  · intro d h0
    obtain ⟨l, hl⟩ := h3 d h0
    exact ⟨l, Rounds.later _ _ bs _ [] hl hbs (by rw [hc, List.append_nil]) rfl⟩
  · intro m q
    obtain ⟨t, ht⟩ := run_dbLog bs _ _ hbs m
    have e1 := db_quiet hr h2 m q
    have e2 : st.fine.pipe.issuedDb m = (Full.after E (Full.start c o db) as b).fine.pipe.issuedDb m := by
      unfold Pipe.issuedDb
      rw [hc]
    obtain ⟨cs, hcs⟩ := hr.run hbs
    have e3 := db_conserve m q db cs _ hcs
    rw [← ht, List.countP_append] at e3 ⊢
    rw [e2] at e3 ⊢
    omega
  · unfold Pipe.given at h7 ⊢
    rwa [hc]

/-- **C123** What a new engine, with any other configuration that opens at least as many store shards, reads from these files: exactly the stored documents. -/
theorem C123_recovered (hs : SearchedCollection c E textOf o db as st k r docs) (hu : c.useStore = true) (hdb : DbOk c db)
    (hu' : c'.useStore = true) (hle : c.stores ≤ c'.stores)
    (hfiles : ReopenedDb c c' (fun m => st.fine.pipe.dbContent db m) db') :
    ∀ d x, (d, x) ∈ c'.recovered db' ↔ (d, x) ∈ c.storable docs := by
  intro d x
  unfold PipeCfg.recovered
  rw [if_pos hu']
  constructor
  · intro h
    obtain ⟨m, _, hm⟩ := List.mem_flatMap.1 h
    by_cases hlt : m.val < c.stores
    · have := (((hfiles m).1 hlt).2 d x).1 hm
      exact ((C123_stored hs hu hdb _ d x).1 this).1
    · rw [(hfiles m).2 (by omega)] at hm
      simp at hm
  · intro h
    have hlt := (c.storeRoute d).isLt
    refine List.mem_flatMap.2 ⟨⟨(c.storeRoute d).val, by omega⟩, List.mem_finRange _, ?_⟩
    refine (((hfiles ⟨(c.storeRoute d).val, by omega⟩).1 hlt).2 d x).2 ?_
    exact (C123_stored hs hu hdb _ d x).2 ⟨h, rfl⟩

/-- **C123** ... and a new engine on these files, with any other configuration (any numbers of index shards and at least as many store shards), on which a further
collection `more` is indexed (or nothing) and flushed, is, in every search made when all work is done, an engine on which the
stored documents and those of `more` were indexed: everything proved about searched collections holds of it. -/
theorem C123_survives (hs : SearchedCollection c E textOf o db as st k r docs) (hu : c.useStore = true) (hdb : DbOk c db)
    (hu' : c'.useStore = true) (hle : c.stores ≤ c'.stores)
    (hfiles : ReopenedDb c c' (fun m => st.fine.pipe.dbContent db m) db')
    (hs' : SearchedOnFiles c' E' textOf o' db' as' st' k' r' more)
    (hdisj : ∀ d x y, (d, x) ∈ c.storable docs → (d, y) ∉ more) :
    SearchedCollection c' E' textOf o' db' as' st' k' r' (c.storable docs ++ more) := by
  classical
  obtain ⟨b0, f0, i0, _, _, _, _, _, _, h7⟩ := hs.searched
  have hrec := C123_recovered hs hu hdb hu' hle hfiles
  obtain ⟨b, f, i, g1, g2, g3, g4, g5, g6, g7⟩ := hs'.searched
  have hgiven : GivenOnce ((Full.after E' (Full.start c' o' db') as' b).fine.pipe.given db') (c.storable docs ++ more) := by
    refine ⟨?_, ?_, ?_⟩
    · rw [List.map_append, List.nodup_append]
      refine ⟨h7.distinct.sublist (List.filter_sublist.map _), g7.distinct, ?_⟩
      rintro d hd d' hd' rfl
      obtain ⟨⟨d1, x⟩, hx, rfl⟩ := List.mem_map.1 hd
      obtain ⟨⟨d2, y⟩, hy, he⟩ := List.mem_map.1 hd'
      simp only at he
      subst he
      exact hdisj _ x y hx hy
    · intro a ha
      rcases List.mem_append.1 ha with ha | ha
      · obtain ⟨⟨d, x⟩, hx, rfl⟩ := List.mem_map.1 ha
        exact Or.inr ⟨d, x, false, List.mem_append_left _ ((hrec d x).1 hx), rfl⟩
      · rcases g7.only a ha with h | ⟨d, x, g, h, rfl⟩
        · exact Or.inl h
        · exact Or.inr ⟨d, x, g, List.mem_append_right _ h, rfl⟩
    · intro d x hx
      rcases List.mem_append.1 hx with hx | hx
      · exact ⟨false, List.mem_append_left _ (List.mem_map.2 ⟨(d, x), (hrec d x).2 hx, rfl⟩)⟩
      · obtain ⟨g, hg⟩ := g7.all d x hx
        exact ⟨g, List.mem_append_right _ hg⟩
  exact ⟨hs'.texts, hs'.sorts, hs'.gsorts, hs'.fits, hs'.runs, hs'.gentle, hs'.returned, b, f, i, g1, g2, g3, g4, g5, g6, hgiven.remains⟩

/-- **C123** The same search, made before the process ended and made on the new engine (nothing else was indexed; all data can be encoded, and the new engine puts
the same documents together on a shard, with the same settings): the same number of documents, the same score vectors at the same places, and the same documents
with the same data, if no two results have the same score vector. -/
theorem C123_same_answer (hs : SearchedCollection c E textOf o db as st k r docs) (hu : c.useStore = true) (hdb : DbOk c db)
    (hu' : c'.useStore = true) (hle : c.stores ≤ c'.stores)
    (hfiles : ReopenedDb c c' (fun m => st.fine.pipe.dbContent db m) db')
    (hs' : SearchedOnFiles c' E' textOf o' db' as' st' k' r [])
    (henc : ∀ d x, (d, x) ∈ docs → d ≠ str "0" ∧ c.encodes x = true)
    (hE : SameSetting E E') (hlog : E'.log2 = E.log2) (hit : o.indexType = o'.indexType) (hbm : o.bm25 = o'.bm25)
    (hroute : ∀ y z : Str × D, c.route y.1 y.2 = c.route z.1 z.2 ↔ c'.route y.1 y.2 = c'.route z.1 z.2)
    (hc : r.countDocsOnly = false) (hor : r.orderless = false) (hto : r.timeout ≤ 0)
    (hasks : r.logic.Asks (Engine.tokens E.text E.opts r ++ r.labels))
    (htok : r.logic = {} → o.indexType = .locs → E.tokens r ≠ []) {off m : Nat}
    (ho : (wantedRank E.opts r).outputOffset = off) (hm : (wantedRank E.opts r).maxOutputs = m)
    (hnan : ∀ d f, NoNaN ((wantedRank E.opts r).score d f)) :
    ∃ (all : List (ScoredDoc F A)) (x x' : SearchResp F A), st.response E k = some x ∧ st'.response E' k' = some x' ∧
      IsPageOf E.opts.idOnly (wantedRank E.opts r).reverseOrder (Engine.tokens E.text E.opts r) off m all x ∧
      x.numDocs = x'.numDocs ∧ x.tokens = x'.tokens ∧ x.timeout = false ∧ x'.timeout = false ∧
      x.docs.map RankOut.scores = x'.docs.map RankOut.scores ∧
      ((all.map (fun y => scoreKey y.scoredID.scores)).Nodup → x.docs = x'.docs) := by
  classical
  have hs2 := C123_survives hs hu hdb hu' hle hfiles hs' (by simp)
  have hd : c.storable docs = docs := by
    unfold PipeCfg.storable
    rw [List.filter_eq_self]
    intro y hy
    simpa using henc y.1 y.2 hy
  rw [hd, List.append_nil] at hs2
  exact C109_only_the_collection hs hs2 hE hlog (List.Perm.refl _) hit hbm hroute hc hor hto hasks htok ho hm hnan

end

/-! ## Examples -/

section
variable (c : PipeCfg D) (E : EngCfg D F A) (o : IndexerOpts) (db : Fin c.stores → List (Str × D)) (i : Fin c.clients) (docs : List (Str × D)) (r : SearchReq F)

def fileStart : Full c F A := Full.start c o db
def fileLoad : List (EAct c.toPipeSize D F) := (fileStart c o db : Full c F A).script E
  (.inr (engineCands _) :: docs.flatMap (fun x => [.inl (.pipe (.call i (.index x.1 x.2 false))), .inr (engineCands _)]))
def fileLoaded : Full c F A := ((fileStart c o db).run E (fileLoad c E o db i docs)).getD (fileStart c o db)
def fileTail : List (EAct c.toPipeSize D F) :=
  (((fileLoaded c E o db i docs).step E (.pipe (.call i .flush))).getD (fileLoaded c E o db i docs)).greedy E (engineCands _) 300
def fileFlush : List (EAct c.toPipeSize D F) := .pipe (.call i .flush) :: fileTail c E o db i docs
def fileFlushed : Full c F A := ((fileLoaded c E o db i docs).run E (fileFlush c E o db i docs)).getD (fileLoaded c E o db i docs)
def fileSearch : List (EAct c.toPipeSize D F) :=
  .start r :: (((fileFlushed c E o db i docs).step E (.start r)).getD (fileFlushed c E o db i docs)).greedy E (searchCands _ 1) 300
/-- The databases are read; the documents are indexed one after the other; then Flush; then a search. -/
def fileRun : List (EAct c.toPipeSize D F) := fileLoad c E o db i docs ++ fileFlush c E o db i docs ++ fileSearch c E o db i docs r

/-- The schedule runs, everything is done before the search begins, and the response of the search is as expected. -/
def fileCheck [DecidableEq D] (want : Option (SearchResp F A) → Bool) : Bool :=
  ((fileStart c o db).gentleRun E o db (fileRun c E o db i docs r)).any (fun st =>
    decide (0 < st.searches.length) && decide ((st.got 0).length = c.shards) && want (st.response E 0)) &&
  decide (((fileLoad c E o db i docs ++ fileFlush c E o db i docs).filter EAct.isStart).length = 0) &&
  ((fileStart c o db).run E (fileLoad c E o db i docs)).isSome &&
  ((fileLoaded c E o db i docs).run E (fileFlush c E o db i docs)).isSome &&
  (List.finRange c.clients).all (fun j => ((fileLoaded c E o db i docs).fine.pipe.prog (.client j)).isEmpty) &&
  decide ((fileLoaded c E o db i docs).fine.pipe.calls.map (·.2) = docs.map (fun x => Call.index x.1 x.2 false)) &&
  decide ((fileFlushed c E o db i docs).fine.pipe.calls.map (·.2) = docs.map (fun x => Call.index x.1 x.2 false) ++ [Call.flush]) &&
  decide ((c.recovered db ++ docs).map (·.1)).Nodup &&
  (fileTail c E o db i docs).all (fun a => a.call?.isNone) &&
  ((fileFlushed c E o db i docs).fine.pipe.prog (.client i)).isEmpty &&
  (fileFlushed c E o db i docs).fine.pipe.quietB &&
  (fileSearch c E o db i docs r).all (fun a => a.call?.isNone) &&
  decide ((c.recovered db).length < o.init.docCacheSize)

end

/-- A schedule that was checked is a search on files. -/
theorem file_searched [DecidableEq D] {c : PipeCfg D} {E : EngCfg D F A} {textOf : D → DocText} {o : IndexerOpts} {db : Fin c.stores → List (Str × D)}
    {i : Fin c.clients} {docs : List (Str × D)} {r : SearchReq F} {want : Option (SearchResp F A) → Bool} (ht : FromTexts c E textOf) (hso : SortOk E.so)
    (hgs : GSortOk E.gs) (hc : fileCheck c E o db i docs r want = true) :
    ∃ st, SearchedOnFiles c E textOf o db (fileRun c E o db i docs r) st 0 r docs ∧ want (st.response E 0) = true := by
  unfold fileCheck at hc
  simp only [Bool.and_eq_true, decide_eq_true_eq] at hc
  obtain ⟨⟨⟨⟨⟨⟨⟨⟨⟨⟨⟨⟨h, hb⟩, hl⟩, hf⟩, hidle⟩, hcl1⟩, hcl2⟩, hnd⟩, htail⟩, hdone⟩, hq⟩, hno⟩, hrec⟩ := hc
  have rl : (Full.start c o db).run E (fileLoad c E o db i docs) = some (fileLoaded c E o db i docs) := by
    obtain ⟨x, hx⟩ := Option.isSome_iff_exists.1 hl
    rw [fileLoaded, hx, Option.getD_some]; exact hx
  have rf : (fileLoaded c E o db i docs).run E (fileFlush c E o db i docs) = some (fileFlushed c E o db i docs) := by
    obtain ⟨x, hx⟩ := Option.isSome_iff_exists.1 hf
    rw [fileFlushed, hx, Option.getD_some]
  have hst : (fileSearch c E o db i docs r)[0]? = some (.start r) := by rw [fileSearch]; rfl
  have hall : ∀ d f, Call.remove d f ∉ (fileFlushed c E o db i docs).fine.pipe.given db := by
    intro d f
    unfold Pipe.given
    rw [hcl2]
    simp
  obtain ⟨b, k1, k2, k3, k4, k5, k6, k7, k8, k9⟩ := late_hyps_coll (E := E) (tail := fileTail c E o db i docs)
    (rest := fileSearch c E o db i docs r) (o := o) (db := db) ht.docOk rl rf
    (fun j => by simpa using List.all_eq_true.1 hidle j (List.mem_finRange j)) htail (by simpa using hdone) (quiet_of_B hq)
    (docs := c.recovered db ++ docs)
    (by rw [hcl1, List.map_append]) hnd hall hb hst hno (as := fileRun c E o db i docs r) rfl
  obtain ⟨st, h1, h2⟩ := (Option.any_eq_true _ _).1 h
  simp only [Bool.and_eq_true, decide_eq_true_eq] at h2
  obtain ⟨g1, g2⟩ := full_gentleRun_spec _ h1
  refine ⟨st, ⟨ht, hso, hgs, ?_, g1, g2, ⟨h2.1.1, h2.1.2⟩, b, _, i, k1, k2, k3, k8, k7, k9, ?_⟩, h2.2⟩
  · intro s
    refine Nat.lt_of_le_of_lt (List.countP_le_length) ?_
    rw [List.length_map]
    exact hrec
  · rw [k6, hcl2]
    rw [List.map_append, List.nodup_append] at hnd
    refine ⟨hnd.2.1, ?_, ?_⟩
    · intro a ha
      rcases List.mem_append.1 ha with ha | ha
      · obtain ⟨x, hx, rfl⟩ := List.mem_map.1 ha
        exact Or.inr ⟨x.1, x.2, false, hx, rfl⟩
      · exact Or.inl (by simpa using ha)
    · intro d x hx
      exact ⟨false, List.mem_append_left _ (List.mem_map.2 ⟨(d, x), hx, rfl⟩)⟩

/-- Two index shards, two store shards; the data 5 cannot be encoded. -/
def savingEngine : PipeCfg Nat :=
  { demoPipe 1 2 2 (by decide) (by decide) true with
    encodes := fun n => decide (n ≠ 5)
    docOf := fun id n => docOf demoEnv (demoEng true).opts.toTextOpts id (demoTexts n) }

/-- The same with three store shards. -/
def savingEngine3 : PipeCfg Nat :=
  { demoPipe 1 2 3 (by decide) (by decide) true with
    encodes := fun n => decide (n ≠ 5)
    docOf := fun id n => docOf demoEnv (demoEng true).opts.toTextOpts id (demoTexts n) }

def savedDocs : List (Str × Nat) := [(str "X", 4), (str "YY", 2), (str "Z", 5)]

/-- The files with the storable documents of `savedDocs`, opened with three store shards. -/
def savedFiles : Fin savingEngine3.stores → List (Str × Nat) := fun m =>
  if m.val = 0 then [(str "YY", 2)] else if m.val = 1 then [(str "X", 4)] else []

theorem savingEngine_texts : FromTexts savingEngine (demoEng true) demoTexts := fun _ _ => docOf_isDocIndexOf _ _ _ _
theorem savingEngine3_texts : FromTexts savingEngine3 (demoEng true) demoTexts := fun _ _ => docOf_isDocIndexOf _ _ _ _

/-- Files that list the storable documents of a collection are the files the first engine leaves. -/
theorem saved_reopened {docs : List (Str × Nat)} {left : Fin savingEngine.stores → Str → Option Nat}
    (hkept : ∀ d x, (d, x) ∈ savingEngine.storable docs ↔ (d, x) = (str "X", 4) ∨ (d, x) = (str "YY", 2))
    (h : ∀ m d x, left m d = some x ↔ (d, x) ∈ savingEngine.storable docs ∧ savingEngine.storeRoute d = m) :
    ReopenedDb savingEngine savingEngine3 left savedFiles := by
  intro m
  constructor
  · intro hlt
    have hlt2 : m.val < 2 := hlt
    refine ⟨by unfold savedFiles; split <;> [skip; split] <;> simp, fun d x => ?_⟩
    rw [h, hkept]
    have e1 : savingEngine.storeRoute (str "X") = ⟨1, by decide⟩ := by decide +kernel
    have e2 : savingEngine.storeRoute (str "YY") = ⟨0, by decide⟩ := by decide +kernel
    unfold savedFiles
    constructor
    · intro hm
      by_cases h0 : m.val = 0
      · rw [if_pos h0, List.mem_singleton] at hm
        refine ⟨Or.inr hm, ?_⟩
        obtain ⟨rfl, _⟩ := Prod.mk.inj hm
        rw [e2]; exact Fin.ext h0.symm
      · have h1 : m.val = 1 := by omega
        rw [if_neg h0, if_pos h1, List.mem_singleton] at hm
        refine ⟨Or.inl hm, ?_⟩
        obtain ⟨rfl, _⟩ := Prod.mk.inj hm
        rw [e1]; exact Fin.ext h1.symm
    · rintro ⟨hm | hm, hr⟩
      · obtain ⟨rfl, rfl⟩ := Prod.mk.inj hm
        rw [e1] at hr
        have hv : 1 = m.val := congrArg Fin.val hr
        rw [if_neg (by omega), if_pos hv.symm]
        simp
      · obtain ⟨rfl, rfl⟩ := Prod.mk.inj hm
        rw [e2] at hr
        have hv : 0 = m.val := congrArg Fin.val hr
        rw [if_pos hv.symm]
        simp
  · intro hle
    have h2 : 2 ≤ m.val := hle
    unfold savedFiles
    rw [if_neg (by omega), if_neg (by omega)]

theorem savingEngine_dbOk : DbOk savingEngine (fun _ => []) := fun _ => ⟨by simp, by simp⟩

/-- The hypotheses of `C123_survives` hold: three documents, of which one cannot be encoded, are indexed, flushed and found; the process ends; on the new
engine a further document is indexed; it finds the two stored documents and the new one. -/
example : ∃ (st : Full savingEngine Nat Nat) (st' : Full savingEngine3 Nat Nat),
    SearchedCollection savingEngine (demoEng true) demoTexts (smallOpts .docIds 10) (fun _ => [])
      (collRun savingEngine (demoEng true) (smallOpts .docIds 10) ⟨0, by decide⟩ savedDocs { text := str "red" }) st 0 { text := str "red" } savedDocs ∧
    ReopenedDb savingEngine savingEngine3 (fun m => st.fine.pipe.dbContent (fun _ => []) m) savedFiles ∧
    SearchedOnFiles savingEngine3 (demoEng true) demoTexts (smallOpts .docIds 10) savedFiles
      (fileRun savingEngine3 (demoEng true) (smallOpts .docIds 10) savedFiles ⟨0, by decide⟩ [(str "W", 3)] { text := str "red" }) st' 0
      { text := str "red" } [(str "W", 3)] ∧
    (∀ d x y, (d, x) ∈ savingEngine.storable savedDocs → (d, y) ∉ [(str "W", 3)]) ∧
    respIds (st.response (demoEng true) 0) = some ([str "Z", str "X", str "YY"], 3) ∧
    respIds (st'.response (demoEng true) 0) = some ([str "X", str "W", str "YY"], 3) := by
  obtain ⟨st, h1, h2⟩ := coll_searched (c := savingEngine) (E := demoEng true) (textOf := demoTexts) (o := smallOpts .docIds 10) (i := ⟨0, by decide⟩)
    (docs := savedDocs) (r := { text := str "red" })
    (want := fun r => decide (respIds r = some ([str "Z", str "X", str "YY"], 3)))
    savingEngine_texts insSort_ok insGSort_ok (by decide +kernel)
  obtain ⟨st', h1', h2'⟩ := file_searched (c := savingEngine3) (E := demoEng true) (textOf := demoTexts) (o := smallOpts .docIds 10) (db := savedFiles)
    (i := ⟨0, by decide⟩) (docs := [(str "W", 3)]) (r := { text := str "red" })
    (want := fun r => decide (respIds r = some ([str "X", str "W", str "YY"], 3)))
    savingEngine3_texts insSort_ok insGSort_ok (by decide +kernel)
  have hkept : ∀ d x, (d, x) ∈ savingEngine.storable savedDocs ↔ (d, x) = (str "X", 4) ∨ (d, x) = (str "YY", 2) := by
    intro d x
    have z1 : str "X" ≠ str "0" := by decide +kernel
    have z2 : str "YY" ≠ str "0" := by decide +kernel
    unfold PipeCfg.storable savedDocs
    rw [List.mem_filter]
    constructor
    · rintro ⟨hm, hp⟩
      simp only [decide_eq_true_eq, savingEngine] at hp
      simp only [List.mem_cons, List.not_mem_nil, or_false] at hm
      rcases hm with hm | hm | hm
      · exact Or.inl hm
      · exact Or.inr hm
      · exact absurd (Prod.mk.inj hm).2 hp.2
    · rintro (hm | hm) <;> obtain ⟨rfl, rfl⟩ := Prod.mk.inj hm
      · exact ⟨by simp, by simpa [savingEngine] using z1⟩
      · exact ⟨by simp, by simpa [savingEngine] using z2⟩
  refine ⟨st, st', h1, saved_reopened hkept (fun m d x => C123_stored h1 rfl savingEngine_dbOk m d x), h1', ?_, of_decide_eq_true h2, of_decide_eq_true h2'⟩
  intro d x y hx hy
  have w1 : str "X" ≠ str "W" := by decide +kernel
  have w2 : str "YY" ≠ str "W" := by decide +kernel
  obtain ⟨rfl, _⟩ := Prod.mk.inj (List.mem_singleton.1 hy)
  rcases (hkept _ _).1 hx with hm | hm
  · exact w1 (Prod.mk.inj hm).1.symm
  · exact w2 (Prod.mk.inj hm).1.symm

/-- The hypotheses of `C123_same_answer` hold, too. -/
example : ∃ (st : Full savingEngine Nat Nat) (st' : Full savingEngine3 Nat Nat),
    SearchedCollection savingEngine (demoEng true) demoTexts (smallOpts .docIds 10) (fun _ => [])
      (collRun savingEngine (demoEng true) (smallOpts .docIds 10) ⟨0, by decide⟩ [(str "X", 4), (str "YY", 2)] { text := str "red" }) st 0
      { text := str "red" } [(str "X", 4), (str "YY", 2)] ∧
    ReopenedDb savingEngine savingEngine3 (fun m => st.fine.pipe.dbContent (fun _ => []) m) savedFiles ∧
    SearchedOnFiles savingEngine3 (demoEng true) demoTexts (smallOpts .docIds 10) savedFiles
      (fileRun savingEngine3 (demoEng true) (smallOpts .docIds 10) savedFiles ⟨0, by decide⟩ [] { text := str "red" }) st' 0
      { text := str "red" } [] ∧
    respIds (st.response (demoEng true) 0) = some ([str "X", str "YY"], 2) ∧
    respIds (st'.response (demoEng true) 0) = some ([str "X", str "YY"], 2) := by
  obtain ⟨st, h1, h2⟩ := coll_searched (c := savingEngine) (E := demoEng true) (textOf := demoTexts) (o := smallOpts .docIds 10) (i := ⟨0, by decide⟩)
    (docs := [(str "X", 4), (str "YY", 2)]) (r := { text := str "red" })
    (want := fun r => decide (respIds r = some ([str "X", str "YY"], 2)))
    savingEngine_texts insSort_ok insGSort_ok (by decide +kernel)
  obtain ⟨st', h1', h2'⟩ := file_searched (c := savingEngine3) (E := demoEng true) (textOf := demoTexts) (o := smallOpts .docIds 10) (db := savedFiles)
    (i := ⟨0, by decide⟩) (docs := []) (r := { text := str "red" })
    (want := fun r => decide (respIds r = some ([str "X", str "YY"], 2)))
    savingEngine3_texts insSort_ok insGSort_ok (by decide +kernel)
  refine ⟨st, st', h1, saved_reopened ?_ (fun m d x => C123_stored h1 rfl savingEngine_dbOk m d x), h1', of_decide_eq_true h2, of_decide_eq_true h2'⟩
  intro d x
  have z1 : str "X" ≠ str "0" := by decide +kernel
  have z2 : str "YY" ≠ str "0" := by decide +kernel
  unfold PipeCfg.storable
  rw [List.mem_filter]
  constructor
  · rintro ⟨hm, _⟩
    simpa using hm
  · rintro (hm | hm) <;> obtain ⟨rfl, rfl⟩ := Prod.mk.inj hm
    · exact ⟨by simp, by simpa [savingEngine] using z1⟩
    · exact ⟨by simp, by simpa [savingEngine] using z2⟩

end Riot
