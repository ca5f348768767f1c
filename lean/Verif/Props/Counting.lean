import Verif.Props.ShardingRun

/-!
# C122: counting the matching documents of a collection
-/

namespace Riot

variable {D F A : Type}

section
variable {c : PipeCfg D} {E : EngCfg D F A} {textOf : D → DocText} {o : IndexerOpts} {db : Fin c.stores → List (Str × D)}
  {as : List (EAct c.toPipeSize D F)} {st : Full c F A} {k : Nat} {r : SearchReq F} {docs : List (Str × D)}

/-- The ids found on the shards are the ids of the documents asked for. -/
theorem found_collection (hs : SearchedCollection c E textOf o db as st k r docs) {b f : Nat} {i : Fin c.clients}
    (h2 : (Full.after E (Full.start c o db) as b).fine.pipe.Quiet)
    (h3 : ∀ d, d ≠ str "0" → ∃ l, Rounds db d (Full.after E (Full.start c o db) as b).fine.pipe l)
    (h4 : as[f]? = some (.pipe (.call i .flush))) (h5 : f < b) (h6 : ∀ t j (a : Call D), f < t → as[t]? ≠ some (.pipe (.call j a)))
    (h7 : Remains ((Full.after E (Full.start c o db) as b).fine.pipe.given db) docs)
    (hasks : r.logic.Asks (Engine.tokens E.text E.opts r ++ r.labels)) {parts : List (Part c)}
    (g1 : (parts.map (·.shard)).Nodup) (g2 : ∀ p ∈ parts, FoundOk E (Full.start c o db) as b r p)
    (g3 : ∀ s, s ∈ parts.map (·.shard)) :
    ((parts.flatMap (·.docs)).map (·.docId)).Perm ((askedFor E textOf r (docs.filter (fun y => y.1 ≠ str "0"))).map (·.1)) := by
  classical
  have hp : ∀ p ∈ parts, (p.docs.map (·.docId)).Perm ((askedFor E textOf r (onShard c p.shard docs)).map (·.1)) := by
    intro p hp
    obtain ⟨f1, f2, _, _⟩ := found_after_flush hs.texts hs.sorts hs.fits hs.runs hs.gentle h4 h6 h5 h2 h3 hasks (g2 p hp)
    have hn : ((askedFor E textOf r (onShard c p.shard docs)).map (·.1)).Nodup :=
      h7.distinct.sublist ((List.filter_sublist.trans List.filter_sublist).map _)
    rw [List.perm_ext_iff_of_nodup f1 hn]
    intro d
    rw [f2]
    simp only [askedFor, onShard, List.mem_map, List.mem_filter, decide_eq_true_eq]
    constructor
    · rintro ⟨h0, x, hx, hsat⟩
      obtain ⟨k1, k2⟩ := (h7.latest p.shard _ _).1 hx
      exact ⟨(d, x), ⟨⟨k2, h0, k1⟩, hsat⟩, rfl⟩
    · rintro ⟨⟨d', x⟩, ⟨⟨k1, k2, k3⟩, k4⟩, rfl⟩
      exact ⟨k2, x, (h7.latest p.shard _ _).2 ⟨k3, k1⟩, k4⟩
  have hd := divide_shards (E := E) (textOf := textOf) (List.Nodup.of_map _ h7.distinct) g1 g3 r (fun _ y => some y.1)
  simp only [List.filterMap_eq_map'] at hd
  rw [List.flatMap_map] at hd
  rw [List.map_flatMap]
  exact (List.Perm.flatMap_left _ hp).trans hd

/-- **C122** A collection was indexed and flushed, under any schedule. A search with CountDocsOnly and without time-out
returns no documents, and the number of documents of the collection that match (whatever the criteria say: documents to which they give no scores are counted, too). -/
theorem C122_count (hs : SearchedCollection c E textOf o db as st k r docs) (hc : r.countDocsOnly = true) (hto : r.timeout ≤ 0)
    (hasks : r.logic.Asks (Engine.tokens E.text E.opts r ++ r.labels)) :
    st.response E k = some { tokens := Engine.tokens E.text E.opts r, timeout := false
                             numDocs := (askedFor E textOf r (docs.filter (fun y => y.1 ≠ str "0"))).length
                             docs := none } := by
  obtain ⟨b, f, i, h1, h2, h3, h4, h5, h6, h7⟩ := hs.searched
  obtain ⟨parts, t, g1, g2, g3, g4⟩ := C73_count_during_everything hs.runs h1 hs.returned.2 hc
  have ht : t = false := C73_no_timeout hs.runs h1 hto g4
  subst ht
  have := (found_collection hs h2 h3 h4 h5 h6 h7 hasks g1 g2 (g3 rfl)).length_eq
  rw [List.length_map, List.length_map] at this
  rw [g4, this]
  rfl

/-- **C122** ... with Orderless it returns all of them, each once, in some order, without scores (the offset and the limit of the request are ignored). -/
theorem C122_orderless (hs : SearchedCollection c E textOf o db as st k r docs) (hc : r.countDocsOnly = false)
    (hor : r.orderless = true) (hto : r.timeout ≤ 0)
    (hasks : r.logic.Asks (Engine.tokens E.text E.opts r ++ r.labels)) :
    ∃ found : List IndexedDoc,
      (found.map (·.docId)).Perm ((askedFor E textOf r (docs.filter (fun y => y.1 ≠ str "0"))).map (·.1)) ∧
      st.response E k = some { tokens := Engine.tokens E.text E.opts r, timeout := false, numDocs := found.length
                               docs := some (resultDocs E.opts.idOnly (found.map bareEntry)) } := by
  obtain ⟨b, f, i, h1, h2, h3, h4, h5, h6, h7⟩ := hs.searched
  obtain ⟨parts, t, g1, g2, g3, g4⟩ := C73_orderless_during_everything hs.runs h1 hs.returned.2 hc hor
  have ht : t = false := C73_no_timeout hs.runs h1 hto g4
  subst ht
  exact ⟨parts.flatMap (fun p : Part c => p.docs), found_collection hs h2 h3 h4 h5 h6 h7 hasks g1 g2 (g3 rfl), g4⟩

end

/-- **C122** The number of a count-only search is the number a full search reports (whatever its page), also on another engine
with the same settings and in another run, if the criteria give every document at least one score. -/
theorem C122_count_is_numDocs {c c' : PipeCfg D} {E E' : EngCfg D F A} {textOf : D → DocText} {o o' : IndexerOpts}
    {db : Fin c.stores → List (Str × D)} {db' : Fin c'.stores → List (Str × D)}
    {as : List (EAct c.toPipeSize D F)} {as' : List (EAct c'.toPipeSize D F)} {st : Full c F A} {st' : Full c' F A} {k k' : Nat}
    {r : SearchReq F} {docs docs' : List (Str × D)}
    (hs : SearchedCollection c E textOf o db as st k r docs)
    (hs' : SearchedCollection c' E' textOf o' db' as' st' k' { r with countDocsOnly := true } docs')
    (hE : SameSetting E E') (hd : docs.Perm docs')
    (hc : r.countDocsOnly = false) (hor : r.orderless = false) (hto : r.timeout ≤ 0)
    (hasks : r.logic.Asks (Engine.tokens E.text E.opts r ++ r.labels))
    (htok : r.logic = {} → o.indexType = .locs → E.tokens r ≠ []) {off m : Nat}
    (ho : (wantedRank E.opts r).outputOffset = off) (hm : (wantedRank E.opts r).maxOutputs = m)
    (hnan : ∀ d f, NoNaN ((wantedRank E.opts r).score d f)) (hsc : ∀ d f, (wantedRank E.opts r).score d f ≠ []) :
    ∃ x x' : SearchResp F A, st.response E k = some x ∧ st'.response E' k' = some x' ∧ x.numDocs = x'.numDocs ∧ x'.docs = none := by
  have hres : ∀ (found : Str × D → IndexedDoc) (l : List (Str × D)),
      (l.filterMap (fun y => E.resultFor r (found y) y.2)).length = l.length := by
    intro found l
    rw [List.length_filterMap_eq_countP, List.countP_eq_length]
    intro y _
    unfold EngCfg.resultFor
    rw [if_neg (hsc _ _)]
    rfl
  have hcount := C122_count hs' rfl hto (by rw [hE.opts, hE.text]; exact hasks)
  have hask : (askedFor E' textOf { r with countDocsOnly := true } (docs'.filter (fun y => y.1 ≠ str "0"))).length =
      (askedFor E textOf r (docs.filter (fun y => y.1 ≠ str "0"))).length := by
    rw [askedFor_setting hE]
    exact (askedFor_perm (r := r) (hd.filter _)).length_eq.symm
  obtain ⟨x, hx, hn⟩ : ∃ x : SearchResp F A, st.response E k = some x ∧
      x.numDocs = (askedFor E textOf r (docs.filter (fun y => y.1 ≠ str "0"))).length := by
    by_cases hl : r.logic = {}
    · have hkw : Engine.tokens E.text E.opts r ++ r.labels ≠ [] := by
        obtain ⟨_, hk⟩ := hasks
        rcases hk with ⟨M, hM, hne⟩ | ⟨hM, _⟩
        · rw [hl] at hM
          simp only [mustOf, if_true, Option.some.injEq] at hM
          rw [hM]; exact hne
        · rw [hl] at hM; simp [mustOf] at hM
      obtain ⟨b, f, i, h1, h2, h3, h4, h5, h6, h7⟩ := hs.searched
      obtain ⟨n, avg, df, x, _, x1, x2, R, p1, _, _, p4, _⟩ := C105_whole hs.texts hs.sorts hs.gsorts hs.fits hs.runs hs.gentle h1 hs.returned h2 h3 h4 h5 h6 hc hor hto
        hl hkw (htok hl) h7 ho hm hnan
      refine ⟨x, x1, ?_⟩
      rw [p4]
      exact hres _ _
    · obtain ⟨x, x1, x2, R, p1, _, _, p4, _⟩ := C105_whole_logic hs hc hor hto hl hasks ho hm hnan
      refine ⟨x, x1, ?_⟩
      rw [p4]
      exact hres _ _
  exact ⟨x, _, hx, hcount, by rw [hn, hask], rfl⟩

/-! ## Examples -/

/-- Three documents, two with the word "house". -/
def threeDocs : List (Str × Nat) := [(str "X", 4), (str "Y", 2), (str "Z", 3)]

/-- The hypotheses hold of three runs: count only, orderless, and a full search with a page of one document; two documents match. -/
example : ∃ st st' st'', SearchedCollection textEngine (demoEng true) demoTexts (smallOpts .docIds 10) (fun _ => [])
      (collRun textEngine (demoEng true) (smallOpts .docIds 10) textUser threeDocs
        { text := str "house", countDocsOnly := true, rankOpts := some { maxOutputs := 1 } }) st 0
        { text := str "house", countDocsOnly := true, rankOpts := some { maxOutputs := 1 } } threeDocs ∧
    SearchedCollection textEngine (demoEng true) demoTexts (smallOpts .docIds 10) (fun _ => [])
      (collRun textEngine (demoEng true) (smallOpts .docIds 10) textUser threeDocs { text := str "house", orderless := true }) st' 0
        { text := str "house", orderless := true } threeDocs ∧
    SearchedCollection textEngine (demoEng true) demoTexts (smallOpts .docIds 10) (fun _ => [])
      (collRun textEngine (demoEng true) (smallOpts .docIds 10) textUser threeDocs { text := str "house", rankOpts := some { maxOutputs := 1 } }) st'' 0
        { text := str "house", rankOpts := some { maxOutputs := 1 } } threeDocs ∧
    (st.response (demoEng true) 0).map (fun x => (x.numDocs, x.docs.isSome)) = some (2, false) ∧
    respIds (st'.response (demoEng true) 0) = some ([str "X", str "Z"], 2) ∧
    respIds (st''.response (demoEng true) 0) = some ([str "X"], 2) ∧
    (∀ d f, (wantedRank (demoEng true).opts ({ text := str "house", rankOpts := some { maxOutputs := 1 } } : SearchReq Nat)).score d f ≠ []) := by
  obtain ⟨st, h1, h2⟩ := coll_searched (c := textEngine) (E := demoEng true) (textOf := demoTexts) (o := smallOpts .docIds 10) (i := textUser)
    (docs := threeDocs) (r := { text := str "house", countDocsOnly := true, rankOpts := some { maxOutputs := 1 } })
    (want := fun r => decide (r.map (fun x => (x.numDocs, x.docs.isSome)) = some (2, false)))
    (fun id x => docOf_isDocIndexOf _ _ _ _) insSort_ok insGSort_ok (by decide +kernel)
  obtain ⟨st', h1', h2'⟩ := coll_searched (c := textEngine) (E := demoEng true) (textOf := demoTexts) (o := smallOpts .docIds 10) (i := textUser)
    (docs := threeDocs) (r := { text := str "house", orderless := true })
    (want := fun r => decide (respIds r = some ([str "X", str "Z"], 2)))
    (fun id x => docOf_isDocIndexOf _ _ _ _) insSort_ok insGSort_ok (by decide +kernel)
  obtain ⟨st'', h1'', h2''⟩ := coll_searched (c := textEngine) (E := demoEng true) (textOf := demoTexts) (o := smallOpts .docIds 10) (i := textUser)
    (docs := threeDocs) (r := { text := str "house", rankOpts := some { maxOutputs := 1 } })
    (want := fun r => decide (respIds r = some ([str "X"], 2)))
    (fun id x => docOf_isDocIndexOf _ _ _ _) insSort_ok insGSort_ok (by decide +kernel)
  exact ⟨st, st', st'', h1, h1', h1'', of_decide_eq_true h2, of_decide_eq_true h2', of_decide_eq_true h2'', fun d f => by simp [wantedRank, demoEng]⟩

end Riot
