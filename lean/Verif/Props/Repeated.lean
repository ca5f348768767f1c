import Verif.Proofs.Repeated

/-!
# C129: a document that is indexed again and again, without waiting, but never removed
-/

namespace Riot

variable {D F A : Type} {c : PipeCfg D}

/-- What the index finds of a document that was only indexed. -/
theorem found_onlyIndexed (hdoc : c.DocOk) (hk : c.KeysOk) {E : EngCfg D F A} (hso : SortOk E.so) {o : IndexerOpts}
    {db : Fin c.stores → List (Str × D)} {as : List (EAct c.toPipeSize D F)} {st : Full c F A}
    (h : (Full.start c o db).run E as = some st) (hcl : (Full.start c o db).NoClash E as) {b t : Nat} (hbt : b ≤ t)
    (ht : t < as.length) {r : SearchReq F} (hlogic : r.logic = {}) (htok : o.indexType = .locs → E.tokens r ≠ [])
    (s : Fin c.shards) {docs : List IndexedDoc} (hf : (Full.after E (Full.start c o db) as t).found E s r = some docs)
    {d : Str} (h0 : d ≠ str "0") (hd : OnlyIndexed db (Full.after E (Full.start c o db) as b).fine.pipe d) (hno : NobodyCalls as b d) :
    (docs.map (·.docId)).Nodup ∧
    (d ∈ docs.map (·.docId) → E.tokens r ++ r.labels ≠ [] ∧ Allowed r.docIds d ∧
      ∃ y, VersionOn c s ((Full.after E (Full.start c o db) as b).fine.pipe.given db) d y ∧ ∀ w ∈ E.tokens r ++ r.labels, w ∈ (c.docOf d y).keys) ∧
    (E.tokens r ++ r.labels ≠ [] → Allowed r.docIds d → (∃ y, VersionOn c s ((Full.after E (Full.start c o db) as b).fine.pipe.given db) d y) →
      (∀ y, VersionOn c s ((Full.after E (Full.start c o db) as b).fine.pipe.given db) d y → ∀ w ∈ E.tokens r ++ r.labels, w ∈ (c.docOf d y).keys) →
      d ∈ docs.map (·.docId)) := by
  obtain ⟨fs, g1, g2⟩ := full_run_fine _ (after_run h (t := t)) (after_noClash hcl (Nat.le_of_lt ht))
  have hal := after_alive h ht s
  obtain ⟨tr, htr, vis, hv, hall⟩ := C62_search_during_calls_partial hk hso g1 g2 s hal E.log2
  obtain ⟨docs', f1, f2, f3, _⟩ := hall (E.tokens r) r.labels r.docIds htok
  unfold Full.found at hf
  rw [hlogic, lookup_no_logic, f1] at hf
  simp only [Option.map_some, Option.some.injEq] at hf
  subst hf
  -- the calls about `d` are the same at `b` and at `t`
  obtain ⟨cs, hcs, hcall⟩ := after_pipe h hbt
  have hnew : ∀ a ∈ (cs.flatMap Act.called).map (·.2), a.about d = false := by
    intro a ha
    obtain ⟨x, hx, rfl⟩ := List.mem_map.1 ha
    obtain ⟨v, hv', hav⟩ := hcall x hx
    exact hno v x.1 x.2 hv' hav
  have hgiven : (Full.after E (Full.start c o db) as t).fine.pipe.given db =
      (Full.after E (Full.start c o db) as b).fine.pipe.given db ++ (cs.flatMap Act.called).map (·.2) := by
    unfold Pipe.given
    rw [run_calls _ _ _ hcs, List.map_append, List.append_assoc]
  have hver : ∀ y, VersionOn c s ((Full.after E (Full.start c o db) as t).fine.pipe.given db) d y ↔
      VersionOn c s ((Full.after E (Full.start c o db) as b).fine.pipe.given db) d y := by
    intro y
    unfold VersionOn
    rw [hgiven]
    refine and_congr_left (fun _ => exists_congr (fun g => ?_))
    rw [List.mem_append]
    refine or_iff_left (fun hm => ?_)
    have := hnew _ hm
    simp [Call.about] at this
  have hkept : ∀ f, Call.remove d f ∉ (Full.after E (Full.start c o db) as t).fine.pipe.given db := by
    intro f hm
    rw [hgiven, List.mem_append] at hm
    rcases hm with hm | hm
    · exact hd.kept f hm
    · have := hnew _ hm
      simp [Call.about] at this
  obtain ⟨v1, v2⟩ := vis_onlyIndexed hdoc htr hv h0 (flushed_after h hbt hno hd.flushed) (issued_no_remove hkept)
  refine ⟨f2.imp (fun h => ne_of_gt h), ?_, ?_⟩
  · intro hm
    obtain ⟨a1, a2, doc, a3, a4⟩ := (f3 d).1 hm
    obtain ⟨y, hy, rfl⟩ := v1 doc a3
    exact ⟨a1, a2, y, (hver y).1 hy, a4⟩
  · rintro a1 a2 ⟨y, hy⟩ hall
    obtain ⟨x, hx⟩ := v2 ⟨y, (hver y).2 hy⟩
    obtain ⟨z, hz, rfl⟩ := v1 x hx
    exact (f3 d).2 ⟨a1, a2, _, hx, hall z ((hver z).1 hz)⟩

/-- **C129** (partial: on no shard does a refresh overlap a removal, as in every gently used engine (`full_gentle_noClash`), and the rankers have done
their work for the document) A document was given to `Index` any number
of times, by any callers and without waiting, also from the databases at the start, and never removed; then a Flush completed; no call about it is made
until a search returns. Whatever else happens meanwhile: on each shard that answers, the search lists the document at most once; if it lists it, one of its
versions on that shard has all words, tokens and labels of the request; and if there is a version on that shard and all versions there have them, it lists
it. Missing: that the last version decides, which is false (`C129_refuted_last_version`, C04, C31). -/
theorem C129_found_partial {E : EngCfg D F A} {textOf : D → DocText} (htext : FromTexts c E textOf)
    (hso : SortOk E.so) (hgs : GSortOk E.gs) {o : IndexerOpts} {db : Fin c.stores → List (Str × D)}
    {as : List (EAct c.toPipeSize D F)} {st : Full c F A} (h : (Full.start c o db).run E as = some st)
    (hcl : (Full.start c o db).NoClash E as) {k b : Nat} {r : SearchReq F} (hb : Began as k b r) (hret : st.Returned k)
    (hc : r.countDocsOnly = false) (hor : r.orderless = false) (hlogic : r.logic = {}) (htok : o.indexType = .locs → E.tokens r ≠ []) {off m : Nat}
    (ho : (wantedRank E.opts r).outputOffset = off) (hm : (wantedRank E.opts r).maxOutputs = m)
    (hsc : ∀ d f, (wantedRank E.opts r).score d f ≠ [] ∧ NoNaN ((wantedRank E.opts r).score d f)) :
    ∃ (lists : List (Fin c.shards × List (ScoredDoc F A))) (resp : SearchResp F A),
      (lists.map (·.1)).Nodup ∧ st.response E k = some resp ∧ (resp.timeout = false → ∀ s, s ∈ lists.map (·.1)) ∧
      IsPageOf E.opts.idOnly (wantedRank E.opts r).reverseOrder (Engine.tokens E.text E.opts r) off m (lists.flatMap (·.2)) resp ∧
      ∀ p ∈ lists, (∀ e ∈ p.2, ShowsVersion c E (st.fine.pipe.given db) p.1 e) ∧
        ∀ d, d ≠ str "0" → OnlyIndexed db (Full.after E (Full.start c o db) as b).fine.pipe d →
          (Full.after E (Full.start c o db) as b).fine.pipe.RankersDone db d → NobodyCalls as b d →
          ((p.2).map (·.scoredID.docId)).Nodup ∧
          (d ∈ (p.2).map (·.scoredID.docId) → Engine.tokens E.text E.opts r ++ r.labels ≠ [] ∧ Allowed r.docIds d ∧
            ∃ y, VersionOn c p.1 ((Full.after E (Full.start c o db) as b).fine.pipe.given db) d y ∧
              ∀ w ∈ Engine.tokens E.text E.opts r ++ r.labels, TextHasKey E.text E.opts.toTextOpts (textOf y) w) ∧
          (Engine.tokens E.text E.opts r ++ r.labels ≠ [] → Allowed r.docIds d →
            (∃ y, VersionOn c p.1 ((Full.after E (Full.start c o db) as b).fine.pipe.given db) d y) →
            (∀ y, VersionOn c p.1 ((Full.after E (Full.start c o db) as b).fine.pipe.given db) d y →
              ∀ w ∈ Engine.tokens E.text E.opts r ++ r.labels, TextHasKey E.text E.opts.toTextOpts (textOf y) w) →
            d ∈ (p.2).map (·.scoredID.docId)) := by
  obtain ⟨parts, resp, g1, g2, g3, g4, g5⟩ := C73_search_during_everything hgs h hb hret.2 hc hor ho hm (fun d f => (hsc d f).2)
  refine ⟨parts.map (fun p => (p.shard, p.entries E (Full.start c o db) as r)), resp, ?_, g3, ?_, ?_, ?_⟩
  · rw [List.map_map]; exact g1
  · rw [List.map_map]; exact g4
  · rw [List.flatMap_map]; exact g5
  · intro p hp
    obtain ⟨q, hq, rfl⟩ := List.mem_map.1 hp
    have hok := g2 q hq
    obtain ⟨hlo, hhi⟩ := hok.during
    obtain ⟨hl, _, hts⟩ := hok.reads
    refine ⟨fun e he => (C73_entries_show_versions h hok e he).2, fun d h0 hd hrank hno => ?_⟩
    obtain ⟨f1, f2, f3⟩ := found_onlyIndexed htext.docOk htext.keysOk hso h hcl (Nat.le_of_lt hlo) hhi hlogic htok q.shard hok.found h0 hd hno
    have hreach := (hd.flushed.inv htext.docOk h0).1
    obtain ⟨_, e2, _⟩ := entries_doc (E := E) (st0 := Full.start c o db) (as := as) (r := r) (fun d f => (hsc d f).1)
      (s := q.shard) (d := d) q.docs q.reads hl
      (fun t ht => registered_after h (by have := (hts t ht).1; omega) hreach hno hrank q.shard)
    have hkeys : ∀ x w, w ∈ (c.docOf d x).keys ↔ TextHasKey E.text E.opts.toTextOpts (textOf x) w :=
      fun x w => C41_keys_exact _ _ _ _ _ (htext d x) w
    refine ⟨f1.sublist (entries_sublist _ _), ?_, ?_⟩
    · intro hmem
      obtain ⟨a1, a2, y, hy, ha⟩ := f2 (e2.1 hmem).1
      exact ⟨a1, a2, y, hy, fun w hw => (hkeys y w).1 (ha w hw)⟩
    · rintro a1 a2 ⟨y, hy⟩ hall
      refine e2.2 ⟨f3 a1 a2 ⟨y, hy⟩ (fun z hz w hw => (hkeys z w).2 (hall z hz w hw)), ?_⟩
      unfold Full.registered
      rw [rankIdeal_isSome (rankHistory_no_remove hreach hd.kept E.info E.opts.idOnly q.shard)]
      obtain ⟨⟨g, hgv⟩, hroute⟩ := hy
      have hm2 : RankEv.add d y ∈ ((Full.after E (Full.start c o db) as b).fine.pipe.rankLog q.shard).filter (RankEv.about d) :=
        (hrank q.shard).mem_iff.1 (List.mem_filter.2 ⟨mem_callRank_add.2 ⟨h0, hroute, g, hgv⟩, by simp [RankEv.about]⟩)
      exact ⟨_, _, List.mem_map.2 ⟨_, (List.mem_filter.1 hm2).1, rfl⟩⟩

/-- **C129** (partial, as above) ... so a document that was given to `Index` again and again with the same data, for example by a program that indexes its
documents again after each start, is found as if it had been indexed once: exactly if its text has all words, tokens and labels. -/
theorem C129_same_data_partial {E : EngCfg D F A} {textOf : D → DocText} (htext : FromTexts c E textOf)
    (hso : SortOk E.so) (hgs : GSortOk E.gs) {o : IndexerOpts} {db : Fin c.stores → List (Str × D)}
    {as : List (EAct c.toPipeSize D F)} {st : Full c F A} (h : (Full.start c o db).run E as = some st)
    (hcl : (Full.start c o db).NoClash E as) {k b : Nat} {r : SearchReq F} (hb : Began as k b r) (hret : st.Returned k)
    (hc : r.countDocsOnly = false) (hor : r.orderless = false) (hlogic : r.logic = {}) (htok : o.indexType = .locs → E.tokens r ≠ []) {off m : Nat}
    (ho : (wantedRank E.opts r).outputOffset = off) (hm : (wantedRank E.opts r).maxOutputs = m)
    (hsc : ∀ d f, (wantedRank E.opts r).score d f ≠ [] ∧ NoNaN ((wantedRank E.opts r).score d f)) :
    ∃ (lists : List (Fin c.shards × List (ScoredDoc F A))) (resp : SearchResp F A),
      (lists.map (·.1)).Nodup ∧ st.response E k = some resp ∧ (resp.timeout = false → ∀ s, s ∈ lists.map (·.1)) ∧
      IsPageOf E.opts.idOnly (wantedRank E.opts r).reverseOrder (Engine.tokens E.text E.opts r) off m (lists.flatMap (·.2)) resp ∧
      ∀ p ∈ lists, ∀ d x, d ≠ str "0" → OnlyIndexed db (Full.after E (Full.start c o db) as b).fine.pipe d →
          (Full.after E (Full.start c o db) as b).fine.pipe.RankersDone db d → NobodyCalls as b d →
          (∃ g, Call.index d x g ∈ (Full.after E (Full.start c o db) as b).fine.pipe.given db) →
          (∀ y g, Call.index d y g ∈ (Full.after E (Full.start c o db) as b).fine.pipe.given db → y = x) →
          (d ∈ (p.2).map (·.scoredID.docId) ↔ c.route d x = p.1 ∧ Engine.tokens E.text E.opts r ++ r.labels ≠ [] ∧ Allowed r.docIds d ∧
            ∀ w ∈ Engine.tokens E.text E.opts r ++ r.labels, TextHasKey E.text E.opts.toTextOpts (textOf x) w) := by
  obtain ⟨lists, resp, g1, g2, g3, g4, g5⟩ := C129_found_partial htext hso hgs h hcl hb hret hc hor hlogic htok ho hm hsc
  refine ⟨lists, resp, g1, g2, g3, g4, fun p hp d x h0 hd hrank hno hx hsame => ?_⟩
  obtain ⟨_, e1, e2⟩ := (g5 p hp).2 d h0 hd hrank hno
  constructor
  · intro hmem
    obtain ⟨a1, a2, y, ⟨⟨g, hy⟩, hr⟩, hall⟩ := e1 hmem
    have := hsame y g hy
    subst this
    exact ⟨hr, a1, a2, hall⟩
  · rintro ⟨hr, a1, a2, hall⟩
    refine e2 a1 a2 ⟨x, hx, hr⟩ ?_
    rintro y ⟨⟨g, hy⟩, _⟩ w hw
    have := hsame y g hy
    subst this
    exact hall w hw


/-! ## A run: "1" is indexed with `x`, then with `y`, without waiting -/

/-- Another document is indexed and flushed; then "1" is indexed with `x` and with `y` and the other document again, all before the segmenter takes any
of them. -/
def repLoad (x y : Str) : List (EAct (programPipe 4).toPipeSize Str Nat) := raceStart.script (programEng 4)
  [.inr (engineCands _), .inl (.pipe (.call raceUser (.index (str "3") (str "dots") false))), .inr (engineCands _),
   .inl (.pipe (.call raceUser .flush)), .inr (engineCands _),
   .inl (.pipe (.call raceUser (.index (str "1") x false))), .inr raceCands,
   .inl (.pipe (.call raceUser (.index (str "1") y false))), .inr raceCands,
   .inl (.pipe (.call raceUser (.index (str "3") (str "dots") false))), .inr raceCands, .inr (engineCands _)]
def repS1 (x y : Str) : Full (programPipe 4) Nat Nat := (raceStart.run (programEng 4) (repLoad x y)).getD raceStart
def repTail (x y : Str) : List (EAct (programPipe 4).toPipeSize Str Nat) :=
  (((repS1 x y).step (programEng 4) (.pipe (.call raceUser .flush))).getD raceStart).greedy (programEng 4) (engineCands _) 300
def repFlush (x y : Str) : List (EAct (programPipe 4).toPipeSize Str Nat) := .pipe (.call raceUser .flush) :: repTail x y
def repS2 (x y : Str) : Full (programPipe 4) Nat Nat := ((repS1 x y).run (programEng 4) (repFlush x y)).getD raceStart
def repSearch (x y : Str) : List (EAct (programPipe 4).toPipeSize Str Nat) :=
  .start storeReq :: (((repS2 x y).step (programEng 4) (.start storeReq)).getD raceStart).greedy (programEng 4) (searchCands _ 1) 300
def repRun (x y : Str) : List (EAct (programPipe 4).toPipeSize Str Nat) := repLoad x y ++ repFlush x y ++ repSearch x y

/-- The calls of the run. -/
def repCalls (x y : Str) : List (Call Str) :=
  [.index (str "3") (str "dots") false, .flush, .index (str "1") x false, .index (str "1") y false, .index (str "3") (str "dots") false, .flush]

def repCheck (x y : Str) : Bool :=
  (raceStart.gentleRun (programEng 4) raceOpts (fun _ => []) (repRun x y)).any (fun st =>
    decide (0 < st.searches.length) && decide ((st.got 0).length = (programPipe 4).shards) &&
      decide (respIds (st.response (programEng 4) 0) = some ([str "1"], 1))) &&
  (raceStart.run (programEng 4) (repLoad x y)).isSome &&
  ((repS1 x y).run (programEng 4) (repFlush x y)).isSome &&
  ((repS1 x y).fine.pipe.prog (.client raceUser)).isEmpty &&
  (repTail x y).all (fun a => a.call?.isNone) &&
  ((repS2 x y).fine.pipe.prog (.client raceUser)).isEmpty &&
  (repS2 x y).fine.pipe.quietB &&
  decide ((repS2 x y).fine.pipe.given (fun _ => []) = repCalls x y) &&
  decide (((repLoad x y ++ repFlush x y).filter EAct.isStart).length = 0) &&
  (repSearch x y).all (fun a => a.call?.isNone)

/-- The check gives the hypotheses of C129 about document "1". -/
theorem rep_spec {x y : Str} (hc : repCheck x y = true) : ∃ as st b,
    GentleStart (programPipe 4) raceOpts (fun _ => []) ∧ raceStart.run (programEng 4) as = some st ∧
    raceStart.Gentle (programEng 4) raceOpts (fun _ => []) as ∧ Began as 0 b storeReq ∧ st.Returned 0 ∧
    OnlyIndexed (fun _ => []) (Full.after (programEng 4) raceStart as b).fine.pipe (str "1") ∧
    (Full.after (programEng 4) raceStart as b).fine.pipe.RankersDone (fun _ => []) (str "1") ∧ NobodyCalls as b (str "1") ∧
    (Full.after (programEng 4) raceStart as b).fine.pipe.given (fun _ => []) = repCalls x y ∧
    respIds (st.response (programEng 4) 0) = some ([str "1"], 1) := by
  unfold repCheck at hc
  simp only [Bool.and_eq_true, decide_eq_true_eq] at hc
  obtain ⟨⟨⟨⟨⟨⟨⟨⟨⟨h, hl⟩, hf⟩, hidle⟩, htail⟩, hdone⟩, hq⟩, hgiven⟩, hb⟩, hno⟩ := hc
  have r1 : raceStart.run (programEng 4) (repLoad x y) = some (repS1 x y) := run_getD hl
  have r2 : (repS1 x y).run (programEng 4) (repFlush x y) = some (repS2 x y) := run_getD hf
  have rpre : raceStart.run (programEng 4) (repLoad x y ++ repFlush x y) = some (repS2 x y) := by
    rw [full_run_append, r1, Option.bind_some, r2]
  have hrec : (programPipe 4).recovered (fun _ => []) = [] := by decide +kernel
  obtain ⟨st, h1, h2⟩ := (Option.any_eq_true _ _).1 h
  simp only [Bool.and_eq_true, decide_eq_true_eq] at h2
  obtain ⟨g1, g2⟩ := full_gentleRun_spec _ h1
  have hafter : Full.after (programEng 4) raceStart (repRun x y) (repLoad x y ++ repFlush x y).length = repS2 x y := by
    unfold Full.after repRun
    rw [List.take_left, rpre]; rfl
  have hidle' : (repS1 x y).fine.pipe.ClientsIdle := by
    intro j
    have : j = raceUser := Fin.ext (by have := j.isLt; simp only [programPipe, smallEngine] at this; simp only [raceUser]; omega)
    rw [this]
    simpa using hidle
  have hflushed : CallsFlushed (fun _ => []) (repS2 x y).fine.pipe (str "1") := by
    obtain ⟨bs, g, _⟩ := after_pipe r1 (Nat.zero_le (repLoad x y).length)
    have e1 : Full.after (programEng 4) raceStart (repLoad x y) (repLoad x y).length = repS1 x y := by
      unfold Full.after; rw [List.take_length, r1]; rfl
    rw [e1] at g
    exact ⟨bs, raceUser, _, _, [], g, full_flush (E := programEng 4) hidle' htail r2 (by simpa using hdone), rfl, by simp⟩
  have hreach : Reach (fun _ => []) (repS2 x y).fine.pipe := by
    have := after_reach (E := programEng 4) rpre (repLoad x y ++ repFlush x y).length
    have e1 : Full.after (programEng 4) raceStart (repLoad x y ++ repFlush x y) (repLoad x y ++ repFlush x y).length = repS2 x y := by
      unfold Full.after; rw [List.take_length, rpre]; rfl
    exact e1 ▸ this
  refine ⟨repRun x y, st, (repLoad x y ++ repFlush x y).length, ?_, g1, g2, ⟨?_, ?_⟩, ⟨h2.1.1, h2.1.2⟩, ?_, ?_, ?_, hafter ▸ hgiven, h2.2⟩
  · intro s
    rw [hrec]
    simp only [List.map_nil, List.countP_nil]
    exact size_pos raceOpts
  · unfold repRun
    rw [List.getElem?_append_right (Nat.le_refl _), Nat.sub_self]
    rw [repSearch]; rfl
  · unfold repRun
    rw [List.take_left]; exact hb
  · rw [hafter]
    refine ⟨hflushed, fun f hm => ?_⟩
    rw [hgiven] at hm
    simp [repCalls] at hm
  · rw [hafter]
    exact fun s => ((rank_quiet hreach (quiet_of_B hq) s).filter _).symm
  · intro t j a ht' he
    unfold repRun at he
    rw [List.getElem?_append_right ht'] at he
    have := List.all_eq_true.1 hno _ (List.mem_of_getElem? he)
    simp [EAct.call?] at this

/-- Gentle runs of this engine have no clash. -/
theorem race_noClash {as : List (EAct (programPipe 4).toPipeSize Str Nat)} {st : Full (programPipe 4) Nat Nat}
    (hs : GentleStart (programPipe 4) raceOpts (fun _ => [])) (h : raceStart.run (programEng 4) as = some st)
    (hg : raceStart.Gentle (programEng 4) raceOpts (fun _ => []) as) : raceStart.NoClash (programEng 4) as := by
  have ht : FromTexts (programPipe 4) (programEng 4) contentOnly := fun id x => docOf_isDocIndexOf _ _ _ _
  exact full_gentle_noClash ht.keysOk insSort_ok hs h hg

/-- The hypotheses of `C129_found_partial` and `C129_same_data_partial` hold: "1" is indexed twice with the same text, without waiting, and found once. -/
example : ∃ as st b, raceStart.run (programEng 4) as = some st ∧ raceStart.NoClash (programEng 4) as ∧ Began as 0 b storeReq ∧
    OnlyIndexed (fun _ => []) (Full.after (programEng 4) raceStart as b).fine.pipe (str "1") ∧
    (Full.after (programEng 4) raceStart as b).fine.pipe.RankersDone (fun _ => []) (str "1") ∧ NobodyCalls as b (str "1") ∧
    respIds (st.response (programEng 4) 0) = some ([str "1"], 1) := by
  obtain ⟨as, st, b, hs, h1, hg, h2, _, h3, h4, h5, _, h6⟩ := rep_spec (x := str "google testing") (y := str "google testing") (by decide +kernel)
  exact ⟨as, st, b, h1, race_noClash hs h1 hg, h2, h3, h4, h5, h6⟩

/-- **C129**, that the last version decides is refuted: "1" is indexed with "google testing", then with "google cards", by one caller; after Flush, with all
work done, the search for "google testing" finds it, because the shard serves the older version. -/
theorem C129_refuted_last_version : ∃ as st b, raceStart.run (programEng 4) as = some st ∧
    raceStart.Gentle (programEng 4) raceOpts (fun _ => []) as ∧ Began as 0 b storeReq ∧ st.Returned 0 ∧
    OnlyIndexed (fun _ => []) (Full.after (programEng 4) raceStart as b).fine.pipe (str "1") ∧ NobodyCalls as b (str "1") ∧
    LatestIn ((Full.after (programEng 4) raceStart as b).fine.pipe.given (fun _ => [])) (str "1") (str "google cards") ∧
    ¬ TextHasKey (programEng 4).text (programEng 4).opts.toTextOpts (contentOnly (str "google cards")) (str "testing") ∧
    str "testing" ∈ Engine.tokens (programEng 4).text (programEng 4).opts (storeReq (F := Nat)) ∧
    respIds (st.response (programEng 4) 0) = some ([str "1"], 1) := by
  obtain ⟨as, st, b, _, h1, h1', h2, h2', h3, _, h5, h7, h6⟩ := rep_spec (x := str "google testing") (y := str "google cards") (by decide +kernel)
  refine ⟨as, st, b, h1, h1', h2, h2', h3, h5, ?_, ?_, by decide +kernel, h6⟩
  · rw [h7]
    refine ⟨[.index (str "3") (str "dots") false, .flush, .index (str "1") (str "google testing") false], false, [.index (str "3") (str "dots") false, .flush],
      rfl, by simp, ?_⟩
    have : str "1" ≠ str "3" := by decide +kernel
    simp [this]
  · intro hk
    exact absurd ((C41_keys_exact _ _ (str "1") _ _ (docOf_isDocIndexOf programEnv (programEng 4).opts.toTextOpts (str "1")
      (contentOnly (str "google cards"))) (str "testing")).2 hk) (by decide +kernel)

end Riot
