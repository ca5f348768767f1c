import Verif.Spec.Updated
import Verif.Proofs.Updated
import Verif.Props.Repeated

/-!
# C130: versions given before a Flush are not served after an update and a later Flush
-/

namespace Riot

variable {D F A : Type} {c : PipeCfg D}

/-- What the index finds of a document that was updated. -/
theorem found_updated (hdoc : c.DocOk) (hk : c.KeysOk) {E : EngCfg D F A} (hso : SortOk E.so) {o : IndexerOpts}
    {db : Fin c.stores → List (Str × D)} {as : List (EAct c.toPipeSize D F)} {st : Full c F A}
    (h : (Full.start c o db).run E as = some st) (hcl : (Full.start c o db).NoClash E as) {b0 b t : Nat} (hbt : b ≤ t)
    (ht : t < as.length) {r : SearchReq F} (hlogic : r.logic = {}) (htok : o.indexType = .locs → E.tokens r ≠ [])
    (s : Fin c.shards) {docs : List IndexedDoc} (hf : (Full.after E (Full.start c o db) as t).found E s r = some docs)
    {d : Str} (h0 : d ≠ str "0") {news : List (Call D)} (hd : UpdatedBetween E (Full.start c o db) db as b0 b d news) (hno : NobodyCalls as b d)
    (hy : ∃ y, VersionOn c s news d y) :
    ∃ y, VersionOn c s news d y ∧ (d ∈ docs.map (·.docId) ↔ E.tokens r ++ r.labels ≠ [] ∧ Allowed r.docIds d ∧
      ∀ w ∈ E.tokens r ++ r.labels, w ∈ (c.docOf d y).keys) := by
  obtain ⟨fs, g1, g2⟩ := full_run_fine _ (after_run h (t := t)) (after_noClash hcl (Nat.le_of_lt ht))
  have hal := after_alive h ht s
  obtain ⟨tr, htr, vis, hv, hall⟩ := C62_search_during_calls_partial hk hso g1 g2 s hal E.log2
  obtain ⟨docs', f1, f2, f3, _⟩ := hall (E.tokens r) r.labels r.docIds htok
  unfold Full.found at hf
  rw [hlogic, lookup_no_logic, f1] at hf
  simp only [Option.map_some, Option.some.injEq] at hf
  subst hf
  obtain ⟨cs, hcs, hcall⟩ := after_pipe h hbt
  have hnew : ∀ a ∈ (cs.flatMap Act.called).map (·.2), a.about d = false := by
    intro a ha
    obtain ⟨x, hx, rfl⟩ := List.mem_map.1 ha
    obtain ⟨v, hv', hav⟩ := hcall x hx
    exact hno v x.1 x.2 hv' hav
  have hgiven : (Full.after E (Full.start c o db) as t).fine.pipe.given db =
      (Full.after E (Full.start c o db) as b0).fine.pipe.given db ++ (news ++ (cs.flatMap Act.called).map (·.2)) := by
    rw [← List.append_assoc, ← hd.calls]
    unfold Pipe.given
    rw [run_calls _ _ _ hcs, List.map_append, List.append_assoc]
  have hver : ∀ y, VersionOn c s (news ++ (cs.flatMap Act.called).map (·.2)) d y ↔ VersionOn c s news d y := by
    intro y
    unfold VersionOn
    refine and_congr_left (fun _ => exists_congr (fun g => ?_))
    rw [List.mem_append]
    refine or_iff_left (fun hm => ?_)
    have := hnew _ hm
    simp [Call.about] at this
  obtain ⟨bs, hbs, _⟩ := after_pipe h (hd.order.trans hbt)
  obtain ⟨y, hy1, hy2⟩ := vis_updated hdoc htr hv h0 hd.before (flushed_after h hbt hno hd.after) hbs hgiven (by
    intro f hm
    rcases List.mem_append.1 hm with hm | hm
    · exact hd.kept f hm
    · have := hnew _ hm
      simp [Call.about] at this) (by obtain ⟨y, hy⟩ := hy; exact ⟨y, (hver y).2 hy⟩)
  refine ⟨y, (hver y).1 hy1, ?_⟩
  rw [f3 d]
  unfold Matches
  rw [hy2]
  simp

/-- **C130** (partial: on no shard does a refresh overlap a removal, as in every gently used engine; presence needs that the document was never removed before and that the rankers are done) A document was
indexed again, once or several times, by any callers, after a Flush, and another Flush has completed since; no call about it is made until a search
returns. On each shard that was given a new version and answers, there is one of the new versions such that the search lists the document only if this
version has all words, tokens and labels of the request, and, if the document was never removed and the rankers have done their work for it, exactly then.
So no version from before the first of the two Flushes is searched there any more. Missing: shards that were given no new version
(`C30_refuted_two_shards`), and which of the new versions it is (C129). -/
theorem C130_updated_partial {E : EngCfg D F A} {textOf : D → DocText} (htext : FromTexts c E textOf)
    (hso : SortOk E.so) (hgs : GSortOk E.gs) {o : IndexerOpts} {db : Fin c.stores → List (Str × D)}
    {as : List (EAct c.toPipeSize D F)} {st : Full c F A} (h : (Full.start c o db).run E as = some st)
    (hcl : (Full.start c o db).NoClash E as) {k b : Nat} {r : SearchReq F} (hb : Began as k b r) (hret : st.Returned k)
    (hc : r.countDocsOnly = false) (hor : r.orderless = false) (hlogic : r.logic = {}) (htok : o.indexType = .locs → E.tokens r ≠ []) {off m : Nat}
    (ho : (wantedRank E.opts r).outputOffset = off) (hm : (wantedRank E.opts r).maxOutputs = m)
    (hsc : ∀ d f, (wantedRank E.opts r).score d f ≠ [] ∧ NoNaN ((wantedRank E.opts r).score d f)) :
    ∃ (lists : List (Fin c.shards × List (ScoredDoc F A))) (resp : SearchResp F A),
      (lists.map (·.1)).Nodup ∧ st.response E k = some resp ∧ (resp.timeout = false → ∀ s, s ∈ lists.map (·.1)) ∧
      IsPageOf E.opts.idOnly (wantedRank E.opts r).reverseOrder (Engine.tokens E.text E.opts r) off m (lists.flatMap (·.2)) resp ∧
      ∀ p ∈ lists, (∀ e ∈ p.2, ShowsVersion c E (st.fine.pipe.given db) p.1 e) ∧
        ∀ d b0 news, d ≠ str "0" → UpdatedBetween E (Full.start c o db) db as b0 b d news → NobodyCalls as b d → (∃ y, VersionOn c p.1 news d y) →
          ∃ y, VersionOn c p.1 news d y ∧
            (d ∈ (p.2).map (·.scoredID.docId) → Engine.tokens E.text E.opts r ++ r.labels ≠ [] ∧ Allowed r.docIds d ∧
              ∀ w ∈ Engine.tokens E.text E.opts r ++ r.labels, TextHasKey E.text E.opts.toTextOpts (textOf y) w) ∧
            ((∀ f, Call.remove d f ∉ (Full.after E (Full.start c o db) as b).fine.pipe.given db) →
              (Full.after E (Full.start c o db) as b).fine.pipe.RankersDone db d →
              (d ∈ (p.2).map (·.scoredID.docId) ↔ Engine.tokens E.text E.opts r ++ r.labels ≠ [] ∧ Allowed r.docIds d ∧
                ∀ w ∈ Engine.tokens E.text E.opts r ++ r.labels, TextHasKey E.text E.opts.toTextOpts (textOf y) w)) := by
  obtain ⟨parts, resp, g1, g2, g3, g4, g5⟩ := C73_search_during_everything hgs h hb hret.2 hc hor ho hm (fun d f => (hsc d f).2)
  refine ⟨parts.map (fun p => (p.shard, p.entries E (Full.start c o db) as r)), resp, ?_, g3, ?_, ?_, ?_⟩
  · rw [List.map_map]; exact g1
  · rw [List.map_map]; exact g4
  · rw [List.flatMap_map]; exact g5
  · intro p hp
    obtain ⟨q, hq, rfl⟩ := List.mem_map.1 hp
    have hok := g2 q hq
    obtain ⟨hlo, hhi⟩ := hok.during
    obtain ⟨hl, _, hts⟩ := hok.reads
    refine ⟨fun e he => (C73_entries_show_versions h hok e he).2, fun d b0 news h0 hd hno hy => ?_⟩
    obtain ⟨y, hy1, f2⟩ := found_updated htext.docOk htext.keysOk hso h hcl (Nat.le_of_lt hlo) hhi hlogic htok q.shard hok.found h0 hd hno hy
    have hkeys : ∀ x w, w ∈ (c.docOf d x).keys ↔ TextHasKey E.text E.opts.toTextOpts (textOf x) w :=
      fun x w => C41_keys_exact _ _ _ _ _ (htext d x) w
    simp only [hkeys] at f2
    refine ⟨y, hy1, fun hmem => ?_, fun hkept hrank => ?_⟩
    · have hsub := entries_sublist (E := E) (st0 := Full.start c o db) (as := as) (r := r) (s := q.shard) q.docs q.reads
      exact f2.1 (hsub.subset hmem)
    · have hreach := (hd.after.inv htext.docOk h0).1
      obtain ⟨_, e2, _⟩ := entries_doc (E := E) (st0 := Full.start c o db) (as := as) (r := r) (fun d f => (hsc d f).1)
        (s := q.shard) (d := d) q.docs q.reads hl
        (fun t ht => registered_after h (by have := (hts t ht).1; omega) hreach hno hrank q.shard)
      refine e2.trans ⟨fun hh => f2.1 hh.1, fun hh => ⟨f2.2 hh, ?_⟩⟩
      unfold Full.registered
      rw [rankIdeal_isSome (rankHistory_no_remove hreach hkept E.info E.opts.idOnly q.shard)]
      obtain ⟨⟨g, hgv⟩, hroute⟩ := hy1
      have hgv' : Call.index d y g ∈ (Full.after E (Full.start c o db) as b).fine.pipe.given db := by rw [hd.calls]; simp [hgv]
      have hm2 : RankEv.add d y ∈ ((Full.after E (Full.start c o db) as b).fine.pipe.rankLog q.shard).filter (RankEv.about d) :=
        (hrank q.shard).mem_iff.1 (List.mem_filter.2 ⟨mem_callRank_add.2 ⟨h0, hroute, g, hgv'⟩, by simp [RankEv.about]⟩)
      exact ⟨_, _, List.mem_map.2 ⟨_, (List.mem_filter.1 hm2).1, rfl⟩⟩


/-- **C130** (partial, as above) One clean update repairs a document: if exactly one Index call about it was made between the two Flushes, with data `x`, then
on the shard of `x` it is listed exactly if the text of `x` has all words, tokens and labels, however its earlier calls raced. -/
theorem C130_repaired_partial {E : EngCfg D F A} {textOf : D → DocText} (htext : FromTexts c E textOf)
    (hso : SortOk E.so) (hgs : GSortOk E.gs) {o : IndexerOpts} {db : Fin c.stores → List (Str × D)}
    {as : List (EAct c.toPipeSize D F)} {st : Full c F A} (h : (Full.start c o db).run E as = some st)
    (hcl : (Full.start c o db).NoClash E as) {k b : Nat} {r : SearchReq F} (hb : Began as k b r) (hret : st.Returned k)
    (hc : r.countDocsOnly = false) (hor : r.orderless = false) (hlogic : r.logic = {}) (htok : o.indexType = .locs → E.tokens r ≠ []) {off m : Nat}
    (ho : (wantedRank E.opts r).outputOffset = off) (hm : (wantedRank E.opts r).maxOutputs = m)
    (hsc : ∀ d f, (wantedRank E.opts r).score d f ≠ [] ∧ NoNaN ((wantedRank E.opts r).score d f)) :
    ∃ (lists : List (Fin c.shards × List (ScoredDoc F A))) (resp : SearchResp F A),
      (lists.map (·.1)).Nodup ∧ st.response E k = some resp ∧ (resp.timeout = false → ∀ s, s ∈ lists.map (·.1)) ∧
      IsPageOf E.opts.idOnly (wantedRank E.opts r).reverseOrder (Engine.tokens E.text E.opts r) off m (lists.flatMap (·.2)) resp ∧
      ∀ p ∈ lists, ∀ d x b0 news, d ≠ str "0" → UpdatedBetween E (Full.start c o db) db as b0 b d news → NobodyCalls as b d →
          (∃ g, Call.index d x g ∈ news) → (∀ y g, Call.index d y g ∈ news → y = x) → c.route d x = p.1 →
          (∀ f, Call.remove d f ∉ (Full.after E (Full.start c o db) as b).fine.pipe.given db) →
          (Full.after E (Full.start c o db) as b).fine.pipe.RankersDone db d →
          (d ∈ (p.2).map (·.scoredID.docId) ↔ Engine.tokens E.text E.opts r ++ r.labels ≠ [] ∧ Allowed r.docIds d ∧
            ∀ w ∈ Engine.tokens E.text E.opts r ++ r.labels, TextHasKey E.text E.opts.toTextOpts (textOf x) w) := by
  obtain ⟨lists, resp, g1, g2, g3, g4, g5⟩ := C130_updated_partial htext hso hgs h hcl hb hret hc hor hlogic htok ho hm hsc
  refine ⟨lists, resp, g1, g2, g3, g4, fun p hp d x b0 news h0 hd hno hx hone hroute hkept hrank => ?_⟩
  obtain ⟨y, ⟨⟨g, hy⟩, _⟩, _, e⟩ := (g5 p hp).2 d b0 news h0 hd hno ⟨x, hx, hroute⟩
  have := hone y g hy
  subst this
  exact e hkept hrank

/-! ## A run: after the run of C129 in which the shard serves an old version of "1", it is indexed once more -/

def fixLoad (x y : Str) (a : Call Str) : List (EAct (programPipe 4).toPipeSize Str Nat) := (repS2 x y).script (programEng 4)
  [.inl (.pipe (.call raceUser a)), .inr (engineCands _)]
def fixS1 (x y : Str) (a : Call Str) : Full (programPipe 4) Nat Nat := ((repS2 x y).run (programEng 4) (fixLoad x y a)).getD raceStart
def fixTail (x y : Str) (a : Call Str) : List (EAct (programPipe 4).toPipeSize Str Nat) :=
  (((fixS1 x y a).step (programEng 4) (.pipe (.call raceUser .flush))).getD raceStart).greedy (programEng 4) (engineCands _) 300
def fixFlush (x y : Str) (a : Call Str) : List (EAct (programPipe 4).toPipeSize Str Nat) := .pipe (.call raceUser .flush) :: fixTail x y a
def fixS2 (x y : Str) (a : Call Str) : Full (programPipe 4) Nat Nat := ((fixS1 x y a).run (programEng 4) (fixFlush x y a)).getD raceStart
def fixSearch (x y : Str) (a : Call Str) : List (EAct (programPipe 4).toPipeSize Str Nat) :=
  .start storeReq :: (((fixS2 x y a).step (programEng 4) (.start storeReq)).getD raceStart).greedy (programEng 4) (searchCands _ 1) 300
def fixPre (x y : Str) (a : Call Str) : List (EAct (programPipe 4).toPipeSize Str Nat) := (repLoad x y ++ repFlush x y) ++ (fixLoad x y a ++ fixFlush x y a)
def fixRun (x y : Str) (a : Call Str) : List (EAct (programPipe 4).toPipeSize Str Nat) := fixPre x y a ++ fixSearch x y a

def fixCheck (x y : Str) (a : Call Str) (ids : List Str) : Bool :=
  (raceStart.gentleRun (programEng 4) raceOpts (fun _ => []) (fixRun x y a)).any (fun st =>
    decide (0 < st.searches.length) && decide ((st.got 0).length = (programPipe 4).shards) &&
      decide (respIds (st.response (programEng 4) 0) = some (ids, ids.length))) &&
  (raceStart.run (programEng 4) (repLoad x y)).isSome &&
  ((repS1 x y).run (programEng 4) (repFlush x y)).isSome &&
  ((repS2 x y).run (programEng 4) (fixLoad x y a)).isSome &&
  ((fixS1 x y a).run (programEng 4) (fixFlush x y a)).isSome &&
  ((repS1 x y).fine.pipe.prog (.client raceUser)).isEmpty &&
  ((fixS1 x y a).fine.pipe.prog (.client raceUser)).isEmpty &&
  (repTail x y).all (fun a => a.call?.isNone) &&
  (fixTail x y a).all (fun a => a.call?.isNone) &&
  ((repS2 x y).fine.pipe.prog (.client raceUser)).isEmpty &&
  ((fixS2 x y a).fine.pipe.prog (.client raceUser)).isEmpty &&
  (fixS2 x y a).fine.pipe.quietB &&
  decide ((repS2 x y).fine.pipe.given (fun _ => []) = repCalls x y) &&
  decide ((fixS2 x y a).fine.pipe.given (fun _ => []) = repCalls x y ++ [a, .flush]) &&
  decide (((fixPre x y a).filter EAct.isStart).length = 0) &&
  (fixSearch x y a).all (fun a => a.call?.isNone)

/-- The check gives the hypotheses of C130 about document "1". -/
theorem fix_spec {x y : Str} {a : Call Str} {ids : List Str} (hc : fixCheck x y a ids = true) : ∃ as st b0 b,
    GentleStart (programPipe 4) raceOpts (fun _ => []) ∧ raceStart.run (programEng 4) as = some st ∧
    raceStart.Gentle (programEng 4) raceOpts (fun _ => []) as ∧ Began as 0 b storeReq ∧ st.Returned 0 ∧
    (b0 ≤ b ∧ CallsFlushed (fun _ => []) (Full.after (programEng 4) raceStart as b0).fine.pipe (str "1") ∧
      CallsFlushed (fun _ => []) (Full.after (programEng 4) raceStart as b).fine.pipe (str "1") ∧
      (Full.after (programEng 4) raceStart as b).fine.pipe.given (fun _ => []) =
        (Full.after (programEng 4) raceStart as b0).fine.pipe.given (fun _ => []) ++ [a, .flush]) ∧
    (Full.after (programEng 4) raceStart as b).fine.pipe.RankersDone (fun _ => []) (str "1") ∧ NobodyCalls as b (str "1") ∧
    (Full.after (programEng 4) raceStart as b0).fine.pipe.given (fun _ => []) = repCalls x y ∧
    respIds (st.response (programEng 4) 0) = some (ids, ids.length) := by
  unfold fixCheck at hc
  simp only [Bool.and_eq_true, decide_eq_true_eq] at hc
  obtain ⟨⟨⟨⟨⟨⟨⟨⟨⟨⟨⟨⟨⟨⟨⟨h, hl⟩, hf⟩, hl'⟩, hf'⟩, hidle⟩, hidle1⟩, htail⟩, htail'⟩, hdone⟩, hdone'⟩, hq⟩, hgiven⟩, hgiven'⟩, hb⟩, hno⟩ := hc
  have r1 : raceStart.run (programEng 4) (repLoad x y) = some (repS1 x y) := run_getD hl
  have r2 : (repS1 x y).run (programEng 4) (repFlush x y) = some (repS2 x y) := run_getD hf
  have r3 : (repS2 x y).run (programEng 4) (fixLoad x y a) = some (fixS1 x y a) := run_getD hl'
  have r4 : (fixS1 x y a).run (programEng 4) (fixFlush x y a) = some (fixS2 x y a) := run_getD hf'
  have rpre : raceStart.run (programEng 4) (repLoad x y ++ repFlush x y) = some (repS2 x y) := by
    rw [full_run_append, r1, Option.bind_some, r2]
  have rpre1 : raceStart.run (programEng 4) ((repLoad x y ++ repFlush x y) ++ fixLoad x y a) = some (fixS1 x y a) := by
    rw [full_run_append, rpre, Option.bind_some, r3]
  have rpre2 : raceStart.run (programEng 4) (fixPre x y a) = some (fixS2 x y a) := by
    unfold fixPre
    rw [← List.append_assoc, full_run_append, rpre1, Option.bind_some, r4]
  have hrec : (programPipe 4).recovered (fun _ => []) = [] := by decide +kernel
  obtain ⟨st, h1, h2⟩ := (Option.any_eq_true _ _).1 h
  simp only [Bool.and_eq_true, decide_eq_true_eq] at h2
  obtain ⟨g1, g2⟩ := full_gentleRun_spec _ h1
  have hafter0 : Full.after (programEng 4) raceStart (fixRun x y a) (repLoad x y ++ repFlush x y).length = repS2 x y := by
    unfold Full.after fixRun fixPre
    rw [List.append_assoc, List.take_left, rpre]; rfl
  have hafter : Full.after (programEng 4) raceStart (fixRun x y a) (fixPre x y a).length = fixS2 x y a := by
    unfold Full.after fixRun
    rw [List.take_left, rpre2]; rfl
  have hidle' : ∀ p : Pipe (programPipe 4), (p.prog (.client raceUser)).isEmpty = true → p.ClientsIdle := by
    intro p hp j
    have : j = raceUser := Fin.ext (by have := j.isLt; simp only [programPipe, smallEngine] at this; simp only [raceUser]; omega)
    rw [this]
    simpa using hp
  have hend : ∀ (l : List (EAct (programPipe 4).toPipeSize Str Nat)) (u : Full (programPipe 4) Nat Nat), raceStart.run (programEng 4) l = some u →
      Full.after (programEng 4) raceStart l l.length = u := by
    intro l u hu
    unfold Full.after; rw [List.take_length, hu]; rfl
  have hfl0 : CallsFlushed (fun _ => []) (repS2 x y).fine.pipe (str "1") := by
    obtain ⟨bs, g, _⟩ := after_pipe r1 (Nat.zero_le (repLoad x y).length)
    rw [hend _ _ r1] at g
    exact ⟨bs, raceUser, _, _, [], g, full_flush (E := programEng 4) (hidle' _ hidle) htail r2 (by simpa using hdone), rfl, by simp⟩
  have hfl1 : CallsFlushed (fun _ => []) (fixS2 x y a).fine.pipe (str "1") := by
    obtain ⟨bs, g, _⟩ := after_pipe rpre1 (Nat.zero_le ((repLoad x y ++ repFlush x y) ++ fixLoad x y a).length)
    rw [hend _ _ rpre1] at g
    exact ⟨bs, raceUser, _, _, [], g, full_flush (E := programEng 4) (hidle' _ hidle1) htail' r4 (by simpa using hdone'), rfl, by simp⟩
  have hreach : Reach (fun _ => []) (fixS2 x y a).fine.pipe := by
    have := after_reach (E := programEng 4) rpre2 (fixPre x y a).length
    exact hend _ _ rpre2 ▸ this
  refine ⟨fixRun x y a, st, (repLoad x y ++ repFlush x y).length, (fixPre x y a).length, ?_, g1, g2, ⟨?_, ?_⟩, ⟨h2.1.1, h2.1.2⟩,
    ⟨?_, ?_, ?_, ?_⟩, ?_, ?_, hafter0 ▸ hgiven, h2.2⟩
  · intro s
    rw [hrec]
    simp only [List.map_nil, List.countP_nil]
    exact size_pos raceOpts
  · unfold fixRun
    rw [List.getElem?_append_right (Nat.le_refl _), Nat.sub_self]
    rw [fixSearch]; rfl
  · unfold fixRun
    rw [List.take_left]; exact hb
  · unfold fixPre; rw [List.length_append (bs := fixLoad x y a ++ fixFlush x y a)]; omega
  · rw [hafter0]; exact hfl0
  · rw [hafter]; exact hfl1
  · rw [hafter, hafter0, hgiven, hgiven']
  · rw [hafter]
    exact fun s => ((rank_quiet hreach (quiet_of_B hq) s).filter _).symm
  · intro t j a' ht' he
    unfold fixRun at he
    rw [List.getElem?_append_right ht'] at he
    have := List.all_eq_true.1 hno _ (List.mem_of_getElem? he)
    simp [EAct.call?] at this

/-- The hypotheses of `C130_updated_partial` and `C130_repaired_partial` hold: the shard served the old "google testing" of "1" (`C129_refuted_last_version`);
after "google cards" was indexed once more and flushed, the search for "google testing" does not find it. -/
example : ∃ as st b0 b, raceStart.run (programEng 4) as = some st ∧ raceStart.NoClash (programEng 4) as ∧ Began as 0 b storeReq ∧
    UpdatedBetween (programEng 4) raceStart (fun _ => []) as b0 b (str "1") [.index (str "1") (str "google cards") false, .flush] ∧
    (Full.after (programEng 4) raceStart as b0).fine.pipe.given (fun _ => []) = repCalls (str "google testing") (str "google cards") ∧
    respIds (st.response (programEng 4) 0) = some ([], 0) := by
  obtain ⟨as, st, b0, b, hs, h1, hg, h2, _, ⟨k1, k2, k3, k4⟩, _, _, h4, h5⟩ :=
    fix_spec (x := str "google testing") (y := str "google cards") (a := .index (str "1") (str "google cards") false) (ids := []) (by decide +kernel)
  exact ⟨as, st, b0, b, h1, race_noClash hs h1 hg, h2, ⟨k1, k2, k3, k4, by simp⟩, h4, h5⟩

/-- ... and a new matching version is found. -/
example : ∃ as st b0 b, raceStart.run (programEng 4) as = some st ∧ raceStart.NoClash (programEng 4) as ∧ Began as 0 b storeReq ∧
    UpdatedBetween (programEng 4) raceStart (fun _ => []) as b0 b (str "1") [.index (str "1") (str "google testing") false, .flush] ∧
    respIds (st.response (programEng 4) 0) = some ([str "1"], 1) := by
  obtain ⟨as, st, b0, b, hs, h1, hg, h2, _, ⟨k1, k2, k3, k4⟩, _, _, _, h5⟩ :=
    fix_spec (x := str "google cards") (y := str "google cards") (a := .index (str "1") (str "google testing") false) (ids := [str "1"]) (by decide +kernel)
  exact ⟨as, st, b0, b, h1, race_noClash hs h1 hg, h2, ⟨k1, k2, k3, k4, by simp⟩, h5⟩

end Riot
