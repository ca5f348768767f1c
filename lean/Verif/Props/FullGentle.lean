import Verif.Proofs.FullGentle
import Verif.Props.FullLive

/-!
# C76: a gently used engine answers every safe search
-/

namespace Riot

open Function (update)

variable {D F A : Type} {c : PipeCfg D}

/-- **C76** Use an engine gently (no forced calls, Flush only when no other call is in progress, fewer documents
per shard between two Flushes than the cache holds) and send it, at any time and from any number of
goroutines, requests that are none of the shapes that crash (C13, C22). Then no worker ever panics, every
search that returns has a response, and all searches return: none is left when nothing more can happen,
and from every state all can return without any time-out expiring. -/
theorem C76_gentle_engine_answers (hz : c.toPipeSize.Ok) (hk : c.KeysOk) {E : EngCfg D F A} (hso : SortOk E.so)
    (hlt : 1 ≤ E.lookupThreads) (hrt : 1 ≤ E.rankThreads) {o : IndexerOpts} {db : Fin c.stores → List (Str × D)}
    (hs : GentleStart c o db) {as : List (EAct c.toPipeSize D F)} {st : Full c F A}
    (h : (Full.start c o db).run E as = some st) (hg : (Full.start c o db).Gentle E o db as)
    (hsafe : ∀ r, EAct.start r ∈ as → SafeReq o E r) :
    st.crashed = false ∧ (∀ k, st.Returned k → (st.response E k).isSome = true) ∧
    (st.Stuck E → st.fine.Done ∧ ∀ k, k < st.searches.length → st.Returned k) ∧
    ∃ bs st', (∀ a ∈ bs, a.isNew = false ∧ a.isTimer = false) ∧ st.WritersFirst E bs ∧ st.run E bs = some st' ∧
      st'.searches = st.searches ∧ ∀ k, k < st.searches.length → st'.Returned k := by
  have key : ∀ {as : List (EAct c.toPipeSize D F)} {st : Full c F A}, (Full.start c o db).run E as = some st →
      (Full.start c o db).Gentle E o db as → (∀ r, EAct.start r ∈ as → SafeReq o E r) → st.Stuck E →
      st.fine.Done ∧ ∀ k, k < st.searches.length → st.Returned k := by
    intro as st h hg hsafe hst
    obtain ⟨p, q, _, l, _⟩ := full_reach h
    have hcr := full_gentle_alive hk hso hs as h hg hsafe
    simp only [Full.crashed, Bool.or_eq_false_iff] at hcr
    obtain ⟨g1, g2⟩ := full_stuck hz hlt hrt l p q hcr.1 hcr.2 (full_gentle hk hso hs h hg).2.2 hst
    exact ⟨g1, fun k hk => ⟨hk, g2 k hk⟩⟩
  refine ⟨full_gentle_alive hk hso hs as h hg hsafe, fun k hr => response_isSome h hr hsafe, key h hg hsafe, ?_⟩
  obtain ⟨bs, st', g1, g0, g2, g3⟩ := full_reaches_stuck E st (full_reach h).1
  have hse := full_notNew_searches (fun a ha => (g1 a ha).1) g2
  refine ⟨bs, st', g1, g0, g2, hse, ?_⟩
  have hrun : (Full.start c o db).run E (as ++ bs) = some st' := by rw [full_run_append, h]; exact g2
  rw [← hse]
  refine (key hrun ?_ ?_ g3).2
  · intro t i a ht
    rcases Nat.lt_or_ge t as.length with hlt | hge
    · rw [after_snoc bs (by omega)]
      exact hg t i a (by rwa [List.getElem?_append_left hlt] at ht)
    · rw [List.getElem?_append_right hge] at ht
      have := (g1 _ (List.mem_of_getElem? ht)).1
      simp [EAct.isNew] at this
  · intro r hr
    rcases List.mem_append.1 hr with hr | hr
    · exact hsafe r hr
    · have := (g1 _ hr).1
      simp [EAct.isNew] at this

/-- **C76** ... and the answers are right: take a plain request made when all work is done, the calls about each
document having been separated by Flushes and no document having been indexed again after a removal; and let no
call be made until it returns. Whatever other searches are going on, its response is the requested page
of a ranking of one list per answering shard (all shards unless a time-out expired), and each list
consists of exactly the documents whose last version on that shard matches; an entry has the scores and locations of
that version (computed with the shard's statistics of a moment of the search) and shows the data of a version given to that shard. -/
theorem C76_quiet_search_exact (hdoc : c.DocOk) (hk : c.KeysOk) {E : EngCfg D F A} (hso : SortOk E.so)
    (hgs : GSortOk E.gs) {o : IndexerOpts} {db : Fin c.stores → List (Str × D)} (hs : GentleStart c o db)
    {as : List (EAct c.toPipeSize D F)} {st : Full c F A} (h : (Full.start c o db).run E as = some st)
    (hg : (Full.start c o db).Gentle E o db as) {k b : Nat} {r : SearchReq F} (hb : Began as k b r)
    (hret : st.Returned k) (hquiet : (Full.after E (Full.start c o db) as b).fine.pipe.Quiet)
    (hround : ∀ d, d ≠ str "0" → ∃ l, Rounds db d (Full.after E (Full.start c o db) as b).fine.pipe l)
    (hre : ∀ d f x g l1 l2, (Full.after E (Full.start c o db) as b).fine.pipe.given db = l1 ++ Call.remove d f :: l2 →
      Call.index d x g ∉ l2)
    (hno : ∀ t i (a : Call D), b ≤ t → as[t]? ≠ some (.pipe (.call i a)))
    (hc : r.countDocsOnly = false) (hor : r.orderless = false)
    (hlogic : r.logic = {}) (htok : o.indexType = .locs → E.tokens r ≠ []) {off m : Nat}
    (ho : (wantedRank E.opts r).outputOffset = off) (hm : (wantedRank E.opts r).maxOutputs = m)
    (hsc : ∀ d f, (wantedRank E.opts r).score d f ≠ [] ∧ NoNaN ((wantedRank E.opts r).score d f)) :
    ∃ (lists : List (Fin c.shards × List (ScoredDoc F A))) (resp : SearchResp F A),
      (lists.map (·.1)).Nodup ∧ st.response E k = some resp ∧
      (resp.timeout = false → ∀ s, s ∈ lists.map (·.1)) ∧
      IsPageOf E.opts.idOnly (wantedRank E.opts r).reverseOrder (E.tokens r) off m (lists.flatMap (·.2)) resp ∧
      ∀ p ∈ lists, ((p.2).map (·.scoredID.docId)).Nodup ∧ str "0" ∉ (p.2).map (·.scoredID.docId) ∧ ∃ n avg df,
        StatsDuring E (Full.start c o db) as b p.1 n avg df ∧ ∀ d, d ≠ str "0" →
        (d ∈ (p.2).map (·.scoredID.docId) ↔
          Matches (ideal (((Full.after E (Full.start c o db) as b).fine.pipe.given db).flatMap (c.callOps p.1)))
            r.docIds (E.tokens r ++ r.labels) d) ∧
        ∀ e ∈ p.2, e.scoredID.docId = d →
          ShowsVersion c E ((Full.after E (Full.start c o db) as b).fine.pipe.given db) p.1 e ∧
          ∃ doc, ideal (((Full.after E (Full.start c o db) as b).fine.pipe.given db).flatMap (c.callOps p.1)) d =
              some doc ∧ ScoredAs E r (expectedDoc E.log2 o.init n avg df (E.tokens r) doc) e := by
  have hcl := full_gentle_noClash hk hso hs h hg
  obtain ⟨parts, resp, g1, g2, g3, g4, g5⟩ := C74_untouched_document_found_partial hdoc hk hso hgs h hcl hb hret.2 hc hor
    hlogic htok ho hm hsc
  refine ⟨parts.map (fun p => (p.shard, p.entries E (Full.start c o db) as r)), resp, ?_, g2, ?_, ?_, ?_⟩
  · rw [List.map_map]; exact g1
  · rw [List.map_map]; exact g3
  · rw [List.flatMap_map]; exact g4
  · intro p hp
    obtain ⟨q, hq, rfl⟩ := List.mem_map.1 hp
    obtain ⟨e1, ez, n, avg, df, hst, e2⟩ := g5 q hq
    refine ⟨e1, fun hz => ?_, n, avg, df, hst, fun d h0 => ?_⟩
    · obtain ⟨e, he, e0⟩ := List.mem_map.1 hz
      exact (ez e he).1 e0
    obtain ⟨l, hl⟩ := hround d h0
    exact e2 d l h0 hl (fun s => ((rank_quiet (hl.inv hdoc h0).1 hquiet s).filter _).symm)
      (fun t i a hbt ht => absurd ht (hno t i a hbt)) (hre d)

/-! ## An example -/

/-- Check that an action, if it is a call, is a gentle one. -/
def EAct.gentleB (o : IndexerOpts) (db : Fin c.stores → List (Str × D)) (st : Pipe c) :
    EAct c.toPipeSize D F → Bool
  | .pipe (.call _ x) => gentleCallB o db st x
  | _ => true

/-- Run a schedule, checking that its calls are gentle. -/
def Full.gentleRun (E : EngCfg D F A) (o : IndexerOpts) (db : Fin c.stores → List (Str × D)) :
    Full c F A → List (EAct c.toPipeSize D F) → Option (Full c F A)
  | st, [] => some st
  | st, a :: l =>
    if a.gentleB o db st.fine.pipe then
      (st.step E a).bind (fun st' => st'.gentleRun E o db l)
    else none

theorem full_gentleRun_spec {E : EngCfg D F A} {o : IndexerOpts} {db : Fin c.stores → List (Str × D)}
    (as : List (EAct c.toPipeSize D F)) : ∀ {st st' : Full c F A}, st.gentleRun E o db as = some st' →
    st.run E as = some st' ∧ st.Gentle E o db as := by
  induction as with
  | nil =>
    intro st st' h
    simp only [Full.gentleRun, Option.some.injEq] at h
    subst h
    exact ⟨rfl, fun t i a ht => by simp at ht⟩
  | cons x l ih =>
    intro st st' h
    simp only [Full.gentleRun] at h
    split at h
    · rename_i hx
      obtain ⟨st1, h1, h2⟩ := Option.bind_eq_some_iff.1 h
      obtain ⟨g1, g2⟩ := ih h2
      refine ⟨by simp [Full.run, h1, g1], ?_⟩
      intro t i a ht
      cases t with
      | zero =>
        simp only [List.getElem?_cons_zero, Option.some.injEq] at ht
        subst ht
        exact gentle_of_B hx
      | succ t =>
        have := g2 t i a (by simpa using ht)
        have hlt := (List.getElem?_eq_some_iff.1 ht).1
        have e : Full.after E st (x :: l) (t + 1) = Full.after E st1 l t := by
          unfold Full.after
          rw [List.take_succ_cons]
          simp only [Full.run, h1, Option.bind_some]
          have hs : (st1.run E (l.take t)).isSome = true := by
            rw [← List.take_append_drop t l, full_run_append] at g1
            obtain ⟨v, hv, _⟩ := Option.bind_eq_some_iff.1 g1
            rw [hv]; rfl
          obtain ⟨v, hv⟩ := Option.isSome_iff_exists.1 hs
          rw [hv]; rfl
        rw [e]; exact this
    · simp at h

/-- "X" and "Y" are indexed and flushed, then "Z" is indexed and "X" is removed while a search is in progress. -/
def gentleDemo : List (EAct pairEngine.toPipeSize Nat Nat) := pairStart.script (demoEng true)
  [.inr (engineCands _),
   .inl (.pipe (.call userA (.index (str "X") 4 false))), .inr (engineCands _),
   .inl (.pipe (.call userA (.index (str "Y") 2 false))), .inr (engineCands _),
   .inl (.pipe (.call userA .flush)), .inr (engineCands _),
   .inl (.start searchK), .inl (.send 0), .inl (.send 0), .inl (.take first), .inl (.lock first 0), .inl (.look first 0),
   .inl (.pipe (.call userA (.index (str "Z") 3 false))), .inr (engineCands _),
   .inl (.pipe (.call userA (.remove (str "X") false))), .inr (engineCands _)]

/-- The hypotheses of `C76_gentle_engine_answers` hold of that schedule; the search is still in progress. -/
example : ∃ st, pairStart.run (demoEng true) gentleDemo = some st ∧
    pairStart.Gentle (demoEng true) (smallOpts .docIds 10) (fun _ => []) gentleDemo ∧
    GentleStart pairEngine (smallOpts .docIds 10) (fun _ => []) ∧
    (∀ r, EAct.start r ∈ gentleDemo → SafeReq (smallOpts .docIds 10) (demoEng true) r) ∧
    st.searches.length = 1 ∧ ¬ st.Returned 0 ∧ pairEngine.toPipeSize.Ok ∧ pairEngine.KeysOk := by
  have h : (pairStart.gentleRun (demoEng true) (smallOpts .docIds 10) (fun _ => []) gentleDemo).any (fun st =>
      decide (st.searches.length = 1) && decide ((st.got 0).length = 0)) = true := by decide +kernel
  have hone : ((gentleDemo.filter EAct.isStart).all (fun a => match a with
    | .start r => decide (r.text = [] ∧ r.tokens = [str "k"]) && r.rankOpts.isNone | _ => true)) = true := by decide +kernel
  obtain ⟨st, h1, h⟩ := (Option.any_eq_true _ _).1 h
  simp only [Bool.and_eq_true, decide_eq_true_eq] at h
  obtain ⟨g1, g2⟩ := full_gentleRun_spec _ h1
  refine ⟨st, g1, g2, ?_, ?_, h.1, ?_, ⟨by decide, by decide, by decide, by decide, by decide⟩, ?_⟩
  · intro s
    have : pairEngine.recovered (fun _ => []) = [] := by decide +kernel
    rw [this]; simp only [List.map_nil, List.countP_nil]; decide +kernel
  · intro r hr
    have := List.all_eq_true.1 hone _ (List.mem_filter.2 ⟨hr, rfl⟩)
    simp only [Bool.and_eq_true, decide_eq_true_eq, Option.isNone_iff_eq_none] at this
    obtain ⟨⟨e1, e2⟩, e3⟩ := this
    have ht : (demoEng true).tokens r = [str "k"] := by
      unfold EngCfg.tokens Engine.tokens
      rw [if_neg (by simp [e1]), e2]
    refine ⟨?_, ?_, ?_, ?_⟩
    · rintro ⟨hx, _⟩; simp [smallOpts] at hx
    · rintro ⟨hx, _⟩; rw [ht] at hx; simp at hx
    · simp [wantedRank, e3, demoEng]
    · simp [wantedRank, e3, demoEng]
  · rintro ⟨_, hx⟩; rw [h.2] at hx; exact absurd hx (by decide)
  · intro id x; simp [pairEngine]

/-- A search when all is done. -/
def lateSearch : List (EAct pairEngine.toPipeSize Nat Nat) :=
  .start searchK :: ((flushState.step (demoEng true) (.start searchK)).getD flushState).greedy (demoEng true)
    (searchCands _ 1) 300

/-- "X", "Y" and "Z" are indexed and flushed; then a search. -/
def lateRun : List (EAct pairEngine.toPipeSize Nat Nat) := loadRun ++ flushRun ++ lateSearch

/-- Documents are indexed, each once, then a Flush with nothing else going on, then no more calls. -/
theorem late_hyps_coll {E : EngCfg D F A} {o : IndexerOpts} {db : Fin c.stores → List (Str × D)}
    (hdoc : c.DocOk) {load tail rest : List (EAct c.toPipeSize D F)} {i : Fin c.clients} {st1 st2 : Full c F A}
    {r : SearchReq F}
    (rl : (Full.start c o db).run E load = some st1) (rf : st1.run E (.pipe (.call i .flush) :: tail) = some st2)
    (hidle : ∀ i, st1.fine.pipe.prog (.client i) = []) (htail : tail.all (fun a => a.call?.isNone) = true)
    (hdone : st2.fine.pipe.prog (.client i) = []) (hq : st2.fine.pipe.Quiet) {docs : List (Str × D)}
    (hcalls : (c.recovered db).map (fun x => Call.index x.1 x.2 false) ++ st1.fine.pipe.calls.map (·.2) =
      docs.map (fun x => Call.index x.1 x.2 false)) (hnd : (docs.map (·.1)).Nodup)
    (hcl2 : ∀ d f, Call.remove d f ∉ st2.fine.pipe.given db)
    (hb : ((load ++ .pipe (.call i .flush) :: tail).filter EAct.isStart).length = 0) (hst : rest[0]? = some (.start r))
    (hno : rest.all (fun a => a.call?.isNone) = true) {as : List (EAct c.toPipeSize D F)}
    (has : as = load ++ .pipe (.call i .flush) :: tail ++ rest) :
    ∃ b, Began as 0 b r ∧ (Full.after E (Full.start c o db) as b).fine.pipe.Quiet ∧
    (∀ d, d ≠ str "0" → ∃ l, Rounds db d (Full.after E (Full.start c o db) as b).fine.pipe l) ∧
    (∀ d f x g l1 l2, (Full.after E (Full.start c o db) as b).fine.pipe.given db =
      l1 ++ Call.remove d f :: l2 → Call.index d x g ∉ l2) ∧
    (∀ t i (a : Call D), b ≤ t → as[t]? ≠ some (.pipe (.call i a))) ∧ Full.after E (Full.start c o db) as b = st2 ∧
    load.length < b ∧ as[load.length]? = some (.pipe (.call i .flush)) ∧
    (∀ t j (a : Call D), load.length < t → as[t]? ≠ some (.pipe (.call j a))) := by
  subst has
  have hafter : Full.after E (Full.start c o db) (load ++ .pipe (.call i .flush) :: tail ++ rest)
      (load ++ .pipe (.call i .flush) :: tail).length = st2 := by
    unfold Full.after
    rw [List.take_left, full_run_append, rl]
    simp [rf]
  refine ⟨(load ++ .pipe (.call i .flush) :: tail).length, ⟨?_, ?_⟩, ?_, ?_, ?_, ?_, hafter, by simp, by simp, ?_⟩
  · rw [List.getElem?_append_right (Nat.le_refl _), Nat.sub_self]; exact hst
  · rw [List.take_left]; exact hb
  · rw [hafter]; exact hq
  · intro d h0
    refine (after_first_round (d := d) hdoc h0 rl rf hidle htail hdone ?_ hq rfl ?_).1
    · rw [hcalls]
      have := List.nodup_iff_count_le_one.1 hnd d
      rw [← List.countP_eq_length_filter, List.countP_map]
      rw [List.count, List.countP_map] at this
      refine le_trans (le_of_eq (List.countP_congr (fun p _ => ?_))) this
      simp [Call.about]
    · refine List.all_eq_true.2 (fun a ha => ?_)
      have := List.all_eq_true.1 hno a ha
      rw [Option.isNone_iff_eq_none] at this
      rw [this]; rfl
  · intro d f x g l1 l2 e _
    rw [hafter] at e
    exact hcl2 d f (by rw [e]; simp)
  · intro t i a hbt ht
    rw [List.getElem?_append_right hbt] at ht
    have := List.all_eq_true.1 hno _ (List.mem_of_getElem? ht)
    simp [EAct.call?] at this
  · intro t j a hlt ht
    rw [List.append_assoc, List.getElem?_append_right (Nat.le_of_lt hlt)] at ht
    obtain ⟨n, hn⟩ : ∃ n, t - load.length = n + 1 := ⟨t - load.length - 1, by omega⟩
    rw [hn, List.cons_append, List.getElem?_cons_succ] at ht
    have := List.all_eq_true.1 (show (tail ++ rest).all (fun a => a.call?.isNone) = true by
      rw [List.all_append, htail, hno]; rfl) _ (List.mem_of_getElem? ht)
    simp [EAct.call?] at this

/-- Documents are indexed, each once, then a Flush with nothing else going on, then no more calls. -/
theorem late_hyps_list {E : EngCfg D F A} {o : IndexerOpts} {db : Fin c.stores → List (Str × D)}
    (hdoc : c.DocOk) {load tail rest : List (EAct c.toPipeSize D F)} {i : Fin c.clients} {st1 st2 : Full c F A}
    {r : SearchReq F}
    (rl : (Full.start c o db).run E load = some st1) (rf : st1.run E (.pipe (.call i .flush) :: tail) = some st2)
    (hidle : ∀ i, st1.fine.pipe.prog (.client i) = []) (htail : tail.all (fun a => a.call?.isNone) = true)
    (hdone : st2.fine.pipe.prog (.client i) = []) (hq : st2.fine.pipe.Quiet) {docs : List (Str × D)}
    (hcalls : (c.recovered db).map (fun x => Call.index x.1 x.2 false) ++ st1.fine.pipe.calls.map (·.2) =
      docs.map (fun x => Call.index x.1 x.2 false)) (hnd : (docs.map (·.1)).Nodup)
    (hcl2 : (st2.fine.pipe.given db).all (fun a => a.indexed.isSome || a.isFlush) = true)
    (hb : ((load ++ .pipe (.call i .flush) :: tail).filter EAct.isStart).length = 0) (hst : rest[0]? = some (.start r))
    (hno : rest.all (fun a => a.call?.isNone) = true) {as : List (EAct c.toPipeSize D F)}
    (has : as = load ++ .pipe (.call i .flush) :: tail ++ rest) :
    ∃ b, Began as 0 b r ∧ (Full.after E (Full.start c o db) as b).fine.pipe.Quiet ∧
    (∀ d, d ≠ str "0" → ∃ l, Rounds db d (Full.after E (Full.start c o db) as b).fine.pipe l) ∧
    (∀ d f x g l1 l2, (Full.after E (Full.start c o db) as b).fine.pipe.given db =
      l1 ++ Call.remove d f :: l2 → Call.index d x g ∉ l2) ∧
    (∀ t i (a : Call D), b ≤ t → as[t]? ≠ some (.pipe (.call i a))) ∧ Full.after E (Full.start c o db) as b = st2 ∧
    load.length < b ∧ as[load.length]? = some (.pipe (.call i .flush)) ∧
    (∀ t j (a : Call D), load.length < t → as[t]? ≠ some (.pipe (.call j a))) := by
  refine late_hyps_coll hdoc rl rf hidle htail hdone hq hcalls hnd (fun d f hm => ?_) hb hst hno has
  have := List.all_eq_true.1 hcl2 _ hm
  simp [Call.indexed, Call.isFlush] at this

/-- Three documents are indexed, then a Flush with nothing else going on, then no more calls. -/
theorem late_hyps {E : EngCfg D F A} {o : IndexerOpts} {db : Fin c.stores → List (Str × D)}
    (hdoc : c.DocOk) {load tail rest : List (EAct c.toPipeSize D F)} {i : Fin c.clients} {st1 st2 : Full c F A}
    {r : SearchReq F}
    (rl : (Full.start c o db).run E load = some st1) (rf : st1.run E (.pipe (.call i .flush) :: tail) = some st2)
    (hidle : ∀ i, st1.fine.pipe.prog (.client i) = []) (htail : tail.all (fun a => a.call?.isNone) = true)
    (hdone : st2.fine.pipe.prog (.client i) = []) (hq : st2.fine.pipe.Quiet) {x y z : Str} {dx dy dz : D}
    (hcalls : (c.recovered db).map (fun x => Call.index x.1 x.2 false) ++ st1.fine.pipe.calls.map (·.2) =
      [.index x dx false, .index y dy false, .index z dz false]) (hxy : x ≠ y ∧ x ≠ z ∧ y ≠ z)
    (hcl2 : (st2.fine.pipe.given db).all (fun a => a.indexed.isSome || a.isFlush) = true)
    (hb : ((load ++ .pipe (.call i .flush) :: tail).filter EAct.isStart).length = 0) (hst : rest[0]? = some (.start r))
    (hno : rest.all (fun a => a.call?.isNone) = true) {as : List (EAct c.toPipeSize D F)}
    (has : as = load ++ .pipe (.call i .flush) :: tail ++ rest) :
    ∃ b, Began as 0 b r ∧ (Full.after E (Full.start c o db) as b).fine.pipe.Quiet ∧
    (∀ d, d ≠ str "0" → ∃ l, Rounds db d (Full.after E (Full.start c o db) as b).fine.pipe l) ∧
    (∀ d f x g l1 l2, (Full.after E (Full.start c o db) as b).fine.pipe.given db =
      l1 ++ Call.remove d f :: l2 → Call.index d x g ∉ l2) ∧
    (∀ t i (a : Call D), b ≤ t → as[t]? ≠ some (.pipe (.call i a))) ∧ Full.after E (Full.start c o db) as b = st2 := by
  obtain ⟨b, h1, h2, h3, h4, h5, h6, _⟩ := late_hyps_list (docs := [(x, dx), (y, dy), (z, dz)]) hdoc rl rf hidle htail hdone hq
    hcalls (by simp [hxy]) hcl2 hb hst hno has
  exact ⟨b, h1, h2, h3, h4, h5, h6⟩

/-- The hypotheses of `C76_quiet_search_exact` hold of that schedule, and the response lists the three documents. -/
example : ∃ st b, pairStart.run (demoEng true) lateRun = some st ∧
    pairStart.Gentle (demoEng true) (smallOpts .docIds 10) (fun _ => []) lateRun ∧
    Began lateRun 0 b searchK ∧ st.Returned 0 ∧ (Full.after (demoEng true) pairStart lateRun b).fine.pipe.Quiet ∧
    (∀ d, d ≠ str "0" → ∃ l, Rounds (fun _ => []) d (Full.after (demoEng true) pairStart lateRun b).fine.pipe l) ∧
    (∀ d f x g l1 l2, (Full.after (demoEng true) pairStart lateRun b).fine.pipe.given (fun _ => []) =
      l1 ++ Call.remove d f :: l2 → Call.index d x g ∉ l2) ∧
    (∀ t i (a : Call Nat), b ≤ t → lateRun[t]? ≠ some (.pipe (.call i a))) ∧
    respIds (st.response (demoEng true) 0) = some ([str "X", str "Z", str "Y"], 3) := by
  have h : (pairStart.gentleRun (demoEng true) (smallOpts .docIds 10) (fun _ => []) lateRun).any (fun st =>
    decide (0 < st.searches.length) && decide ((st.got 0).length = pairEngine.shards) &&
    decide (respIds (st.response (demoEng true) 0) = some ([str "X", str "Z", str "Y"], 3))) = true := by
    decide +kernel
  have hb : ((loadRun ++ flushRun).filter EAct.isStart).length = 0 := by decide +kernel
  have hl : (pairStart.run (demoEng true) loadRun).isSome = true := by decide +kernel
  have hf : (loadState.run (demoEng true) flushRun).isSome = true := by decide +kernel
  have hidle : (decide (∀ i, loadState.fine.pipe.prog (.client i) = [])) = true := by decide +kernel
  have hcl1 : (pairEngine.recovered (fun _ => [])).map (fun x => Call.index x.1 x.2 false) ++
      loadState.fine.pipe.calls.map (·.2) = [.index (str "X") 4 false, .index (str "Y") 2 false, .index (str "Z") 3 false] := by
    decide +kernel
  have hcl2 : (flushState.fine.pipe.given (fun _ => [])).all (fun a => a.indexed.isSome || a.isFlush) = true := by
    decide +kernel
  have hxy : str "X" ≠ str "Y" ∧ str "X" ≠ str "Z" ∧ str "Y" ≠ str "Z" := by decide +kernel
  have htail : flushTail.all (fun a => a.call?.isNone) = true := by decide +kernel
  have hdone : flushState.fine.pipe.prog (.client userA) = [] := by decide +kernel
  have hq : flushState.fine.pipe.quietB = true := by decide +kernel
  have hno : lateSearch.all (fun a => a.call?.isNone) = true := by decide +kernel
  have rl : pairStart.run (demoEng true) loadRun = some loadState := by
    obtain ⟨x, hx⟩ := Option.isSome_iff_exists.1 hl
    rw [loadState, hx, Option.getD_some]
  have rf : loadState.run (demoEng true) flushRun = some flushState := by
    obtain ⟨x, hx⟩ := Option.isSome_iff_exists.1 hf
    rw [flushState, hx, Option.getD_some]
  have hst : lateSearch[0]? = some (.start searchK) := by rw [lateSearch]; rfl
  obtain ⟨b, k1, k2, k3, k4, k5, k6⟩ := late_hyps (E := demoEng true) (tail := flushTail) (rest := lateSearch)
    (fun _ _ => rfl) rl rf (of_decide_eq_true hidle) htail hdone (quiet_of_B hq) hcl1 hxy hcl2 hb hst hno
    (as := lateRun) rfl
  obtain ⟨st, h1, h2⟩ := (Option.any_eq_true _ _).1 h
  simp only [Bool.and_eq_true, decide_eq_true_eq] at h2
  obtain ⟨g1, g2⟩ := full_gentleRun_spec _ h1
  exact ⟨st, b, g1, g2, k1, ⟨h2.1.1, h2.1.2⟩, k2, k3, k4, k5, h2.2⟩

end Riot
