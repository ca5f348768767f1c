import Verif.Proofs.EngineSearch
import Verif.Proofs.SearchProto
import Verif.Props.Ranker
import Verif.Props.Search
import Verif.Props.Logic

/-!
# Search over several shards: C24, C25, C26, C27, C28, C29, C36

`views` are the shards as their workers see them (index content and ranker history, arbitrary
and possibly different moments), `docsOf v` the documents the index of shard `v` finds.
-/

namespace Riot

variable {F A : Type}

/-! ## C24 -/

/-- **C24** For any number of shards, any contents, any order in which the shards answer, and
every offset and limit: the search does not crash and returns the requested page of a ranking
of all found, registered and scored documents of all shards (scores comparable, i.e. no NaN). -/
theorem C24_search_is_page_of_global_ranking {gs : GSort} (hgs : GSortOk gs) (log2 : Rat → Rat)
    (e : SearchOpts F) (r : SearchReq F) (tokens : List Str) (views : List (ShardView F A))
    (docsOf : ShardView F A → List IndexedDoc) (off m : Nat)
    (hf : ∀ v ∈ views, v.found log2 tokens r = some (docsOf v))
    (hc : r.countDocsOnly = false) (hor : r.orderless = false)
    (ho : (wantedRank e r).outputOffset = off) (hm : (wantedRank e r).maxOutputs = m)
    (hnan : ∀ v ∈ views, ∀ d ∈ docsOf v, ∀ f, NoNaN ((wantedRank e r).score d f)) :
    ∃ answers, shardAnswers log2 gs e r tokens views = some answers ∧
      ∀ arrived, arrived.Perm answers →
        ∃ resp, completeSearch gs e r tokens arrived = some resp ∧ resp.timeout = false ∧
          IsPageOf e.idOnly (wantedRank e r).reverseOrder tokens off m
            (views.flatMap (fun v => v.scored (wantedRank e r).score (docsOf v))) resp := by
  simp only [← rankOpts_eq] at *
  obtain ⟨as, h1, h2⟩ := shardAnswers_ordered hgs log2 e r tokens views docsOf off m hf hc hor ho hm
  refine ⟨as, h1, ?_⟩
  intro arrived hp
  obtain ⟨ws, hw, h3⟩ := forall2_perm h2 hp
  have hev : (arrived.map some).filterMap id = arrived := by
    rw [List.filterMap_map]; simp
  obtain ⟨resp, h4, h5, h6, h7⟩ := respond_ordered hgs e r tokens ws docsOf off m
    (arrived.map some) (by rw [hev]; exact h3) hc hor ho hm
  refine ⟨resp, h4, by rw [h5]; simp, ?_⟩
  obtain ⟨R, h8, h9, h10, h11, h12⟩ := h7 (fun v hv => hnan v (hw.mem_iff.1 hv))
  have hpm : (ws.flatMap (fun v => v.scored (Engine.rankOpts e r).score (docsOf v))).Perm
      (views.flatMap (fun v => v.scored (Engine.rankOpts e r).score (docsOf v))) :=
    List.Perm.flatMap_right _ hw
  exact ⟨R, h8.trans hpm, h9, h10, by rw [h11, hpm.length_eq], h12⟩

theorem indexerLookup_direct {gs : GSort} (log2 : Rat → Rat) (e : SearchOpts F) (r : SearchReq F)
    (tokens : List Str) (v : ShardView F A) (docs : List IndexedDoc)
    (hf : v.found log2 tokens r = some docs) (hc : r.countDocsOnly = false) (hor : r.orderless = true) :
    ∃ a, Engine.shardAnswer log2 gs e r tokens v.index (Ranker.run e.idOnly v.history) = some a ∧
      a.numDocs = docs.length ∧
      (e.idOnly = false → a.list asDocs = some (docs.map bareEntry)) ∧
      (e.idOnly = true → a.list asIDs = some ((docs.map (bareEntry (F := F) (A := A))).map (·.scoredID))) := by
  unfold ShardView.found at hf
  obtain ⟨⟨ds, n⟩, hl, hds⟩ := Option.map_eq_some_iff.1 hf
  simp only at hds; subst hds
  unfold Engine.shardAnswer Engine.indexerLookup
  simp only [hc, hl, Option.bind_eq_bind, Option.bind_some, Bool.false_eq_true, if_false, hor, if_true]
  by_cases h0 : ds.length = 0
  · have : ds = [] := List.length_eq_zero_iff.1 h0
    subst this
    exact ⟨{}, by simp, by simp, by simp [Answer.list], by simp [Answer.list]⟩
  · rw [if_neg h0]
    simp only [Option.pure_def, Option.bind_some]
    refine ⟨_, rfl, ?_, ?_, ?_⟩
    · unfold Engine.orderLess; split <;> simp
    · intro hb
      simp [Engine.orderLess, hb, Answer.list, asDocs, bareEntry, mkScoredID]
    · intro hb
      simp [Engine.orderLess, hb, Answer.list, asIDs, bareEntry, mkScoredID]

/-- **C24** (orderless requests) An orderless search returns every found document of every
shard exactly once, without scores, whatever offset and limit say, in any answer order. -/
theorem C24_orderless_returns_all_found {gs : GSort} (log2 : Rat → Rat)
    (e : SearchOpts F) (r : SearchReq F) (tokens : List Str) (views : List (ShardView F A))
    (docsOf : ShardView F A → List IndexedDoc)
    (hf : ∀ v ∈ views, v.found log2 tokens r = some (docsOf v))
    (hc : r.countDocsOnly = false) (hor : r.orderless = true) :
    ∃ answers, shardAnswers log2 gs e r tokens views = some answers ∧
      ∀ arrived, arrived.Perm answers →
        ∃ R, R.Perm ((views.flatMap docsOf).map bareEntry) ∧
          completeSearch gs e r tokens arrived = some
            { tokens := tokens, timeout := false, numDocs := (views.flatMap docsOf).length,
              docs := some (resultDocs e.idOnly R) } := by
  obtain ⟨as, h1, h2⟩ := mapM_forall2
    (fun v : ShardView F A => Engine.shardAnswer log2 gs e r tokens v.index (Ranker.run e.idOnly v.history))
    (fun v a => a.numDocs = (docsOf v).length ∧
      (e.idOnly = false → a.list asDocs = some ((docsOf v).map bareEntry)) ∧
      (e.idOnly = true → a.list asIDs = some (((docsOf v).map (bareEntry (F := F) (A := A))).map (·.scoredID))))
    views (fun v hv => indexerLookup_direct log2 e r tokens v (docsOf v) (hf v hv) hc hor)
  refine ⟨as, h1, ?_⟩
  intro arrived hp
  obtain ⟨ws, hw, h3⟩ := forall2_perm h2 hp
  have hev : (arrived.map some).filterMap id = arrived := by
    rw [List.filterMap_map]; simp
  have hpm : (ws.flatMap docsOf).Perm (views.flatMap docsOf) := List.Perm.flatMap_right _ hw
  refine ⟨(ws.flatMap docsOf).map bareEntry, hpm.map _, ?_⟩
  have hnum : (arrived.map (·.numDocs)).sum = (views.flatMap docsOf).length := by
    rw [← hpm.length_eq, length_flatMap_sum]
    exact sum_of_forall2 h3 _ _ (fun v a h => h.1)
  have hnone : (arrived.map some).any (·.isNone) = false := by simp
  unfold completeSearch Engine.respond
  cases hb : e.idOnly with
  | false =>
    have hcol := collect_ok asDocs (fun a => (a.list asDocs).getD []) (arrived.map some) {} (by
      intro a ha
      simp only [List.mem_map, Option.some.injEq, exists_eq_right] at ha
      obtain ⟨v, _, h⟩ := forall2_left h3 ha
      rw [h.2.1 hb]; rfl)
    rw [hev, hnone] at hcol
    have hout : arrived.flatMap (fun a => (a.list asDocs).getD []) = (ws.flatMap docsOf).map bareEntry := by
      rw [List.map_flatMap]
      exact flatMap_of_forall2 h3 _ _ (fun v a h => by rw [h.2.1 hb]; rfl)
    simp only [Bool.false_eq_true, if_false, hc, hcol, Option.bind_eq_bind, Option.bind_some,
      finishSearch, hor, Bool.not_true, Bool.and_false, if_true, hout, resultDocs]
    simp [hnum]
  | true =>
    have hcol := collect_ok asIDs (fun a => (a.list asIDs).getD []) (arrived.map some) {} (by
      intro a ha
      simp only [List.mem_map, Option.some.injEq, exists_eq_right] at ha
      obtain ⟨v, _, h⟩ := forall2_left h3 ha
      rw [h.2.2 hb]; rfl)
    rw [hev, hnone] at hcol
    have hout : arrived.flatMap (fun a => (a.list asIDs).getD []) =
        ((ws.flatMap docsOf).map (bareEntry (F := F) (A := A))).map (·.scoredID) := by
      rw [List.map_flatMap, List.map_flatMap]
      exact flatMap_of_forall2 h3 _ _ (fun v a h => by rw [h.2.2 hb]; rfl)
    simp only [Bool.false_eq_true, if_false, hc, hcol, Option.bind_eq_bind, Option.bind_some,
      finishSearch, hor, Bool.not_true, Bool.and_false, if_true, hout, resultDocs]
    simp [hnum]

/-- A shard whose index holds documents with the key "b" and whose ranker holds their fields. -/
def demoShard (ids : List (String × Nat)) : ShardView Nat Nat where
  index := ((Indexer.init (smallOpts .docIds 10)).run insSort
    (ids.map (fun x => .add (mkDoc x.1 ["b"]) true))).getD (Indexer.init (smallOpts .docIds 10))
  history := ids.map (fun x => .add (str x.1) (some x.2) none)

/-- Three shards, one of them empty. -/
def demoShards : List (ShardView Nat Nat) :=
  [demoShard [("1", 5), ("2", 9), ("3", 1)], demoShard [], demoShard [("4", 7), ("5", 3)]]

/-- Options and request for the examples: score by field; positions 1 and 2. -/
def demoOpts : SearchOpts Nat := { notUseGse := true, idOnly := true, defRankOpts := { score := demoScore } }

def demoReq (off m : Int) : SearchReq Nat :=
  { tokens := [str "b"], rankOpts := some { outputOffset := off, maxOutputs := m } }

/-- The ids and the number of documents of a response. -/
def respIds (x : Option (SearchResp Nat Nat)) : Option (List Str × Nat) :=
  x.bind (fun y => (y.docs.bind asIDs).map (fun l => (l.map (·.docId), y.numDocs)))

example : (shardAnswers (fun x => x) insGSort demoOpts (demoReq 1 2) [str "b"] demoShards).map
    (fun as => (respIds (completeSearch insGSort demoOpts (demoReq 1 2) [str "b"] as),
      respIds (completeSearch insGSort demoOpts (demoReq 1 2) [str "b"] as.reverse))) =
    some (some ([str "4", str "1"], 5), some ([str "4", str "1"], 5)) := by decide +kernel

/-- The hypotheses of the C24 theorem hold for this engine. -/
example : ∀ v ∈ demoShards, (v.found (fun x => x) [str "b"] (demoReq 1 2)).isSome := by decide +kernel

/-! ## C25 -/

/-- **C25** NumDocs is the number of found, registered and scored documents of all shards:
for every scoring function, every page and every answer order. -/
theorem C25_numDocs_is_total {gs : GSort} (hgs : GSortOk gs) (log2 : Rat → Rat)
    (e : SearchOpts F) (r : SearchReq F) (tokens : List Str) (views : List (ShardView F A))
    (docsOf : ShardView F A → List IndexedDoc)
    (hf : ∀ v ∈ views, v.found log2 tokens r = some (docsOf v))
    (hc : r.countDocsOnly = false) (hor : r.orderless = false)
    (ho : 0 ≤ (wantedRank e r).outputOffset) (hm : 0 ≤ (wantedRank e r).maxOutputs) :
    ∃ answers, shardAnswers log2 gs e r tokens views = some answers ∧
      ∀ arrived, arrived.Perm answers →
        ∃ resp, completeSearch gs e r tokens arrived = some resp ∧
          resp.numDocs =
            (views.flatMap (fun v => v.scored (wantedRank e r).score (docsOf v))).length := by
  simp only [← rankOpts_eq] at *
  obtain ⟨off, hoff⟩ := Int.eq_ofNat_of_zero_le ho
  obtain ⟨m, hmm⟩ := Int.eq_ofNat_of_zero_le hm
  obtain ⟨as, h1, h2⟩ := shardAnswers_ordered hgs log2 e r tokens views docsOf off m hf hc hor hoff hmm
  refine ⟨as, h1, ?_⟩
  intro arrived hp
  obtain ⟨ws, hw, h3⟩ := forall2_perm h2 hp
  have hev : (arrived.map some).filterMap id = arrived := by
    rw [List.filterMap_map]; simp
  obtain ⟨resp, h4, h5, h6, h7⟩ := respond_ordered hgs e r tokens ws docsOf off m
    (arrived.map some) (by rw [hev]; exact h3) hc hor hoff hmm
  refine ⟨resp, h4, ?_⟩
  rw [h6]
  exact (List.Perm.flatMap_right _ hw).length_eq

/-- A crash outside the legal range: a negative limit. -/
theorem C25_negative_limit_crashes :
    ((shardAnswers (fun x => x) insGSort demoOpts (demoReq 0 (-1)) [str "b"] demoShards).bind
      (fun as => completeSearch insGSort demoOpts (demoReq 0 (-1)) [str "b"] as)).isNone := by
  decide +kernel

/-! ## C26 -/

/-- What a count-only search reports: the number of documents the indexes find, without
asking the rankers. -/
theorem count_only_reports_found {gs : GSort} (log2 : Rat → Rat)
    (e : SearchOpts F) (r : SearchReq F) (tokens : List Str) (views : List (ShardView F A))
    (docsOf : ShardView F A → List IndexedDoc)
    (hf : ∀ v ∈ views, v.found log2 tokens r = some (docsOf v))
    (hc : r.countDocsOnly = true) :
    ∃ answers, shardAnswers log2 gs e r tokens views = some answers ∧
      ∀ arrived, arrived.Perm answers → completeSearch gs e r tokens arrived = some
        { tokens := tokens, timeout := false, numDocs := (views.flatMap docsOf).length,
          docs := none } := by
  obtain ⟨as, h1, h2⟩ := mapM_forall2
    (fun v : ShardView F A => Engine.shardAnswer log2 gs e r tokens v.index (Ranker.run e.idOnly v.history))
    (fun v a => a.numDocs = (docsOf v).length) views (by
      intro v hv
      have h := hf v hv
      unfold ShardView.found at h
      obtain ⟨⟨ds, n⟩, hl, hds⟩ := Option.map_eq_some_iff.1 h
      simp only at hds; subst hds
      have hc3 := (C03_count_only log2 v.index tokens r.labels r.docIds (some r.logic)).1
      rw [hl] at hc3
      refine ⟨{ numDocs := (docsOf v).length }, ?_, rfl⟩
      unfold Engine.shardAnswer Engine.indexerLookup
      simp [hc, hc3])
  refine ⟨as, h1, ?_⟩
  intro arrived hp
  obtain ⟨ws, hw, h3⟩ := forall2_perm h2 hp
  have hev : (arrived.map some).filterMap id = arrived := by
    rw [List.filterMap_map]; simp
  have hnum : (arrived.map (·.numDocs)).sum = (views.flatMap docsOf).length := by
    rw [← (List.Perm.flatMap_right _ hw).length_eq, length_flatMap_sum]
    exact sum_of_forall2 h3 _ _ (fun v a h => h)
  have hnone : (arrived.map some).any (·.isNone) = false := by simp
  unfold completeSearch Engine.respond
  cases hb : e.idOnly <;>
  · simp only [hc, collect_count, hev, hnone, Option.bind_eq_bind, Option.bind_some, finishSearch,
      Bool.false_eq_true, if_false, if_true]
    simp [hnum]

/-- **C26** (partial: requests for which every found document is registered with its shard's
ranker and gets a non-empty score; false in general, see below). The count-only search
reports the same NumDocs as the full search. -/
theorem C26_count_only_equals_full_partial {gs : GSort} (hgs : GSortOk gs) (log2 : Rat → Rat)
    (e : SearchOpts F) (r : SearchReq F) (tokens : List Str) (views : List (ShardView F A))
    (docsOf : ShardView F A → List IndexedDoc)
    (hf : ∀ v ∈ views, v.found log2 tokens r = some (docsOf v)) (hor : r.orderless = false)
    (ho : 0 ≤ (wantedRank e r).outputOffset) (hm : 0 ≤ (wantedRank e r).maxOutputs)
    (hreg : ∀ v ∈ views, ∀ d ∈ docsOf v, ∃ x, rankIdeal v.history d.docId = some x ∧
      (wantedRank e r).score d x.fields ≠ []) :
    ∃ full counts, shardAnswers log2 gs e { r with countDocsOnly := false } tokens views = some full ∧
      shardAnswers log2 gs e { r with countDocsOnly := true } tokens views = some counts ∧
      ∀ af ac, af.Perm full → ac.Perm counts →
        ∃ rf rc, completeSearch gs e { r with countDocsOnly := false } tokens af = some rf ∧
          completeSearch gs e { r with countDocsOnly := true } tokens ac = some rc ∧
          rc.numDocs = rf.numDocs := by
  obtain ⟨full, h1, h2⟩ := C25_numDocs_is_total hgs log2 e { r with countDocsOnly := false } tokens
    views docsOf hf rfl hor ho hm
  obtain ⟨counts, h3, h4⟩ := count_only_reports_found (gs := gs) log2 e
    { r with countDocsOnly := true } tokens views docsOf hf rfl
  refine ⟨full, counts, h1, h3, ?_⟩
  intro af ac haf hac
  obtain ⟨rf, h5, h6⟩ := h2 af haf
  refine ⟨rf, _, h5, h4 ac hac, ?_⟩
  rw [h6]
  have hlen : ∀ v ∈ views, (v.scored (wantedRank e r).score (docsOf v)).length =
      (docsOf v).length := by
    intro v hv
    unfold ShardView.scored
    have : ∀ l : List IndexedDoc, (∀ d ∈ l, ∃ x, rankIdeal v.history d.docId = some x ∧
        (wantedRank e r).score d x.fields ≠ []) →
        (l.filterMap (expectedScored (rankIdeal v.history) (wantedRank e r).score)).length =
          l.length := by
      intro l
      induction l with
      | nil => intro _; rfl
      | cons d l ih =>
        intro hl
        obtain ⟨x, hx, hs⟩ := hl d (by simp)
        rw [List.filterMap_cons]
        simp only [expectedScored, hx, if_neg hs, List.length_cons]
        rw [ih (fun d' hd' => hl d' (by simp [hd']))]
    exact this _ (hreg v hv)
  show (views.flatMap docsOf).length = _
  rw [length_flatMap_sum, length_flatMap_sum]
  exact congrArg List.sum (List.map_congr_left (fun v hv => (hlen v hv).symm))

/-- **C26 is false in general**: one document whose score vector is empty (the documented way
for a scoring rule to drop a document). The full search reports 0 documents, the count-only
search of the same request reports 1. -/
theorem C26_refuted_filtered_document :
    ∃ (v : ShardView Nat Nat) (r : SearchReq Nat),
      ((shardAnswers (fun x => x) insGSort demoOpts r [str "b"] [v]).bind
        (completeSearch insGSort demoOpts r [str "b"])).map (·.numDocs) = some 0 ∧
      ((shardAnswers (fun x => x) insGSort demoOpts { r with countDocsOnly := true } [str "b"] [v]).bind
        (completeSearch insGSort demoOpts { r with countDocsOnly := true } [str "b"])).map
          (·.numDocs) = some 1 := by
  refine ⟨demoShard [("1", 5)], { tokens := [str "b"], rankOpts := some { score := some (fun _ _ => []) } },
    ?_, ?_⟩ <;> decide +kernel

/-! ## C28: the workers -/

/-- **C28** (no blocking) In every state reachable by any schedule of any number of searches,
a worker that holds a request of search `s` (in a lookup or a rank thread) finds room in the
return channel of `s`, whether or not the requester has received anything or has timed out. -/
theorem C28_delivery_never_blocks {α : Type} (c : ProtoCfg) (o : ProtoOracle α)
    (as : List PAct) (st : PState α) (hr : PState.init.run c o as = some st) (s i : Nat)
    (hh : s ∈ st.lookW i ∨ s ∈ st.rankW i) :
    (st.chan s).length < c.numShards := by
  have h := (PInv.init c o).run as hr
  apply h.room (i := i)
  unfold PState.inFlight
  rcases hh with hh | hh <;> have := List.count_pos_iff.2 hh <;> omega

/-- **C28** (at most one answer per shard) In every reachable state, what search `s` has
received and what is waiting in its channel are answers of pairwise distinct shards. -/
theorem C28_at_most_one_answer_per_shard {α : Type} (c : ProtoCfg) (o : ProtoOracle α)
    (as : List PAct) (st : PState α) (hr : PState.init.run c o as = some st) (s : Nat) :
    ∃ shards : List Nat, shards.Nodup ∧ (∀ i ∈ shards, i < c.numShards) ∧
      (st.got s).filterMap id ++ st.chan s = shards.map (o.ans s) := by
  have h := (PInv.init c o).run as hr
  obtain ⟨h1, h2⟩ := h.answered_nodup s
  exact ⟨st.answered s, h1, fun i hi => lt_of_lt_of_le (h2 i hi) (h.sent_le s), h.chan s⟩

/-- **C28** (every search is answered) With at least one thread per shard and a buffer of at
least one entry (the defaults guarantee both): from every reachable state, every schedule
without new searches is finite (at most `st.work c` actions), and when nothing more can happen
every search has completed all its rounds, and every shard has answered it exactly once. -/
theorem C28_every_search_completes {α : Type} (c : ProtoCfg) (o : ProtoOracle α)
    (hc : 0 < c.lookupCap ∧ 0 < c.lookupThreads ∧ 0 < c.rankCap ∧ 0 < c.rankThreads)
    (as : List PAct) (st : PState α) (hr : PState.init.run c o as = some st) :
    (∀ bs st', PAct.start ∉ bs → st.run c o bs = some st' → bs.length ≤ st.work c) ∧
    ((∀ a, a ≠ .start → st.step c o a = none) → ∀ s < st.started,
      (st.got s).length = c.numShards ∧
      ((st.got s).filterMap id ++ st.chan s).Perm ((List.range c.numShards).map (o.ans s)) ∧
      (o.timeout s = false → st.chan s = [] ∧ none ∉ st.got s)) := by
  have h := (PInv.init c o).run as hr
  constructor
  · intro bs st' hb hrun
    have := (PState.work_run bs hb hrun).1
    omega
  · intro hq s hs
    obtain ⟨h1, h2⟩ := h.quiescent hc.1 hc.2.1 hc.2.2.2 hc.2.2.1 hq s hs
    refine ⟨h1, by rw [h.chan s]; exact h2.map _, ?_⟩
    intro ht
    have hnn := h.timer s ht
    refine ⟨?_, hnn⟩
    have hl := congrArg List.length (h.chan s)
    simp only [List.length_append, List.length_map, h2.length_eq, List.length_range] at hl
    have : ((st.got s).filterMap id).length = (st.got s).length := by
      clear hl h1
      generalize st.got s = l at hnn
      induction l with
      | nil => rfl
      | cons x l ih =>
        simp only [List.mem_cons, not_or] at hnn
        cases x with
        | none => exact absurd rfl hnn.1
        | some y =>
          rw [List.filterMap_cons_some (f := id) rfl, List.length_cons, List.length_cons, ih hnn.2]
    exact List.length_eq_zero_iff.1 (by omega)

/-- Two searches on two shards; search 0 times out twice, its answers are delivered later. -/
example : ((PState.init (α := Nat)).run ⟨2, 1, 1, 1, 1⟩
    ⟨fun s _ => s == 1, fun s i => 10 * s + i, fun s => s == 0⟩
    [.start, .send 0, .start, .takeLookup 0, .send 0, .timer 0, .send 1, .timer 0, .forward 0 0,
     .takeLookup 0, .answer 0 1, .takeRank 0, .answerRank 0 0, .takeLookup 1, .forward 1 0,
     .takeRank 1, .answerRank 1 0, .send 1, .takeLookup 1, .answer 1 1, .recv 1, .recv 1]).map
    (fun st => (st.got 0, st.chan 0, st.got 1, st.chan 1)) =
    some ([none, none], [0, 1], [some 10, some 11], []) := by decide

/-! ## C27 -/

/-- **C27** (timeout) Take any schedule of any number of searches in which search `s` (an
ordered search over the shards `views`) has finished its rounds. Its response is then exactly
the response to a complete search over some of the shards (those that answered in time): the
requested page of their global ranking, with their total; every returned document is one the
complete search ranks, NumDocs is at most the complete total, and if Timeout is false all
shards are included. -/
theorem C27_timeout_sound {gs : GSort} (hgs : GSortOk gs) (log2 : Rat → Rat)
    (e : SearchOpts F) (r : SearchReq F) (tokens : List Str) (views : List (ShardView F A))
    (docsOf : ShardView F A → List IndexedDoc) (off m : Nat)
    (hf : ∀ v ∈ views, v.found log2 tokens r = some (docsOf v))
    (hc : r.countDocsOnly = false) (hor : r.orderless = false)
    (ho : (wantedRank e r).outputOffset = off) (hm : (wantedRank e r).maxOutputs = m)
    (hnan : ∀ v ∈ views, ∀ d ∈ docsOf v, ∀ f, NoNaN ((wantedRank e r).score d f))
    (c : ProtoCfg) (o : ProtoOracle (Answer F A)) (acts : List PAct) (st : PState (Answer F A))
    (hrun : PState.init.run c o acts = some st) (s : Nat) (hn : c.numShards = views.length)
    (hans : shardAnswers log2 gs e r tokens views = some ((List.range views.length).map (o.ans s)))
    (hdone : (st.got s).length = c.numShards) :
    ∃ (resp : SearchResp F A) (ws : List (ShardView F A)), Engine.respond gs e r tokens (st.got s) = some resp ∧ ws.Subperm views ∧
      IsPageOf e.idOnly (wantedRank e r).reverseOrder tokens off m
        (ws.flatMap (fun v => v.scored (wantedRank e r).score (docsOf v))) resp ∧
      resp.numDocs ≤
        (views.flatMap (fun v => v.scored (wantedRank e r).score (docsOf v))).length ∧
      (resp.timeout = false → ws.Perm views) := by
  simp only [← rankOpts_eq] at *
  have hinv := (PInv.init c o).run acts hrun
  obtain ⟨hnd, hlt⟩ := hinv.answered_nodup s
  obtain ⟨as, h1, h2⟩ := shardAnswers_ordered hgs log2 e r tokens views docsOf off m hf hc hor ho hm
  rw [h1, Option.some.injEq] at hans
  have hsub : ((st.got s).filterMap id).Subperm as := by
    rw [hans]
    have h3 : ((st.got s).filterMap id).Sublist ((st.answered s).map (o.ans s)) := by
      rw [← hinv.chan s]; exact List.sublist_append_left _ _
    refine h3.subperm.trans ?_
    have h4 : (st.answered s).Subperm (List.range views.length) :=
      hnd.subperm (fun i hi => List.mem_range.2 (by
        have := hlt i hi; have := hinv.sent_le s; omega))
    obtain ⟨z, hz, hzs⟩ := h4
    exact ⟨z.map (o.ans s), hz.map _, hzs.map _⟩
  obtain ⟨ws, hw, h3⟩ := forall2_subperm h2 hsub
  have hlen : ∀ {x y : List (ShardView F A)}, x.Subperm y →
      (x.flatMap (fun v => v.scored (Engine.rankOpts e r).score (docsOf v))).length ≤
      (y.flatMap (fun v => v.scored (Engine.rankOpts e r).score (docsOf v))).length := by
    intro x y hxy
    obtain ⟨z, hz, hzs⟩ := hxy
    rw [← (List.Perm.flatMap_right _ hz).length_eq]
    exact (List.Sublist.flatMap hzs _).length_le
  obtain ⟨resp, h4, h5, h6, h7⟩ := respond_ordered hgs e r tokens ws docsOf off m
    (st.got s) h3 hc hor ho hm
  refine ⟨resp, ws, h4, hw, h7 (fun v hv => hnan v (hw.subset hv)), by rw [h6]; exact hlen hw, ?_⟩
  intro ht
  rw [h5] at ht
  have hl : ((st.got s).filterMap id).length = (st.got s).length := by
    clear hdone h3 h4 h5 h6 h7 hsub
    generalize st.got s = l at ht
    induction l with
    | nil => rfl
    | cons x l ih =>
      cases x with
      | none => simp at ht
      | some y =>
        rw [List.filterMap_cons_some (f := id) rfl, List.length_cons, List.length_cons,
          ih (by simpa using ht)]
  exact hw.perm_of_length_le (by
    rw [h3.length_eq, hl, hdone, hn])

/-- Documents of a partial ranking belong to the complete one. -/
theorem C27_partial_documents_are_ranked {ws views : List (ShardView F A)} (h : ws.Subperm views)
    (f : ShardView F A → List (ScoredDoc F A)) : ∀ x ∈ ws.flatMap f, x ∈ views.flatMap f := by
  intro x hx
  obtain ⟨v, hv, hx⟩ := List.mem_flatMap.1 hx
  exact List.mem_flatMap.2 ⟨v, h.subset hv, hx⟩

/-- The timer fires for one shard: the response covers the other one. -/
example : (shardAnswers (fun x => x) insGSort demoOpts (demoReq 0 2) [str "b"] demoShards).map
    (fun as => (Engine.respond insGSort demoOpts (demoReq 0 2) [str "b"]
      [none, as[2]?, none]).map (fun x => (x.timeout, respIds (some x)))) =
    some (some (true, some ([str "4", str "5"], 2))) := by kernel_rfl

/-- The hypotheses of the C27 theorem hold: an oracle with the answers of the demo shards and
a schedule in which shard 0 answers in time and the timer fires for the other two rounds. -/
def demoOracle : ProtoOracle (Answer Nat Nat) where
  direct := fun _ _ => true
  ans := fun _ i => ((shardAnswers (fun x => x) insGSort demoOpts (demoReq 0 2) [str "b"]
    demoShards).getD []).getD i {}
  timeout := fun _ => true

example : shardAnswers (fun x => x) insGSort demoOpts (demoReq 0 2) [str "b"] demoShards =
    some ((List.range demoShards.length).map (demoOracle.ans 0)) := by kernel_rfl

example : (PState.init.run ⟨3, 2, 2, 2, 2⟩ demoOracle [.start, .send 0, .send 0, .send 0, .takeLookup 0,
    .answer 0 0, .recv 0, .timer 0, .timer 0]).map (fun st => (st.got 0).map (·.isSome)) =
    some [true, false, false] := by decide +kernel

/-! ## C29 -/

/-- **C29** The shard of a document is its hash modulo NumShards, and in range. -/
theorem C29_shard_in_range (numShards hash : UInt32) (h : numShards ≠ 0) :
    (getShard numShards hash).toNat = hash.toNat % numShards.toNat ∧
    (getShard numShards hash).toNat < numShards.toNat := by
  have hn : 0 < numShards.toNat := by
    rcases Nat.eq_zero_or_pos numShards.toNat with h0 | h0
    · exact absurd (UInt32.toNat_inj.1 h0) h
    · exact h0
  have hdm := Nat.div_add_mod hash.toNat numShards.toNat
  have hlt := Nat.mod_lt hash.toNat hn
  have hb := hash.toNat_lt
  have hmul : (hash / numShards * numShards).toNat = hash.toNat / numShards.toNat * numShards.toNat := by
    rw [UInt32.toNat_mul, UInt32.toNat_div, Nat.mod_eq_of_lt]
    rw [Nat.mul_comm]; omega
  have hle : hash / numShards * numShards ≤ hash := by
    rw [UInt32.le_iff_toNat_le, hmul, Nat.mul_comm]; omega
  have key : (getShard numShards hash).toNat = hash.toNat % numShards.toNat := by
    unfold getShard
    rw [UInt32.toNat_sub_of_le _ _ hle, hmul, Nat.mul_comm]
    omega
  exact ⟨key, key ▸ hlt⟩

example : getShard 8 4294967295 = 7 := by decide

/-! ## C36 -/

theorem respond_docs_shape {gs : GSort} (e : SearchOpts F) (r : SearchReq F) (tokens : List Str)
    (events : List (Option (Answer F A))) (resp : SearchResp F A)
    (h : Engine.respond gs e r tokens events = some resp) :
    (r.countDocsOnly = true → resp.docs = none) ∧
    (r.countDocsOnly = false → e.idOnly = true → ∃ l, resp.docs = some (.ids l)) ∧
    (r.countDocsOnly = false → e.idOnly = false → ∃ l, resp.docs = some (.docs l)) := by
  unfold Engine.respond at h
  cases hb : e.idOnly <;> cases hc : r.countDocsOnly <;>
    simp only [hb, hc, Bool.false_eq_true, if_false, if_true, Option.bind_eq_bind] at h
  all_goals
    obtain ⟨c, _, h2⟩ := Option.bind_eq_some_iff.1 h
    unfold finishSearch at h2
    simp only [hc, Bool.false_eq_true, if_false, if_true] at h2
  · split at h2
    · simp only [Option.some.injEq] at h2; subst h2; simp
    · obtain ⟨x, _, h3⟩ := Option.map_eq_some_iff.1 h2
      subst h3; simp
  · simp only [Option.some.injEq] at h2; subst h2; simp
  · split at h2
    · simp only [Option.some.injEq] at h2; subst h2; simp
    · obtain ⟨x, _, h3⟩ := Option.map_eq_some_iff.1 h2
      subst h3; simp
  · simp only [Option.some.injEq] at h2; subst h2; simp

/-- **C36** (partial: exactly when the typed entry points return). For every request and every
outcome of Search: SearchDoc returns iff Search returns, the request is not count-only and the
engine is not IDOnly; SearchID returns iff Search returns, the request is not count-only and
the engine is IDOnly; otherwise they panic. -/
theorem C36_typed_search_returns_iff_partial {gs : GSort} (e : SearchOpts F) (r : SearchReq F)
    (tokens : List Str) (events : List (Option (Answer F A))) :
    ((Engine.searchDoc (Engine.respond gs e r tokens events)).isSome ↔
      (Engine.respond gs e r tokens events).isSome ∧ r.countDocsOnly = false ∧ e.idOnly = false) ∧
    ((Engine.searchID (Engine.respond gs e r tokens events)).isSome ↔
      (Engine.respond gs e r tokens events).isSome ∧ r.countDocsOnly = false ∧ e.idOnly = true) := by
  cases h : Engine.respond gs e r tokens events with
  | none => simp [Engine.searchDoc, Engine.searchID]
  | some resp =>
    obtain ⟨h1, h2, h3⟩ := respond_docs_shape e r tokens events resp h
    cases hc : r.countDocsOnly with
    | true =>
      have := h1 hc
      simp [Engine.searchDoc, Engine.searchID, this]
    | false =>
      cases hb : e.idOnly with
      | true =>
        obtain ⟨l, hl⟩ := h2 hc hb
        simp [Engine.searchDoc, Engine.searchID, hl, asDocs, asIDs]
      | false =>
        obtain ⟨l, hl⟩ := h3 hc hb
        simp [Engine.searchDoc, Engine.searchID, hl, asDocs, asIDs]

/-- **C36 is false in general**: a count-only request, for which Search returns, crashes both
typed entry points. -/
theorem C36_refuted_count_only :
    ∃ (r : SearchReq Nat) (resp : SearchResp Nat Nat),
      ((shardAnswers (fun x => x) insGSort demoOpts r [str "b"] demoShards).bind
        (completeSearch insGSort demoOpts r [str "b"])) = some resp ∧
      Engine.searchDoc (some resp) = none ∧ Engine.searchID (some resp) = none := by
  exact ⟨{ tokens := [str "b"], countDocsOnly := true },
    { tokens := [str "b"], timeout := false, numDocs := 5, docs := none }, by kernel_rfl,
    by simp [Engine.searchDoc], by simp [Engine.searchID]⟩

end Riot
