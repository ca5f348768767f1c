import Verif.Proofs.FullHist
import Verif.Props.EngineSearch
import Verif.Props.Segment
import Verif.Spec.FullWitness

/-!
# C73: searches while documents are indexed and removed
-/

namespace Riot

open Function (update)

variable {D F A : Type} {c : PipeCfg D}

/-- What the lookup worker's outcome says about the index. -/
theorem lookup_out {log2 : Rat → Rat} {e : SearchOpts F} {ix : Indexer} {tokens : List Str} {r : SearchReq F}
    {out : LookupOut F A} (h : Engine.indexerLookup log2 e ix tokens r = some out) (hc : r.countDocsOnly = false) :
    ∃ docs : List IndexedDoc, (ix.lookup log2 tokens r.labels r.docIds false (some r.logic)).map (·.1) = some docs ∧
      out = if docs.length = 0 then .answer {} else
        if r.orderless = true then .answer (Engine.orderLess e.idOnly docs) else .rank docs := by
  unfold Engine.indexerLookup at h
  simp only [hc, Option.bind_eq_bind] at h
  obtain ⟨⟨docs, n⟩, h1, h2⟩ := Option.bind_eq_some_iff.1 h
  refine ⟨docs, by rw [h1]; rfl, ?_⟩
  simp only [Bool.false_eq_true, if_false] at h2
  by_cases h0 : docs.length = 0
  · simp only [h0, if_true] at h2 ⊢; cases h2; rfl
  · simp only [h0, if_false] at h2 ⊢
    by_cases ho : r.orderless = true
    · simp only [ho, if_true] at h2 ⊢; cases h2; rfl
    · simp only [Bool.not_eq_true] at ho
      simp only [ho, Bool.false_eq_true, if_false] at h2 ⊢; cases h2; rfl

/-- An answer to an ordered search. -/
theorem ans_ordered {E : EngCfg D F A} (hgs : GSortOk E.gs) {st0 : Full c F A} {as : List (EAct c.toPipeSize D F)}
    {b : Nat} {r : SearchReq F} {s : Fin c.shards} {a : Answer F A} (h : AnsOk E st0 as b r s a)
    (hc : r.countDocsOnly = false) (hor : r.orderless = false) {off m : Nat}
    (ho : (Engine.rankOpts E.opts r).outputOffset = off) (hm : (Engine.rankOpts E.opts r).maxOutputs = m) :
    ∃ p : Part c, p.shard = s ∧ PartOk E st0 as b r p ∧
      OrderedEntries E.gs E.opts r off m (fun p : Part c => p.entries E st0 as r) p a := by
  have hnil : ∀ {β : Type} [HasScores β] (rev : Bool), sortScored E.gs rev ([] : List β) = [] := by
    intro β _ rev
    exact (List.perm_nil.1 (sortScored_perm hgs rev []))
  obtain ⟨t, ⟨h1, h2, h3⟩ | ⟨docs, call, x, ⟨h1, h2, h3⟩, hcall, htodo, hfin, rfl⟩⟩ := h
  · obtain ⟨docs, hf, hout⟩ := lookup_out h3 hc
    rw [hor] at hout
    by_cases h0 : docs.length = 0
    · simp only [h0, if_true] at hout
      cases hout
      have : docs = [] := List.length_eq_zero_iff.1 h0
      subst this
      refine ⟨⟨s, t, [], []⟩, rfl, ⟨⟨⟨h1, h2⟩, hf⟩, by simp⟩, ?_, ?_, ?_⟩
      · simp [Part.entries, entriesDuring]
      · intro _; simp [Answer.list, Part.entries, entriesDuring, hnil, shardCut]
      · intro _; simp [Answer.list, Part.entries, entriesDuring, hnil, shardCut]
    · simp [h0] at hout
  · obtain ⟨docs', hf, hout⟩ := lookup_out h3 hc
    rw [hor] at hout
    by_cases h0 : docs'.length = 0
    · simp [h0] at hout
    · simp only [h0, Bool.false_eq_true, if_false, LookupOut.rank.injEq] at hout
      subst hout
      obtain ⟨k1, k2, d0, ts, k3, k4, k5, k6, k7, k8, k9⟩ := hcall
      rw [htodo, List.append_nil] at k3
      subst k3
      have hso : (shardOpts (Engine.rankOpts E.opts r)).outputOffset = ((0 : Nat) : Int) := rfl
      have hsm : (shardOpts (Engine.rankOpts E.opts r)).maxOutputs =
          (((if m = 0 then 0 else off + m : Nat)) : Int) := by
        simp only [shardOpts, hm, ho]
        split <;> rename_i h <;> split <;> omega
      have hcut : ∀ {β : Type} (l : List β), page 0 (if m = 0 then 0 else off + m) l = shardCut off m l := by
        intro β l
        unfold page shardCut
        by_cases h : m = 0
        · simp [h]
        · simp [h]
      refine ⟨⟨s, t, docs, ts⟩, rfl, ⟨⟨⟨h1, h2⟩, hf⟩, k4, k5, k6⟩, ?_, ?_, ?_⟩
      · unfold RankCall.finish at hfin
        cases hb : E.opts.idOnly with
        | true =>
          simp only [hb, if_true, k1, k2] at hfin
          rw [sortAndCut_page _ _ _ _ 0 (if m = 0 then 0 else off + m) hso hsm] at hfin
          cases hfin
          exact k7
        | false =>
          simp only [hb, Bool.false_eq_true, if_false, k1, k2] at hfin
          rw [sortAndCut_page _ _ _ _ 0 (if m = 0 then 0 else off + m) hso hsm] at hfin
          cases hfin
          exact k7
      · intro hb
        unfold RankCall.finish at hfin
        simp only [hb, Bool.false_eq_true, if_false, k1, k2] at hfin
        rw [sortAndCut_page _ _ _ _ 0 (if m = 0 then 0 else off + m) hso hsm] at hfin
        cases hfin
        simp only [Answer.list, asDocs, hcut, k9 hb]
        rfl
      · intro hb
        unfold RankCall.finish at hfin
        simp only [hb, if_true, k1, k2] at hfin
        rw [sortAndCut_page _ _ _ _ 0 (if m = 0 then 0 else off + m) hso hsm] at hfin
        cases hfin
        simp only [Answer.list, asIDs, hcut, k8 hb]
        rfl

theorem entries_noNaN {E : EngCfg D F A} {st0 : Full c F A} {as : List (EAct c.toPipeSize D F)} {r : SearchReq F}
    {p : Part c} (hn : ∀ d f, NoNaN ((wantedRank E.opts r).score d f)) :
    ∀ x ∈ p.entries E st0 as r, NoNaN x.scoredID.scores := by
  intro x hx
  obtain ⟨d, hd, he⟩ := List.mem_filterMap.1 hx
  unfold expectedScored at he
  split at he
  · simp at he
  · split at he
    · simp at he
    · simp only [Option.some.injEq] at he
      rw [← he]; exact hn _ _

/-- The answers a search has received, and the shards they come from. -/
theorem got_parts {E : EngCfg D F A} {o : IndexerOpts} {db : Fin c.stores → List (Str × D)}
    {as : List (EAct c.toPipeSize D F)} {st : Full c F A} (h : (Full.start c o db).run E as = some st)
    {k b : Nat} {r : SearchReq F} (hb : Began as k b r) {P : Part c → Prop}
    {Q : Part c → Answer F A → Prop}
    (hQ : ∀ s a, AnsOk E (Full.start c o db) as b r s a → ∃ p : Part c, p.shard = s ∧ P p ∧ Q p a) (hdone : (st.got k).length = c.shards) :
    ∃ parts : List (Part c), (parts.map (·.shard)).Nodup ∧
      (∀ p ∈ parts, P p) ∧
      List.Forall₂ Q parts (((st.got k).map (Option.map (·.2))).filterMap id) ∧
      (none ∉ st.got k → ∀ s, s ∈ parts.map (·.shard)) ∧ st.searches[k]? = some r := by
  obtain ⟨hh, hp⟩ := hist_run as h
  have hk : k < st.searches.length := by
    rw [hh.count, ← hb.2]
    have := hb.lt
    have e : as.filter EAct.isStart = (as.take b).filter EAct.isStart ++ (as.drop b).filter EAct.isStart := by
      rw [← List.filter_append, List.take_append_drop]
    rw [e, List.length_append]
    have hm : EAct.start r ∈ (as.drop b).filter EAct.isStart := by
      rw [List.mem_filter]
      refine ⟨?_, rfl⟩
      have := hb.1
      rw [List.mem_iff_getElem?]
      exact ⟨0, by rw [List.getElem?_drop]; simpa using this⟩
    have := List.length_pos_of_mem hm
    omega
  obtain ⟨r', hr'⟩ : ∃ r', st.searches[k]? = some r' := ⟨_, List.getElem?_eq_getElem hk⟩
  obtain ⟨b', hb', _, hans⟩ := hh.each k r' hr'
  have hbb : b' = b := by
    obtain ⟨e1, e2⟩ := hb
    obtain ⟨f1, f2⟩ := hb'
    have key : ∀ (x y : Nat) (rx ry : SearchReq F), x < y → as[x]? = some (.start rx) →
        ((as.take x).filter EAct.isStart).length < ((as.take y).filter EAct.isStart).length := by
      intro x y rx ry hxy hx
      have hxl := (List.getElem?_eq_some_iff.1 hx).1
      have : as.take (x + 1) = as.take x ++ [.start rx] := by
        rw [List.take_add_one, hx]; rfl
      have h1 : (as.take y) = as.take (x + 1) ++ (as.take y).drop (x + 1) := by
        have := (List.take_append_drop (x + 1) (as.take y)).symm
        rw [List.take_take, Nat.min_eq_left (by omega)] at this
        exact this
      rw [h1, this]
      have e : ([EAct.start rx] : List (EAct c.toPipeSize D F)).filter EAct.isStart = [.start rx] := rfl
      simp only [List.filter_append, List.length_append, e, List.length_singleton]
      omega
    rcases Nat.lt_trichotomy b' b with hlt | heq | hgt
    · have := key b' b r' r hlt f1; omega
    · exact heq
    · have := key b b' r r' hgt e1; omega
  subst hbb
  have hrr : r' = r := by
    have e1 := hb.1; have e2 := hb'.1
    rw [e1] at e2; cases e2; rfl
  subst hrr
  obtain ⟨n1, n2⟩ := hp.ans k
  have hsub : ∀ (l : List (Fin c.shards × Answer F A)), (∀ x ∈ l, AnsOk E (Full.start c o db) as b' r' x.1 x.2) →
      ∃ parts : List (Part c), parts.map (·.shard) = l.map (·.1) ∧
        (∀ p ∈ parts, P p) ∧ List.Forall₂ Q parts (l.map (·.2)) := by
    intro l
    induction l with
    | nil => intro _; exact ⟨[], rfl, by simp, .nil⟩
    | cons x l ih =>
      intro hl
      obtain ⟨parts, g1, g2, g3⟩ := ih (fun y hy => hl y (by simp [hy]))
      obtain ⟨p, q1, q2, q3⟩ := hQ _ _ (hl x (by simp))
      refine ⟨p :: parts, by simp [g1, q1], ?_, .cons q3 g3⟩
      intro y hy
      rcases List.mem_cons.1 hy with rfl | hy
      · exact q2
      · exact g2 y hy
  obtain ⟨parts, g1, g2, g3⟩ := hsub ((st.got k).filterMap id) (fun x hx => hans x (by
    unfold Full.answers; exact List.mem_append_left _ hx))
  have hnd : (((st.got k).filterMap id).map (·.1)).Nodup := by
    unfold Full.answers at n1
    rw [List.map_append] at n1
    exact (List.nodup_append.1 n1).1
  refine ⟨parts, by rw [g1]; exact hnd, g2, ?_, ?_, hr'⟩
  · have e : ((st.got k).map (Option.map (·.2))).filterMap id = ((st.got k).filterMap id).map (·.2) := by
      rw [List.filterMap_map, List.map_filterMap]
      rfl
    rw [e]; exact g3
  · intro hnone s
    have hlen : ((st.got k).filterMap id).length = c.shards := by
      refine Eq.trans ?_ hdone
      have gen : ∀ l : List (Option (Fin c.shards × Answer F A)), none ∉ l → (l.filterMap id).length = l.length := by
        intro l
        induction l with
        | nil => intro _; rfl
        | cons x l ih =>
          intro hnone
          simp only [List.mem_cons, not_or] at hnone
          cases x with
          | none => exact absurd rfl hnone.1
          | some x => rw [List.filterMap_cons]; simp only [id, List.length_cons, ← ih hnone.2]
      exact gen _ hnone
    rw [g1]
    by_contra hs
    have h2 : (s :: ((st.got k).filterMap id).map (·.1)).Nodup := List.nodup_cons.2 ⟨hs, hnd⟩
    have := h2.length_le_card
    rw [List.length_cons, List.length_map, hlen, Fintype.card_fin] at this
    omega

/-- **C73** Whatever is indexed, removed and searched meanwhile, under every schedule, a search that has
received an answer or a time-out for every shard returns a page, in the requested order, of a ranking
whose entries are exactly these: for every shard that answered, the documents its index contained for the request
at one moment during the search, each with the data registered for it in the shard at a later moment
during the search. Every shard answers at most once; all have answered if the response is not marked
as timed out. -/
theorem C73_search_during_everything {E : EngCfg D F A} (hgs : GSortOk E.gs) {o : IndexerOpts}
    {db : Fin c.stores → List (Str × D)} {as : List (EAct c.toPipeSize D F)} {st : Full c F A}
    (h : (Full.start c o db).run E as = some st) {k b : Nat} {r : SearchReq F} (hb : Began as k b r)
    (hdone : (st.got k).length = c.shards) (hc : r.countDocsOnly = false) (hor : r.orderless = false) {off m : Nat}
    (ho : (wantedRank E.opts r).outputOffset = off) (hm : (wantedRank E.opts r).maxOutputs = m)
    (hnan : ∀ d f, NoNaN ((wantedRank E.opts r).score d f)) :
    ∃ (parts : List (Part c)) (resp : SearchResp F A), (parts.map (·.shard)).Nodup ∧
      (∀ p ∈ parts, PartOk E (Full.start c o db) as b r p) ∧
      st.response E k = some resp ∧ (resp.timeout = false → ∀ s, s ∈ parts.map (·.shard)) ∧
      IsPageOf E.opts.idOnly (wantedRank E.opts r).reverseOrder (E.tokens r) off m
        (parts.flatMap (Part.entries E (Full.start c o db) as r)) resp := by
  rw [← rankOpts_eq] at ho hm
  obtain ⟨parts, g1, g2, g3, g4, g5⟩ := got_parts h hb (fun s a ha => ans_ordered hgs ha hc hor ho hm) hdone
  obtain ⟨resp, e1, e2, e3, e4⟩ := respond_entries hgs E.opts r (E.tokens r) parts
    (fun p : Part c => p.entries E (Full.start c o db) as r) off m ((st.got k).map (Option.map (·.2))) g3 hc hor ho hm
  refine ⟨parts, resp, g1, g2, ?_, ?_, ?_⟩
  · unfold Full.response
    rw [g5]
    simp only [hdone, if_true]
    exact e1
  · intro ht
    apply g4
    intro hn
    rw [e2, List.any_eq_false] at ht
    have := ht none (List.mem_map.2 ⟨none, hn, rfl⟩)
    simp at this
  · rw [← rankOpts_eq]
    exact e4 (fun p _ => entries_noNaN hnan)

/-- The answer of a shard to an orderless search. -/
theorem ans_orderless {E : EngCfg D F A} {st0 : Full c F A} {as : List (EAct c.toPipeSize D F)}
    {b : Nat} {r : SearchReq F} {s : Fin c.shards} {a : Answer F A} (h : AnsOk E st0 as b r s a)
    (hc : r.countDocsOnly = false) (hor : r.orderless = true) :
    ∃ p : Part c, p.shard = s ∧ FoundOk E st0 as b r p ∧ (a.numDocs = p.docs.length ∧
      (E.opts.idOnly = false → a.list asDocs = some (p.docs.map bareEntry)) ∧
      (E.opts.idOnly = true → a.list asIDs = some ((p.docs.map (bareEntry (F := F) (A := A))).map (·.scoredID)))) := by
  obtain ⟨t, ⟨h1, h2, h3⟩ | ⟨docs, call, x, ⟨h1, h2, h3⟩, hcall, htodo, hfin, rfl⟩⟩ := h
  · obtain ⟨docs, hf, hout⟩ := lookup_out h3 hc
    rw [hor] at hout
    refine ⟨⟨s, t, docs, []⟩, rfl, ⟨⟨h1, h2⟩, hf⟩, ?_⟩
    by_cases h0 : docs.length = 0
    · simp only [h0, if_true] at hout
      cases hout
      have : docs = [] := List.length_eq_zero_iff.1 h0
      subst this
      simp [Answer.list]
    · simp only [h0, if_false, if_true] at hout
      cases hout
      refine ⟨by unfold Engine.orderLess; split <;> simp, ?_, ?_⟩
      · intro hb
        simp [Engine.orderLess, hb, Answer.list, asDocs, bareEntry, mkScoredID]
      · intro hb
        simp [Engine.orderLess, hb, Answer.list, asIDs, bareEntry, mkScoredID]
  · obtain ⟨docs', hf, hout⟩ := lookup_out h3 hc
    rw [hor] at hout
    by_cases h0 : docs'.length = 0 <;> simp [h0] at hout

/-- The answer of a shard to a count-only search. -/
theorem ans_count {E : EngCfg D F A} {st0 : Full c F A} {as : List (EAct c.toPipeSize D F)}
    {b : Nat} {r : SearchReq F} {s : Fin c.shards} {a : Answer F A} (h : AnsOk E st0 as b r s a)
    (hc : r.countDocsOnly = true) :
    ∃ p : Part c, p.shard = s ∧ FoundOk E st0 as b r p ∧ a.numDocs = p.docs.length := by
  obtain ⟨t, ⟨h1, h2, h3⟩ | ⟨docs, call, x, ⟨h1, h2, h3⟩, hcall, htodo, hfin, rfl⟩⟩ := h
  · have hc3 := (C03_count_only E.log2 ((Full.after E st0 as t).fine.shard s).ix (E.tokens r) r.labels r.docIds (some r.logic)).1
    unfold Engine.indexerLookup at h3
    simp only [hc, Option.bind_eq_bind] at h3
    obtain ⟨⟨ds, n⟩, h4, h5⟩ := Option.bind_eq_some_iff.1 h3
    simp only [if_true] at h5
    cases h5
    rw [h4] at hc3
    cases hl : ((Full.after E st0 as t).fine.shard s).ix.lookup E.log2 (E.tokens r) r.labels r.docIds false (some r.logic) with
    | none => rw [hl] at hc3; simp at hc3
    | some y =>
      rw [hl] at hc3
      refine ⟨⟨s, t, y.1, []⟩, rfl, ⟨⟨h1, h2⟩, by unfold Full.found; simp only [hl]; rfl⟩, ?_⟩
      simp at hc3
      simp [hc3]
  · unfold Engine.indexerLookup at h3
    simp only [hc, Option.bind_eq_bind] at h3
    obtain ⟨⟨ds, n⟩, h4, h5⟩ := Option.bind_eq_some_iff.1 h3
    simp at h5

/-- **C73** (orderless requests) The response consists of the documents the index of each shard that
answered contained for the request at one moment during the search, each once, without scores. -/
theorem C73_orderless_during_everything {E : EngCfg D F A} {o : IndexerOpts}
    {db : Fin c.stores → List (Str × D)} {as : List (EAct c.toPipeSize D F)} {st : Full c F A}
    (h : (Full.start c o db).run E as = some st) {k b : Nat} {r : SearchReq F} (hb : Began as k b r)
    (hdone : (st.got k).length = c.shards) (hc : r.countDocsOnly = false) (hor : r.orderless = true) :
    ∃ (parts : List (Part c)) (timeout : Bool), (parts.map (·.shard)).Nodup ∧
      (∀ p ∈ parts, FoundOk E (Full.start c o db) as b r p) ∧
      (timeout = false → ∀ s, s ∈ parts.map (·.shard)) ∧
      st.response E k = some
        { tokens := E.tokens r, timeout := timeout, numDocs := (parts.flatMap (·.docs)).length,
          docs := some (resultDocs E.opts.idOnly ((parts.flatMap (·.docs)).map bareEntry)) } := by
  obtain ⟨parts, g1, g2, g3, g4, g5⟩ := got_parts h hb (fun s a ha => ans_orderless ha hc hor) hdone
  have hmem : ∀ a, some a ∈ (st.got k).map (Option.map (·.2)) → a ∈ ((st.got k).map (Option.map (·.2))).filterMap id :=
    fun a ha => List.mem_filterMap.2 ⟨some a, ha, rfl⟩
  have hnum : ((((st.got k).map (Option.map (·.2))).filterMap id).map (·.numDocs)).sum = (parts.flatMap (·.docs)).length := by
    rw [length_flatMap_sum]
    exact sum_of_forall2 g3 _ _ (fun v a h => h.1)
  refine ⟨parts, ((st.got k).map (Option.map (·.2))).any (·.isNone), g1, g2, ?_, ?_⟩
  · intro ht
    apply g4
    intro hn
    rw [List.any_eq_false] at ht
    have := ht none (List.mem_map.2 ⟨none, hn, rfl⟩)
    simp at this
  · unfold Full.response
    rw [g5]
    simp only [hdone, if_true]
    unfold Engine.respond
    cases hb : E.opts.idOnly with
    | false =>
      have hcol := collect_ok asDocs (fun a => (a.list asDocs).getD []) ((st.got k).map (Option.map (·.2))) {} (by
        intro a ha
        obtain ⟨v, _, h⟩ := forall2_left g3 (hmem a ha)
        rw [h.2.1 hb]; rfl)
      have hout : (((st.got k).map (Option.map (·.2))).filterMap id).flatMap (fun a => (a.list asDocs).getD []) =
          (parts.flatMap (·.docs)).map bareEntry := by
        rw [List.map_flatMap]
        exact flatMap_of_forall2 g3 _ _ (fun v a h => by rw [h.2.1 hb]; rfl)
      simp only [Bool.false_eq_true, if_false, hc, hcol, Option.bind_eq_bind, Option.bind_some,
        finishSearch, hor, Bool.not_true, Bool.and_false, if_true, hout, resultDocs, hnum]
      simp
    | true =>
      have hcol := collect_ok asIDs (fun a => (a.list asIDs).getD []) ((st.got k).map (Option.map (·.2))) {} (by
        intro a ha
        obtain ⟨v, _, h⟩ := forall2_left g3 (hmem a ha)
        rw [h.2.2 hb]; rfl)
      have hout : (((st.got k).map (Option.map (·.2))).filterMap id).flatMap (fun a => (a.list asIDs).getD []) =
          ((parts.flatMap (·.docs)).map (bareEntry (F := F) (A := A))).map (·.scoredID) := by
        rw [List.map_flatMap, List.map_flatMap]
        exact flatMap_of_forall2 g3 _ _ (fun v a h => by rw [h.2.2 hb]; rfl)
      simp only [Bool.false_eq_true, if_false, hc, hcol, Option.bind_eq_bind, Option.bind_some,
        finishSearch, hor, Bool.not_true, Bool.and_false, if_true, hout, resultDocs, hnum]
      simp

/-- **C73** (count-only requests) The number returned is the number of documents the indexes of the shards
that answered contained for the request, each at one moment during the search. -/
theorem C73_count_during_everything {E : EngCfg D F A} {o : IndexerOpts}
    {db : Fin c.stores → List (Str × D)} {as : List (EAct c.toPipeSize D F)} {st : Full c F A}
    (h : (Full.start c o db).run E as = some st) {k b : Nat} {r : SearchReq F} (hb : Began as k b r)
    (hdone : (st.got k).length = c.shards) (hc : r.countDocsOnly = true) :
    ∃ (parts : List (Part c)) (timeout : Bool), (parts.map (·.shard)).Nodup ∧
      (∀ p ∈ parts, FoundOk E (Full.start c o db) as b r p) ∧
      (timeout = false → ∀ s, s ∈ parts.map (·.shard)) ∧
      st.response E k = some
        { tokens := E.tokens r, timeout := timeout, numDocs := (parts.flatMap (·.docs)).length, docs := none } := by
  obtain ⟨parts, g1, g2, g3, g4, g5⟩ := got_parts h hb (fun s a ha => ans_count ha hc) hdone
  have hnum : ((((st.got k).map (Option.map (·.2))).filterMap id).map (·.numDocs)).sum = (parts.flatMap (·.docs)).length := by
    rw [length_flatMap_sum]
    exact sum_of_forall2 g3 _ _ (fun v a h => h)
  refine ⟨parts, ((st.got k).map (Option.map (·.2))).any (·.isNone), g1, g2, ?_, ?_⟩
  · intro ht
    apply g4
    intro hn
    rw [List.any_eq_false] at ht
    have := ht none (List.mem_map.2 ⟨none, hn, rfl⟩)
    simp at this
  · unfold Full.response
    rw [g5]
    simp only [hdone, if_true]
    unfold Engine.respond
    cases hb : E.opts.idOnly <;>
    · simp only [hc, collect_count, Option.bind_eq_bind, Option.bind_some, finishSearch,
        Bool.false_eq_true, if_false, if_true, hnum]
      simp

/-! ## An example -/

/-- The sort routines, options and thread numbers of the examples: documents are scored by their content,
which is a number. -/
def demoEng (idOnly : Bool) : EngCfg Nat Nat Nat where
  so := insSort
  gs := insGSort
  log2 := fun x => x
  text := demoEnv
  opts := { notUseGse := true, idOnly := idOnly, defRankOpts := { score := fun _ f => [.fin (f.getD 0)] } }
  info := { fields := fun d => some d, content := fun _ => [], attri := fun _ => none }
  lookupThreads := 2
  rankThreads := 2

def pairStart : Full pairEngine Nat Nat := Full.start pairEngine (smallOpts .docIds 10) (fun _ => [])

def first : Fin pairEngine.shards := ⟨0, by decide⟩
def second : Fin pairEngine.shards := ⟨1, by decide⟩
def userA : Fin pairEngine.clients := ⟨0, by decide⟩

/-- A search for the key "k". -/
def searchK : SearchReq Nat := { tokens := [str "k"] }

/-- "X" (4), "Y" (2) and "Z" (3) are indexed. -/
def preRun : List (EAct pairEngine.toPipeSize Nat Nat) := pairStart.script (demoEng true)
  [.inr (engineCands _),
   .inl (.pipe (.call userA (.index (str "X") 4 true))), .inr (engineCands _),
   .inl (.pipe (.call userA (.index (str "Y") 2 true))), .inr (engineCands _),
   .inl (.pipe (.call userA (.index (str "Z") 3 true))), .inr (engineCands _)]

/-- The lookup of a search on the first shard is done; then "X" is removed and "V" (6, first shard) and
"W" (5, second shard) are indexed; then the search goes on. -/
def postRun (st : Full pairEngine Nat Nat) : List (EAct pairEngine.toPipeSize Nat Nat) := st.script (demoEng true)
  [.inl (.send 0), .inl (.send 0), .inl (.take first), .inl (.lock first 0), .inl (.look first 0),
   .inl (.pipe (.call userA (.remove (str "X") true))), .inr (engineCands _),
   .inl (.pipe (.call userA (.index (str "V") 6 true))), .inr (engineCands _),
   .inl (.pipe (.call userA (.index (str "W") 5 true))), .inr (engineCands _),
   .inr (searchCands _ 1)]

def demoRun : List (EAct pairEngine.toPipeSize Nat Nat) :=
  preRun ++ .start searchK ::
    postRun ((pairStart.run (demoEng true) (preRun ++ [.start searchK])).getD pairStart)

/-- The hypotheses of the C73 theorems hold of that schedule. The response has "W", "Z" and "Y": not the
removed "X" although the index was searched before the removal, and not "V". -/
example : ∃ st b, pairStart.run (demoEng true) demoRun = some st ∧ Began demoRun 0 b searchK ∧
    (st.got 0).length = pairEngine.shards ∧
    respIds (st.response (demoEng true) 0) = some ([str "W", str "Z", str "Y"], 3) := by
  have h : (pairStart.run (demoEng true) demoRun).any (fun st => decide ((st.got 0).length = pairEngine.shards) &&
    decide (respIds (st.response (demoEng true) 0) = some ([str "W", str "Z", str "Y"], 3))) = true := by
    decide +kernel
  have hb : (preRun.filter EAct.isStart).length = 0 := by decide +kernel
  obtain ⟨st, h1, h2⟩ := (Option.any_eq_true _ _).1 h
  simp only [Bool.and_eq_true, decide_eq_true_eq] at h2
  refine ⟨st, preRun.length, h1, ⟨?_, ?_⟩, h2.1, h2.2⟩
  · unfold demoRun; simp
  · unfold demoRun; rw [List.take_left]; exact hb

end Riot
