import Verif.Props.PipelineRank

/-!
# From calls to answers: C54
-/

namespace Riot

variable {D F A : Type} {c : PipeCfg D}

/-- The calls of `Rounds` are the calls about `d` given to the engine. -/
theorem Rounds.given {db : Fin c.stores → List (Str × D)} {d : Str} {st : Pipe c} {l : List (Call D)}
    (h : Rounds db d st l) : l = (st.given db).filter (Call.about d) := by
  have hfl : ∀ (i : Fin c.clients) (u v : Pipe c), FlushCompletes i u v →
      (v.given db).filter (Call.about d) = (u.given db).filter (Call.about d) := by
    intro i u v hf
    have := hf.calls
    unfold Pipe.given
    rw [this, List.map_append, ← List.append_assoc, List.filter_append]
    simp [Call.about]
  induction h with
  | first as i st1 st2 hr hf hl => rw [hfl i st1 st2 hf]; rfl
  | next st l as i st1 st2 news hst hr hf hcalls hl ih =>
    rw [hfl i st1 st2 hf, ih]
    unfold Pipe.given
    rw [hcalls, List.map_append, ← List.append_assoc, List.filter_append _ (news.map _)]
  | later st l as st2 news hst hr hcalls hl ih =>
    rw [ih]
    unfold Pipe.given
    rw [hcalls, List.map_append, ← List.append_assoc, List.filter_append _ (news.map _), hl, List.append_nil]

theorem ideal_given (hdoc : c.DocOk) (s : Fin c.shards) (d : Str) (L : List (Call D)) :
    ideal ((L.filter (Call.about d)).flatMap (c.callOps s)) d = ideal (L.flatMap (c.callOps s)) d := by
  rw [ideal_docOps d (L.flatMap _), docOps_calls hdoc, ← ideal_docOps]

/-- A document the calls leave on a shard comes from an Index call not followed by a removal. -/
theorem ideal_from_index (hdoc : c.DocOk) (s : Fin c.shards) (d : Str) (L : List (Call D)) (doc : DocIndex)
    (h : ideal (L.flatMap (c.callOps s)) d = some doc) :
    ∃ L1 x g L2, L = L1 ++ Call.index d x g :: L2 ∧ c.route d x = s ∧ doc = c.docOf d x ∧
      ∀ f, Call.remove d f ∉ L2 := by
  induction L using List.reverseRecOn with
  | nil => simp [ideal] at h
  | append_singleton L a ih =>
    rw [List.flatMap_append] at h
    simp only [ideal, List.foldl_append, List.flatMap_cons, List.flatMap_nil, List.append_nil] at ih h
    have push : (L.flatMap (c.callOps s)).foldl idealStep (fun _ => none) d = some doc →
        (∀ f, a ≠ Call.remove d f) →
        ∃ L1 x g L2, L ++ [a] = L1 ++ Call.index d x g :: L2 ∧ c.route d x = s ∧ doc = c.docOf d x ∧
          ∀ f, Call.remove d f ∉ L2 := by
      intro h1 h2
      obtain ⟨L1, x, g, L2, e1, e2, e3, e4⟩ := ih h1
      refine ⟨L1, x, g, L2 ++ [a], by rw [e1]; simp, e2, e3, ?_⟩
      intro f hm
      rcases List.mem_append.1 hm with hm | hm
      · exact e4 f hm
      · simp only [List.mem_singleton] at hm; exact h2 f hm.symm
    cases a with
    | index id x g =>
      simp only [PipeCfg.callOps] at h
      split at h
      · split at h
        · exact push h (by simp)
        · exact push h (by simp)
      · split at h
        · rename_i hrt
          simp only [List.foldl_cons, List.foldl_nil, idealStep, hdoc id x] at h
          by_cases hd : d = id
          · subst hd
            simp only [if_true, Option.some.injEq] at h
            exact ⟨L, x, g, [], rfl, hrt, h.symm, by simp⟩
          · rw [if_neg hd] at h
            exact push h (by simp)
        · split at h
          · exact push h (by simp)
          · exact push h (by simp)
    | remove id f =>
      simp only [PipeCfg.callOps, List.foldl_cons, List.foldl_nil, idealStep] at h
      by_cases hd : d = id
      · simp [hd] at h
      · rw [if_neg hd] at h
        exact push h (fun f' he => hd (by cases he; rfl))
    | flush => exact push h (by simp)

theorem lookup_no_logic (log2 : Rat → Rat) (ix : Indexer) (tokens labels : List Str)
    (docIds : Option (List Str)) (b : Bool) :
    ix.lookup log2 tokens labels docIds b (some {}) = ix.lookup log2 tokens labels docIds b none := by
  unfold Indexer.lookup
  simp

/-- Every shard of a quiet, disciplined engine: its index exists, every plain search of it
succeeds and finds what the calls say, and its ranker knows all those documents. -/
theorem shard_serves (hdoc : c.DocOk) (hk : c.KeysOk) {so : Sorter} (hso : SortOk so) (o : IndexerOpts)
    (db : Fin c.stores → List (Str × D)) (st : Pipe c) (hr : Reach db st) (hq : st.Quiet)
    (hround : ∀ d, d ≠ str "0" → ∃ l, Rounds db d st l)
    (hno0 : ∀ x ∈ st.calls, ∀ f, x.2 ≠ Call.remove (str "0") f)
    (hre : ∀ d f x g l1 l2, st.given db = l1 ++ Call.remove d f :: l2 → Call.index d x g ∉ l2)
    (info : RankInfo D F A) (idOnly : Bool) (s : Fin c.shards) :
    ∃ ix, (Indexer.init o).run so (st.idxLog s) = some ix ∧
      ∀ log2 tokens labels docIds, (o.indexType = .locs → tokens ≠ []) →
        ∃ docs, ix.lookup log2 tokens labels docIds false (some {}) = some (docs, docs.length) ∧
          (docs.map (·.docId)).Nodup ∧
          ∀ d, d ≠ str "0" →
            (d ∈ docs.map (·.docId) ↔
              Matches (ideal ((st.given db).flatMap (c.callOps s))) docIds (tokens ++ labels) d) ∧
            (d ∈ docs.map (·.docId) → (rankIdeal (st.rankHistory info idOnly s) d).isSome = true) := by
  obtain ⟨ix, hix⟩ := Option.isSome_iff_exists.1
    (C53_disciplined_no_crash hdoc hk hso o db st hround hr hno0 s)
  refine ⟨ix, hix, ?_⟩
  intro log2 tokens labels docIds htok
  rw [lookup_no_logic]
  obtain ⟨tr, _, hcr⟩ := C13_search_never_crashes_partial hso o _ (log_ok hk hr s) ix hix
  have hsome : ix.lookup log2 tokens labels docIds false none ≠ none := by
    intro hn
    rcases hcr _ le_rfl ix (by rw [List.take_length]; exact hix) log2 tokens labels docIds false none hn with
      ⟨h1, h2, _⟩ | ⟨_, _, l, hl, _⟩
    · exact htok h1 h2
    · simp at hl
  obtain ⟨⟨docs, n⟩, hl⟩ := Option.ne_none_iff_exists'.1 hsome
  obtain ⟨tr', _, hall⟩ := prefix_state hso o _ (log_ok hk hr s) ix hix
  obtain ⟨known, _, hinv, _⟩ := hall _ le_rfl ix (by rw [List.take_length]; exact hix)
  obtain ⟨hlen, hpw, _⟩ := lookup_returns log2 hinv.core tokens labels docIds _ hl
  refine ⟨docs, by rw [hl, ← hlen], hpw.imp (fun h => ne_of_gt h), ?_⟩
  intro d h0
  obtain ⟨l, hrd⟩ := hround d h0
  have hmem := C53_disciplined_content hdoc hk hso o db d h0 st l hrd s ix hix log2 tokens labels docIds docs n hl
  have hideal : ideal (l.flatMap (c.callOps s)) d = ideal ((st.given db).flatMap (c.callOps s)) d := by
    rw [hrd.given, ideal_given hdoc]
  have hmem' : d ∈ docs.map (·.docId) ↔
      Matches (ideal ((st.given db).flatMap (c.callOps s))) docIds (tokens ++ labels) d := by
    rw [hmem]; simp only [Matches, hideal]
  refine ⟨hmem', fun hd => ?_⟩
  obtain ⟨_, _, doc, hv, _⟩ := hmem'.1 hd
  obtain ⟨L1, x, g, L2, e1, e2, _, e4⟩ := ideal_from_index hdoc s d _ doc hv
  obtain ⟨as, has⟩ := hr
  refine (C33_quiet_engine_can_rank_partial db as st has hq d h0 ?_ info idOnly s).2
    ⟨x, g, by rw [e1]; simp, e2⟩
  intro f hm
  rw [e1] at hm
  rcases List.mem_append.1 hm with hm | hm
  · obtain ⟨A1, A2, hA⟩ := List.append_of_mem hm
    exact hre d f x g A1 (A2 ++ Call.index d x g :: L2) (by rw [e1, hA]; simp) (by simp)
  · simp only [List.mem_cons, reduceCtorEq, false_or] at hm
    exact e4 f hm

/-- **C54** From calls to answers. An engine on which the calls about each document were separated
by Flushes, no document was indexed again after its removal, and all work is done, answers every
plain search (any tokens, labels, id filter, offset, limit, any order of the shards' answers) with
the requested page of a ranking of exactly the matching documents: per shard, each document once
whose last version given to that shard was not removed since and has all the keys of the request. -/
theorem C54_search_answers_calls (hdoc : c.DocOk) (hk : c.KeysOk) {so : Sorter} (hso : SortOk so)
    {gs : GSort} (hgs : GSortOk gs) (log2 : Rat → Rat) (o : IndexerOpts)
    (db : Fin c.stores → List (Str × D)) (as : List (Act c.toPipeSize D)) (st : Pipe c)
    (hrun : (Pipe.start c db).run as = some st) (hq : st.Quiet)
    (hround : ∀ d, d ≠ str "0" → ∃ l, Rounds db d st l)
    (hno0 : ∀ x ∈ st.calls, ∀ f, x.2 ≠ Call.remove (str "0") f)
    (hre : ∀ d f x g l1 l2, st.given db = l1 ++ Call.remove d f :: l2 → Call.index d x g ∉ l2)
    (info : RankInfo D F A) (e : SearchOpts F) (r : SearchReq F) (tokens : List Str) (off m : Nat)
    (htok : o.indexType = .locs → tokens ≠ []) (hlogic : r.logic = {})
    (hc : r.countDocsOnly = false) (hor : r.orderless = false)
    (ho : (wantedRank e r).outputOffset = off) (hm : (wantedRank e r).maxOutputs = m)
    (hsc : ∀ d f, (wantedRank e r).score d f ≠ [] ∧ NoNaN ((wantedRank e r).score d f)) :
    ∃ views : List (ShardView F A), ∃ answers : List (Answer F A),
      List.Forall₂ (fun s v => (Indexer.init o).run so (st.idxLog s) = some v.index ∧
        v.history = st.rankHistory info e.idOnly s) (List.finRange c.shards) views ∧
      shardAnswers log2 gs e r tokens views = some answers ∧
      ∀ arrived, arrived.Perm answers → ∃ resp, ∃ perShard : Fin c.shards → List (ScoredDoc F A),
        completeSearch gs e r tokens arrived = some resp ∧ resp.timeout = false ∧
        IsPageOf e.idOnly (wantedRank e r).reverseOrder tokens off m
          ((List.finRange c.shards).flatMap perShard) resp ∧
        ∀ s, ((perShard s).map (·.scoredID.docId)).Nodup ∧
          ∀ d, d ≠ str "0" → (d ∈ (perShard s).map (·.scoredID.docId) ↔
            Matches (ideal ((st.given db).flatMap (c.callOps s))) r.docIds (tokens ++ r.labels) d) := by
  have hr : Reach db st := ⟨as, hrun⟩
  choose ix hix hserve using fun s => shard_serves hdoc hk hso o db st hr hq hround hno0 hre info e.idOnly s
  choose docs hd1 hd2 hd3 using fun s => hserve s log2 tokens r.labels r.docIds htok
  let view : Fin c.shards → ShardView F A := fun s => ⟨ix s, st.rankHistory info e.idOnly s⟩
  let score := (wantedRank e r).score
  -- as a function of the view
  have hfound : ∀ s, (view s).found log2 tokens r = some (docs s) := by
    intro s
    simp only [ShardView.found, view, hlogic, hd1 s, Option.map_some]
  let docsOf : ShardView F A → List IndexedDoc := fun v => (v.found log2 tokens r).getD []
  have hdocsOf : ∀ s, docsOf (view s) = docs s := by
    intro s; simp only [docsOf, hfound s, Option.getD_some]
  obtain ⟨answers, h1, h2⟩ := C24_search_is_page_of_global_ranking (A := A) hgs log2 e r tokens
    ((List.finRange c.shards).map view) docsOf off m (by
      intro v hv
      obtain ⟨s, _, rfl⟩ := List.mem_map.1 hv
      rw [hdocsOf s, hfound s]) hc hor ho hm (fun v _ d _ f => (hsc d f).2)
  refine ⟨(List.finRange c.shards).map view, answers, ?_, h1, ?_⟩
  · rw [List.forall₂_map_right_iff]
    exact List.forall₂_same.2 (fun s _ => ⟨hix s, rfl⟩)
  · intro arrived hp
    obtain ⟨resp, h3, h4, h5⟩ := h2 arrived hp
    refine ⟨resp, fun s => (view s).scored score (docs s), h3, h4, ?_, ?_⟩
    · rw [List.flatMap_map] at h5
      have : (fun s => (view s).scored score (docsOf (view s))) = fun s => (view s).scored score (docs s) := by
        funext s; rw [hdocsOf s]
      rw [this] at h5
      exact h5
    · intro s
      have hids : ∀ l : List IndexedDoc, (((view s).scored score l).map (·.scoredID.docId)).Sublist (l.map (·.docId)) ∧
          ∀ d, d ∈ ((view s).scored score l).map (·.scoredID.docId) ↔
            d ∈ l.map (·.docId) ∧ (rankIdeal (view s).history d).isSome = true := by
        intro l
        induction l with
        | nil => simp [ShardView.scored]
        | cons x l ih =>
          unfold ShardView.scored at ih ⊢
          rw [List.filterMap_cons]
          unfold expectedScored at ih ⊢
          rcases hx : rankIdeal (view s).history x.docId with _ | y
          · simp only [List.map_cons]
            refine ⟨ih.1.cons _, fun d => ?_⟩
            rw [ih.2 d]
            constructor
            · rintro ⟨a, b⟩; exact ⟨List.mem_cons_of_mem _ a, b⟩
            · rintro ⟨a, b⟩
              rcases List.mem_cons.1 a with rfl | a
              · rw [hx] at b; simp at b
              · exact ⟨a, b⟩
          · simp only [if_neg (hsc x y.fields).1, score, List.map_cons]
            refine ⟨ih.1.cons_cons _, fun d => ?_⟩
            rw [List.mem_cons, ih.2 d, List.mem_cons]
            constructor
            · rintro (rfl | ⟨a, b⟩)
              · exact ⟨Or.inl rfl, by rw [hx]; rfl⟩
              · exact ⟨Or.inr a, b⟩
            · rintro ⟨rfl | a, b⟩
              · exact Or.inl rfl
              · exact Or.inr ⟨a, b⟩
      obtain ⟨g1, g2⟩ := hids (docs s)
      refine ⟨(hd2 s).sublist g1, fun d h0 => ?_⟩
      rw [g2 d]
      constructor
      · rintro ⟨a, _⟩; exact (hd3 s d h0).1.1 a
      · intro a
        have := (hd3 s d h0).1.2 a
        exact ⟨this, (hd3 s d h0).2 this⟩

/-! ## Witness -/

/-- Index("1", 7), Index("2", 8), Flush and the rankers' work: all hypotheses of C54 about the
engine hold, and the search for the key of document "2" returns it. -/
example : ∃ (as : List (Act twoShards.toPipeSize Nat)) (st : Pipe twoShards),
    (Pipe.start twoShards (fun _ => [])).run as = some st ∧ st.Quiet ∧
    (∀ d, d ≠ str "0" → ∃ l, Rounds (fun _ => []) d st l) ∧
    (∀ x ∈ st.calls, ∀ f, x.2 ≠ Call.remove (str "0") f) ∧
    (∀ d f x g l1 l2, st.given (fun _ => []) = l1 ++ Call.remove d f :: l2 → Call.index d x g ∉ l2) ∧
    st.demoSearch false "k8" = some ([str "2"], 1) := by
  let s0 := Pipe.start twoShards (fun _ => [])
  have h : (s0.round (demoActs _) client0 [(client0, Call.index (str "1") 7 false),
      (client0, Call.index (str "2") 8 false)]).any (fun st1 => decide (st1.calls =
        [(client0, Call.index (str "1") 7 false), (client0, Call.index (str "2") 8 false),
          (client0, Call.flush)]) &&
      (st1.run (st1.greedy (demoActs _ ++ demoRanks _) 100)).any (fun st => st.quietB &&
        decide (st.calls = st1.calls) &&
        decide (st.demoSearch false "k8" = some ([str "2"], 1)))) = true := by decide +kernel
  obtain ⟨st1, h1, h⟩ := (Option.any_eq_true _ _).1 h
  simp only [Bool.and_eq_true, decide_eq_true_eq] at h
  obtain ⟨hc1, h⟩ := h
  obtain ⟨st, h2, h⟩ := (Option.any_eq_true _ _).1 h
  simp only [Bool.and_eq_true, decide_eq_true_eq] at h
  obtain ⟨as1, u, hu, hf⟩ := round_spec h1
  have hr1 : Reach (fun _ => []) st1 := hf.reach ⟨as1, hu⟩
  obtain ⟨as, has⟩ := hr1.run h2
  have hcu : u.calls = [(client0, Call.index (str "1") 7 false), (client0, Call.index (str "2") 8 false)] := by
    have := hf.calls
    rw [hc1] at this
    exact (List.append_inj' (s₁ := [(client0, Call.index (str "1") 7 false),
      (client0, Call.index (str "2") 8 false)]) this rfl).1.symm
  have hrec : twoShards.recovered (fun _ => []) = [] := by decide +kernel
  have hgiven : st.given (fun _ => []) =
      [Call.index (str "1") 7 false, Call.index (str "2") 8 false, Call.flush] := by
    simp [Pipe.given, hrec, h.1.2, hc1]
  refine ⟨as, st, has, quiet_of_B h.1.1, ?_, ?_, ?_, h.2⟩
  · intro d _
    refine ⟨_, Rounds.later st1 _ _ st [] (Rounds.first as1 client0 u st1 hu hf ?_) h2 (by simp [h.1.2]) rfl⟩
    rw [hcu, hrec]
    by_cases h1 : str "1" = d
    · have h2 : str "2" ≠ d := by rw [← h1]; decide +kernel
      simp [Call.about, h1, h2]
    · by_cases h2 : str "2" = d <;> simp [Call.about, h1, h2]
  · rw [h.1.2, hc1]; simp
  · intro d f x g l1 l2 he
    rw [hgiven] at he
    have : Call.remove d f ∈ l1 ++ Call.remove d f :: l2 := by simp
    rw [← he] at this
    simp at this

end Riot
