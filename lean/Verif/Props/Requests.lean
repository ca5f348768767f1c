import Verif.Props.Stats
import Verif.Props.Logic

/-!
# C96: every kind of request, from texts to answers
-/

namespace Riot

variable {D F A : Type} {c : PipeCfg D}

/-- A search does not look at the removal cache. -/
theorem lookupLoop_removeCache (log2 : Rat → Rat) (s : Indexer) (rc : List Str) (avg : Rat) (row0 : KeywordIndices)
    (tokens : List Str) (docIds : Option (List Str)) (countOnly : Bool) (p : Nat) : ∀ rows acc,
    lookupLoop log2 { s with removeCache := rc } avg row0 tokens docIds countOnly p rows acc =
      lookupLoop log2 s avg row0 tokens docIds countOnly p rows acc := by
  induction p with
  | zero => intro rows acc; rfl
  | succ p ih =>
    intro rows acc
    unfold lookupLoop
    simp only [ih]
    rfl

theorem lookup_removeCache (log2 : Rat → Rat) (s : Indexer) (rc : List Str) (tokens labels : List Str)
    (docIds : Option (List Str)) (countOnly : Bool) (l : Option Logic) :
    ({ s with removeCache := rc } : Indexer).lookup log2 tokens labels docIds countOnly l =
      s.lookup log2 tokens labels docIds countOnly l := by
  have hi : ({ s with removeCache := rc } : Indexer).internalLookup log2 (tokens ++ labels) tokens docIds countOnly =
      s.internalLookup log2 (tokens ++ labels) tokens docIds countOnly := by
    unfold Indexer.internalLookup
    simp only [lookupLoop_removeCache]
  unfold Indexer.lookup
  simp only [hi]
  rfl

theorem mustOf_logic {kw : List Str} {l : Logic} (h : l ≠ {}) : mustOf kw l = clauseKeys kw l.must l.expr.must := by
  simp [mustOf, h]

/-- A logic request gives ids only: no statistics, no locations. -/
theorem logic_docs_bare {log2 : Rat → Rat} {s : Indexer} {known : GoMap DocIndex} (hc : Core s known)
    {tokens labels : List Str} {docIds : Option (List Str)} {l : Logic} (ha : l.Asks (tokens ++ labels)) (hl : l ≠ {})
    {docs : List IndexedDoc} {n : Nat} (h : s.lookup log2 tokens labels docIds false (some l) = some (docs, n)) :
    ∀ x ∈ docs, x = { docId := x.docId } := by
  obtain ⟨hp, hk⟩ := ha
  rw [mustOf_logic hl] at hk
  obtain ⟨p1, p2, p3⟩ := eff_clear hp (tokens ++ labels)
  have fin : ∀ L, some (docs, n) = some (idsResult L false) → ∀ x ∈ docs, x = { docId := x.docId } := by
    intro L he x hx
    have : docs = (idsResult L false).1 := by simpa using congrArg (fun x => (x.getD ([], 0)).1) he
    rw [this] at hx
    simp only [idsResult, Bool.false_eq_true, if_false, List.mem_map] at hx
    obtain ⟨d, _, rfl⟩ := hx
    rfl
  rcases lookup_logic log2 s tokens labels docIds false l with ⟨h0, h1⟩ | ⟨h0, _, h1⟩ | ⟨_, h0, h1, h2, h3⟩
  · rw [h, Option.some.injEq, Prod.mk.injEq] at h1
    rw [h1.1]; simp
  · rcases hk with ⟨M, hM, hne⟩ | ⟨hM, hS⟩
    · obtain ⟨L, a, _⟩ := logicLookup_must hc docIds false (tokens ++ labels) l (p1.trans hM) hne
      exact fin L (by rw [← h, h1, a])
    · obtain ⟨S, hS⟩ := Option.ne_none_iff_exists'.1 hS
      obtain ⟨L, a, _⟩ := logicLookup_should hc docIds false (tokens ++ labels) l (p1.trans hM) (p2.trans hS)
      exact fin L (by rw [← h, h1, a])
  · have hkw : tokens ++ labels = [] := by
      rcases h0 with h0 | h0
      · exact h0
      · exfalso
        simp only [Bool.or_eq_false_iff] at h0
        rcases hk with ⟨M, hM, hne⟩ | ⟨_, hS⟩
        · simp [clauseKeys, h1, h0.1.1] at hM
        · simp [clauseKeys, h2, h0.1.2] at hS
    have hlook : s.lookup log2 tokens labels docIds false none = some ([], 0) := by
      simp only [Indexer.lookup, hkw, Indexer.internalLookup, collectRows]
      split <;> rfl
    rw [h3, hlook, Option.some.injEq, Prod.mk.injEq] at h
    rw [← h.1]; simp

/-- What a request finds in an index state without waiting removals. -/
theorem found_state {s : Indexer} {known : GoMap DocIndex} (hinv : Inv s known) (hvk : (absOf s known).vis = known.get)
    (log2 : Rat → Rat) (tokens labels : List Str) (docIds : Option (List Str)) (l : Logic) (ha : l.Asks (tokens ++ labels))
    (docs : List IndexedDoc) (n : Nat) (hl : s.lookup log2 tokens labels docIds false (some l) = some (docs, n)) :
    n = docs.length ∧ (docs.map (·.docId)).Nodup ∧
    (∀ d, d ∈ docs.map (·.docId) ↔ ∃ doc, known.get d = some doc ∧ Satisfies (tokens ++ labels) l docIds d (· ∈ doc.keys)) ∧
    (l ≠ {} → ∀ x ∈ docs, x = { docId := x.docId }) ∧
    (l = {} → ∀ x ∈ docs, ∃ doc n avg df, known.get x.docId = some doc ∧ x = expectedDoc log2 s.opts n avg df tokens doc) := by
  have hz : s.numDocs = 0 → ∀ d, known.get d = none := fun h0 d => by
    rw [← hvk]; exact vis_none_of_zero hinv.core h0 d
  by_cases hlog : l = {}
  · subst hlog
    have hm : mustOf (tokens ++ labels) {} = some (tokens ++ labels) := by simp [mustOf]
    rw [lookup_no_logic] at hl
    obtain ⟨e1, e2, e3, e4⟩ := lookup_returns log2 hinv.core tokens labels docIds _ hl
    refine ⟨e1, e2.imp (fun h => ne_of_gt h), fun d => ?_, fun hx => absurd rfl hx, fun _ x hx => ?_⟩
    · rw [e3 d, hvk]
      obtain ⟨_, ⟨M, hM, hne⟩ | ⟨hM, _⟩⟩ := ha
      · rw [hm, Option.some.injEq] at hM
        subst hM
        simp only [Matches, Satisfies, hm, clauseKeys]
        constructor
        · rintro ⟨_, a2, doc, a3, a4⟩
          exact ⟨doc, a3, fun _ => a2, fun ks hks => by rw [Option.some.injEq] at hks; exact hks ▸ a4, by simp, by simp⟩
        · rintro ⟨doc, a3, a2, a4, _⟩
          exact ⟨hne, a2 (by simp), doc, a3, a4 _ rfl⟩
      · rw [hm] at hM; simp at hM
    · obtain ⟨doc, a, b⟩ := e4 x hx
      rw [hvk] at a
      exact ⟨doc, _, _, _, a, b⟩
  · have hb := logic_docs_bare hinv.core ha hlog hl
    obtain ⟨hp, hk⟩ := ha
    rw [mustOf_logic hlog] at hk
    have hgoal : n = docs.length ∧ (docs.map (·.docId)).Nodup ∧
        (∀ d, d ∈ docs.map (·.docId) ↔ ∃ doc, known.get d = some doc ∧
          Satisfies (tokens ++ labels) l docIds d (· ∈ doc.keys)) := by
      rcases hk with ⟨M, hM, hne⟩ | ⟨hM, hS⟩
      · obtain ⟨docs', a, b, c1, e⟩ := must_state log2 hinv.core tokens labels docIds hp hM hne
        rw [hl, Option.some.injEq, Prod.mk.injEq] at a
        obtain ⟨rfl, rfl⟩ := a
        refine ⟨rfl, b.imp (fun h => ne_of_gt h), fun d => ?_⟩
        simp only [Satisfies, mustOf_logic hlog, hM]
        constructor
        · intro hd
          obtain ⟨a1, doc, a2, a3, a4, a5⟩ := c1 d hd
          exact ⟨doc, a2, fun _ => a1, a3, a4, a5⟩
        · rintro ⟨doc, a2, a1, a3, a4, a5⟩
          have hn : s.numDocs ≠ 0 := fun h0 => by rw [hz h0] at a2; simp at a2
          exact e hn d (a1 (by simp)) ⟨doc, a2, a3, a4, a5⟩
      · obtain ⟨S, hS⟩ := Option.ne_none_iff_exists'.1 hS
        obtain ⟨docs', a, b, c1, e⟩ := should_state log2 hinv.core tokens labels docIds hp hM hS
        rw [hl, Option.some.injEq, Prod.mk.injEq] at a
        obtain ⟨rfl, rfl⟩ := a
        refine ⟨rfl, b, fun d => ?_⟩
        simp only [Satisfies, mustOf_logic hlog, hM, hS]
        constructor
        · intro hd
          obtain ⟨doc, a2, a3, a4, a5⟩ := c1 d hd
          exact ⟨doc, a2, by simp, a3, a4, a5⟩
        · rintro ⟨doc, a2, _, a3, a4, a5⟩
          have hn : s.numDocs ≠ 0 := fun h0 => by rw [hz h0] at a2; simp at a2
          exact e hn d ⟨doc, a2, a3, a4, a5⟩
    exact ⟨hgoal.1, hgoal.2.1, hgoal.2.2, fun _ => hb, fun he => absurd he hlog⟩

/-- What a request finds in an index that was just refreshed. -/
theorem found_forced {so : Sorter} (hso : SortOk so) (o : IndexerOpts) (h : List IdxOp) (op : IdxOp)
    (hok : ∀ x ∈ h ++ [op], OpOk x) (hop : op.refreshes = true) (s : Indexer)
    (hr : (Indexer.init o).run so (h ++ [op]) = some s) :
    ∃ tr, Trace (h ++ [op]) tr ∧ ∀ log2 tokens labels docIds (l : Logic), l.Asks (tokens ++ labels) →
      ∀ docs n, s.lookup log2 tokens labels docIds false (some l) = some (docs, n) →
        n = docs.length ∧ (docs.map (·.docId)).Nodup ∧
        (∀ d, d ∈ docs.map (·.docId) ↔ ∃ doc, (tr (h ++ [op]).length).vis d = some doc ∧
          Satisfies (tokens ++ labels) l docIds d (· ∈ doc.keys)) ∧
        (l ≠ {} → ∀ x ∈ docs, x = { docId := x.docId }) ∧
        (l = {} → ∀ x ∈ docs, ∃ doc n avg df, (tr (h ++ [op]).length).vis x.docId = some doc ∧
          x = expectedDoc log2 o.init n avg df tokens doc) := by
  obtain ⟨tr, ht, hall⟩ := prefix_state hso o _ hok s hr
  obtain ⟨known, hopt, hinv, htr⟩ := hall _ le_rfl s (by rw [List.take_length]; exact hr)
  have hj : JustRefreshed (h ++ [op]) := ⟨op, by simp, hop⟩
  have hvk := just_refreshed_vis hr hinv hj
  refine ⟨tr, ht, fun log2 tokens labels docIds l ha docs n hl => ?_⟩
  rw [htr, hvk, ← hopt]
  exact found_state hinv hvk log2 tokens labels docIds l ha docs n hl

theorem satisfies_congr {kw : List Str} {l : Logic} {docIds : Option (List Str)} {d : Str} {p q : Str → Prop}
    (h : ∀ k, p k ↔ q k) : Satisfies kw l docIds d p ↔ Satisfies kw l docIds d q := by
  obtain rfl : p = q := funext (fun k => propext (h k))
  rfl

/-- What the shards find after a last Flush. -/
theorem found_after_flush {E : EngCfg D F A} {textOf : D → DocText} (htext : FromTexts c E textOf) (hso : SortOk E.so)
    {o : IndexerOpts} {db : Fin c.stores → List (Str × D)} (hs : GentleStart c o db)
    {as : List (EAct c.toPipeSize D F)} {st : Full c F A} (h : (Full.start c o db).run E as = some st)
    (hg : (Full.start c o db).Gentle E o db as) {f b : Nat} {i : Fin c.clients}
    (hf : as[f]? = some (.pipe (.call i .flush))) (hlast : ∀ u j (a : Call D), f < u → as[u]? ≠ some (.pipe (.call j a)))
    (hfb : f < b) (hquiet : (Full.after E (Full.start c o db) as b).fine.pipe.Quiet)
    (hround : ∀ d, d ≠ str "0" → ∃ l, Rounds db d (Full.after E (Full.start c o db) as b).fine.pipe l)
    {r : SearchReq F} (hasks : r.logic.Asks (E.tokens r ++ r.labels)) {p : Part c}
    (hp : FoundOk E (Full.start c o db) as b r p) :
    FindsOn c E o textOf ((Full.after E (Full.start c o db) as b).fine.pipe.given db) r p.shard p.docs := by
  obtain ⟨⟨hlo, hhi⟩, hfound⟩ := hp
  obtain ⟨L, hok, hrun, hv⟩ := state_after_flush htext.docOk htext.keysOk hso hs h hg hf hlast hfb hquiet hround p.shard
    (Nat.le_of_lt hlo) hhi
  obtain ⟨tr, ht, hall⟩ := found_forced hso o L _ hok rfl _ hrun
  have hv' := hv tr ht
  unfold Full.found at hfound
  obtain ⟨⟨docs, n⟩, e1, e2⟩ := Option.map_eq_some_iff.1 hfound
  simp only at e2
  have hab : ((Full.after E (Full.start c o db) as p.look).fine.shard p.shard).abs.lookup E.log2 (E.tokens r) r.labels r.docIds
      false (some r.logic) = some (docs, n) := by rw [← e1]; exact lookup_removeCache ..
  obtain ⟨_, g2, g3, g4, g5⟩ := hall E.log2 _ _ _ _ hasks docs n hab
  subst e2
  have hz : ∀ d doc, (tr (L ++ [IdxOp.flush true]).length).vis d = some doc → d ≠ str "0" := by
    rintro d doc hd rfl
    rw [hv', ideal_zero htext.docOk] at hd; simp at hd
  refine ⟨g2, fun d => ?_, g4, fun hl x hx => ?_⟩
  · rw [g3 d]
    constructor
    · rintro ⟨doc, a1, a2⟩
      have h0 := hz d doc a1
      rw [hv'] at a1
      obtain ⟨x, hx, rfl⟩ := (ideal_latest htext.docOk p.shard d h0 _ doc).1 a1
      exact ⟨h0, x, hx, (satisfies_congr (fun k => C41_keys_exact _ _ _ _ _ (htext d x) k)).1 a2⟩
    · rintro ⟨h0, x, hx, a2⟩
      refine ⟨c.docOf d x, ?_, (satisfies_congr (fun k => C41_keys_exact _ _ _ _ _ (htext d x) k)).2 a2⟩
      rw [hv']
      exact (ideal_latest htext.docOk p.shard d h0 _ _).2 ⟨x, hx, rfl⟩
  · obtain ⟨doc, n, avg, df, a1, a2⟩ := g5 hl x hx
    have h0 := hz _ doc a1
    rw [hv'] at a1
    obtain ⟨y, hy, rfl⟩ := (ideal_latest htext.docOk p.shard _ h0 _ doc).1 a1
    exact ⟨y, n, avg, df, hy, a2⟩

variable {E : EngCfg D F A} {textOf : D → DocText} {o : IndexerOpts} {db : Fin c.stores → List (Str × D)}
  {as : List (EAct c.toPipeSize D F)} {st : Full c F A}

/-- **C96** (partial: the requests of `Logic.Asks`) Logic requests, from texts to answers. An engine that makes its documents from texts was used as in
C84, and the last call before the request was a Flush. Take a request with Must keys, or with Should keys and no Must clause (and NotIn keys, if any). Then
its response is the requested page of a ranking of one list per answering shard (all shards unless a time-out expired), and each
list consists of exactly the documents whose last text on that shard satisfies the request. The scores are those of a document without
word statistics and locations. Missing: requests with a NotIn clause only give the opposite of what they ask for (`C16_refuted_notin_only`), and DocIds are ignored without
a Must clause (`C02_refuted_should`); both happen end to end: `C96_refuted`. -/
theorem C96_logic_search_partial (htext : FromTexts c E textOf) (hso : SortOk E.so) (hgs : GSortOk E.gs)
    (hs : GentleStart c o db) (h : (Full.start c o db).run E as = some st)
    (hg : (Full.start c o db).Gentle E o db as) {k b f : Nat} {r : SearchReq F} (hb : Began as k b r)
    (hret : st.Returned k) (hquiet : (Full.after E (Full.start c o db) as b).fine.pipe.Quiet)
    (hround : ∀ d, d ≠ str "0" → ∃ l, Rounds db d (Full.after E (Full.start c o db) as b).fine.pipe l)
    (hre : ∀ d f x g l1 l2, (Full.after E (Full.start c o db) as b).fine.pipe.given db = l1 ++ Call.remove d f :: l2 →
      Call.index d x g ∉ l2)
    {i : Fin c.clients} (hfl : as[f]? = some (.pipe (.call i .flush))) (hfb : f < b)
    (hlast : ∀ t j (a : Call D), f < t → as[t]? ≠ some (.pipe (.call j a)))
    (hc : r.countDocsOnly = false) (hor : r.orderless = false)
    (hlogic : r.logic ≠ {}) (hasks : r.logic.Asks (Engine.tokens E.text E.opts r ++ r.labels)) {off m : Nat}
    (ho : (wantedRank E.opts r).outputOffset = off) (hm : (wantedRank E.opts r).maxOutputs = m)
    (hsc : ∀ d f, (wantedRank E.opts r).score d f ≠ [] ∧ NoNaN ((wantedRank E.opts r).score d f)) :
    ∃ (lists : List (Fin c.shards × List (ScoredDoc F A))) (resp : SearchResp F A),
      (lists.map (·.1)).Nodup ∧ st.response E k = some resp ∧
      (resp.timeout = false → ∀ s, s ∈ lists.map (·.1)) ∧
      IsPageOf E.opts.idOnly (wantedRank E.opts r).reverseOrder (Engine.tokens E.text E.opts r) off m
        (lists.flatMap (·.2)) resp ∧
      ∀ p ∈ lists, ((p.2).map (·.scoredID.docId)).Nodup ∧
        (∀ d, d ∈ (p.2).map (·.scoredID.docId) ↔ d ≠ str "0" ∧
          ∃ x, LatestOn c p.1 ((Full.after E (Full.start c o db) as b).fine.pipe.given db) d x ∧
            Satisfies (Engine.tokens E.text E.opts r ++ r.labels) r.logic r.docIds d
              (TextHasKey E.text E.opts.toTextOpts (textOf x))) ∧
        ∀ e ∈ p.2, ShowsVersion c E ((Full.after E (Full.start c o db) as b).fine.pipe.given db) p.1 e ∧
          ScoredAs E r { docId := e.scoredID.docId } e := by
  obtain ⟨parts, resp, g1, g2, g3, g4, g5⟩ := C73_search_during_everything hgs h hb hret.2 hc hor ho hm (fun d f => (hsc d f).2)
  refine ⟨parts.map (fun p => (p.shard, p.entries E (Full.start c o db) as r)), resp, ?_, g3, ?_, ?_, ?_⟩
  · rw [List.map_map]; exact g1
  · rw [List.map_map]; exact g4
  · rw [List.flatMap_map]; exact g5
  intro q hq
  obtain ⟨p, hp, rfl⟩ := List.mem_map.1 hq
  have hok := g2 p hp
  obtain ⟨f1, f2, f3, _⟩ := found_after_flush htext hso hs h hg hfl hlast hfb hquiet hround hasks hok.toFoundOk
  obtain ⟨hlo, hhi⟩ := hok.during
  obtain ⟨hl, _, hts⟩ := hok.reads
  have hno : ∀ d, NobodyCalls as b d := fun d t i a hbt ht => absurd ht (hlast t i a (by omega))
  have hdoc := htext.docOk
  have key : ∀ d, d ≠ str "0" →
      (d ∈ (p.entries E (Full.start c o db) as r).map (·.scoredID.docId) ↔ d ∈ p.docs.map (·.docId)) ∧
      ∀ e ∈ p.entries E (Full.start c o db) as r, e.scoredID.docId = d → ScoredAs E r { docId := d } e := by
    intro d h0
    obtain ⟨l, hl'⟩ := hround d h0
    have hreach := (hl'.inv hdoc h0).1
    have hrd : (Full.after E (Full.start c o db) as b).fine.pipe.RankersDone db d :=
      fun s => ((rank_quiet hreach hquiet s).filter _).symm
    obtain ⟨_, e2, e3⟩ := entries_doc (E := E) (st0 := Full.start c o db) (as := as) (r := r) (fun d f => (hsc d f).1)
      (s := p.shard) (d := d) p.docs p.reads hl
      (fun t ht => registered_after h (by have := (hts t ht).1; omega) hreach (hno d) hrd p.shard)
    refine ⟨?_, fun e he hd => ?_⟩
    · unfold Part.entries
      rw [e2]
      constructor
      · exact fun x => x.1
      · intro hx
        refine ⟨hx, ?_⟩
        obtain ⟨_, x, hx, _⟩ := (f2 d).1 hx
        exact registered_of_rankersDone hdoc hreach h0 hrd (hre d) E.info E.opts.idOnly p.shard
          ((ideal_latest hdoc p.shard d h0 _ _).2 ⟨x, hx, rfl⟩)
    · obtain ⟨x, _, _, _, _, doc, j5, j6, j7⟩ := e3 e he hd
      have := f3 hlogic doc j5
      rw [j6] at this
      rw [this] at j7; exact j7
  have hver := C73_entries_show_versions h hok
  refine ⟨f1.sublist (entries_sublist _ _), fun d => ?_, fun e he => ?_⟩
  · by_cases h0 : d = str "0"
    · constructor
      · intro hd
        obtain ⟨e, he, rfl⟩ := List.mem_map.1 hd
        exact absurd h0 (hver e he).1
      · exact fun x => absurd h0 x.1
    · rw [(key d h0).1, f2 d]; rfl
  · refine ⟨?_, (key _ (hver e he).1).2 e he rfl⟩
    obtain ⟨y, g, a1, a2⟩ := (hver e he).2
    refine ⟨y, g, ?_, a2⟩
    obtain ⟨bs, hbs, hcall⟩ := after_pipe h (show b ≤ as.length by omega)
    have he2 : Full.after E (Full.start c o db) as as.length = st := by
      unfold Full.after; rw [List.take_length, h]; rfl
    rw [he2] at hbs
    have hnc : bs.flatMap Act.called = [] := by
      rw [List.eq_nil_iff_forall_not_mem]
      intro z hz
      obtain ⟨v, hv1, hv2⟩ := hcall z hz
      exact hlast v _ _ (by omega) hv2
    unfold Pipe.given at a1 ⊢
    rw [run_calls _ _ _ hbs, hnc, List.append_nil] at a1
    exact a1

/-- **C96** ... orderless requests, plain or logic: the response lists, without scores, exactly the documents whose last text satisfies the request,
for every answering shard. -/
theorem C96_orderless_search_partial (htext : FromTexts c E textOf) (hso : SortOk E.so)
    (hs : GentleStart c o db) (h : (Full.start c o db).run E as = some st)
    (hg : (Full.start c o db).Gentle E o db as) {k b f : Nat} {r : SearchReq F} (hb : Began as k b r)
    (hret : st.Returned k) (hquiet : (Full.after E (Full.start c o db) as b).fine.pipe.Quiet)
    (hround : ∀ d, d ≠ str "0" → ∃ l, Rounds db d (Full.after E (Full.start c o db) as b).fine.pipe l)
    {i : Fin c.clients} (hfl : as[f]? = some (.pipe (.call i .flush))) (hfb : f < b)
    (hlast : ∀ t j (a : Call D), f < t → as[t]? ≠ some (.pipe (.call j a)))
    (hc : r.countDocsOnly = false) (hor : r.orderless = true)
    (hasks : r.logic.Asks (Engine.tokens E.text E.opts r ++ r.labels)) :
    ∃ (lists : List (Fin c.shards × List IndexedDoc)) (timeout : Bool), (lists.map (·.1)).Nodup ∧
      (timeout = false → ∀ s, s ∈ lists.map (·.1)) ∧
      st.response E k = some
        { tokens := Engine.tokens E.text E.opts r, timeout := timeout, numDocs := (lists.flatMap (·.2)).length,
          docs := some (resultDocs E.opts.idOnly ((lists.flatMap (·.2)).map bareEntry)) } ∧
      ∀ p ∈ lists, FindsOn c E o textOf ((Full.after E (Full.start c o db) as b).fine.pipe.given db) r p.1 p.2 := by
  obtain ⟨parts, timeout, g1, g2, g3, g4⟩ := C73_orderless_during_everything h hb hret.2 hc hor
  refine ⟨parts.map (fun p => (p.shard, p.docs)), timeout, by rw [List.map_map]; exact g1, by rw [List.map_map]; exact g3,
    by rw [List.flatMap_map]; exact g4, fun q hq => ?_⟩
  obtain ⟨p, hp, rfl⟩ := List.mem_map.1 hq
  exact found_after_flush htext hso hs h hg hfl hlast hfb hquiet hround hasks (g2 p hp)

/-- **C96** ... count-only requests: the number is the number of documents whose last text satisfies the request, summed over the answering shards. -/
theorem C96_count_search_partial (htext : FromTexts c E textOf) (hso : SortOk E.so)
    (hs : GentleStart c o db) (h : (Full.start c o db).run E as = some st)
    (hg : (Full.start c o db).Gentle E o db as) {k b f : Nat} {r : SearchReq F} (hb : Began as k b r)
    (hret : st.Returned k) (hquiet : (Full.after E (Full.start c o db) as b).fine.pipe.Quiet)
    (hround : ∀ d, d ≠ str "0" → ∃ l, Rounds db d (Full.after E (Full.start c o db) as b).fine.pipe l)
    {i : Fin c.clients} (hfl : as[f]? = some (.pipe (.call i .flush))) (hfb : f < b)
    (hlast : ∀ t j (a : Call D), f < t → as[t]? ≠ some (.pipe (.call j a)))
    (hc : r.countDocsOnly = true)
    (hasks : r.logic.Asks (Engine.tokens E.text E.opts r ++ r.labels)) :
    ∃ (lists : List (Fin c.shards × List IndexedDoc)) (timeout : Bool), (lists.map (·.1)).Nodup ∧
      (timeout = false → ∀ s, s ∈ lists.map (·.1)) ∧
      st.response E k = some
        { tokens := Engine.tokens E.text E.opts r, timeout := timeout, numDocs := (lists.flatMap (·.2)).length, docs := none } ∧
      ∀ p ∈ lists, FindsOn c E o textOf ((Full.after E (Full.start c o db) as b).fine.pipe.given db) r p.1 p.2 := by
  obtain ⟨parts, timeout, g1, g2, g3, g4⟩ := C73_count_during_everything h hb hret.2 hc
  refine ⟨parts.map (fun p => (p.shard, p.docs)), timeout, by rw [List.map_map]; exact g1, by rw [List.map_map]; exact g3,
    by rw [List.flatMap_map]; exact g4, fun q hq => ?_⟩
  obtain ⟨p, hp, rfl⟩ := List.mem_map.1 hq
  exact found_after_flush htext hso hs h hg hfl hlast hfb hquiet hround hasks (g2 p hp)

/-! ## Examples -/

/-- The three texts of C84 are indexed and flushed; then a search with request `r`. -/
def reqSearch (r : SearchReq Nat) : List (EAct textEngine.toPipeSize Nat Nat) :=
  .start r :: ((textFlushed.step (demoEng true) (.start r)).getD textFlushed).greedy (demoEng true) (searchCands _ 1) 300
def reqRun (r : SearchReq Nat) : List (EAct textEngine.toPipeSize Nat Nat) := textLoad ++ textFlush ++ reqSearch r

/-- The ids and the number of a response. -/
def respFound (x : Option (SearchResp Nat Nat)) : Option (Nat × Option (List Str)) :=
  x.map (fun y => (y.numDocs, (y.docs.bind asIDs).map (fun l => l.map (·.docId))))

/-- The schedule runs, and the response of the search is `want`. -/
def reqCheck (r : SearchReq Nat) (want : Option (Nat × Option (List Str))) : Bool :=
  (textStart.gentleRun (demoEng true) (smallOpts .docIds 10) (fun _ => []) (reqRun r)).any (fun st =>
    decide (0 < st.searches.length) && decide ((st.got 0).length = textEngine.shards) &&
    decide (respFound (st.response (demoEng true) 0) = want)) &&
  (reqSearch r).all (fun a => a.call?.isNone)

/-- The hypotheses of the C96 theorems about engine and schedule hold, for each request of which the check succeeds. -/
theorem req_hyps {r : SearchReq Nat} {want : Option (Nat × Option (List Str))} (hr : reqCheck r want = true) :
    ∃ st b f i, FromTexts textEngine (demoEng true) demoTexts ∧ textStart.run (demoEng true) (reqRun r) = some st ∧
    textStart.Gentle (demoEng true) (smallOpts .docIds 10) (fun _ => []) (reqRun r) ∧
    GentleStart textEngine (smallOpts .docIds 10) (fun _ => []) ∧
    Began (reqRun r) 0 b r ∧ st.Returned 0 ∧ (Full.after (demoEng true) textStart (reqRun r) b).fine.pipe.Quiet ∧
    (∀ d, d ≠ str "0" → ∃ l, Rounds (fun _ => []) d (Full.after (demoEng true) textStart (reqRun r) b).fine.pipe l) ∧
    (∀ d f x g l1 l2, (Full.after (demoEng true) textStart (reqRun r) b).fine.pipe.given (fun _ => []) =
      l1 ++ Call.remove d f :: l2 → Call.index d x g ∉ l2) ∧
    (reqRun r)[f]? = some (.pipe (.call i .flush)) ∧ f < b ∧
    (∀ t j (a : Call Nat), f < t → (reqRun r)[t]? ≠ some (.pipe (.call j a))) ∧
    respFound (st.response (demoEng true) 0) = want := by
  rw [reqCheck, Bool.and_eq_true] at hr
  obtain ⟨h, hno⟩ := hr
  have hb : ((textLoad ++ textFlush).filter EAct.isStart).length = 0 := by decide +kernel
  have hl : (textStart.run (demoEng true) textLoad).isSome = true := by decide +kernel
  have hf : (textLoaded.run (demoEng true) textFlush).isSome = true := by decide +kernel
  have hidle : (decide (∀ i, textLoaded.fine.pipe.prog (.client i) = [])) = true := by decide +kernel
  have hcl1 : (textEngine.recovered (fun _ => [])).map (fun x => Call.index x.1 x.2 false) ++
      textLoaded.fine.pipe.calls.map (·.2) =
      [(str "X", 4), (str "Y", 2), (str "Z", 3)].map (fun x => Call.index x.1 x.2 false) := by
    decide +kernel
  have hcl2 : (textFlushed.fine.pipe.given (fun _ => [])).all (fun a => a.indexed.isSome || a.isFlush) = true := by
    decide +kernel
  have hnd : ([(str "X", 4), (str "Y", 2), (str "Z", 3)].map (·.1)).Nodup := by decide +kernel
  have htail : textTail.all (fun a => a.call?.isNone) = true := by decide +kernel
  have hdone : textFlushed.fine.pipe.prog (.client textUser) = [] := by decide +kernel
  have hq : textFlushed.fine.pipe.quietB = true := by decide +kernel
  have rl : textStart.run (demoEng true) textLoad = some textLoaded := by
    obtain ⟨x, hx⟩ := Option.isSome_iff_exists.1 hl
    rw [textLoaded, hx, Option.getD_some]
  have rf : textLoaded.run (demoEng true) textFlush = some textFlushed := by
    obtain ⟨x, hx⟩ := Option.isSome_iff_exists.1 hf
    rw [textFlushed, hx, Option.getD_some]
  have hst : (reqSearch r)[0]? = some (.start r) := by rw [reqSearch]; rfl
  obtain ⟨b, k1, k2, k3, k4, k5, k6, k7, k8, k9⟩ := late_hyps_list (E := demoEng true) (tail := textTail)
    (rest := reqSearch r) (fun _ _ => rfl) rl rf (of_decide_eq_true hidle) htail hdone (quiet_of_B hq) hcl1 hnd hcl2 hb hst
    hno (as := reqRun r) rfl
  obtain ⟨st, h1, h2⟩ := (Option.any_eq_true _ _).1 h
  simp only [Bool.and_eq_true, decide_eq_true_eq] at h2
  obtain ⟨g1, g2⟩ := full_gentleRun_spec _ h1
  refine ⟨st, b, _, _, fun id x => docOf_isDocIndexOf _ _ _ _, g1, g2, ?_, k1, ⟨h2.1.1, h2.1.2⟩, k2, k3, k4, k8, k7, k9, h2.2⟩
  intro s
  have : textEngine.recovered (fun _ => []) = [] := by decide +kernel
  rw [this]; simp only [List.map_nil, List.countP_nil]; decide +kernel

/-- "red", with "house" or "none", without "of": one of the three texts. -/
def askLogic : SearchReq Nat := { logic := { expr := ⟨[str "red"], [str "house", str "none"], [str "of"]⟩ } }
/-- "big" or "house", in any order: all three. -/
def askOrderless : SearchReq Nat := { text := str "big house", logic := { should := true }, orderless := true }
/-- How many of two documents contain "red"? -/
def askCount : SearchReq Nat := { text := str "red", docIds := some [str "X", str "Y"], countDocsOnly := true }

theorem ask_check : reqCheck askLogic (some (1, some [str "X"])) = true ∧
    reqCheck askOrderless (some (3, some [str "Y", str "X", str "Z"])) = true ∧
    reqCheck askCount (some (2, none)) = true := by decide +kernel

/-- The requests are among those of `Logic.Asks`. -/
example : (askLogic.logic.Asks (Engine.tokens demoEnv (demoEng true).opts askLogic ++ askLogic.labels) ∧ askLogic.logic ≠ {}) ∧
    askOrderless.logic.Asks (Engine.tokens demoEnv (demoEng true).opts askOrderless ++ askOrderless.labels) ∧
    askCount.logic.Asks (Engine.tokens demoEnv (demoEng true).opts askCount ++ askCount.labels) := by
  refine ⟨⟨⟨clear_of_lists rfl rfl, Or.inl ⟨[str "red"], by decide +kernel, by decide +kernel⟩⟩, by decide +kernel⟩,
    ⟨clear_of_flags rfl rfl, Or.inr ⟨by decide +kernel, by decide +kernel⟩⟩,
    ⟨clear_of_lists rfl rfl, Or.inl ⟨[str "red"], by decide +kernel, by decide +kernel⟩⟩⟩

/-- **C96 is false for the other requests**: after the three texts were indexed and flushed, a request for the documents without the word
"car" gives the one text with it, and a request for "big" or "house" among the document Y gives all three documents. -/
theorem C96_refuted :
    (∃ st b, textStart.run (demoEng true) (reqRun { text := str "car", logic := { notIn := true } }) = some st ∧
      Began (reqRun { text := str "car", logic := { notIn := true } }) 0 b { text := str "car", logic := { notIn := true } } ∧
      st.Returned 0 ∧ respFound (st.response (demoEng true) 0) = some (1, some [str "Y"])) ∧
    (∃ st b, textStart.run (demoEng true)
        (reqRun { text := str "big house", docIds := some [str "Y"], logic := { should := true }, orderless := true }) = some st ∧
      Began (reqRun { text := str "big house", docIds := some [str "Y"], logic := { should := true }, orderless := true }) 0 b
        { text := str "big house", docIds := some [str "Y"], logic := { should := true }, orderless := true } ∧
      st.Returned 0 ∧ respFound (st.response (demoEng true) 0) = some (3, some [str "Y", str "X", str "Z"])) := by
  constructor
  · obtain ⟨st, b, f, i, _, h1, _, _, h2, h3, _, _, _, _, _, _, h4⟩ :=
      req_hyps (r := { text := str "car", logic := { notIn := true } }) (want := some (1, some [str "Y"])) (by decide +kernel)
    exact ⟨st, b, h1, h2, h3, h4⟩
  · obtain ⟨st, b, f, i, _, h1, _, _, h2, h3, _, _, _, _, _, _, h4⟩ :=
      req_hyps (r := { text := str "big house", docIds := some [str "Y"], logic := { should := true }, orderless := true })
        (want := some (3, some [str "Y", str "X", str "Z"])) (by decide +kernel)
    exact ⟨st, b, h1, h2, h3, h4⟩

end Riot
