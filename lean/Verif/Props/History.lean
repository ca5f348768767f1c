import Verif.Proofs.Alike
import Verif.Props.Stats
import Verif.Props.EngineSearch
import Verif.Props.Requests

/-!
# C98, C99: what an index answers, and what it keeps, depends only on the documents it holds
-/

namespace Riot

/-- What an index made by a disciplined history with a refresh at its end looks like. -/
theorem holds_state {s : Indexer} {o : IndexerOpts} {m : Str → Option DocIndex} (h : s.HoldsExactly o m) :
    ∃ known, s.opts = o.init ∧ Inv s known ∧ s.removeCache = [] ∧ s.addCache = [] ∧ known.get = m := by
  obtain ⟨so, h, op, hso, hok, hd, hop, hr, rfl⟩ := h
  obtain ⟨s', known, hrun, hinv, hvis, hadd⟩ := disciplined_refreshed hso o h op hok hd hop
  rw [hr, Option.some.injEq] at hrun
  subst hrun
  obtain ⟨_, _, hall⟩ := prefix_state hso o _ hok s hr
  obtain ⟨_, hopt, _, _⟩ := hall _ le_rfl s (by rw [List.take_length]; exact hr)
  have hstep := hr
  rw [Indexer.run_snoc, Option.bind_eq_some_iff] at hstep
  obtain ⟨s0, _, hstep⟩ := hstep
  have hrm := step_forced hop hstep
  exact ⟨known, hopt, hinv, hrm, hadd, funext fun d => by rw [← vis_eq_known hinv hrm, hvis]⟩

theorem alike_of_holds {s s' : Indexer} {o o' : IndexerOpts} {m m' : Str → Option DocIndex} (h : s.HoldsExactly o m)
    (h' : s'.HoldsExactly o' m') (hm : HoldSame m m') (hit : o.indexType = o'.indexType) (hbm : o.bm25 = o'.bm25) :
    Alike s s' := by
  obtain ⟨k, a1, a2, a3, _, rfl⟩ := holds_state h
  obtain ⟨k', b1, b2, b3, _, rfl⟩ := holds_state h'
  refine alike_of_same a2 b2 a3 b3 ?_ ?_ hm
  · rw [a1, b1, o.init_it.1, o'.init_it.1, hit]
  · rw [a1, b1, o.init_it.2, o'.init_it.2, hbm]

/-- **C98** (partial: disciplined histories with a refresh at the end) Two indexes with the same index type and BM25
parameters that hold the same documents give the same answers: the same documents in the same order with the same locations, proximities, BM25
values and counts, for every kind of request. It does not matter in which order the documents were added, which other versions or documents were added and
removed before, how the calls were forced or batched, how large the caches are, how the standard library sorts, or in which order the keywords of
a document are listed. -/
theorem C98_index_partial {s s' : Indexer} {o o' : IndexerOpts} {m m' : Str → Option DocIndex} (h : s.HoldsExactly o m)
    (h' : s'.HoldsExactly o' m') (hm : HoldSame m m') (hit : o.indexType = o'.indexType) (hbm : o.bm25 = o'.bm25) :
    (∀ d, s.hasDoc d = s'.hasDoc d) ∧
    ∀ (log2 : Rat → Rat) (tokens labels : List Str) (docIds : Option (List Str)) (countOnly : Bool) (l : Option Logic),
      s.lookup log2 tokens labels docIds countOnly l = s'.lookup log2 tokens labels docIds countOnly l := by
  have ha := alike_of_holds h h' hm hit hbm
  refine ⟨fun d => ?_, fun log2 tokens labels docIds countOnly l => lookup_alike ha ..⟩
  simp only [Indexer.hasDoc, ha.state]

/-- A history in which every addition is forced is disciplined. -/
theorem disciplined_of_forced {h : List IdxOp} (hf : ∀ doc f, IdxOp.add doc f ∈ h → f = true)
    (h0 : ∀ f, IdxOp.remove (str "0") f ∉ h) : Disciplined h := by
  refine ⟨?_, h0⟩
  rintro h1 a h2 b h3 rfl ⟨doc, f, rfl, _⟩
  left
  exact hf doc f (by simp)

/-- The index after forced additions and removals `h` and a final Flush, for the examples. -/
theorem holdsExactly_of {o : IndexerOpts} {h : List IdxOp} (hok : h.all (fun op => decide (OpOk op)) = true)
    (hf : h.all (fun op => match op with
      | .add _ f => f
      | .remove d _ => decide (d ≠ str "0")
      | .flush _ => true) = true) :
    ∃ s : Indexer, (Indexer.init o).run insSort (h ++ [.flush true]) = some s ∧ s.HoldsExactly o (ideal h) := by
  have hok' : ∀ x ∈ h ++ [IdxOp.flush true], OpOk x := by
    intro x hx
    rcases List.mem_append.1 hx with hx | hx
    · exact of_decide_eq_true (List.all_eq_true.1 hok x hx)
    · simp only [List.mem_singleton] at hx; subst hx; trivial
  have hd : Disciplined (h ++ [IdxOp.flush true]) := by
    refine disciplined_of_forced (fun doc f hm => ?_) (fun f hm => ?_)
    · have : IdxOp.add doc f ∈ h := by simpa using hm
      exact List.all_eq_true.1 hf _ this
    · have : IdxOp.remove (str "0") f ∈ h := by simpa using hm
      have := List.all_eq_true.1 hf _ this
      simp at this
  obtain ⟨s, _, hr, _⟩ := disciplined_refreshed insSort_ok o h _ hok' hd rfl
  exact ⟨s, hr, insSort, h, .flush true, insSort_ok, hok', hd, rfl, hr, by simp [ideal, List.foldl_append, idealStep]⟩

/-- The hypotheses of `C98_index_partial` hold for two quite different histories: in the first, document 1 had another version and document
3 was removed, the cache is small, and the keywords are listed in another order. -/
example : ∃ s s' : Indexer, s.HoldsExactly (smallOpts .locs 2)
      (ideal [.add (mkDoc "1" ["z"]) true, .add (mkDoc "3" ["b"]) true, .add (mkDoc "2" ["a", "b"]) true,
        .remove (str "3") false, .add { mkDoc "1" ["b", "c"] with keywords := (mkDoc "1" ["b", "c"]).keywords.reverse } true]) ∧
    s'.HoldsExactly (smallOpts .locs 100) (ideal [.add (mkDoc "1" ["b", "c"]) true, .add (mkDoc "2" ["a", "b"]) true]) ∧
    HoldSame (ideal [.add (mkDoc "1" ["z"]) true, .add (mkDoc "3" ["b"]) true, .add (mkDoc "2" ["a", "b"]) true,
        .remove (str "3") false, .add { mkDoc "1" ["b", "c"] with keywords := (mkDoc "1" ["b", "c"]).keywords.reverse } true])
      (ideal [.add (mkDoc "1" ["b", "c"]) true, .add (mkDoc "2" ["a", "b"]) true]) := by
  obtain ⟨s, _, h1⟩ := holdsExactly_of (o := smallOpts .locs 2)
    (h := [.add (mkDoc "1" ["z"]) true, .add (mkDoc "3" ["b"]) true, .add (mkDoc "2" ["a", "b"]) true,
      .remove (str "3") false, .add { mkDoc "1" ["b", "c"] with keywords := (mkDoc "1" ["b", "c"]).keywords.reverse } true])
    (by decide +kernel) (by decide +kernel)
  obtain ⟨s', _, h2⟩ := holdsExactly_of (o := smallOpts .locs 100)
    (h := [.add (mkDoc "1" ["b", "c"]) true, .add (mkDoc "2" ["a", "b"]) true]) (by decide +kernel) (by decide +kernel)
  refine ⟨s, s', h1, h2, fun d => ?_⟩
  simp only [ideal, List.foldl_cons, List.foldl_nil, idealStep]
  have e1 : (mkDoc "1" ["b", "c"]).docId = str "1" := rfl
  have e2 : (mkDoc "2" ["a", "b"]).docId = str "2" := rfl
  have e3 : (mkDoc "3" ["b"]).docId = str "3" := rfl
  have e4 : (mkDoc "1" ["z"]).docId = str "1" := rfl
  simp only [e1, e2, e3, e4]
  by_cases h1 : d = str "1"
  · right
    subst h1
    have h2 : str "1" ≠ str "2" := by decide +kernel
    simp only [if_true, if_neg h2]
    exact ⟨_, _, rfl, rfl, rfl, rfl, (List.reverse_perm _)⟩
  · by_cases h2 : d = str "2"
    · right
      subst h2
      have h3 : str "2" ≠ str "3" := by decide +kernel
      have h4 : str "2" ≠ str "1" := by decide +kernel
      simp only [if_true, if_neg h3, if_neg h4]
      exact ⟨_, _, rfl, rfl, rfl, rfl, .refl _⟩
    · left
      simp only [if_neg h1, if_neg h2]
      by_cases h3 : d = str "3" <;> simp [h3]

/-- **C98 is false between refreshes**: documents 1 and 2 were added and document 1 was removed, all by calls that returned; the
index that only ever got document 2 holds the same documents, but a Should request for "b" gives different answers: the first index
still returns document 1. -/
theorem C98_refuted_between :
    ideal [.add (mkDoc "1" ["b"]) true, .add (mkDoc "2" ["b"]) true, .remove (str "1") false] =
      ideal [.add (mkDoc "2" ["b"]) true] ∧
    idsOf (runLookup (smallOpts .freqs 10) [.add (mkDoc "1" ["b"]) true, .add (mkDoc "2" ["b"]) true, .remove (str "1") false]
      [str "b"] [] none (some { should := true })) = some [str "1", str "2"] ∧
    idsOf (runLookup (smallOpts .freqs 10) [.add (mkDoc "2" ["b"]) true] [str "b"] [] none (some { should := true })) =
      some [str "2"] := by
  refine ⟨funext fun d => ?_, by decide +kernel, by decide +kernel⟩
  simp only [ideal, List.foldl_cons, List.foldl_nil, idealStep]
  have e1 : (mkDoc "1" ["b"]).docId = str "1" := rfl
  have e2 : (mkDoc "2" ["b"]).docId = str "2" := rfl
  simp only [e1, e2]
  by_cases h1 : d = str "1"
  · subst h1
    have h2 : str "1" ≠ str "2" := by decide +kernel
    simp [h2]
  · simp [h1]

/-! ## Whole engines -/

/-- Two responses that are pages of rankings of the same entries. -/
theorem page_scores {F A : Type} {idOnly rev : Bool} {tokens : List Str} {off m : Nat} {all all' : List (ScoredDoc F A)}
    {x x' : SearchResp F A} (hp : all.Perm all') (h : IsPageOf idOnly rev tokens off m all x)
    (h' : IsPageOf idOnly rev tokens off m all' x') :
    x.numDocs = x'.numDocs ∧ x.tokens = x'.tokens ∧ x.docs.map RankOut.scores = x'.docs.map RankOut.scores ∧
    ((all.map (fun e => scoreKey e.scoredID.scores)).Nodup → x.docs = x'.docs) := by
  obtain ⟨R, p1, r1, d1, n1, t1⟩ := h
  obtain ⟨R', p2, r2, d2, n2, t2⟩ := h'
  have hRR : R.Perm R' := p1.trans (hp.trans p2.symm)
  have key : ∀ Q : List (ScoredDoc F A), Ranked rev Q →
      (Q.map (fun e => scoreKey e.scoredID.scores)).Pairwise (fun a b => if rev = true then a ≤ b else b ≤ a) := by
    intro Q hQ
    rw [List.pairwise_map]
    exact hQ
  have hs : R.map (fun e => scoreKey e.scoredID.scores) = R'.map (fun e => scoreKey e.scoredID.scores) := by
    refine (hRR.map _).eq_of_pairwise ?_ (key R r1) (key R' r2)
    intro a b _ _ hab hba
    cases rev
    · exact le_antisymm hba hab
    · exact le_antisymm hab hba
  have hsc : ∀ Q : List (ScoredDoc F A), (resultDocs idOnly (page off m Q)).scores =
      page off m (Q.map (fun e => scoreKey e.scoredID.scores)) := by
    intro Q
    unfold resultDocs page
    cases idOnly <;> by_cases hm : m = 0 <;>
      simp [RankOut.scores, hm, List.map_take, List.map_drop, List.map_map, Function.comp_def]
  refine ⟨by rw [n1, n2, hp.length_eq], by rw [t1, t2], ?_, fun hnd => ?_⟩
  · rw [d1, d2, Option.map_some, Option.map_some, hsc, hsc, hs]
  · have : R = R' := by
      refine hRR.eq_of_pairwise (le := fun (a b : ScoredDoc F A) => if rev = true then scoreKey a.scoredID.scores ≤ scoreKey b.scoredID.scores
        else scoreKey b.scoredID.scores ≤ scoreKey a.scoredID.scores) ?_ r1 r2
      intro a b ha hb hab hba
      have e : scoreKey a.scoredID.scores = scoreKey b.scoredID.scores := by
        cases rev
        · exact le_antisymm hba hab
        · exact le_antisymm hab hba
      exact List.inj_on_of_nodup_map hnd (p1.mem_iff.1 ha) (p1.mem_iff.1 (hRR.mem_iff.2 hb)) e
    rw [d1, d2, this]

theorem found_same {F A : Type} {it : IndexType} {bm : Option BM25Parameters} {v v' : ShardView F A} (h : v.Same it bm v')
    (log2 : Rat → Rat) (tokens : List Str) (r : SearchReq F) : v.found log2 tokens r = v'.found log2 tokens r := by
  obtain ⟨⟨o, m, o', m', h1, h2, h3, h4, h5, h6, h7⟩, _⟩ := h
  unfold ShardView.found
  rw [(C98_index_partial h1 h2 h3 (h4.trans h5.symm) (h6.trans h7.symm)).2]

/-- **C98** (partial, as above) Two engines whose shards hold the same documents, asked the same: every two complete responses,
however the answers of the shards arrive and whatever sort is used, report the same number of documents and the same score
vectors at the same places; and if no two documents have the same score vector, the responses list the same documents with the same contents in the same order. -/
theorem C98_search_partial {F A : Type} {gs gs' : GSort} (hgs : GSortOk gs) (hgs' : GSortOk gs') (log2 : Rat → Rat)
    (e : SearchOpts F) (r : SearchReq F) (tokens : List Str) {it : IndexType} {bm : Option BM25Parameters}
    {views views' : List (ShardView F A)} (hv : List.Forall₂ (ShardView.Same it bm) views views')
    {docsOf : ShardView F A → List IndexedDoc} {off m : Nat} (hf : ∀ v ∈ views, v.found log2 tokens r = some (docsOf v))
    (hc : r.countDocsOnly = false) (hor : r.orderless = false)
    (ho : (wantedRank e r).outputOffset = off) (hm : (wantedRank e r).maxOutputs = m)
    (hnan : ∀ v ∈ views, ∀ d ∈ docsOf v, ∀ f, NoNaN ((wantedRank e r).score d f)) :
    ∃ answers answers', shardAnswers log2 gs e r tokens views = some answers ∧
      shardAnswers log2 gs' e r tokens views' = some answers' ∧
      ∀ arrived arrived', arrived.Perm answers → arrived'.Perm answers' →
        ∃ x x', completeSearch gs e r tokens arrived = some x ∧ completeSearch gs' e r tokens arrived' = some x' ∧
          x.numDocs = x'.numDocs ∧ x.tokens = x'.tokens ∧ x.docs.map RankOut.scores = x'.docs.map RankOut.scores ∧
          (((views.flatMap (fun v => v.scored (wantedRank e r).score (docsOf v))).map
            (fun y => scoreKey y.scoredID.scores)).Nodup → x.docs = x'.docs) := by
  let docsOf' : ShardView F A → List IndexedDoc := fun v => (v.found log2 tokens r).getD []
  have hpair : ∀ v v', ShardView.Same it bm v v' → v ∈ views → v'.found log2 tokens r = some (docsOf' v') ∧ docsOf' v' = docsOf v := by
    intro v v' hs hvm
    have e1 := found_same hs log2 tokens r
    rw [hf v hvm] at e1
    have e2 : docsOf' v' = docsOf v := by show (v'.found log2 tokens r).getD [] = _; rw [← e1]; rfl
    exact ⟨by rw [e2, e1], e2⟩
  have hall : ∀ v' ∈ views', ∃ v ∈ views, ShardView.Same it bm v v' := by
    intro v' hv'
    clear hpair hnan hf
    induction hv with
    | nil => cases hv'
    | cons h _ ih =>
      rcases List.mem_cons.1 hv' with rfl | hv'
      · exact ⟨_, by simp, h⟩
      · obtain ⟨v, a, b⟩ := ih hv'
        exact ⟨v, by simp [a], b⟩
  have hf' : ∀ v' ∈ views', v'.found log2 tokens r = some (docsOf' v') := by
    intro v' hv'
    obtain ⟨v, a, b⟩ := hall v' hv'
    exact (hpair v v' b a).1
  have hnan' : ∀ v' ∈ views', ∀ d ∈ docsOf' v', ∀ f, NoNaN ((wantedRank e r).score d f) := by
    intro v' hv' d hd
    obtain ⟨v, a, b⟩ := hall v' hv'
    rw [(hpair v v' b a).2] at hd
    exact hnan v a d hd
  have hsame : views.flatMap (fun v => v.scored (wantedRank e r).score (docsOf v)) =
      views'.flatMap (fun v => v.scored (wantedRank e r).score (docsOf' v)) := by
    clear hnan' hf' hall hnan hf
    induction hv with
    | nil => rfl
    | @cons v v' vs vs' h _ ih =>
      simp only [List.flatMap_cons]
      rw [ih (fun a b hs ha => hpair a b hs (by simp [ha]))]
      congr 1
      rw [(hpair v v' h (by simp)).2]
      unfold ShardView.scored
      rw [h.2]
  obtain ⟨as, a1, a2⟩ := C24_search_is_page_of_global_ranking hgs log2 e r tokens views docsOf off m hf hc hor ho hm hnan
  obtain ⟨bs, b1, b2⟩ := C24_search_is_page_of_global_ranking hgs' log2 e r tokens views' docsOf' off m hf' hc hor ho hm hnan'
  refine ⟨as, bs, a1, b1, fun ar ar' h1 h2 => ?_⟩
  obtain ⟨x, x1, _, x3⟩ := a2 ar h1
  obtain ⟨y, y1, _, y3⟩ := b2 ar' h2
  obtain ⟨g1, g2, g3, g4⟩ := page_scores (by rw [hsame]) x3 y3
  exact ⟨x, y, x1, y1, g1, g2, g3, g4⟩

/-- A shard of `demoShards` and a shard that was filled in another order, with a removed document in between, are the same. -/
theorem demo_same : ∃ v v' : ShardView Nat Nat, ShardView.Same .docIds (smallOpts .docIds 10).bm25 v v' ∧
    v.index.lookup (fun x => x) [str "b"] [] none false = some ([{ docId := str "2" }, { docId := str "1" }], 2) ∧
    v.history = [.add (str "1") (some 5) none, .add (str "2") (some 9) none] ∧
    v'.history = [.add (str "2") (some 9) none, .add (str "3") (some 9) none, .add (str "1") (some 5) none,
      .remove (str "3")] := by
  obtain ⟨s, r1, h1⟩ := holdsExactly_of (o := smallOpts .docIds 10)
    (h := [.add (mkDoc "1" ["b"]) true, .add (mkDoc "2" ["b"]) true]) (by decide +kernel) (by decide +kernel)
  obtain ⟨s', r2, h2⟩ := holdsExactly_of (o := smallOpts .docIds 10)
    (h := [.add (mkDoc "2" ["b"]) true, .add (mkDoc "3" ["b"]) true, .add (mkDoc "1" ["b"]) true, .remove (str "3") false])
    (by decide +kernel) (by decide +kernel)
  have n12 : str "1" ≠ str "2" := by decide +kernel
  have n13 : str "1" ≠ str "3" := by decide +kernel
  have n23 : str "2" ≠ str "3" := by decide +kernel
  have e1 : (mkDoc "1" ["b"]).docId = str "1" := rfl
  have e2 : (mkDoc "2" ["b"]).docId = str "2" := rfl
  have e3 : (mkDoc "3" ["b"]).docId = str "3" := rfl
  refine ⟨⟨s, _⟩, ⟨s', _⟩, ⟨⟨_, _, _, _, h1, h2, fun d => ?_, rfl, rfl, rfl, rfl⟩, ?_⟩, ?_, rfl, rfl⟩
  · simp only [ideal, List.foldl_cons, List.foldl_nil, idealStep, e1, e2, e3]
    by_cases d1 : d = str "1"
    · right; subst d1
      simp only [if_true, if_neg n12, if_neg n13]
      exact ⟨_, _, rfl, rfl, rfl, rfl, .refl _⟩
    · by_cases d2 : d = str "2"
      · right; subst d2
        simp only [if_true, if_neg n12.symm, if_neg n23]
        exact ⟨_, _, rfl, rfl, rfl, rfl, .refl _⟩
      · left
        simp only [if_neg d1, if_neg d2]
        by_cases d3 : d = str "3" <;> simp [d3]
  · funext d
    simp only [rankIdeal, List.foldl_cons, List.foldl_nil, rankIdealStep]
    by_cases d1 : d = str "1"
    · subst d1
      simp [n12, n13]
    · by_cases d2 : d = str "2"
      · subst d2
        simp [n12.symm, n23]
      · by_cases d3 : d = str "3" <;> simp [d1, d2, d3, n13.symm, n23.symm, n12.symm]
  · have : ((Indexer.init (smallOpts .docIds 10)).run insSort ([.add (mkDoc "1" ["b"]) true, .add (mkDoc "2" ["b"]) true] ++
        [.flush true])).bind (fun s => s.lookup (fun x => x) [str "b"] [] none false) =
        some ([{ docId := str "2" }, { docId := str "1" }], 2) := by decide +kernel
    rw [r1] at this
    exact this

section Engines

variable {D F A F' A' : Type} {c c' : PipeCfg D}

/-- **C98** (partial: the engines of C84, the last call before the question being a Flush) Two running engines, with the same documents made from the same data,
any two schedules, any two histories of calls, any two stores at the start: if shard `s` of the first and shard `s'` of the second hold the
same documents (the last data given to the shard and not removed since), then from the Flush on they answer every request the same, at
every moment of the runs. -/
theorem C98_engines_partial (hdoc : c.DocOk) (hk : c.KeysOk) (hdoc' : c'.DocOk) (hk' : c'.KeysOk)
    (hsame : ∀ d x, SameDoc (c.docOf d x) (c'.docOf d x))
    {E : EngCfg D F A} {E' : EngCfg D F' A'} (hso : SortOk E.so) (hso' : SortOk E'.so) {o o' : IndexerOpts}
    (hit : o.indexType = o'.indexType) (hbm : o.bm25 = o'.bm25)
    {db : Fin c.stores → List (Str × D)} {db' : Fin c'.stores → List (Str × D)} (hs : GentleStart c o db) (hs' : GentleStart c' o' db')
    {as : List (EAct c.toPipeSize D F)} {as' : List (EAct c'.toPipeSize D F')} {st : Full c F A} {st' : Full c' F' A'}
    (h : (Full.start c o db).run E as = some st) (h' : (Full.start c' o' db').run E' as' = some st')
    (hg : (Full.start c o db).Gentle E o db as) (hg' : (Full.start c' o' db').Gentle E' o' db' as')
    {f b f' b' : Nat} {i : Fin c.clients} {i' : Fin c'.clients}
    (hf : as[f]? = some (.pipe (.call i .flush))) (hlast : ∀ u j (a : Call D), f < u → as[u]? ≠ some (.pipe (.call j a)))
    (hf' : as'[f']? = some (.pipe (.call i' .flush))) (hlast' : ∀ u j (a : Call D), f' < u → as'[u]? ≠ some (.pipe (.call j a)))
    (hfb : f < b) (hquiet : (Full.after E (Full.start c o db) as b).fine.pipe.Quiet)
    (hfb' : f' < b') (hquiet' : (Full.after E' (Full.start c' o' db') as' b').fine.pipe.Quiet)
    (hround : ∀ d, d ≠ str "0" → ∃ l, Rounds db d (Full.after E (Full.start c o db) as b).fine.pipe l)
    (hround' : ∀ d, d ≠ str "0" → ∃ l, Rounds db' d (Full.after E' (Full.start c' o' db') as' b').fine.pipe l)
    (s : Fin c.shards) (s' : Fin c'.shards)
    (hdocs : ∀ d, d ≠ str "0" → ∀ x, LatestOn c s ((Full.after E (Full.start c o db) as b).fine.pipe.given db) d x ↔
      LatestOn c' s' ((Full.after E' (Full.start c' o' db') as' b').fine.pipe.given db') d x)
    {t t' : Nat} (hbt : b ≤ t) (ht : t < as.length) (hbt' : b' ≤ t') (ht' : t' < as'.length)
    (log2 : Rat → Rat) (tokens labels : List Str) (docIds : Option (List Str)) (countOnly : Bool) (l : Option Logic) :
    ((Full.after E (Full.start c o db) as t).fine.shard s).ix.lookup log2 tokens labels docIds countOnly l =
      ((Full.after E' (Full.start c' o' db') as' t').fine.shard s').ix.lookup log2 tokens labels docIds countOnly l := by
  have hm : HoldSame (ideal (((Full.after E (Full.start c o db) as b).fine.pipe.given db).flatMap (c.callOps s)))
      (ideal (((Full.after E' (Full.start c' o' db') as' b').fine.pipe.given db').flatMap (c'.callOps s'))) := by
    intro d
    by_cases h0 : d = str "0"
    · subst h0
      exact Or.inl ⟨ideal_zero hdoc _ _, ideal_zero hdoc' _ _⟩
    · have i1 := ideal_latest hdoc s d h0 ((Full.after E (Full.start c o db) as b).fine.pipe.given db)
      have i2 := ideal_latest hdoc' s' d h0 ((Full.after E' (Full.start c' o' db') as' b').fine.pipe.given db')
      cases e : ideal (((Full.after E (Full.start c o db) as b).fine.pipe.given db).flatMap (c.callOps s)) d with
      | none =>
        left
        refine ⟨rfl, ?_⟩
        by_contra hne
        obtain ⟨y, hy⟩ := Option.ne_none_iff_exists'.1 hne
        obtain ⟨x, hx, _⟩ := (i2 y).1 hy
        rw [(i1 _).2 ⟨x, (hdocs d h0 x).2 hx, rfl⟩] at e
        cases e
      | some a =>
        right
        obtain ⟨x, hx, rfl⟩ := (i1 a).1 e
        exact ⟨_, _, rfl, (i2 _).2 ⟨x, (hdocs d h0 x).1 hx, rfl⟩, hsame d x⟩
  obtain ⟨L, a1, a2, a3⟩ := state_after_flush hdoc hk hso hs h hg hf hlast hfb hquiet hround s hbt ht
  obtain ⟨L', b1, b2, b3⟩ := state_after_flush hdoc' hk' hso' hs' h' hg' hf' hlast' hfb' hquiet' hround' s' hbt' ht'
  have key : ∀ {so : Sorter} {o : IndexerOpts} {L : List IdxOp} {x : Indexer} {m : Str → Option DocIndex}, SortOk so →
      (∀ op ∈ L ++ [IdxOp.flush true], OpOk op) → (Indexer.init o).run so (L ++ [.flush true]) = some x →
      (∀ tr, Trace (L ++ [.flush true]) tr → ∀ d, (tr (L ++ [IdxOp.flush true]).length).vis d = m d) →
      ∃ known, x.opts = o.init ∧ Inv x known ∧ x.removeCache = [] ∧ known.get = m := by
    intro so o L x m hso hok hr hv
    obtain ⟨tr, htr, hall⟩ := prefix_state hso o _ hok x hr
    obtain ⟨known, hopt, hinv, hab⟩ := hall _ le_rfl x (by rw [List.take_length]; exact hr)
    have hstep := hr
    rw [Indexer.run_snoc, Option.bind_eq_some_iff] at hstep
    obtain ⟨s0, _, hstep⟩ := hstep
    have hrm := step_forced (op := .flush true) rfl hstep
    exact ⟨known, hopt, hinv, hrm, funext fun d => by rw [← vis_eq_known hinv hrm, ← hab, hv tr htr]⟩
  obtain ⟨k, p1, p2, p3, p4⟩ := key hso a1 a2 a3
  obtain ⟨k', q1, q2, q3, q4⟩ := key hso' b1 b2 b3
  have ha : Alike _ _ := alike_of_same p2 q2 p3 q3 (by rw [p1, q1, o.init_it.1, o'.init_it.1, hit])
    (by rw [p1, q1, o.init_it.2, o'.init_it.2, hbm]) (by rw [p4, q4]; exact hm)
  have e1 := lookup_alike ha log2 tokens labels docIds countOnly l
  have e2 : ((Full.after E (Full.start c o db) as t).fine.shard s).abs.lookup log2 tokens labels docIds countOnly l =
    ((Full.after E (Full.start c o db) as t).fine.shard s).ix.lookup log2 tokens labels docIds countOnly l := lookup_removeCache ..
  have e3 : ((Full.after E' (Full.start c' o' db') as' t').fine.shard s').abs.lookup log2 tokens labels docIds countOnly l =
    ((Full.after E' (Full.start c' o' db') as' t').fine.shard s').ix.lookup log2 tokens labels docIds countOnly l := lookup_removeCache ..
  rw [← e2, ← e3, e1]

end Engines

/-! ## C99 -/

/-- **C99** (partial: disciplined histories with a refresh at the end) The index keeps nothing of documents that were removed or replaced: after a refresh the
caches are empty, there is exactly one state entry for each document it holds and one length entry for each that has a length, a key has a row only if a
document it holds has the key, and the row of a key lists each of the documents with that key once and nothing else. So what the index occupies
depends only on the documents it holds, not on the history. -/
theorem C99_nothing_left_partial {s : Indexer} {o : IndexerOpts} {m : Str → Option DocIndex} (h : s.HoldsExactly o m) :
    s.addCache = [] ∧ s.removeCache = [] ∧
    (∀ d, s.docsState.get d ≠ none ↔ m d ≠ none) ∧
    (∀ d, s.docTokenLens.get d ≠ none ↔ ∃ doc : DocIndex, m d = some doc ∧ doc.tokenLen ≠ 0) ∧
    (∀ k, s.table.get k ≠ none ↔ ∃ (d : Str) (doc : DocIndex), m d = some doc ∧ k ∈ doc.keys) ∧
    (∀ k row, s.table.get k = some row → row.docIds.Nodup ∧
      (∀ d, d ∈ row.docIds ↔ ∃ doc : DocIndex, m d = some doc ∧ k ∈ doc.keys) ∧
      row.frequencies.length = (if o.indexType = .freqs then row.docIds.length else 0) ∧
      row.locations.length = (if o.indexType = .locs then row.docIds.length else 0)) := by
  obtain ⟨known, a1, a2, a3, a4, rfl⟩ := holds_state h
  refine ⟨a4, a3, fun d => ?_, fun d => ?_, fun k => ?_, fun k row hrow => ?_⟩
  · rw [inv_state a2 a3]
    cases known.get d <;> simp
  · rw [a2.core.lens]
    cases hd : known.get d with
    | none => simp
    | some doc => by_cases h0 : doc.tokenLen = 0 <;> simp [h0]
  · obtain ⟨ps, b1, b2, b3⟩ := a2.core.table k
    rw [b3]
    by_cases hps : ps = []
    · subst hps
      simp only [if_true, ne_eq, not_true, false_iff, not_exists, not_and]
      intro d doc hd hk
      simp only [DocIndex.keys, List.mem_map] at hk
      obtain ⟨kw, hk1, hk2⟩ := hk
      have := (b2 ⟨d, kw.frequency, kw.starts⟩).2 ⟨doc, kw, hd, hk1, hk2, rfl, rfl⟩
      cases this
    · simp only [if_neg hps, ne_eq, reduceCtorEq, not_false_eq_true, true_iff]
      obtain ⟨p, l, rfl⟩ := List.exists_cons_of_ne_nil hps
      obtain ⟨doc, kw, e1, e2, e3, _⟩ := (b2 p).1 (by simp)
      exact ⟨_, doc, e1, by simp only [DocIndex.keys, List.mem_map]; exact ⟨kw, e2, e3⟩⟩
  · obtain ⟨ps, b1, b2, b3⟩ := a2.core.table k
    rw [b3] at hrow
    split at hrow
    · cases hrow
    obtain rfl := Option.some.inj hrow
    have hit : s.opts.indexType = o.indexType := by rw [a1, o.init_it.1]
    have hsorted : (ps.map (·.docId)).Pairwise (· < ·) := b1
    refine ⟨hsorted.imp (fun h e => by subst e; exact lt_irrefl _ h), fun d => ?_, ?_, ?_⟩
    · show d ∈ ps.map (·.docId) ↔ _
      rw [List.mem_map]
      constructor
      · rintro ⟨p, hp, rfl⟩
        obtain ⟨doc, kw, e1, e2, e3, _⟩ := (b2 p).1 hp
        exact ⟨doc, e1, by simp only [DocIndex.keys, List.mem_map]; exact ⟨kw, e2, e3⟩⟩
      · rintro ⟨doc, hd, hk⟩
        simp only [DocIndex.keys, List.mem_map] at hk
        obtain ⟨kw, hk1, hk2⟩ := hk
        exact ⟨⟨d, kw.frequency, kw.starts⟩, (b2 _).2 ⟨doc, kw, hd, hk1, hk2, rfl, rfl⟩, rfl⟩
    · rw [← hit]
      cases s.opts.indexType <;> simp [mkRow]
    · rw [← hit]
      cases s.opts.indexType <;> simp [mkRow]

/-- **C99**, the special case: if every document was removed, the index is as good as new. -/
theorem C99_all_removed_partial {s : Indexer} {o : IndexerOpts} {m : Str → Option DocIndex} (h : s.HoldsExactly o m) (hm : ∀ d, m d = none) :
    (∀ k, s.table.get k = none) ∧ (∀ d, s.docsState.get d = none) ∧ (∀ d, s.docTokenLens.get d = none) ∧ s.addCache = [] ∧
    s.removeCache = [] ∧ s.numDocs = 0 ∧ s.totalTokenLen = 0 := by
  have hn := C99_nothing_left_partial h
  obtain ⟨known, a1, a2, a3, a4, rfl⟩ := holds_state h
  obtain ⟨n1, n2, n3, n4, n5, _⟩ := hn
  have hst : ∀ d, s.docsState.get d = none := fun d => by
    by_contra hx; exact (n3 d).1 hx (hm d)
  refine ⟨fun k => ?_, hst, fun d => ?_, n1, n2, ?_, ?_⟩
  · by_contra hx
    obtain ⟨d, doc, e, _⟩ := (n5 k).1 hx
    rw [hm] at e; cases e
  · by_contra hx
    obtain ⟨doc, e, _⟩ := (n4 d).1 hx
    rw [hm] at e; cases e
  · rw [a2.core.num, GoMap.count_congr s.docsState GoMap.empty _ (fun d => by rw [hst]; rfl)]
    rfl
  · rw [a2.core.total, GoMap.sumBy_congr known (GoMap.empty : GoMap DocIndex) _ (·.tokenLen) (fun d => by rw [hm]; rfl)]
    rfl

/-- The hypotheses of the C99 theorems hold after two documents were added and removed. -/
example : ∃ s : Indexer, s.HoldsExactly (smallOpts .locs 2) (ideal [.add (mkDoc "1" ["b"]) true, .add (mkDoc "2" ["a", "b"]) true,
      .remove (str "1") true, .remove (str "2") false]) ∧
    ∀ d, ideal [.add (mkDoc "1" ["b"]) true, .add (mkDoc "2" ["a", "b"]) true, .remove (str "1") true, .remove (str "2") false] d = none := by
  obtain ⟨s, _, h1⟩ := holdsExactly_of (o := smallOpts .locs 2)
    (h := [.add (mkDoc "1" ["b"]) true, .add (mkDoc "2" ["a", "b"]) true, .remove (str "1") true, .remove (str "2") false])
    (by decide +kernel) (by decide +kernel)
  refine ⟨s, h1, fun d => ?_⟩
  simp only [ideal, List.foldl_cons, List.foldl_nil, idealStep]
  have e1 : (mkDoc "1" ["b"]).docId = str "1" := rfl
  have e2 : (mkDoc "2" ["a", "b"]).docId = str "2" := rfl
  simp only [e1, e2]
  by_cases h1 : d = str "1" <;> by_cases h2 : d = str "2" <;> simp [h1, h2]

/-- **C99 is false between refreshes**: a removed document keeps its postings, its state and its length until the removal cache is full or
a refresh is forced. -/
theorem C99_refuted_between : ideal [.add (mkDoc "1" ["b"]) true, .remove (str "1") false] = ideal [] ∧
    ((Indexer.init (smallOpts .locs 10)).run insSort [.add (mkDoc "1" ["b"]) true, .remove (str "1") false]).map
      (fun s => ((s.table.get (str "b")).map (·.docIds), s.docsState.get (str "1"), s.docTokenLens.get (str "1"), s.removeCache)) =
      some (some [str "1"], some 1, some 1, [str "1"]) := by
  refine ⟨funext fun d => ?_, by decide +kernel⟩
  simp only [ideal, List.foldl_cons, List.foldl_nil, idealStep]
  have e1 : (mkDoc "1" ["b"]).docId = str "1" := rfl
  simp only [e1]
  by_cases h1 : d = str "1" <;> simp [h1]

end Riot
