import Verif.Proofs.FullFine
import Verif.Props.Full

/-!
# C74: documents nobody touches during a search
-/

namespace Riot

open Function (update)

variable {D F A : Type} {c : PipeCfg D}

/-- The engine has not crashed at a moment at which it executes an action. -/
theorem after_alive {E : EngCfg D F A} {st0 st : Full c F A} {as : List (EAct c.toPipeSize D F)}
    (h : st0.run E as = some st) {t : Nat} (ht : t < as.length) (s : Fin c.shards) :
    ((Full.after E st0 as t).fine.shard s).dead = false := by
  have h1 := after_run h (t := t + 1)
  rw [List.take_add_one, List.getElem?_eq_getElem ht] at h1
  obtain ⟨v, h2, h3⟩ := full_run_snoc h1
  rw [after_run h] at h2
  cases h2
  unfold Full.step at h3
  split at h3
  · simp at h3
  · rename_i hd
    simp only [Bool.or_eq_true, not_or, Bool.not_eq_true] at hd
    exact not_dead_iff.1 hd.2 s

/-- What the index finds of the documents nobody calls about, at any moment. -/
theorem found_untouched (hdoc : c.DocOk) (hk : c.KeysOk) {E : EngCfg D F A} (hso : SortOk E.so) {o : IndexerOpts}
    {db : Fin c.stores → List (Str × D)} {as : List (EAct c.toPipeSize D F)} {st : Full c F A}
    (h : (Full.start c o db).run E as = some st) (hcl : (Full.start c o db).NoClash E as) {b t : Nat} (hbt : b ≤ t)
    (ht : t < as.length) {r : SearchReq F} (hlogic : r.logic = {}) (htok : o.indexType = .locs → E.tokens r ≠ [])
    (s : Fin c.shards) {docs : List IndexedDoc}
    (hf : (Full.after E (Full.start c o db) as t).found E s r = some docs) :
    (docs.map (·.docId)).Nodup ∧ ∃ n avg df, (Full.after E (Full.start c o db) as t).fine.Stats s n avg df ∧ ∀ d l, d ≠ str "0" →
      Rounds db d (Full.after E (Full.start c o db) as b).fine.pipe l → NobodyCalls as b d →
      (d ∈ docs.map (·.docId) ↔
        Matches (ideal (((Full.after E (Full.start c o db) as b).fine.pipe.given db).flatMap (c.callOps s)))
          r.docIds (E.tokens r ++ r.labels) d) ∧
      ∀ x ∈ docs, x.docId = d → ∃ doc,
        ideal (((Full.after E (Full.start c o db) as b).fine.pipe.given db).flatMap (c.callOps s)) d = some doc ∧
        x = expectedDoc E.log2 o.init n avg df (E.tokens r) doc := by
  obtain ⟨fs, g1, g2⟩ := full_run_fine _ (after_run h (t := t)) (after_noClash hcl (Nat.le_of_lt ht))
  have hal := after_alive h ht s
  obtain ⟨tr, htr, vis, hv, hall⟩ := C62_search_during_calls_partial hk hso g1 g2 s hal E.log2
  obtain ⟨docs', f1, f2, f3, n, avg, df, hst, f4⟩ := hall (E.tokens r) r.labels r.docIds htok
  unfold Full.found at hf
  rw [hlogic, lookup_no_logic, f1] at hf
  simp only [Option.map_some, Option.some.injEq] at hf
  subst hf
  refine ⟨f2.imp (fun h => ne_of_gt h), n, avg, df, hst, fun d l h0 hr hno => ?_⟩
  have hrt := rounds_after h hbt hno hr
  obtain ⟨_, hinv⟩ := hrt.inv hdoc h0
  obtain ⟨i1, _, i3, i4⟩ := hinv s
  have hvd : vis d = ideal (((Full.after E (Full.start c o db) as b).fine.pipe.given db).flatMap (c.callOps s)) d := by
    rw [vis_untouched htr hv i3 i4 (untouched_of_rounds hdoc h0 hrt s), ideal_docOps, i1, ← ideal_docOps, hr.given,
      ideal_given hdoc]
  refine ⟨?_, ?_⟩
  · rw [f3 d]
    simp only [Matches, hvd]
  · rintro x hx rfl
    obtain ⟨doc, e1, e2⟩ := f4 x hx
    exact ⟨doc, by rw [← hvd]; exact e1, e2⟩

/-- The entries of a part, one document at a time. -/
theorem entries_doc {E : EngCfg D F A} {st0 : Full c F A} {as : List (EAct c.toPipeSize D F)} {r : SearchReq F}
    (hsc : ∀ d f, (wantedRank E.opts r).score d f ≠ []) {s : Fin c.shards} {d : Str} {reg : Option (RankData F A)} :
    ∀ (docs : List IndexedDoc) (ts : List Nat), ts.length = docs.length →
      (∀ t ∈ ts, (Full.after E st0 as t).registered E s d = reg) →
      ((entriesDuring E st0 as s r docs ts).map (·.scoredID.docId)).Sublist (docs.map (·.docId)) ∧
      (d ∈ (entriesDuring E st0 as s r docs ts).map (·.scoredID.docId) ↔ d ∈ docs.map (·.docId) ∧ reg.isSome = true) ∧
      ∀ e ∈ entriesDuring E st0 as s r docs ts, e.scoredID.docId = d →
        ∃ x, reg = some x ∧ e.fields = x.fields ∧ e.content = x.content ∧ e.attri = x.attri ∧
          ∃ doc ∈ docs, doc.docId = d ∧ ScoredAs E r doc e := by
  intro docs
  induction docs with
  | nil => intro ts _ _; simp [entriesDuring]
  | cons a docs ih =>
    intro ts hl hreg
    cases ts with
    | nil => simp at hl
    | cons t ts =>
      obtain ⟨i1, i2, i3⟩ := ih ts (by simpa using hl) (fun u hu => hreg u (by simp [hu]))
      have ht := hreg t (by simp)
      unfold entriesDuring at i1 i2 i3 ⊢
      rw [List.zip_cons_cons, List.filterMap_cons]
      unfold expectedScored at i1 i2 i3 ⊢
      simp only at i1 i2 i3 ⊢
      cases hx : (Full.after E st0 as t).registered E s a.docId with
      | none =>
        simp only [List.map_cons]
        refine ⟨i1.cons _, ?_, fun e he hd => ?_⟩
        rotate_left
        · obtain ⟨x, j1, j2, j3, j4, doc, j5, j6⟩ := i3 e he hd
          exact ⟨x, j1, j2, j3, j4, doc, by simp [j5], j6⟩
        rw [i2, List.mem_cons]
        constructor
        · rintro ⟨x, y⟩; exact ⟨.inr x, y⟩
        · rintro ⟨rfl | x, y⟩
          · rw [ht] at hx; rw [hx] at y; simp at y
          · exact ⟨x, y⟩
      | some x =>
        simp only [if_neg (hsc a x.fields), List.map_cons]
        refine ⟨i1.cons_cons _, ?_, ?_⟩
        · rw [List.mem_cons, i2, List.mem_cons]
          constructor
          · rintro (rfl | ⟨x, y⟩)
            · rw [ht] at hx; exact ⟨.inl rfl, by rw [hx]; rfl⟩
            · exact ⟨.inr x, y⟩
          · rintro ⟨rfl | x, y⟩
            · exact .inl rfl
            · exact .inr ⟨x, y⟩
        · intro e he hd
          rcases List.mem_cons.1 he with rfl | he
          · simp only at hd
            rw [hd, ht] at hx
            exact ⟨x, hx, rfl, rfl, rfl, a, by simp, hd, rfl, rfl, rfl⟩
          · obtain ⟨x, j1, j2, j3, j4, doc, j5, j6⟩ := i3 e he hd
            exact ⟨x, j1, j2, j3, j4, doc, by simp [j5], j6⟩

theorem entries_sublist {E : EngCfg D F A} {st0 : Full c F A} {as : List (EAct c.toPipeSize D F)} {r : SearchReq F}
    {s : Fin c.shards} : ∀ (docs : List IndexedDoc) (ts : List Nat),
      ((entriesDuring E st0 as s r docs ts).map (·.scoredID.docId)).Sublist (docs.map (·.docId)) := by
  intro docs
  induction docs with
  | nil => intro ts; simp [entriesDuring]
  | cons a docs ih =>
    intro ts
    cases ts with
    | nil => simp [entriesDuring]
    | cons t ts =>
      have i1 := ih ts
      unfold entriesDuring at i1 ⊢
      rw [List.zip_cons_cons, List.filterMap_cons]
      cases hx : expectedScored ((Full.after E st0 as t).registered E s) (wantedRank E.opts r).score a with
      | none => exact i1.cons _
      | some e =>
        have : e.scoredID.docId = a.docId := by
          unfold expectedScored at hx
          split at hx
          · simp at hx
          · split at hx
            · simp at hx
            · simp only [Option.some.injEq] at hx; subst hx; rfl
        simp only [List.map_cons, this]
        exact i1.cons_cons _

/-- What is registered about a document is the data of a version that was given. -/
theorem rankIdeal_version (info : RankInfo D F A) (idOnly : Bool) (l : List (RankEv D)) {d : Str} {x : RankData F A}
    (h : rankIdeal (l.map (RankEv.op info idOnly)) d = some x) :
    ∃ y, RankEv.add d y ∈ l ∧ x.fields = info.fields y ∧
      (idOnly = false → x.content = info.content y ∧ x.attri = info.attri y) := by
  induction l using List.reverseRecOn generalizing x with
  | nil => simp [rankIdeal] at h
  | append_singleton l ev ih =>
    simp only [rankIdeal, List.map_append, List.foldl_append, List.map_cons, List.map_nil, List.foldl_cons,
      List.foldl_nil] at h ih
    have keep : ∀ m : Str → Option (RankData F A), (∀ x, m d = some x → ∃ y, RankEv.add d y ∈ l ∧
        x.fields = info.fields y ∧ (idOnly = false → x.content = info.content y ∧ x.attri = info.attri y)) →
        m d = some x → ∃ y, RankEv.add d y ∈ l ++ [ev] ∧ x.fields = info.fields y ∧
        (idOnly = false → x.content = info.content y ∧ x.attri = info.attri y) := by
      intro m hm h
      obtain ⟨y, h1, h2⟩ := hm x h
      exact ⟨y, by simp [h1], h2⟩
    cases ev with
    | add id y =>
      by_cases hid : d = id
      · subst hid
        simp only [RankEv.op, rankIdealStep, if_true, Option.some.injEq] at h
        subst h
        refine ⟨y, by simp, rfl, ?_⟩
        rintro rfl
        simp
      · simp only [RankEv.op, rankIdealStep, if_neg hid] at h
        exact keep _ (fun x hx => ih hx) h
    | remove id =>
      by_cases hid : d = id
      · subst hid
        simp [RankEv.op, rankIdealStep] at h
      · simp only [RankEv.op, rankIdealStep, if_neg hid] at h
        exact keep _ (fun x hx => ih hx) h

theorem after_reach {E : EngCfg D F A} {o : IndexerOpts} {db : Fin c.stores → List (Str × D)}
    {as : List (EAct c.toPipeSize D F)} {st : Full c F A} (h : (Full.start c o db).run E as = some st) (t : Nat) :
    Reach db (Full.after E (Full.start c o db) as t).fine.pipe := by
  obtain ⟨bs, hbs, _⟩ := after_pipe h (Nat.zero_le t)
  exact ⟨bs, hbs⟩

/-- **C73** Under every schedule, every entry of a part of a search shows the data of a version of its document that was given to
that shard by a call that began before the search ended; the id "0" has no entry. -/
theorem C73_entries_show_versions {E : EngCfg D F A} {o : IndexerOpts}
    {db : Fin c.stores → List (Str × D)} {as : List (EAct c.toPipeSize D F)} {st : Full c F A}
    (h : (Full.start c o db).run E as = some st) {b : Nat} {r : SearchReq F} {p : Part c}
    (hp : PartOk E (Full.start c o db) as b r p) :
    ∀ e ∈ p.entries E (Full.start c o db) as r, e.scoredID.docId ≠ str "0" ∧ ShowsVersion c E (st.fine.pipe.given db) p.shard e := by
  intro e he
  unfold Part.entries entriesDuring at he
  obtain ⟨⟨doc, t⟩, hz, hx⟩ := List.mem_filterMap.1 he
  obtain ⟨_, _, ht⟩ := hp.reads
  have htl := (ht t (List.of_mem_zip hz).2).2
  unfold expectedScored at hx
  cases hreg : (Full.after E (Full.start c o db) as t).registered E p.shard doc.docId with
  | none => rw [hreg] at hx; simp at hx
  | some x =>
    rw [hreg] at hx
    simp only at hx
    split at hx
    · simp at hx
    · simp only [Option.some.injEq] at hx
      subst hx
      obtain ⟨y, k1, k2, k3⟩ := rankIdeal_version E.info E.opts.idOnly _ hreg
      obtain ⟨k0, k4, g, k5⟩ := mem_callRank_add.1 (rank_mem (after_reach h t) p.shard k1)
      refine ⟨k0, y, g, ?_, k4, k2, k3⟩
      obtain ⟨bs, hbs, _⟩ := after_pipe h (show t ≤ as.length by omega)
      have he2 : Full.after E (Full.start c o db) as as.length = st := by
        unfold Full.after; rw [List.take_length, h]; rfl
      rw [he2] at hbs
      unfold Pipe.given at k5 ⊢
      rw [run_calls _ _ _ hbs, List.map_append, ← List.append_assoc]
      exact List.mem_append.2 (.inl k5)

/-- **C74** (partial: on no shard does a refresh overlap a removal) Take any document whose calls were
separated by Flushes and were all executed when a search begins, by the indexes and by the rankers, and
about which no call is made until the search ends. Whatever happens to other documents meanwhile, the
search ranks this document as if nothing happened: on each shard that answers it has exactly one entry, with
the data registered when the search began and the scores and locations of its last version there, if that version
matches and is registered, and no entry otherwise. (`n`, `avg` and `df` are the shard's statistics at a moment
of the search, C11, C62.) -/
theorem C74_untouched_document_partial (hdoc : c.DocOk) (hk : c.KeysOk) {E : EngCfg D F A} (hso : SortOk E.so)
    (hgs : GSortOk E.gs) {o : IndexerOpts} {db : Fin c.stores → List (Str × D)} {as : List (EAct c.toPipeSize D F)}
    {st : Full c F A} (h : (Full.start c o db).run E as = some st) (hcl : (Full.start c o db).NoClash E as)
    {k b : Nat} {r : SearchReq F} (hb : Began as k b r)
    (hdone : (st.got k).length = c.shards) (hc : r.countDocsOnly = false) (hor : r.orderless = false)
    (hlogic : r.logic = {}) (htok : o.indexType = .locs → E.tokens r ≠ []) {off m : Nat}
    (ho : (wantedRank E.opts r).outputOffset = off) (hm : (wantedRank E.opts r).maxOutputs = m)
    (hsc : ∀ d f, (wantedRank E.opts r).score d f ≠ [] ∧ NoNaN ((wantedRank E.opts r).score d f)) :
    ∃ (parts : List (Part c)) (resp : SearchResp F A), (parts.map (·.shard)).Nodup ∧
      st.response E k = some resp ∧ (resp.timeout = false → ∀ s, s ∈ parts.map (·.shard)) ∧
      IsPageOf E.opts.idOnly (wantedRank E.opts r).reverseOrder (E.tokens r) off m
        (parts.flatMap (Part.entries E (Full.start c o db) as r)) resp ∧
      ∀ p ∈ parts, ((p.entries E (Full.start c o db) as r).map (·.scoredID.docId)).Nodup ∧
      (∀ e ∈ p.entries E (Full.start c o db) as r, e.scoredID.docId ≠ str "0" ∧ ShowsVersion c E (st.fine.pipe.given db) p.shard e) ∧ ∃ n avg df, StatsDuring E (Full.start c o db) as b p.shard n avg df ∧
      ∀ d l, d ≠ str "0" → Rounds db d (Full.after E (Full.start c o db) as b).fine.pipe l →
        (Full.after E (Full.start c o db) as b).fine.pipe.RankersDone db d → NobodyCalls as b d →
        (d ∈ (p.entries E (Full.start c o db) as r).map (·.scoredID.docId) ↔
          Matches (ideal (((Full.after E (Full.start c o db) as b).fine.pipe.given db).flatMap (c.callOps p.shard)))
            r.docIds (E.tokens r ++ r.labels) d ∧
          ((Full.after E (Full.start c o db) as b).registered E p.shard d).isSome = true) ∧
        ∀ e ∈ p.entries E (Full.start c o db) as r, e.scoredID.docId = d →
          ∃ x, (Full.after E (Full.start c o db) as b).registered E p.shard d = some x ∧
            e.fields = x.fields ∧ e.content = x.content ∧ e.attri = x.attri ∧
          ∃ doc, ideal (((Full.after E (Full.start c o db) as b).fine.pipe.given db).flatMap (c.callOps p.shard)) d =
              some doc ∧ ScoredAs E r (expectedDoc E.log2 o.init n avg df (E.tokens r) doc) e := by
  obtain ⟨parts, resp, g1, g2, g3, g4, g5⟩ := C73_search_during_everything hgs h hb hdone hc hor ho hm (fun d f => (hsc d f).2)
  refine ⟨parts, resp, g1, g3, g4, g5, fun p hp => ?_⟩
  have hok := g2 p hp
  obtain ⟨hlo, hhi⟩ := hok.during
  obtain ⟨hl, _, hts⟩ := hok.reads
  obtain ⟨f1, n, avg, df, hst, f2⟩ := found_untouched hdoc hk hso h hcl (Nat.le_of_lt hlo) hhi hlogic htok p.shard hok.found
  refine ⟨?_, ?_, n, avg, df, ⟨p.look, hlo, hhi, hst⟩, fun d l h0 hround hrank hno => ?_⟩
  · exact f1.sublist (entries_sublist _ _)
  · exact C73_entries_show_versions h hok
  obtain ⟨_, e2, e3⟩ := entries_doc (E := E) (st0 := Full.start c o db) (as := as) (r := r) (fun d f => (hsc d f).1)
    (s := p.shard) (d := d) p.docs p.reads hl
    (fun t ht => registered_after h (by have := (hts t ht).1; omega) (hround.inv hdoc h0).1 hno hrank p.shard)
  obtain ⟨f3, f4⟩ := f2 d l h0 hround hno
  refine ⟨?_, ?_⟩
  · unfold Part.entries
    rw [e2, f3]
  · intro e he hd
    obtain ⟨x, j1, j2, j3, j4, doc, j5, j6, j7⟩ := e3 e he hd
    obtain ⟨doc', k1, rfl⟩ := f4 doc j5 j6
    exact ⟨x, j1, j2, j3, j4, doc', k1, j7⟩

/-- A document that was never indexed again after a removal is registered where its last version is, once
the rankers have done their work. -/
theorem registered_of_rankersDone (hdoc : c.DocOk) {db : Fin c.stores → List (Str × D)} {p : Pipe c} (hr : Reach db p)
    {d : Str} (h0 : d ≠ str "0") (hd : p.RankersDone db d)
    (hre : ∀ f x g l1 l2, p.given db = l1 ++ Call.remove d f :: l2 → Call.index d x g ∉ l2)
    (info : RankInfo D F A) (idOnly : Bool) (s : Fin c.shards) {doc : DocIndex}
    (hi : ideal ((p.given db).flatMap (c.callOps s)) d = some doc) :
    (rankIdeal (p.rankHistory info idOnly s) d).isSome = true := by
  obtain ⟨L1, x, g, L2, e1, e2, _, e4⟩ := ideal_from_index hdoc s d _ doc hi
  have hno : ∀ f, Call.remove d f ∉ p.given db := by
    intro f hm
    rw [e1] at hm
    rcases List.mem_append.1 hm with hm | hm
    · obtain ⟨A1, A2, hA⟩ := List.append_of_mem hm
      exact hre f x g A1 (A2 ++ Call.index d x g :: L2) (by rw [e1, hA]; simp) (by simp)
    · simp only [List.mem_cons, reduceCtorEq, false_or] at hm
      exact e4 f hm
  rw [rankIdeal_isSome (rankHistory_no_remove hr hno info idOnly s)]
  have hm : RankEv.add d x ∈ (p.given db).flatMap (c.callRank s) :=
    mem_callRank_add.2 ⟨h0, e2, g, by rw [e1]; simp⟩
  have hm2 : RankEv.add d x ∈ (p.rankLog s).filter (RankEv.about d) :=
    (hd s).mem_iff.1 (List.mem_filter.2 ⟨hm, by simp [RankEv.about]⟩)
  exact ⟨_, _, List.mem_map.2 ⟨_, (List.mem_filter.1 hm2).1, rfl⟩⟩

/-- **C74** (partial, as above) ... and if the document was never indexed again after a removal, being
registered is no further condition; and its entry shows the data of a version that was given to that shard. -/
theorem C74_untouched_document_found_partial (hdoc : c.DocOk) (hk : c.KeysOk) {E : EngCfg D F A} (hso : SortOk E.so)
    (hgs : GSortOk E.gs) {o : IndexerOpts} {db : Fin c.stores → List (Str × D)} {as : List (EAct c.toPipeSize D F)}
    {st : Full c F A} (h : (Full.start c o db).run E as = some st) (hcl : (Full.start c o db).NoClash E as)
    {k b : Nat} {r : SearchReq F} (hb : Began as k b r)
    (hdone : (st.got k).length = c.shards) (hc : r.countDocsOnly = false) (hor : r.orderless = false)
    (hlogic : r.logic = {}) (htok : o.indexType = .locs → E.tokens r ≠ []) {off m : Nat}
    (ho : (wantedRank E.opts r).outputOffset = off) (hm : (wantedRank E.opts r).maxOutputs = m)
    (hsc : ∀ d f, (wantedRank E.opts r).score d f ≠ [] ∧ NoNaN ((wantedRank E.opts r).score d f)) :
    ∃ (parts : List (Part c)) (resp : SearchResp F A), (parts.map (·.shard)).Nodup ∧
      st.response E k = some resp ∧ (resp.timeout = false → ∀ s, s ∈ parts.map (·.shard)) ∧
      IsPageOf E.opts.idOnly (wantedRank E.opts r).reverseOrder (E.tokens r) off m
        (parts.flatMap (Part.entries E (Full.start c o db) as r)) resp ∧
      ∀ p ∈ parts, ((p.entries E (Full.start c o db) as r).map (·.scoredID.docId)).Nodup ∧
      (∀ e ∈ p.entries E (Full.start c o db) as r, e.scoredID.docId ≠ str "0" ∧ ShowsVersion c E (st.fine.pipe.given db) p.shard e) ∧ ∃ n avg df, StatsDuring E (Full.start c o db) as b p.shard n avg df ∧
      ∀ d l, d ≠ str "0" → Rounds db d (Full.after E (Full.start c o db) as b).fine.pipe l →
        (Full.after E (Full.start c o db) as b).fine.pipe.RankersDone db d → NobodyCalls as b d →
        (∀ f x g l1 l2, (Full.after E (Full.start c o db) as b).fine.pipe.given db = l1 ++ Call.remove d f :: l2 →
          Call.index d x g ∉ l2) →
        (d ∈ (p.entries E (Full.start c o db) as r).map (·.scoredID.docId) ↔
          Matches (ideal (((Full.after E (Full.start c o db) as b).fine.pipe.given db).flatMap (c.callOps p.shard)))
            r.docIds (E.tokens r ++ r.labels) d) ∧
        ∀ e ∈ p.entries E (Full.start c o db) as r, e.scoredID.docId = d →
          ShowsVersion c E ((Full.after E (Full.start c o db) as b).fine.pipe.given db) p.shard e ∧
          ∃ doc, ideal (((Full.after E (Full.start c o db) as b).fine.pipe.given db).flatMap (c.callOps p.shard)) d =
              some doc ∧ ScoredAs E r (expectedDoc E.log2 o.init n avg df (E.tokens r) doc) e := by
  obtain ⟨parts, resp, g1, g2, g3, g4, g5⟩ := C74_untouched_document_partial hdoc hk hso hgs h hcl hb hdone hc hor
    hlogic htok ho hm hsc
  refine ⟨parts, resp, g1, g2, g3, g4, fun p hp => ?_⟩
  obtain ⟨e1, ez, n, avg, df, hst, e2⟩ := g5 p hp
  refine ⟨e1, ez, n, avg, df, hst, fun d l h0 hround hrank hno hre => ?_⟩
  obtain ⟨e3, e4⟩ := e2 d l h0 hround hrank hno
  have hreach := (hround.inv hdoc h0).1
  refine ⟨?_, ?_⟩
  · rw [e3]
    constructor
    · exact fun h => h.1
    · intro hM
      refine ⟨hM, ?_⟩
      obtain ⟨_, _, doc, hv, _⟩ := id hM
      exact registered_of_rankersDone hdoc hreach h0 hrank hre E.info E.opts.idOnly p.shard hv
  · rintro e he rfl
    obtain ⟨x, j1, j2, j3, j4, j5⟩ := e4 e he rfl
    refine ⟨?_, j5⟩
    obtain ⟨y, k1, k2, k3⟩ := rankIdeal_version E.info E.opts.idOnly _ j1
    obtain ⟨_, k4, g, k5⟩ := mem_callRank_add.1 (rank_mem hreach p.shard k1)
    exact ⟨y, g, k5, k4, by rw [j2, k2], fun hid => by rw [j3, j4]; exact k3 hid⟩

/-! ## An example -/

/-- The call an action makes on the pipeline. -/
def EAct.call? {z : PipeSize} : EAct z D F → Option (Call D)
  | .pipe (.call _ a) => some a
  | _ => none

theorem full_flush {E : EngCfg D F A} {st st' : Full c F A} (hi : st.fine.pipe.ClientsIdle) {i : Fin c.clients}
    {bs : List (EAct c.toPipeSize D F)} (hb : bs.all (fun a => a.call?.isNone) = true)
    (hr : st.run E (.pipe (.call i .flush) :: bs) = some st') (hdone : st'.fine.pipe.prog (.client i) = []) :
    FlushCompletes i st.fine.pipe st'.fine.pipe := by
  simp only [Full.run] at hr
  obtain ⟨st1, h1, h2⟩ := Option.bind_eq_some_iff.1 hr
  have hp1 : st.fine.pipe.step (.call i .flush) = some st1.fine.pipe := by
    unfold Full.step at h1
    split at h1
    · simp at h1
    · simp only [EAct.fine?, Option.map_eq_some_iff] at h1
      obtain ⟨f, h1, rfl⟩ := h1
      obtain ⟨_, hs⟩ := fine_step h1
      cases hs with
      | pipe a p h0 hp he => subst he; exact hp
  obtain ⟨as, g1, g2⟩ := after_pipe h2 (Nat.zero_le bs.length)
  refine ⟨hi, st1.fine.pipe, as, hp1, ?_, ?_, hdone⟩
  · intro a ha
    cases a with
    | call j x =>
      obtain ⟨v, _, hv⟩ := g2 (j, x) (List.mem_flatMap.2 ⟨_, ha, by simp [Act.called]⟩)
      have := List.all_eq_true.1 hb _ (List.mem_of_getElem? hv)
      simp [EAct.call?] at this
    | _ => rfl
  · have e0 : Full.after E st1 bs 0 = st1 := rfl
    have e1 : Full.after E st1 bs bs.length = st' := by
      unfold Full.after; rw [List.take_length, h2]; rfl
    rw [e0, e1] at g1
    exact g1

/-- A schedule with `Full.NoClash`, by computation. -/
def Full.noClashB (E : EngCfg D F A) (st : Full c F A) : List (EAct c.toPipeSize D F) → Bool
  | [] => (List.finRange c.shards).all (fun s => !(st.fine.shard s).clashB)
  | a :: l => (List.finRange c.shards).all (fun s => !(st.fine.shard s).clashB) &&
    match st.step E a with
    | none => false
    | some st' => st'.noClashB E l

theorem full_noClash_of_B {E : EngCfg D F A} (as : List (EAct c.toPipeSize D F)) : ∀ {st : Full c F A},
    st.noClashB E as = true → st.NoClash E as := by
  have hz : ∀ (st : Full c F A), (List.finRange c.shards).all (fun s => !(st.fine.shard s).clashB) = true →
      ∀ s, ¬ (st.fine.shard s).Clash := fun st h s =>
    not_clash_of_B (by simpa using List.all_eq_true.1 h s (List.mem_finRange s))
  induction as with
  | nil =>
    intro st h t ht s
    have : t = 0 := by simpa using ht
    subst this
    exact hz _ h s
  | cons a l ih =>
    intro st h t ht s
    rw [Full.noClashB, Bool.and_eq_true] at h
    cases t with
    | zero => exact hz _ h.1 s
    | succ t =>
      cases h1 : st.step E a with
      | none => rw [h1] at h; simp at h
      | some st1 =>
        rw [h1] at h
        have := ih h.2 t (by simpa using ht) s
        cases hr : st1.run E (l.take t) with
        | none =>
          exfalso
          have gen : ∀ (l : List (EAct c.toPipeSize D F)) (t : Nat) (st : Full c F A), st.noClashB E l = true →
              st.run E (l.take t) ≠ none := by
            intro l
            induction l with
            | nil => intro t st _; simp [Full.run]
            | cons b l ih2 =>
              intro t st hb
              cases t with
              | zero => simp [Full.run]
              | succ t =>
                rw [Full.noClashB, Bool.and_eq_true] at hb
                cases h2 : st.step E b with
                | none => rw [h2] at hb; simp at hb
                | some st2 =>
                  rw [h2] at hb
                  simp only [List.take_succ_cons, Full.run, h2, Option.bind_some]
                  exact ih2 t st2 hb.2
          exact gen l t st1 h.2 hr
        | some v =>
          unfold Full.after at this ⊢
          simp only [List.take_succ_cons, Full.run, h1, Option.bind_some, hr, Option.getD_some] at this ⊢
          exact this

/-- After a first round (calls, then a Flush with nothing else going on), then quiet. -/
theorem after_first_round {E : EngCfg D F A} {o : IndexerOpts} {db : Fin c.stores → List (Str × D)} {d : Str}
    (hdoc : c.DocOk) (h0 : d ≠ str "0") {load tail rest : List (EAct c.toPipeSize D F)} {i : Fin c.clients} {st1 st2 : Full c F A}
    (rl : (Full.start c o db).run E load = some st1) (rf : st1.run E (.pipe (.call i .flush) :: tail) = some st2)
    (hidle : ∀ i, st1.fine.pipe.prog (.client i) = []) (htail : tail.all (fun a => a.call?.isNone) = true)
    (hdone : st2.fine.pipe.prog (.client i) = [])
    (hcalls : (((c.recovered db).map (fun x => Call.index x.1 x.2 false) ++
      st1.fine.pipe.calls.map (·.2)).filter (Call.about d)).length ≤ 1) (hq : st2.fine.pipe.Quiet)
    {b : Nat} (hb : b = (load ++ .pipe (.call i .flush) :: tail).length)
    (hno : rest.all (fun a => (a.call?.map (Call.about d)) != some true) = true) :
    (∃ l, Rounds db d (Full.after E (Full.start c o db) (load ++ .pipe (.call i .flush) :: tail ++ rest) b).fine.pipe l) ∧
    (Full.after E (Full.start c o db) (load ++ .pipe (.call i .flush) :: tail ++ rest) b).fine.pipe.RankersDone db d ∧
    NobodyCalls (load ++ .pipe (.call i .flush) :: tail ++ rest) b d := by
  subst hb
  have hafter : Full.after E (Full.start c o db) (load ++ .pipe (.call i .flush) :: tail ++ rest)
      (load ++ .pipe (.call i .flush) :: tail).length = st2 := by
    unfold Full.after
    rw [List.take_left, full_run_append, rl]
    simp [rf]
  rw [hafter]
  obtain ⟨as1, g1, _⟩ := after_pipe rl (Nat.zero_le load.length)
  have e1 : Full.after E (Full.start c o db) load load.length = st1 := by
    unfold Full.after; rw [List.take_length, rl]; rfl
  rw [e1] at g1
  have hfl : FlushCompletes i st1.fine.pipe st2.fine.pipe := full_flush (E := E) hidle htail rf hdone
  have hround := Rounds.first (db := db) (d := d) as1 i _ _ g1 hfl hcalls
  refine ⟨⟨_, hround⟩, fun s => ((rank_quiet (hround.inv hdoc h0).1 hq s).filter _).symm, ?_⟩
  intro t j a hbt ht
  rw [List.getElem?_append_right hbt] at ht
  have := List.all_eq_true.1 hno _ (List.mem_of_getElem? ht)
  cases e : a.about d with
  | false => rfl
  | true => simp [EAct.call?, e] at this

/-- "X" (4), "Y" (2) and "Z" (3) are indexed, not forced. -/
def loadRun : List (EAct pairEngine.toPipeSize Nat Nat) := pairStart.script (demoEng true)
  [.inr (engineCands _),
   .inl (.pipe (.call userA (.index (str "X") 4 false))), .inr (engineCands _),
   .inl (.pipe (.call userA (.index (str "Y") 2 false))), .inr (engineCands _),
   .inl (.pipe (.call userA (.index (str "Z") 3 false))), .inr (engineCands _)]

def loadState : Full pairEngine Nat Nat := (pairStart.run (demoEng true) loadRun).getD pairStart

/-- What happens after the call of Flush. -/
def flushTail : List (EAct pairEngine.toPipeSize Nat Nat) :=
  ((loadState.step (demoEng true) (.pipe (.call userA .flush))).getD loadState).greedy (demoEng true) (engineCands _) 300

def flushRun : List (EAct pairEngine.toPipeSize Nat Nat) := .pipe (.call userA .flush) :: flushTail

def flushState : Full pairEngine Nat Nat := (loadState.run (demoEng true) flushRun).getD loadState

/-- "X", "Y", "Z" are indexed and flushed; then a search, during which "X" is removed and "V" and "W" are
indexed. -/
def searchRun : List (EAct pairEngine.toPipeSize Nat Nat) :=
  .start searchK :: postRun ((flushState.step (demoEng true) (.start searchK)).getD flushState)

def untouchedRun : List (EAct pairEngine.toPipeSize Nat Nat) := loadRun ++ flushRun ++ searchRun

/-- The hypotheses of the C74 theorems hold of that schedule and of document "Y", and they give a place in
the response to it. -/
example : ∃ st b, pairStart.run (demoEng true) untouchedRun = some st ∧ pairStart.NoClash (demoEng true) untouchedRun ∧
    Began untouchedRun 0 b searchK ∧ (st.got 0).length = pairEngine.shards ∧
    (∃ l, Rounds (fun _ => []) (str "Y") (Full.after (demoEng true) pairStart untouchedRun b).fine.pipe l) ∧
    (Full.after (demoEng true) pairStart untouchedRun b).fine.pipe.RankersDone (fun _ => []) (str "Y") ∧
    NobodyCalls untouchedRun b (str "Y") ∧ pairEngine.DocOk ∧ pairEngine.KeysOk ∧
    (∀ d f, (wantedRank (demoEng true).opts searchK).score d f ≠ [] ∧
      NoNaN ((wantedRank (demoEng true).opts searchK).score d f)) ∧
    respIds (st.response (demoEng true) 0) = some ([str "W", str "Z", str "Y"], 3) := by
  have h : (pairStart.run (demoEng true) untouchedRun).any (fun st => decide ((st.got 0).length = pairEngine.shards) &&
    decide (respIds (st.response (demoEng true) 0) = some ([str "W", str "Z", str "Y"], 3))) = true := by
    decide +kernel
  have hcl : pairStart.noClashB (demoEng true) untouchedRun = true := by decide +kernel
  have hb : ((loadRun ++ flushRun).filter EAct.isStart).length = 0 := by decide +kernel
  have hl : (pairStart.run (demoEng true) loadRun).isSome = true := by decide +kernel
  have hf : (loadState.run (demoEng true) flushRun).isSome = true := by decide +kernel
  have hidle : (decide (∀ i, loadState.fine.pipe.prog (.client i) = [])) = true := by decide +kernel
  have hcalls : (((pairEngine.recovered (fun _ => [])).map (fun x => Call.index x.1 x.2 false) ++
      loadState.fine.pipe.calls.map (·.2)).filter (Call.about (str "Y"))).length ≤ 1 := by decide +kernel
  have htail : flushTail.all (fun a => a.call?.isNone) = true := by decide +kernel
  have hdone : flushState.fine.pipe.prog (.client userA) = [] := by decide +kernel
  have hq : flushState.fine.pipe.quietB = true := by decide +kernel
  have hno : searchRun.all (fun a => (a.call?.map (Call.about (str "Y"))) != some true) =
      true := by decide +kernel
  have rl : pairStart.run (demoEng true) loadRun = some loadState := by
    obtain ⟨x, hx⟩ := Option.isSome_iff_exists.1 hl
    rw [loadState, hx, Option.getD_some]
  have rf : loadState.run (demoEng true) flushRun = some flushState := by
    obtain ⟨x, hx⟩ := Option.isSome_iff_exists.1 hf
    rw [flushState, hx, Option.getD_some]
  obtain ⟨k1, k2, k3⟩ := after_first_round (E := demoEng true) (d := str "Y") (tail := flushTail) (rest := searchRun)
    (fun _ _ => rfl) (by decide +kernel) rl rf (of_decide_eq_true hidle) htail hdone hcalls (quiet_of_B hq) rfl hno
  have hst : searchRun[0]? = some (.start searchK) := by rw [searchRun]; rfl
  obtain ⟨st, h1, h2⟩ := (Option.any_eq_true _ _).1 h
  simp only [Bool.and_eq_true, decide_eq_true_eq] at h2
  refine ⟨st, (loadRun ++ flushRun).length, h1, full_noClash_of_B _ hcl, ⟨?_, ?_⟩, h2.1, k1, k2, k3, ?_, ?_, ?_, h2.2⟩
  · rw [untouchedRun, List.getElem?_append_right (Nat.le_refl _), Nat.sub_self]; exact hst
  · rw [untouchedRun, List.take_left]; exact hb
  · intro _ _; rfl
  · intro id x; simp [pairEngine]
  · intro d f
    simp [wantedRank, demoEng, searchK, NoNaN]

end Riot
