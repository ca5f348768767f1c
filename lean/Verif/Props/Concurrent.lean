import Verif.Proofs.FineVis
import Verif.Spec.Concurrent
import Verif.Props.Shard
import Verif.Props.Index
import Verif.Proofs.FineLive

/-!
# C62: searches while index calls are in progress
-/

namespace Riot

open Function (update)

variable {D : Type} {c : PipeCfg D}

theorem SV.sees {so : Sorter} {o : IndexerOpts} {st : Fine c} {s : Fin c.shards}
    {base : Indexer} {a r : Option IdxOp} {kb known : GoMap DocIndex} {tr : Nat → AbsIndex}
    (hS : SV so o st s base a r kb known tr) :
    st.SeesNow s (tr (st.pipe.idxLog s).length) (absOf (st.shard s).ix known).vis := by
  intro d
  rw [hS.last, absOf_vis, absOf_vis]
  rcases hS.w.vis d with e | ⟨e, e2⟩
  · exact Or.inl e
  · refine Or.inr ⟨e, ?_⟩
    rcases e2 with ⟨op, hr, hid⟩ | ⟨hf, h⟩
    · left
      have hop := hS.rel.rel.remOp op hr
      have hne : (st.shard s).rem ≠ none := by
        intro e; rw [hS.rel.rel.remNone.1 e] at hr; simp at hr
      obtain ⟨l, hl⟩ := hS.rel.rem op hr
      cases op with
      | remove id f =>
        simp only [IdxOp.id?, Option.some.injEq] at hid
        subst hid
        exact ⟨hne, f, by simp [Pipe.nextIdx, hl]⟩
      | add _ _ => simp [IdxOp.isAdd] at hop
      | flush _ => simp [IdxOp.isAdd] at hop
    · right
      refine ⟨hf, ?_⟩
      rcases h with ⟨op, ha, hid⟩ | ⟨x, hx, hxd⟩
      · obtain ⟨l, hl⟩ := hS.rel.add op ha
        exact Or.inl ⟨op, by simp [Pipe.nextIdx, hl], hid⟩
      · exact Or.inr ⟨x, hx, hxd⟩

/-- The number of known documents with a key is the length of the key's row. -/
theorem dfOf_table {s : Indexer} {known : GoMap DocIndex} (hc : Core s known) (k : Str) :
    dfOf known k = ((s.table.get k).map (·.docIds.length)).getD 0 := by
  obtain ⟨ps, h1, h2, h3⟩ := hc.table k
  by_cases hp : ps = []
  · rw [h3, if_pos hp]
    simp only [Option.map_none, Option.getD_none]
    rw [dfOf, ← GoMap.length_keysWhere]
    rw [List.length_eq_zero_iff, List.eq_nil_iff_forall_not_mem]
    intro d hd
    obtain ⟨doc, e1, e2⟩ := (GoMap.mem_keysWhere _ _ _).1 hd
    simp only [DocIndex.keys, List.contains_iff_mem, List.mem_map] at e2
    obtain ⟨kw, e2, e3⟩ := e2
    have := (h2 ⟨d, kw.frequency, kw.starts⟩).2 ⟨doc, kw, e1, e2, e3, rfl, rfl⟩
    rw [hp] at this
    simp at this
  · rw [h3, if_neg hp]
    have : RowOk s.opts.indexType known k (mkRow s.opts.indexType ps) := ⟨ps, h1, hp, h2, rfl⟩
    simp only [Option.map_some, Option.getD_some]
    exact this.length.symm

/-- What a search of a shard sees, with the states the index went through. -/
theorem search_during_calls (hk : c.KeysOk) {so : Sorter} (hso : SortOk so) {o : IndexerOpts}
    {db : Fin c.stores → List (Str × D)} {as : List (FAct c.toPipeSize D)} {st : Fine c}
    (h : (Fine.start c o db).run so as = some st) (hc : (Fine.start c o db).NoClash so as)
    (s : Fin c.shards) (hd : (st.shard s).dead = false) (log2 : Rat → Rat) :
    ∃ tr, Trace (st.pipe.idxLog s) tr ∧ Followed so o (st.pipe.idxLog s) tr ∧ ∃ vis, st.SeesNow s (tr (st.pipe.idxLog s).length) vis ∧
      ∀ (tokens labels : List Str) (docIds : Option (List Str)), (o.indexType = .locs → tokens ≠ []) →
        ∃ docs, (st.shard s).ix.lookup log2 tokens labels docIds false = some (docs, docs.length) ∧
          (docs.map (·.docId)).Pairwise (· > ·) ∧
          (∀ d, d ∈ docs.map (·.docId) ↔ Matches vis docIds (tokens ++ labels) d) ∧
          ∃ n avg df, st.Stats s n avg df ∧ ∀ x ∈ docs, ∃ doc, vis x.docId = some doc ∧
            x = expectedDoc log2 o.init n avg df tokens doc := by
  have hV := vinv_run hk hso as (finv_start so o db) (vinv_start so o db) hc h
  obtain ⟨base, a, r, kb, known, tr, hS⟩ := hV s hd
  refine ⟨tr, hS.trace, hS.each, _, hS.sees, fun tokens labels docIds ht => ?_⟩
  have hinit : (st.shard s).ix.opts = o.init := by
    obtain ⟨e, _⟩ := run_inv hso o _ (log_ok hk (finv_run hso as (finv_start so o db) hc h).reach s) _ hS.rel.log
    rw [hS.rel.rel.opts, e]
  have hopts : (st.shard s).ix.opts.indexType = o.indexType := by
    rw [hinit]; unfold IndexerOpts.init; split <;> rfl
  obtain ⟨L, h1, _⟩ := lookup_spec log2 hS.w.core tokens labels docIds false (by rw [hopts]; exact ht)
  obtain ⟨e1, e2, e3, e4⟩ := lookup_returns log2 hS.w.core tokens labels docIds _ h1
  refine ⟨_, ?_, e2, e3, _, _, _, ⟨rfl, rfl, dfOf_table hS.w.core⟩, fun x hx => by rw [← hinit]; exact e4 x hx⟩
  rw [h1, ← e1]

/-- **C62** (partial: on no shard does a refresh overlap a removal) At every moment of a run, with
calls in progress or not, a plain search of a shard finds exactly the matching documents of the
index after the calls that have returned (`tr` follows those calls), except that documents that
are being changed at this moment may be missing; every entry is computed from the visible version
of its document and the shard's statistics of this moment (`Fine.Stats`; what they are after a Flush: C95). Missing: the exception (`C62_refuted`), and refreshes that overlap a removal. -/
theorem C62_search_during_calls_partial (hk : c.KeysOk) {so : Sorter} (hso : SortOk so) {o : IndexerOpts}
    {db : Fin c.stores → List (Str × D)} {as : List (FAct c.toPipeSize D)} {st : Fine c}
    (h : (Fine.start c o db).run so as = some st) (hc : (Fine.start c o db).NoClash so as)
    (s : Fin c.shards) (hd : (st.shard s).dead = false) (log2 : Rat → Rat) :
    ∃ tr, Trace (st.pipe.idxLog s) tr ∧ ∃ vis, st.SeesNow s (tr (st.pipe.idxLog s).length) vis ∧
      ∀ (tokens labels : List Str) (docIds : Option (List Str)), (o.indexType = .locs → tokens ≠ []) →
        ∃ docs, (st.shard s).ix.lookup log2 tokens labels docIds false = some (docs, docs.length) ∧
          (docs.map (·.docId)).Pairwise (· > ·) ∧
          (∀ d, d ∈ docs.map (·.docId) ↔ Matches vis docIds (tokens ++ labels) d) ∧
          ∃ n avg df, st.Stats s n avg df ∧ ∀ x ∈ docs, ∃ doc, vis x.docId = some doc ∧
            x = expectedDoc log2 o.init n avg df tokens doc := by
  obtain ⟨tr, h1, _, h2⟩ := search_during_calls hk hso h hc s hd log2
  exact ⟨tr, h1, h2⟩

/-- A settled document that no call in progress is about is visible in its last version. -/
theorem vis_untouched {st : Fine c} {s : Fin c.shards} {tr : Nat → AbsIndex} {vis : Str → Option DocIndex}
    (htr : Trace (st.pipe.idxLog s) tr) (hv : st.SeesNow s (tr (st.pipe.idxLog s).length) vis) {d : Str}
    (hdis : DocDisciplined d (st.pipe.idxLog s)) (hset : Settled d (st.pipe.idxLog s)) (hu : st.Untouched s d) :
    vis d = ideal (st.pipe.idxLog s) d := by
  have hp := hset.no_pend htr
  rw [← (htr.doc_ideal hdis).2 hp]
  rcases hv d with e | ⟨_, ⟨hr, f, hf⟩ | ⟨hr, ⟨op, ho, hid⟩ | ⟨x, hx⟩⟩⟩
  · exact e
  · exact absurd hf (hu.1 hr f)
  · exact absurd hid (hu.2 (by intro e; rw [e] at hr; simp [AddPC.refreshing] at hr) op ho)
  · exact absurd hx (hp x)

/-- **C62** (partial: on no shard does a refresh overlap a removal) Whatever is going on, a document
that no call in progress on the shard is about, and whose own calls were separated by refreshes and
are settled, is found exactly if its last version matches. -/
theorem C62_untouched_document_partial (hk : c.KeysOk) {so : Sorter} (hso : SortOk so) {o : IndexerOpts}
    {db : Fin c.stores → List (Str × D)} {as : List (FAct c.toPipeSize D)} {st : Fine c}
    (h : (Fine.start c o db).run so as = some st) (hc : (Fine.start c o db).NoClash so as)
    (s : Fin c.shards) (hd : (st.shard s).dead = false) (log2 : Rat → Rat)
    (tokens labels : List Str) (docIds : Option (List Str)) (ht : o.indexType = .locs → tokens ≠ [])
    (d : Str) (hdis : DocDisciplined d (st.pipe.idxLog s)) (hset : Settled d (st.pipe.idxLog s))
    (hu : st.Untouched s d) :
    ∃ docs n, (st.shard s).ix.lookup log2 tokens labels docIds false = some (docs, n) ∧
      (d ∈ docs.map (·.docId) ↔ Matches (ideal (st.pipe.idxLog s)) docIds (tokens ++ labels) d) := by
  obtain ⟨tr, htr, vis, hv, hall⟩ := C62_search_during_calls_partial hk hso h hc s hd log2
  obtain ⟨docs, h1, _, h2, _⟩ := hall tokens labels docIds ht
  refine ⟨docs, _, h1, ?_⟩
  have hvd := vis_untouched htr hv hdis hset hu
  rw [h2 d]
  simp only [Matches, hvd]

/-! ## A search sees one state -/

/-- The parts of an index a lookup reads. -/
def Indexer.SameTable (x y : Indexer) : Prop :=
  x.opts = y.opts ∧ x.table = y.table ∧ x.docsState = y.docsState ∧ x.docTokenLens = y.docTokenLens ∧
    x.numDocs = y.numDocs ∧ x.totalTokenLen = y.totalTokenLen

theorem Indexer.SameTable.refl (x : Indexer) : x.SameTable x := ⟨rfl, rfl, rfl, rfl, rfl, rfl⟩

theorem push_ix {st st' : CShard} {id : Str} (h : st.push id = some st') : st'.ix = st.ix := by
  obtain ⟨a, _, e⟩ := Option.map_eq_some_iff.1 h
  rw [← e]

theorem remStep_same {so : Sorter} {st : CShard} {cf : Bool} {pc : RemPC} {x : CShard × RemPC}
    (h : st.remStep so false cf pc = some x) : x.1.ix = st.ix := by
  cases pc <;> simp only [CShard.remStep, Bool.false_eq_true, if_false] at h
  · split at h
    · simp only [Option.some.injEq] at h; rw [← h]
    · simp at h
  · simp at h
  · split at h <;> simp only [Option.some.injEq] at h <;> rw [← h]
  · simp only [Option.some.injEq] at h; rw [← h]
  · simp at h
  · simp at h

theorem step_same {so : Sorter} {st st' : CShard} {x : SAct} (hr : st.readers ≠ 0)
    (hh : st.add.holdsTable = false) (h : st.step so x = some st') : st'.ix.SameTable st.ix := by
  cases x with
  | begin op =>
    simp only [CShard.step] at h
    split at h
    · simp at h
    · cases op <;> simp only at h <;> split at h <;> simp only [Option.some.injEq, reduceCtorEq] at h <;>
        rw [← h] <;> exact .refl _
  | search =>
    simp only [CShard.step] at h
    split at h
    · simp at h
    · simp only [Option.some.injEq] at h; rw [← h]; exact .refl _
  | searched =>
    simp only [CShard.step] at h
    split at h
    · simp at h
    · simp only [Option.some.injEq] at h; rw [← h]; exact .refl _
  | rem =>
    simp only [CShard.step] at h
    split at h
    · simp at h
    · unfold CShard.remWorkerStep at h
      split at h
      · simp at h
      · simp only [Option.some.injEq] at h; rw [← h]; exact .refl _
      · have e : decide (st.readers = 0 ∧ (!st.add.holdsTable) = true) = false := by simp [hr]
        rw [e] at h
        obtain ⟨y, h1, h2⟩ := Option.map_eq_some_iff.1 h
        rw [← h2]
        have := remStep_same h1
        show y.1.ix.SameTable _
        rw [this]; exact .refl _
  | add =>
    simp only [CShard.step] at h
    split at h
    · simp at h
    · unfold CShard.addStep at h
      simp only at h
      split at h
      · simp at h
      · split at h
        · simp only [Option.some.injEq] at h; rw [← h]; exact .refl _
        · rename_i ix hix
          simp only [Option.some.injEq] at h
          rw [← h]
          split at hix
          · simp only [Option.some.injEq] at hix; rw [← hix]; exact .refl _
          · split at hix
            · simp only [Option.some.injEq] at hix; rw [← hix]; exact .refl _
            · simp at hix
      · rw [if_neg hr] at h; simp at h
      · rename_i e; rw [e] at hh; simp [AddPC.holdsTable] at hh
      · rename_i e; rw [e] at hh; simp [AddPC.holdsTable] at hh
      · rename_i e; rw [e] at hh; simp [AddPC.holdsTable] at hh
      · simp only [Option.some.injEq] at h; rw [← h]; exact .refl _
      · have e : decide (st.readers = 0) = false := by simp [hr]
        rw [e] at h
        obtain ⟨y, h1, h2⟩ := Option.map_eq_some_iff.1 h
        rw [← h2]
        have := remStep_same h1
        show y.1.ix.SameTable _
        rw [this]; exact .refl _
      · rw [if_neg hr] at h; simp at h

theorem Indexer.SameTable.trans {x y z : Indexer} (h : x.SameTable y) (g : y.SameTable z) : x.SameTable z := by
  obtain ⟨a1, a2, a3, a4, a5, a6⟩ := h
  obtain ⟨b1, b2, b3, b4, b5, b6⟩ := g
  exact ⟨a1.trans b1, a2.trans b2, a3.trans b3, a4.trans b4, a5.trans b5, a6.trans b6⟩

theorem scoreDoc_same {x y : Indexer} (h : x.SameTable y) (log2 : Rat → Rat) (avg : Rat) (base : Str)
    (rows : List (KeywordIndices × Nat)) (lens : List Nat) :
    scoreDoc log2 x avg base rows lens = scoreDoc log2 y avg base rows lens := by
  obtain ⟨h1, _, _, h4, h5, _⟩ := h
  unfold scoreDoc
  rw [h1, h4, h5]

theorem lookupLoop_same {x y : Indexer} (h : x.SameTable y) (log2 : Rat → Rat) (avg : Rat) (row0 : KeywordIndices)
    (tokens : List Str) (docIds : Option (List Str)) (countOnly : Bool) (p : Nat) :
    ∀ rows acc, lookupLoop log2 x avg row0 tokens docIds countOnly p rows acc =
      lookupLoop log2 y avg row0 tokens docIds countOnly p rows acc := by
  induction p with
  | zero => intro rows acc; rfl
  | succ p ih =>
    intro rows acc
    simp only [lookupLoop, ih, scoreDoc_same h, h.2.2.1]

theorem lookup_same {x y : Indexer} (h : x.SameTable y) (log2 : Rat → Rat) (tokens labels : List Str)
    (docIds : Option (List Str)) (countOnly : Bool) (logic : Option Logic) :
    x.lookup log2 tokens labels docIds countOnly logic = y.lookup log2 tokens labels docIds countOnly logic := by
  have h1 : ∀ keywords, x.internalLookup log2 keywords tokens docIds countOnly =
      y.internalLookup log2 keywords tokens docIds countOnly := by
    intro keywords
    unfold Indexer.internalLookup
    rw [h.2.1, h.2.2.2.2.1, h.2.2.2.2.2]
    split
    · rfl
    · rfl
    · exact lookupLoop_same h log2 _ _ tokens docIds countOnly _ _ _
  have h2 : ∀ keywords l, x.logicLookup docIds countOnly keywords l = y.logicLookup docIds countOnly keywords l := by
    intro keywords l
    unfold Indexer.logicLookup
    rw [h.2.1]
  unfold Indexer.lookup
  rw [h.2.2.2.2.1]
  simp only [h1, h2]

/-- A goroutine that holds the table lock for writing excludes searches. -/
theorem step_excl {so : Sorter} {st st' : CShard} {x : SAct} (hI : st.add.holdsTable = true → st.readers = 0)
    (h : st.step so x = some st') : st'.add.holdsTable = true → st'.readers = 0 := by
  cases x with
  | begin op =>
    simp only [CShard.step] at h
    split at h
    · simp at h
    · cases op <;> simp only at h <;> split at h <;> simp only [Option.some.injEq, reduceCtorEq] at h <;>
        rw [← h] <;> first | exact hI | simp [AddPC.holdsTable]
  | search =>
    simp only [CShard.step] at h
    split at h
    · simp at h
    · rename_i hn
      simp only [Option.some.injEq] at h; rw [← h]
      intro e
      exact absurd (Or.inr e) hn
  | searched =>
    simp only [CShard.step] at h
    split at h
    · simp at h
    · simp only [Option.some.injEq] at h; rw [← h]
      intro e
      show st.readers - 1 = 0
      have := hI e
      omega
  | rem =>
    obtain h := step_rem_some h
    unfold CShard.remWorkerStep at h
    split at h
    · simp at h
    · simp only [Option.some.injEq] at h; rw [← h]; exact hI
    · obtain ⟨⟨y, pc'⟩, h1, h2⟩ := Option.map_eq_some_iff.1 h
      obtain ⟨_, e2, _, e4, _⟩ := remStep_frame h1
      rw [← h2]
      simp only [e2, e4]; exact hI
  | add =>
    obtain h := step_add_some h
    unfold CShard.addStep at h
    simp only at h
    split at h
    · simp at h
    · split at h
      · simp only [Option.some.injEq] at h; rw [← h]; exact hI
      · simp only [Option.some.injEq] at h
        rw [← h]
        simp only
        split <;> simp [AddPC.holdsTable]
    · split at h
      · rename_i hr; simp only [Option.some.injEq] at h; rw [← h]; intro _; exact hr
      · simp at h
    · simp only [Option.some.injEq] at h; rw [← h]; simp [AddPC.holdsTable]
    all_goals rename_i hadd
    · have hr : st.readers = 0 := hI (by rw [hadd]; rfl)
      split at h
      · simp only [Option.some.injEq] at h; rw [← h]; exact hI
      · split at h
        · simp only [Option.some.injEq] at h; rw [← h]; intro _; exact hr
        · split at h
          · split at h
            · simp only [Option.some.injEq] at h; rw [← h]; exact hI
            · simp only [Option.some.injEq] at h; rw [← h]; intro _; exact hr
          · simp only [Option.some.injEq] at h; rw [← h]; intro _; exact hr
    · have hr : st.readers = 0 := hI (by rw [hadd]; rfl)
      split at h
      · simp only [Option.some.injEq] at h; rw [← h]
        intro _
        unfold CShard.orDie
        split
        · rename_i heq
          obtain ⟨z, hz, rfl⟩ := Option.map_eq_some_iff.1 heq
          obtain ⟨_, _, _, _, e5⟩ := push_frame hz
          exact e5.trans hr
        · exact hr
      · simp at h
    · simp only [Option.some.injEq] at h; rw [← h]; simp [AddPC.holdsTable]
    · obtain ⟨⟨y, pc'⟩, h1, h2⟩ := Option.map_eq_some_iff.1 h
      rw [← h2]; simp [AddPC.holdsTable]
    · split at h
      · simp only [Option.some.injEq] at h; rw [← h]
        unfold CShard.orDie
        split
        · rename_i heq
          obtain ⟨z, hz, rfl⟩ := Option.map_eq_some_iff.1 heq
          simp [AddPC.holdsTable]
        · exact hI
      · simp at h

/-- What a step of an engine does to a shard. -/
theorem fine_shard_step {so : Sorter} {st st' : Fine c} {x : FAct c.toPipeSize D} (h : st.step so x = some st')
    (s : Fin c.shards) :
    st'.shard s = st.shard s ∨ ∃ y, (st.shard s).step so y = some (st'.shard s) := by
  obtain ⟨_, hs⟩ := fine_step h
  have key : ∀ (s' : Fin c.shards) (y : SAct) (z : CShard), (st.shard s').step so y = some z →
      st'.shard = update st.shard s' z →
      st'.shard s = st.shard s ∨ ∃ y, (st.shard s).step so y = some (st'.shard s) := by
    intro s' y z hz e
    rw [e]
    by_cases he : s = s'
    · subst he; right; exact ⟨y, by simp [hz]⟩
    · left; simp [update, he]
  clear h
  cases hs with
  | pipe a p h0 hp he => subst he; exact Or.inl rfl
  | beginAdd s' op y hop hn hy he => subst he; exact key s' _ y hy rfl
  | beginRem s' id f y hn hy he => subst he; exact key s' _ y hy rfl
  | add s' y hy hb he => subst he; exact key s' _ y hy rfl
  | addRet s' y p hy hb hp he => subst he; exact key s' _ y hy rfl
  | rem s' y hy hb he => subst he; exact key s' _ y hy rfl
  | remRet s' y p hy hb hp he => subst he; exact key s' _ y hy rfl
  | search s' y hy he => subst he; exact key s' _ y hy rfl
  | searched s' y hy he => subst he; exact key s' _ y hy rfl

theorem fine_excl {so : Sorter} (as : List (FAct c.toPipeSize D)) (s : Fin c.shards) : ∀ {st st' : Fine c},
    ((st.shard s).add.holdsTable = true → (st.shard s).readers = 0) → st.run so as = some st' →
    (st'.shard s).add.holdsTable = true → (st'.shard s).readers = 0 := by
  induction as with
  | nil => intro st st' hI h; simp only [Fine.run, Option.some.injEq] at h; subst h; exact hI
  | cons x l ih =>
    intro st st' hI h
    simp only [Fine.run] at h
    obtain ⟨st1, h1, h2⟩ := Option.bind_eq_some_iff.1 h
    refine ih ?_ h2
    rcases fine_shard_step h1 s with e | ⟨y, e⟩
    · rw [e]; exact hI
    · exact step_excl hI e

/-- **C62** (every schedule) A search of a shard sees one state: as long as a search is in progress
on the shard, every lookup gives the same answer, whatever the workers and other callers do. -/
theorem C62_search_sees_one_state {so : Sorter} {o : IndexerOpts} {db : Fin c.stores → List (Str × D)}
    {as bs : List (FAct c.toPipeSize D)} {st st' : Fine c} (h : (Fine.start c o db).run so as = some st)
    (s : Fin c.shards) (h' : st.run so bs = some st')
    (hr : ∀ pre st1, pre <+: bs → st.run so pre = some st1 → 0 < (st1.shard s).readers)
    (log2 : Rat → Rat) (tokens labels : List Str) (docIds : Option (List Str)) (countOnly : Bool)
    (logic : Option Logic) :
    (st'.shard s).ix.lookup log2 tokens labels docIds countOnly logic =
      (st.shard s).ix.lookup log2 tokens labels docIds countOnly logic := by
  have hI : (st.shard s).add.holdsTable = true → (st.shard s).readers = 0 :=
    fine_excl as s (by simp [Fine.start, CShard.init]) h
  refine lookup_same ?_ log2 tokens labels docIds countOnly logic
  clear h
  induction bs generalizing st with
  | nil => simp only [Fine.run, Option.some.injEq] at h'; subst h'; exact .refl _
  | cons x l ih =>
    simp only [Fine.run] at h'
    obtain ⟨st1, h1, h2⟩ := Option.bind_eq_some_iff.1 h'
    have h0 := hr [] st List.nil_prefix rfl
    have hnt : (st.shard s).add.holdsTable = false := by
      cases e : (st.shard s).add.holdsTable with
      | false => rfl
      | true => have := hI e; omega
    have hI1 : (st1.shard s).add.holdsTable = true → (st1.shard s).readers = 0 :=
      fine_excl (so := so) (st' := st1) [x] s hI (by simp [Fine.run, h1])
    have := ih h2 (fun pre st2 hp hr2 => hr (x :: pre) st2 (List.cons_prefix_cons.2 ⟨rfl, hp⟩)
      (by simp [Fine.run, h1, hr2])) hI1
    refine this.trans ?_
    rcases fine_shard_step h1 s with e | ⟨y, e⟩
    · rw [e]; exact .refl _
    · exact step_same (by omega) hnt e

/-! ## Witnesses -/

def CShard.clashB (x : CShard) : Bool := x.add.refreshing && x.rem.isSome

theorem not_clash_of_B {x : CShard} (h : x.clashB = false) : ¬ x.Clash := by
  rintro ⟨h1, h2⟩
  rw [CShard.clashB, h1, Bool.true_and] at h
  cases e : x.rem with
  | none => exact h2 e
  | some _ => rw [e] at h; simp at h

/-- A schedule with `Fine.NoClash`, by computation. -/
def Fine.noClashB {c : PipeCfg D} (so : Sorter) (st : Fine c) : List (FAct c.toPipeSize D) → Bool
  | [] => (List.finRange c.shards).all (fun s => !(st.shard s).clashB)
  | a :: l => (List.finRange c.shards).all (fun s => !(st.shard s).clashB) &&
    match st.step so a with
    | none => true
    | some st' => st'.noClashB so l

theorem noClash_of_B {so : Sorter} (as : List (FAct c.toPipeSize D)) : ∀ {st : Fine c}, st.noClashB so as = true →
    st.NoClash so as := by
  induction as with
  | nil =>
    intro st h pre st' hp hr s
    rw [List.prefix_nil.1 hp] at hr
    simp only [Fine.run, Option.some.injEq] at hr
    subst hr
    have := List.all_eq_true.1 h s (List.mem_finRange s)
    exact not_clash_of_B (by simpa using this)
  | cons a l ih =>
    intro st h pre st' hp hr s
    rw [Fine.noClashB, Bool.and_eq_true] at h
    cases pre with
    | nil =>
      simp only [Fine.run, Option.some.injEq] at hr
      subst hr
      have := List.all_eq_true.1 h.1 s (List.mem_finRange s)
      exact not_clash_of_B (by simpa using this)
    | cons b pre =>
      obtain ⟨rfl, hp'⟩ := List.cons_prefix_cons.1 hp
      simp only [Fine.run] at hr
      obtain ⟨st1, h1, h2⟩ := Option.bind_eq_some_iff.1 hr
      rw [h1] at h
      exact ih h.2 pre st' hp' h2 s

/-- Index("X", 1) and Index("Y", 2), completely. -/
def bothActs : List (FAct oneShard.toPipeSize Nat) :=
  oneStart.session insSort (fineCands _ ++ shardCands _)
    [(clientA, .index (str "X") 1 true), (clientA, .index (str "Y") 2 true)]

/-- After Index("X", 3) was called: until its add worker has released the table lock for the first
time. -/
def updateActs (st : Fine oneShard) : List (FAct oneShard.toPipeSize Nat) :=
  st.session insSort (fineCands _) [] ++ List.replicate 5 (.add theShard)

/-- What a search of the shard finds now. -/
def Fine.findsNow (st : Fine oneShard) (k : Str) : Option (List Str) :=
  idsOf ((st.shard theShard).ix.lookup (fun x => x) [k] [] none false)

def reindexX : FAct oneShard.toPipeSize Nat := .pipe (.call clientA (.index (str "X") 3 true))

/-- **C62 is false of the code** without the exception: "X" has been indexed and is being indexed
again, it was never removed. Before the second call it is found, after it it is found, but there
is a moment in between when no search finds it, neither by its old nor by its new words. ("Y",
which no call is about, is found all the time.) -/
theorem C62_refuted : ∃ (as bs cs : List (FAct oneShard.toPipeSize Nat)) (st0 st1 st2 : Fine oneShard),
    oneStart.run insSort as = some st0 ∧
    st0.findsNow (str "k1") = some [str "X"] ∧ st0.findsNow (str "k2") = some [str "Y"] ∧
    st0.run insSort (reindexX :: bs) = some st1 ∧ (st1.step insSort (.search theShard)).isSome ∧
    st1.findsNow (str "k1") = some [] ∧ st1.findsNow (str "k3") = some [] ∧ st1.findsNow (str "k2") = some [str "Y"] ∧
    st1.run insSort cs = some st2 ∧
    st2.findsNow (str "k3") = some [str "X"] ∧ st2.findsNow (str "k2") = some [str "Y"] ∧
    st2.pipe.calls.map (·.2) = [.index (str "X") 1 true, .index (str "Y") 2 true, .index (str "X") 3 true] := by
  have h : (oneStart.run insSort bothActs).any (fun st0 =>
      decide (st0.findsNow (str "k1") = some [str "X"]) && decide (st0.findsNow (str "k2") = some [str "Y"]) &&
      (st0.step insSort reindexX).any (fun st =>
        (st.run insSort (updateActs st)).any (fun st1 => (st1.step insSort (.search theShard)).isSome &&
          decide (st1.findsNow (str "k1") = some []) && decide (st1.findsNow (str "k3") = some []) &&
          decide (st1.findsNow (str "k2") = some [str "Y"]) &&
          (st1.run insSort (st1.session insSort (fineCands _ ++ shardCands _) [])).any (fun st2 =>
            decide (st2.findsNow (str "k3") = some [str "X"]) && decide (st2.findsNow (str "k2") = some [str "Y"]) &&
            decide (st2.pipe.calls.map (·.2) =
              [.index (str "X") 1 true, .index (str "Y") 2 true, .index (str "X") 3 true]))))) = true := by
    decide +kernel
  obtain ⟨st0, h0, h⟩ := (Option.any_eq_true _ _).1 h
  rw [Bool.and_eq_true] at h
  obtain ⟨e0, h⟩ := h
  obtain ⟨st, h1, h⟩ := (Option.any_eq_true _ _).1 h
  obtain ⟨st1, h2, h⟩ := (Option.any_eq_true _ _).1 h
  rw [Bool.and_eq_true] at h
  obtain ⟨e1, h⟩ := h
  obtain ⟨st2, h3, h⟩ := (Option.any_eq_true _ _).1 h
  simp only [Bool.and_eq_true, decide_eq_true_eq] at e0 e1 h
  refine ⟨_, updateActs st, _, st0, st1, st2, h0, e0.1, e0.2, ?_, e1.1.1.1, e1.1.1.2, e1.1.2, e1.2, h3, h.1.1, h.1.2, h.2⟩
  simp only [Fine.run, h1, Option.bind_some, h2]

/-- The hypotheses of the C62 theorems hold in that moment: no refresh overlaps a removal, a call is
in progress, "Y" is settled and untouched, and "X" is being changed. -/
example : ∃ (as : List (FAct oneShard.toPipeSize Nat)) (st : Fine oneShard),
    oneStart.run insSort as = some st ∧ oneStart.NoClash insSort as ∧ (st.shard theShard).dead = false ∧
    (st.shard theShard).add.refreshing = true ∧ oneShard.KeysOk ∧
    st.pipe.idxLog theShard = [.add (oneShard.docOf (str "X") 1) true, .add (oneShard.docOf (str "Y") 2) true] ∧
    st.pipe.nextIdx (.idxAdd theShard) = some (.add (oneShard.docOf (str "X") 3) true) ∧
    st.Untouched theShard (str "Y") := by
  have h : (oneStart.run insSort bothActs).any (fun st0 => (st0.step insSort reindexX).any (fun st =>
        oneStart.noClashB insSort (bothActs ++ reindexX :: updateActs st) &&
        (st.run insSort (updateActs st)).any (fun st1 => !(st1.shard theShard).dead &&
          (st1.shard theShard).add.refreshing && (st1.shard theShard).rem.isNone &&
          decide (st1.pipe.idxLog theShard =
            [.add (oneShard.docOf (str "X") 1) true, .add (oneShard.docOf (str "Y") 2) true]) &&
          decide (st1.pipe.nextIdx (.idxAdd theShard) = some (.add (oneShard.docOf (str "X") 3) true))))) = true := by
    decide +kernel
  obtain ⟨st0, h0, h⟩ := (Option.any_eq_true _ _).1 h
  obtain ⟨st, h1, h⟩ := (Option.any_eq_true _ _).1 h
  rw [Bool.and_eq_true] at h
  obtain ⟨hc, h⟩ := h
  obtain ⟨st1, h2, h⟩ := (Option.any_eq_true _ _).1 h
  simp only [Bool.and_eq_true, Bool.not_eq_true', Option.isNone_iff_eq_none, decide_eq_true_eq] at h
  obtain ⟨⟨⟨⟨e1, e2⟩, e3⟩, e4⟩, e5⟩ := h
  refine ⟨bothActs ++ reindexX :: updateActs st, st1, ?_, noClash_of_B _ hc, e1, e2, oneShard_ok.2.2, e4, e5, ?_, ?_⟩
  · rw [fine_run_append, h0]
    simp only [Option.bind_some, Fine.run, h1, h2]
  · intro hr; exact absurd e3 hr
  · intro _ op ho
    rw [e5, Option.some.injEq] at ho
    subst ho
    decide +kernel

/-! ## An update lost to the removal of another document -/

/-- Index("X", 1), Index("Y", 2), wait, then Index("X", 3) and RemoveDoc("Y") at the same time. The
remove worker is about to remove the slice `["Y"]` when the update of "X" is entered into the
removal cache over "Y" and is carried out; then the remove worker removes the slice, now `["X"]`. -/
def lostUpdate : Option (Fine oneShard) :=
  let all := fineCands _ ++ shardCands _
  let st1 := Fine.andThen insSort (some oneStart) (fun st => st.session insSort all
    [(clientA, .index (str "X") 1 true), (clientA, .index (str "Y") 2 true)])
  let st2 := Fine.andThen insSort st1 (fun st => st.session insSort (fineCands _)
    [(clientA, .index (str "X") 3 true), (clientB, .remove (str "Y") true)])
  let st3 := Fine.andThen insSort st2 (fun _ => List.replicate 4 (.rem theShard))
  let st4 := Fine.andThen insSort st3 (fun st => st.greedy insSort (fineCands _ ++ [.add theShard]) 300)
  Fine.andThen insSort st4 (fun st => st.greedy insSort all 300)

/-- **C55 is false of the code** in a second way: "X" is indexed, then updated while another document
is being removed. All calls return, all work is done, nothing panicked, and "X" is gone: no search
finds it by its old or by its new words, although no call ever removed it. -/
theorem C55_refuted_lost_update : ∃ (as : List (FAct oneShard.toPipeSize Nat)) (st : Fine oneShard),
    oneStart.run insSort as = some st ∧ st.dead = false ∧ st.Done ∧
    st.pipe.calls.map (·.2) = [.index (str "X") 1 true, .index (str "Y") 2 true, .index (str "X") 3 true,
      .remove (str "Y") true] ∧
    st.findsNow (str "k1") = some [] ∧ st.findsNow (str "k3") = some [] := by
  have h : lostUpdate.any (fun st => !st.dead && st.doneB && decide (st.pipe.calls.map (·.2) =
      [.index (str "X") 1 true, .index (str "Y") 2 true, .index (str "X") 3 true, .remove (str "Y") true]) &&
      decide (st.findsNow (str "k1") = some []) && decide (st.findsNow (str "k3") = some [])) = true := by
    decide +kernel
  obtain ⟨st, h1, h⟩ := (Option.any_eq_true _ _).1 h
  simp only [Bool.and_eq_true, Bool.not_eq_true', decide_eq_true_eq] at h
  obtain ⟨⟨⟨⟨e1, e2⟩, e3⟩, e4⟩, e5⟩ := h
  obtain ⟨as, has⟩ : ∃ as, oneStart.run insSort as = some st :=
    andThen_reach (fun _ h => andThen_reach (fun _ h => andThen_reach (fun _ h => andThen_reach
      (fun _ h => andThen_reach (fun _ h => ⟨[], by rw [← h]; rfl⟩) h) h) h) h) h1
  exact ⟨as, st, has, e1, done_of_B e2, e3, e4, e5⟩

end Riot
