import Verif.Props.Store

/-!
# Restarting with another number of store shards: C83

engine.go:191-246 (`Init` opens `StoreShards` databases, reads them all), engine.go:391 and 459, riot.go:123 (the
database of a document is `murmur(docId) % StoreShards`).
-/

namespace Riot

variable {D : Type} {c c' : PipeCfg D}

/-- Databases an engine with another configuration opens: file `m` is the file an engine with the old configuration
left, if there is one, and empty otherwise (engine.go:194-205: the name of the file is its number). -/
def ReopenedDb (c c' : PipeCfg D) (left : Fin c.stores → Str → Option D) (db' : Fin c'.stores → List (Str × D)) : Prop :=
  ∀ m' : Fin c'.stores, (∀ h : m'.val < c.stores, ListsDb (db' m') (left ⟨m'.val, h⟩)) ∧
    (c.stores ≤ m'.val → db' m' = [])

/-- The documents about `d` in one enumerated database. -/
theorem list_about (d : Str) (l : List (Str × D)) (hn : (l.map (·.1)).Nodup) :
    (l.map (fun x => Call.index x.1 x.2 false)).filter (Call.about d) =
      (listedDb l d).toList.map (fun x => Call.index d x false) := by
  induction l with
  | nil => rfl
  | cons y l ih =>
    simp only [List.map_cons, List.nodup_cons] at hn
    rw [List.map_cons, List.filter_cons]
    by_cases hy : y.1 = d
    · subst hy
      have : ((l.map (fun x => Call.index x.1 x.2 false)).filter (Call.about y.1)) = [] := by
        rw [List.filter_eq_nil_iff]
        intro b hb
        obtain ⟨z, hz, rfl⟩ := List.mem_map.1 hb
        simp only [Call.about, decide_eq_true_eq]
        intro he
        exact hn.1 (he ▸ List.mem_map.2 ⟨z, hz, rfl⟩)
      rw [this]
      simp [Call.about, listedDb]
    · have : listedDb (y :: l) d = listedDb l d := by simp [listedDb, hy]
      rw [this, ← ih hn.2]
      simp [Call.about, hy]

theorem listedDb_none_iff (l : List (Str × D)) (d : Str) : listedDb l d = none ↔ ∀ x, (d, x) ∉ l := by
  unfold listedDb
  rw [Option.map_eq_none_iff, List.find?_eq_none]
  constructor
  · intro h x hx; simpa using h _ hx
  · rintro h ⟨id, x⟩ hx
    simp only [decide_eq_true_eq]
    rintro rfl
    exact h x hx

theorem recovered_at (hs : c.useStore = true) {db : Fin c.stores → List (Str × D)} (d : Str) (m0 : Fin c.stores)
    (hn : ((db m0).map (·.1)).Nodup) (hone : ∀ m, m ≠ m0 → listedDb (db m) d = none) :
    ((c.recovered db).map (fun x => Call.index x.1 x.2 false)).filter (Call.about d) =
      (listedDb (db m0) d).toList.map (fun x => Call.index d x false) := by
  unfold PipeCfg.recovered
  rw [if_pos hs, List.map_flatMap, List.filter_flatMap,
    flatMap_one _ m0 (by
      intro m hm
      rw [List.filter_eq_nil_iff]
      intro b hb
      obtain ⟨z, hz, rfl⟩ := List.mem_map.1 hb
      simp only [Call.about, decide_eq_true_eq]
      rintro rfl
      exact (listedDb_none_iff _ _).1 (hone m hm) z.2 hz)]
  exact list_about d _ hn

theorem recovered_absent (hs : c.useStore = true) {db : Fin c.stores → List (Str × D)} (d : Str)
    (hone : ∀ m, listedDb (db m) d = none) :
    ((c.recovered db).map (fun x => Call.index x.1 x.2 false)).filter (Call.about d) = [] := by
  unfold PipeCfg.recovered
  rw [if_pos hs, List.filter_eq_nil_iff]
  intro b hb
  obtain ⟨z, hz, rfl⟩ := List.mem_map.1 hb
  obtain ⟨m, _, hz⟩ := List.mem_flatMap.1 hz
  simp only [Call.about, decide_eq_true_eq]
  rintro rfl
  exact (listedDb_none_iff _ _).1 (hone m) z.2 hz

/-- A new engine on databases of which at most one, `m0` (any one), holds `d`: after Init and a Flush, with no calls
about `d`, a plain search of a shard finds `d` exactly if `m0` holds data that is routed to this shard and has all the
keys of the request. -/
theorem restart_serves_at (hs : c.useStore = true) (hdoc : c.DocOk) (hk : c.KeysOk) {so : Sorter}
    (hso : SortOk so) (o : IndexerOpts) (db : Fin c.stores → List (Str × D))
    (d : Str) (h0 : d ≠ str "0") (r : Option D)
    (hrec : ((c.recovered db).map (fun x => Call.index x.1 x.2 false)).filter (Call.about d) =
      r.toList.map (fun x => Call.index d x false))
    (as : List (Act c.toPipeSize D)) (st st' : Pipe c)
    (hrun : (Pipe.start c db).run as = some st) (hno : NoCallAbout d as)
    (i : Fin c.clients) (hf : FlushCompletes i st st') (s : Fin c.shards) (ix : Indexer)
    (hix : (Indexer.init o).run so (st'.idxLog s) = some ix) (log2 : Rat → Rat)
    (tokens labels : List Str) (docIds : Option (List Str)) (docs : List IndexedDoc) (n : Nat)
    (hlk : ix.lookup log2 tokens labels docIds false = some (docs, n)) :
    d ∈ docs.map (·.docId) ↔ ∃ x, r = some x ∧ c.route d x = s ∧
      tokens ++ labels ≠ [] ∧ Allowed docIds d ∧ ∀ k ∈ tokens ++ labels, k ∈ (c.docOf d x).keys := by
  have hcalls : (st.calls.map (·.2)).filter (Call.about d) = [] := by
    rw [run_calls _ _ _ hrun, List.filter_eq_nil_iff]
    intro b hb
    obtain ⟨x, hx, rfl⟩ := List.mem_map.1 hb
    simp only [Pipe.start, List.nil_append] at hx
    simp [called_noabout hno x hx]
  have hlen : (((c.recovered db).map (fun x => Call.index x.1 x.2 false) ++
      st.calls.map (·.2)).filter (Call.about d)).length ≤ 1 := by
    rw [List.filter_append, hcalls, List.append_nil, hrec]
    cases r <;> simp
  have hround := Rounds.first as i st st' hrun hf hlen
  rw [C53_disciplined_content hdoc hk hso o db d h0 st' _ hround s ix hix log2 tokens labels docIds docs n hlk]
  rw [List.filter_append, hcalls, List.append_nil, hrec]
  unfold Matches
  cases hx : r with
  | none => simp [ideal]
  | some x =>
    by_cases hrt : c.route d x = s
    · have := ideal_last_index hdoc d h0 [] x false s hrt
      simp only [List.nil_append] at this
      simp only [Option.toList_some, List.map_cons, List.map_nil, this]
      simp [hrt]
    · rw [ideal_elsewhere hdoc d s _ (by
        intro id w g hm hid
        simp only [Option.toList_some, List.map_cons, List.map_nil, List.mem_singleton, Call.index.injEq] at hm
        rw [hm.2.1, hid]; exact hrt)]
      simp [hrt]

/-! ## What the old engine leaves -/

/-- **C83** (partial: the number of store shards may grow, or the file of `d` is still among those opened; shrinking it
below loses `d`, see `C83_refuted_fewer_shards`) An engine that was given documents, flushed, and ended (in any way) at
any later moment with no calls about `d` since; a new engine, with any other configuration (other sizes, other number of
index shards and store shards) on the files it left, where the file that holds `d` is among those it opens; flushed: a
plain search of an index shard finds `d` exactly if the data of the last Index(d) whose encoding succeeded (the one from
before, if there is none) is routed to this shard by the new configuration and has all the keys of the request. -/
theorem C83_more_shards_recovers_partial (hs : c.useStore = true) (hs' : c'.useStore = true) (hdoc : c'.DocOk)
    (hk : c'.KeysOk) {so : Sorter} (hso : SortOk so) (o : IndexerOpts) (db : Fin c.stores → List (Str × D))
    (hdb : DbOk c db) (d : Str) (h0 : d ≠ str "0") (as : List (Act c.toPipeSize D)) (st st' u : Pipe c)
    (hrun : (Pipe.start c db).run as = some st) (hseq : SequentialFor d (Pipe.start c db) as)
    (hrm : ∀ i f, (i, Call.remove d f) ∉ st.calls)
    (i : Fin c.clients) (hf : FlushCompletes i st st') (later : List (Act c.toPipeSize D))
    (hl : st'.run later = some u) (hno : NoCallAbout d later)
    (hopen : (c.storeRoute d).val < c'.stores)
    (db' : Fin c'.stores → List (Str × D)) (hdb' : ReopenedDb c c' (fun m => u.dbContent db m) db')
    (as' : List (Act c'.toPipeSize D)) (v v' : Pipe c') (hrun' : (Pipe.start c' db').run as' = some v)
    (hno' : NoCallAbout d as') (j : Fin c'.clients) (hf' : FlushCompletes j v v')
    (s : Fin c'.shards) (ix : Indexer)
    (hix : (Indexer.init o).run so (v'.idxLog s) = some ix) (log2 : Rat → Rat)
    (tokens labels : List Str) (docIds : Option (List Str)) (docs : List IndexedDoc) (n : Nat)
    (hlk : ix.lookup log2 tokens labels docIds false = some (docs, n)) :
    d ∈ docs.map (·.docId) ↔
      ∃ x, lastStored c d (listedDb (db (c.storeRoute d)) d) (st.calls.map (·.2)) = some x ∧
        c'.route d x = s ∧ tokens ++ labels ≠ [] ∧ Allowed docIds d ∧
        ∀ k ∈ tokens ++ labels, k ∈ (c'.docOf d x).keys := by
  have hst := fun m => C43_flushed_is_stored hs db hdb d h0 as st st' u hrun hseq hrm i hf later hl hno m
  have hm0 := (hdb' ⟨(c.storeRoute d).val, hopen⟩).1 (c.storeRoute d).isLt
  have hval : listedDb (db' ⟨(c.storeRoute d).val, hopen⟩) d =
      lastStored c d (listedDb (db (c.storeRoute d)) d) (st.calls.map (·.2)) := by
    rw [listedDb_of_lists hm0 d]
    show u.dbContent db (c.storeRoute d) d = _
    rw [hst, if_pos rfl]
  refine restart_serves_at hs' hdoc hk hso o db' d h0 _ ?_ as' v v' hrun' hno' j hf' s ix hix log2 tokens labels docIds
    docs n hlk
  rw [recovered_at hs' d ⟨(c.storeRoute d).val, hopen⟩ hm0.1 ?_, hval]
  intro m hm
  by_cases hlt : m.val < c.stores
  · rw [listedDb_of_lists ((hdb' m).1 hlt) d]
    show u.dbContent db ⟨m.val, hlt⟩ d = none
    rw [hst, if_neg]
    intro he
    have hv : m.val = (c.storeRoute d).val := congrArg Fin.val he
    exact hm (Fin.ext hv)
  · rw [(hdb' m).2 (by omega)]; rfl

/-- **C83 is false** if the file of `d` is not among those the new engine opens: whatever happened before, a new engine
with fewer store shards, flushed, with no calls about `d`, finds `d` in no search. -/
theorem C83_refuted_fewer_shards (hs' : c'.useStore = true) (hdoc : c'.DocOk)
    (hk : c'.KeysOk) {so : Sorter} (hso : SortOk so) (o : IndexerOpts) (db : Fin c.stores → List (Str × D))
    (hdb : DbOk c db) (d : Str) (h0 : d ≠ str "0") (as : List (Act c.toPipeSize D)) (u : Pipe c)
    (hrun : (Pipe.start c db).run as = some u)
    (hclosed : c'.stores ≤ (c.storeRoute d).val)
    (db' : Fin c'.stores → List (Str × D)) (hdb' : ReopenedDb c c' (fun m => u.dbContent db m) db')
    (as' : List (Act c'.toPipeSize D)) (v v' : Pipe c') (hrun' : (Pipe.start c' db').run as' = some v)
    (hno' : NoCallAbout d as') (j : Fin c'.clients) (hf' : FlushCompletes j v v')
    (s : Fin c'.shards) (ix : Indexer)
    (hix : (Indexer.init o).run so (v'.idxLog s) = some ix) (log2 : Rat → Rat)
    (tokens labels : List Str) (docIds : Option (List Str)) (docs : List IndexedDoc) (n : Nat)
    (hlk : ix.lookup log2 tokens labels docIds false = some (docs, n)) :
    d ∉ docs.map (·.docId) := by
  have hnone : ∀ m, listedDb (db' m) d = none := by
    intro m
    by_cases hlt : m.val < c.stores
    · rw [listedDb_of_lists ((hdb' m).1 hlt) d]
      refine dbContent_elsewhere hdb ⟨as, hrun⟩ ?_
      intro he
      have := congrArg Fin.val he
      simp only at this
      have := m.isLt
      omega
    · rw [(hdb' m).2 (by omega)]; rfl
  rw [restart_serves_at hs' hdoc hk hso o db' d h0 none (by rw [recovered_absent hs' d hnone]; rfl) as' v v' hrun' hno' j
    hf' s ix hix log2 tokens labels docIds docs n hlk]
  simp

/-- The database operations of an engine on file `m` never touch a document whose file, by its configuration, is
another. -/
theorem dbContent_untouched {db : Fin c.stores → List (Str × D)} {u : Pipe c} (hr : Reach db u) (m : Fin c.stores)
    (d : Str) (hm : c.storeRoute d ≠ m) : u.dbContent db m d = listedDb (db m) d := by
  unfold Pipe.dbContent
  have hall : ∀ op ∈ u.dbLog m, ∀ f : Str → Option D, dbStep f op d = f d := by
    intro op hop f
    have hi := db_mem hr m hop
    obtain ⟨⟨i, a⟩, _, ha⟩ := List.mem_flatMap.1 hi
    cases a with
    | index id x g =>
      simp only [PipeCfg.callDb] at ha
      split at ha
      · rename_i hc
        simp only [List.mem_singleton] at ha
        subst ha
        have : d ≠ id := by rintro rfl; exact hm hc.2.2.1
        simp [dbStep, this]
      · simp at ha
    | remove id g =>
      simp only [PipeCfg.callDb] at ha
      split at ha
      · rename_i hc
        simp only [List.mem_singleton] at ha
        subst ha
        have : d ≠ id := by rintro rfl; exact hm hc.2.2
        simp [dbStep, this]
      · simp at ha
    | flush => simp [PipeCfg.callDb] at ha
  generalize listedDb (db m) = f
  generalize u.dbLog m = ops at hall
  induction ops generalizing f with
  | nil => rfl
  | cons op ops ih =>
    have h1 := ih (dbStep f op) (fun o ho => hall o (by simp [ho]))
    have h2 : dbApply f (op :: ops) = dbApply (dbStep f op) ops := rfl
    rw [h2, h1, hall op (by simp)]

/-- **C83 is false** for removals after the number of store shards was changed: if a file holds `d` and the new
configuration puts `d` in another file, then in every run of the new engine, with any calls at all (any number of
RemoveDoc(d), Index(d), Flush), the file goes on holding that old version of `d`: RemoveDoc(d) does not remove it,
Index(d) does not replace it, and the next restart indexes it again. HasDocDB(d) looks in the other file only: it is
false as long as Index(d) is not called. -/
theorem C83_refuted_removed_comes_back (db' : Fin c'.stores → List (Str × D)) (d : Str) (x : D) (m : Fin c'.stores)
    (hn : ((db' m).map (·.1)).Nodup) (hx : (d, x) ∈ db' m) (hm : c'.storeRoute d ≠ m)
    (as : List (Act c'.toPipeSize D)) (u : Pipe c') (hrun : (Pipe.start c' db').run as = some u) :
    u.dbContent db' m d = some x ∧
    (∀ db'' : Fin c'.stores → List (Str × D), (∀ k, ListsDb (db'' k) (u.dbContent db' k)) → c'.useStore = true →
      (d, x) ∈ c'.recovered db'') ∧
    ((∀ i y f, (i, Call.index d y f) ∉ u.calls) → (∀ y, (d, y) ∉ db' (c'.storeRoute d)) → u.hasDocDB db' d = false) := by
  have hr : Reach db' u := ⟨as, hrun⟩
  have h1 : u.dbContent db' m d = some x := by
    rw [dbContent_untouched hr m d hm]
    exact ((listedDb_lists hn).2 d x).1 hx
  refine ⟨h1, ?_, ?_⟩
  · intro db'' hl hs
    unfold PipeCfg.recovered
    rw [if_pos hs, List.mem_flatMap]
    exact ⟨m, List.mem_finRange m, ((hl m).2 d x).2 h1⟩
  · intro hno hempty
    unfold Pipe.hasDocDB
    rcases C43_crash_whole_documents db' as u hrun (c'.storeRoute d) d with h | ⟨i, y, f, h, _⟩ | ⟨h, _⟩
    · rw [h, (listedDb_none_iff _ _).2 hempty]; rfl
    · exact absurd h (hno i y f)
    · rw [h]; rfl

/-- **C83 is false** for removals, seen from the next restart: file `m` alone holds `d`, the configuration puts `d` in
another file; an engine runs on these files, with any calls except Index(d), in particular with RemoveDoc(d) and Flush
as often as wanted, and ends; a new engine with the same configuration, flushed, with no calls about `d`, finds `d`
again, with the old data. -/
theorem C83_refuted_removed_found_again (hs : c'.useStore = true) (hdoc : c'.DocOk) (hk : c'.KeysOk) {so : Sorter}
    (hso : SortOk so) (o : IndexerOpts) (db' : Fin c'.stores → List (Str × D)) (d : Str) (h0 : d ≠ str "0") (x : D)
    (m : Fin c'.stores) (hn : ((db' m).map (·.1)).Nodup) (hx : (d, x) ∈ db' m) (hm : c'.storeRoute d ≠ m)
    (hother : ∀ k, k ≠ m → ∀ y, (d, y) ∉ db' k)
    (as : List (Act c'.toPipeSize D)) (u : Pipe c') (hrun : (Pipe.start c' db').run as = some u)
    (hnoidx : ∀ i y f, (i, Call.index d y f) ∉ u.calls)
    (db'' : Fin c'.stores → List (Str × D)) (hl : ∀ k, ListsDb (db'' k) (u.dbContent db' k))
    (as' : List (Act c'.toPipeSize D)) (v v' : Pipe c') (hrun' : (Pipe.start c' db'').run as' = some v)
    (hno' : NoCallAbout d as') (j : Fin c'.clients) (hf' : FlushCompletes j v v')
    (ix : Indexer) (hix : (Indexer.init o).run so (v'.idxLog (c'.route d x)) = some ix) (log2 : Rat → Rat)
    (tokens labels : List Str) (docIds : Option (List Str)) (docs : List IndexedDoc) (n : Nat)
    (hlk : ix.lookup log2 tokens labels docIds false = some (docs, n)) (hne : tokens ++ labels ≠ [])
    (hal : Allowed docIds d) (hkeys : ∀ k ∈ tokens ++ labels, k ∈ (c'.docOf d x).keys) :
    d ∈ docs.map (·.docId) := by
  have hback := C83_refuted_removed_comes_back db' d x m hn hx hm as u hrun
  have hval : listedDb (db'' m) d = some x := by rw [listedDb_of_lists (hl m) d, hback.1]
  rw [restart_serves_at hs hdoc hk hso o db'' d h0 (some x) ?_ as' v v' hrun' hno' j hf' _ ix hix log2 tokens labels
    docIds docs n hlk]
  · exact ⟨x, rfl, rfl, hne, hal, hkeys⟩
  · rw [recovered_at hs d m (hl m).1 ?_, hval]
    intro k hkm
    rw [listedDb_of_lists (hl k) d]
    rcases C43_crash_whole_documents db' as u hrun k d with h | ⟨i, y, f, h, _⟩ | ⟨h, _⟩
    · rw [h]; exact (listedDb_none_iff _ _).2 (hother k hkm)
    · exact absurd h (hnoidx i y f)
    · exact h

/-! ## Witnesses -/

/-- The engine of `storePipe` with one store shard instead of two. -/
def onePipe : PipeCfg Nat := demoPipe 1 2 1 (by decide) (by decide) true

/-- The engine of `storePipe` with three store shards. -/
def threePipe : PipeCfg Nat := demoPipe 1 2 3 (by decide) (by decide) true

/-- The files of `leftDb` opened with three store shards. -/
def leftDb3 : Fin threePipe.stores → List (Str × Nat) := fun m =>
  if m.val = 1 then [(str "1", 9)] else if m.val = 0 then [(str "22", 4)] else []

/-- The files of `leftDb` opened with one store shard. -/
def leftDb1 : Fin onePipe.stores → List (Str × Nat) := fun _ => [(str "22", 4)]

theorem reopened3 (left : Fin storePipe.stores → Str → Option Nat) (h : ∀ m, ListsDb (leftDb m) (left m)) :
    ReopenedDb storePipe threePipe left leftDb3 := by
  intro m
  constructor
  · intro hlt
    have := h ⟨m.val, hlt⟩
    have he : leftDb3 m = leftDb ⟨m.val, hlt⟩ := by
      unfold leftDb3 leftDb
      have h2 : m.val < 2 := hlt
      by_cases h1 : m.val = 1
      · simp [h1, db1]
      · have : m.val = 0 := by omega
        simp [this, db1]
    rw [he]; exact this
  · intro hle
    have : 2 ≤ m.val := hle
    unfold leftDb3
    rw [if_neg (by omega), if_neg (by omega)]

theorem reopened1 (left : Fin storePipe.stores → Str → Option Nat) (h : ∀ m, ListsDb (leftDb m) (left m)) :
    ReopenedDb storePipe onePipe left leftDb1 := by
  intro m
  have h1 : m.val = 0 := by have : m.val < 1 := m.isLt; omega
  constructor
  · intro hlt
    have := h ⟨m.val, hlt⟩
    have he : leftDb1 m = leftDb ⟨m.val, hlt⟩ := by
      unfold leftDb1 leftDb
      simp [h1, db1]
    rw [he]; exact this
  · intro hle
    have : 2 ≤ m.val := hle
    omega

def three0 : Fin threePipe.clients := ⟨0, by decide⟩
def one0 : Fin onePipe.clients := ⟨0, by decide⟩

/-- An engine with two store shards, its files, and the hypotheses of `C83_more_shards_recovers_partial` and
`C83_refuted_fewer_shards`: with three store shards both documents are found, with one the document "1" is not. -/
example : ∃ (as : List (Act storePipe.toPipeSize Nat)) (st st' : Pipe storePipe)
      (as3 : List (Act threePipe.toPipeSize Nat)) (v v' : Pipe threePipe)
      (as1 : List (Act onePipe.toPipeSize Nat)) (w w' : Pipe onePipe),
    (Pipe.start storePipe (fun _ => [])).run as = some st ∧
    SequentialFor (str "1") (Pipe.start storePipe (fun _ => [])) as ∧
    (∀ i f, (i, Call.remove (str "1") f) ∉ st.calls) ∧ FlushCompletes sclient st st' ∧
    (storePipe.storeRoute (str "1")).val < threePipe.stores ∧ onePipe.stores ≤ (storePipe.storeRoute (str "1")).val ∧
    ReopenedDb storePipe threePipe (fun m => st'.dbContent (fun _ => []) m) leftDb3 ∧
    ReopenedDb storePipe onePipe (fun m => st'.dbContent (fun _ => []) m) leftDb1 ∧
    (Pipe.start threePipe leftDb3).run as3 = some v ∧ NoCallAbout (str "1") as3 ∧ FlushCompletes three0 v v' ∧
    v'.findKey ⟨1, by decide⟩ "k9" = some [str "1"] ∧ v'.findKey ⟨0, by decide⟩ "k4" = some [str "22"] ∧
    (Pipe.start onePipe leftDb1).run as1 = some w ∧ NoCallAbout (str "1") as1 ∧ FlushCompletes one0 w w' ∧
    w'.findKey ⟨1, by decide⟩ "k9" = some [] ∧ w'.findKey ⟨0, by decide⟩ "k4" = some [str "22"] := by
  let as := (Pipe.start storePipe (fun _ => [])).session (demoActs _) storedCalls
  have h : ((Pipe.start storePipe (fun _ => [])).run as).any (fun st =>
      decide (st.calls = storedCalls) &&
      (st.flushBy sclient (st.flushSched (demoActs _) sclient)).any (fun st' =>
        decide (∀ m, st'.dbLog m = if m = db1 then [.set (str "1") 7, .set (str "1") 9] else [.set (str "22") 4])))
      = true := by decide +kernel
  let as3 := (Pipe.start threePipe leftDb3).session (demoActs _) []
  have h3 : ((Pipe.start threePipe leftDb3).run as3).any (fun v =>
      as3.all (fun a => !a.isCall) &&
      (v.flushBy three0 (v.flushSched (demoActs _) three0)).any (fun v' =>
        decide (v'.findKey ⟨1, by decide⟩ "k9" = some [str "1"] ∧ v'.findKey ⟨0, by decide⟩ "k4" = some [str "22"])))
      = true := by decide +kernel
  let as1 := (Pipe.start onePipe leftDb1).session (demoActs _) []
  have h1 : ((Pipe.start onePipe leftDb1).run as1).any (fun v =>
      as1.all (fun a => !a.isCall) &&
      (v.flushBy one0 (v.flushSched (demoActs _) one0)).any (fun v' =>
        decide (v'.findKey ⟨1, by decide⟩ "k9" = some [] ∧ v'.findKey ⟨0, by decide⟩ "k4" = some [str "22"])))
      = true := by decide +kernel
  obtain ⟨st, hst, hp⟩ := (Option.any_eq_true _ _).1 h
  simp only [Bool.and_eq_true, decide_eq_true_eq] at hp
  obtain ⟨st', hst', hp'⟩ := (Option.any_eq_true _ _).1 hp.2
  obtain ⟨v, hv, hq⟩ := (Option.any_eq_true _ _).1 h3
  simp only [Bool.and_eq_true] at hq
  obtain ⟨v', hv', hq'⟩ := (Option.any_eq_true _ _).1 hq.2
  obtain ⟨w, hw, hz⟩ := (Option.any_eq_true _ _).1 h1
  simp only [Bool.and_eq_true] at hz
  obtain ⟨w', hw', hz'⟩ := (Option.any_eq_true _ _).1 hz.2
  have hleft : ∀ m, ListsDb (leftDb m) (st'.dbContent (fun _ => []) m) := by
    intro m
    have := of_decide_eq_true hp' m
    exact lists_left _ m (by unfold Pipe.dbContent; rw [this])
  have hno : ∀ {z : PipeSize} (l : List (Act z Nat)), l.all (fun a => !a.isCall) = true → NoCallAbout (str "1") l := by
    intro z l hl i b hm
    have := List.all_eq_true.1 hl _ hm
    simp [Act.isCall] at this
  have q3 := of_decide_eq_true hq'
  have q1 := of_decide_eq_true hz'
  refine ⟨as, st, st', as3, v, v', as1, w, w', hst, sequential_one rfl _ _ _ _ hst, ?_, flushBy_completes hst',
    by decide +kernel, by decide +kernel, reopened3 _ hleft, reopened1 _ hleft, hv, hno _ hq.1, flushBy_completes hv',
    q3.1, q3.2, hw, hno _ hz.1, flushBy_completes hw', q1.1, q1.2⟩
  intro i f; rw [hp.1]; simp [storedCalls]

/-- The files of an engine with one store shard, opened with two. -/
def oldDb : Fin storePipe.stores → List (Str × Nat) := fun m => if m = db0 then [(str "1", 9)] else []

/-- The hypotheses of `C83_refuted_removed_comes_back` are met: an engine with two store shards on the file left by
an engine with one. RemoveDoc("1") and Flush: a search does not find "1" any more, and a new engine on the same files, which by the theorem
the engine has not changed, finds it again. -/
example : (str "1", 9) ∈ oldDb db0 ∧ storePipe.storeRoute (str "1") ≠ db0 ∧
    ∃ (as : List (Act storePipe.toPipeSize Nat)) (u u' : Pipe storePipe),
      (Pipe.start storePipe oldDb).run as = some u ∧ FlushCompletes sclient u u' ∧
      (sclient, Call.remove (str "1") true) ∈ u'.calls ∧ u'.findKey sshard1 "k9" = some [] ∧
    ((Pipe.start storePipe oldDb).round (demoActs _) sclient []).any
      (fun v' => decide (v'.findKey sshard1 "k9" = some [str "1"])) = true := by
  refine ⟨by decide +kernel, by decide +kernel, ?_⟩
  have hagain : ((Pipe.start storePipe oldDb).round (demoActs _) sclient []).any
      (fun v' => decide (v'.findKey sshard1 "k9" = some [str "1"])) = true := by decide +kernel
  have h : ((Pipe.start storePipe oldDb).round (demoActs _) sclient []).any (fun u0 =>
      (u0.run (u0.session (.bg 0 :: demoActs _) [(sclient, Call.remove (str "1") true)])).any (fun u =>
        (u.flushBy sclient (u.flushSched (.bg 0 :: demoActs _) sclient)).any (fun u' =>
          decide ((sclient, Call.remove (str "1") true) ∈ u'.calls ∧ u'.findKey sshard1 "k9" = some [])))) = true := by
    decide +kernel
  obtain ⟨u0, hu0, hp⟩ := (Option.any_eq_true _ _).1 h
  obtain ⟨u, hu, hp⟩ := (Option.any_eq_true _ _).1 hp
  obtain ⟨u', hu', hp⟩ := (Option.any_eq_true _ _).1 hp
  obtain ⟨w, hw, hfl⟩ := Option.bind_eq_some_iff.1 hu0
  have hc := flushBy_completes hfl
  obtain ⟨_, w1, bs, e1, _, e2, _⟩ := hc
  refine ⟨(Pipe.start storePipe oldDb).session (demoActs _) [] ++ (Act.call sclient .flush :: bs ++
      u0.session (.bg 0 :: demoActs _) [(sclient, Call.remove (str "1") true)]), u, u', ?_, flushBy_completes hu',
    (of_decide_eq_true hp).1, (of_decide_eq_true hp).2, hagain⟩
  · rw [run_append, hw]
    show w.run (Act.call sclient .flush :: (bs ++ _)) = some u
    simp only [Pipe.run, e1, Option.bind_some]
    rw [run_append, e2]
    exact hu

end Riot
