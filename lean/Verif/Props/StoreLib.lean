import Verif.Model.StoreLib
import Verif.Props.Backends
import Verif.Props.Store

/-!
# C90: the engine on the bundled store libraries
-/

namespace Riot

variable {D : Type} {c : PipeCfg D}

theorem storeInitReads_eq (dec : Str → Option D) (m : Store.Db) :
    storeInitReads dec m = (Store.cursor m).filterMap (fun p => (dec p.2).map (fun x => (p.1, x))) := by
  have : ∀ (l : List (Str × Str)) (acc : List (Str × D)),
      Store.visit (storeInitFn dec) l acc = (acc ++ l.filterMap (fun p => (dec p.2).map (fun x => (p.1, x))), none) := by
    intro l
    induction l with
    | nil => intro acc; simp [Store.visit]
    | cons p l ih =>
      intro acc
      obtain ⟨k, v⟩ := p
      simp only [Store.visit, storeInitFn]
      cases h : dec v with
      | none => simp only [List.filterMap_cons, h, Option.map_none]; exact ih acc
      | some x => simp only [List.filterMap_cons, h, Option.map_some]; rw [ih]; simp
  unfold storeInitReads Store.forEach
  rw [this]
  simp

/-- The file follows the operations on a key, if the library accepts them. -/
theorem file_run {dec : Str → Option D} {enc : D → Str} {b : Store.Lib} (k : Str) (ops : List (DbOp D)) :
    ∀ {m : Store.Db} {f : Str → Option D}, (m.get k).map dec = (f k).map some →
      (∀ x, DbOp.set k x ∈ ops → dec (enc x) = some x ∧ b.setErr k (enc x) = none) →
      (DbOp.del k ∈ ops → b.delErr k = none) →
      ((Store.run b m (ops.map (DbOp.onLib enc))).1.get k).map dec = (dbApply f ops k).map some := by
  induction ops with
  | nil => intro m f h _ _; exact h
  | cons op ops ih =>
    intro m f h h1 h2
    simp only [List.map_cons, Store.run]
    refine ih (f := dbStep f op) ?_ (fun x hm => h1 x (List.mem_cons_of_mem _ hm))
      (fun hm => h2 (List.mem_cons_of_mem _ hm))
    cases op with
    | set id x =>
      simp only [DbOp.onLib, Store.call, Store.set, dbStep]
      by_cases hk : k = id
      · subst hk
        obtain ⟨hd, he⟩ := h1 x List.mem_cons_self
        simp [he, hd]
      · cases b.setErr id (enc x) with
        | none => simp only [GoMap.get_set, hk, if_false]; exact h
        | some e => simp only [hk, if_false]; exact h
    | del id =>
      simp only [DbOp.onLib, Store.call, Store.delete, dbStep]
      by_cases hk : k = id
      · subst hk
        have he := h2 List.mem_cons_self
        simp [he, GoMap.get_del]
      · cases b.delErr id with
        | none => simp only [GoMap.get_del, hk, if_false]; exact h
        | some e => simp only [hk, if_false]; exact h

/-- A file holds only what it held, or what was written to it, whether or not the library accepted everything. -/
theorem file_origin {enc : D → Str} {b : Store.Lib} (ops : List (DbOp D)) (m : Store.Db) (k v : Str)
    (h : (Store.run b m (ops.map (DbOp.onLib enc))).1.get k = some v) :
    m.get k = some v ∨ ∃ x, DbOp.set k x ∈ ops ∧ v = enc x ∧ b.setErr k v = none := by
  induction ops generalizing m with
  | nil => exact Or.inl h
  | cons op ops ih =>
    simp only [List.map_cons, Store.run] at h
    rcases ih _ h with h | ⟨x, hx, hv⟩
    · cases op with
      | set id x =>
        simp only [DbOp.onLib, Store.call, Store.set] at h
        cases he : b.setErr id (enc x) with
        | none =>
          rw [he] at h
          simp only [GoMap.get_set] at h
          by_cases hk : k = id
          · subst hk
            rw [if_pos rfl] at h
            cases h
            exact Or.inr ⟨x, List.mem_cons_self, rfl, he⟩
          · rw [if_neg hk] at h; exact Or.inl h
        | some e => rw [he] at h; exact Or.inl h
      | del id =>
        simp only [DbOp.onLib, Store.call, Store.delete] at h
        cases he : b.delErr id with
        | none =>
          rw [he] at h
          simp only [GoMap.get_del] at h
          by_cases hk : k = id
          · rw [if_pos hk] at h; cases h
          · rw [if_neg hk] at h; exact Or.inl h
        | some e => rw [he] at h; exact Or.inl h
    · exact Or.inr ⟨x, List.mem_cons_of_mem _ hx, hv⟩

theorem reads_mem {dec : Str → Option D} {m : Store.Db} {k : Str} {x : D} :
    (k, x) ∈ storeInitReads dec m ↔ ∃ v, m.get k = some v ∧ dec v = some x := by
  rw [storeInitReads_eq, List.mem_filterMap]
  constructor
  · rintro ⟨⟨k', v⟩, hk, he⟩
    rw [Store.cursor_mem] at hk
    obtain ⟨y, hy, he⟩ := Option.map_eq_some_iff.1 he
    simp only [Prod.mk.injEq] at he
    obtain ⟨rfl, rfl⟩ := he
    exact ⟨v, hk, hy⟩
  · rintro ⟨v, hk, hv⟩
    exact ⟨(k, v), (Store.cursor_mem m _).2 hk, by simp [hv]⟩

theorem reads_nodup (dec : Str → Option D) (m : Store.Db) : ((storeInitReads dec m).map (·.1)).Nodup := by
  rw [storeInitReads_eq]
  have hn : ((Store.cursor m).map (·.1)).Nodup :=
    ((List.perm_insertionSort _ _).map _).nodup_iff.2 m.nodup
  have hs : ∀ (l : List (Str × Str)), ((l.filterMap (fun p => (dec p.2).map (fun x => (p.1, x)))).map (·.1)).Sublist
      (l.map (·.1)) := by
    intro l
    induction l with
    | nil => simp
    | cons p l ih =>
      rw [List.filterMap_cons]
      cases hd : dec p.2 with
      | none => simp only [Option.map_none, List.map_cons]; exact ih.cons _
      | some x => simp only [Option.map_some, List.map_cons]; exact ih.cons_cons _
  exact hn.sublist (hs _)

theorem reads_listed (dec : Str → Option D) (m : Store.Db) (k : Str) :
    listedDb (storeInitReads dec m) k = (m.get k).bind dec := by
  refine listedDb_of_lists (f := fun k => (m.get k).bind dec) ⟨reads_nodup dec m, fun id x => ?_⟩ k
  rw [reads_mem, Option.bind_eq_some_iff]

/-- The database files of engines with the options `c` on the library `b`, after any number of lives: an engine is started on the
files the earlier one left, is called, and ends in any way at any moment. `calls` are all calls of all lives. -/
inductive Lives (b : Store.Lib) (enc : D → Str) (dec : Str → Option D) (c : PipeCfg D) :
    (Fin c.stores → Store.Db) → List (Call D) → Prop
  | new : Lives b enc dec c (fun _ => .empty) []
  | live {files : Fin c.stores → Store.Db} {calls : List (Call D)} {as : List (Act c.toPipeSize D)} {st : Pipe c} :
      Lives b enc dec c files calls →
      (Pipe.start c (fun m => storeInitReads dec (files m))).run as = some st →
      Lives b enc dec c (libAfter b enc files st) (calls ++ st.calls.map (·.2))

theorem Lives.origin {b : Store.Lib} {enc : D → Str} {dec : Str → Option D} {files : Fin c.stores → Store.Db}
    {calls : List (Call D)} (h : Lives b enc dec c files calls) (m : Fin c.stores) (k v : Str) (hv : (files m).get k = some v) :
    c.storeRoute k = m ∧ k ≠ str "0" ∧ b.setErr k v = none ∧
      ∃ x f, v = enc x ∧ c.encodes x = true ∧ Call.index k x f ∈ calls := by
  induction h with
  | new => simp [GoMap.get_empty] at hv
  | live hl hrun ih =>
    rcases file_origin _ _ k v hv with h | ⟨x, hx, h1, h2⟩
    · obtain ⟨h1, h2, h3, x, f, h4, h5, h6⟩ := ih h
      exact ⟨h1, h2, h3, x, f, h4, h5, List.mem_append_left _ h6⟩
    · obtain ⟨_, g1, g2, g3, i, f, g4⟩ := db_mem_set ⟨_, hrun⟩ hx
      exact ⟨g2, g1, h2, x, f, h1, g3, List.mem_append_right _ (List.mem_map.2 ⟨_, g4, rfl⟩)⟩

/-- **C90** On every library, whatever was called in any number of lives and however each of them ended: what the next engine reads
from the database of a store shard are whole documents, each once, each given to Index under this id in some life (and never the
id "0"), and the id belongs to this shard. -/
theorem C90_only_given_documents {b : Store.Lib} {enc : D → Str} {dec : Str → Option D}
    (hdec : ∀ x, c.encodes x = true → dec (enc x) = some x) {files : Fin c.stores → Store.Db} {calls : List (Call D)}
    (h : Lives b enc dec c files calls) (m : Fin c.stores) :
    ((storeInitReads dec (files m)).map (·.1)).Nodup ∧
    ∀ (d : Str) (x : D), (d, x) ∈ storeInitReads dec (files m) →
      d ≠ str "0" ∧ c.storeRoute d = m ∧ c.encodes x = true ∧ ∃ f, Call.index d x f ∈ calls := by
  refine ⟨reads_nodup _ _, fun d x hx => ?_⟩
  obtain ⟨v, hv, hd⟩ := reads_mem.1 hx
  obtain ⟨h1, h2, _, y, f, h4, h5, h6⟩ := h.origin m d v hv
  rw [h4, hdec y h5] at hd
  cases hd
  exact ⟨h2, h1, h5, f, h6⟩

theorem Lives.dbOk {b : Store.Lib} {enc : D → Str} {dec : Str → Option D}
    (hdec : ∀ x, c.encodes x = true → dec (enc x) = some x) {files : Fin c.stores → Store.Db} {calls : List (Call D)}
    (h : Lives b enc dec c files calls) : DbOk c (fun m => storeInitReads dec (files m)) := by
  intro m
  obtain ⟨h1, h2⟩ := C90_only_given_documents hdec h m
  refine ⟨h1, fun x hx => ?_⟩
  obtain ⟨g1, g2, g3, _⟩ := h2 x.1 x.2 hx
  exact ⟨g2, g1, g3⟩

/-- The library accepts every version of `d` that is given in the calls. -/
def AcceptsDoc (b : Store.Lib) (c : PipeCfg D) (enc : D → Str) (d : Str) (calls : List (Call D)) : Prop :=
  ∀ x f, Call.index d x f ∈ calls → c.encodes x = true → b.setErr d (enc x) = none

theorem file_content {b : Store.Lib} {enc : D → Str} {dec : Str → Option D}
    (hdec : ∀ x, c.encodes x = true → dec (enc x) = some x) {files : Fin c.stores → Store.Db} {calls : List (Call D)}
    (h : Lives b enc dec c files calls) {as : List (Act c.toPipeSize D)} {st : Pipe c}
    (hrun : (Pipe.start c (fun m => storeInitReads dec (files m))).run as = some st) (d : Str)
    (hacc : AcceptsDoc b c enc d (st.calls.map (·.2))) (hdel : (∃ i f, (i, Call.remove d f) ∈ st.calls) → b.delErr d = none) (m : Fin c.stores) :
    ((libAfter b enc files st m).get d).map dec = (st.dbContent (fun m => storeInitReads dec (files m)) m d).map some := by
  refine file_run d (st.dbLog m) ?_ (fun x hx => ?_) (fun hx => ?_)
  · rw [reads_listed]
    cases hv : (files m).get d with
    | none => rfl
    | some v =>
      obtain ⟨_, _, _, x, f, h4, h5, _⟩ := h.origin m d v hv
      simp [h4, hdec x h5]
  · obtain ⟨_, _, _, g3, i, f, g4⟩ := db_mem_set ⟨as, hrun⟩ hx
    exact ⟨hdec x g3, hacc x f (List.mem_map.2 ⟨_, g4, rfl⟩) g3⟩
  · exact hdel (db_mem_del ⟨as, hrun⟩ hx)

theorem file_listed {b : Store.Lib} {enc : D → Str} {dec : Str → Option D}
    (hdec : ∀ x, c.encodes x = true → dec (enc x) = some x) {files : Fin c.stores → Store.Db} {calls : List (Call D)}
    (h : Lives b enc dec c files calls) {as : List (Act c.toPipeSize D)} {st : Pipe c}
    (hrun : (Pipe.start c (fun m => storeInitReads dec (files m))).run as = some st) (d : Str)
    (hacc : AcceptsDoc b c enc d (st.calls.map (·.2))) (hdel : (∃ i f, (i, Call.remove d f) ∈ st.calls) → b.delErr d = none) (m : Fin c.stores) :
    listedDb (storeInitReads dec (libAfter b enc files st m)) d =
      st.dbContent (fun m => storeInitReads dec (files m)) m d := by
  have := file_content hdec h hrun d hacc hdel m
  rw [reads_listed]
  cases hv : (libAfter b enc files st m).get d with
  | none =>
    rw [hv] at this
    cases hf : st.dbContent (fun m => storeInitReads dec (files m)) m d with
    | none => rfl
    | some x => rw [hf] at this; simp at this
  | some v =>
    rw [hv] at this
    cases hf : st.dbContent (fun m => storeInitReads dec (files m)) m d with
    | none => rw [hf] at this; simp at this
    | some x => rw [hf] at this; simpa using this

/-- Lives in which, for the document `d`: it was never removed, its versions were given one call at a time, and each life ended
(in any way) after a Flush that followed the last call about it. `calls` are the calls of all lives up to these Flushes. -/
inductive FlushedLives (b : Store.Lib) (enc : D → Str) (dec : Str → Option D) (c : PipeCfg D) (d : Str) :
    (Fin c.stores → Store.Db) → List (Call D) → Prop
  | new : FlushedLives b enc dec c d (fun _ => .empty) []
  | live {files : Fin c.stores → Store.Db} {calls : List (Call D)} {as later : List (Act c.toPipeSize D)} {st st' u : Pipe c}
      {i : Fin c.clients} :
      FlushedLives b enc dec c d files calls →
      (Pipe.start c (fun m => storeInitReads dec (files m))).run as = some st →
      SequentialFor d (Pipe.start c (fun m => storeInitReads dec (files m))) as →
      (∀ i f, (i, Call.remove d f) ∉ st.calls) →
      FlushCompletes i st st' → st'.run later = some u → NoCallAbout d later →
      FlushedLives b enc dec c d (libAfter b enc files u) (calls ++ st.calls.map (·.2))

theorem FlushedLives.lives {b : Store.Lib} {enc : D → Str} {dec : Str → Option D} {d : Str} {files : Fin c.stores → Store.Db}
    {calls : List (Call D)} (h : FlushedLives b enc dec c d files calls) : ∃ all, Lives b enc dec c files all := by
  induction h with
  | new => exact ⟨[], .new⟩
  | live hl hrun hseq hrm hf hlat hno ih =>
    obtain ⟨all, hall⟩ := ih
    obtain ⟨bs, hbs⟩ := (hf.reach ⟨_, hrun⟩).run hlat
    exact ⟨_, .live hall hbs⟩

theorem given_before {d : Str} {later : List (Act c.toPipeSize D)} {st st' u : Pipe c}
    {i : Fin c.clients} (hf : FlushCompletes i st st') (hlat : st'.run later = some u) (hno : NoCallAbout d later) {x : D} {f : Bool}
    (hm : Call.index d x f ∈ u.calls.map (·.2)) : Call.index d x f ∈ st.calls.map (·.2) := by
  obtain ⟨⟨j, _⟩, hm, rfl⟩ := List.mem_map.1 hm
  rw [run_calls _ _ _ hlat, hf.calls] at hm
  simp only [List.mem_append, List.mem_singleton, Prod.mk.injEq, reduceCtorEq, and_false, or_false] at hm
  rcases hm with hm | hm
  · exact List.mem_map.2 ⟨_, hm, rfl⟩
  · have := called_noabout hno _ hm
    simp [Call.about] at this

theorem not_removed {d : Str} {later : List (Act c.toPipeSize D)} {st st' u : Pipe c}
    {i : Fin c.clients} (hrm : ∀ i f, (i, Call.remove d f) ∉ st.calls)
    (hf : FlushCompletes i st st') (hlat : st'.run later = some u) (hno : NoCallAbout d later) :
    ¬ ∃ i f, (i, Call.remove d f) ∈ u.calls := by
  rintro ⟨j, f, hm⟩
  rw [run_calls _ _ _ hlat, hf.calls] at hm
  simp only [List.mem_append, List.mem_singleton, Prod.mk.injEq, reduceCtorEq, and_false, or_false] at hm
  rcases hm with hm | hm
  · exact hrm j f hm
  · have := called_noabout hno _ hm
    simp [Call.about] at this

/-- **C90 (partial: the library accepts the id, `d` is never removed)** On each library, after any number of lives that ended after
a Flush: the store shard of `d` holds the data of the last Index(d) of all lives whose encoding succeeded, no other shard holds anything about
`d`. Missing: ids the library refuses (`C90_refuted_empty_id`), removed documents (C44). -/
theorem C90_last_version_kept_partial (hs : c.useStore = true) {b : Store.Lib} {enc : D → Str} {dec : Str → Option D}
    (hdec : ∀ x, c.encodes x = true → dec (enc x) = some x) {d : Str} (h0 : d ≠ str "0")
    {files : Fin c.stores → Store.Db} {calls : List (Call D)} (hacc : AcceptsDoc b c enc d calls) (h : FlushedLives b enc dec c d files calls) (m : Fin c.stores)
    (x : D) :
    (d, x) ∈ storeInitReads dec (files m) ↔ m = c.storeRoute d ∧ lastStored c d none calls = some x := by
  have hmain : listedDb (storeInitReads dec (files m)) d = if m = c.storeRoute d then lastStored c d none calls else none := by
    induction h generalizing m with
    | new => rw [reads_listed]; simp [GoMap.get_empty, lastStored]
    | live hl hrun hseq hrm hf hlat hno ih =>
      obtain ⟨all, hall⟩ := hl.lives
      obtain ⟨bs, hbs⟩ := (hf.reach ⟨_, hrun⟩).run hlat
      rw [file_listed hdec hall hbs d
        (fun y f hy hey => hacc y f (List.mem_append_right _ (given_before hf hlat hno hy)) hey)
        (fun hx => absurd hx (not_removed hrm hf hlat hno)) m,
        C43_flushed_is_stored hs _ (hall.dbOk hdec) d h0 _ _ _ _ hrun hseq hrm _ hf _ hlat hno m]
      by_cases hm : m = c.storeRoute d
      · rw [if_pos hm, if_pos hm, ih (fun y f hy => hacc y f (List.mem_append_left _ hy)), if_pos hm]
        simp only [lastStored, List.foldl_append]
      · rw [if_neg hm, if_neg hm]
  have := (listedDb_lists (reads_nodup dec (files m))).2 d x
  rw [this, hmain]
  by_cases hm : m = c.storeRoute d
  · simp [hm]
  · simp [hm]

theorem lives_value {b : Store.Lib} {enc : D → Str} {dec : Str → Option D} (hdec : ∀ x, c.encodes x = true → dec (enc x) = some x)
    {files : Fin c.stores → Store.Db} {calls : List (Call D)} (h : Lives b enc dec c files calls) (m : Fin c.stores) (d v : Str) :
    (files m).get d = some v ↔ ∃ x, (d, x) ∈ storeInitReads dec (files m) ∧ v = enc x ∧ b.setErr d v = none := by
  constructor
  · intro hv
    obtain ⟨_, _, h3, x, f, h4, h5, _⟩ := h.origin m d v hv
    exact ⟨x, reads_mem.2 ⟨v, hv, by rw [h4]; exact hdec x h5⟩, h4, h3⟩
  · rintro ⟨x, hx, rfl, _⟩
    obtain ⟨w, hw, hd⟩ := reads_mem.1 hx
    obtain ⟨_, _, _, y, f, h4, h5, _⟩ := h.origin m d w hw
    rw [h4, hdec y h5] at hd
    cases hd
    rw [hw, h4]

/-- **C90 (partial, as above)** `HasDocDB(d)`, which asks `Has` of the library in the store shard of `d`, answers on each of the three
libraries whether there is a last version of `d` (the encoder never gives an empty value). -/
theorem C90_hasDocDB_partial (hs : c.useStore = true) {enc : D → Str} {dec : Str → Option D}
    (hdec : ∀ x, c.encodes x = true → dec (enc x) = some x) (hne : ∀ x, enc x ≠ []) {d : Str} (h0 : d ≠ str "0")
    (tooBig : Str → Str → Bool) (calls : List (Call D)) :
    (∀ files, AcceptsDoc Store.leveldb c enc d calls → FlushedLives Store.leveldb enc dec c d files calls →
      ((Store.ldbHas (files (c.storeRoute d)) d).1 = true ↔ ∃ x, lastStored c d none calls = some x)) ∧
    (∀ files, AcceptsDoc Store.bbolt c enc d calls → FlushedLives Store.bbolt enc dec c d files calls →
      ((Store.boltHas (files (c.storeRoute d)) d).1 = true ↔ ∃ x, lastStored c d none calls = some x)) ∧
    (∀ files, AcceptsDoc (Store.badgerDb tooBig) c enc d calls → FlushedLives (Store.badgerDb tooBig) enc dec c d files calls →
      ((Store.badgerHas tooBig (files (c.storeRoute d)) d).1 = true ↔ ∃ x, lastStored c d none calls = some x)) := by
  have key : ∀ (b : Store.Lib) (files : Fin c.stores → Store.Db), AcceptsDoc b c enc d calls → FlushedLives b enc dec c d files calls →
      (∃ v, (files (c.storeRoute d)).get d = some v ∧ v ≠ [] ∧ b.setErr d v = none) ∧ (∃ x, lastStored c d none calls = some x) ∨
      (files (c.storeRoute d)).get d = none ∧ ¬ ∃ x, lastStored c d none calls = some x := by
    intro b files hacc hf
    obtain ⟨all, hall⟩ := hf.lives
    cases hv : (files (c.storeRoute d)).get d with
    | some v =>
      obtain ⟨x, hx, h1, h2⟩ := (lives_value hdec hall _ d v).1 hv
      exact Or.inl ⟨⟨v, rfl, by rw [h1]; exact hne x, h2⟩, x,
        ((C90_last_version_kept_partial hs hdec h0 hacc hf _ x).1 hx).2⟩
    | none =>
      refine Or.inr ⟨rfl, ?_⟩
      rintro ⟨x, hx⟩
      obtain ⟨w, hw, _⟩ := reads_mem.1 ((C90_last_version_kept_partial hs hdec h0 hacc hf _ x).2 ⟨rfl, hx⟩)
      rw [hv] at hw; cases hw
  refine ⟨fun files hacc hf => ?_, fun files hacc hf => ?_, fun files hacc hf => ?_⟩
  · rcases key _ files hacc hf with ⟨⟨v, h1, _⟩, h2⟩ | ⟨h1, h2⟩
    · simp [Store.ldbHas, h1, h2]
    · simp only [Store.ldbHas, h1, h2]; simp
  · rcases key _ files hacc hf with ⟨⟨v, h1, h3, _⟩, h2⟩ | ⟨h1, h2⟩
    · simp only [h2, iff_true]
      simp [Store.boltHas, Store.get, Store.bbolt, h1, h3]
    · simp only [h2, iff_false]
      simp [Store.boltHas, Store.get, Store.bbolt, h1]
  · rcases key _ files hacc hf with ⟨⟨v, h1, h3, h4⟩, h2⟩ | ⟨h1, h2⟩
    · have hg := Store.readable_badger tooBig d v h4
      simp only [h2, iff_true]
      simp [Store.badgerHas, Store.get, hg, h1, h3]
    · simp only [h2, iff_false]
      cases hg : (Store.badgerDb tooBig).getErr d with
      | some e => simp [Store.badgerHas, Store.get, hg]
      | none =>
        have hm : (Store.badgerDb tooBig).missing = some .keyNotFound := rfl
        simp [Store.badgerHas, Store.get, hg, h1, hm]

/-- **C90 (partial, as above)** A new engine on the files of these lives, flushed, with no calls about `d`: a plain search of a shard
finds `d` exactly if the last version of `d` is routed to this shard and has all the keys of the request. -/
theorem C90_restart_finds_partial (hs : c.useStore = true) (hdoc : c.DocOk) (hk : c.KeysOk) {so : Sorter}
    (hso : SortOk so) (o : IndexerOpts) {b : Store.Lib} {enc : D → Str} {dec : Str → Option D}
    (hdec : ∀ x, c.encodes x = true → dec (enc x) = some x) {d : Str} (h0 : d ≠ str "0")
    {files : Fin c.stores → Store.Db} {calls : List (Call D)} (hacc : AcceptsDoc b c enc d calls) (h : FlushedLives b enc dec c d files calls)
    (as : List (Act c.toPipeSize D)) (st st' : Pipe c)
    (hrun : (Pipe.start c (fun m => storeInitReads dec (files m))).run as = some st) (hno : NoCallAbout d as)
    (i : Fin c.clients) (hf : FlushCompletes i st st') (s : Fin c.shards) (ix : Indexer)
    (hix : (Indexer.init o).run so (st'.idxLog s) = some ix) (log2 : Rat → Rat)
    (tokens labels : List Str) (docIds : Option (List Str)) (docs : List IndexedDoc) (n : Nat)
    (hlk : ix.lookup log2 tokens labels docIds false = some (docs, n)) :
    d ∈ docs.map (·.docId) ↔ ∃ x, lastStored c d none calls = some x ∧ c.route d x = s ∧
      tokens ++ labels ≠ [] ∧ Allowed docIds d ∧ ∀ k ∈ tokens ++ labels, k ∈ (c.docOf d x).keys := by
  obtain ⟨all, hall⟩ := h.lives
  rw [C43_restart_serves_stored hs hdoc hk hso o _ (hall.dbOk hdec) d h0 as st st' hrun hno i hf s ix hix log2 tokens labels
    docIds docs n hlk]
  refine exists_congr (fun x => and_congr_left' ?_)
  have h1 := (listedDb_lists (reads_nodup dec (files (c.storeRoute d)))).2 d x
  rw [← h1, C90_last_version_kept_partial hs hdec h0 hacc h]
  simp

/-- **C90 is refuted** for ids the library refuses: on bbolt and badger, whatever is called in any number of lives, flushed or not, no document
with the empty id is ever stored, so that no later engine has it; on badger the same holds of every id that starts with `!badger!`. -/
theorem C90_refuted_refused_ids {enc : D → Str} {dec : Str → Option D} (tooBig : Str → Str → Bool) :
    (∀ files calls, Lives Store.bbolt enc dec c files calls → ∀ m x, ([], x) ∉ storeInitReads dec (files m)) ∧
    (∀ files calls, Lives (Store.badgerDb tooBig) enc dec c files calls → ∀ m x,
      ([], x) ∉ storeInitReads dec (files m) ∧ ∀ id, (str "!badger!" ++ id, x) ∉ storeInitReads dec (files m)) := by
  refine ⟨fun files calls h m x hx => ?_, fun files calls h m x => ⟨fun hx => ?_, fun id hx => ?_⟩⟩
  · obtain ⟨v, hv, _⟩ := reads_mem.1 hx
    have := (h.origin m _ v hv).2.2.1
    simp [Store.bbolt] at this
  · obtain ⟨v, hv, _⟩ := reads_mem.1 hx
    have := (h.origin m _ v hv).2.2.1
    simp [Store.badgerDb] at this
  · obtain ⟨v, hv, _⟩ := reads_mem.1 hx
    have := (h.origin m _ v hv).2.2.1
    simp only [Store.badgerDb] at this
    have hne : str "!badger!" ++ id ≠ [] := by
      have : str "!badger!" ≠ [] := by decide +kernel
      simp [this]
    rw [if_neg hne, if_pos (List.prefix_append _ _)] at this
    cases this

/-! ## Examples -/

/-- An encoding of numbers, for examples. -/
def demoEnc (n : Nat) : Str := List.replicate (n + 1) 97
def demoDec (v : Str) : Option Nat := if v.length = 0 then none else some (v.length - 1)

theorem demo_dec (x : Nat) : demoDec (demoEnc x) = some x := by simp [demoDec, demoEnc]


/-- Two versions of "1" and one of "22", on bbolt files; the hypotheses of the theorems are met, and the files have the last versions. -/
example : ∃ (files : Fin storePipe.stores → Store.Db),
    FlushedLives Store.bbolt demoEnc demoDec storePipe (str "1") files (storedCalls.map (·.2)) ∧
    AcceptsDoc Store.bbolt storePipe demoEnc (str "1") (storedCalls.map (·.2)) ∧
    (∀ m, storeInitReads demoDec (files m) = leftDb m) ∧ lastStored storePipe (str "1") none (storedCalls.map (·.2)) = some 9 ∧
    (Store.boltHas (files (storePipe.storeRoute (str "1"))) (str "1")).1 = true := by
  let as := (Pipe.start storePipe (fun _ => [])).session (demoActs _) storedCalls
  have h : ((Pipe.start storePipe (fun _ => [])).run as).any (fun st =>
      decide (st.calls = storedCalls) &&
      (st.flushBy sclient (st.flushSched (demoActs _) sclient)).any (fun st' =>
        decide ((∀ m, storeInitReads demoDec (libAfter Store.bbolt demoEnc (fun _ => .empty) st' m) = leftDb m) ∧
          (Store.boltHas (libAfter Store.bbolt demoEnc (fun _ => .empty) st' (storePipe.storeRoute (str "1"))) (str "1")).1 = true)))
      = true := by decide +kernel
  obtain ⟨st, hst, hp⟩ := (Option.any_eq_true _ _).1 h
  simp only [Bool.and_eq_true, decide_eq_true_eq] at hp
  obtain ⟨st', hst', hp'⟩ := (Option.any_eq_true _ _).1 hp.2
  have hp' := of_decide_eq_true hp'
  refine ⟨libAfter Store.bbolt demoEnc (fun _ => .empty) st', ?_, ?_, hp'.1, by decide +kernel, hp'.2⟩
  · have := FlushedLives.live (b := Store.bbolt) (enc := demoEnc) (dec := demoDec) (d := str "1") (c := storePipe) (as := as)
      (st := st) (st' := st') (u := st') (i := sclient) (later := []) .new hst (sequential_one rfl _ _ _ _ hst)
      (by intro i f; rw [hp.1]; simp [storedCalls]) (flushBy_completes hst') rfl (by intro i b hb; simp at hb)
    rw [hp.1] at this
    exact this
  · intro x f hx _
    have hx : x ≤ 9 := by
      simp only [storedCalls, List.map_cons, List.map_nil, List.mem_cons, Call.index.injEq, List.not_mem_nil, or_false] at hx
      omega
    have h1 : (str "1").length = 1 := by decide +kernel
    have h2 : str "1" ≠ [] := by decide +kernel
    have h3 : (demoEnc x).length ≤ 10 := by simp [demoEnc]; omega
    simp only [Store.bbolt, h1, if_neg h2]
    rw [if_neg (by omega), if_neg (by omega)]

/-- **C90 is refuted**, an instance: Index("", 7), Flush. On goleveldb the next engine reads the document, on bbolt it reads
nothing. -/
theorem C90_refuted_empty_id : ∃ (as : List (Act storePipe.toPipeSize Nat)) (st st' : Pipe storePipe),
    (Pipe.start storePipe (fun _ => [])).run as = some st ∧ st.calls.map (·.2) = [Call.index [] 7 false] ∧
    FlushCompletes sclient st st' ∧
    storeInitReads demoDec (libAfter Store.leveldb demoEnc (fun _ => .empty) st' (storePipe.storeRoute [])) = [([], 7)] ∧
    ∀ m, storeInitReads demoDec (libAfter Store.bbolt demoEnc (fun _ => .empty) st' m) = [] := by
  let as := (Pipe.start storePipe (fun _ => [])).session (demoActs _) [(sclient, Call.index [] 7 false)]
  have h : ((Pipe.start storePipe (fun _ => [])).run as).any (fun st =>
      decide (st.calls.map (·.2) = [Call.index [] 7 false]) &&
      (st.flushBy sclient (st.flushSched (demoActs _) sclient)).any (fun st' =>
        decide (storeInitReads demoDec (libAfter Store.leveldb demoEnc (fun _ => .empty) st' (storePipe.storeRoute [])) = [([], 7)] ∧
          ∀ m, storeInitReads demoDec (libAfter Store.bbolt demoEnc (fun _ => .empty) st' m) = []))) = true := by
    decide +kernel
  obtain ⟨st, hst, hp⟩ := (Option.any_eq_true _ _).1 h
  simp only [Bool.and_eq_true, decide_eq_true_eq] at hp
  obtain ⟨st', hst', hp'⟩ := (Option.any_eq_true _ _).1 hp.2
  have hp' := of_decide_eq_true hp'
  exact ⟨as, st, st', hst, hp.1, flushBy_completes hst', hp'.1, hp'.2⟩

end Riot
