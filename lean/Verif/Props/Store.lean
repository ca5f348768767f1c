import Verif.Proofs.PipelineStore
import Verif.Props.PipelineRank
import Verif.Props.EndToEnd

/-!
# Databases and restart: C43, C44, C46
-/

namespace Riot

variable {D : Type} {c : PipeCfg D}

/-- No call about `d` starts during the run. -/
def NoCallAbout {z : PipeSize} (d : Str) (as : List (Act z D)) : Prop :=
  ∀ i b, Act.call i b ∈ as → Call.about d b = false

theorem called_noabout {z : PipeSize} {d : Str} {as : List (Act z D)} (h : NoCallAbout d as) :
    ∀ x ∈ as.flatMap Act.called, Call.about d x.2 = false := by
  intro x hx
  obtain ⟨a, ha, hxa⟩ := List.mem_flatMap.1 hx
  cases a <;> simp [Act.called] at hxa
  subst hxa
  exact h _ _ ha

theorem callDb_isSet_other {m : Fin c.stores} {d : Str} {b : Call D} (h : Call.about d b = false) :
    (c.callDb m b).filter (DbOp.isSet d) = [] := by
  cases b with
  | index id x f =>
    simp only [Call.about, decide_eq_false_iff_not] at h
    simp only [PipeCfg.callDb]; split <;> simp [DbOp.isSet, h]
  | remove id f => simp only [PipeCfg.callDb]; split <;> simp [DbOp.isSet]
  | flush => simp [PipeCfg.callDb]

theorem issued_other {m : Fin c.stores} {d : Str} (l : List (Fin c.clients × Call D))
    (h : ∀ x ∈ l, Call.about d x.2 = false) :
    (l.flatMap (fun x => c.callDb m x.2)).filter (DbOp.isSet d) = [] := by
  induction l with
  | nil => rfl
  | cons a l ih =>
    rw [List.flatMap_cons, List.filter_append, callDb_isSet_other (h a (by simp)),
      ih (fun x hx => h x (by simp [hx]))]
    rfl

/-- The writes of `d` in the log, after a Flush and calls that are not about `d`. -/
theorem flushed_sets (hs : c.useStore = true) {d : Str}
    (db : Fin c.stores → List (Str × D)) (as : List (Act c.toPipeSize D)) (st st' u : Pipe c)
    (hrun : (Pipe.start c db).run as = some st) (hseq : SequentialFor d (Pipe.start c db) as)
    (i : Fin c.clients) (hf : FlushCompletes i st st') (later : List (Act c.toPipeSize D))
    (hl : st'.run later = some u) (hno : NoCallAbout d later) :
    (u.dbLog (c.storeRoute d)).filter (DbOp.isSet d) =
      (st.issuedDb (c.storeRoute d)).filter (DbOp.isSet d) := by
  have hr : Reach db st := ⟨as, hrun⟩
  have hcount := flush_stored hs hr hf (c.storeRoute d) (DbOp.isSet d) (by
    intro op hop
    cases op with
    | set id x => exact ⟨id, x, rfl⟩
    | del id => simp [DbOp.isSet] at hop)
  have hcalls' := hf.calls
  have hcallsu := run_calls _ _ _ hl
  obtain ⟨hidle, st1, as2, h1, hno2, h2, hdone⟩ := hf
  have hwhole : (Pipe.start c db).run (as ++ (Act.call i .flush :: as2 ++ later)) = some u := by
    rw [run_append, hrun]
    show st.run (Act.call i .flush :: (as2 ++ later)) = some u
    simp only [Pipe.run, h1, Option.bind_some]
    rw [run_append, h2]
    exact hl
  have hiss : (u.issuedDb (c.storeRoute d)).filter (DbOp.isSet d) =
      (st.issuedDb (c.storeRoute d)).filter (DbOp.isSet d) := by
    unfold Pipe.issuedDb
    rw [hcallsu, hcalls', List.flatMap_append, List.flatMap_append, List.filter_append, List.filter_append,
      issued_other _ (called_noabout hno)]
    simp [PipeCfg.callDb]
  have hseqw : SequentialFor d (Pipe.start c db) (as ++ (Act.call i .flush :: as2 ++ later)) := by
    intro as1 j x f as3 v he hv
    rcases List.append_eq_append_iff.1 he with ⟨l, e1, e2⟩ | ⟨l, e1, e2⟩
    · -- the call is in the second part
      exfalso
      have hm : Act.call j (Call.index d x f) ∈ (Act.call i Call.flush :: as2 ++ later) := by
        rw [e2]; simp
      rcases List.mem_append.1 hm with hm | hm
      · rcases List.mem_cons.1 hm with hm | hm
        · cases hm
        · have := hno2 _ hm; simp [Act.isCall] at this
      · have := hno _ _ hm; simp [Call.about] at this
    · cases l with
      | nil =>
        exfalso
        simp only [List.nil_append] at e2
        have hm : Act.call j (Call.index d x f) ∈ (Act.call i Call.flush :: as2 ++ later) := by
          rw [← e2]; simp
        rcases List.mem_append.1 hm with hm | hm
        · rcases List.mem_cons.1 hm with hm | hm
          · cases hm
          · have := hno2 _ hm; simp [Act.isCall] at this
        · have := hno _ _ hm; simp [Call.about] at this
      | cons y l =>
        simp only [List.cons_append, List.cons.injEq] at e2
        obtain ⟨rfl, e2⟩ := e2
        exact hseq as1 j x f l v e1 hv
  obtain ⟨hset, _⟩ := setSeq_run (m := c.storeRoute d) rfl db _ u hwhole hseqw
  have hpre : (u.dbLog (c.storeRoute d)).filter (DbOp.isSet d) <+:
      (st.issuedDb (c.storeRoute d)).filter (DbOp.isSet d) := by
    rw [← hiss, ← hset]
    unfold Pipe.setSeq
    rw [List.append_assoc, List.append_assoc]
    exact List.prefix_append _ _
  refine hpre.eq_of_length_le ?_
  have hmono := run_dbLog later st' u hl (c.storeRoute d)
  obtain ⟨t, ht⟩ := hmono
  rw [← List.countP_eq_length_filter, ← List.countP_eq_length_filter, ← ht, List.countP_append, hcount]
  omega

/-- What is not in its own database is in none. -/
theorem dbContent_elsewhere {db : Fin c.stores → List (Str × D)} (hdb : DbOk c db) {st : Pipe c}
    (hr : Reach db st) {m : Fin c.stores} {d : Str} (h : m ≠ c.storeRoute d) :
    st.dbContent db m d = none := by
  cases hx : st.dbContent db m d with
  | none => rfl
  | some x => exact absurd (dbContent_route hdb hr hx).1.symm h

/-! ## C43 -/

/-- **C43** (first part) An engine with a store, started on databases `db`; Index(d) was called
one call at a time, RemoveDoc(d) not at all; a Flush has returned. From then on, whatever else the
engine does (until the process ends, in any way), as long as no call about `d` starts, the
database of `d` holds the data of the last Index(d) whose encoding succeeded (the one from before,
if there is none), and no other database holds `d`. -/
theorem C43_flushed_is_stored (hs : c.useStore = true) (db : Fin c.stores → List (Str × D))
    (hdb : DbOk c db) (d : Str) (h0 : d ≠ str "0") (as : List (Act c.toPipeSize D)) (st st' u : Pipe c)
    (hrun : (Pipe.start c db).run as = some st) (hseq : SequentialFor d (Pipe.start c db) as)
    (hrm : ∀ i f, (i, Call.remove d f) ∉ st.calls)
    (i : Fin c.clients) (hf : FlushCompletes i st st') (later : List (Act c.toPipeSize D))
    (hl : st'.run later = some u) (hno : NoCallAbout d later) (m : Fin c.stores) :
    u.dbContent db m d = if m = c.storeRoute d then
      lastStored c d (listedDb (db m) d) (st.calls.map (·.2)) else none := by
  have hr : Reach db st := ⟨as, hrun⟩
  have hru : Reach db u := (hf.reach hr).run hl
  by_cases hm : m = c.storeRoute d
  · subst hm
    rw [if_pos rfl]
    unfold Pipe.dbContent
    rw [dbApply_sets, flushed_sets hs db as st st' u hrun hseq i hf later hl hno,
      lastStored_eq hs h0 rfl]
    · rfl
    · intro hdel
      obtain ⟨j, f, hmem⟩ := db_mem_del hru hdel
      rw [run_calls _ _ _ hl, hf.calls] at hmem
      simp only [List.mem_append, List.mem_singleton, Prod.mk.injEq, reduceCtorEq, and_false, or_false] at hmem
      rcases hmem with hmem | hmem
      · exact hrm j f hmem
      · have := called_noabout hno _ hmem
        simp [Call.about] at this
  · rw [if_neg hm, dbContent_elsewhere hdb hru hm]

/-- The documents a new engine reads about `d`. -/
theorem recovered_about (hs : c.useStore = true) {db : Fin c.stores → List (Str × D)} (hdb : DbOk c db) (d : Str) :
    ((c.recovered db).map (fun x => Call.index x.1 x.2 false)).filter (Call.about d) =
      (listedDb (db (c.storeRoute d)) d).toList.map (fun x => Call.index d x false) := by
  have hone : ∀ l : List (Str × D), (l.map (·.1)).Nodup →
      (l.map (fun x => Call.index x.1 x.2 false)).filter (Call.about d) =
        (listedDb l d).toList.map (fun x => Call.index d x false) := by
    intro l
    induction l with
    | nil => intro _; rfl
    | cons y l ih =>
      intro hn
      simp only [List.map_cons, List.nodup_cons] at hn
      rw [List.map_cons, List.filter_cons]
      by_cases hy : y.1 = d
      · subst hy
        have : ((l.map (fun x => Call.index x.1 x.2 false)).filter (Call.about y.1)) = [] := by
          rw [List.filter_eq_nil_iff]
          intro b hb
          obtain ⟨z, hz, rfl⟩ := List.mem_map.1 hb
          simp only [Call.about, decide_eq_true_eq]
          intro he
          exact hn.1 (he ▸ List.mem_map.2 ⟨z, hz, rfl⟩)
        rw [this]
        simp [Call.about, listedDb]
      · have : listedDb (y :: l) d = listedDb l d := by simp [listedDb, hy]
        rw [this, ← ih hn.2]
        simp [Call.about, hy]
  unfold PipeCfg.recovered
  rw [if_pos hs, List.map_flatMap, List.filter_flatMap,
    flatMap_one _ (c.storeRoute d) (by
      intro m hm
      rw [List.filter_eq_nil_iff]
      intro b hb
      obtain ⟨z, hz, rfl⟩ := List.mem_map.1 hb
      simp only [Call.about, decide_eq_true_eq]
      rintro rfl
      exact hm ((hdb m).2 z hz).1.symm)]
  exact hone _ (hdb _).1

/-- **C43** (second part) A new engine on databases `db` re-indexes exactly the documents in the
databases: after its Init and a Flush, with no calls about `d`, a plain search of a shard finds `d`
exactly if the database of `d` holds data that is routed to this shard and has all the keys of the
request. -/
theorem C43_restart_serves_stored (hs : c.useStore = true) (hdoc : c.DocOk) (hk : c.KeysOk) {so : Sorter}
    (hso : SortOk so) (o : IndexerOpts) (db : Fin c.stores → List (Str × D)) (hdb : DbOk c db)
    (d : Str) (h0 : d ≠ str "0") (as : List (Act c.toPipeSize D)) (st st' : Pipe c)
    (hrun : (Pipe.start c db).run as = some st) (hno : NoCallAbout d as)
    (i : Fin c.clients) (hf : FlushCompletes i st st') (s : Fin c.shards) (ix : Indexer)
    (hix : (Indexer.init o).run so (st'.idxLog s) = some ix) (log2 : Rat → Rat)
    (tokens labels : List Str) (docIds : Option (List Str)) (docs : List IndexedDoc) (n : Nat)
    (hlk : ix.lookup log2 tokens labels docIds false = some (docs, n)) :
    d ∈ docs.map (·.docId) ↔ ∃ x, listedDb (db (c.storeRoute d)) d = some x ∧ c.route d x = s ∧
      tokens ++ labels ≠ [] ∧ Allowed docIds d ∧ ∀ k ∈ tokens ++ labels, k ∈ (c.docOf d x).keys := by
  have hcalls : (st.calls.map (·.2)).filter (Call.about d) = [] := by
    rw [run_calls _ _ _ hrun, List.filter_eq_nil_iff]
    intro b hb
    obtain ⟨x, hx, rfl⟩ := List.mem_map.1 hb
    simp only [Pipe.start, List.nil_append] at hx
    simp [called_noabout hno x hx]
  have hrec := recovered_about hs hdb d
  have hlen : (((c.recovered db).map (fun x => Call.index x.1 x.2 false) ++
      st.calls.map (·.2)).filter (Call.about d)).length ≤ 1 := by
    rw [List.filter_append, hcalls, List.append_nil, hrec]
    cases listedDb (db (c.storeRoute d)) d <;> simp
  have hround := Rounds.first as i st st' hrun hf hlen
  rw [C53_disciplined_content hdoc hk hso o db d h0 st' _ hround s ix hix log2 tokens labels docIds docs n hlk]
  rw [List.filter_append, hcalls, List.append_nil, hrec]
  unfold Matches
  cases hx : listedDb (db (c.storeRoute d)) d with
  | none => simp [ideal]
  | some x =>
    by_cases hrt : c.route d x = s
    · have := ideal_last_index hdoc d h0 [] x false s hrt
      simp only [List.nil_append] at this
      simp only [Option.toList_some, List.map_cons, List.map_nil, this]
      simp [hrt]
    · rw [ideal_elsewhere hdoc d s _ (by
        intro id w g hm hid
        simp only [Option.toList_some, List.map_cons, List.map_nil, List.mem_singleton, Call.index.injEq] at hm
        rw [hm.2.1, hid]; exact hrt)]
      simp [hrt]

/-- Databases left by an engine are databases an engine can start on. -/
theorem dbOk_left {db : Fin c.stores → List (Str × D)} (hdb : DbOk c db) {u : Pipe c} (hr : Reach db u)
    (db' : Fin c.stores → List (Str × D)) (hdb' : ∀ m, ListsDb (db' m) (u.dbContent db m)) : DbOk c db' := by
  intro m
  refine ⟨(hdb' m).1, ?_⟩
  rintro ⟨id, x⟩ hx
  exact dbContent_route hdb hr (((hdb' m).2 id x).1 hx)

theorem listedDb_of_lists {l : List (Str × D)} {f : Str → Option D} (h : ListsDb l f) (d : Str) :
    listedDb l d = f d := by
  have h2 := (listedDb_lists h.1).2 d
  cases hx : f d with
  | some x => exact (h2 x).1 ((h.2 d x).2 hx)
  | none =>
    cases hy : listedDb l d with
    | none => rfl
    | some y =>
      have := (h.2 d y).1 ((h2 y).2 hy)
      rw [hx] at this; simp at this

/-- **C43** An engine that was given documents, flushed, and ended (in any way) at any later moment
with no calls about `d` since; a new engine on the databases it left, flushed: a plain search of a
shard finds `d` exactly if the data of the last Index(d) whose encoding succeeded (the one in the
old databases, if there is none) is routed to this shard and has all the keys of the request.
`db'` is any enumeration of the content of the databases, shard by shard. -/
theorem C43_restart_recovers (hs : c.useStore = true) (hdoc : c.DocOk) (hk : c.KeysOk) {so : Sorter}
    (hso : SortOk so) (o : IndexerOpts) (db db' : Fin c.stores → List (Str × D)) (hdb : DbOk c db)
    (d : Str) (h0 : d ≠ str "0") (as : List (Act c.toPipeSize D)) (st st' u : Pipe c)
    (hrun : (Pipe.start c db).run as = some st) (hseq : SequentialFor d (Pipe.start c db) as)
    (hrm : ∀ i f, (i, Call.remove d f) ∉ st.calls)
    (i : Fin c.clients) (hf : FlushCompletes i st st') (later : List (Act c.toPipeSize D))
    (hl : st'.run later = some u) (hno : NoCallAbout d later)
    (hdb' : ∀ m, ListsDb (db' m) (u.dbContent db m))
    (as' : List (Act c.toPipeSize D)) (v v' : Pipe c) (hrun' : (Pipe.start c db').run as' = some v)
    (hno' : NoCallAbout d as') (j : Fin c.clients) (hf' : FlushCompletes j v v')
    (s : Fin c.shards) (ix : Indexer)
    (hix : (Indexer.init o).run so (v'.idxLog s) = some ix) (log2 : Rat → Rat)
    (tokens labels : List Str) (docIds : Option (List Str)) (docs : List IndexedDoc) (n : Nat)
    (hlk : ix.lookup log2 tokens labels docIds false = some (docs, n)) :
    d ∈ docs.map (·.docId) ↔
      ∃ x, lastStored c d (listedDb (db (c.storeRoute d)) d) (st.calls.map (·.2)) = some x ∧
        c.route d x = s ∧ tokens ++ labels ≠ [] ∧ Allowed docIds d ∧
        ∀ k ∈ tokens ++ labels, k ∈ (c.docOf d x).keys := by
  have hru : Reach db u := (hf.reach ⟨as, hrun⟩).run hl
  rw [C43_restart_serves_stored hs hdoc hk hso o db' (dbOk_left hdb hru db' hdb') d h0 as' v v' hrun' hno' j hf'
    s ix hix log2 tokens labels docIds docs n hlk, listedDb_of_lists (hdb' _) d,
    C43_flushed_is_stored hs db hdb d h0 as st st' u hrun hseq hrm i hf later hl hno, if_pos rfl]

/-- **C43** (crashes) At every moment of every run, without any Flush or discipline, what a database
holds about `d` is what it held before, or the data of some Index(d) call, whole; it holds nothing
only if it held nothing before or RemoveDoc(d) was called. -/
theorem C43_crash_whole_documents (db : Fin c.stores → List (Str × D)) (as : List (Act c.toPipeSize D))
    (st : Pipe c) (hrun : (Pipe.start c db).run as = some st) (m : Fin c.stores) (d : Str) :
    st.dbContent db m d = listedDb (db m) d ∨
    (∃ i x f, (i, Call.index d x f) ∈ st.calls ∧ c.encodes x = true ∧ st.dbContent db m d = some x) ∨
    (st.dbContent db m d = none ∧ ∃ i f, (i, Call.remove d f) ∈ st.calls) := by
  have hr : Reach db st := ⟨as, hrun⟩
  unfold Pipe.dbContent
  have key : ∀ (ops : List (DbOp D)), (∀ op ∈ ops, op ∈ st.dbLog m) →
      dbApply (listedDb (db m)) ops d = listedDb (db m) d ∨
      (∃ i x f, (i, Call.index d x f) ∈ st.calls ∧ c.encodes x = true ∧
        dbApply (listedDb (db m)) ops d = some x) ∨
      (dbApply (listedDb (db m)) ops d = none ∧ ∃ i f, (i, Call.remove d f) ∈ st.calls) := by
    intro ops
    induction ops using List.reverseRecOn with
    | nil => intro _; exact Or.inl rfl
    | append_singleton ops op ih =>
      intro hall
      have ih := ih (fun o ho => hall o (by simp [ho]))
      have hop := hall op (by simp)
      have hstep : dbApply (listedDb (db m)) (ops ++ [op]) = dbStep (dbApply (listedDb (db m)) ops) op := by
        simp [dbApply]
      rw [hstep]
      cases op with
      | set id z =>
        by_cases hid : d = id
        · subst hid
          obtain ⟨_, _, _, h3, i, f, h4⟩ := db_mem_set hr hop
          right; left
          exact ⟨i, z, f, h4, h3, by simp [dbStep]⟩
        · simp only [dbStep, if_neg hid]; exact ih
      | del id =>
        by_cases hid : d = id
        · subst hid
          obtain ⟨i, f, h4⟩ := db_mem_del hr hop
          right; right
          exact ⟨by simp [dbStep], i, f, h4⟩
        · simp only [dbStep, if_neg hid]; exact ih
  exact key _ (fun _ h => h)

/-! ## C44 -/

theorem dbApply_append (mp : Str → Option D) (a b : List (DbOp D)) :
    dbApply mp (a ++ b) = dbApply (dbApply mp a) b := by simp [dbApply]

theorem dbApply_deleted (mp : Str → Option D) (d : Str) (ops : List (DbOp D)) (hdel : DbOp.del d ∈ ops)
    (hno : ops.filter (DbOp.isSet d) = []) : dbApply mp ops d = none := by
  obtain ⟨a, b, rfl⟩ := List.append_of_mem hdel
  rw [dbApply_append]
  have hb : b.filter (DbOp.isSet d) = [] := by
    rw [List.filter_append, List.append_eq_nil_iff] at hno
    rw [List.filter_cons] at hno
    simpa [DbOp.isSet] using hno.2
  clear hno hdel
  show dbApply (dbStep (dbApply mp a) (.del d)) b d = none
  have h0 : dbStep (dbApply mp a) (.del d) d = none := by simp [dbStep]
  generalize dbStep (dbApply mp a) (.del d) = f at h0
  induction b generalizing f with
  | nil => exact h0
  | cons op b ih =>
    rw [List.filter_cons] at hb
    split at hb
    · simp at hb
    · rename_i hop
      refine ih hb _ ?_
      cases op with
      | set id x =>
        have : d ≠ id := by rintro rfl; simp [DbOp.isSet] at hop
        simp [dbStep, this, h0]
      | del id => simp only [dbStep]; split <;> simp [h0]

/-- **C44** (partial: everything before RemoveDoc was flushed, and the goroutine that deletes the
document has run) After a Flush, RemoveDoc(d), any other calls that do not index `d`, and the end
of all work, no database holds `d`. -/
theorem C44_removed_from_store_partial (hs : c.useStore = true) (db : Fin c.stores → List (Str × D))
    (hdb : DbOk c db) (d : Str) (h0 : d ≠ str "0") (as0 : List (Act c.toPipeSize D)) (st0 st1 st2 st3 : Pipe c)
    (hr0 : (Pipe.start c db).run as0 = some st0) (i j : Fin c.clients)
    (hf : FlushCompletes i st0 st1) (f : Bool) (hrm : st1.step (.call j (.remove d f)) = some st2)
    (as : List (Act c.toPipeSize D)) (hrun : st2.run as = some st3)
    (hno : ∀ (i' : Fin c.clients) (x : D) (g : Bool), Act.call i' (.index d x g) ∉ as)
    (hq : st3.Quiet) (m : Fin c.stores) : st3.dbContent db m d = none := by
  classical
  have r0 : Reach db st0 := ⟨as0, hr0⟩
  have r1 := hf.reach r0
  have r3 := (r1.step hrm).run hrun
  by_cases hm : m = c.storeRoute d
  swap
  · exact dbContent_elsewhere hdb r3 hm
  subst hm
  obtain ⟨N, hN⟩ : st1.dbLog (c.storeRoute d) <+: st3.dbLog (c.storeRoute d) :=
    (step_dbLog st1 st2 _ hrm _).trans (run_dbLog as st2 st3 hrun _)
  unfold Pipe.dbContent
  rw [← hN, dbApply_append]
  have hcalls : st3.calls = st0.calls ++ [(i, Call.flush)] ++ [(j, Call.remove d f)] ++ as.flatMap Act.called := by
    rw [run_calls _ _ _ hrun, step_calls _ _ _ hrm, hf.calls]; rfl
  have hset := flush_stored hs r0 hf (c.storeRoute d) (DbOp.isSet d) (by
    intro op hop
    cases op with
    | set id x => exact ⟨id, x, rfl⟩
    | del id => simp [DbOp.isSet] at hop)
  obtain ⟨bs, hb⟩ := r3
  obtain ⟨bs1, hb1⟩ := r1
  have hz : ∀ p, (μDb c (c.storeRoute d) p).pending st3 = 0 := fun p =>
    pending_zero_of _ (fun t => by rw [hq.1 t]; rfl) hq.2.1 hq.2.2
  -- no new writes
  have hnoset : ((as.flatMap Act.called).flatMap (fun x => c.callDb (c.storeRoute d) x.2)).filter (DbOp.isSet d) = [] := by
    rw [List.filter_eq_nil_iff]
    intro op hop
    obtain ⟨⟨k, b⟩, hb, hop⟩ := List.mem_flatMap.1 hop
    obtain ⟨a, ha, hab⟩ := List.mem_flatMap.1 hb
    cases a <;> simp [Act.called] at hab
    obtain ⟨rfl, rfl⟩ := hab
    cases b with
    | index id x g =>
      by_cases hid : id = d
      · subst hid; exact absurd ha (hno _ _ _)
      · simp only [PipeCfg.callDb] at hop
        split at hop <;> simp at hop
        subst hop; simp [DbOp.isSet, hid]
    | remove id g =>
      simp only [PipeCfg.callDb] at hop
      split at hop <;> simp at hop
      subst hop; simp [DbOp.isSet]
    | flush => simp [PipeCfg.callDb] at hop
  have e1 := db_conserve (c.storeRoute d) (DbOp.isSet d) db bs st3 hb
  have e2 := db_conserve (c.storeRoute d) (fun x => decide (x = DbOp.del d)) db bs st3 hb
  have e3 := db_conserve (c.storeRoute d) (fun x => decide (x = DbOp.del d)) db bs1 st1 hb1
  rw [hz] at e1 e2
  rw [← hN, List.countP_append] at e1 e2
  have i3 : st3.issuedDb (c.storeRoute d) = st0.issuedDb (c.storeRoute d) ++ [.del d] ++
      (as.flatMap Act.called).flatMap (fun x => c.callDb (c.storeRoute d) x.2) := by
    unfold Pipe.issuedDb
    rw [hcalls]
    simp [PipeCfg.callDb, hs, h0]
  have i1 : st1.issuedDb (c.storeRoute d) = st0.issuedDb (c.storeRoute d) := by
    unfold Pipe.issuedDb
    rw [hf.calls]
    simp [PipeCfg.callDb]
  rw [i3] at e1 e2
  rw [i1] at e3
  simp only [List.countP_append] at e1 e2
  apply dbApply_deleted
  · have : 0 < N.countP (fun x => decide (x = DbOp.del d)) := by
      have : ([DbOp.del d] : List (DbOp D)).countP (fun x => decide (x = DbOp.del d)) = 1 := by simp
      omega
    obtain ⟨x, hx, he⟩ := List.countP_pos_iff.1 this
    simp only [decide_eq_true_eq] at he
    rwa [he] at hx
  · have h1 : ((as.flatMap Act.called).flatMap (fun x => c.callDb (c.storeRoute d) x.2)).countP (DbOp.isSet d) = 0 := by
      rw [List.countP_eq_length_filter, hnoset]; rfl
    have h2 : ([DbOp.del d] : List (DbOp D)).countP (DbOp.isSet d) = 0 := by simp [DbOp.isSet]
    rw [← List.length_eq_zero_iff, ← List.countP_eq_length_filter]
    omega

/-- **C44** (partial, as above) ... and a new engine on the databases left does not find `d`. -/
theorem C44_restart_without_removed_partial (hs : c.useStore = true) (hdoc : c.DocOk) (hk : c.KeysOk)
    {so : Sorter} (hso : SortOk so) (o : IndexerOpts) (db db' : Fin c.stores → List (Str × D))
    (hdb : DbOk c db) (d : Str) (h0 : d ≠ str "0") (as0 : List (Act c.toPipeSize D)) (st0 st1 st2 st3 : Pipe c)
    (hr0 : (Pipe.start c db).run as0 = some st0) (i j : Fin c.clients)
    (hf : FlushCompletes i st0 st1) (f : Bool) (hrm : st1.step (.call j (.remove d f)) = some st2)
    (as : List (Act c.toPipeSize D)) (hrun : st2.run as = some st3)
    (hno : ∀ (i' : Fin c.clients) (x : D) (g : Bool), Act.call i' (.index d x g) ∉ as)
    (hq : st3.Quiet) (hdb' : ∀ m, ListsDb (db' m) (st3.dbContent db m))
    (as' : List (Act c.toPipeSize D)) (v v' : Pipe c) (hrun' : (Pipe.start c db').run as' = some v)
    (hno' : NoCallAbout d as') (k : Fin c.clients) (hf' : FlushCompletes k v v')
    (s : Fin c.shards) (ix : Indexer)
    (hix : (Indexer.init o).run so (v'.idxLog s) = some ix) (log2 : Rat → Rat)
    (tokens labels : List Str) (docIds : Option (List Str)) (docs : List IndexedDoc) (n : Nat)
    (hlk : ix.lookup log2 tokens labels docIds false = some (docs, n)) :
    d ∉ docs.map (·.docId) := by
  have hru : Reach db st3 := ((hf.reach ⟨as0, hr0⟩).step hrm).run hrun
  rw [C43_restart_serves_stored hs hdoc hk hso o db' (dbOk_left hdb hru db' hdb') d h0 as' v v' hrun' hno' k hf'
    s ix hix log2 tokens labels docIds docs n hlk, listedDb_of_lists (hdb' _) d,
    C44_removed_from_store_partial hs db hdb d h0 as0 st0 st1 st2 st3 hr0 i j hf f hrm as hrun hno hq]
  simp

/-! ## C46 -/

/-- **C46** The store shard is the same function of the DocId in Index, RemoveDoc and HasDocDB, in
range for every number of store shards. -/
theorem C46_store_shard_in_range (murmur : Str → Nat) (shards : Nat) (h1 : 1 ≤ shards) (h2 : shards < 2 ^ 32)
    (id : Str) : ∃ k, storeShard murmur shards id = some k ∧ k < shards ∧ k = murmur id % 2 ^ 32 % shards := by
  refine ⟨murmur id % 2 ^ 32 % shards, ?_, Nat.mod_lt _ h1, rfl⟩
  unfold storeShard
  rw [Nat.mod_eq_of_lt h2, if_neg (by omega)]

/-- **C46** At every moment of every run GetDBAllIds lists exactly the documents for which HasDocDB
is true, each once (`lists` is any enumeration of the databases). -/
theorem C46_all_ids (db : Fin c.stores → List (Str × D)) (hdb : DbOk c db) (as : List (Act c.toPipeSize D))
    (st : Pipe c) (hrun : (Pipe.start c db).run as = some st) (lists : Fin c.stores → List (Str × D))
    (hl : ∀ m, ListsDb (lists m) (st.dbContent db m)) :
    (getDBAllIds lists).Nodup ∧ ∀ d, d ∈ getDBAllIds lists ↔ st.hasDocDB db d = true := by
  have hr : Reach db st := ⟨as, hrun⟩
  have hroute : ∀ m id, id ∈ (lists m).map (·.1) → c.storeRoute id = m := by
    intro m id hm
    obtain ⟨⟨id', x⟩, hx, rfl⟩ := List.mem_map.1 hm
    exact (dbContent_route hdb hr (((hl m).2 id' x).1 hx)).1
  constructor
  · unfold getDBAllIds
    rw [List.nodup_flatMap]
    refine ⟨fun m _ => (hl m).1, ?_⟩
    refine (List.nodup_finRange c.stores).imp ?_
    intro m m' hne
    intro id h1 h2
    exact hne ((hroute m id h1).symm.trans (hroute m' id h2))
  · intro d
    unfold getDBAllIds Pipe.hasDocDB
    simp only [List.mem_flatMap, List.mem_finRange, true_and]
    constructor
    · rintro ⟨m, hm⟩
      have := hroute m d hm
      obtain ⟨⟨id', x⟩, hx, rfl⟩ := List.mem_map.1 hm
      rw [this, ((hl m).2 id' x).1 hx]; rfl
    · intro h
      obtain ⟨x, hx⟩ := Option.isSome_iff_exists.1 h
      exact ⟨c.storeRoute d, List.mem_map.2 ⟨(d, x), ((hl _).2 d x).2 hx, rfl⟩⟩

/-- **C46** After Index calls one at a time, no RemoveDoc(d), and a Flush (and anything that is not
about `d`), HasDocDB(d) tells whether `d` was in a database before or an Index(d) could be encoded. -/
theorem C46_has_after_flush (hs : c.useStore = true) (db : Fin c.stores → List (Str × D))
    (hdb : DbOk c db) (d : Str) (h0 : d ≠ str "0") (as : List (Act c.toPipeSize D)) (st st' u : Pipe c)
    (hrun : (Pipe.start c db).run as = some st) (hseq : SequentialFor d (Pipe.start c db) as)
    (hrm : ∀ i f, (i, Call.remove d f) ∉ st.calls)
    (i : Fin c.clients) (hf : FlushCompletes i st st') (later : List (Act c.toPipeSize D))
    (hl : st'.run later = some u) (hno : NoCallAbout d later) :
    u.hasDocDB db d = true ↔ (∃ m x, (d, x) ∈ db m) ∨
      ∃ j x f, (j, Call.index d x f) ∈ st.calls ∧ c.encodes x = true := by
  unfold Pipe.hasDocDB
  rw [C43_flushed_is_stored hs db hdb d h0 as st st' u hrun hseq hrm i hf later hl hno, if_pos rfl]
  have hlast : ∀ (l : List (Fin c.clients × Call D)) (b : Option D),
      (lastStored c d b (l.map (·.2))).isSome = true ↔ b.isSome = true ∨
        ∃ j x f, (j, Call.index d x f) ∈ l ∧ c.encodes x = true := by
    intro l
    induction l with
    | nil => intro b; simp [lastStored]
    | cons a l ih =>
      intro b
      obtain ⟨j, a⟩ := a
      have hstep : ∀ b', lastStored c d b ((j, a) :: l |>.map (·.2)) = lastStored c d b' (l.map (·.2)) →
          ((lastStored c d b ((j, a) :: l |>.map (·.2))).isSome = true ↔ b'.isSome = true ∨
            ∃ j x f, (j, Call.index d x f) ∈ l ∧ c.encodes x = true) := by
        intro b' he; rw [he, ih]
      cases a with
      | index id x f =>
        by_cases hid : id = d ∧ c.encodes x = true
        · rw [hstep (some x) (by simp [lastStored, hid])]
          simp only [Option.isSome_some, true_or, true_iff]
          right
          exact ⟨j, x, f, by rw [hid.1]; simp, hid.2⟩
        · rw [hstep b (by simp only [lastStored, List.map_cons, List.foldl_cons, if_neg hid])]
          refine or_congr_right ⟨fun ⟨j', y, g, h1, h2⟩ => ⟨j', y, g, by simp [h1], h2⟩, ?_⟩
          rintro ⟨j', y, g, h1, h2⟩
          rcases List.mem_cons.1 h1 with h1 | h1
          · simp only [Prod.mk.injEq, Call.index.injEq] at h1
            exact absurd ⟨h1.2.1.symm, h1.2.2.1 ▸ h2⟩ hid
          · exact ⟨j', y, g, h1, h2⟩
      | remove id f => rw [hstep b (by simp [lastStored])]; simp
      | flush => rw [hstep b (by simp [lastStored])]; simp
  rw [hlast]
  refine or_congr_left ?_
  constructor
  · intro h
    obtain ⟨x, hx⟩ := Option.isSome_iff_exists.1 h
    exact ⟨_, x, ((listedDb_lists (hdb _).1).2 d x).2 hx⟩
  · rintro ⟨m, x, hx⟩
    have hm := ((hdb m).2 _ hx).1
    simp only at hm
    rw [hm, ((listedDb_lists (hdb m).1).2 d x).1 hx]; rfl

/-! ## Witnesses and counterexamples -/

/-- One client, one segmenter thread, two shards, two store shards. -/
def storePipe : PipeCfg Nat := demoPipe 1 2 2 (by decide) (by decide) true

def sclient : Fin storePipe.clients := ⟨0, by decide⟩
def sshard0 : Fin storePipe.shards := ⟨0, by decide⟩
def sshard1 : Fin storePipe.shards := ⟨1, by decide⟩
def db0 : Fin storePipe.stores := ⟨0, by decide⟩
def db1 : Fin storePipe.stores := ⟨1, by decide⟩

theorem storePipe_ok : storePipe.DocOk ∧ storePipe.KeysOk :=
  ⟨fun _ _ => rfl, fun _ _ => by simp [storePipe, demoPipe]⟩

theorem dbOk_empty : DbOk storePipe (fun _ => []) := fun _ => ⟨by simp, by simp⟩

/-- The calls of a single client are one at a time. -/
theorem sequential_one {c : PipeCfg D} (hone : c.clients = 1) (d : Str) (st st' : Pipe c)
    (as : List (Act c.toPipeSize D)) (h : st.run as = some st') : SequentialFor d st as := by
  intro as1 i x f as2 u he hu
  rw [he, run_append, hu] at h
  simp only [Option.bind_some, Pipe.run] at h
  obtain ⟨v, hv, _⟩ := Option.bind_eq_some_iff.1 h
  simp only [Pipe.step] at hv
  split at hv
  · rename_i hc
    intro j
    have : j = i := by
      apply Fin.ext
      have h1 := j.isLt
      have h2 := i.isLt
      omega
    rw [this]; exact hc.2
  · simp at hv

/-- The databases after Index("1", 7), Index("22", 4), Index("1", 9), Flush. -/
def leftDb : Fin storePipe.stores → List (Str × Nat) := fun m =>
  if m = db1 then [(str "1", 9)] else [(str "22", 4)]

def storedCalls : List (Fin storePipe.clients × Call Nat) :=
  [(sclient, Call.index (str "1") 7 false), (sclient, Call.index (str "22") 4 false),
   (sclient, Call.index (str "1") 9 false)]

/-- A new engine on `leftDb`, Flush. -/
def restarted : Option (Pipe storePipe) := (Pipe.start storePipe leftDb).round (demoActs _) sclient []

theorem lists_left (f : Str → Option Nat) (m : Fin storePipe.stores)
    (h : f = dbApply (listedDb []) (if m = db1 then [.set (str "1") 7, .set (str "1") 9] else [.set (str "22") 4])) :
    ListsDb (leftDb m) f := by
  subst h
  unfold leftDb
  by_cases hm : m = db1
  · simp only [hm, if_true]
    refine ⟨by simp, fun id x => ?_⟩
    simp only [List.mem_singleton, Prod.mk.injEq, dbApply, List.foldl_cons, List.foldl_nil, dbStep]
    by_cases hid : id = str "1" <;> simp [hid, listedDb, eq_comm]
  · simp only [hm, if_false]
    refine ⟨by simp, fun id x => ?_⟩
    simp only [List.mem_singleton, Prod.mk.injEq, dbApply, List.foldl_cons, List.foldl_nil, dbStep]
    by_cases hid : id = str "22" <;> simp [hid, listedDb, eq_comm]

/-- The hypotheses of the C43 theorems are met: a first engine, its databases, and a second engine
that finds the last version on its shard, and does not find the first. -/
example : ∃ (as : List (Act storePipe.toPipeSize Nat)) (st st' : Pipe storePipe)
      (as' : List (Act storePipe.toPipeSize Nat)) (v v' : Pipe storePipe),
    (Pipe.start storePipe (fun _ => [])).run as = some st ∧
    SequentialFor (str "1") (Pipe.start storePipe (fun _ => [])) as ∧
    (∀ i f, (i, Call.remove (str "1") f) ∉ st.calls) ∧ FlushCompletes sclient st st' ∧
    (∀ m, ListsDb (leftDb m) (st'.dbContent (fun _ => []) m)) ∧
    (Pipe.start storePipe leftDb).run as' = some v ∧ NoCallAbout (str "1") as' ∧ FlushCompletes sclient v v' ∧
    v'.findKey sshard1 "k9" = some [str "1"] ∧ v'.findKey sshard1 "k7" = some [] ∧
    v'.findKey sshard0 "k4" = some [str "22"] := by
  let as := (Pipe.start storePipe (fun _ => [])).session (demoActs _) storedCalls
  have h : ((Pipe.start storePipe (fun _ => [])).run as).any (fun st =>
      decide (st.calls = storedCalls) &&
      (st.flushBy sclient (st.flushSched (demoActs _) sclient)).any (fun st' =>
        decide (∀ m, st'.dbLog m = if m = db1 then [.set (str "1") 7, .set (str "1") 9] else [.set (str "22") 4])))
      = true := by decide +kernel
  let as' := (Pipe.start storePipe leftDb).session (demoActs _) []
  have h' : ((Pipe.start storePipe leftDb).run as').any (fun v =>
      as'.all (fun a => !a.isCall) &&
      (v.flushBy sclient (v.flushSched (demoActs _) sclient)).any (fun v' =>
        decide (v'.findKey sshard1 "k9" = some [str "1"] ∧ v'.findKey sshard1 "k7" = some [] ∧
          v'.findKey sshard0 "k4" = some [str "22"]))) = true := by decide +kernel
  obtain ⟨st, hst, hp⟩ := (Option.any_eq_true _ _).1 h
  simp only [Bool.and_eq_true, decide_eq_true_eq] at hp
  obtain ⟨st', hst', hp'⟩ := (Option.any_eq_true _ _).1 hp.2
  obtain ⟨v, hv, hq⟩ := (Option.any_eq_true _ _).1 h'
  simp only [Bool.and_eq_true] at hq
  obtain ⟨v', hv', hq'⟩ := (Option.any_eq_true _ _).1 hq.2
  refine ⟨as, st, st', as', v, v', hst, sequential_one rfl _ _ _ _ hst, ?_, flushBy_completes hst', ?_, hv, ?_,
    flushBy_completes hv', of_decide_eq_true hq'⟩
  · intro i f; rw [hp.1]; simp [storedCalls]
  · intro m
    have := of_decide_eq_true hp' m
    exact lists_left _ m (by unfold Pipe.dbContent; rw [this])
  · intro i b hm
    have := List.all_eq_true.1 hq.1 _ hm
    simp [Act.isCall] at this

/-- **C43 is false** without the Flush: a restarted engine has read its databases, Init has returned
and all work is done, but a search does not find the stored document (it waits in the cache of its
shard until a forced refresh). -/
theorem C43_refuted_invisible_until_flush : ∃ (as : List (Act storePipe.toPipeSize Nat)) (st : Pipe storePipe),
    (Pipe.start storePipe leftDb).run as = some st ∧ st.inited = true ∧ st.Quiet ∧
    st.findKey sshard1 "k9" = some [] := by
  let as := (Pipe.start storePipe leftDb).greedy (demoActs _ ++ demoRanks _) 100
  have h : ((Pipe.start storePipe leftDb).run as).any (fun st => st.inited && st.quietB &&
      decide (st.findKey sshard1 "k9" = some [])) = true := by decide +kernel
  obtain ⟨st, hst, hp⟩ := (Option.any_eq_true _ _).1 h
  simp only [Bool.and_eq_true, decide_eq_true_eq] at hp
  exact ⟨as, st, hst, hp.1.1, quiet_of_B hp.1.2, hp.2⟩

/-- **C44 is false** if the engine ends right after Close's Flush: Index("1"), Flush, RemoveDoc("1"),
Flush returns before the goroutine that deletes the document from the database has run. The
document is still in its database, and a new engine on the database finds it. -/
theorem C44_refuted_delete_not_awaited : ∃ (as0 : List (Act storePipe.toPipeSize Nat))
      (st0 st1 st2 : Pipe storePipe) (as : List (Act storePipe.toPipeSize Nat)) (st3 st4 : Pipe storePipe)
      (v : Pipe storePipe),
    (Pipe.start storePipe (fun _ => [])).run as0 = some st0 ∧ FlushCompletes sclient st0 st1 ∧
    st1.step (.call sclient (.remove (str "1") true)) = some st2 ∧ st2.run as = some st3 ∧
    FlushCompletes sclient st3 st4 ∧ st4.findKey sshard1 "k9" = some [] ∧
    (∀ m, ListsDb (leftDb m) (st4.dbContent (fun _ => []) m)) ∧
    restarted = some v ∧ v.findKey sshard1 "k9" = some [str "1"] := by
  let as0 := (Pipe.start storePipe (fun _ => [])).session (demoActs _) storedCalls
  have h : ((Pipe.start storePipe (fun _ => [])).run as0).any (fun st0 =>
      (st0.flushBy sclient (st0.flushSched (demoActs _) sclient)).any (fun st1 =>
        (st1.step (.call sclient (.remove (str "1") true))).any (fun st2 =>
          (st2.run (st2.greedy (demoActs _ ++ demoRanks _) 100)).any (fun st3 =>
            (st3.flushBy sclient (st3.flushSched (demoActs _) sclient)).any (fun st4 =>
              decide (st4.findKey sshard1 "k9" = some []) &&
              decide (∀ m, st4.dbLog m = if m = db1 then [.set (str "1") 7, .set (str "1") 9]
                else [.set (str "22") 4])))))) = true := by decide +kernel
  have h' : restarted.any (fun v => decide (v.findKey sshard1 "k9" = some [str "1"])) = true := by decide +kernel
  obtain ⟨st0, hst0, hp0⟩ := (Option.any_eq_true _ _).1 h
  obtain ⟨st1, hst1, hp1⟩ := (Option.any_eq_true _ _).1 hp0
  obtain ⟨st2, hst2, hp2⟩ := (Option.any_eq_true _ _).1 hp1
  obtain ⟨st3, hst3, hp3⟩ := (Option.any_eq_true _ _).1 hp2
  obtain ⟨st4, hst4, hp4⟩ := (Option.any_eq_true _ _).1 hp3
  simp only [Bool.and_eq_true, decide_eq_true_eq] at hp4
  obtain ⟨v, hv, hq⟩ := (Option.any_eq_true _ _).1 h'
  refine ⟨as0, st0, st1, st2, _, st3, st4, v, hst0, flushBy_completes hst1, hst2, hst3, flushBy_completes hst4,
    hp4.1, ?_, hv, of_decide_eq_true hq⟩
  intro m
  exact lists_left _ m (by unfold Pipe.dbContent; rw [hp4.2 m])

/-- **C44 is false** if Index(d) was not flushed before RemoveDoc(d): Index("1"), RemoveDoc("1"), by
one caller; the deletion overtakes the write, and when all work is done the document is in its
database for good. -/
theorem C44_refuted_delete_overtakes : ∃ (as : List (Act storePipe.toPipeSize Nat)) (st : Pipe storePipe),
    (Pipe.start storePipe (fun _ => [])).run as = some st ∧ st.Quiet ∧
    st.calls = [(sclient, Call.index (str "1") 9 false), (sclient, Call.remove (str "1") true)] ∧
    st.dbContent (fun _ => []) db1 (str "1") = some 9 := by
  let slow : List (Act storePipe.toPipeSize Nat) := [.ready, .run (.init db0), .run (.init db1), .run (.client sclient), .bg 0,
    .run (.idxRem sshard0), .recv (.idxRem sshard0), .run (.idxRem sshard1), .recv (.idxRem sshard1)] ++ demoRanks _
  let as1 := (Pipe.start storePipe (fun _ => [])).session slow
    [(sclient, Call.index (str "1") 9 false), (sclient, Call.remove (str "1") true)]
  have h : ((Pipe.start storePipe (fun _ => [])).run as1).any (fun st1 =>
      (st1.run (st1.greedy (demoActs _ ++ demoRanks _) 100)).any (fun st => st.quietB &&
      decide (st.calls = [(sclient, Call.index (str "1") 9 false), (sclient, Call.remove (str "1") true)] ∧
        st.dbContent (fun _ => []) db1 (str "1") = some 9))) = true := by decide +kernel
  obtain ⟨st1, hst1, hp⟩ := (Option.any_eq_true _ _).1 h
  obtain ⟨st, hst, hp⟩ := (Option.any_eq_true _ _).1 hp
  simp only [Bool.and_eq_true, decide_eq_true_eq] at hp
  exact ⟨as1 ++ st1.greedy (demoActs _ ++ demoRanks _) 100, st, by rw [run_append, hst1]; exact hst,
    quiet_of_B hp.1, hp.2⟩

/-- The hypotheses of `C44_removed_from_store_partial` are met; the document was in the database
before the removal. -/
example : ∃ (as0 : List (Act storePipe.toPipeSize Nat)) (st0 st1 st2 : Pipe storePipe)
      (as : List (Act storePipe.toPipeSize Nat)) (st3 : Pipe storePipe),
    (Pipe.start storePipe (fun _ => [])).run as0 = some st0 ∧ FlushCompletes sclient st0 st1 ∧
    st1.step (.call sclient (.remove (str "1") true)) = some st2 ∧ st2.run as = some st3 ∧
    (∀ i x g, Act.call i (.index (str "1") x g) ∉ as) ∧ st3.Quiet ∧
    st1.dbContent (fun _ => []) db1 (str "1") = some 9 ∧ st3.dbContent (fun _ => []) db1 (str "1") = none := by
  let as0 := (Pipe.start storePipe (fun _ => [])).session (demoActs _) storedCalls
  have h : ((Pipe.start storePipe (fun _ => [])).run as0).any (fun st0 =>
      (st0.flushBy sclient (st0.flushSched (demoActs _) sclient)).any (fun st1 =>
        decide (st1.dbContent (fun _ => []) db1 (str "1") = some 9) &&
        (st1.step (.call sclient (.remove (str "1") true))).any (fun st2 =>
          ((st2.greedy (.bg 0 :: demoActs _ ++ demoRanks _) 100).all (fun a => !a.isCall)) &&
          (st2.run (st2.greedy (.bg 0 :: demoActs _ ++ demoRanks _) 100)).any (fun st3 =>
            st3.quietB && decide (st3.dbContent (fun _ => []) db1 (str "1") = none))))) = true := by
    decide +kernel
  obtain ⟨st0, hst0, hp0⟩ := (Option.any_eq_true _ _).1 h
  obtain ⟨st1, hst1, hp1⟩ := (Option.any_eq_true _ _).1 hp0
  simp only [Bool.and_eq_true, decide_eq_true_eq] at hp1
  obtain ⟨st2, hst2, hp2⟩ := (Option.any_eq_true _ _).1 hp1.2
  simp only [Bool.and_eq_true] at hp2
  obtain ⟨st3, hst3, hp3⟩ := (Option.any_eq_true _ _).1 hp2.2
  simp only [Bool.and_eq_true, decide_eq_true_eq] at hp3
  refine ⟨as0, st0, st1, st2, _, st3, hst0, flushBy_completes hst1, hst2, hst3, ?_, quiet_of_B hp3.1, hp1.1, hp3.2⟩
  intro i x g hm
  have := List.all_eq_true.1 hp2.1 _ hm
  simp [Act.isCall] at this

/-- Databases with an enumeration, for C46. -/
example : getDBAllIds leftDb = [str "22", str "1"] := by decide +kernel

example : storeShard (fun s => s.length * 1000003) 7 (str "abc") = some 5 := by decide +kernel

end Riot
