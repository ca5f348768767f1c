import Verif.Proofs.PipelineRounds
import Verif.Props.EngineSearch
import Verif.Props.Segment
import Verif.Spec.PipeWitness

/-!
# The engine under concurrency: C30, C31, C32, C33, C34

`Pipe.start c db` is a new engine on the databases `db`; `run as` is any schedule of its
goroutines and callers. Everything below is for every configuration, every schedule, every
number of callers and every content of the databases.
-/

namespace Riot

variable {D : Type} {c : PipeCfg D}

/-! ## C34 -/

/-- **C34** At every moment, NumIndexed is at most the number of documents given to the engine
(by Index, or found in the databases), and NumRemoved is at most NumShards times the number of
RemoveDoc calls. -/
theorem C34_counters_never_overtake (db : Fin c.stores → List (Str × D))
    (as : List (Act c.toPipeSize D)) (st : Pipe c) (h : (Pipe.start c db).run as = some st) :
    st.count .indexed ≤ (c.recovered db).countP (fun x => x.1 ≠ str "0") +
      st.calls.countP (fun x => x.2.isIndex) ∧
    st.count .removed ≤ c.shards * st.calls.countP (fun x => x.2.isRemove) := by
  have hr : Reach db st := ⟨as, h⟩
  have e1 := hr.indexed_total
  have e2 := hr.removed_total
  unfold PipeCfg.numRecovered at e1
  omega

/-- **C34** When all work is done the counters are exact; NumTokenAdded is the total number of
search keys of all documents. -/
theorem C34_counters_exact_when_done (db : Fin c.stores → List (Str × D))
    (as : List (Act c.toPipeSize D)) (st : Pipe c) (h : (Pipe.start c db).run as = some st)
    (hq : st.Quiet) :
    st.count .indexed = (c.recovered db).countP (fun x => x.1 ≠ str "0") +
      st.calls.countP (fun x => x.2.isIndex) ∧
    st.count .removed = c.shards * st.calls.countP (fun x => x.2.isRemove) ∧
    st.count .tokens = (((c.recovered db).map (fun x => Call.index x.1 x.2 false) ++
      st.calls.map (·.2)).map (c.callCount .tokens)).sum := by
  have hr : Reach db st := ⟨as, h⟩
  have hz : ∀ k, (μCount c k).pending st = 0 := fun k =>
    pending_zero_of _ (fun t => by rw [hq.1 t]; rfl) hq.2.1 hq.2.2
  have e1 := hr.indexed_total
  have e2 := hr.removed_total
  have e3 := count_conserve db as st h .tokens
  rw [hz] at e1 e2 e3
  unfold PipeCfg.numRecovered at e1
  refine ⟨by omega, by omega, ?_⟩
  rw [Nat.add_zero] at e3
  rw [e3, List.map_append, List.sum_append, List.map_map, List.map_map]
  congr 1
  apply congrArg List.sum
  apply List.map_congr_left
  intro x _
  simp [μCount_internal, PipeCfg.callCount]

/-- What the number of search keys of a call is. -/
example (id : Str) (x : D) (f : Bool) : c.callCount .tokens (.index id x f) =
    if id = str "0" then 0 else (c.docOf id x).keywords.length := rfl

/-! ## C32 -/

/-- **C32** When a Flush returns that was called with nothing else going on, then on every shard
exactly the additions and removals issued before have been executed, and afterwards the shard
made a forced refresh (and no addition or removal). -/
theorem C32_flush_waits_for_all_work (db : Fin c.stores → List (Str × D))
    (as : List (Act c.toPipeSize D)) (st st' : Pipe c) (h : (Pipe.start c db).run as = some st)
    (i : Fin c.clients) (hf : FlushCompletes i st st') (s : Fin c.shards) :
    ∃ L M, st'.idxLog s = L ++ M ∧
      (L.filter IdxOp.isWork).Perm ((st.issued db s).filter IdxOp.isWork) ∧
      M.filter IdxOp.isWork = [] ∧ IdxOp.flush true ∈ M := by
  obtain ⟨L, M, h1, h2, h3, h4, _⟩ := flush_index ⟨as, h⟩ hf s
  exact ⟨L, M, h1, h2, h3, h4⟩

/-- **C32** Flush (like every call) returns, whatever the schedule: if no more calls are made,
the number of steps is bounded, and when no step is possible any more, all calls have returned
and all work is done. In particular the pipeline has no deadlock. -/
theorem C32_calls_return (hz : c.toPipeSize.Ok) (db : Fin c.stores → List (Str × D))
    (as : List (Act c.toPipeSize D)) (st : Pipe c) (h : (Pipe.start c db).run as = some st) :
    ∃ N, ∀ (bs : List (Act c.toPipeSize D)) (st' : Pipe c), (∀ a ∈ bs, a.isCall = false) →
      st.run bs = some st' → bs.length ≤ N ∧
        ((∀ a, a.isCall = false → st'.step a = none) → st'.inited = true ∧ st'.Quiet) := by
  refine ⟨st.work, fun bs st' hno hr => ⟨?_, fun hs => ?_⟩⟩
  · have := work_run bs st st' hno hr; omega
  · exact stuck_quiet hz (Reach.run ⟨as, h⟩ hr) hs

/-! ## Searching after a Flush -/

/-- What a plain search of a shard returns about a settled document. -/
theorem search_settled {so : Sorter} (hso : SortOk so) (o : IndexerOpts) (h : List IdxOp)
    (hok : ∀ x ∈ h, OpOk x) (s : Indexer) (hr : (Indexer.init o).run so h = some s)
    (log2 : Rat → Rat) (tokens labels : List Str) (docIds : Option (List Str)) (docs : List IndexedDoc)
    (n : Nat) (hl : s.lookup log2 tokens labels docIds false = some (docs, n))
    (d : Str) (hd : DocDisciplined d h) (hs : Settled d h) :
    d ∈ docs.map (·.docId) ↔ Matches (ideal h) docIds (tokens ++ labels) d := by
  obtain ⟨tr, ht, hall⟩ := prefix_state hso o _ hok s hr
  obtain ⟨known, _, hinv, htr⟩ := hall _ le_rfl s (by rw [List.take_length]; exact hr)
  obtain ⟨_, _, hc, _⟩ := lookup_returns log2 hinv.core tokens labels docIds _ hl
  have hv := (ht.doc_ideal hd).2 (hs.no_pend ht)
  rw [hc d]
  rw [htr] at hv
  simp only [Matches, hv]

/-- Executed index calls were issued. -/
theorem mem_issued {db : Fin c.stores → List (Str × D)} {st : Pipe c} (hr : Reach db st)
    (s : Fin c.shards) {op : IdxOp} (h : op ∈ st.idxLog s) : op ∈ st.issued db s := by
  classical
  obtain ⟨as, ha⟩ := hr
  have := idx_conserve s (fun x => decide (x = op)) db as st ha
  have h1 : 0 < (st.idxLog s).countP (fun x => decide (x = op)) :=
    List.countP_pos_iff.2 ⟨op, h, by simp⟩
  have h2 : 0 < (st.issued db s).countP (fun x => decide (x = op)) := by omega
  obtain ⟨x, hx, he⟩ := List.countP_pos_iff.1 h2
  simp only [decide_eq_true_eq] at he
  rwa [he] at hx

/-- The documents the segmenter makes have distinct keywords (proved for the segmenter: C39). -/
def PipeCfg.KeysOk (c : PipeCfg D) : Prop :=
  ∀ id x, ((c.docOf id x).keywords.map (·.text)).Nodup

theorem log_ok (hk : c.KeysOk) {db : Fin c.stores → List (Str × D)} {st : Pipe c} (hr : Reach db st)
    (s : Fin c.shards) : ∀ op ∈ st.idxLog s, OpOk op := by
  intro op hop
  have := mem_issued hr s hop
  rw [issued_eq, List.mem_flatMap] at this
  obtain ⟨a, _, ha⟩ := this
  cases a with
  | index id x f =>
    simp only [PipeCfg.callOps] at ha
    split at ha
    · split at ha <;> simp at ha; subst ha; trivial
    · split at ha
      · simp at ha; subst ha; exact hk id x
      · split at ha <;> simp at ha; subst ha; trivial
  | remove id f => simp [PipeCfg.callOps] at ha; subst ha; trivial
  | flush => simp [PipeCfg.callOps] at ha; subst ha; trivial

/-- **C53** (the guarantee of the API) If the calls about a document are separated by Flushes,
then after a Flush a plain search of a shard finds the document exactly if the calls routed to
that shard, executed in order on an empty map, leave a version with all the keys of the request. -/
theorem C53_disciplined_content (hdoc : c.DocOk) (hk : c.KeysOk) {so : Sorter} (hso : SortOk so)
    (o : IndexerOpts) (db : Fin c.stores → List (Str × D)) (d : Str) (h0 : d ≠ str "0")
    (st : Pipe c) (l : List (Call D)) (h : Rounds db d st l) (s : Fin c.shards) (ix : Indexer)
    (hrun : (Indexer.init o).run so (st.idxLog s) = some ix) (log2 : Rat → Rat)
    (tokens labels : List Str) (docIds : Option (List Str)) (docs : List IndexedDoc) (n : Nat)
    (hl : ix.lookup log2 tokens labels docIds false = some (docs, n)) :
    d ∈ docs.map (·.docId) ↔
      Matches (ideal (l.flatMap (c.callOps s))) docIds (tokens ++ labels) d := by
  obtain ⟨hr, hall⟩ := h.inv hdoc h0
  obtain ⟨i1, _, i3, i4⟩ := hall s
  rw [search_settled hso o _ (log_ok hk hr s) ix hrun log2 tokens labels docIds docs n hl d i3 i4]
  have : ideal (st.idxLog s) d = ideal (l.flatMap (c.callOps s)) d := by
    rw [ideal_docOps d (st.idxLog s), i1, ← ideal_docOps]
  simp only [Matches, this]

/-- **C53** Indexes used with discipline do not crash: if the calls about every document are
separated by Flushes and nobody removes the reserved id "0", no index call of a shard panics. -/
theorem C53_disciplined_no_crash (hdoc : c.DocOk) (hk : c.KeysOk) {so : Sorter} (hso : SortOk so)
    (o : IndexerOpts) (db : Fin c.stores → List (Str × D)) (st : Pipe c)
    (h : ∀ d, d ≠ str "0" → ∃ l, Rounds db d st l) (hr : Reach db st)
    (hno : ∀ x ∈ st.calls, ∀ f, x.2 ≠ Call.remove (str "0") f) (s : Fin c.shards) :
    ((Indexer.init o).run so (st.idxLog s)).isSome = true := by
  have hmem : ∀ op ∈ st.idxLog s, op.id? ≠ some (str "0") := by
    intro op hop
    have := mem_issued hr s hop
    rw [issued_eq, List.mem_flatMap] at this
    obtain ⟨a, ha, hop'⟩ := this
    have ha' : ∀ f, a ≠ Call.remove (str "0") f := by
      intro f
      rw [List.mem_append] at ha
      rcases ha with ha | ha
      · obtain ⟨y, _, rfl⟩ := List.mem_map.1 ha; simp
      · obtain ⟨y, hy, rfl⟩ := List.mem_map.1 ha; exact hno y hy f
    cases a with
    | index id x f =>
      simp only [PipeCfg.callOps] at hop'
      split at hop'
      · split at hop' <;> simp at hop'; subst hop'; simp [IdxOp.id?]
      · rename_i hid
        split at hop'
        · simp at hop'; subst hop'; simp [IdxOp.id?, hdoc id x, hid]
        · split at hop' <;> simp at hop'; subst hop'; simp [IdxOp.id?]
    | remove id f =>
      simp [PipeCfg.callOps] at hop'; subst hop'
      simp only [IdxOp.id?, ne_eq, Option.some.injEq]
      rintro rfl; exact ha' f rfl
    | flush => simp [PipeCfg.callOps] at hop'; subst hop'; simp [IdxOp.id?]
  apply C05_no_crash_partial hso o _ (log_ok hk hr s)
  refine ⟨?_, ?_⟩
  · intro h1 a h2 b h3 he hc
    obtain ⟨doc, f, rfl, hb⟩ := hc
    have hd0 : doc.docId ≠ str "0" := by
      intro h
      exact hmem _ (by rw [he]; simp) (by simp [IdxOp.id?, h] : (IdxOp.add doc f).id? = some (str "0"))
    obtain ⟨l, hl⟩ := h doc.docId hd0
    exact ((hl.inv hdoc hd0).2 s).2.2.1.2 h1 doc f h2 b h3 he rfl hb
  · intro f hm
    exact hmem _ hm rfl

/-- The last call about `d` decides what the calls leave on a shard. -/
theorem ideal_last_index (hdoc : c.DocOk) (d : Str) (h0 : d ≠ str "0") (l : List (Call D)) (x : D)
    (f : Bool) (s : Fin c.shards) (hs : c.route d x = s) :
    ideal ((l ++ [Call.index d x f]).flatMap (c.callOps s)) d = some (c.docOf d x) := by
  simp [ideal, List.foldl_append, PipeCfg.callOps, h0, hs, idealStep, hdoc d x]

theorem ideal_last_remove (d : Str) (l : List (Call D)) (f : Bool) (s : Fin c.shards) :
    ideal ((l ++ [Call.remove d f]).flatMap (c.callOps s)) d = none := by
  simp [ideal, List.foldl_append, PipeCfg.callOps, idealStep]

theorem ideal_elsewhere (hdoc : c.DocOk) (d : Str) (s : Fin c.shards) (l : List (Call D))
    (hl : ∀ id x f, Call.index id x f ∈ l → id = d → c.route id x ≠ s) :
    ideal (l.flatMap (c.callOps s)) d = none := by
  induction l using List.reverseRecOn with
  | nil => rfl
  | append_singleton l a ih =>
    have ih := ih (fun id x f hm => hl id x f (by simp [hm]))
    rw [List.flatMap_append]
    simp only [ideal, List.foldl_append, List.flatMap_cons, List.flatMap_nil, List.append_nil] at ih ⊢
    have hkeep : ∀ op, op ∈ c.callOps s a → op.id? ≠ some d ∨ ∃ id f, op = .remove id f := by
      intro op hop
      cases a with
      | index id x f =>
        simp only [PipeCfg.callOps] at hop
        split at hop
        · split at hop <;> simp at hop; subst hop; left; simp [IdxOp.id?]
        · split at hop
          · rename_i hrt
            simp at hop; subst hop; left
            simp only [IdxOp.id?, hdoc id x, ne_eq, Option.some.injEq]
            intro hid
            exact hl id x f (by simp) hid hrt
          · split at hop <;> simp at hop; subst hop; left; simp [IdxOp.id?]
      | remove id f => simp [PipeCfg.callOps] at hop; right; exact ⟨id, f, hop⟩
      | flush => simp [PipeCfg.callOps] at hop; subst hop; left; simp [IdxOp.id?]
    have key : ∀ (ops : List IdxOp) (m : Str → Option DocIndex), m d = none →
        (∀ op ∈ ops, op.id? ≠ some d ∨ ∃ id f, op = .remove id f) → ops.foldl idealStep m d = none := by
      intro ops
      induction ops with
      | nil => intro m hm _; exact hm
      | cons op ops ih2 =>
        intro m hm hops
        apply ih2
        · rcases hops op (by simp) with ho | ⟨id, f, rfl⟩
          · cases op with
            | add doc f =>
              simp only [IdxOp.id?, ne_eq, Option.some.injEq] at ho
              simp [idealStep, Ne.symm ho, hm]
            | remove id f => simp only [idealStep]; split <;> simp [hm]
            | flush f => exact hm
          · simp only [idealStep]; split <;> simp [hm]
        · exact fun op ho => hops op (by simp [ho])
    exact key _ _ ih hkeep

/-! ## C30 -/

/-- **C30** (partial: all versions are routed to the same shard, as with `NumShards = 1`; the
calls about `d` are separated by Flushes) After Index(d, v) and Flush a search finds `d` on the
shard of `v` exactly by the keys of `v`, and on no other shard. -/
theorem C30_reindex_replaces_partial (hdoc : c.DocOk) (hk : c.KeysOk) {so : Sorter} (hso : SortOk so)
    (o : IndexerOpts) (db : Fin c.stores → List (Str × D)) (d : Str) (h0 : d ≠ str "0")
    (st : Pipe c) (l : List (Call D)) (v : D) (f : Bool)
    (h : Rounds db d st (l ++ [Call.index d v f]))
    (hsame : ∀ id w g, Call.index id w g ∈ l → id = d → c.route id w = c.route d v)
    (s : Fin c.shards) (ix : Indexer)
    (hrun : (Indexer.init o).run so (st.idxLog s) = some ix) (log2 : Rat → Rat)
    (tokens labels : List Str) (docIds : Option (List Str)) (docs : List IndexedDoc) (n : Nat)
    (hl : ix.lookup log2 tokens labels docIds false = some (docs, n)) :
    (docs.map (·.docId)).Nodup ∧
    (d ∈ docs.map (·.docId) ↔ s = c.route d v ∧ tokens ++ labels ≠ [] ∧ Allowed docIds d ∧
      ∀ k ∈ tokens ++ labels, k ∈ (c.docOf d v).keys) := by
  constructor
  · obtain ⟨hr, _⟩ := h.inv hdoc h0
    obtain ⟨tr, _, hall⟩ := prefix_state hso o _ (log_ok hk hr s) ix hrun
    obtain ⟨known, _, hinv, _⟩ := hall _ le_rfl ix (by rw [List.take_length]; exact hrun)
    obtain ⟨_, hpw, _⟩ := lookup_returns log2 hinv.core tokens labels docIds _ hl
    exact hpw.imp (fun h => ne_of_gt h)
  · rw [C53_disciplined_content hdoc hk hso o db d h0 st _ h s ix hrun log2 tokens labels docIds docs n hl]
    unfold Matches
    by_cases hs : c.route d v = s
    · rw [ideal_last_index hdoc d h0 l v f s hs]
      simp [hs]
    · rw [ideal_elsewhere hdoc d s]
      · simp [Ne.symm hs]
      · intro id w g hm hid
        simp only [List.mem_append, List.mem_singleton, Call.index.injEq] at hm
        rcases hm with hm | ⟨rfl, rfl, _⟩
        · rw [hsame id w g hm hid]; exact hs
        · exact hs

/-! ## C31 -/

/-- **C31** (partial: everything before RemoveDoc was flushed) After a Flush, RemoveDoc(d), any
other calls that do not index `d`, and a Flush, no plain search of any shard returns `d`. -/
theorem C31_removed_everywhere_partial (hdoc : c.DocOk) (hk : c.KeysOk) {so : Sorter} (hso : SortOk so)
    (o : IndexerOpts) (db : Fin c.stores → List (Str × D)) (d : Str) (h0 : d ≠ str "0")
    (as0 : List (Act c.toPipeSize D)) (st0 st1 st2 st3 st4 : Pipe c)
    (hr0 : (Pipe.start c db).run as0 = some st0) (i j k : Fin c.clients)
    (hf1 : FlushCompletes i st0 st1) (f : Bool) (hrm : st1.step (.call j (.remove d f)) = some st2)
    (as : List (Act c.toPipeSize D)) (hrun : st2.run as = some st3)
    (hno : ∀ (i' : Fin c.clients) (x : D) (g : Bool), Act.call i' (.index d x g) ∉ as)
    (hf2 : FlushCompletes k st3 st4) (s : Fin c.shards) (ix : Indexer)
    (hix : (Indexer.init o).run so (st4.idxLog s) = some ix) :
    ∀ log2 tokens labels docIds docs n,
      ix.lookup log2 tokens labels docIds false = some (docs, n) → d ∉ docs.map (·.docId) := by
  have r0 : Reach db st0 := ⟨as0, hr0⟩
  have r1 := hf1.reach r0
  have r2 := r1.step hrm
  have r3 := r2.run hrun
  have r4 := hf2.reach r3
  obtain ⟨p1, hs1⟩ := flush_docOps r0 hf1 s h0
  obtain ⟨p2, _⟩ := flush_docOps r3 hf2 s h0
  -- the calls between the flushes
  obtain ⟨N, hN⟩ : st1.idxLog s <+: st4.idxLog s := by
    have e0 := step_idxLog st1 st2 _ hrm s
    have e1 := run_idxLog as st2 st3 hrun s
    obtain ⟨_, _, e2, _, _, _, e3⟩ := flush_index r3 hf2 s
    exact e0.trans (e1.trans (e3.trans ⟨_, e2.symm⟩))
  have hiss : st3.issued db s = st0.issued db s ++ [.flush true] ++ [.remove d f] ++
      ((as.flatMap Act.called).map (·.2)).flatMap (c.callOps s) := by
    have e : st3.calls = st0.calls ++ [(i, .flush)] ++ [(j, .remove d f)] ++ as.flatMap Act.called := by
      rw [run_calls st2 st3 as hrun, step_calls st1 st2 _ hrm, hf1.calls]
      rfl
    rw [issued_eq, issued_eq, e]
    simp [PipeCfg.callOps]
  -- calls about d in N: a removal, and no add
  have hNp : (docOps d N).Perm (IdxOp.remove d f ::
      docOps d (((as.flatMap Act.called).map (·.2)).flatMap (c.callOps s))) := by
    rw [hiss, ← hN] at p2
    simp only [docOps_append] at p2
    have e1 : docOps d [IdxOp.flush true] = [] := rfl
    have e2 : docOps d [IdxOp.remove d f] = [IdxOp.remove d f] := by simp [docOps, IdxOp.id?]
    rw [e1, e2, List.append_nil, List.append_assoc] at p2
    have := p2.trans (p1.symm.append_right _)
    exact (List.perm_append_left_iff _).1 this
  have hrem : IdxOp.remove d f ∈ N := by
    have : IdxOp.remove d f ∈ docOps d N := hNp.mem_iff.2 (by simp)
    exact (List.mem_filter.1 this).1
  have hnoadd : ∀ doc g, IdxOp.add doc g ∈ N → doc.docId ≠ d := by
    intro doc g hm hid
    have h1 : IdxOp.add doc g ∈ docOps d N := by simp [docOps, hm, IdxOp.id?, hid]
    have h2 := hNp.mem_iff.1 h1
    rw [docOps_calls hdoc] at h2
    simp only [List.mem_cons, reduceCtorEq, false_or] at h2
    have h3 := (List.mem_filter.1 h2).1
    obtain ⟨a, ha, hop⟩ := List.mem_flatMap.1 h3
    obtain ⟨ha1, ha2⟩ := List.mem_filter.1 ha
    cases a with
    | index id x g' =>
      simp only [Call.about, decide_eq_true_eq] at ha2
      subst ha2
      obtain ⟨⟨i', b⟩, hb, hbe⟩ := List.mem_map.1 ha1
      obtain ⟨act, hact, hcall⟩ := List.mem_flatMap.1 hb
      cases act with
      | call i'' b' =>
        simp only [Act.called, List.mem_singleton, Prod.mk.injEq] at hcall
        simp only at hbe
        obtain ⟨rfl, rfl⟩ := hcall
        subst hbe
        exact hno _ _ _ hact
      | _ => simp [Act.called] at hcall
    | remove id g' => simp [PipeCfg.callOps] at hop
    | flush => simp [PipeCfg.callOps] at hop
  obtain ⟨N1, N2, hsplit⟩ := List.append_of_mem hrem
  have hlog : st4.idxLog s = (st1.idxLog s ++ N1) ++ [.remove d f] ++ N2 := by
    rw [← hN, hsplit]; simp
  rw [hlog] at hix
  refine C06_removed_stays_invisible hso o (st1.idxLog s ++ N1) N2 d f h0 ?_ ?_ ?_ ix hix
  · rw [← hlog]; exact log_ok hk r4 s
  · intro h1 doc g h3 he hid
    rcases List.append_eq_append_iff.1 he with ⟨a, ha, hb⟩ | ⟨a, ha, hb⟩
    · exact absurd hid (hnoadd doc g (by rw [hsplit, hb]; simp))
    · cases a with
      | nil =>
        simp only [List.nil_append] at hb
        exact absurd hid (hnoadd doc g (by rw [hsplit, ← hb]; simp))
      | cons x a =>
        simp only [List.cons_append, List.cons.injEq] at hb
        obtain ⟨rfl, hb⟩ := hb
        rcases hs1 h1 doc g a ha hid with h | ⟨y, hy, hyr⟩
        · exact Or.inl h
        · right; exact ⟨y, by rw [hb]; simp [hy], hyr⟩
  · intro doc g hm
    exact hnoadd doc g (by rw [hsplit]; simp [hm])

/-! ## Witnesses and counterexamples -/

/-- One client, one segmenter thread, two shards, no store. -/
def twoShards : PipeCfg Nat := demoPipe 1 2 1 (by decide) (by decide) false

def client0 : Fin twoShards.clients := ⟨0, by decide⟩
def shard0 : Fin twoShards.shards := ⟨0, by decide⟩
def shard1 : Fin twoShards.shards := ⟨1, by decide⟩

/-- Ids found on a shard by a key; `none`: crash. -/
def Pipe.findKey {c : PipeCfg D} (st : Pipe c) (s : Fin c.shards) (k : String) : Option (List Str) :=
  idsOf (runLookup (smallOpts .docIds 10) (st.idxLog s) [str k] [])

theorem twoShards_ok : twoShards.DocOk ∧ twoShards.KeysOk :=
  ⟨fun _ _ => rfl, fun _ _ => by simp [twoShards, demoPipe]⟩

example : twoShards.toPipeSize.Ok := ⟨by decide, by decide, by decide, by decide, by decide⟩

/-- Index("1", v), Flush, Index("1", w), Flush. -/
def twoVersions (v w : Nat) : Option (Pipe twoShards) :=
  ((Pipe.start twoShards (fun _ => [])).round (demoActs _) client0 [(client0, Call.index (str "1") v false)]).bind
    (fun st => st.round (demoActs _) client0 [(client0, Call.index (str "1") w false)])

theorem round_spec {c : PipeCfg D} {cands : List (Act c.toPipeSize D)} {i : Fin c.clients}
    {calls : List (Fin c.clients × Call D)} {st st2 : Pipe c} (h : st.round cands i calls = some st2) :
    ∃ as st1, st.run as = some st1 ∧ FlushCompletes i st1 st2 := by
  obtain ⟨st1, h1, h2⟩ := Option.bind_eq_some_iff.1 h
  exact ⟨_, st1, h1, flushBy_completes h2⟩

/-- `twoVersions` follows the discipline. -/
theorem twoVersions_rounds (v w : Nat) (st : Pipe twoShards) (h : twoVersions v w = some st)
    (hc : st.calls = [(client0, Call.index (str "1") v false), (client0, Call.flush),
      (client0, Call.index (str "1") w false), (client0, Call.flush)]) :
    Rounds (fun _ => []) (str "1") st [.index (str "1") v false, .index (str "1") w false] := by
  obtain ⟨st2, h1, h2⟩ := Option.bind_eq_some_iff.1 h
  obtain ⟨as1, u1, r1, f1⟩ := round_spec h1
  obtain ⟨as2, u2, r2, f2⟩ := round_spec h2
  have e1 := f1.calls
  have e2 := f2.calls
  have e3 := run_calls _ _ _ r2
  have e4 := run_calls _ _ _ r1
  rw [hc] at e2
  have hu2 : u2.calls = [(client0, Call.index (str "1") v false), (client0, Call.flush),
      (client0, Call.index (str "1") w false)] :=
    (List.append_inj' (s₁ := [(client0, Call.index (str "1") v false), (client0, Call.flush),
      (client0, Call.index (str "1") w false)]) e2 rfl).1.symm
  have hrec : twoShards.recovered (fun _ => []) = [] := by decide +kernel
  -- the first round
  have hlen : u1.calls = [(client0, Call.index (str "1") v false)] := by
    have hx : u1.calls ++ [(client0, Call.flush)] ++ as2.flatMap Act.called =
        [(client0, Call.index (str "1") v false), (client0, Call.flush), (client0, Call.index (str "1") w false)] := by
      rw [← e1, ← e3, hu2]
    match hcs : u1.calls, hx with
    | [], hx => simp at hx
    | [a], hx => simp at hx; rw [hx.1]
    | [a, b], hx => simp at hx
    | [a, b, e], hx => simp at hx
    | a :: b :: e :: f :: l, hx => simp at hx
  have hnews : st2.calls ++ [(client0, Call.index (str "1") w false)] = u2.calls := by
    rw [e1, hlen, hu2]; rfl
  have hfirst : Rounds (fun _ => []) (str "1") st2
      (((twoShards.recovered (fun _ => [])).map (fun x => Call.index x.1 x.2 false) ++
        u1.calls.map (·.2)).filter (Call.about (str "1"))) :=
    Rounds.first as1 client0 u1 st2 r1 f1 (by rw [hlen, hrec]; simp [Call.about])
  have hstep := Rounds.next st2 _ as2 client0 u2 st [(client0, Call.index (str "1") w false)] hfirst r2 f2
    hnews.symm (by simp [Call.about])
  have hgoal : ((twoShards.recovered (fun _ => [])).map (fun x => Call.index x.1 x.2 false) ++
        u1.calls.map (·.2)).filter (Call.about (str "1")) ++
      ([(client0, Call.index (str "1") w false)].map (·.2)).filter (Call.about (str "1")) =
      [.index (str "1") v false, .index (str "1") w false] := by
    rw [hlen, hrec]; simp [Call.about]
  rwa [hgoal] at hstep

/-- The hypotheses of C53 and `C30_reindex_replaces_partial` are met: two versions routed to
shard 1; the old key finds nothing, the new key finds the document. -/
example : ∃ st : Pipe twoShards, Rounds (fun _ => []) (str "1") st
      [.index (str "1") 7 false, .index (str "1") 9 false] ∧
    twoShards.route (str "1") 7 = twoShards.route (str "1") 9 ∧
    st.findKey shard1 "k7" = some [] ∧ st.findKey shard1 "k9" = some [str "1"] ∧
    st.findKey shard0 "k9" = some [] := by
  have h : (twoVersions 7 9).any (fun st => decide (st.calls = [(client0, Call.index (str "1") 7 false),
      (client0, Call.flush), (client0, Call.index (str "1") 9 false), (client0, Call.flush)]) &&
      decide (st.findKey shard1 "k7" = some [] ∧ st.findKey shard1 "k9" = some [str "1"] ∧
        st.findKey shard0 "k9" = some [])) = true := by decide +kernel
  obtain ⟨st, hst, hp⟩ := (Option.any_eq_true _ _).1 h
  simp only [Bool.and_eq_true, decide_eq_true_eq] at hp
  exact ⟨st, twoVersions_rounds 7 9 st hst hp.1, rfl, hp.2⟩

/-- **C30 is false** when the two versions are routed to different shards: after Index("1", 7),
Flush, Index("1", 8), Flush, the document is found by the key of the old version on shard 1 and by
the key of the new one on shard 0. -/
theorem C30_refuted_two_shards : ∃ st : Pipe twoShards, Rounds (fun _ => []) (str "1") st
      [.index (str "1") 7 false, .index (str "1") 8 false] ∧
    st.findKey shard1 "k7" = some [str "1"] ∧ st.findKey shard0 "k8" = some [str "1"] := by
  have h : (twoVersions 7 8).any (fun st => decide (st.calls = [(client0, Call.index (str "1") 7 false),
      (client0, Call.flush), (client0, Call.index (str "1") 8 false), (client0, Call.flush)]) &&
      decide (st.findKey shard1 "k7" = some [str "1"] ∧ st.findKey shard0 "k8" = some [str "1"])) = true := by
    decide +kernel
  obtain ⟨st, hst, hp⟩ := (Option.any_eq_true _ _).1 h
  simp only [Bool.and_eq_true, decide_eq_true_eq] at hp
  exact ⟨st, twoVersions_rounds 7 8 st hst hp.1, hp.2⟩

/-- The removal worker is scheduled before the segmenter. -/
def removeFirst : List (Act twoShards.toPipeSize Nat) :=
  [.ready, .run (.client client0), .run (.idxRem shard0), .recv (.idxRem shard0),
   .run (.idxRem shard1), .recv (.idxRem shard1)]

/-- **C31 is false** if Index(d) is not flushed before RemoveDoc(d): Index("1"), RemoveDoc("1"),
Flush, by one caller; the removal overtakes the addition, and the document is found. -/
theorem C31_refuted_without_flush : ∃ (as : List (Act twoShards.toPipeSize Nat)) (st st' : Pipe twoShards),
    (Pipe.start twoShards (fun _ => [])).run as = some st ∧
    st.calls = [(client0, Call.index (str "1") 7 false), (client0, Call.remove (str "1") true)] ∧
    FlushCompletes client0 st st' ∧ st'.findKey shard1 "k7" = some [str "1"] := by
  let as := (Pipe.start twoShards (fun _ => [])).session removeFirst
    [(client0, Call.index (str "1") 7 false), (client0, Call.remove (str "1") true)]
  have h : ((Pipe.start twoShards (fun _ => [])).run as).any (fun st =>
      decide (st.calls = [(client0, Call.index (str "1") 7 false), (client0, Call.remove (str "1") true)]) &&
      (st.flushBy client0 (st.flushSched (demoActs _) client0)).any (fun st' =>
        decide (st'.findKey shard1 "k7" = some [str "1"]))) = true := by decide +kernel
  obtain ⟨st, hst, hp⟩ := (Option.any_eq_true _ _).1 h
  simp only [Bool.and_eq_true, decide_eq_true_eq] at hp
  obtain ⟨st', hst', hp'⟩ := (Option.any_eq_true _ _).1 hp.2
  exact ⟨as, st, st', hst, hp.1, flushBy_completes hst', by simpa using hp'⟩

/-- The hypotheses of `C31_removed_everywhere_partial` are met, and the document was found before
the removal. -/
example : ∃ (as0 : List (Act twoShards.toPipeSize Nat)) (st0 st1 st2 : Pipe twoShards)
      (as : List (Act twoShards.toPipeSize Nat)) (st3 st4 : Pipe twoShards),
    (Pipe.start twoShards (fun _ => [])).run as0 = some st0 ∧ FlushCompletes client0 st0 st1 ∧
    st1.step (.call client0 (.remove (str "1") false)) = some st2 ∧ st2.run as = some st3 ∧
    (∀ i x g, Act.call i (.index (str "1") x g) ∉ as) ∧ FlushCompletes client0 st3 st4 ∧
    st1.findKey shard1 "k7" = some [str "1"] ∧ st4.findKey shard1 "k7" = some [] := by
  let as0 := (Pipe.start twoShards (fun _ => [])).session (demoActs _)
    [(client0, Call.index (str "1") 7 false)]
  have h : ((Pipe.start twoShards (fun _ => [])).run as0).any (fun st0 =>
      (st0.flushBy client0 (st0.flushSched (demoActs _) client0)).any (fun st1 =>
        decide (st1.findKey shard1 "k7" = some [str "1"]) &&
        (st1.step (.call client0 (.remove (str "1") false))).any (fun st2 =>
          ((st2.greedy (demoActs _) 100).all (fun a => !a.isCall)) &&
          (st2.run (st2.greedy (demoActs _) 100)).any (fun st3 =>
            (st3.flushBy client0 (st3.flushSched (demoActs _) client0)).any (fun st4 =>
              decide (st4.findKey shard1 "k7" = some [])))))) = true := by decide +kernel
  obtain ⟨st0, h0, h⟩ := (Option.any_eq_true _ _).1 h
  obtain ⟨st1, h1, h⟩ := (Option.any_eq_true _ _).1 h
  simp only [Bool.and_eq_true, decide_eq_true_eq] at h
  obtain ⟨hk, h⟩ := h
  obtain ⟨st2, h2, h⟩ := (Option.any_eq_true _ _).1 h
  simp only [Bool.and_eq_true, List.all_eq_true, Bool.not_eq_eq_eq_not, Bool.not_true] at h
  obtain ⟨hno, h⟩ := h
  obtain ⟨st3, h3, h⟩ := (Option.any_eq_true _ _).1 h
  obtain ⟨st4, h4, h⟩ := (Option.any_eq_true _ _).1 h
  simp only [decide_eq_true_eq] at h
  refine ⟨as0, st0, st1, st2, _, st3, st4, h0, flushBy_completes h1, h2, h3, ?_, flushBy_completes h4, hk, h⟩
  intro i x g hm
  have := hno _ hm
  simp [Act.isCall] at this

end Riot
