import Verif.Props.FullText
import Verif.Props.Between
import Verif.Props.Search
import Verif.Props.Sound

/-!
# C95: the statistics behind the scores
-/

namespace Riot

open Function (update)

variable {D F A : Type} {c : PipeCfg D}

/-- The statistics of an index right after a refresh. -/
theorem stats_forced {so : Sorter} (hso : SortOk so) (o : IndexerOpts)
    (h : List IdxOp) (op : IdxOp) (hok : ∀ x ∈ h ++ [op], OpOk x) (hop : op.refreshes = true)
    (s : Indexer) (hr : (Indexer.init o).run so (h ++ [op]) = some s) :
    ∃ tr vdocs, Trace (h ++ [op]) tr ∧ Enumerates vdocs (tr (h ++ [op]).length).vis ∧
      (s.numDocs : Rat) = vdocs.length ∧ s.totalTokenLen = (vdocs.map (·.tokenLen)).sum ∧
      ∀ k, ((s.table.get k).map (·.docIds.length)).getD 0 = vdocs.countP (fun doc => decide (k ∈ doc.keys)) := by
  obtain ⟨tr, ht, hall⟩ := prefix_state hso o _ hok s hr
  obtain ⟨known, hopt, hinv, htr⟩ := hall _ le_rfl s (by rw [List.take_length]; exact hr)
  have hstep := hr
  rw [Indexer.run_snoc, Option.bind_eq_some_iff] at hstep
  obtain ⟨s0, _, hstep⟩ := hstep
  have hrm := step_forced hop hstep
  have hvk : (absOf s known).vis = known.get := funext (vis_eq_known hinv hrm)
  obtain ⟨vdocs, henum, hnum⟩ := known_enumerates hinv.core
  have hekn : Enumerates vdocs known.get := by rw [← hvk]; exact henum
  refine ⟨tr, vdocs, ht, by rw [htr]; exact henum, by rw [hnum]; simp, ?_, fun k => ?_⟩
  · have hp := hekn.perm (enumerates_known hinv.core.ok)
    rw [hinv.core.total, GoMap.sumBy, (hp.map _).sum_eq, List.map_map]
    rfl
  · rw [← dfOf_table hinv.core, dfOf_enum hinv.core.ok hekn]

/-- A quiet pipeline stays quiet as long as no call is made. -/
theorem quiet_step {st st' : Pipe c} (hq : st.Quiet) {a : Act c.toPipeSize D} (ha : a.isCall = false)
    (h : st.step a = some st') : st'.Quiet := by
  cases a with
  | call i x => simp [Act.isCall] at ha
  | run t => simp [Pipe.step, hq.1 t] at h
  | recv t =>
    simp only [Pipe.step, hq.1, hq.2.1] at h
    split at h <;> simp at h
  | bg k => simp [Pipe.step, hq.2.2] at h
  | ready =>
    simp only [Pipe.step] at h
    split at h
    · simp only [Option.some.injEq] at h
      subst h
      exact hq
    · simp at h

theorem quiet_run {bs : List (Act c.toPipeSize D)} : ∀ {st st' : Pipe c}, st.Quiet → (∀ a ∈ bs, a.isCall = false) →
    st.run bs = some st' → st'.Quiet := by
  induction bs with
  | nil => intro st st' hq _ h; simp only [Pipe.run, Option.some.injEq] at h; subst h; exact hq
  | cons a bs ih =>
    intro st st' hq ha h
    simp only [Pipe.run] at h
    obtain ⟨s1, h1, h2⟩ := Option.bind_eq_some_iff.1 h
    exact ih (quiet_step hq (ha a (by simp)) h1) (fun x hx => ha x (by simp [hx])) h2

theorem isCall_of_called {bs : List (Act c.toPipeSize D)} (h : bs.flatMap Act.called = []) : ∀ a ∈ bs, a.isCall = false := by
  intro a ha
  cases a with
  | call i x =>
    have : (i, x) ∈ bs.flatMap Act.called := List.mem_flatMap.2 ⟨_, ha, by simp [Act.called]⟩
    rw [h] at this; simp at this
  | _ => rfl

/-- After a last Flush the last thing an index of a gently used engine did is a refresh. -/
theorem last_refresh {E : EngCfg D F A} {o : IndexerOpts} {db : Fin c.stores → List (Str × D)}
    {as : List (EAct c.toPipeSize D F)} {st : Full c F A} (h : (Full.start c o db).run E as = some st)
    (hg : (Full.start c o db).Gentle E o db as) {f t : Nat} {i : Fin c.clients}
    (hf : as[f]? = some (.pipe (.call i .flush))) (hlast : ∀ u j (a : Call D), f < u → as[u]? ≠ some (.pipe (.call j a)))
    (hft : f < t) (hdone : (Full.after E (Full.start c o db) as t).fine.pipe.prog (.client i) = [])
    (s : Fin c.shards) :
    ∃ L, (Full.after E (Full.start c o db) as t).fine.pipe.idxLog s = L ++ [.flush true] := by
  have hfl := (List.getElem?_eq_some_iff.1 hf).1
  have hgf : (Full.after E (Full.start c o db) as f).fine.pipe.ClientsIdle := hg f i .flush hf
  have hrun : (Full.after E (Full.start c o db) as f).run E
      (.pipe (.call i .flush) :: (as.drop (f + 1)).take (t - f - 1)) = some (Full.after E (Full.start c o db) as t) := by
    have e1 := after_run h (t := f)
    have e2 := after_run h (t := t)
    have e3 : as.take t = as.take f ++ (.pipe (.call i .flush) :: (as.drop (f + 1)).take (t - f - 1)) := by
      have e4 : as.drop f = .pipe (.call i .flush) :: as.drop (f + 1) := by
        rw [List.drop_eq_getElem_cons hfl]
        rw [List.getElem?_eq_getElem hfl, Option.some.injEq] at hf
        rw [hf]
      have e5 : t = f + ((t - f - 1) + 1) := by omega
      conv_lhs => rw [e5]
      rw [List.take_add, e4, List.take_succ_cons]
    rw [e3, full_run_append, e1] at e2
    exact e2
  have hF := full_flush hgf (by
    rw [List.all_eq_true]
    intro a ha
    cases hx : a.call? with
    | none => rfl
    | some y =>
      exfalso
      have hm := List.mem_of_mem_take ha
      obtain ⟨n, hn, rfl⟩ := List.mem_iff_getElem.1 hm
      rw [List.getElem_drop] at hx
      have hlt : f + 1 + n < as.length := by rw [List.length_drop] at hn; omega
      cases hq : as[f + 1 + n] with
      | pipe p =>
        cases p with
        | call j z => exact hlast (f + 1 + n) j z (by omega) (by rw [List.getElem?_eq_getElem hlt, hq])
        | _ => rw [hq] at hx; simp [EAct.call?] at hx
      | _ => rw [hq] at hx; simp [EAct.call?] at hx) hrun hdone
  obtain ⟨L, M, h1, _, h3, h4, _⟩ := flush_index (after_reach h f) hF s
  have hreach := after_reach h t
  rcases List.eq_nil_or_concat M with rfl | ⟨M', x, rfl⟩
  · simp at h4
  · rw [List.concat_eq_append] at h1 h3 h4
    refine ⟨L ++ M', ?_⟩
    rw [h1, ← List.append_assoc]
    congr 2
    have hx : x ∈ (Full.after E (Full.start c o db) as t).fine.pipe.idxLog s := by rw [h1]; simp
    have hw : x.isWork = false := by
      rw [List.filter_eq_nil_iff] at h3
      simpa using h3 x (by simp)
    have := mem_issued hreach s hx
    rw [issued_eq, List.mem_flatMap] at this
    obtain ⟨a, ha, hxa⟩ := this
    have hrem : ∀ g, a ≠ .remove (str "0") g := by
      rintro g rfl
      rcases List.mem_append.1 ha with ha | ha
      · simp at ha
      · obtain ⟨z, hz, hz2⟩ := List.mem_map.1 ha
        obtain ⟨bs, hbs, hcall⟩ := after_pipe h (Nat.zero_le t)
        rw [run_calls _ _ _ hbs] at hz
        have : (Full.after E (Full.start c o db) as 0).fine.pipe.calls = [] := rfl
        rw [this, List.nil_append] at hz
        obtain ⟨v, _, hv⟩ := hcall z hz
        rw [hz2] at hv
        exact (hg v _ _ hv).2.1 rfl
    cases a with
    | flush => simp only [PipeCfg.callOps, List.mem_singleton] at hxa; exact hxa
    | remove id g =>
      simp only [PipeCfg.callOps, List.mem_singleton] at hxa
      subst hxa
      simp only [IdxOp.isWork, ne_eq, decide_not, Bool.not_eq_false', decide_eq_true_eq] at hw
      subst hw
      exact absurd rfl (hrem g)
    | index id y g =>
      simp only [PipeCfg.callOps] at hxa
      split at hxa
      · split at hxa
        · simpa using hxa
        · simp at hxa
      · split at hxa
        · simp only [List.mem_singleton] at hxa; subst hxa; simp [IdxOp.isWork] at hw
        · split at hxa
          · simpa using hxa
          · simp at hxa

/-- Nobody indexes the reserved id. -/
theorem ideal_zero (hdoc : c.DocOk) (s : Fin c.shards) : ∀ L : List (Call D),
    ideal (L.flatMap (c.callOps s)) (str "0") = none := by
  intro L
  have key : ∀ op ∈ L.flatMap (c.callOps s), ∀ doc g, op = .add doc g → doc.docId ≠ str "0" := by
    intro op hop doc g hd
    obtain ⟨a, _, ha⟩ := List.mem_flatMap.1 hop
    subst hd
    cases a with
    | flush => simp [PipeCfg.callOps] at ha
    | remove id g => simp [PipeCfg.callOps] at ha
    | index id y g =>
      simp only [PipeCfg.callOps] at ha
      split at ha
      · split at ha <;> simp at ha
      · rename_i h0
        split at ha
        · simp only [List.mem_singleton, IdxOp.add.injEq] at ha
          rw [ha.1, hdoc]; exact h0
        · split at ha <;> simp at ha
  generalize L.flatMap (c.callOps s) = H at key
  induction H using List.reverseRecOn with
  | nil => rfl
  | append_singleton H op ih =>
    rw [ideal_snoc]
    have ih' := ih (fun x hx => key x (by simp [hx]))
    cases op with
    | add doc g =>
      have := key (.add doc g) (by simp) doc g rfl
      simp only [idealStep, if_neg (Ne.symm this)]
      exact ih'
    | remove id g =>
      simp only [idealStep]
      split
      · rfl
      · exact ih'
    | flush g => exact ih'

/-- After a last Flush each index has executed a history that ends with a refresh, and what it shows is what the calls leave. -/
theorem state_after_flush (hdoc : c.DocOk) (hk : c.KeysOk) {E : EngCfg D F A} (hso : SortOk E.so)
    {o : IndexerOpts} {db : Fin c.stores → List (Str × D)} (hs : GentleStart c o db)
    {as : List (EAct c.toPipeSize D F)} {st : Full c F A} (h : (Full.start c o db).run E as = some st)
    (hg : (Full.start c o db).Gentle E o db as) {f b : Nat} {i : Fin c.clients}
    (hf : as[f]? = some (.pipe (.call i .flush))) (hlast : ∀ u j (a : Call D), f < u → as[u]? ≠ some (.pipe (.call j a)))
    (hfb : f < b) (hquiet : (Full.after E (Full.start c o db) as b).fine.pipe.Quiet)
    (hround : ∀ d, d ≠ str "0" → ∃ l, Rounds db d (Full.after E (Full.start c o db) as b).fine.pipe l)
    (s : Fin c.shards) {t : Nat} (hbt : b ≤ t) (ht : t < as.length) :
    ∃ L, (∀ op ∈ L ++ [IdxOp.flush true], OpOk op) ∧
      (Indexer.init o).run E.so (L ++ [.flush true]) = some ((Full.after E (Full.start c o db) as t).fine.shard s).abs ∧
      ∀ tr, Trace (L ++ [.flush true]) tr → ∀ d, (tr (L ++ [IdxOp.flush true]).length).vis d =
        ideal (((Full.after E (Full.start c o db) as b).fine.pipe.given db).flatMap (c.callOps s)) d := by
  obtain ⟨bs, hbs, hcall⟩ := after_pipe h hbt
  have hnc : bs.flatMap Act.called = [] := by
    rw [List.eq_nil_iff_forall_not_mem]
    intro z hz
    obtain ⟨v, hv1, hv2⟩ := hcall z hz
    exact hlast v _ _ (by omega) hv2
  have hqt := quiet_run hquiet (isCall_of_called hnc) hbs
  obtain ⟨L, hL⟩ := last_refresh h hg hf hlast (show f < t by omega) (hqt.1 _) s
  have hcl := full_gentle_noClash hk hso hs h hg
  obtain ⟨fs, g1, g2⟩ := full_run_fine _ (after_run h (t := t)) (after_noClash hcl (Nat.le_of_lt ht))
  have hal := after_alive h ht s
  have hI := finv_run hso fs (finv_start E.so o db) g2 g1
  obtain ⟨base, a, r, hrel⟩ := hI.alive s hal
  have hidle : (Full.after E (Full.start c o db) as t).fine.ShardIdle s := by
    have hl := linked_run fs (linked_start c o db) g1
    constructor
    · by_contra hx
      obtain ⟨op, l, hp⟩ := hl.add s hx
      rw [hqt.1] at hp; simp at hp
    · by_contra hx
      obtain ⟨op, l, hp⟩ := hl.rem s hx
      rw [hqt.1] at hp; simp at hp
  have hrun := hrel.idle hidle
  have hok := log_ok hk hI.reach s
  rw [hL] at hrun hok
  refine ⟨L, hok, hrun, fun tr ht1 d => ?_⟩
  by_cases h0 : d = str "0"
  · subst h0
    rw [ideal_zero hdoc]
    cases hvis : (tr (L ++ [IdxOp.flush true]).length).vis (str "0") with
    | none => rfl
    | some doc =>
      exfalso
      obtain ⟨e4, g, hg'⟩ := ht1.from_history.2 _ _ hvis
      rw [← hL] at hg'
      have := mem_issued hI.reach s hg'
      rw [issued_eq, List.mem_flatMap] at this
      obtain ⟨a, _, ha⟩ := this
      cases a with
      | flush => simp [PipeCfg.callOps] at ha
      | remove id g => simp [PipeCfg.callOps] at ha
      | index id y g =>
        simp only [PipeCfg.callOps] at ha
        split at ha
        · split at ha <;> simp at ha
        · rename_i h0
          split at ha
          · simp only [List.mem_singleton, IdxOp.add.injEq] at ha
            rw [ha.1, hdoc] at e4; exact h0 e4
          · split at ha <;> simp at ha
  · obtain ⟨l, hl⟩ := hround d h0
    have hrt := rounds_after h hbt (fun u j a hbu hu => absurd hu (hlast u j a (by omega))) hl
    obtain ⟨_, hinv⟩ := hrt.inv hdoc h0
    obtain ⟨i1, _, i3, i4⟩ := hinv s
    rw [hL] at i1 i3 i4
    rw [(ht1.doc_ideal i3).2 (i4.no_pend ht1), ideal_docOps, i1, ← ideal_docOps, hl.given, ideal_given hdoc]

/-- The statistics after a last Flush. -/
theorem stats_after_flush (hdoc : c.DocOk) (hk : c.KeysOk) {E : EngCfg D F A} (hso : SortOk E.so)
    {o : IndexerOpts} {db : Fin c.stores → List (Str × D)} (hs : GentleStart c o db)
    {as : List (EAct c.toPipeSize D F)} {st : Full c F A} (h : (Full.start c o db).run E as = some st)
    (hg : (Full.start c o db).Gentle E o db as) {f b : Nat} {i : Fin c.clients}
    (hf : as[f]? = some (.pipe (.call i .flush))) (hlast : ∀ u j (a : Call D), f < u → as[u]? ≠ some (.pipe (.call j a)))
    (hfb : f < b) (hquiet : (Full.after E (Full.start c o db) as b).fine.pipe.Quiet)
    (hround : ∀ d, d ≠ str "0" → ∃ l, Rounds db d (Full.after E (Full.start c o db) as b).fine.pipe l)
    {s : Fin c.shards} {n avg : Rat} {df : Str → Nat} (hst : StatsDuring E (Full.start c o db) as b s n avg df) :
    ∃ docs, Enumerates docs
        (ideal (((Full.after E (Full.start c o db) as b).fine.pipe.given db).flatMap (c.callOps s))) ∧
      n = docs.length ∧ avg = (docs.map (·.tokenLen)).sum / docs.length ∧
      ∀ k, df k = docs.countP (fun doc => decide (k ∈ doc.keys)) := by
  obtain ⟨t, hbt, ht, h1, h2, h3⟩ := hst
  obtain ⟨L, hok, hrun, hv⟩ := state_after_flush hdoc hk hso hs h hg hf hlast hfb hquiet hround s (Nat.le_of_lt hbt) ht
  obtain ⟨tr, docs, ht1, hen, e1, e2, e3⟩ := stats_forced hso o L _ hok rfl _ hrun
  refine ⟨docs, ⟨hen.1, fun d doc => by rw [← hv tr ht1]; exact hen.2 d doc⟩, by rw [h1]; exact e1, ?_,
    fun k => by rw [h3]; exact e3 k⟩
  rw [h2]
  have : (((Full.after E (Full.start c o db) as t).fine.shard s).ix.numDocs : Rat) = docs.length := e1
  rw [this]
  have : ((Full.after E (Full.start c o db) as t).fine.shard s).ix.totalTokenLen = (docs.map (·.tokenLen)).sum := e2
  rw [this]

/-- The last data is determined. -/
theorem latestOn_unique {s : Fin c.shards} {calls : List (Call D)} {d : Str} {x y : D} (hx : LatestOn c s calls d x)
    (hy : LatestOn c s calls d y) : x = y := by
  obtain ⟨l1, g, l2, e1, e2, _, e4⟩ := hx
  obtain ⟨m1, g', m2, f1, f2, _, f4⟩ := hy
  rw [e1] at f1
  rcases List.append_eq_append_iff.1 f1 with ⟨a, h1, h2⟩ | ⟨a, h1, h2⟩
  · cases a with
    | nil => simp only [List.nil_append, List.cons.injEq, Call.index.injEq] at h2; exact h2.1.2.1
    | cons z a =>
      simp only [List.cons_append, List.cons.injEq] at h2
      exact absurd f2 (e4 y g' (by rw [h2.2]; simp))
  · cases a with
    | nil => simp only [List.nil_append, List.cons.injEq, Call.index.injEq] at h2; exact h2.1.2.1.symm
    | cons z a =>
      simp only [List.cons_append, List.cons.injEq] at h2
      exact absurd e2 (f4 x g (by rw [h2.2]; simp))

/-- Choose for each document of a list. -/
theorem choose_each {α β : Type} {P : α → β → Prop} : ∀ (l : List α), (∀ a ∈ l, ∃ b, P a b) →
    ∃ m : List (α × β), m.map (·.1) = l ∧ ∀ p ∈ m, P p.1 p.2
  | [], _ => ⟨[], rfl, by simp⟩
  | a :: l, h => by
    obtain ⟨b, hb⟩ := h a (by simp)
    obtain ⟨m, h1, h2⟩ := choose_each l (fun x hx => h x (by simp [hx]))
    refine ⟨(a, b) :: m, by simp [h1], fun p hp => ?_⟩
    rcases List.mem_cons.1 hp with rfl | hp
    · exact hb
    · exact h2 p hp

/-- From the documents of an index to the texts. -/
theorem textStats_of {E : EngCfg D F A} {textOf : D → DocText} (htext : FromTexts c E textOf) {s : Fin c.shards}
    {calls : List (Call D)} {docs : List DocIndex} (hen : Enumerates docs (ideal (calls.flatMap (c.callOps s)))) :
    ∃ live, LiveOn c s calls live ∧ TextStats E.text E.opts.toTextOpts textOf live docs.length
      ((docs.map (·.tokenLen)).sum / docs.length) (fun k => docs.countP (fun doc => decide (k ∈ doc.keys))) := by
  classical
  have hzero := ideal_zero htext.docOk s calls
  have hne : ∀ doc ∈ docs, doc.docId ≠ str "0" := fun doc hd h0 => by
    have := (hen.2 doc.docId doc).2 ⟨hd, rfl⟩
    rw [h0, hzero] at this; simp at this
  obtain ⟨m, h1, h2⟩ := choose_each (P := fun doc x => LatestOn c s calls doc.docId x ∧ doc = c.docOf doc.docId x) docs
    (fun doc hd => (ideal_latest htext.docOk s _ (hne doc hd) _ doc).1 ((hen.2 doc.docId doc).2 ⟨hd, rfl⟩))
  have hmem : ∀ p ∈ m, p.1 ∈ docs := fun p hp => by rw [← h1]; exact List.mem_map_of_mem hp
  refine ⟨m.map (fun p => (p.1.docId, p.2)), ⟨?_, fun d x => ?_⟩, ?_, ?_, fun k => ?_⟩
  · rw [List.map_map]
    have := hen.1
    rw [← h1, List.map_map] at this
    exact this
  · constructor
    · intro h
      obtain ⟨p, hp, he⟩ := List.mem_map.1 h
      cases he
      exact ⟨hne _ (hmem p hp), (h2 p hp).1⟩
    · rintro ⟨h0, hx⟩
      have := (hen.2 d (c.docOf d x)).1 ((ideal_latest htext.docOk s d h0 _ _).2 ⟨x, hx, rfl⟩)
      rw [← h1] at this
      obtain ⟨p, hp, he⟩ := List.mem_map.1 this.1
      have hd : p.1.docId = d := by rw [he]; exact this.2
      refine List.mem_map.2 ⟨p, hp, ?_⟩
      have := (h2 p hp).1
      rw [hd] at this ⊢
      rw [latestOn_unique this hx]
  · rw [List.length_map, ← h1, List.length_map]
  · rw [List.length_map, ← h1, List.length_map, List.map_map, List.map_map]
    congr 2
    apply List.map_congr_left
    intro p hp
    have he := (h2 p hp).2
    simp only [Function.comp]
    conv_lhs => rw [he]
    exact (C67_postings_exact _ _ _ _ _ (htext p.1.docId p.2)).2.1
  · rw [List.filter_map, List.length_map, ← List.countP_eq_length_filter]
    simp only
    rw [← h1, List.countP_map]
    apply List.countP_congr
    intro p hp
    have he := (h2 p hp).2
    simp only [Function.comp, decide_eq_true_eq]
    conv_lhs => rw [he]
    exact C41_keys_exact _ _ _ _ _ (htext p.1.docId p.2) k

/-- **C95** (partial: per shard) From texts to scores. An engine was used as in C84, and the last call before the request was a
Flush. Then everything C84 says holds, and the statistics behind the scores (C11) on each answering shard are those of the
documents of that shard (their last texts, removed ones excluded): their number, the average length of their texts, and for every
word the number of texts that have it. Missing: the statistics are not those of the whole engine
(`C95_refuted_shards`), unless there is one shard (`C95_one_shard`). -/
theorem C95_statistics_partial {E : EngCfg D F A} {textOf : D → DocText} (htext : FromTexts c E textOf)
    (hso : SortOk E.so) (hgs : GSortOk E.gs) {o : IndexerOpts} {db : Fin c.stores → List (Str × D)}
    (hs : GentleStart c o db)
    {as : List (EAct c.toPipeSize D F)} {st : Full c F A} (h : (Full.start c o db).run E as = some st)
    (hg : (Full.start c o db).Gentle E o db as) {k b f : Nat} {r : SearchReq F} (hb : Began as k b r)
    (hret : st.Returned k) (hquiet : (Full.after E (Full.start c o db) as b).fine.pipe.Quiet)
    (hround : ∀ d, d ≠ str "0" → ∃ l, Rounds db d (Full.after E (Full.start c o db) as b).fine.pipe l)
    (hre : ∀ d f x g l1 l2, (Full.after E (Full.start c o db) as b).fine.pipe.given db = l1 ++ Call.remove d f :: l2 →
      Call.index d x g ∉ l2)
    {i : Fin c.clients} (hfl : as[f]? = some (.pipe (.call i .flush))) (hfb : f < b)
    (hlast : ∀ t j (a : Call D), f < t → as[t]? ≠ some (.pipe (.call j a)))
    (hc : r.countDocsOnly = false) (hor : r.orderless = false)
    (hlogic : r.logic = {}) (htok : o.indexType = .locs → E.tokens r ≠ []) {off m : Nat}
    (ho : (wantedRank E.opts r).outputOffset = off) (hm : (wantedRank E.opts r).maxOutputs = m)
    (hsc : ∀ d f, (wantedRank E.opts r).score d f ≠ [] ∧ NoNaN ((wantedRank E.opts r).score d f)) :
    ∃ (lists : List (Fin c.shards × List (ScoredDoc F A))) (resp : SearchResp F A),
      (lists.map (·.1)).Nodup ∧ st.response E k = some resp ∧
      (resp.timeout = false → ∀ s, s ∈ lists.map (·.1)) ∧
      IsPageOf E.opts.idOnly (wantedRank E.opts r).reverseOrder (Engine.tokens E.text E.opts r) off m
        (lists.flatMap (·.2)) resp ∧
      ∀ p ∈ lists, ((p.2).map (·.scoredID.docId)).Nodup ∧
        ∃ live n avg df, LiveOn c p.1 ((Full.after E (Full.start c o db) as b).fine.pipe.given db) live ∧
          TextStats E.text E.opts.toTextOpts textOf live n avg df ∧
          (∀ d, d ∈ (p.2).map (·.scoredID.docId) ↔
            Engine.tokens E.text E.opts r ++ r.labels ≠ [] ∧ Allowed r.docIds d ∧
            ∃ x, (d, x) ∈ live ∧ ∀ w ∈ Engine.tokens E.text E.opts r ++ r.labels,
              TextHasKey E.text E.opts.toTextOpts (textOf x) w) ∧
          ∀ e ∈ p.2, ShowsVersion c E ((Full.after E (Full.start c o db) as b).fine.pipe.given db) p.1 e ∧
            ∃ x, (e.scoredID.docId, x) ∈ live ∧
              ScoredAs E r (expectedDoc E.log2 o.init n avg df (Engine.tokens E.text E.opts r)
                (c.docOf e.scoredID.docId x)) e := by
  obtain ⟨lists, resp, g1, g2, g3, g4, g5⟩ := C84_text_search_exact htext hso hgs hs h hg hb hret
    hquiet hround hre (fun t j a hbt => hlast t j a (by omega)) hc hor hlogic htok ho hm hsc
  refine ⟨lists, resp, g1, g2, g3, g4, fun p hp => ?_⟩
  obtain ⟨h1, hz, n, avg, df, hst, h2⟩ := g5 p hp
  obtain ⟨docs, e1, rfl, rfl, e4⟩ := stats_after_flush htext.docOk htext.keysOk hso hs h hg hfl hlast hfb hquiet hround hst
  obtain rfl : df = fun k => docs.countP (fun doc => decide (k ∈ doc.keys)) := funext e4
  obtain ⟨live, l1, l2⟩ := textStats_of htext e1
  refine ⟨h1, live, _, _, _, l1, l2, fun d => ?_, fun e he => ?_⟩
  · by_cases h0 : d = str "0"
    · subst h0
      constructor
      · intro h; exact absurd h hz
      · rintro ⟨_, _, x, hx, _⟩; exact absurd rfl ((l1.2 _ _).1 hx).1
    · rw [(h2 d h0).1]
      refine and_congr_right (fun _ => and_congr_right (fun _ => exists_congr (fun x => and_congr_left (fun _ => ?_))))
      rw [l1.2]
      exact ⟨fun h => ⟨h0, h⟩, fun h => h.2⟩
  · have h0 : e.scoredID.docId ≠ str "0" := fun h0 => hz (List.mem_map.2 ⟨e, he, h0⟩)
    obtain ⟨j1, x, j2, j3⟩ := (h2 _ h0).2 e he rfl
    exact ⟨j1, x, (l1.2 _ _).2 ⟨h0, j2⟩, j3⟩

/-- **C95** ... and on an engine with one shard these are the documents of the engine. -/
theorem C95_one_shard (hone : c.shards = 1) (s : Fin c.shards) (calls : List (Call D)) (live : List (Str × D)) :
    LiveOn c s calls live ↔ LiveIn calls live := by
  have hr : ∀ d x, c.route d x = s := fun d x => Fin.ext (by have := (c.route d x).2; have := s.2; omega)
  unfold LiveOn LiveIn LatestOn LatestIn
  simp [hr]

/-! ## An example, and why the shards matter -/

/-- Two texts "red", a text "big" and a text "low". -/
def statTexts : Nat → DocText
  | 4 => { content := str "big" }
  | 6 => { content := str "low" }
  | _ => { content := str "red" }

/-- The documents are scored by BM25, the default (types/rank_options.go); the logarithm is exact on the values needed. -/
def statEng : EngCfg Nat Nat Nat :=
  { demoEng true with
    log2 := fun x => if x = 2 then 1 else if x = 4 then 2 else 0
    opts := { notUseGse := true, idOnly := true, defRankOpts := { score := rankByBM25 } } }

/-- Two shards; the documents are made from texts, by the engine's options. -/
def statEngine : PipeCfg Nat :=
  { demoPipe 2 2 1 (by decide) (by decide) false with
    docOf := fun id n => docOf demoEnv statEng.opts.toTextOpts id (statTexts n) }

def statOpts : IndexerOpts := smallOpts .freqs 10
def statStart : Full statEngine Nat Nat := Full.start statEngine statOpts (fun _ => [])
def statUser : Fin statEngine.clients := ⟨0, by decide⟩
def searchRed : SearchReq Nat := { text := str "red" }

/-- Document A goes to shard 1, documents B, C and D to shard 0. -/
def statLoad : List (EAct statEngine.toPipeSize Nat Nat) := statStart.script statEng
  [.inr (engineCands _),
   .inl (.pipe (.call statUser (.index (str "A") 1 false))), .inr (engineCands _),
   .inl (.pipe (.call statUser (.index (str "B") 2 false))), .inr (engineCands _),
   .inl (.pipe (.call statUser (.index (str "C") 4 false))), .inr (engineCands _),
   .inl (.pipe (.call statUser (.index (str "D") 6 false))), .inr (engineCands _)]
def statLoaded : Full statEngine Nat Nat := (statStart.run statEng statLoad).getD statStart
def statTail : List (EAct statEngine.toPipeSize Nat Nat) :=
  ((statLoaded.step statEng (.pipe (.call statUser .flush))).getD statLoaded).greedy statEng (engineCands _) 300
def statFlush : List (EAct statEngine.toPipeSize Nat Nat) := .pipe (.call statUser .flush) :: statTail
def statFlushed : Full statEngine Nat Nat := (statLoaded.run statEng statFlush).getD statLoaded
def statSearch : List (EAct statEngine.toPipeSize Nat Nat) :=
  .start searchRed :: ((statFlushed.step statEng (.start searchRed)).getD statFlushed).greedy statEng (searchCands _ 1) 300

/-- Four texts are indexed and flushed; then a search for "red". -/
def statRun : List (EAct statEngine.toPipeSize Nat Nat) := statLoad ++ statFlush ++ statSearch

/-- The ids and scores of a response. -/
def respScores (x : Option (SearchResp Nat Nat)) : Option (List (Str × List F32)) :=
  x.bind (fun y => (y.docs.bind asIDs).map (fun l => l.map (fun d => (d.docId, d.scores))))

/-- The hypotheses of `C95_statistics_partial` hold of that schedule; the response lists B with score 3 and A with score 3/2. -/
theorem stat_example : ∃ st b, FromTexts statEngine statEng statTexts ∧ statStart.run statEng statRun = some st ∧
    statStart.Gentle statEng statOpts (fun _ => []) statRun ∧ GentleStart statEngine statOpts (fun _ => []) ∧
    Began statRun 0 b searchRed ∧ st.Returned 0 ∧ (Full.after statEng statStart statRun b).fine.pipe.Quiet ∧
    (∀ d, d ≠ str "0" → ∃ l, Rounds (fun _ => []) d (Full.after statEng statStart statRun b).fine.pipe l) ∧
    (∀ d f x g l1 l2, (Full.after statEng statStart statRun b).fine.pipe.given (fun _ => []) =
      l1 ++ Call.remove d f :: l2 → Call.index d x g ∉ l2) ∧
    (∃ f i, statRun[f]? = some (.pipe (.call i .flush)) ∧ f < b ∧
      ∀ t j (a : Call Nat), f < t → statRun[t]? ≠ some (.pipe (.call j a))) ∧
    respScores (st.response statEng 0) = some [(str "B", [.fin 3]), (str "A", [.fin (3 / 2)])] := by
  have h : (statStart.gentleRun statEng statOpts (fun _ => []) statRun).any (fun st =>
    decide (0 < st.searches.length) && decide ((st.got 0).length = statEngine.shards) &&
    decide (respScores (st.response statEng 0) = some [(str "B", [.fin 3]), (str "A", [.fin (3 / 2)])])) = true := by
    decide +kernel
  have hb : ((statLoad ++ statFlush).filter EAct.isStart).length = 0 := by decide +kernel
  have hl : (statStart.run statEng statLoad).isSome = true := by decide +kernel
  have hf : (statLoaded.run statEng statFlush).isSome = true := by decide +kernel
  have hidle : (decide (∀ i, statLoaded.fine.pipe.prog (.client i) = [])) = true := by decide +kernel
  have hcl1 : (statEngine.recovered (fun _ => [])).map (fun x => Call.index x.1 x.2 false) ++
      statLoaded.fine.pipe.calls.map (·.2) =
      [(str "A", 1), (str "B", 2), (str "C", 4), (str "D", 6)].map (fun x => Call.index x.1 x.2 false) := by
    decide +kernel
  have hcl2 : (statFlushed.fine.pipe.given (fun _ => [])).all (fun a => a.indexed.isSome || a.isFlush) = true := by
    decide +kernel
  have hnd : ([(str "A", 1), (str "B", 2), (str "C", 4), (str "D", 6)].map (·.1)).Nodup := by decide +kernel
  have htail : statTail.all (fun a => a.call?.isNone) = true := by decide +kernel
  have hdone : statFlushed.fine.pipe.prog (.client statUser) = [] := by decide +kernel
  have hq : statFlushed.fine.pipe.quietB = true := by decide +kernel
  have hno : statSearch.all (fun a => a.call?.isNone) = true := by decide +kernel
  have rl : statStart.run statEng statLoad = some statLoaded := by
    obtain ⟨x, hx⟩ := Option.isSome_iff_exists.1 hl
    rw [statLoaded, hx, Option.getD_some]
  have rf : statLoaded.run statEng statFlush = some statFlushed := by
    obtain ⟨x, hx⟩ := Option.isSome_iff_exists.1 hf
    rw [statFlushed, hx, Option.getD_some]
  have hst : statSearch[0]? = some (.start searchRed) := by rw [statSearch]; rfl
  obtain ⟨b, k1, k2, k3, k4, k5, k6, k7, k8, k9⟩ := late_hyps_list (E := statEng) (tail := statTail) (rest := statSearch)
    (fun _ _ => rfl) rl rf (of_decide_eq_true hidle) htail hdone (quiet_of_B hq) hcl1 hnd hcl2 hb hst hno
    (as := statRun) rfl
  obtain ⟨st, h1, h2⟩ := (Option.any_eq_true _ _).1 h
  simp only [Bool.and_eq_true, decide_eq_true_eq] at h2
  obtain ⟨g1, g2⟩ := full_gentleRun_spec _ h1
  refine ⟨st, b, fun id x => docOf_isDocIndexOf _ _ _ _, g1, g2, ?_, k1, ⟨h2.1.1, h2.1.2⟩, k2, k3, k4, ⟨_, _, k8, k7, k9⟩, h2.2⟩
  intro s
  have : statEngine.recovered (fun _ => []) = [] := by decide +kernel
  rw [this]; simp only [List.map_nil, List.countP_nil]; decide +kernel

/-- **C95 is false for the whole engine**: four texts are indexed and flushed on an engine with two shards that scores by BM25.
A and B have the same text, so with any common statistics they get the same score; but the response gives B the score 3 and
A the score 3/2. -/
theorem C95_refuted_shards : statTexts 1 = statTexts 2 ∧
    (∀ log2 n avg df tokens, (expectedDoc log2 statOpts.init n avg df tokens (statEngine.docOf (str "A") 1)).bm25 =
      (expectedDoc log2 statOpts.init n avg df tokens (statEngine.docOf (str "B") 2)).bm25) ∧
    ∃ st, statStart.run statEng statRun = some st ∧
      respScores (st.response statEng 0) = some [(str "B", [.fin 3]), (str "A", [.fin (3 / 2)])] := by
  refine ⟨rfl, fun _ _ _ _ _ => rfl, ?_⟩
  obtain ⟨st, b, _, h1, _, _, _, _, _, _, _, _, h2⟩ := stat_example
  exact ⟨st, h1, h2⟩

end Riot
