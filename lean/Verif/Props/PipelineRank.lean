import Verif.Props.Pipeline
import Verif.Spec.EngineState

/-!
# Rankers and Flush: C33
-/

namespace Riot

variable {D F A : Type} {c : PipeCfg D}

theorem issuedRank_eq (db : Fin c.stores → List (Str × D)) (st : Pipe c) (s : Fin c.shards) :
    st.issuedRank db s = (st.given db).flatMap (c.callRank s) := by
  unfold Pipe.issuedRank Pipe.given PipeCfg.recovered
  rw [List.flatMap_append, List.flatMap_map, List.flatMap_map]
  congr 1
  split
  · simp [List.flatMap_assoc]
  · rfl

/-- When no work is left the rankers have executed exactly the events of the calls. -/
theorem rank_quiet {db : Fin c.stores → List (Str × D)} {st : Pipe c} (hr : Reach db st) (hq : st.Quiet)
    (s : Fin c.shards) : (st.rankLog s).Perm ((st.given db).flatMap (c.callRank s)) := by
  rw [← issuedRank_eq]
  apply perm_of_countP
  intro p
  obtain ⟨as, h⟩ := hr
  have := rank_conserve s p db as st h
  rw [pending_zero_of _ (fun t => by rw [hq.1 t]; rfl) hq.2.1 hq.2.2] at this
  omega

/-- Executed ranker events come from calls. -/
theorem rank_mem {db : Fin c.stores → List (Str × D)} {st : Pipe c} (hr : Reach db st)
    (s : Fin c.shards) {e : RankEv D} (he : e ∈ st.rankLog s) :
    e ∈ (st.given db).flatMap (c.callRank s) := by
  classical
  rw [← issuedRank_eq]
  obtain ⟨as, h⟩ := hr
  have := rank_conserve s (fun x => decide (x = e)) db as st h
  have h1 : 0 < (st.rankLog s).countP (fun x => decide (x = e)) :=
    List.countP_pos_iff.2 ⟨e, he, by simp⟩
  obtain ⟨x, hx, hxe⟩ := List.countP_pos_iff.1
    (show 0 < (st.issuedRank db s).countP (fun x => decide (x = e)) by omega)
  simp only [decide_eq_true_eq] at hxe
  rwa [hxe] at hx

/-- A ranker that was never told to remove `d` knows `d` exactly if it was told to add it. -/
theorem rankIdeal_isSome {h : List (RankerOp F A)} {d : Str} (hno : RankerOp.remove d ∉ h) :
    (rankIdeal h d).isSome ↔ ∃ f x, RankerOp.add d f x ∈ h := by
  induction h using List.reverseRecOn with
  | nil => simp [rankIdeal]
  | append_singleton h op ih =>
    have ih := ih (fun hm => hno (by simp [hm]))
    simp only [rankIdeal, List.foldl_append, List.foldl_cons, List.foldl_nil] at ih ⊢
    cases op with
    | add id f x =>
      by_cases hid : d = id
      · subst hid; simp only [rankIdealStep, if_true, Option.isSome_some, true_iff]
        exact ⟨f, x, by simp⟩
      · simp only [rankIdealStep, if_neg hid, ih]
        constructor
        · rintro ⟨f', x', hm⟩; exact ⟨f', x', by simp [hm]⟩
        · rintro ⟨f', x', hm⟩
          simp only [List.mem_append, List.mem_singleton, RankerOp.add.injEq] at hm
          rcases hm with hm | ⟨h1, _⟩
          · exact ⟨f', x', hm⟩
          · exact absurd h1 hid
    | remove id =>
      have hid : d ≠ id := by rintro rfl; exact hno (by simp)
      simp [rankIdealStep, hid, ih]

/-- ... and holds the data of one of the additions, if they came with content. -/
theorem rankIdeal_data {h : List (RankerOp F A)} {d : Str} (hno : RankerOp.remove d ∉ h)
    (P : Option F → Option (Str × Option (Option A)) → Prop)
    (hall : ∀ f x, RankerOp.add d f x ∈ h → P f x) {r : RankData F A} (hr : rankIdeal h d = some r) :
    ∃ f x, P f x ∧ r.fields = f ∧ (∀ ct, x = some ct → r.content = ct.1 ∧
      ∀ a, ct.2 = some a → r.attri = a) := by
  induction h using List.reverseRecOn with
  | nil => simp [rankIdeal] at hr
  | append_singleton h op ih =>
    have ih := fun hr => ih (fun hm => hno (by simp [hm])) (fun f x hm => hall f x (by simp [hm])) hr
    simp only [rankIdeal, List.foldl_append, List.foldl_cons, List.foldl_nil] at ih hr
    cases op with
    | add id f x =>
      by_cases hid : d = id
      · subst hid
        simp only [rankIdealStep, if_true, Option.some.injEq] at hr
        subst hr
        refine ⟨f, x, hall f x (by simp), rfl, ?_⟩
        intro ct hct
        subst hct
        refine ⟨rfl, ?_⟩
        intro a ha
        simp [ha]
      · simp only [rankIdealStep, if_neg hid] at hr
        exact ih hr
    | remove id =>
      have hid : d ≠ id := by rintro rfl; exact hno (by simp)
      simp only [rankIdealStep, if_neg hid] at hr
      exact ih hr

theorem mem_callRank_add {db : Fin c.stores → List (Str × D)} {st : Pipe c} {s : Fin c.shards} {d : Str} {x : D} :
    RankEv.add d x ∈ (st.given db).flatMap (c.callRank s) ↔
      d ≠ str "0" ∧ c.route d x = s ∧ ∃ f, Call.index d x f ∈ st.given db := by
  rw [List.mem_flatMap]
  constructor
  · rintro ⟨a, ha, hm⟩
    cases a with
    | index id y f =>
      simp only [PipeCfg.callRank] at hm
      split at hm
      · rename_i hc
        simp at hm
        obtain ⟨rfl, rfl⟩ := hm
        exact ⟨hc.1, hc.2, f, ha⟩
      · simp at hm
    | remove id f =>
      simp only [PipeCfg.callRank] at hm
      split at hm <;> simp at hm
    | flush => simp [PipeCfg.callRank] at hm
  · rintro ⟨h0, hs, f, hm⟩
    exact ⟨_, hm, by simp [PipeCfg.callRank, h0, hs]⟩

theorem mem_callRank_remove {db : Fin c.stores → List (Str × D)} {st : Pipe c} {s : Fin c.shards} {d : Str}
    (h : RankEv.remove d ∈ (st.given db).flatMap (c.callRank s)) : ∃ f, Call.remove d f ∈ st.given db := by
  obtain ⟨a, ha, hm⟩ := List.mem_flatMap.1 h
  cases a with
  | index id y f => simp only [PipeCfg.callRank] at hm; split at hm <;> simp at hm
  | remove id f =>
    simp only [PipeCfg.callRank] at hm
    split at hm
    · simp at hm; subst hm; exact ⟨f, ha⟩
    · simp at hm
  | flush => simp [PipeCfg.callRank] at hm

theorem rankHistory_no_remove {db : Fin c.stores → List (Str × D)} {st : Pipe c} (hr : Reach db st)
    {d : Str} (hno : ∀ f, Call.remove d f ∉ st.given db) (info : RankInfo D F A) (idOnly : Bool)
    (s : Fin c.shards) : RankerOp.remove d ∉ st.rankHistory info idOnly s := by
  intro hm
  obtain ⟨e, he, heq⟩ := List.mem_map.1 hm
  cases e with
  | add id x => simp [RankEv.op] at heq
  | remove id =>
    simp only [RankEv.op, RankerOp.remove.injEq] at heq
    subst heq
    obtain ⟨f, hf⟩ := mem_callRank_remove (rank_mem hr s he)
    exact hno f hf

/-- **C33** (partial: when no work is left, which Flush does not wait for; for documents that were
never removed) The ranker of a shard knows a document exactly if the document was given to the
engine with a content routed to that shard. -/
theorem C33_quiet_engine_can_rank_partial (db : Fin c.stores → List (Str × D))
    (as : List (Act c.toPipeSize D)) (st : Pipe c) (h : (Pipe.start c db).run as = some st)
    (hq : st.Quiet) (d : Str) (h0 : d ≠ str "0") (hno : ∀ f, Call.remove d f ∉ st.given db)
    (info : RankInfo D F A) (idOnly : Bool) (s : Fin c.shards) :
    (rankIdeal (st.rankHistory info idOnly s) d).isSome = true ↔
      ∃ x f, Call.index d x f ∈ st.given db ∧ c.route d x = s := by
  have hr : Reach db st := ⟨as, h⟩
  rw [rankIdeal_isSome (rankHistory_no_remove hr hno info idOnly s)]
  constructor
  · rintro ⟨f, y, hm⟩
    obtain ⟨e, he, heq⟩ := List.mem_map.1 hm
    cases e with
    | remove id => simp [RankEv.op] at heq
    | add id x =>
      simp only [RankEv.op, RankerOp.add.injEq] at heq
      obtain ⟨rfl, _⟩ := heq
      obtain ⟨_, h2, g, h3⟩ := mem_callRank_add.1 (rank_mem hr s he)
      exact ⟨x, g, h3, h2⟩
  · rintro ⟨x, g, h3, h2⟩
    have hm := (rank_quiet hr hq s).mem_iff.2 (mem_callRank_add.2 ⟨h0, h2, g, h3⟩)
    exact ⟨_, _, List.mem_map.2 ⟨_, hm, rfl⟩⟩

/-- **C33** (partial, as above) If the document was given to the shard with one content only, the
ranker holds the fields, content and attribute of that content. -/
theorem C33_ranker_data_partial (db : Fin c.stores → List (Str × D))
    (as : List (Act c.toPipeSize D)) (st : Pipe c) (h : (Pipe.start c db).run as = some st)
    (hq : st.Quiet) (d : Str) (h0 : d ≠ str "0") (hno : ∀ f, Call.remove d f ∉ st.given db)
    (info : RankInfo D F A) (s : Fin c.shards) (x : D) (g : Bool)
    (hx : Call.index d x g ∈ st.given db) (hs : c.route d x = s)
    (hone : ∀ y f, Call.index d y f ∈ st.given db → c.route d y = s → y = x) :
    ∃ r, rankIdeal (st.rankHistory info false s) d = some r ∧ r.fields = info.fields x ∧
      r.content = info.content x ∧ r.attri = info.attri x := by
  have hr : Reach db st := ⟨as, h⟩
  obtain ⟨r, hrr⟩ := Option.isSome_iff_exists.1
    ((C33_quiet_engine_can_rank_partial db as st h hq d h0 hno info false s).2 ⟨x, g, hx, hs⟩)
  obtain ⟨f, y, hp, e1, e2⟩ := rankIdeal_data (rankHistory_no_remove hr hno info false s)
    (fun f y => f = info.fields x ∧ y = some (info.content x, some (info.attri x))) (by
      intro f y hm
      obtain ⟨e, he, heq⟩ := List.mem_map.1 hm
      cases e with
      | remove id => simp [RankEv.op] at heq
      | add id z =>
        simp only [RankEv.op, RankerOp.add.injEq] at heq
        obtain ⟨rfl, rfl, rfl⟩ := heq
        obtain ⟨_, h2, g', h3⟩ := mem_callRank_add.1 (rank_mem hr s he)
        rw [hone z g' h3 h2]
        simp) hrr
  obtain ⟨hp1, hp2⟩ := hp
  obtain ⟨e3, e4⟩ := e2 _ hp2
  exact ⟨r, hrr, by rw [e1, hp1], e3, e4 _ rfl⟩

/-- **C33** (partial) Without further calls, every schedule that runs to its end leaves every
document that was never removed known to the ranker of its shard. -/
theorem C33_eventually_rankable_partial (hz : c.toPipeSize.Ok) (db : Fin c.stores → List (Str × D))
    (as : List (Act c.toPipeSize D)) (st : Pipe c) (h : (Pipe.start c db).run as = some st)
    (d : Str) (h0 : d ≠ str "0") (x : D) (f : Bool) (hx : Call.index d x f ∈ st.given db)
    (hno : ∀ f, Call.remove d f ∉ st.given db) (info : RankInfo D F A) (idOnly : Bool) :
    ∃ N, ∀ (bs : List (Act c.toPipeSize D)) (st' : Pipe c), (∀ a ∈ bs, a.isCall = false) →
      st.run bs = some st' → bs.length ≤ N ∧
        ((∀ a, a.isCall = false → st'.step a = none) →
          (rankIdeal (st'.rankHistory info idOnly (c.route d x)) d).isSome = true) := by
  obtain ⟨N, hN⟩ := C32_calls_return hz db as st h
  refine ⟨N, fun bs st' hb hrun => ⟨(hN bs st' hb hrun).1, fun hs => ?_⟩⟩
  obtain ⟨_, hq⟩ := (hN bs st' hb hrun).2 hs
  have hcalls : st'.given db = st.given db := by
    unfold Pipe.given
    rw [run_calls st st' bs hrun, noCall_called hb, List.append_nil]
  refine (C33_quiet_engine_can_rank_partial db (as ++ bs) st' ?_ hq d h0 (by rw [hcalls]; exact hno)
    info idOnly _).2 ⟨x, f, by rw [hcalls]; exact hx, rfl⟩
  rw [run_append, h]; exact hrun

/-! ## Witnesses and counterexamples -/

/-- The content of a demo document is its only field, its content and its attribute. -/
def demoInfo : RankInfo Nat Nat Nat := ⟨some, fun n => str s!"k{n}", some⟩

/-- The shards of a demo engine as a search sees them. -/
def Pipe.demoViews {c : PipeCfg Nat} (st : Pipe c) : List (ShardView Nat Nat) :=
  (List.finRange c.shards).map (fun s =>
    { index := ((Indexer.init (smallOpts .docIds 10)).run insSort (st.idxLog s)).getD
        (Indexer.init (smallOpts .docIds 10))
      history := st.rankHistory demoInfo true s })

/-- The ids a search for one key returns, and the number of documents it reports. -/
def Pipe.demoSearch {c : PipeCfg Nat} (st : Pipe c) (orderless : Bool) (k : String) :
    Option (List Str × Nat) :=
  respIds ((shardAnswers (fun x => x) insGSort demoOpts { orderless := orderless } [str k] st.demoViews).bind
    (completeSearch insGSort demoOpts { orderless := orderless } [str k]))

/-- Everything is idle, as a check. -/
def Pipe.quietB [DecidableEq D] {c : PipeCfg D} (st : Pipe c) : Bool :=
  decide (∀ t, st.prog t = []) && decide (∀ q, st.chan q = []) && st.spawned.isEmpty

theorem quiet_of_B [DecidableEq D] {c : PipeCfg D} {st : Pipe c} (h : st.quietB = true) : st.Quiet := by
  simp only [Pipe.quietB, Bool.and_eq_true, decide_eq_true_eq, List.isEmpty_iff] at h
  exact ⟨h.1.1, h.1.2, h.2⟩

/-- **C33 is false**: Index("1"), Flush; after the Flush returned, an orderless search finds the
document and an ordinary search does not, because Flush does not wait for the rankers. -/
theorem C33_refuted_rankers_not_awaited :
    ∃ (as : List (Act twoShards.toPipeSize Nat)) (st st' : Pipe twoShards),
      (Pipe.start twoShards (fun _ => [])).run as = some st ∧
      st.calls = [(client0, Call.index (str "1") 7 false)] ∧ FlushCompletes client0 st st' ∧
      st'.demoSearch true "k7" = some ([str "1"], 1) ∧ st'.demoSearch false "k7" = some ([], 0) := by
  let as := (Pipe.start twoShards (fun _ => [])).session (demoActs _)
    [(client0, Call.index (str "1") 7 false)]
  have h : ((Pipe.start twoShards (fun _ => [])).run as).any (fun st =>
      decide (st.calls = [(client0, Call.index (str "1") 7 false)]) &&
      (st.flushBy client0 (st.flushSched (demoActs _) client0)).any (fun st' =>
        decide (st'.demoSearch true "k7" = some ([str "1"], 1) ∧
          st'.demoSearch false "k7" = some ([], 0)))) = true := by decide +kernel
  obtain ⟨st, hst, hp⟩ := (Option.any_eq_true _ _).1 h
  simp only [Bool.and_eq_true, decide_eq_true_eq] at hp
  obtain ⟨st', hst', hp'⟩ := (Option.any_eq_true _ _).1 hp.2
  simp only [decide_eq_true_eq] at hp'
  exact ⟨as, st, st', hst, hp.1, flushBy_completes hst', hp'⟩

/-- The adding rankers. -/
def demoRankAdds (z : PipeSize) : List (Act z Nat) :=
  (List.finRange z.shards).flatMap (fun s => [.run (.rankAdd s), .recv (.rankAdd s)])

/-- **C33 is false even when nothing is left to do**: Index("1"), Flush, RemoveDoc("1"), Flush,
Index("1"), Flush, by one caller. The ranker executes its removal last (removals and additions have
separate queues that Flush does not wait for). When all work is done the document is in the index,
but no ordinary search will ever return it. -/
theorem C33_refuted_readded_document_lost :
    ∃ st : Pipe twoShards, Reach (fun _ => []) st ∧ st.Quiet ∧
      st.calls = [(client0, Call.index (str "1") 7 false), (client0, Call.flush),
        (client0, Call.remove (str "1") false), (client0, Call.flush),
        (client0, Call.index (str "1") 7 false), (client0, Call.flush)] ∧
      st.demoSearch true "k7" = some ([str "1"], 1) ∧ st.demoSearch false "k7" = some ([], 0) := by
  let s0 := Pipe.start twoShards (fun _ => [])
  let cands : List (Act twoShards.toPipeSize Nat) := demoActs _ ++ demoRankAdds _
  let as := s0.session cands [(client0, Call.index (str "1") 7 false), (client0, Call.flush),
        (client0, Call.remove (str "1") false), (client0, Call.flush),
        (client0, Call.index (str "1") 7 false), (client0, Call.flush)]
  have h : ((s0.run as).bind (fun st => st.run (st.greedy (demoActs _ ++ demoRanks _) 100))).any (fun st =>
      decide (st.calls = [(client0, Call.index (str "1") 7 false), (client0, Call.flush),
        (client0, Call.remove (str "1") false), (client0, Call.flush),
        (client0, Call.index (str "1") 7 false), (client0, Call.flush)]) && st.quietB &&
      decide (st.demoSearch true "k7" = some ([str "1"], 1) ∧ st.demoSearch false "k7" = some ([], 0))) =
      true := by decide +kernel
  obtain ⟨st, hst, hp⟩ := (Option.any_eq_true _ _).1 h
  simp only [Bool.and_eq_true, decide_eq_true_eq] at hp
  obtain ⟨u, hu1, hu2⟩ := Option.bind_eq_some_iff.1 hst
  exact ⟨st, Reach.run ⟨_, hu1⟩ hu2, quiet_of_B hp.1.2, hp.1.1, hp.2⟩

/-- Two segmenter threads, one shard. -/
def twoSegs : PipeCfg Nat := { demoPipe 1 1 1 (by decide) (by decide) false with gse := 2 }

def onlyClient : Fin twoSegs.clients := ⟨0, by decide⟩
def onlyShard : Fin twoSegs.shards := ⟨0, by decide⟩
def seg0 : Fin twoSegs.gse := ⟨0, by decide⟩
def seg1 : Fin twoSegs.gse := ⟨1, by decide⟩

/-- All threads but the first segmenter. -/
def withoutSeg0 : List (Act twoSegs.toPipeSize Nat) :=
  [.ready, .run (.seg seg1), .recv (.seg seg1), .run (.idxAdd onlyShard), .recv (.idxAdd onlyShard),
   .run (.rankAdd onlyShard), .recv (.rankAdd onlyShard), .run (.client onlyClient)]

/-- **The ranker can keep the fields of an old version for ever**: Index("1", 7), Flush,
Index("1", 9), Flush, by one caller, on one shard with two segmenter threads. The first segmenter
hands the old version to the index before the first Flush returns, and to the ranker only at the
end. When all work is done the index holds the new version and the ranker the old fields. -/
theorem C33_refuted_stale_fields :
    ∃ st : Pipe twoSegs, Reach (fun _ => []) st ∧ st.Quiet ∧
      st.calls = [(onlyClient, Call.index (str "1") 7 false), (onlyClient, Call.flush),
        (onlyClient, Call.index (str "1") 9 false), (onlyClient, Call.flush)] ∧
      st.findKey onlyShard "k9" = some [str "1"] ∧
      (rankIdeal (st.rankHistory demoInfo true onlyShard) (str "1")).map (·.fields) = some (some 7) := by
  let s0 := Pipe.start twoSegs (fun _ => [])
  let as0 : List (Act twoSegs.toPipeSize Nat) := [.ready, .call onlyClient (.index (str "1") 7 false),
    .run (.client onlyClient), .run (.client onlyClient), .recv (.seg seg0), .run (.seg seg0)]
  have h : (((s0.run as0).bind (fun st => st.run (st.session withoutSeg0 [(onlyClient, Call.flush),
        (onlyClient, Call.index (str "1") 9 false), (onlyClient, Call.flush)]))).bind
      (fun st => st.run (st.greedy (demoActs _ ++ demoRanks _) 100))).any (fun st =>
      decide (st.calls = [(onlyClient, Call.index (str "1") 7 false), (onlyClient, Call.flush),
        (onlyClient, Call.index (str "1") 9 false), (onlyClient, Call.flush)]) && st.quietB &&
      decide (st.findKey onlyShard "k9" = some [str "1"] ∧
        (rankIdeal (st.rankHistory demoInfo true onlyShard) (str "1")).map (·.fields) = some (some 7))) =
      true := by decide +kernel
  obtain ⟨st, hst, hp⟩ := (Option.any_eq_true _ _).1 h
  simp only [Bool.and_eq_true, decide_eq_true_eq] at hp
  obtain ⟨u, hu1, hu2⟩ := Option.bind_eq_some_iff.1 hst
  obtain ⟨v, hv1, hv2⟩ := Option.bind_eq_some_iff.1 hu1
  exact ⟨st, (Reach.run ⟨_, hv1⟩ hv2).run hu2, quiet_of_B hp.1.2, hp.1.1, hp.2⟩

/-- The hypotheses of the C33 theorems are met: after Index("1"), Flush and the rankers' work,
the engine is quiet and the ordinary search returns the document. -/
example : ∃ (as : List (Act twoShards.toPipeSize Nat)) (st : Pipe twoShards),
    (Pipe.start twoShards (fun _ => [])).run as = some st ∧ st.Quiet ∧
    Call.index (str "1") 7 false ∈ st.given (fun _ => []) ∧
    (∀ f, Call.remove (str "1") f ∉ st.given (fun _ => [])) ∧
    st.demoSearch false "k7" = some ([str "1"], 1) := by
  let as := (Pipe.start twoShards (fun _ => [])).session (demoActs _ ++ demoRanks _)
    [(client0, Call.index (str "1") 7 false), (client0, Call.flush)]
  have h : ((Pipe.start twoShards (fun _ => [])).run as).any (fun st =>
      decide (st.calls = [(client0, Call.index (str "1") 7 false), (client0, Call.flush)]) && st.quietB &&
      decide (st.demoSearch false "k7" = some ([str "1"], 1))) = true := by decide +kernel
  obtain ⟨st, hst, hp⟩ := (Option.any_eq_true _ _).1 h
  simp only [Bool.and_eq_true, decide_eq_true_eq] at hp
  have hrec : twoShards.recovered (fun _ => []) = [] := by decide +kernel
  refine ⟨as, st, hst, quiet_of_B hp.1.2, ?_, ?_, hp.2⟩
  · simp [Pipe.given, hp.1.1]
  · simp [Pipe.given, hp.1.1, hrec]

end Riot
