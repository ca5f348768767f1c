import Verif.Proofs.FullFine
import Verif.Props.Shard

/-!
# Searches end
-/

namespace Riot

open Function (update)

variable {D F A : Type} {c : PipeCfg D}

/-- What a step is. -/
inductive FullStep (E : EngCfg D F A) (st st' : Full c F A) : EAct c.toPipeSize D F → Prop
  | fine (a : EAct c.toPipeSize D F) (b : FAct c.toPipeSize D) (f : Fine c) (ha : a.fine? = some b)
      (h : st.fine.step E.so b = some f) (he : st' = { st with fine := f }) : FullStep E st st' a
  | start (r : SearchReq F) (hi : st.fine.pipe.inited = true) (he : st' = { st with searches := st.searches ++ [r] }) :
      FullStep E st st' (.start r)
  | send (k : Nat) (s : Fin c.shards) (hk : k < st.searches.length) (hs : s.val = st.sent k)
      (hcap : (st.lookupQ s).length < c.idxCap)
      (he : st' = { st.setReq k s .queued with
        lookupQ := update st.lookupQ s (st.lookupQ s ++ [k]), sent := update st.sent k (st.sent k + 1) }) :
      FullStep E st st' (.send k)
  | take (s : Fin c.shards) (k : Nat) (q : List Nat) (hq : st.lookupQ s = k :: q) (hb : st.lookBusy s < E.lookupThreads)
      (he : st' = { st.setReq k s .taken with
        lookupQ := update st.lookupQ s q, lookBusy := update st.lookBusy s (st.lookBusy s + 1) }) :
      FullStep E st st' (.take s)
  | lock (s : Fin c.shards) (k : Nat) (f : Fine c) (hr : st.req k s = .taken)
      (h : st.fine.step E.so (.search s) = some f) (he : st' = { st.setReq k s .locked with fine := f }) :
      FullStep E st st' (.lock s k)
  | crash (a : EAct c.toPipeSize D F) (hn : ∀ r, a ≠ .start r) (hf : a.fine? = none)
      (he : st' = { st with dead := true }) : FullStep E st st' a
  | look (s : Fin c.shards) (k : Nat) (out : LookupOut F A) (f : Fine c) (hr : st.req k s = .locked)
      (h : st.fine.step E.so (.searched s) = some f) (he : st' = { st.setReq k s (.looked out) with fine := f }) :
      FullStep E st st' (.look s k)
  | reply (s : Fin c.shards) (k : Nat) (a : Answer F A) (hr : st.req k s = .looked (.answer a))
      (he : st' = { st.setReq k s .answered with
        chan := update st.chan k (st.chan k ++ [(s, a)]), lookBusy := update st.lookBusy s (st.lookBusy s - 1) }) :
      FullStep E st st' (.reply s k)
  | forward (s : Fin c.shards) (k : Nat) (docs : List IndexedDoc) (hr : st.req k s = .looked (.rank docs))
      (he : st' = { st.setReq k s (.waiting docs) with
        rankQ := update st.rankQ s (st.rankQ s ++ [k]), lookBusy := update st.lookBusy s (st.lookBusy s - 1) }) :
      FullStep E st st' (.forward s k)
  | takeRank (s : Fin c.shards) (k : Nat) (q : List Nat) (docs : List IndexedDoc) (call : RankCall F A)
      (hq : st.rankQ s = k :: q) (hr : st.req k s = .waiting docs) (hc : call.todo = docs)
      (he : st' = { st.setReq k s (.ranking call) with
        rankQ := update st.rankQ s q, rankBusy := update st.rankBusy s (st.rankBusy s + 1) }) :
      FullStep E st st' (.takeRank s)
  | read (s : Fin c.shards) (k : Nat) (call call' : RankCall F A) (d : IndexedDoc) (hr : st.req k s = .ranking call)
      (hc : call.todo = d :: call'.todo) (he : st' = st.setReq k s (.ranking call')) : FullStep E st st' (.read s k)
  | replyRank (s : Fin c.shards) (k : Nat) (call : RankCall F A) (a : Answer F A) (hr : st.req k s = .ranking call)
      (he : st' = { st.setReq k s .answered with
        chan := update st.chan k (st.chan k ++ [(s, a)]), rankBusy := update st.rankBusy s (st.rankBusy s - 1) }) :
      FullStep E st st' (.replyRank s k)
  | recv (k : Nat) (x : Fin c.shards × Answer F A) (q : List (Fin c.shards × Answer F A)) (hq : st.chan k = x :: q)
      (hk : k < st.searches.length) (hs : st.sent k = c.shards) (hg : (st.got k).length < c.shards)
      (he : st' = { st with chan := update st.chan k q, got := update st.got k (st.got k ++ [some x]) }) :
      FullStep E st st' (.recv k)
  | timer (k : Nat) (hk : k < st.searches.length) (hs : st.sent k = c.shards) (hg : (st.got k).length < c.shards)
      (hto : ∃ r, st.searches[k]? = some r ∧ 0 < r.timeout)
      (he : st' = { st with got := update st.got k (st.got k ++ [none]) }) : FullStep E st st' (.timer k)

theorem RankCall.read_todo (call : RankCall F A) (R : Ranker F A) (d : IndexedDoc) (rest : List IndexedDoc) :
    (call.read R d rest).todo = rest := by
  unfold RankCall.read
  (repeat' split) <;> rfl

theorem full_step {E : EngCfg D F A} {st st' : Full c F A} {a : EAct c.toPipeSize D F}
    (h : st.step E a = some st') : st.dead = false ∧ st.fine.dead = false ∧ FullStep E st st' a := by
  unfold Full.step at h
  split at h
  · simp at h
  rename_i hd
  simp only [Bool.or_eq_true, not_or, Bool.not_eq_true] at hd
  refine ⟨hd.1, hd.2, ?_⟩
  cases hf : a.fine? with
  | some b =>
    rw [hf] at h
    obtain ⟨f, h1, rfl⟩ := Option.map_eq_some_iff.1 h
    exact .fine a b f hf h1 rfl
  | none =>
    rw [hf] at h
    simp only at h
    have hf' := hf
    cases a <;> simp only [Full.search, EAct.fine?, reduceCtorEq] at h hf
    case start r =>
      split at h
      · rename_i hi; simp at h; exact .start r hi h.symm
      · simp at h
    case send k =>
      split at h
      · rename_i hk
        split at h
        · rename_i hcap; simp at h; exact .send k ⟨st.sent k, hk.2⟩ hk.1 rfl hcap h.symm
        · simp at h
      · simp at h
    case take s =>
      split at h
      · rename_i k q hq
        split at h
        · rename_i hb; simp at h; exact .take s k q hq hb h.symm
        · simp at h
      · simp at h
    case lock s k =>
      split at h
      · rename_i hr
        obtain ⟨f, h1, rfl⟩ := Option.map_eq_some_iff.1 h
        exact .lock s k f hr h1 rfl
      · simp at h
    case look s k =>
      split at h
      · rename_i r hr _
        split at h
        · simp at h; exact .crash _ (by simp) hf' h.symm
        · rename_i out _
          obtain ⟨f, h1, rfl⟩ := Option.map_eq_some_iff.1 h
          exact .look s k out f hr h1 rfl
      · simp at h
    case reply s k =>
      split at h
      · rename_i a hr
        obtain ⟨f, h1, rfl⟩ := Option.map_eq_some_iff.1 h
        unfold Full.deliver at h1
        split at h1 <;> simp at h1
        subst h1
        exact .reply s k a hr rfl
      · simp at h
    case forward s k =>
      split at h
      · rename_i docs hr
        split at h <;> simp at h
        exact .forward s k docs hr h.symm
      · simp at h
    case takeRank s =>
      split at h
      · rename_i k q hq
        split at h
        · rename_i docs r hr _
          split at h <;> simp at h
          exact .takeRank s k q docs _ hq hr rfl h.symm
        · simp at h
      · simp at h
    case read s k =>
      split at h
      · rename_i call hr
        split at h
        · rename_i d rest hc
          simp at h
          exact .read s k call _ d hr (by rw [RankCall.read_todo]; exact hc) h.symm
        · simp at h
      · simp at h
    case replyRank s k =>
      split at h
      · rename_i call hr
        split at h
        · split at h
          · simp at h; exact .crash _ (by simp) hf' h.symm
          · obtain ⟨f, h1, rfl⟩ := Option.map_eq_some_iff.1 h
            unfold Full.deliver at h1
            split at h1 <;> simp at h1
            subst h1
            exact .replyRank s k call _ hr rfl
        · simp at h
      · simp at h
    case recv k =>
      split at h
      · rename_i x q hq
        split at h
        · rename_i hk; simp at h; exact .recv k x q hq hk.1 hk.2.1 hk.2.2 h.symm
        · simp at h
      · simp at h
    case timer k =>
      split at h
      · rename_i r hr
        split at h
        · rename_i hk; simp at h; exact .timer k (List.getElem?_eq_some_iff.1 hr).1 hk.1 hk.2.1 ⟨r, hr, hk.2.2⟩ h.symm
        · simp at h
      · simp at h

/-! ## Counting requests -/

/-- Sum of a weight over all searches, on one shard. -/
def Full.sumAt (st : Full c F A) (g : ReqAt F A → Nat) (s : Fin c.shards) : Nat :=
  ∑ k ∈ Finset.range st.searches.length, g (st.req k s)

theorem sumAt_move {st st' : Full c F A} {k : Nat} {s : Fin c.shards} {x : ReqAt F A}
    (hs : st'.searches = st.searches) (hreq : st'.req = (st.setReq k s x).req) (hk : k < st.searches.length)
    (g : ReqAt F A → Nat) : st'.sumAt g s + g (st.req k s) = st.sumAt g s + g x := by
  unfold Full.sumAt
  rw [hs, hreq]
  have hm : k ∈ Finset.range st.searches.length := Finset.mem_range.2 hk
  rw [← Finset.add_sum_erase _ _ hm, ← Finset.add_sum_erase (a := k) (f := fun k => g (st.req k s)) _ hm]
  have : ∑ x_1 ∈ (Finset.range st.searches.length).erase k, g ((st.setReq k s x).req x_1 s) =
      ∑ x ∈ (Finset.range st.searches.length).erase k, g (st.req x s) := by
    apply Finset.sum_congr rfl
    intro j hj
    have : j ≠ k := (Finset.mem_erase.1 hj).1
    simp [this]
  rw [this]
  simp
  omega

theorem sumAt_other {st st' : Full c F A} {k : Nat} {s s' : Fin c.shards} {x : ReqAt F A}
    (hs : st'.searches = st.searches) (hreq : st'.req = (st.setReq k s x).req) (hne : s' ≠ s)
    (g : ReqAt F A → Nat) : st'.sumAt g s' = st.sumAt g s' := by
  unfold Full.sumAt
  rw [hs, hreq]
  apply Finset.sum_congr rfl
  intro j _
  simp [hne]

theorem sumAt_same {st st' : Full c F A} (hs : st'.searches = st.searches) (hreq : st'.req = st.req)
    (g : ReqAt F A → Nat) (s : Fin c.shards) : st'.sumAt g s = st.sumAt g s := by
  unfold Full.sumAt; rw [hs, hreq]

theorem sumAt_start {st st' : Full c F A} (hp : Proto st) {r : SearchReq F} (hs : st'.searches = st.searches ++ [r])
    (hreq : st'.req = st.req) (g : ReqAt F A → Nat) (s : Fin c.shards) :
    st'.sumAt g s = st.sumAt g s + g .unsent := by
  unfold Full.sumAt
  rw [hs, hreq, List.length_append, List.length_singleton, Finset.sum_range_succ]
  congr 1
  rw [(hp.unsent _ s).2 (by rw [(hp.fresh _ le_rfl).1]; omega)]

theorem sumAt_zero {st : Full c F A} (hp : Proto st) {g : ReqAt F A → Nat} (h0 : g .unsent = 0) {s : Fin c.shards}
    (h : st.sumAt g s = 0) (k : Nat) : g (st.req k s) = 0 := by
  by_cases hk : k < st.searches.length
  · exact (Finset.sum_eq_zero_iff.1 h) k (Finset.mem_range.2 hk)
  · rw [(hp.unsent k s).2 (by rw [(hp.fresh k (by omega)).1]; omega), h0]

theorem le_sumAt {st : Full c F A} {g : ReqAt F A → Nat} {s : Fin c.shards} {k : Nat} (hk : k < st.searches.length) :
    g (st.req k s) ≤ st.sumAt g s :=
  Finset.single_le_sum (f := fun k => g (st.req k s)) (fun _ _ => Nat.zero_le _) (Finset.mem_range.2 hk)

/-- The request is in the hands of a lookup worker. -/
def ReqAt.inLookup : ReqAt F A → Nat
  | .taken => 1
  | .locked => 1
  | .looked _ => 1
  | _ => 0

/-- The request is in the hands of a rank worker. -/
def ReqAt.inRank : ReqAt F A → Nat
  | .ranking _ => 1
  | _ => 0

/-- The table is locked for the request. -/
def ReqAt.holds : ReqAt F A → Nat
  | .locked => 1
  | _ => 0

/-- The worker counts are right. -/
structure Counts (st : Full c F A) : Prop where
  look : ∀ s, st.lookBusy s = st.sumAt ReqAt.inLookup s
  rank : ∀ s, st.rankBusy s = st.sumAt ReqAt.inRank s
  readers : ∀ s, (st.fine.shard s).readers = st.sumAt ReqAt.holds s
  got : ∀ k, (st.got k).length ≤ c.shards
  sent : ∀ k, st.sent k ≤ c.shards

theorem Counts.start (o : IndexerOpts) (db : Fin c.stores → List (Str × D)) : Counts (Full.start c o db : Full c F A) := by
  refine ⟨fun s => ?_, fun s => ?_, fun s => ?_, fun k => ?_, fun k => ?_⟩ <;> simp [Full.start, Full.sumAt, Fine.start, CShard.init]

theorem Counts.move {st st' : Full c F A} (hc : Counts st) {k : Nat} {s : Fin c.shards} {x : ReqAt F A}
    (hs : st'.searches = st.searches) (hreq : st'.req = (st.setReq k s x).req) (hk : k < st.searches.length)
    (hg : st'.got = st.got) (hse : ∀ k, st'.sent k ≤ c.shards)
    (h1 : st'.lookBusy s + (st.req k s).inLookup = st.lookBusy s + x.inLookup)
    (h2 : st'.rankBusy s + (st.req k s).inRank = st.rankBusy s + x.inRank)
    (h3 : (st'.fine.shard s).readers + (st.req k s).holds = (st.fine.shard s).readers + x.holds)
    (h4 : ∀ s', s' ≠ s → st'.lookBusy s' = st.lookBusy s' ∧ st'.rankBusy s' = st.rankBusy s' ∧
      (st'.fine.shard s').readers = (st.fine.shard s').readers) : Counts st' := by
  refine ⟨fun s' => ?_, fun s' => ?_, fun s' => ?_, fun k => by rw [hg]; exact hc.got k, hse⟩
  · by_cases e : s' = s
    · subst e
      have := sumAt_move hs hreq hk ReqAt.inLookup
      rw [← hc.look] at this; omega
    · rw [sumAt_other hs hreq e, (h4 s' e).1, hc.look]
  · by_cases e : s' = s
    · subst e
      have := sumAt_move hs hreq hk ReqAt.inRank
      rw [← hc.rank] at this; omega
    · rw [sumAt_other hs hreq e, (h4 s' e).2.1, hc.rank]
  · by_cases e : s' = s
    · subst e
      have := sumAt_move hs hreq hk ReqAt.holds
      rw [← hc.readers] at this; omega
    · rw [sumAt_other hs hreq e, (h4 s' e).2.2, hc.readers]

/-- Steps of the pipeline and of the workers do not lock the table for reading. -/
theorem fine_readers {so : Sorter} {st st' : Fine c} {b : FAct c.toPipeSize D} (h : st.step so b = some st')
    (hb : (∀ s, b ≠ .search s) ∧ ∀ s, b ≠ .searched s) (s' : Fin c.shards) :
    (st'.shard s').readers = (st.shard s').readers := by
  obtain ⟨_, hs⟩ := fine_step h
  clear h
  have key : ∀ (s : Fin c.shards) (x : CShard), x.readers = (st.shard s).readers →
      (update st.shard s x s').readers = (st.shard s').readers := by
    intro s x hx
    by_cases e : s' = s
    · subst e; simpa using hx
    · simp [update, e]
  cases hs with
  | pipe a p h0 h he => subst he; rfl
  | beginAdd s op x hop hn h he =>
    subst he; apply key
    cases op with
    | add d f => simp only [CShard.step] at h; split at h <;> (try split at h) <;> simp at h; rw [← h]
    | flush f => simp only [CShard.step] at h; split at h <;> (try split at h) <;> simp at h; rw [← h]
    | remove id f => simp [IdxOp.isAdd] at hop
  | beginRem s id f x hn h he =>
    subst he; apply key
    simp only [CShard.step] at h; split at h <;> (try split at h) <;> simp at h; rw [← h]
  | add s x h hx he => subst he; exact key s x (addStep_work (step_add_some h)).2.1
  | addRet s x p h hx hp he => subst he; exact key s x (addStep_work (step_add_some h)).2.1
  | rem s x h hx he => subst he; exact key s x (remWorkerStep_work (step_rem_some h)).2.2.1
  | remRet s x p h hx hp he => subst he; exact key s x (remWorkerStep_work (step_rem_some h)).2.2.1
  | search s x h he => exact absurd rfl (hb.1 s)
  | searched s x h he => exact absurd rfl (hb.2 s)

theorem fine_search {so : Sorter} {st st' : Fine c} {s : Fin c.shards} (h : st.step so (.search s) = some st') :
    (st'.shard s).readers = (st.shard s).readers + 1 ∧ ∀ s', s' ≠ s → (st'.shard s').readers = (st.shard s').readers := by
  obtain ⟨_, hs⟩ := fine_step h
  clear h
  cases hs with
  | search s x h he =>
    subst he
    simp only [CShard.step] at h
    split at h <;> simp at h
    subst h
    exact ⟨by simp [Fine.setShard], fun s' e => by simp [Fine.setShard, update, e]⟩

theorem fine_searched {so : Sorter} {st st' : Fine c} {s : Fin c.shards} (h : st.step so (.searched s) = some st') :
    (st'.shard s).readers + 1 = (st.shard s).readers ∧ ∀ s', s' ≠ s → (st'.shard s').readers = (st.shard s').readers := by
  obtain ⟨_, hs⟩ := fine_step h
  clear h
  cases hs with
  | searched s x h he =>
    subst he
    exact ⟨by simpa [Fine.setShard] using (searched_some h).2.2.2.1, fun s' e => by simp [Fine.setShard, update, e]⟩

theorem fine?_not_search {z : PipeSize} {a : EAct z D F} {b : FAct z D} (h : a.fine? = some b) :
    (∀ s, b ≠ .search s) ∧ ∀ s, b ≠ .searched s := by
  cases a <;> simp [EAct.fine?] at h <;> subst h <;> simp

theorem Counts.step {E : EngCfg D F A} {st st' : Full c F A} {a : EAct c.toPipeSize D F} (hp : Proto st) (hc : Counts st)
    (h : st.step E a = some st') : Counts st' := by
  obtain ⟨_, _, hs⟩ := full_step h
  have lt : ∀ {k s}, st.req k s ≠ .unsent → k < st.searches.length := fun h => hp.lt h
  cases hs with
  | fine a b f ha h1 he =>
    subst he
    refine ⟨hc.look, hc.rank, fun s => ?_, hc.got, hc.sent⟩
    rw [fine_readers h1 (fine?_not_search ha) s]
    exact hc.readers s
  | start r hi he =>
    subst he
    have hsum : ∀ (g : ReqAt F A → Nat) (s : Fin c.shards),
        ({ st with searches := st.searches ++ [r] } : Full c F A).sumAt g s = st.sumAt g s + g .unsent :=
      fun g s => sumAt_start (st' := { st with searches := st.searches ++ [r] }) hp rfl rfl g s
    refine ⟨fun s => ?_, fun s => ?_, fun s => ?_, hc.got, hc.sent⟩ <;> rw [hsum]
    · simpa [ReqAt.inLookup] using hc.look s
    · simpa [ReqAt.inRank] using hc.rank s
    · simpa [ReqAt.holds] using hc.readers s
  | send k s hk hs hcap he =>
    subst he
    have hu : st.req k s = .unsent := (hp.unsent k s).2 (by omega)
    have hsl : ∀ k', update st.sent k (st.sent k + 1) k' ≤ c.shards := by
      intro k'
      by_cases e : k' = k
      · subst e; simp; have := s.isLt; omega
      · simp [update, e, hc.sent k']
    exact hc.move (k := k) (s := s) (x := .queued) rfl rfl hk rfl hsl (by simp [hu, ReqAt.inLookup, Full.setReq])
      (by simp [hu, ReqAt.inRank, Full.setReq]) (by simp [hu, ReqAt.holds, Full.setReq]) (fun _ _ => ⟨rfl, rfl, rfl⟩)
  | take s k q hq hb he =>
    subst he
    have hu : st.req k s = .queued := ((hp.lookQ s).2 k).1 (by rw [hq]; simp)
    exact hc.move (k := k) (s := s) (x := .taken) rfl rfl (lt (k := k) (s := s) (by simp [hu])) rfl hc.sent (by simp [hu, ReqAt.inLookup, Full.setReq])
      (by simp [hu, ReqAt.inRank, Full.setReq]) (by simp [hu, ReqAt.holds, Full.setReq])
      (fun _ e => ⟨by simp [update, e], rfl, rfl⟩)
  | lock s k f hr h1 he =>
    subst he
    obtain ⟨f1, f2⟩ := fine_search h1
    exact hc.move (k := k) (s := s) (x := .locked) rfl rfl (lt (k := k) (s := s) (by simp [hr])) rfl hc.sent
      (by simp [hr, ReqAt.inLookup, Full.setReq]) (by simp [hr, ReqAt.inRank, Full.setReq])
      (by simp [hr, ReqAt.holds, f1]) (fun s' e => ⟨rfl, rfl, f2 s' e⟩)
  | crash a hn hf he => subst he; exact ⟨hc.look, hc.rank, hc.readers, hc.got, hc.sent⟩
  | look s k out f hr h1 he =>
    subst he
    obtain ⟨f1, f2⟩ := fine_searched h1
    exact hc.move (k := k) (s := s) (x := .looked out) rfl rfl (lt (k := k) (s := s) (by simp [hr])) rfl hc.sent
      (by simp [hr, ReqAt.inLookup, Full.setReq]) (by simp [hr, ReqAt.inRank, Full.setReq])
      (by simp [hr, ReqAt.holds, f1]) (fun s' e => ⟨rfl, rfl, f2 s' e⟩)
  | reply s k a hr he =>
    subst he
    have hk := lt (k := k) (s := s) (by simp [hr])
    have := le_sumAt (g := ReqAt.inLookup) (s := s) hk
    rw [hr, ← hc.look] at this
    exact hc.move (k := k) (s := s) (x := .answered) rfl rfl hk rfl hc.sent
      (by simp [ReqAt.inLookup] at this; simp [hr, ReqAt.inLookup]; omega) (by simp [hr, ReqAt.inRank, Full.setReq])
      (by simp [hr, ReqAt.holds, Full.setReq]) (fun s' e => ⟨by simp [update, e], rfl, rfl⟩)
  | forward s k docs hr he =>
    subst he
    have hk := lt (k := k) (s := s) (by simp [hr])
    have := le_sumAt (g := ReqAt.inLookup) (s := s) hk
    rw [hr, ← hc.look] at this
    exact hc.move (k := k) (s := s) (x := .waiting docs) rfl rfl hk rfl hc.sent
      (by simp [ReqAt.inLookup] at this; simp [hr, ReqAt.inLookup]; omega) (by simp [hr, ReqAt.inRank, Full.setReq])
      (by simp [hr, ReqAt.holds, Full.setReq]) (fun s' e => ⟨by simp [update, e], rfl, rfl⟩)
  | takeRank s k q docs call hq hr hcl he =>
    subst he
    exact hc.move (k := k) (s := s) (x := .ranking call) rfl rfl (lt (k := k) (s := s) (by simp [hr])) rfl hc.sent
      (by simp [hr, ReqAt.inLookup, Full.setReq]) (by simp [hr, ReqAt.inRank])
      (by simp [hr, ReqAt.holds, Full.setReq]) (fun _ e => ⟨rfl, by simp [update, e], rfl⟩)
  | read s k call call' d hr hcl he =>
    subst he
    exact hc.move (k := k) (s := s) (x := .ranking call') rfl rfl (lt (k := k) (s := s) (by simp [hr])) rfl hc.sent
      (by simp [hr, ReqAt.inLookup, Full.setReq]) (by simp [hr, ReqAt.inRank, Full.setReq])
      (by simp [hr, ReqAt.holds, Full.setReq]) (fun _ _ => ⟨rfl, rfl, rfl⟩)
  | replyRank s k call a hr he =>
    subst he
    have hk := lt (k := k) (s := s) (by simp [hr])
    have := le_sumAt (g := ReqAt.inRank) (s := s) hk
    rw [hr, ← hc.rank] at this
    exact hc.move (k := k) (s := s) (x := .answered) rfl rfl hk rfl hc.sent
      (by simp [hr, ReqAt.inLookup, Full.setReq]) (by simp [ReqAt.inRank] at this; simp [hr, ReqAt.inRank]; omega)
      (by simp [hr, ReqAt.holds, Full.setReq]) (fun s' e => ⟨rfl, by simp [update, e], rfl⟩)
  | recv k x q hq hk hs hg he =>
    subst he
    refine ⟨hc.look, hc.rank, hc.readers, fun k' => ?_, hc.sent⟩
    by_cases e : k' = k
    · subst e; simp; omega
    · simp [update, e, hc.got k']
  | timer k hk hs hg hto he =>
    subst he
    refine ⟨hc.look, hc.rank, hc.readers, fun k' => ?_, hc.sent⟩
    by_cases e : k' = k
    · subst e; simp; omega
    · simp [update, e, hc.got k']

theorem counts_run {E : EngCfg D F A} (as : List (EAct c.toPipeSize D F)) : ∀ {st st' : Full c F A}, Proto st → Counts st →
    st.run E as = some st' → Proto st' ∧ Counts st' := by
  induction as with
  | nil => intro st st' hp hc h; simp only [Full.run, Option.some.injEq] at h; subst h; exact ⟨hp, hc⟩
  | cons a l ih =>
    intro st st' hp hc h
    simp only [Full.run] at h
    obtain ⟨st1, h1, h2⟩ := Option.bind_eq_some_iff.1 h
    exact ih (hp.step h1) (hc.step hp h1) h2

/-! ## Nothing is stuck -/

theorem step_search {E : EngCfg D F A} {st : Full c F A} (hd : st.dead = false) (hf : st.fine.dead = false)
    {a : EAct c.toPipeSize D F} (ha : a.fine? = none) : st.step E a = st.search E a := by
  unfold Full.step
  rw [hd, hf, ha]
  rfl

theorem step_fine {E : EngCfg D F A} {st : Full c F A} (hd : st.dead = false) (hf : st.fine.dead = false)
    {a : EAct c.toPipeSize D F} {b : FAct c.toPipeSize D} (ha : a.fine? = some b) :
    st.step E a = (st.fine.step E.so b).map (fun f => { st with fine := f }) := by
  unfold Full.step
  rw [hd, hf, ha]
  rfl

theorem deliver_isSome {st : Full c F A} (hp : Proto st) {k : Nat} {s : Fin c.shards} (h : st.req k s ≠ .answered)
    (a : Answer F A) : (st.deliver k s a).isSome = true := by
  unfold Full.deliver
  obtain ⟨n1, n2⟩ := hp.ans k
  have hs : s ∉ (st.answers k).map (·.1) := fun hm => h ((n2 s).1 hm)
  have h2 : (s :: (st.answers k).map (·.1)).Nodup := List.nodup_cons.2 ⟨hs, n1⟩
  have := h2.length_le_card
  rw [List.length_cons, List.length_map, Fintype.card_fin] at this
  have hl : (st.chan k).length ≤ (st.answers k).length := by simp [Full.answers]
  rw [if_pos (by omega)]
  rfl

/-- **No search is stuck**, if no shard has crossed locks. -/
theorem full_stuck {E : EngCfg D F A} (hz : c.toPipeSize.Ok) (hlt : 1 ≤ E.lookupThreads) (hrt : 1 ≤ E.rankThreads)
    {db : Fin c.stores → List (Str × D)} {st : Full c F A} (hl : Linked db st.fine) (hp : Proto st) (hc : Counts st)
    (hd : st.dead = false) (hf : st.fine.dead = false) (hx : ∀ s, ¬ (st.fine.shard s).crossed) (h : st.Stuck E) :
    st.fine.Done ∧ ∀ k, k < st.searches.length → (st.got k).length = c.shards := by
  have hsd := not_dead_iff.1 hf
  have hl0 := h
  replace h : ∀ a : EAct c.toPipeSize D F, a.isNew = false → a.isTimer = false → (∀ s k, a ≠ .lock s k) →
      st.step E a = none := fun a h1 h2 h3 => (hl0 a h1 h2).resolve_right (fun ⟨s, k, e, _⟩ => h3 s k e)
  have hreq : ∀ {k : Nat} {s : Fin c.shards}, st.req k s ≠ .unsent → ∃ r, st.searches[k]? = some r :=
    fun hu => ⟨_, List.getElem?_eq_getElem (hp.lt hu)⟩
  -- no request holds a table
  have n1 : ∀ k s, st.req k s ≠ .locked := by
    intro k s hr
    obtain ⟨r, hr'⟩ := hreq (k := k) (s := s) (by simp [hr])
    have hrd : 1 ≤ (st.fine.shard s).readers := by
      rw [hc.readers s]
      have := le_sumAt (g := ReqAt.holds) (s := s) (hp.lt (k := k) (s := s) (by simp [hr]))
      rw [hr] at this
      exact this
    have := h (.look s k) rfl rfl (by simp)
    rw [step_search hd hf rfl] at this
    simp only [Full.search, hr, hr'] at this
    split at this
    · simp at this
    · have hst : (st.fine.step E.so (.searched s)).isSome = true := by
        unfold Fine.step
        rw [if_neg (by simp [hf])]
        simp only [Fine.onShard, CShard.step]
        rw [if_neg (by simp [hsd s]; omega)]
        rfl
      simp only [Option.map_eq_none_iff] at this
      rw [this] at hst
      simp at hst
  have hread : ∀ s, (st.fine.shard s).readers = 0 := by
    intro s
    rw [hc.readers s]
    apply Finset.sum_eq_zero
    intro k _
    cases hr : st.req k s with
    | locked => exact absurd hr (n1 k s)
    | _ => rfl
  have hdone : st.fine.Done := by
    refine fine_stuck (so := E.so) hz hl hf hx ?_
    intro b hb
    cases b with
    | search s => simp [FAct.isNew] at hb
    | searched s =>
      unfold Fine.step
      rw [if_neg (by simp [hf])]
      simp [Fine.onShard, CShard.step, hread s]
    | pipe a =>
      have := h (.pipe a) (by cases a <;> simp_all [FAct.isNew, EAct.isNew]) rfl (by simp)
      rw [step_fine hd hf (b := .pipe a) rfl] at this
      simpa using this
    | beginAdd s =>
      have := h (.beginAdd s) rfl rfl (by simp)
      rw [step_fine hd hf (b := .beginAdd s) rfl] at this
      simpa using this
    | beginRem s =>
      have := h (.beginRem s) rfl rfl (by simp)
      rw [step_fine hd hf (b := .beginRem s) rfl] at this
      simpa using this
    | add s =>
      have := h (.add s) rfl rfl (by simp)
      rw [step_fine hd hf (b := .add s) rfl] at this
      simpa using this
    | rem s =>
      have := h (.rem s) rfl rfl (by simp)
      rw [step_fine hd hf (b := .rem s) rfl] at this
      simpa using this
  refine ⟨hdone, ?_⟩
  have n2 : ∀ k s, st.req k s ≠ .taken := by
    intro k s hr
    have := (hl0 (.lock s k) rfl rfl).resolve_right (by
      rintro ⟨s', k', e, hw⟩
      simp [CShard.writerWaits, (hdone.2.2 s').1.1, (hdone.2.2 s').1.2, AddPC.wantsTable] at hw)
    rw [step_search hd hf rfl] at this
    simp only [Full.search, hr, Option.map_eq_none_iff] at this
    unfold Fine.step at this
    rw [if_neg (by simp [hf])] at this
    simp [Fine.onShard, CShard.step, hsd s, (hdone.2.2 s).1.1, AddPC.holdsTable] at this
  have n3 : ∀ k s a, st.req k s ≠ .looked (.answer a) := by
    intro k s a hr
    have := h (.reply s k) rfl rfl (by simp)
    rw [step_search hd hf rfl] at this
    simp only [Full.search, hr, Option.map_eq_none_iff] at this
    have hs := deliver_isSome hp (k := k) (s := s) (by simp [hr]) a
    rw [this] at hs
    simp at hs
  have n4 : ∀ k s call, st.req k s ≠ .ranking call := by
    intro k s call hr
    cases ht : call.todo with
    | cons d rest =>
      have := h (.read s k) rfl rfl (by simp)
      rw [step_search hd hf rfl] at this
      simp [Full.search, hr, ht] at this
    | nil =>
      have := h (.replyRank s k) rfl rfl (by simp)
      rw [step_search hd hf rfl] at this
      simp only [Full.search, hr, ht] at this
      split at this
      · simp at this
      · rename_i x _
        simp only [Option.map_eq_none_iff] at this
        have hs := deliver_isSome hp (k := k) (s := s) (by simp [hr]) { docs := some x.1, numDocs := x.2 }
        rw [this] at hs
        simp at hs
  have hrb : ∀ s, st.rankBusy s = 0 := by
    intro s
    rw [hc.rank s]
    apply Finset.sum_eq_zero
    intro k _
    cases hr : st.req k s with
    | ranking call => exact absurd hr (n4 k s call)
    | _ => rfl
  have hrq : ∀ s, st.rankQ s = [] := by
    intro s
    cases hq : st.rankQ s with
    | nil => rfl
    | cons k q =>
      exfalso
      obtain ⟨docs, hr⟩ := ((hp.rankQ s).2 k).1 (by rw [hq]; simp)
      obtain ⟨r, hr'⟩ := hreq (k := k) (s := s) (by simp [hr])
      have := h (.takeRank s) rfl rfl (by simp)
      rw [step_search hd hf rfl] at this
      simp only [Full.search, hq, hr, hr', hrb s] at this
      rw [if_pos (by omega)] at this
      simp at this
  have n5 : ∀ k s docs, st.req k s ≠ .waiting docs := by
    intro k s docs hr
    have := ((hp.rankQ s).2 k).2 ⟨docs, hr⟩
    rw [hrq s] at this
    simp at this
  have n6 : ∀ k s docs, st.req k s ≠ .looked (.rank docs) := by
    intro k s docs hr
    have := h (.forward s k) rfl rfl (by simp)
    rw [step_search hd hf rfl] at this
    simp only [Full.search, hr, hrq s] at this
    rw [if_pos (by have := hz.rankCap; simp; omega)] at this
    simp at this
  have hlb : ∀ s, st.lookBusy s = 0 := by
    intro s
    rw [hc.look s]
    apply Finset.sum_eq_zero
    intro k _
    cases hr : st.req k s with
    | taken => exact absurd hr (n2 k s)
    | locked => exact absurd hr (n1 k s)
    | looked out =>
      cases out with
      | answer a => exact absurd hr (n3 k s a)
      | rank docs => exact absurd hr (n6 k s docs)
    | _ => rfl
  have hlq : ∀ s, st.lookupQ s = [] := by
    intro s
    cases hq : st.lookupQ s with
    | nil => rfl
    | cons k q =>
      exfalso
      have := h (.take s) rfl rfl (by simp)
      rw [step_search hd hf rfl] at this
      simp only [Full.search, hq, hlb s] at this
      rw [if_pos (by omega)] at this
      simp at this
  have n7 : ∀ k s, st.req k s ≠ .queued := by
    intro k s hr
    have := ((hp.lookQ s).2 k).2 hr
    rw [hlq s] at this
    simp at this
  intro k hk
  have hsent : c.shards ≤ st.sent k := by
    by_contra hlt'
    have := h (.send k) rfl rfl (by simp)
    rw [step_search hd hf rfl] at this
    simp only [Full.search] at this
    rw [dif_pos ⟨hk, by omega⟩, if_pos (by rw [hlq]; have := hz.idxCap; simp; omega)] at this
    simp at this
  have hans : ∀ s, st.req k s = .answered := by
    intro s
    cases hr : st.req k s with
    | unsent => have := (hp.unsent k s).1 hr; omega
    | queued => exact absurd hr (n7 k s)
    | taken => exact absurd hr (n2 k s)
    | locked => exact absurd hr (n1 k s)
    | looked out =>
      cases out with
      | answer a => exact absurd hr (n3 k s a)
      | rank docs => exact absurd hr (n6 k s docs)
    | waiting docs => exact absurd hr (n5 k s docs)
    | ranking call => exact absurd hr (n4 k s call)
    | answered => rfl
  have hlen : c.shards ≤ (st.answers k).length := by
    obtain ⟨m1, m2⟩ := hp.ans k
    have hall : ∀ s, s ∈ (st.answers k).map (·.1) := fun s => (m2 s).2 (hans s)
    have hsub : (List.finRange c.shards).Subperm ((st.answers k).map (·.1)) :=
      (List.nodup_finRange _).subperm (fun s _ => hall s)
    have := hsub.length_le
    simpa using this
  have hse : st.sent k = c.shards := by
    rcases Nat.lt_or_ge c.shards (st.sent k) with hgt | hle
    · exfalso
      exact absurd (hc.sent k) (by omega)
    · omega
  by_contra hne
  have hlt2 : (st.got k).length < c.shards := by have := hc.got k; omega
  have hfm : ((st.got k).filterMap id).length ≤ (st.got k).length := List.length_filterMap_le _ _
  cases hq : st.chan k with
  | nil =>
    simp only [Full.answers, hq, List.append_nil] at hlen
    omega
  | cons x q =>
    have := h (.recv k) rfl rfl (by simp)
    rw [step_search hd hf rfl] at this
    simp only [Full.search, hq] at this
    rw [if_pos ⟨hk, hse, hlt2⟩] at this
    simp at this

/-! ## Everything ends -/

/-- What is left of a request until its table is locked. -/
def ReqAt.before : ReqAt F A → Nat
  | .unsent => 3
  | .queued => 2
  | .taken => 1
  | _ => 0

/-- What is left of a request after its lookup. -/
def ReqAt.afterwards : ReqAt F A → Nat
  | .looked (.answer _) => 1
  | .looked (.rank docs) => 3 + docs.length
  | .waiting docs => 2 + docs.length
  | .ranking call => 1 + call.todo.length
  | _ => 0

/-- Outcomes the searches still have to receive. -/
def Full.rounds (st : Full c F A) : Nat := ∑ k ∈ Finset.range st.searches.length, (c.shards - (st.got k).length)

/-- What is left to do. -/
def Full.left (st : Full c F A) : Nat ×ₗ Nat ×ₗ (Nat ×ₗ Nat ×ₗ Nat ×ₗ Nat) ×ₗ Nat :=
  toLex (if st.dead then 0 else 1, toLex (∑ s, st.sumAt ReqAt.before s, toLex (st.fine.left,
    ∑ s, st.sumAt ReqAt.afterwards s + st.rounds)))

theorem full_left_lt {st st' : Full c F A} (hd : st.dead = false)
    (h : st'.dead = true ∨ (∑ s, st'.sumAt ReqAt.before s < ∑ s, st.sumAt ReqAt.before s) ∨
      (∑ s, st'.sumAt ReqAt.before s = ∑ s, st.sumAt ReqAt.before s ∧ (st'.fine.left < st.fine.left ∨
        (st'.fine = st.fine ∧ ∑ s, st'.sumAt ReqAt.afterwards s + st'.rounds <
          ∑ s, st.sumAt ReqAt.afterwards s + st.rounds)))) : st'.left < st.left := by
  unfold Full.left
  rw [Prod.Lex.toLex_lt_toLex]
  cases hd' : st'.dead with
  | true => left; simp [hd]
  | false =>
    right
    refine ⟨by simp [hd], ?_⟩
    rw [Prod.Lex.toLex_lt_toLex]
    rcases h with h | h | ⟨h1, h⟩
    · rw [hd'] at h; simp at h
    · exact Or.inl h
    · right
      refine ⟨h1, ?_⟩
      rw [Prod.Lex.toLex_lt_toLex]
      rcases h with h | ⟨h2, h⟩
      · exact Or.inl h
      · exact Or.inr ⟨by rw [h2], h⟩

theorem sum_move {st st' : Full c F A} {k : Nat} {s : Fin c.shards} {x : ReqAt F A}
    (hs : st'.searches = st.searches) (hreq : st'.req = (st.setReq k s x).req) (hk : k < st.searches.length)
    (g : ReqAt F A → Nat) : ∑ i, st'.sumAt g i + g (st.req k s) = ∑ i, st.sumAt g i + g x := by
  rw [← Finset.add_sum_erase _ _ (Finset.mem_univ s),
    ← Finset.add_sum_erase (a := s) (f := fun i => st.sumAt g i) _ (Finset.mem_univ s)]
  have : ∑ i ∈ Finset.univ.erase s, st'.sumAt g i = ∑ i ∈ Finset.univ.erase s, st.sumAt g i :=
    Finset.sum_congr rfl (fun i hi => sumAt_other hs hreq (Finset.mem_erase.1 hi).1 g)
  have h2 := sumAt_move hs hreq hk g
  omega

theorem sum_same {st st' : Full c F A} (hs : st'.searches = st.searches) (hreq : st'.req = st.req)
    (g : ReqAt F A → Nat) : ∑ i, st'.sumAt g i = ∑ i, st.sumAt g i :=
  Finset.sum_congr rfl (fun i _ => sumAt_same hs hreq g i)

theorem rounds_same {st st' : Full c F A} (hs : st'.searches = st.searches) (hg : st'.got = st.got) :
    st'.rounds = st.rounds := by unfold Full.rounds; rw [hs, hg]

theorem rounds_lt {st st' : Full c F A} (hs : st'.searches = st.searches) {k : Nat} {x : Option (Fin c.shards × Answer F A)}
    (hg : st'.got = update st.got k (st.got k ++ [x])) (hk : k < st.searches.length) (hl : (st.got k).length < c.shards) :
    st'.rounds < st.rounds := by
  unfold Full.rounds
  rw [hs, hg]
  apply Finset.sum_lt_sum
  · intro j _
    by_cases e : j = k
    · subst e; simp; omega
    · simp [update, e]
  · exact ⟨k, Finset.mem_range.2 hk, by simp; omega⟩

/-- Every step that starts nothing decreases what is left. -/
theorem full_left_step {E : EngCfg D F A} {st st' : Full c F A} {a : EAct c.toPipeSize D F} (hp : Proto st)
    (hn : a.isNew = false) (h : st.step E a = some st') : st'.left < st.left := by
  obtain ⟨hd, _, hs⟩ := full_step h
  clear h
  apply full_left_lt hd
  have lt : ∀ {k s}, st.req k s ≠ .unsent → k < st.searches.length := fun h => hp.lt h
  cases hs with
  | fine a b f ha h1 he =>
    subst he
    refine .inr (.inr ⟨sum_same rfl rfl _, .inl ?_⟩)
    refine left_step ?_ h1
    cases a <;> simp [EAct.fine?] at ha <;> subst ha
    case pipe x => cases x <;> simp_all [FAct.isNew, EAct.isNew]
    all_goals rfl
  | start r hi he => simp [EAct.isNew] at hn
  | send k s hk hs hcap he =>
    have hu : st.req k s = .unsent := (hp.unsent k s).2 (by omega)
    have := sum_move (st := st) (st' := st') (k := k) (s := s) (x := .queued) (by rw [he]; rfl) (by rw [he]) hk ReqAt.before
    rw [hu] at this
    simp only [ReqAt.before] at this
    exact .inr (.inl (by omega))
  | take s k q hq hb he =>
    have hu : st.req k s = .queued := ((hp.lookQ s).2 k).1 (by rw [hq]; simp)
    have := sum_move (st := st) (st' := st') (k := k) (s := s) (x := .taken) (by rw [he]; rfl) (by rw [he])
      (lt (k := k) (s := s) (by simp [hu])) ReqAt.before
    rw [hu] at this
    simp only [ReqAt.before] at this
    exact .inr (.inl (by omega))
  | lock s k f hr h1 he =>
    have := sum_move (st := st) (st' := st') (k := k) (s := s) (x := .locked) (by rw [he]; rfl) (by rw [he])
      (lt (k := k) (s := s) (by simp [hr])) ReqAt.before
    rw [hr] at this
    simp only [ReqAt.before] at this
    exact .inr (.inl (by omega))
  | crash a _ hf he => subst he; exact .inl rfl
  | look s k out f hr h1 he =>
    have := sum_move (st := st) (st' := st') (k := k) (s := s) (x := .looked out) (by rw [he]; rfl) (by rw [he])
      (lt (k := k) (s := s) (by simp [hr])) ReqAt.before
    rw [hr] at this
    simp only [ReqAt.before] at this
    refine .inr (.inr ⟨by omega, .inl ?_⟩)
    rw [he]
    exact left_step rfl h1
  | reply s k a hr he =>
    have hk := lt (k := k) (s := s) (by simp [hr])
    have h1 := sum_move (st := st) (st' := st') (k := k) (s := s) (x := .answered) (by rw [he]; rfl) (by rw [he]) hk ReqAt.before
    have h2 := sum_move (st := st) (st' := st') (k := k) (s := s) (x := .answered) (by rw [he]; rfl) (by rw [he]) hk ReqAt.afterwards
    have h3 : st'.rounds = st.rounds := rounds_same (by rw [he]; rfl) (by rw [he]; rfl)
    rw [hr] at h1 h2
    simp only [ReqAt.before, ReqAt.afterwards] at h1 h2
    exact .inr (.inr ⟨by omega, .inr ⟨by rw [he]; rfl, by omega⟩⟩)
  | forward s k docs hr he =>
    have hk := lt (k := k) (s := s) (by simp [hr])
    have h1 := sum_move (st := st) (st' := st') (k := k) (s := s) (x := .waiting docs) (by rw [he]; rfl) (by rw [he]) hk ReqAt.before
    have h2 := sum_move (st := st) (st' := st') (k := k) (s := s) (x := .waiting docs) (by rw [he]; rfl) (by rw [he]) hk ReqAt.afterwards
    have h3 : st'.rounds = st.rounds := rounds_same (by rw [he]; rfl) (by rw [he]; rfl)
    rw [hr] at h1 h2
    simp only [ReqAt.before, ReqAt.afterwards] at h1 h2
    exact .inr (.inr ⟨by omega, .inr ⟨by rw [he]; rfl, by omega⟩⟩)
  | takeRank s k q docs call hq hr hcl he =>
    have hk := lt (k := k) (s := s) (by simp [hr])
    have h1 := sum_move (st := st) (st' := st') (k := k) (s := s) (x := .ranking call) (by rw [he]; rfl) (by rw [he]) hk ReqAt.before
    have h2 := sum_move (st := st) (st' := st') (k := k) (s := s) (x := .ranking call) (by rw [he]; rfl) (by rw [he]) hk ReqAt.afterwards
    have h3 : st'.rounds = st.rounds := rounds_same (by rw [he]; rfl) (by rw [he]; rfl)
    rw [hr] at h1 h2
    simp only [ReqAt.before, ReqAt.afterwards, hcl] at h1 h2
    exact .inr (.inr ⟨by omega, .inr ⟨by rw [he]; rfl, by omega⟩⟩)
  | read s k call call' d hr hcl he =>
    have hk := lt (k := k) (s := s) (by simp [hr])
    have h1 := sum_move (st := st) (st' := st') (k := k) (s := s) (x := .ranking call') (by rw [he]; rfl) (by rw [he]) hk ReqAt.before
    have h2 := sum_move (st := st) (st' := st') (k := k) (s := s) (x := .ranking call') (by rw [he]; rfl) (by rw [he]) hk ReqAt.afterwards
    have h3 : st'.rounds = st.rounds := rounds_same (by rw [he]; rfl) (by rw [he]; rfl)
    rw [hr] at h1 h2
    simp only [ReqAt.before, ReqAt.afterwards, hcl, List.length_cons] at h1 h2
    exact .inr (.inr ⟨by omega, .inr ⟨by rw [he]; rfl, by omega⟩⟩)
  | replyRank s k call a hr he =>
    have hk := lt (k := k) (s := s) (by simp [hr])
    have h1 := sum_move (st := st) (st' := st') (k := k) (s := s) (x := .answered) (by rw [he]; rfl) (by rw [he]) hk ReqAt.before
    have h2 := sum_move (st := st) (st' := st') (k := k) (s := s) (x := .answered) (by rw [he]; rfl) (by rw [he]) hk ReqAt.afterwards
    have h3 : st'.rounds = st.rounds := rounds_same (by rw [he]; rfl) (by rw [he]; rfl)
    rw [hr] at h1 h2
    simp only [ReqAt.before, ReqAt.afterwards] at h1 h2
    exact .inr (.inr ⟨by omega, .inr ⟨by rw [he]; rfl, by omega⟩⟩)
  | recv k x q hq hk hs hg he =>
    have h1 := sum_same (st := st) (st' := st') (by rw [he]) (by rw [he]) ReqAt.before
    have h2 := sum_same (st := st) (st' := st') (by rw [he]) (by rw [he]) ReqAt.afterwards
    have h3 : st'.rounds < st.rounds := rounds_lt (by rw [he]) (by rw [he]) hk hg
    exact .inr (.inr ⟨h1, .inr ⟨by rw [he], by omega⟩⟩)
  | timer k hk hs hg hto he =>
    have h1 := sum_same (st := st) (st' := st') (by rw [he]) (by rw [he]) ReqAt.before
    have h2 := sum_same (st := st) (st' := st') (by rw [he]) (by rw [he]) ReqAt.afterwards
    have h3 : st'.rounds < st.rounds := rounds_lt (by rw [he]) (by rw [he]) hk hg
    exact .inr (.inr ⟨h1, .inr ⟨by rw [he], by omega⟩⟩)

theorem writersFirst_cons {E : EngCfg D F A} {st st1 st' : Full c F A} {a : EAct c.toPipeSize D F}
    {as : List (EAct c.toPipeSize D F)} (h1 : st.step E a = some st1) (h2 : st1.run E as = some st')
    (hw : ∀ s k, a = .lock s k → (st.fine.shard s).writerWaits = false) (h : st1.WritersFirst E as) :
    st.WritersFirst E (a :: as) := by
  intro t s k ht
  cases t with
  | zero =>
    simp only [List.getElem?_cons_zero, Option.some.injEq] at ht
    exact hw s k ht
  | succ t =>
    have := h t s k (by simpa using ht)
    have e : Full.after E st (a :: as) (t + 1) = Full.after E st1 as t := by
      unfold Full.after
      rw [List.take_succ_cons]
      simp only [Full.run, h1, Option.bind_some]
      have hs : (st1.run E (as.take t)).isSome = true := by
        rw [← List.take_append_drop t as, full_run_append] at h2
        obtain ⟨v, hv, _⟩ := Option.bind_eq_some_iff.1 h2
        rw [hv]; rfl
      obtain ⟨v, hv⟩ := Option.isSome_iff_exists.1 hs
      rw [hv]; rfl
    rw [e]; exact this

/-- From every state, doing what can be done without starting anything (and without time-outs) leads to a
state in which nothing more can be done. -/
theorem full_reaches_stuck (E : EngCfg D F A) (st : Full c F A) (hp : Proto st) :
    ∃ as st', (∀ a ∈ as, a.isNew = false ∧ a.isTimer = false) ∧ st.WritersFirst E as ∧ st.run E as = some st' ∧
      st'.Stuck E := by
  generalize hm : st.left = m
  induction m using WellFoundedLT.induction generalizing st with
  | ind m ih =>
    by_cases h : st.Stuck E
    · exact ⟨[], st, by simp, fun t s k ht => by simp at ht, rfl, h⟩
    · unfold Full.Stuck at h
      push_neg at h
      obtain ⟨a, ha, ht, hs, hw⟩ := h
      obtain ⟨st1, h1⟩ := Option.ne_none_iff_exists'.1 hs
      obtain ⟨as, st', g1, g0, g2, g3⟩ := ih _ (hm ▸ full_left_step hp ha h1) st1 (hp.step h1) rfl
      exact ⟨a :: as, st', by simpa using ⟨⟨ha, ht⟩, g1⟩, writersFirst_cons h1 g2
        (fun s k e => by simpa using hw s k e) g0, by simp [Full.run, h1, g2], g3⟩

/-- There is no infinite execution in which nothing is started. -/
theorem full_terminates {E : EngCfg D F A} (st : Nat → Full c F A) (a : Nat → EAct c.toPipeSize D F) (hp : Proto (st 0))
    (hn : ∀ n, (a n).isNew = false) : ¬ ∀ n, (st n).step E (a n) = some (st (n + 1)) := by
  intro h
  have hpn : ∀ n, Proto (st n) := by
    intro n
    induction n with
    | zero => exact hp
    | succ n ih => exact ih.step (h n)
  obtain ⟨n, hn'⟩ := WellFounded.not_rel_apply_succ (r := (· < ·)) (fun n => (st n).left)
  exact hn' (full_left_step (hpn n) (hn n) (h n))

/-! ## The pipeline of a run, and its calls -/

theorem full_run_fine' {E : EngCfg D F A} (as : List (EAct c.toPipeSize D F)) : ∀ {st0 st : Full c F A},
    st0.run E as = some st → ∃ fs, st0.fine.run E.so fs = some st.fine := by
  induction as with
  | nil => intro st0 st h; simp only [Full.run, Option.some.injEq] at h; subst h; exact ⟨[], rfl⟩
  | cons a l ih =>
    intro st0 st h
    simp only [Full.run] at h
    obtain ⟨st1, h1, h2⟩ := Option.bind_eq_some_iff.1 h
    obtain ⟨fs, g⟩ := ih h2
    rcases full_step_fine h1 with e | ⟨b, hb, _⟩
    · exact ⟨fs, by rw [← e]; exact g⟩
    · exact ⟨b :: fs, by simp [Fine.run, hb, g]⟩

theorem full_notNew_calls {E : EngCfg D F A} {as : List (EAct c.toPipeSize D F)} (hn : ∀ a ∈ as, a.isNew = false)
    {st st' : Full c F A} (h : st.run E as = some st') :
    st'.fine.pipe.calls = st.fine.pipe.calls := by
  obtain ⟨bs, hbs, hcall⟩ := after_pipe h (Nat.zero_le as.length)
  rw [after_length h] at hbs
  have e0 : Full.after E st as 0 = st := rfl
  rw [e0] at hbs
  rw [run_calls _ _ _ hbs]
  suffices bs.flatMap Act.called = [] by rw [this, List.append_nil]
  rw [List.eq_nil_iff_forall_not_mem]
  intro x hx
  obtain ⟨v, _, hv⟩ := hcall x hx
  have := hn _ (List.mem_of_getElem? hv)
  simp [EAct.isNew] at this

theorem full_notNew_searches {E : EngCfg D F A} {as : List (EAct c.toPipeSize D F)} (hn : ∀ a ∈ as, a.isNew = false) :
    ∀ {st st' : Full c F A}, st.run E as = some st' → st'.searches = st.searches := by
  induction as with
  | nil => intro st st' h; simp only [Full.run, Option.some.injEq] at h; subst h; rfl
  | cons a l ih =>
    intro st st' h
    simp only [Full.run] at h
    obtain ⟨st1, h1, h2⟩ := Option.bind_eq_some_iff.1 h
    rw [ih (fun b hb => hn b (List.mem_cons_of_mem _ hb)) h2]
    obtain ⟨_, _, hs⟩ := full_step h1
    have ha := hn a (by simp)
    cases hs <;> first | (subst_vars; rfl) | skip
    simp [EAct.isNew] at ha

/-! ## Crossed locks -/

/-- Limits a running engine keeps. -/
structure Limits (E : EngCfg D F A) (st : Full c F A) : Prop where
  queue : ∀ s, (st.lookupQ s).length ≤ c.idxCap
  busy : ∀ s, st.lookBusy s ≤ E.lookupThreads
  sent : ∀ k, st.got k ≠ [] → st.sent k = c.shards
  timer : ∀ k, none ∈ st.got k → ∃ r, st.searches[k]? = some r ∧ 0 < r.timeout

theorem Limits.start (E : EngCfg D F A) (o : IndexerOpts) (db : Fin c.stores → List (Str × D)) :
    Limits E (Full.start c o db) := by
  constructor <;> simp [Full.start]

theorem Limits.step {E : EngCfg D F A} {st st' : Full c F A} {a : EAct c.toPipeSize D F} (hl : Limits E st)
    (h : st.step E a = some st') : Limits E st' := by
  obtain ⟨_, _, hs⟩ := full_step h
  clear h
  cases hs with
  | fine a b f ha h1 he => subst he; exact ⟨hl.queue, hl.busy, hl.sent, hl.timer⟩
  | start r hi he =>
    subst he
    refine ⟨hl.queue, hl.busy, hl.sent, fun k hk => ?_⟩
    obtain ⟨r', h1, h2⟩ := hl.timer k hk
    exact ⟨r', by simp only; rw [List.getElem?_append_left (List.getElem?_eq_some_iff.1 h1).1]; exact h1, h2⟩
  | send k s hk hs hcap he =>
    subst he
    refine ⟨fun s' => ?_, hl.busy, fun k' hk' => ?_, hl.timer⟩
    · by_cases e : s' = s
      · subst e; simp; omega
      · simp [update, e, hl.queue s', Full.setReq]
    · have h2 := hl.sent k' hk'
      by_cases e : k' = k
      · subst e; have := s.isLt; omega
      · simp [update, e, h2]
  | take s k q hq hb he =>
    subst he
    refine ⟨fun s' => ?_, fun s' => ?_, hl.sent, hl.timer⟩
    · by_cases e : s' = s
      · subst e
        have := hl.queue s'
        rw [hq] at this
        simp at this ⊢; omega
      · simp [update, e, hl.queue s']
    · by_cases e : s' = s
      · subst e; simp; omega
      · simp [update, e, hl.busy s']
  | lock s k f hr h1 he => subst he; exact ⟨hl.queue, hl.busy, hl.sent, hl.timer⟩
  | crash a _ hf he => subst he; exact ⟨hl.queue, hl.busy, hl.sent, hl.timer⟩
  | look s k out f hr h1 he => subst he; exact ⟨hl.queue, hl.busy, hl.sent, hl.timer⟩
  | reply s k a hr he =>
    subst he
    refine ⟨hl.queue, fun s' => ?_, hl.sent, hl.timer⟩
    by_cases e : s' = s
    · subst e; simp; have := hl.busy s'; omega
    · simp [update, e, hl.busy s']
  | forward s k docs hr he =>
    subst he
    refine ⟨hl.queue, fun s' => ?_, hl.sent, hl.timer⟩
    by_cases e : s' = s
    · subst e; simp; have := hl.busy s'; omega
    · simp [update, e, hl.busy s']
  | takeRank s k q docs call hq hr hcl he => subst he; exact ⟨hl.queue, hl.busy, hl.sent, hl.timer⟩
  | read s k call call' d hr hcl he => subst he; exact ⟨hl.queue, hl.busy, hl.sent, hl.timer⟩
  | replyRank s k call a hr he => subst he; exact ⟨hl.queue, hl.busy, hl.sent, hl.timer⟩
  | recv k x q hq hk hs hg he =>
    subst he
    refine ⟨hl.queue, hl.busy, fun k' hk' => ?_, fun k' hk' => ?_⟩
    · by_cases e : k' = k
      · subst e; exact hs
      · exact hl.sent k' (by simpa [update, e] using hk')
    · by_cases e : k' = k
      · subst e; exact hl.timer k' (by simpa using hk')
      · exact hl.timer k' (by simpa [update, e] using hk')
  | timer k hk hs hg hto he =>
    subst he
    refine ⟨hl.queue, hl.busy, fun k' hk' => ?_, fun k' hk' => ?_⟩
    · by_cases e : k' = k
      · subst e; exact hs
      · exact hl.sent k' (by simpa [update, e] using hk')
    · by_cases e : k' = k
      · subst e; exact hto
      · exact hl.timer k' (by simpa [update, e] using hk')

/-- Crossed locks stay, and the requests of searches from number `n` on do not get past them. -/
structure Blocked (n : Nat) (s : Fin c.shards) (st : Full c F A) : Prop where
  crossed : (st.fine.shard s).crossed
  before : ∀ k, n ≤ k → 0 < (st.req k s).before

theorem full_crossed_step {E : EngCfg D F A} {st st' : Full c F A} {a : EAct c.toPipeSize D F}
    (h : st.step E a = some st') {s : Fin c.shards} (hc : (st.fine.shard s).crossed) : (st'.fine.shard s).crossed := by
  rcases full_step_fine h with e | ⟨b, hb, _⟩
  · rw [e]; exact hc
  · exact fine_crossed_step hb hc

theorem Blocked.step {E : EngCfg D F A} {st st' : Full c F A} {a : EAct c.toPipeSize D F} {n : Nat} {s : Fin c.shards}
    (hp : Proto st) (hb : Blocked n s st) (h : st.step E a = some st') : Blocked n s st' := by
  refine ⟨full_crossed_step h hb.crossed, ?_⟩
  obtain ⟨_, _, hs⟩ := full_step h
  clear h
  have key : ∀ {k0 s0 x}, st'.req = (st.setReq k0 s0 x).req → (n ≤ k0 → s0 = s → 0 < x.before) →
      ∀ k, n ≤ k → 0 < (st'.req k s).before := by
    intro k0 s0 x hr hx k hk
    rw [hr]
    simp only [Full.setReq]
    by_cases e : k = k0
    · subst e
      by_cases e2 : s = s0
      · subst e2; simpa using hx hk rfl
      · simp [update, e2]; exact hb.before k hk
    · simp [update, e]; exact hb.before k hk
  have bad : ∀ {k0 : Nat} {s0 : Fin c.shards}, (st.req k0 s0).before = 0 → n ≤ k0 → s0 = s → False := by
    intro k0 s0 h0 hk e
    subst e
    have := hb.before k0 hk
    omega
  have hblock : ∀ f, st.fine.step E.so (.search s) ≠ some f := by
    intro f hf
    rw [(crossed_deadlocked (so := E.so) hb.crossed [] st.fine rfl).2.2.2] at hf
    simp at hf
  cases hs with
  | fine a b f ha h1 he => subst he; exact hb.before
  | start r hi he => subst he; exact hb.before
  | send k s0 hk hs hcap he => exact key (k0 := k) (s0 := s0) (x := .queued) (by rw [he]) (fun _ _ => by simp [ReqAt.before])
  | take s0 k q hq hbz he => exact key (k0 := k) (s0 := s0) (x := .taken) (by rw [he]) (fun _ _ => by simp [ReqAt.before])
  | lock s0 k f hr h1 he =>
    refine key (k0 := k) (s0 := s0) (x := .locked) (by rw [he]) (fun _ e => ?_)
    subst e
    exact absurd h1 (hblock f)
  | crash a _ hf he => subst he; exact hb.before
  | look s0 k out f hr h1 he => exact key (k0 := k) (s0 := s0) (x := .looked out) (by rw [he]) (fun hk e => (bad (by rw [hr]; rfl) hk e).elim)
  | reply s0 k a hr he => exact key (k0 := k) (s0 := s0) (x := .answered) (by rw [he]) (fun hk e => (bad (by rw [hr]; rfl) hk e).elim)
  | forward s0 k docs hr he => exact key (k0 := k) (s0 := s0) (x := .waiting docs) (by rw [he]) (fun hk e => (bad (by rw [hr]; rfl) hk e).elim)
  | takeRank s0 k q docs call hq hr hcl he => exact key (k0 := k) (s0 := s0) (x := .ranking call) (by rw [he]) (fun hk e => (bad (by rw [hr]; rfl) hk e).elim)
  | read s0 k call call' d hr hcl he => exact key (k0 := k) (s0 := s0) (x := .ranking call') (by rw [he]) (fun hk e => (bad (by rw [hr]; rfl) hk e).elim)
  | replyRank s0 k call a hr he => exact key (k0 := k) (s0 := s0) (x := .answered) (by rw [he]) (fun hk e => (bad (by rw [hr]; rfl) hk e).elim)
  | recv k x q hq hk hs hg he => subst he; exact hb.before
  | timer k hk hs hg hto he => subst he; exact hb.before

theorem limits_run {E : EngCfg D F A} (as : List (EAct c.toPipeSize D F)) : ∀ {st st' : Full c F A}, Limits E st →
    st.run E as = some st' → Limits E st' := by
  induction as with
  | nil => intro st st' hl h; simp only [Full.run, Option.some.injEq] at h; subst h; exact hl
  | cons a l ih =>
    intro st st' hl h
    simp only [Full.run] at h
    obtain ⟨st1, h1, h2⟩ := Option.bind_eq_some_iff.1 h
    exact ih (hl.step h1) h2

theorem blocked_run {E : EngCfg D F A} {n : Nat} {s : Fin c.shards} (as : List (EAct c.toPipeSize D F)) :
    ∀ {st st' : Full c F A}, Proto st → Blocked n s st → st.run E as = some st' → Blocked n s st' := by
  induction as with
  | nil => intro st st' _ hl h; simp only [Full.run, Option.some.injEq] at h; subst h; exact hl
  | cons a l ih =>
    intro st st' hp hl h
    simp only [Full.run] at h
    obtain ⟨st1, h1, h2⟩ := Option.bind_eq_some_iff.1 h
    exact ih (hp.step h1) (hl.step hp h1) h2

/-- A search that got past no lock of shard `s` and has no time-out has not returned. -/
theorem blocked_not_returned {E : EngCfg D F A} {n : Nat} {s : Fin c.shards} {st : Full c F A} (hp : Proto st)
    (hl : Limits E st) (hb : Blocked n s st) {k : Nat} (hk : n ≤ k) {r : SearchReq F}
    (hr : st.searches[k]? = some r) (ht : r.timeout ≤ 0) : ¬ st.Returned k := by
  rintro ⟨_, hg⟩
  have hn : none ∉ st.got k := by
    intro hm
    obtain ⟨r', h1, h2⟩ := hl.timer k hm
    rw [hr] at h1
    cases h1
    omega
  have e : ((st.got k).filterMap id).length = c.shards := by
    refine Eq.trans ?_ hg
    clear hg
    generalize st.got k = l at hn
    induction l with
    | nil => rfl
    | cons x l ih =>
      simp only [List.mem_cons, not_or] at hn
      cases x with
      | none => simp at hn
      | some x => simpa using ih hn.2
  obtain ⟨m1, m2⟩ := hp.ans k
  have hns : s ∉ (st.answers k).map (·.1) := by
    rw [m2]
    intro h
    have := hb.before k hk
    rw [h] at this
    simp [ReqAt.before] at this
  have h2 : (s :: (st.answers k).map (·.1)).Nodup := List.nodup_cons.2 ⟨hns, m1⟩
  have := h2.length_le_card
  rw [List.length_cons, List.length_map, Fintype.card_fin] at this
  have : ((st.got k).filterMap id).length ≤ (st.answers k).length := by simp [Full.answers]
  omega

/-- Of the searches that got past no lock of shard `s`, few have been sent there. -/
theorem blocked_few {E : EngCfg D F A} {n : Nat} {s : Fin c.shards} {st : Full c F A} (hp : Proto st) (hc : Counts st)
    (hl : Limits E st) (hb : Blocked n s st) (ks : List Nat) (hks : ks.Nodup)
    (h : ∀ k ∈ ks, n ≤ k ∧ st.Returned k) : ks.length ≤ c.idxCap + E.lookupThreads := by
  have hpart : ∀ k ∈ ks, st.req k s = .queued ∨ st.req k s = .taken := by
    intro k hk
    obtain ⟨h1, h2, h3⟩ := h k hk
    have hne : st.got k ≠ [] := by
      intro e
      rw [e] at h3
      have := s.isLt
      simp at h3
      omega
    have hs := hl.sent k hne
    have hu : st.req k s ≠ .unsent := by
      rw [ne_eq, hp.unsent]
      have := s.isLt
      omega
    have := hb.before k h1
    cases hr : st.req k s <;> simp_all [ReqAt.before]
  have h1 : (ks.filter (fun k => (st.req k s).before == 2)).length ≤ c.idxCap := by
    refine le_trans ?_ (hl.queue s)
    refine ((hks.filter _).subperm ?_).length_le
    intro k hk
    rw [List.mem_filter] at hk
    rw [(hp.lookQ s).2]
    rcases hpart k hk.1 with e | e
    · exact e
    · rw [e] at hk; simp [ReqAt.before] at hk
  have h2 : (ks.filter (fun k => !((st.req k s).before == 2))).length ≤ E.lookupThreads := by
    refine le_trans ?_ (hl.busy s)
    rw [hc.look s]
    have hnd := hks.filter (fun k => !((st.req k s).before == 2))
    rw [← List.toFinset_card_of_nodup hnd, Finset.card_eq_sum_ones]
    unfold Full.sumAt
    refine le_trans (Finset.sum_le_sum (g := fun k => ReqAt.inLookup (st.req k s)) ?_) (Finset.sum_le_sum_of_subset ?_)
    · intro k hk
      rw [List.mem_toFinset, List.mem_filter] at hk
      rcases hpart k hk.1 with e | e
      · rw [e] at hk; simp [ReqAt.before] at hk
      · rw [e]; simp [ReqAt.inLookup]
    · intro k hk
      rw [List.mem_toFinset, List.mem_filter] at hk
      exact Finset.mem_range.2 (h k hk.1).2.1
  have e : ks.length = (ks.filter (fun k => (st.req k s).before == 2)).length +
      (ks.filter (fun k => !((st.req k s).before == 2))).length := by
    rw [← List.countP_eq_length_filter, ← List.countP_eq_length_filter]
    have := List.length_eq_countP_add_countP (fun k => (st.req k s).before == 2) (l := ks)
    rw [this]
    congr 2
    funext k
    cases hb : ((st.req k s).before == 2) <;> simp [hb]
  omega

end Riot
