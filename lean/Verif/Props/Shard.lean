import Verif.Props.EndToEnd
import Verif.Proofs.FineFresh
import Verif.Proofs.ShardLost
import Verif.Spec.FineWitness

/-!
# Concurrent index calls: C35, C55, C56, C57
-/

namespace Riot

variable {D F A : Type} {c : PipeCfg D}

/-! ## C35: deadlock -/

/-- **C35** When exactly the workers of a shard block each other for ever: when the add worker has
found, during a refresh, an update of an indexed document, and the remove worker is between its
two locks. -/
theorem C35_shard_stuck_exactly {so : Sorter} {st : CShard} (hd : st.dead = false) :
    st.Stuck so ↔ st.crossed := stuck_iff_crossed hd

theorem fine_crossed_step {so : Sorter} {st st' : Fine c} {a : FAct c.toPipeSize D} (h : st.step so a = some st')
    {s : Fin c.shards} (hc : (st.shard s).crossed) : (st'.shard s).crossed := by
  obtain ⟨hd, hs⟩ := fine_step h
  clear h
  have key : ∀ (s' : Fin c.shards) (x : CShard) (b : SAct), (st.shard s').step so b = some x →
      (Function.update st.shard s' x s).crossed := by
    intro s' x b hb
    by_cases e : s = s'
    · subst e; simp only [Function.update_self]; exact (crossed_step hc hb).1
    · simp only [Function.update_of_ne e]; exact hc
  cases hs with
  | pipe a p h0 h he => subst he; exact hc
  | beginAdd s' op x hop hn h he => subst he; exact key s' x _ h
  | beginRem s' id f x hn h he => subst he; exact key s' x _ h
  | add s' x h hb he => subst he; exact key s' x _ h
  | addRet s' x p h hb hp he => subst he; exact key s' x _ h
  | rem s' x h hb he => subst he; exact key s' x _ h
  | remRet s' x p h hb hp he => subst he; exact key s' x _ h
  | search s' x h he => subst he; exact key s' x _ h
  | searched s' x h he => subst he; exact key s' x _ h

theorem fine_crossed_run {so : Sorter} (as : List (FAct c.toPipeSize D)) : ∀ {st st' : Fine c},
    st.run so as = some st' → ∀ {s : Fin c.shards}, (st.shard s).crossed → (st'.shard s).crossed := by
  induction as with
  | nil => intro st st' h s hc; simp [Fine.run] at h; subst h; exact hc
  | cons a l ih =>
    intro st st' h s hc
    simp only [Fine.run] at h
    obtain ⟨st1, h1, h2⟩ := Option.bind_eq_some_iff.1 h
    exact ih h2 (fine_crossed_step h1 hc)

theorem crossed_deadlocked {so : Sorter} {st : Fine c} {s : Fin c.shards} (hc : (st.shard s).crossed) :
    st.Deadlocked so s := by
  intro as st' h
  have hc' := fine_crossed_run as h hc
  obtain ⟨h1, h2, h3, _⟩ := crossed_blocked (so := so) hc'
  refine ⟨?_, ?_, ?_, ?_⟩
  · obtain ⟨⟨fuel, i, p, f, id, ha⟩, _⟩ := hc'; left; rw [ha]; simp
  · unfold Fine.step; split <;> simp [Fine.onShard, h1]
  · unfold Fine.step; split <;> simp [Fine.onShard, h2]
  · unfold Fine.step; split <;> simp [Fine.onShard, h3]

/-- A Flush of an engine whose index calls overlap. -/
theorem fine_flush {so : Sorter} {st st' : Fine c} (hi : st.pipe.ClientsIdle) {i : Fin c.clients}
    {bs : List (FAct c.toPipeSize D)} (hb : ∀ (j : Fin c.clients) (a : Call D), FAct.pipe (.call j a) ∉ bs)
    (hr : st.run so (.pipe (.call i .flush) :: bs) = some st') (hdone : st'.pipe.prog (.client i) = []) :
    FlushCompletes i st.pipe st'.pipe := by
  have hnc : ∀ (bs : List (FAct c.toPipeSize D)) (u : Fine c),
      (∀ (j : Fin c.clients) (a : Call D), FAct.pipe (.call j a) ∉ bs) → ∀ a ∈ coarseActs so u bs, a.isCall = false := by
    intro bs
    induction bs with
    | nil => intro u _ a ha; simp [coarseActs] at ha
    | cons b l ih =>
      intro u hb a ha
      simp only [coarseActs, List.mem_append] at ha
      rcases ha with ha | ha
      · cases b with
        | pipe x =>
          simp only [FAct.coarse, List.mem_singleton] at ha; subst ha
          cases a with
          | call j y => exact absurd (by simp) (hb j y)
          | _ => rfl
        | add s' =>
          simp only [FAct.coarse] at ha
          split at ha
          · split at ha <;> simp at ha; subst ha; rfl
          · simp at ha
        | rem s' =>
          simp only [FAct.coarse] at ha
          split at ha
          · split at ha <;> simp at ha; subst ha; rfl
          · simp at ha
        | _ => simp [FAct.coarse] at ha
      · split at ha
        · exact ih _ (fun j y hm => hb j y (List.mem_cons_of_mem _ hm)) a ha
        · simp at ha
  simp only [Fine.run] at hr
  obtain ⟨st1, h1, h2⟩ := Option.bind_eq_some_iff.1 hr
  have hp1 : st.pipe.step (.call i .flush) = some st1.pipe := by
    obtain ⟨_, hs⟩ := fine_step h1
    cases hs with
    | pipe a p h0 hp he => subst he; exact hp
  exact ⟨hi, st1.pipe, coarseActs so st1 bs, hp1, hnc bs st1 hb, fine_run_coarse bs st1 st' h2, hdone⟩

/-- **C35** On a running engine whose locks are crossed on a shard, no Flush ever returns. -/
theorem C35_deadlock_blocks_flush {so : Sorter} {o : IndexerOpts} {db : Fin c.stores → List (Str × D)}
    {as : List (FAct c.toPipeSize D)} {st : Fine c} (h : (Fine.start c o db).run so as = some st)
    {s : Fin c.shards} (hc : (st.shard s).crossed) (hi : st.pipe.ClientsIdle) (i : Fin c.clients)
    (bs : List (FAct c.toPipeSize D)) (hb : ∀ (j : Fin c.clients) (a : Call D), FAct.pipe (.call j a) ∉ bs)
    (st' : Fine c) (hr : st.run so (.pipe (.call i .flush) :: bs) = some st') :
    st'.pipe.prog (.client i) ≠ [] := by
  intro hdone
  have hl := linked_run as (linked_start c o db) h
  -- the log of the shard does not change
  have hlog : ∀ (bs : List (FAct c.toPipeSize D)) (u v : Fine c), u.run so bs = some v →
      (u.shard s).crossed → v.pipe.idxLog s = u.pipe.idxLog s ∨ ¬ Linked db u := by
    intro bs
    induction bs with
    | nil => intro u v h _; simp [Fine.run] at h; subst h; exact Or.inl rfl
    | cons a l ih =>
      intro u v h hcu
      by_cases hlu : Linked db u
      · left
        simp only [Fine.run] at h
        obtain ⟨u1, h1, h2⟩ := Option.bind_eq_some_iff.1 h
        rcases ih u1 v h2 (fine_crossed_step h1 hcu) with e | e
        · rw [e]
          obtain ⟨_, hs⟩ := fine_step h1
          clear h1 h h2 e
          obtain ⟨b1, b2, _⟩ := crossed_blocked (so := so) hcu
          cases hs with
          | pipe a p h0 h he => subst he; simp only; rw [(step_keeps h0 h).1]
          | addRet s' x p h hb hp he =>
            have hne : s' ≠ s := by rintro rfl; rw [b1] at h; simp at h
            obtain ⟨op, l', e'⟩ := hlu.add s' (addStep_not_idle (step_add_some h))
            have := step_return e' hp
            subst he; subst this
            simp [Function.update, Ne.symm hne]
          | remRet s' x p h hb hp he =>
            have hne : s' ≠ s := by rintro rfl; rw [b2] at h; simp at h
            obtain ⟨op, l', e'⟩ := hlu.rem s' (remStep_not_none (step_rem_some h))
            have := step_return e' hp
            subst he; subst this
            simp [Function.update, Ne.symm hne]
          | beginAdd s' op x hop hn h he => subst he; rfl
          | beginRem s' id f x hn h he => subst he; rfl
          | add s' x h hb he => subst he; rfl
          | rem s' x h hb he => subst he; rfl
          | search s' x h he => subst he; rfl
          | searched s' x h he => subst he; rfl
        · exact absurd (linked_step hlu h1) e
      · exact Or.inr hlu
  have e1 := (hlog _ st st' hr hc).resolve_right (by simpa using hl)
  -- but a Flush that returns has executed a refresh there
  have hfl := fine_flush hi hb hr hdone
  obtain ⟨L, M, e2, _, _, hM, ⟨t, ht⟩⟩ := flush_index hl.reach hfl s
  have : M = [] := by
    have hlen := congrArg List.length (e2.symm.trans e1)
    rw [← ht] at hlen
    simp only [List.length_append] at hlen
    exact List.length_eq_zero_iff.1 (by omega)
  rw [this] at hM
  simp at hM

/-- **C35** A shard of a running engine is blocked for ever exactly when its locks are crossed. -/
theorem C35_engine_deadlock_exactly {so : Sorter} {o : IndexerOpts} {db : Fin c.stores → List (Str × D)}
    {as : List (FAct c.toPipeSize D)} {st : Fine c} (h : (Fine.start c o db).run so as = some st)
    (hd : st.dead = false) (s : Fin c.shards) : st.Deadlocked so s ↔ (st.shard s).crossed := by
  refine ⟨fun hdl => ?_, crossed_deadlocked⟩
  have hl := linked_run as (linked_start c o db) h
  -- let the searches of the shard end
  have drain : ∀ (n : Nat) (u : Fine c), u.dead = false → Linked db u → (u.shard s).readers = n →
      ∃ bs v, u.run so bs = some v ∧ v.dead = false ∧ Linked db v ∧ (v.shard s).readers = 0 ∧
        ((v.shard s).crossed → (u.shard s).crossed) := by
    intro n
    induction n with
    | zero => intro u h1 h2 h3; exact ⟨[], u, rfl, h1, h2, h3, fun x => x⟩
    | succ n ih =>
      intro u h1 h2 h3
      have hus := not_dead_iff.1 h1
      have hst : u.step so (.searched s) = some (u.setShard s { u.shard s with readers := n }) := by
        unfold Fine.step
        rw [if_neg (by simp [h1])]
        simp [Fine.onShard, CShard.step, hus s, h3]
      obtain ⟨bs, v, g1, g2, g3, g4, g5⟩ := ih _ (by
        rw [not_dead_iff]
        intro s'
        by_cases e : s' = s
        · subst e; simp [Fine.setShard, hus]
        · simp [Fine.setShard, Function.update, e, hus]) (linked_step h2 hst) (by simp [Fine.setShard])
      refine ⟨.searched s :: bs, v, by simp [Fine.run, hst, g1], g2, g3, g4, fun hx => ?_⟩
      have := g5 hx
      simpa [Fine.setShard, CShard.crossed] using this
  obtain ⟨bs, v, g1, g2, g3, g4, g5⟩ := drain _ st hd hl rfl
  obtain ⟨k1, k2, k3, _⟩ := hdl bs v g1
  have hvs := not_dead_iff.1 g2 s
  refine g5 (blocked_crossed (so := so) hvs g4 k1 ?_ ?_)
  · cases hs : (v.shard s).step so .add with
    | none => rfl
    | some x =>
      exfalso
      unfold Fine.step at k2
      rw [if_neg (by simp [g2])] at k2
      simp only [Fine.onShard, hs, Option.map_some, Option.bind_some] at k2
      split at k2
      · obtain ⟨op, l, e⟩ := g3.add s (addStep_not_idle (step_add_some hs))
        simp [Fine.return, Fine.setShard, Pipe.step, e, Pipe.exec] at k2
      · simp at k2
  · cases hs : (v.shard s).step so .rem with
    | none => rfl
    | some x =>
      exfalso
      unfold Fine.step at k3
      rw [if_neg (by simp [g2])] at k3
      simp only [Fine.onShard, hs, Option.map_some, Option.bind_some] at k3
      split at k3
      · obtain ⟨op, l, e⟩ := g3.rem s (remStep_not_none (step_rem_some hs))
        simp [Fine.return, Fine.setShard, Pipe.step, e, Pipe.exec] at k3
      · simp at k3

/-- From every state the engine can go on, starting nothing new, until nothing more can happen. -/
theorem reaches_stuck (so : Sorter) (st : Fine c) :
    ∃ as st', (∀ a ∈ as, a.isNew = false) ∧ st.run so as = some st' ∧ st'.Stuck so := by
  generalize hm : st.left = m
  induction m using WellFoundedLT.induction generalizing st with
  | ind m ih =>
    by_cases h : st.Stuck so
    · exact ⟨[], st, by simp, rfl, h⟩
    · unfold Fine.Stuck at h
      push_neg at h
      obtain ⟨a, ha, hs⟩ := h
      obtain ⟨st1, h1⟩ := Option.ne_none_iff_exists'.1 hs
      obtain ⟨as, st', g1, g2, g3⟩ := ih _ (hm ▸ left_step ha h1) st1 rfl
      exact ⟨a :: as, st', by simpa using ⟨ha, g1⟩, by simp [Fine.run, h1, g2], g3⟩

theorem notNew_calls {so : Sorter} {as : List (FAct c.toPipeSize D)} (hn : ∀ a ∈ as, a.isNew = false) :
    ∀ {st st' : Fine c}, st.run so as = some st' → st'.pipe.calls = st.pipe.calls := by
  induction as with
  | nil => intro st st' h; simp [Fine.run] at h; subst h; rfl
  | cons a l ih =>
    intro st st' h
    simp only [Fine.run] at h
    obtain ⟨st1, h1, h2⟩ := Option.bind_eq_some_iff.1 h
    rw [ih (fun b hb => hn b (List.mem_cons_of_mem _ hb)) h2]
    have ha := hn a (by simp)
    have hrun := fine_coarse (fine_step h1).2
    rw [run_calls _ _ _ hrun]
    suffices (a.coarse so st).flatMap Act.called = [] by rw [this, List.append_nil]
    cases a with
    | pipe x => cases x <;> simp_all [FAct.coarse, Act.called, FAct.isNew]
    | add s =>
      simp only [FAct.coarse]
      split
      · split <;> simp [Act.called]
      · rfl
    | rem s =>
      simp only [FAct.coarse]
      split
      · split <;> simp [Act.called]
      · rfl
    | _ => simp [FAct.coarse]

/-- **C35** (partial: as long as no document identifier is given to Index twice, or nothing is
removed; and unless a worker panics, see C05) The workers never block each other for ever: from
every reachable state all calls and searches can return and all work can be done, whatever was
going on. Missing: updates together with removals, for which the property is false
(`C35_refuted`). -/
theorem C35_no_deadlock_partial (hz : c.toPipeSize.Ok) (hdoc : c.DocOk) {so : Sorter} (hso : SortOk so)
    {o : IndexerOpts} {db : Fin c.stores → List (Str × D)} {as : List (FAct c.toPipeSize D)} {st : Fine c}
    (h : (Fine.start c o db).run so as = some st)
    (hn : ((st.pipe.given db).filterMap Call.indexed).Nodup ∨ ∀ id f, Call.remove id f ∉ st.pipe.given db) :
    (∃ bs st', (∀ a ∈ bs, a.isNew = false) ∧ st.run so bs = some st' ∧ (st'.dead = true ∨ st'.Done)) ∧
    (st.dead = false → st.Stuck so → st.Done) := by
  have key : ∀ {as : List (FAct c.toPipeSize D)} {st : Fine c}, (Fine.start c o db).run so as = some st →
      (((st.pipe.given db).filterMap Call.indexed).Nodup ∨ ∀ id f, Call.remove id f ∉ st.pipe.given db) →
      st.dead = false → st.Stuck so → st.Done := by
    intro as st h hn hd hs
    refine fine_stuck hz (linked_run as (linked_start c o db) h) hd (fun s => ?_) hs
    rcases hn with hn | hn
    · exact fresh_engine hso hdoc h hn hd s
    · rintro ⟨_, id, f, hr⟩
      rw [noRemoval_engine h hn s] at hr
      simp at hr
  refine ⟨?_, key h hn⟩
  obtain ⟨bs, st', g1, g2, g3⟩ := reaches_stuck so st
  refine ⟨bs, st', g1, g2, ?_⟩
  cases hd : st'.dead with
  | true => exact Or.inl rfl
  | false =>
    refine Or.inr (key (as := as ++ bs) (by rw [fine_run_append, h]; exact g2) ?_ hd g3)
    have e : st'.pipe.given db = st.pipe.given db := by unfold Pipe.given; rw [notNew_calls g1 g2]
    rw [e]; exact hn

/-- **C35** Work ends: there is no infinite execution in which no call and no search is started. -/
theorem C35_work_terminates {so : Sorter} (st : Nat → Fine c) (a : Nat → FAct c.toPipeSize D)
    (hn : ∀ n, (a n).isNew = false) : ¬ ∀ n, (st n).step so (a n) = some (st (n + 1)) :=
  fine_terminates st a hn

/-! ### The deadlock -/

def oneShard : PipeCfg Nat := demoPipe 2 1 1 (by decide) (by decide) false
def clientA : Fin oneShard.clients := ⟨0, by decide⟩
def clientB : Fin oneShard.clients := ⟨1, by decide⟩
def theShard : Fin oneShard.shards := ⟨0, by decide⟩
def oneStart : Fine oneShard := Fine.start oneShard (smallOpts .docIds 10) (fun _ => [])

/-- Run a schedule that may depend on the state. -/
def Fine.andThen {c : PipeCfg D} (so : Sorter) (st : Option (Fine c))
    (f : Fine c → List (FAct c.toPipeSize D)) : Option (Fine c) :=
  st.bind (fun st => st.run so (f st))

theorem andThen_reach {so : Sorter} {st0 st' : Fine c} {x : Option (Fine c)}
    {f : Fine c → List (FAct c.toPipeSize D)} (hx : ∀ st, x = some st → ∃ as, st0.run so as = some st)
    (h : Fine.andThen so x f = some st') : ∃ as, st0.run so as = some st' := by
  unfold Fine.andThen at h
  obtain ⟨st, h1, h2⟩ := Option.bind_eq_some_iff.1 h
  obtain ⟨as, has⟩ := hx st h1
  exact ⟨as ++ f st, by rw [fine_run_append, has]; exact h2⟩

/-- Index("X", 1), wait until all is done, then Index("X", 2) and RemoveDoc("Y") at the same time:
the two workers stop between their locks. -/
def deadlock : Option (Fine oneShard) :=
  let all := fineCands _ ++ shardCands _
  let st1 := Fine.andThen insSort (some oneStart) (fun st => st.session insSort all [(clientA, .index (str "X") 1 true)])
  let st2 := Fine.andThen insSort st1 (fun st => st.session insSort (fineCands _)
    [(clientA, .index (str "X") 2 true), (clientB, .remove (str "Y") false)])
  Fine.andThen insSort st2 (fun _ => [.add theShard, .add theShard, .add theShard, .rem theShard])

/-- Crossed locks, as a test. -/
def CShard.crossedB (st : CShard) : Bool :=
  (match st.add with | .lockCache .. => true | _ => false) && (match st.rem with | some (.lockTable ..) => true | _ => false)

theorem crossed_of_B {st : CShard} (h : st.crossedB = true) : st.crossed := by
  unfold CShard.crossedB at h
  rw [Bool.and_eq_true] at h
  constructor
  · cases hx : st.add <;> simp_all
  · cases hx : st.rem with
    | none => simp_all
    | some pc => cases pc <;> simp_all

/-- **C35 is false of the code**: after two Index calls about the same document and one RemoveDoc
of another document, the workers of the shard block each other for ever; no search of the shard
ever starts again, and no Flush ever returns (`C35_deadlock_blocks_flush`). -/
theorem C35_refuted : ∃ (as : List (FAct oneShard.toPipeSize Nat)) (st : Fine oneShard),
    oneStart.run insSort as = some st ∧ st.dead = false ∧ st.pipe.ClientsIdle ∧
    st.pipe.calls.map (·.2) = [.index (str "X") 1 true, .index (str "X") 2 true, .remove (str "Y") false] ∧
    (st.shard theShard).crossed ∧ st.Deadlocked insSort theShard := by
  have h : deadlock.any (fun st => !st.dead && (st.pipe.prog (.client clientA)).isEmpty &&
      (st.pipe.prog (.client clientB)).isEmpty && (st.shard theShard).crossedB &&
      decide (st.pipe.calls.map (·.2) =
        [.index (str "X") 1 true, .index (str "X") 2 true, .remove (str "Y") false])) = true := by decide +kernel
  obtain ⟨st, h1, h⟩ := (Option.any_eq_true _ _).1 h
  simp only [Bool.and_eq_true, Bool.not_eq_true', List.isEmpty_iff, decide_eq_true_eq] at h
  obtain ⟨⟨⟨⟨e1, e2⟩, e3⟩, e4⟩, e5⟩ := h
  obtain ⟨as, has⟩ : ∃ as, oneStart.run insSort as = some st :=
    andThen_reach (fun _ h => andThen_reach (fun _ h => andThen_reach (fun _ h => ⟨[], by rw [← h]; rfl⟩) h) h) h1
  refine ⟨as, st, has, e1, ?_, e5, crossed_of_B e4, crossed_deadlocked (crossed_of_B e4)⟩
  intro i
  match i with
  | ⟨0, _⟩ => exact e2
  | ⟨1, _⟩ => exact e3

theorem oneShard_ok : oneShard.toPipeSize.Ok ∧ oneShard.DocOk ∧ oneShard.KeysOk :=
  ⟨⟨by decide, by decide, by decide, by decide, by decide⟩, fun _ _ => rfl, fun _ _ => by simp [oneShard, demoPipe]⟩

/-- Index("X") and RemoveDoc("Y") in progress at the same time, with a forced refresh: the
hypotheses of `C35_no_deadlock_partial` hold, and both workers are inside an index call. -/
example : ∃ (as : List (FAct oneShard.toPipeSize Nat)) (st : Fine oneShard),
    oneStart.run insSort as = some st ∧ ((st.pipe.given (fun _ => [])).filterMap Call.indexed).Nodup ∧
    (st.shard theShard).add ≠ .idle ∧ (st.shard theShard).rem ≠ none := by
  have h : (Fine.andThen insSort (some oneStart) (fun st => st.session insSort (fineCands _)
      [(clientA, .index (str "X") 2 true), (clientB, .remove (str "Y") false)])).any (fun st =>
      decide (((st.pipe.given (fun _ => [])).filterMap Call.indexed).Nodup) && (st.shard theShard).add.busy &&
      (st.shard theShard).rem.isSome) = true := by decide +kernel
  obtain ⟨st, h1, h⟩ := (Option.any_eq_true _ _).1 h
  simp only [Bool.and_eq_true, decide_eq_true_eq] at h
  obtain ⟨as, has⟩ : ∃ as, oneStart.run insSort as = some st :=
    andThen_reach (fun _ h => ⟨[], by rw [← h]; rfl⟩) h1
  refine ⟨as, st, has, h.1.1, ?_, ?_⟩
  · intro e; rw [e] at h; simp [AddPC.busy] at h
  · intro e; rw [e] at h; simp at h

/-! ## C55: overlapping index calls -/

/-- **C55** (partial: on no shard does a refresh overlap a removal) An engine whose index calls
overlap behaves as one whose index calls are atomic and happen when they return: its channels,
counters and logs are those of a run of that engine, the index of every shard without a running
call is the one its log of returned calls produces, and a panic means that one more returning call
would have made the atomic index panic. Missing: refreshes that overlap a removal, for which the
property is false (`C55_refuted`). -/
theorem C55_overlapping_calls_atomic_partial {so : Sorter} (hso : SortOk so) {o : IndexerOpts}
    {db : Fin c.stores → List (Str × D)} {as : List (FAct c.toPipeSize D)} {st : Fine c}
    (h : (Fine.start c o db).run so as = some st) (hc : (Fine.start c o db).NoClash so as) :
    (∃ bs, (Pipe.start c db).run bs = some st.pipe) ∧
    (∀ s, (st.shard s).dead = false → st.ShardIdle s →
      (Indexer.init o).run so (st.pipe.idxLog s) = some (st.shard s).abs) ∧
    (∀ s, (st.shard s).dead = true → ∃ t p, st.pipe.step (.run t) = some p ∧
      (Indexer.init o).run so (p.idxLog s) = none) := by
  have hI := finv_run hso as (finv_start so o db) hc h
  refine ⟨hI.reach, fun s hd hi => ?_, hI.dead⟩
  obtain ⟨base, a, r, hrel⟩ := hI.alive s hd
  exact hrel.idle hi

/-- **C55** (partial, a single shard under any schedule of its workers) The calls of a shard behave
as atomic calls executed in the order in which they return. -/
theorem C55_shard_linear_partial {so : Sorter} (hso : SortOk so) (o : IndexerOpts) {as : List SAct} {st : CShard}
    (h : (CShard.init o).run so as = some st) (hc : NoClash so (CShard.init o) as) :
    (st.dead = true ∧ ∃ op, (Indexer.init o).run so (returned so (CShard.init o) none none as ++ [op]) = none) ∨
    (st.dead = false ∧ (st.add = .idle → st.rem = none →
      (Indexer.init o).run so (returned so (CShard.init o) none none as) = some st.abs)) := by
  rcases linear_run hso as _ _ _ _ _ rfl (rel_init so o) hc h with h1 | ⟨h1, base, a, r, h2, h3⟩
  · exact Or.inl h1
  · refine Or.inr ⟨h1, fun hi hr => ?_⟩
    rw [h2]
    have hr' := h3.remNone.1 hr
    have hA := h3.add
    rw [hi] at hA
    subst hr'
    cases hA with
    | idle _ hc' hr' =>
      simp only [CShard.remRes, hr, Indexer.stepOpt, Option.some.injEq] at hr'
      rw [hr']
    | refreshing _ op ha => simp [AddPC.refreshing] at ha

/-- Index("X", 1), Index("Y", 2), wait, then Index("X", 3) and RemoveDoc("Y") at the same time. The
remove worker is about to remove the slice `["Y"]` when the update of "X" is entered into the
removal cache, over "Y". -/
def lostRemoval : Option (Fine oneShard) :=
  let all := fineCands _ ++ shardCands _
  let st1 := Fine.andThen insSort (some oneStart) (fun st => st.session insSort all
    [(clientA, .index (str "X") 1 true), (clientA, .index (str "Y") 2 true)])
  let st2 := Fine.andThen insSort st1 (fun st => st.session insSort (fineCands _)
    [(clientA, .index (str "X") 3 true), (clientB, .remove (str "Y") true)])
  let st3 := Fine.andThen insSort st2 (fun _ => List.replicate 3 (.rem theShard) ++
    List.replicate 5 (.add theShard) ++ List.replicate 3 (.rem theShard))
  Fine.andThen insSort st3 (fun st => st.greedy insSort all 300)

def Fine.doneB {c : PipeCfg Nat} (st : Fine c) : Bool :=
  st.pipe.inited && st.pipe.quietB && (List.finRange c.shards).all (fun s =>
    !(st.shard s).add.busy && (st.shard s).rem.isNone && (st.shard s).readers == 0)

theorem done_of_B {c : PipeCfg Nat} {st : Fine c} (h : st.doneB = true) : st.Done := by
  unfold Fine.doneB at h
  simp only [Bool.and_eq_true] at h
  refine ⟨h.1.1, quiet_of_B h.1.2, fun s => ?_⟩
  have := List.all_eq_true.1 h.2 s (List.mem_finRange s)
  simp only [Bool.and_eq_true, Bool.not_eq_true', Option.isNone_iff_eq_none, beq_iff_eq] at this
  exact ⟨⟨busy_false this.1.1, this.1.2⟩, this.2⟩

/-- **C55 is false of the code** when a refresh overlaps a removal. After Index("X"), Index("Y"),
and then an update of "X" concurrent with RemoveDoc("Y"), all calls returned and all work done,
"Y" can never be found again: whatever index calls follow (for instance Index("Y") again), no
search returns "Y". Had the same calls been executed one at a time, in the order in which they
returned, indexing "Y" again would make it searchable. -/
theorem C55_refuted : ∃ (as : List (FAct oneShard.toPipeSize Nat)) (st : Fine oneShard),
    oneStart.run insSort as = some st ∧ st.dead = false ∧ st.Done ∧
    st.pipe.calls.map (·.2) = [.index (str "X") 1 true, .index (str "Y") 2 true, .index (str "X") 3 true,
      .remove (str "Y") true] ∧
    (∀ h ix, (st.shard theShard).abs.run insSort h = some ix →
      ∀ log2 tokens labels docIds co docs n, ix.lookup log2 tokens labels docIds co = some (docs, n) →
        str "Y" ∉ docs.map (·.docId)) ∧
    idsOf (runLookup (smallOpts .docIds 10)
      (st.pipe.idxLog theShard ++ [.add (oneShard.docOf (str "Y") 4) true]) [str "k4"] []) = some [str "Y"] := by
  have h : lostRemoval.any (fun st => !st.dead && st.doneB && decide (st.pipe.calls.map (·.2) =
      [.index (str "X") 1 true, .index (str "Y") 2 true, .index (str "X") 3 true, .remove (str "Y") true]) &&
      decide ((st.shard theShard).abs.docsState.get (str "Y") = some 1) &&
      decide (str "Y" ∉ (st.shard theShard).abs.removeCache) &&
      decide (idsOf (runLookup (smallOpts .docIds 10)
        (st.pipe.idxLog theShard ++ [.add (oneShard.docOf (str "Y") 4) true]) [str "k4"] []) = some [str "Y"])) = true := by
    decide +kernel
  obtain ⟨st, h1, h⟩ := (Option.any_eq_true _ _).1 h
  simp only [Bool.and_eq_true, Bool.not_eq_true', decide_eq_true_eq] at h
  obtain ⟨⟨⟨⟨⟨e1, e2⟩, e3⟩, e4⟩, e5⟩, e6⟩ := h
  obtain ⟨as, has⟩ : ∃ as, oneStart.run insSort as = some st :=
    andThen_reach (fun _ h => andThen_reach (fun _ h => andThen_reach (fun _ h => andThen_reach
      (fun _ h => ⟨[], by rw [← h]; rfl⟩) h) h) h) h1
  refine ⟨as, st, has, e1, done_of_B e2, e3, ?_, e6⟩
  intro hist ix hix log2 tokens labels docIds co docs n hl hm
  have hp : ix.Parked (str "Y") := run_parked insSort_ok hist ⟨e4, e5⟩ hix
  obtain ⟨x, hx, hxd⟩ := List.mem_map.1 hm
  have := lookup_state0 hl x hx
  rw [hxd, hp.1] at this
  simp at this

/-! ## C56: gentle use -/

/-- **C56** An engine that is used gently (no forced calls, Flush only when no other call is in
progress, fewer documents per shard between two Flushes than the cache holds) never panics, never
executes a refresh during a removal, and never deadlocks, whatever else the calls are and however
they are scheduled: in every state it can finish all its work, and when nothing more can happen
everything is done. -/
theorem C56_gentle_use_is_safe (hz : c.toPipeSize.Ok) (hk : c.KeysOk) {so : Sorter} (hso : SortOk so)
    {o : IndexerOpts} {db : Fin c.stores → List (Str × D)} (hs : GentleStart c o db)
    {as : List (FAct c.toPipeSize D)} (hg : (Fine.start c o db).Gentle so o db as) {st : Fine c}
    (h : (Fine.start c o db).run so as = some st) :
    st.dead = false ∧ (∀ s, ¬ (st.shard s).Clash) ∧ (∀ s, ¬ st.Deadlocked so s) ∧ (st.Stuck so → st.Done) ∧
    (∃ bs st', (∀ a ∈ bs, a.isNew = false) ∧ st.run so bs = some st' ∧ st'.Done) := by
  have key : ∀ {as : List (FAct c.toPipeSize D)} {st : Fine c}, (Fine.start c o db).Gentle so o db as →
      (Fine.start c o db).run so as = some st →
      st.dead = false ∧ (∀ s, ¬ (st.shard s).Clash) ∧ (∀ s, ¬ (st.shard s).crossed) := by
    intro as st hg h
    have hI := ginv_run hk hso as (ginv_start hs) hg h
    have hnc := GInv.noClash hI.gentle hI.late hI.rem
    refine ⟨hI.not_dead hk hso, hnc, fun s hx => ?_⟩
    obtain ⟨⟨fuel, i, p, f, id, ha⟩, id', f', hr⟩ := hx
    exact hnc s ⟨by rw [ha]; rfl, by rw [hr]; simp⟩
  obtain ⟨k1, k2, k3⟩ := key hg h
  have hstuck : ∀ {as : List (FAct c.toPipeSize D)} {st : Fine c}, (Fine.start c o db).Gentle so o db as →
      (Fine.start c o db).run so as = some st → st.Stuck so → st.Done := by
    intro as st hg h hst
    obtain ⟨k1, _, k3⟩ := key hg h
    exact fine_stuck hz (linked_run as (linked_start c o db) h) k1 k3 hst
  refine ⟨k1, k2, fun s hx => k3 s ((C35_engine_deadlock_exactly h k1 s).1 hx), hstuck hg h, ?_⟩
  obtain ⟨bs, st', g1, g2, g3⟩ := reaches_stuck so st
  refine ⟨bs, st', g1, g2, hstuck (as := as ++ bs) ?_ (by rw [fine_run_append, h]; exact g2) g3⟩
  -- the continuation starts no call
  intro pre i a post u he hu
  rcases List.append_eq_append_iff.1 he with ⟨l, e1, e2⟩ | ⟨l, e1, e2⟩
  · have hm : (FAct.pipe (.call i a) : FAct c.toPipeSize D) ∈ bs := by rw [e2]; simp
    have := g1 _ hm
    simp [FAct.isNew] at this
  · cases l with
    | nil =>
      simp only [List.nil_append] at e2
      have := g1 (FAct.pipe (.call i a)) (by rw [← e2]; simp)
      simp [FAct.isNew] at this
    | cons x l =>
      simp only [List.cons_append, List.cons.injEq] at e2
      obtain ⟨rfl, e2⟩ := e2
      exact hg pre i a l u e1 hu

/-- **C56** and its indexes are those of the calls its shards have executed, one at a time. -/
theorem C56_gentle_use_is_atomic (hk : c.KeysOk) {so : Sorter} (hso : SortOk so)
    {o : IndexerOpts} {db : Fin c.stores → List (Str × D)} (hs : GentleStart c o db)
    {as : List (FAct c.toPipeSize D)} (hg : (Fine.start c o db).Gentle so o db as) {st : Fine c}
    (h : (Fine.start c o db).run so as = some st) :
    (∃ bs, (Pipe.start c db).run bs = some st.pipe) ∧
    ∀ s, st.ShardIdle s → (Indexer.init o).run so (st.pipe.idxLog s) = some (st.shard s).abs := by
  have hI := ginv_run hk hso as (ginv_start hs) hg h
  refine ⟨hI.finv.reach, fun s hi => ?_⟩
  obtain ⟨base, a, r, hrel⟩ := hI.finv.alive s (not_dead_iff.1 (hI.not_dead hk hso) s)
  exact hrel.idle hi

/-! ## C57: from gentle, disciplined calls to answers, with overlapping index calls -/

/-- **C57** C54 for engines whose index calls overlap: used gently and with discipline, and with
all work done, the engine answers every plain search with the requested page of a ranking of
exactly the matching documents. The indexes are the actual ones of the shards. -/
theorem C57_gentle_search_answers_calls (hdoc : c.DocOk) (hk : c.KeysOk) {so : Sorter} (hso : SortOk so)
    {gs : GSort} (hgs : GSortOk gs) (log2 : Rat → Rat) (o : IndexerOpts)
    (db : Fin c.stores → List (Str × D)) (hs : GentleStart c o db)
    (as : List (FAct c.toPipeSize D)) (hg : (Fine.start c o db).Gentle so o db as) (st : Fine c)
    (hrun : (Fine.start c o db).run so as = some st) (hq : st.Done)
    (hround : ∀ d, d ≠ str "0" → ∃ l, Rounds db d st.pipe l)
    (hre : ∀ d f x g l1 l2, st.pipe.given db = l1 ++ Call.remove d f :: l2 → Call.index d x g ∉ l2)
    (info : RankInfo D F A) (e : SearchOpts F) (r : SearchReq F) (tokens : List Str) (off m : Nat)
    (htok : o.indexType = .locs → tokens ≠ []) (hlogic : r.logic = {})
    (hc : r.countDocsOnly = false) (hor : r.orderless = false)
    (ho : (wantedRank e r).outputOffset = off) (hm : (wantedRank e r).maxOutputs = m)
    (hsc : ∀ d f, (wantedRank e r).score d f ≠ [] ∧ NoNaN ((wantedRank e r).score d f)) :
    ∃ answers : List (Answer F A),
      shardAnswers log2 gs e r tokens ((List.finRange c.shards).map (fun s =>
        (⟨(st.shard s).abs, st.pipe.rankHistory info e.idOnly s⟩ : ShardView F A))) = some answers ∧
      ∀ arrived, arrived.Perm answers → ∃ resp, ∃ perShard : Fin c.shards → List (ScoredDoc F A),
        completeSearch gs e r tokens arrived = some resp ∧ resp.timeout = false ∧
        IsPageOf e.idOnly (wantedRank e r).reverseOrder tokens off m
          ((List.finRange c.shards).flatMap perShard) resp ∧
        ∀ s, ((perShard s).map (·.scoredID.docId)).Nodup ∧
          ∀ d, d ≠ str "0" → (d ∈ (perShard s).map (·.scoredID.docId) ↔
            Matches (ideal ((st.pipe.given db).flatMap (c.callOps s))) r.docIds (tokens ++ r.labels) d) := by
  obtain ⟨⟨bs, hbs⟩, hidx⟩ := C56_gentle_use_is_atomic hk hso hs hg hrun
  have hno0 : ∀ x ∈ st.pipe.calls, ∀ f, x.2 ≠ Call.remove (str "0") f := by
    have : ∀ (as : List (FAct c.toPipeSize D)) (u v : Fine c), u.Gentle so o db as → u.run so as = some v →
        (∀ x ∈ u.pipe.calls, ∀ f, x.2 ≠ Call.remove (str "0") f) →
        ∀ x ∈ v.pipe.calls, ∀ f, x.2 ≠ Call.remove (str "0") f := by
      intro as
      induction as with
      | nil => intro u v _ h hu; simp [Fine.run] at h; subst h; exact hu
      | cons a l ih =>
        intro u v hg h hu
        simp only [Fine.run] at h
        obtain ⟨u1, h1, h2⟩ := Option.bind_eq_some_iff.1 h
        refine ih u1 v ?_ h2 ?_
        · intro pre i b post w he hr
          exact hg (a :: pre) i b post w (by rw [he]; rfl) (by simp [Fine.run, h1, hr])
        · cases hnew : a.isNew with
          | false =>
            have hr1 : u.run so [a] = some u1 := by simp [Fine.run, h1]
            rw [notNew_calls (as := [a]) (by simpa using hnew) hr1]; exact hu
          | true =>
            cases a with
            | pipe x =>
              cases x with
              | call i b =>
                have hgc := hg [] i b l u rfl rfl
                obtain ⟨_, hst⟩ := fine_step h1
                cases hst with
                | pipe _ p h0 hp he =>
                  subst he
                  have := step_calls _ _ _ hp
                  simp only [Act.called] at this
                  intro x hx f
                  simp only [this, List.mem_append, List.mem_singleton] at hx
                  rcases hx with hx | rfl
                  · exact hu x hx f
                  · intro e
                    simp only at e
                    subst e
                    exact hgc.2.1 rfl
              | _ => simp [FAct.isNew] at hnew
            | search s =>
              obtain ⟨_, hst⟩ := fine_step h1
              cases hst with
              | search _ x hx he => subst he; exact hu
            | _ => simp [FAct.isNew] at hnew
    exact this as _ _ hg hrun (by simp [Fine.start, Pipe.start])
  obtain ⟨views, answers, h1, h2, h3⟩ := C54_search_answers_calls hdoc hk hso hgs log2 o db bs st.pipe hbs hq.2.1
    hround hno0 hre info e r tokens off m htok hlogic hc hor ho hm hsc
  refine ⟨answers, ?_, h3⟩
  have hv : views = (List.finRange c.shards).map (fun s =>
        (⟨(st.shard s).abs, st.pipe.rankHistory info e.idOnly s⟩ : ShardView F A)) := by
    rw [← List.forall₂_eq_eq_eq, List.forall₂_map_right_iff]
    refine h1.flip.imp ?_
    intro v s ⟨ha, hb⟩
    rw [hidx s (hq.2.2 s).1, Option.some.injEq] at ha
    cases v
    simp_all
  rw [← hv]
  exact h2

/-! ### Witness -/

/-- Is the call gentle in this state? -/
def gentleCallB {c : PipeCfg D} (o : IndexerOpts) (db : Fin c.stores → List (Str × D)) (st : Pipe c) : Call D → Bool
  | .index id d f =>
    !f && (match st.calls.getLast? with
      | some (i, .flush) => (st.prog (.client i)).isEmpty
      | _ => true) && decide (st.docsSince db (c.route id d) + 1 < o.init.docCacheSize)
  | .remove id f => !f && decide (id ≠ str "0") && (match st.calls.getLast? with
      | some (i, .flush) => (st.prog (.client i)).isEmpty
      | _ => true)
  | .flush => (List.finRange c.clients).all (fun i => (st.prog (.client i)).isEmpty)

theorem noFlushRunning_of {st : Pipe c} (h : (match st.calls.getLast? with
      | some (i, .flush) => (st.prog (.client i)).isEmpty
      | _ => true) = true) : st.NoFlushRunning := by
  intro i l he
  rw [he] at h
  simpa using h

theorem gentle_of_B {o : IndexerOpts} {db : Fin c.stores → List (Str × D)} {st : Pipe c} {a : Call D}
    (h : gentleCallB o db st a = true) : GentleCall o db st a := by
  cases a with
  | index id d f =>
    simp only [gentleCallB, Bool.and_eq_true, decide_eq_true_eq] at h
    exact ⟨by simpa using h.1.1, noFlushRunning_of h.1.2, h.2⟩
  | remove id f =>
    simp only [gentleCallB, Bool.and_eq_true, decide_eq_true_eq] at h
    exact ⟨by simpa using h.1.1, h.1.2, noFlushRunning_of h.2⟩
  | flush =>
    intro i
    have := List.all_eq_true.1 h i (List.mem_finRange i)
    simpa using this

def gentleActB {c : PipeCfg D} (o : IndexerOpts) (db : Fin c.stores → List (Str × D)) (st : Pipe c) :
    FAct c.toPipeSize D → Bool
  | .pipe (.call _ b) => gentleCallB o db st b
  | _ => true

/-- Run a schedule, checking that its calls are gentle. -/
def Fine.gentleRun {c : PipeCfg D} (so : Sorter) (o : IndexerOpts) (db : Fin c.stores → List (Str × D)) :
    Fine c → List (FAct c.toPipeSize D) → Option (Fine c)
  | st, [] => some st
  | st, a :: l =>
    if gentleActB o db st.pipe a then
      (st.step so a).bind (fun st' => st'.gentleRun so o db l)
    else none

theorem gentleRun_spec {so : Sorter} {o : IndexerOpts} {db : Fin c.stores → List (Str × D)}
    (as : List (FAct c.toPipeSize D)) : ∀ {st st' : Fine c}, st.gentleRun so o db as = some st' →
    st.run so as = some st' ∧ st.Gentle so o db as := by
  induction as with
  | nil =>
    intro st st' h
    simp only [Fine.gentleRun, Option.some.injEq] at h
    subst h
    refine ⟨rfl, ?_⟩
    intro pre i a post st'' he
    simp at he
  | cons x l ih =>
    intro st st' h
    simp only [Fine.gentleRun] at h
    split at h
    · rename_i hx
      obtain ⟨st1, h1, h2⟩ := Option.bind_eq_some_iff.1 h
      obtain ⟨g1, g2⟩ := ih h2
      refine ⟨by simp [Fine.run, h1, g1], ?_⟩
      intro pre i a post st'' he hr
      cases pre with
      | nil =>
        simp only [List.nil_append, List.cons.injEq] at he
        simp only [Fine.run, Option.some.injEq] at hr
        subst hr
        rw [he.1] at hx
        exact gentle_of_B hx
      | cons y pre =>
        simp only [List.cons_append, List.cons.injEq] at he
        obtain ⟨rfl, he⟩ := he
        simp only [Fine.run, h1, Option.bind_some] at hr
        exact g2 pre i a post st'' he hr
    · simp at h

theorem gentle_append {so : Sorter} {o : IndexerOpts} {db : Fin c.stores → List (Str × D)} {st st1 : Fine c}
    {as bs : List (FAct c.toPipeSize D)} (h : st.run so as = some st1) (h1 : st.Gentle so o db as)
    (h2 : st1.Gentle so o db bs) : st.Gentle so o db (as ++ bs) := by
  intro pre i a post u he hu
  rcases List.append_eq_append_iff.1 he with ⟨l, e1, e2⟩ | ⟨l, e1, e2⟩
  · subst e1
    rw [fine_run_append, h] at hu
    exact h2 l i a post u e2 hu
  · cases l with
    | nil =>
      simp only [List.nil_append] at e2
      simp only [List.append_nil] at e1
      subst e1
      rw [h, Option.some.injEq] at hu
      subst hu
      exact h2 [] i a post st1 e2.symm rfl
    | cons x l =>
      simp only [List.cons_append, List.cons.injEq] at e2
      obtain ⟨rfl, e2⟩ := e2
      exact h1 pre i a l u e1 hu

/-- Calls, then a Flush, all gentle: the states before and after the Flush. -/
def Fine.round {c : PipeCfg D} (so : Sorter) (o : IndexerOpts) (db : Fin c.stores → List (Str × D))
    (cands : List (FAct c.toPipeSize D)) (i : Fin c.clients)
    (calls : List (Fin c.clients × Call D)) (st : Fine c) : Option (Fine c × Fine c) :=
  (st.gentleRun so o db (st.session so cands calls)).bind (fun u =>
    match u.step so (.pipe (.call i .flush)) with
    | none => none
    | some u1 =>
      (u.gentleRun so o db (.pipe (.call i .flush) :: u1.greedy so cands 300)).bind (fun v =>
        if (List.finRange c.clients).all (fun j => (u.pipe.prog (.client j)).isEmpty) &&
            cands.all (fun a => !a.isNew) && (v.pipe.prog (.client i)).isEmpty then
          some (u, v) else none))

theorem greedy_mem {so : Sorter} {cands : List (FAct c.toPipeSize D)} (n : Nat) : ∀ {st : Fine c},
    ∀ a ∈ st.greedy so cands n, a ∈ cands := by
  induction n with
  | zero => intro st a ha; simp [Fine.greedy] at ha
  | succ n ih =>
    intro st a ha
    unfold Fine.greedy at ha
    cases hf : cands.find? (fun a => (st.step so a).isSome) with
    | none => rw [hf] at ha; simp at ha
    | some b =>
      rw [hf] at ha
      simp only at ha
      split at ha
      · simp at ha
      · rcases List.mem_cons.1 ha with rfl | ha
        · exact List.mem_of_find?_eq_some hf
        · exact ih a ha

theorem fine_round_spec {so : Sorter} {o : IndexerOpts} {db : Fin c.stores → List (Str × D)}
    {cands : List (FAct c.toPipeSize D)} {i : Fin c.clients} {calls : List (Fin c.clients × Call D)}
    {st u v : Fine c} (h : st.round so o db cands i calls = some (u, v)) :
    ∃ as bs, st.run so as = some u ∧ st.Gentle so o db as ∧ u.run so bs = some v ∧ u.Gentle so o db bs ∧
      FlushCompletes i u.pipe v.pipe := by
  unfold Fine.round at h
  obtain ⟨u', h1, h2⟩ := Option.bind_eq_some_iff.1 h
  split at h2
  · simp at h2
  · rename_i u1 hu1
    obtain ⟨v', h3, h4⟩ := Option.bind_eq_some_iff.1 h2
    split at h4
    · rename_i hc
      simp only [Option.some.injEq, Prod.mk.injEq] at h4
      obtain ⟨rfl, rfl⟩ := h4
      simp only [Bool.and_eq_true] at hc
      obtain ⟨⟨c1, c2⟩, c3⟩ := hc
      obtain ⟨g1, g2⟩ := gentleRun_spec _ h1
      obtain ⟨g3, g4⟩ := gentleRun_spec _ h3
      refine ⟨_, _, g1, g2, g3, g4, fine_flush ?_ ?_ g3 (by simpa using c3)⟩
      · intro j
        have := List.all_eq_true.1 c1 j (List.mem_finRange j)
        simpa using this
      · intro j a hm
        have := List.all_eq_true.1 c2 _ (greedy_mem _ _ hm)
        simp [FAct.isNew] at this
    · simp at h4

/-- Index("X", 1), Index("Y", 2), Flush, then Index("X", 3) by one client and RemoveDoc("Y") by
another, Flush: gentle and with discipline, so that the hypotheses of C56 and C57 about the engine
hold; the update has replaced "X" and "Y" is gone. -/
example : ∃ (as : List (FAct oneShard.toPipeSize Nat)) (st : Fine oneShard),
    oneStart.run insSort as = some st ∧
    GentleStart oneShard (smallOpts .docIds 10) (fun _ => []) ∧
    oneStart.Gentle insSort (smallOpts .docIds 10) (fun _ => []) as ∧ st.Done ∧
    (∀ d, d ≠ str "0" → ∃ l, Rounds (fun _ => []) d st.pipe l) ∧
    (∀ d f x g l1 l2, st.pipe.given (fun _ => []) = l1 ++ Call.remove d f :: l2 → Call.index d x g ∉ l2) ∧
    idsOf ((st.shard theShard).abs.lookup (fun x => x) [str "k3"] [] none false) = some [str "X"] ∧
    idsOf ((st.shard theShard).abs.lookup (fun x => x) [str "k2"] [] none false) = some [] := by
  let all : List (FAct oneShard.toPipeSize Nat) := fineCands _ ++ shardCands _
  have h : (oneStart.round insSort (smallOpts .docIds 10) (fun _ => []) all clientA
      [(clientA, .index (str "X") 1 false), (clientA, .index (str "Y") 2 false)]).any (fun p =>
      decide (p.1.pipe.calls = [(clientA, .index (str "X") 1 false), (clientA, .index (str "Y") 2 false)]) &&
      (p.2.round insSort (smallOpts .docIds 10) (fun _ => []) all clientA
        [(clientA, .index (str "X") 3 false), (clientB, .remove (str "Y") false)]).any (fun q =>
        decide (q.1.pipe.calls = p.2.pipe.calls ++ [(clientA, .index (str "X") 3 false), (clientB, .remove (str "Y") false)]) &&
        q.2.doneB &&
        decide (idsOf ((q.2.shard theShard).abs.lookup (fun x => x) [str "k3"] [] none false) = some [str "X"]) &&
        decide (idsOf ((q.2.shard theShard).abs.lookup (fun x => x) [str "k2"] [] none false) = some []))) = true := by
    decide +kernel
  obtain ⟨⟨u1, v1⟩, h1, h⟩ := (Option.any_eq_true _ _).1 h
  simp only [Bool.and_eq_true, decide_eq_true_eq] at h
  obtain ⟨c1, h⟩ := h
  obtain ⟨⟨u2, v2⟩, h2, h⟩ := (Option.any_eq_true _ _).1 h
  simp only [Bool.and_eq_true, decide_eq_true_eq] at h
  obtain ⟨⟨⟨c2, hdone⟩, hx⟩, hy⟩ := h
  obtain ⟨a1, b1, r1, g1, r2, g2, f1⟩ := fine_round_spec h1
  obtain ⟨a2, b2, r3, g3, r4, g4, f2⟩ := fine_round_spec h2
  have k1 : oneStart.run insSort (a1 ++ b1) = some v1 := by rw [fine_run_append, r1]; exact r2
  have k2 : oneStart.run insSort (a1 ++ b1 ++ a2) = some u2 := by rw [fine_run_append, k1]; exact r3
  have k3 : oneStart.run insSort (a1 ++ b1 ++ a2 ++ b2) = some v2 := by rw [fine_run_append, k2]; exact r4
  have hrec : oneShard.recovered (fun _ => []) = [] := by decide +kernel
  have hXY : str "X" ≠ str "Y" := by decide +kernel
  refine ⟨_, v2, k3, ?_, ?_, done_of_B hdone, ?_, ?_, hx, hy⟩
  · intro s; rw [hrec]; simp only [List.map_nil, List.countP_nil]; decide +kernel
  · exact gentle_append k2 (gentle_append k1 (gentle_append r1 g1 g2) g3) g4
  · intro d _
    refine ⟨_, Rounds.next v1.pipe _ _ clientA u2.pipe v2.pipe _ (Rounds.first _ clientA u1.pipe v1.pipe
      (fine_run_coarse a1 _ _ r1) f1 ?_) (fine_run_coarse a2 _ _ r3) f2 c2 ?_⟩
    · rw [c1, hrec]
      by_cases e1 : str "X" = d
      · have e2 : str "Y" ≠ d := by rw [← e1]; exact hXY.symm
        simp [Call.about, e1, e2]
      · by_cases e2 : str "Y" = d <;> simp [Call.about, e1, e2]
    · by_cases e1 : str "X" = d
      · have e2 : str "Y" ≠ d := by rw [← e1]; exact hXY.symm
        simp [Call.about, e1, e2]
      · by_cases e2 : str "Y" = d <;> simp [Call.about, e1, e2]
  · intro d f x g l1 l2 he hm
    have hg : v2.pipe.given (fun _ => []) = [.index (str "X") 1 false, .index (str "Y") 2 false, .flush,
        .index (str "X") 3 false, .remove (str "Y") false, .flush] := by
      unfold Pipe.given
      rw [hrec, f2.calls, c2, f1.calls, c1]
      rfl
    rw [hg] at he
    have hs : (Call.remove d f :: l2) <:+ [.index (str "X") 1 false, .index (str "Y") 2 false, .flush,
        .index (str "X") 3 false, .remove (str "Y") false, .flush] := ⟨l1, he.symm⟩
    simp only [List.suffix_cons_iff, List.cons.injEq, reduceCtorEq, false_and, false_or, List.suffix_nil,
      or_false] at hs
    rw [hs.2] at hm
    simp at hm

end Riot
