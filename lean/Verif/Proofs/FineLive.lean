import Verif.Proofs.FineGentle
import Verif.Proofs.PipelineLive
import Mathlib.Order.WellFounded
import Mathlib.Data.Prod.Lex
import Mathlib.Algebra.Order.BigOperators.Group.Finset

/-!
# Progress and termination of an engine whose index calls overlap
-/

namespace Riot

open Function (update)

variable {D : Type} {c : PipeCfg D}

/-! ## Workers inside an index call are about to return from it -/

structure Linked (db : Fin c.stores → List (Str × D)) (st : Fine c) : Prop where
  reach : Reach db st.pipe
  add : ∀ s, (st.shard s).add ≠ .idle → ∃ op l, st.pipe.prog (.idxAdd s) = .idx s op :: l
  rem : ∀ s, (st.shard s).rem ≠ none → ∃ op l, st.pipe.prog (.idxRem s) = .idx s op :: l

theorem linked_start (c : PipeCfg D) (o : IndexerOpts) (db : Fin c.stores → List (Str × D)) :
    Linked db (Fine.start c o db) where
  reach := (finv_start ⟨id, id⟩ o db).reach
  add := fun s h => absurd rfl h
  rem := fun s h => absurd rfl h

theorem linked_pipe {db : Fin c.stores → List (Str × D)} {st : Fine c} (hl : Linked db st)
    {a : Act c.toPipeSize D} {p : Pipe c} (h0 : st.pipe.atIdx a = false) (h : st.pipe.step a = some p) :
    Linked db { st with pipe := p } := by
  obtain ⟨_, hk⟩ := step_keeps h0 h
  refine ⟨hl.reach.step h, fun s hs => ?_, fun s hs => ?_⟩
  · obtain ⟨op, l, e⟩ := hl.add s hs
    exact ⟨op, l, by simp only; rw [hk (.idxAdd s) _ _ (by simp) e ⟨_, _, rfl⟩, e]⟩
  · obtain ⟨op, l, e⟩ := hl.rem s hs
    exact ⟨op, l, by simp only; rw [hk (.idxRem s) _ _ (by simp) e ⟨_, _, rfl⟩, e]⟩

theorem linked_shard {db : Fin c.stores → List (Str × D)} {st : Fine c} (hl : Linked db st) {s : Fin c.shards}
    {x : CShard} (ha : x.add ≠ .idle → ∃ op l, st.pipe.prog (.idxAdd s) = .idx s op :: l)
    (hr : x.rem ≠ none → ∃ op l, st.pipe.prog (.idxRem s) = .idx s op :: l) : Linked db (st.setShard s x) := by
  refine ⟨hl.reach, fun s' hs => ?_, fun s' hs => ?_⟩
  · by_cases e : s' = s
    · subst e; simp only [Fine.setShard, Function.update_self] at hs; exact ha hs
    · simp only [Fine.setShard, Function.update_of_ne e] at hs; exact hl.add s' hs
  · by_cases e : s' = s
    · subst e; simp only [Fine.setShard, Function.update_self] at hs; exact hr hs
    · simp only [Fine.setShard, Function.update_of_ne e] at hs; exact hl.rem s' hs

theorem step_add_some {so : Sorter} {st x : CShard} (h : st.step so .add = some x) : st.addStep so = some x := by
  simp only [CShard.step] at h
  split at h
  · simp at h
  · exact h

theorem step_rem_some {so : Sorter} {st x : CShard} (h : st.step so .rem = some x) :
    st.remWorkerStep so = some x := by
  simp only [CShard.step] at h
  split at h
  · simp at h
  · exact h

theorem addStep_not_idle {so : Sorter} {st x : CShard} (h : st.addStep so = some x) : st.add ≠ .idle := by
  intro e
  simp [CShard.addStep, e] at h

theorem remStep_not_none {so : Sorter} {st x : CShard} (h : st.remWorkerStep so = some x) : st.rem ≠ none := by
  intro e
  simp [CShard.remWorkerStep, e] at h

theorem begin_add_some {so : Sorter} {st x : CShard} {op : IdxOp} (hop : op.isAdd = true)
    (h : st.step so (.begin op) = some x) :
    st.add = .idle ∧ x.add ≠ .idle ∧ x.rem = st.rem ∧ x.readers = st.readers ∧ x.dead = st.dead := by
  simp only [CShard.step] at h
  split at h
  · simp at h
  · cases op with
    | add d f =>
      simp only at h
      split at h
      · rename_i hi; simp only [Option.some.injEq] at h; subst h; simp [hi]
      · simp at h
    | flush f =>
      simp only at h
      split at h
      · rename_i hi; simp only [Option.some.injEq] at h; subst h; simp [hi]
      · simp at h
    | remove id f => simp [IdxOp.isAdd] at hop

theorem begin_rem_some {so : Sorter} {st x : CShard} {id : Str} {f : Bool}
    (h : st.step so (.begin (.remove id f)) = some x) :
    st.rem = none ∧ x.rem ≠ none ∧ x.add = st.add ∧ x.readers = st.readers ∧ x.dead = st.dead := by
  simp only [CShard.step] at h
  split at h
  · simp at h
  · split at h
    · rename_i hi; simp only [Option.some.injEq] at h; subst h; simp [hi]
    · simp at h

theorem search_some {so : Sorter} {st x : CShard} (h : st.step so .search = some x) :
    x.add = st.add ∧ x.rem = st.rem := by
  simp only [CShard.step] at h
  split at h
  · simp at h
  · simp only [Option.some.injEq] at h; subst h; exact ⟨rfl, rfl⟩

theorem searched_some {so : Sorter} {st x : CShard} (h : st.step so .searched = some x) :
    x.add = st.add ∧ x.rem = st.rem ∧ x.ix = st.ix ∧ x.readers + 1 = st.readers ∧ x.dead = st.dead := by
  simp only [CShard.step] at h
  split at h
  · simp at h
  · rename_i hn
    simp only [Option.some.injEq] at h; subst h
    simp only [not_or] at hn
    exact ⟨rfl, rfl, rfl, by simp only; omega, rfl⟩

theorem linked_step {so : Sorter} {db : Fin c.stores → List (Str × D)} {st st' : Fine c} (hl : Linked db st)
    {a : FAct c.toPipeSize D} (h : st.step so a = some st') : Linked db st' := by
  obtain ⟨hd, hs⟩ := fine_step h
  clear h
  cases hs with
  | pipe a p h0 h he => subst he; exact linked_pipe hl h0 h
  | beginAdd s op x hop hn h he =>
    subst he
    obtain ⟨h1, h2, h3, _⟩ := begin_add_some hop h
    obtain ⟨s', l, hp⟩ := nextIdx_some hn
    obtain ⟨rfl, _⟩ := idx_add_prog hl.reach hp
    exact linked_shard hl (fun _ => ⟨_, _, hp⟩) (fun hr => hl.rem _ (by rwa [h3] at hr))
  | beginRem s id f x hn h he =>
    subst he
    obtain ⟨h1, h2, h3, _⟩ := begin_rem_some h
    obtain ⟨s', l, hp⟩ := nextIdx_some hn
    obtain ⟨rfl, _⟩ := idx_rem_prog hl.reach hp
    exact linked_shard hl (fun hr => hl.add _ (by rwa [h3] at hr)) (fun _ => ⟨_, _, hp⟩)
  | add s x h hb he =>
    subst he
    have h' := step_add_some h
    exact linked_shard hl (fun _ => hl.add _ (addStep_not_idle h'))
      (fun hr => hl.rem _ (by rwa [addStep_rem h'] at hr))
  | addRet s x p h hb hp he =>
    subst he
    have h' := step_add_some h
    obtain ⟨op, l, e⟩ := hl.add s (addStep_not_idle h')
    have hpe := step_return e hp
    subst hpe
    refine ⟨hl.reach.step hp, fun s' hs => ?_, fun s' hs => ?_⟩
    · by_cases e' : s' = s
      · subst e'; simp only [Function.update_self] at hs; exact absurd hb hs
      · simp only [Function.update_of_ne e'] at hs
        obtain ⟨op', l', e2⟩ := hl.add s' hs
        exact ⟨op', l', by simp only; rw [Function.update_of_ne (by simpa using e'), e2]⟩
    · have hs' : (st.shard s').rem ≠ none := by
        by_cases e' : s' = s
        · subst e'; simp only [Function.update_self] at hs; rwa [addStep_rem h'] at hs
        · simpa only [Function.update_of_ne e'] using hs
      obtain ⟨op', l', e2⟩ := hl.rem s' hs'
      exact ⟨op', l', by simp only; rw [Function.update_of_ne (by simp), e2]⟩
  | rem s x h hb he =>
    subst he
    have h' := step_rem_some h
    exact linked_shard hl (fun hr => hl.add _ (by rwa [remWorker_add h'] at hr))
      (fun _ => hl.rem _ (remStep_not_none h'))
  | remRet s x p h hb hp he =>
    subst he
    have h' := step_rem_some h
    obtain ⟨op, l, e⟩ := hl.rem s (remStep_not_none h')
    have hpe := step_return e hp
    subst hpe
    refine ⟨hl.reach.step hp, fun s' hs => ?_, fun s' hs => ?_⟩
    · have hs' : (st.shard s').add ≠ .idle := by
        by_cases e' : s' = s
        · subst e'; simp only [Function.update_self] at hs; rwa [remWorker_add h'] at hs
        · simpa only [Function.update_of_ne e'] using hs
      obtain ⟨op', l', e2⟩ := hl.add s' hs'
      exact ⟨op', l', by simp only; rw [Function.update_of_ne (by simp), e2]⟩
    · by_cases e' : s' = s
      · subst e'; simp only [Function.update_self] at hs; exact absurd hb hs
      · simp only [Function.update_of_ne e'] at hs
        obtain ⟨op', l', e2⟩ := hl.rem s' hs
        exact ⟨op', l', by simp only; rw [Function.update_of_ne (by simpa using e'), e2]⟩
  | search s x h he =>
    subst he
    obtain ⟨h1, h2⟩ := search_some h
    exact linked_shard hl (fun hr => hl.add _ (by rwa [h1] at hr)) (fun hr => hl.rem _ (by rwa [h2] at hr))
  | searched s x h he =>
    subst he
    obtain ⟨h1, h2, _⟩ := searched_some h
    exact linked_shard hl (fun hr => hl.add _ (by rwa [h1] at hr)) (fun hr => hl.rem _ (by rwa [h2] at hr))

theorem linked_run {so : Sorter} {db : Fin c.stores → List (Str × D)} (as : List (FAct c.toPipeSize D)) :
    ∀ {st st' : Fine c}, Linked db st → st.run so as = some st' → Linked db st' := by
  induction as with
  | nil => intro st st' hl h; simp [Fine.run] at h; subst h; exact hl
  | cons a l ih =>
    intro st st' hl h
    simp only [Fine.run] at h
    obtain ⟨st1, h1, h2⟩ := Option.bind_eq_some_iff.1 h
    exact ih (linked_step hl h1) h2

/-! ## Progress -/

theorem idx_thread {db : Fin c.stores → List (Str × D)} {st : Pipe c} (h : Reach db st)
    {t : Thread c.toPipeSize} {s : Fin c.shards} {op : IdxOp} {l : List (Micro c.toPipeSize D)}
    (hp : st.prog t = .idx s op :: l) : t = .idxAdd s ∨ t = .idxRem s := by
  have ho := h.origin t
  rw [hp] at ho
  have hm : (Micro.idx s op : Micro c.toPipeSize D) ∈ (Micro.idx s op :: l : List (Micro c.toPipeSize D)) :=
    List.mem_cons_self
  cases t with
  | idxAdd s' => left; rw [(idx_add_prog h hp).1]
  | idxRem s' => right; rw [(idx_rem_prog h hp).1]
  | client i =>
    obtain ⟨a, ha⟩ := ho
    exact absurd (call_ok a _ (ha.subset hm)) (by simp [Micro.clientOk])
  | init m =>
    have hmem := ho.subset hm
    simp only [Pipe.start] at hmem
    split at hmem
    · obtain ⟨x, _, hx⟩ := List.mem_flatMap.1 hmem
      exact absurd (internalIndex_ok _ _ _ _ hx) (by simp [Micro.clientOk])
    · simp at hmem
  | seg j =>
    obtain ⟨q, m, hq, ho⟩ := ho
    simp only [Thread.input, Option.some.injEq] at hq
    subst hq
    obtain ⟨_, _, e, _⟩ := expand_seg m _ (ho.subset hm)
    simp at e
  | rankAdd s' =>
    obtain ⟨q, m, hq, ho⟩ := ho
    simp only [Thread.input, Option.some.injEq] at hq
    subst hq
    have := ho.subset hm
    cases m <;> simp [PipeCfg.expand] at this
  | rankRem s' =>
    obtain ⟨q, m, hq, ho⟩ := ho
    simp only [Thread.input, Option.some.injEq] at hq
    subst hq
    have := ho.subset hm
    cases m <;> simp [PipeCfg.expand] at this
  | store m' =>
    obtain ⟨q, m, hq, ho⟩ := ho
    simp only [Thread.input, Option.some.injEq] at hq
    subst hq
    have := ho.subset hm
    cases m <;> simp [PipeCfg.expand] at this
    split at this <;> simp at this

theorem step_pipe {so : Sorter} {st : Fine c} {a : Act c.toPipeSize D} (hd : st.dead = false)
    (h0 : st.pipe.atIdx a = false) : st.step so (.pipe a) = (st.pipe.step a).map (fun p => { st with pipe := p }) := by
  unfold Fine.step
  rw [if_neg (by simp [hd])]
  simp only
  rw [if_neg (by simp [h0])]

/-- A shard that is not crossed and whose engine is stuck is idle and serves no search. -/
theorem stuck_shard {so : Sorter} {db : Fin c.stores → List (Str × D)} {st : Fine c} (hl : Linked db st)
    (hd : st.dead = false) (h : st.Stuck so) (s : Fin c.shards) (hx : ¬ (st.shard s).crossed) :
    st.ShardIdle s ∧ (st.shard s).readers = 0 := by
  have hds := not_dead_iff.1 hd s
  have hr : (st.shard s).readers = 0 := by
    by_contra hr
    have := h (.searched s) rfl
    unfold Fine.step at this
    rw [if_neg (by simp [hd])] at this
    simp [Fine.onShard, CShard.step, hds, hr] at this
  refine ⟨?_, hr⟩
  by_contra hni
  have hb : (st.shard s).Busy := by
    by_cases e : (st.shard s).add = .idle
    · right; intro e2; exact hni ⟨e, e2⟩
    · left; exact e
  refine hx (blocked_crossed (so := so) hds hr hb ?_ ?_)
  · cases hs : (st.shard s).step so .add with
    | none => rfl
    | some x =>
      exfalso
      have := h (.add s) rfl
      unfold Fine.step at this
      rw [if_neg (by simp [hd])] at this
      simp only [Fine.onShard, hs, Option.map_some, Option.bind_some] at this
      split at this
      · obtain ⟨op, l, e⟩ := hl.add s (addStep_not_idle (step_add_some hs))
        simp [Fine.return, Fine.setShard, Pipe.step, e, Pipe.exec] at this
      · simp at this
  · cases hs : (st.shard s).step so .rem with
    | none => rfl
    | some x =>
      exfalso
      have := h (.rem s) rfl
      unfold Fine.step at this
      rw [if_neg (by simp [hd])] at this
      simp only [Fine.onShard, hs, Option.map_some, Option.bind_some] at this
      split at this
      · obtain ⟨op, l, e⟩ := hl.rem s (remStep_not_none (step_rem_some hs))
        simp [Fine.return, Fine.setShard, Pipe.step, e, Pipe.exec] at this
      · simp at this

/-- **No deadlock but the crossed locks of a shard.** -/
theorem fine_stuck {so : Sorter} (hz : c.toPipeSize.Ok) {db : Fin c.stores → List (Str × D)} {st : Fine c}
    (hl : Linked db st) (hd : st.dead = false) (hx : ∀ s, ¬ (st.shard s).crossed) (h : st.Stuck so) :
    st.pipe.inited = true ∧ st.pipe.Quiet ∧ ∀ s, st.ShardIdle s ∧ (st.shard s).readers = 0 := by
  have hs := fun s => stuck_shard hl hd h s (hx s)
  have hp : st.pipe.Stuck := by
    intro a ha
    cases hat : st.pipe.atIdx a with
    | false =>
      have := h (.pipe a) (by cases a <;> simp_all [FAct.isNew, Act.isCall])
      rw [step_pipe hd hat] at this
      simpa using this
    | true =>
      exfalso
      cases a with
      | run t =>
        simp only [Pipe.atIdx] at hat
        obtain ⟨op, hop⟩ := Option.isSome_iff_exists.1 hat
        obtain ⟨s, l, hpr⟩ := nextIdx_some hop
        have hds := not_dead_iff.1 hd s
        rcases idx_thread hl.reach hpr with rfl | rfl
        · have hadd := (idx_add_prog hl.reach hpr).2
          have := h (.beginAdd s) rfl
          unfold Fine.step at this
          rw [if_neg (by simp [hd])] at this
          simp only [hop] at this
          cases op with
          | add d f => simp [Fine.onShard, CShard.step, hds, (hs s).1.1] at this
          | flush f => simp [Fine.onShard, CShard.step, hds, (hs s).1.1] at this
          | remove id f => simp [IdxOp.isAdd] at hadd
        · have hadd := (idx_rem_prog hl.reach hpr).2
          have := h (.beginRem s) rfl
          unfold Fine.step at this
          rw [if_neg (by simp [hd])] at this
          simp only [hop] at this
          cases op with
          | add d f => simp [IdxOp.isAdd] at hadd
          | flush f => simp [IdxOp.isAdd] at hadd
          | remove id f => simp [Fine.onShard, CShard.step, hds, (hs s).1.2] at this
      | _ => simp [Pipe.atIdx] at hat
  obtain ⟨h1, h2⟩ := stuck_quiet hz hl.reach hp
  exact ⟨h1, h2, hs⟩

/-! ## Termination -/

/-- Work left on a shard, searches included. -/
def CShard.load (x : CShard) : Nat := x.work + x.readers

def CShard.idlers (x : CShard) : Nat :=
  (match x.add with | .idle => 1 | _ => 0) + (match x.rem with | none => 1 | some _ => 0)

/-- What is left to do. -/
def Fine.left (st : Fine c) : Nat ×ₗ Nat ×ₗ Nat ×ₗ Nat :=
  toLex (if st.dead then 0 else 1, toLex (st.pipe.work, toLex (∑ s, (st.shard s).idlers, ∑ s, (st.shard s).load)))

theorem sum_update_lt {n : Nat} (f : Fin n → CShard) (s : Fin n) (x : CShard) (g : CShard → Nat)
    (h : g x < g (f s)) : ∑ i, g (update f s x i) < ∑ i, g (f i) := by
  apply Finset.sum_lt_sum
  · intro i _
    by_cases e : i = s
    · subst e; simp; omega
    · simp [update, e]
  · exact ⟨s, Finset.mem_univ s, by simpa using h⟩

theorem sum_update_le {n : Nat} (f : Fin n → CShard) (s : Fin n) (x : CShard) (g : CShard → Nat)
    (h : g x = g (f s)) : ∑ i, g (update f s x i) = ∑ i, g (f i) := by
  apply Finset.sum_congr rfl
  intro i _
  by_cases e : i = s
  · subst e; simpa using h
  · simp [update, e]

theorem left_lt {st st' : Fine c} (hd : st.dead = false)
    (h : st'.dead = true ∨ st'.pipe.work < st.pipe.work ∨ (st'.pipe.work = st.pipe.work ∧
      (∑ s, (st'.shard s).idlers < ∑ s, (st.shard s).idlers ∨
        (∑ s, (st'.shard s).idlers = ∑ s, (st.shard s).idlers ∧
          ∑ s, (st'.shard s).load < ∑ s, (st.shard s).load)))) : st'.left < st.left := by
  unfold Fine.left
  rw [Prod.Lex.toLex_lt_toLex]
  cases hd' : st'.dead with
  | true => left; simp [hd]
  | false =>
    right
    refine ⟨by simp [hd], ?_⟩
    rw [Prod.Lex.toLex_lt_toLex]
    rcases h with h | h | ⟨h1, h⟩
    · rw [hd'] at h; simp at h
    · exact Or.inl h
    · right
      refine ⟨h1, ?_⟩
      rw [Prod.Lex.toLex_lt_toLex]
      rcases h with h | ⟨h2, h⟩
      · exact Or.inl h
      · exact Or.inr ⟨h2, h⟩

theorem dead_of_shard {st : Fine c} {s : Fin c.shards} (h : (st.shard s).dead = true) : st.dead = true := by
  by_contra hn
  rw [not_dead_iff.1 (by simpa using hn) s] at h
  simp at h

/-- Every step that starts nothing decreases what is left. -/
theorem left_step {so : Sorter} {st st' : Fine c} {a : FAct c.toPipeSize D} (hn : a.isNew = false)
    (h : st.step so a = some st') : st'.left < st.left := by
  obtain ⟨hd, hs⟩ := fine_step h
  clear h
  apply left_lt hd
  cases hs with
  | pipe a p h0 h he =>
    subst he
    have := work_step _ _ a (by cases a <;> simp_all [FAct.isNew, Act.isCall]) h
    right; left; simp only; omega
  | beginAdd s op x hop hn' h he =>
    subst he
    obtain ⟨h1, h2, h3, _⟩ := begin_add_some hop h
    right; right
    refine ⟨rfl, Or.inl ?_⟩
    apply sum_update_lt
    unfold CShard.idlers
    rw [h1, h3]
    split
    · exact absurd ‹_› h2
    · split <;> omega
  | beginRem s id f x hn' h he =>
    subst he
    obtain ⟨h1, h2, h3, _⟩ := begin_rem_some h
    right; right
    refine ⟨rfl, Or.inl ?_⟩
    apply sum_update_lt
    unfold CShard.idlers
    rw [h1, h3]
    cases hx : x.rem with
    | none => exact absurd hx h2
    | some pc => simp
  | add s x h hb he =>
    subst he
    have h' := step_add_some h
    obtain ⟨e1, e2, e3⟩ := addStep_work h'
    rcases e3 with e3 | e3
    · left; exact dead_of_shard (s := s) (by simpa [Fine.setShard] using e3)
    · right; right
      refine ⟨rfl, Or.inr ⟨?_, ?_⟩⟩
      · apply sum_update_le
        unfold CShard.idlers
        rw [e1]
        have := addStep_not_idle h'
        cases hx : x.add <;> cases hy : (st.shard s).add <;> simp_all [AddPC.busy]
      · apply sum_update_lt
        unfold CShard.load CShard.work
        rw [e1, e2]
        omega
  | addRet s x p h hb hp he =>
    subst he
    have := work_step _ _ _ rfl hp
    right; left; simp only; omega
  | rem s x h hb he =>
    subst he
    have h' := step_rem_some h
    obtain ⟨e1, e2, e3, e4⟩ := remWorkerStep_work h'
    right; right
    refine ⟨rfl, Or.inr ⟨?_, ?_⟩⟩
    · apply sum_update_le
      unfold CShard.idlers
      rw [remWorker_add h']
      have := remStep_not_none h'
      cases hx : x.rem <;> cases hy : (st.shard s).rem <;> simp_all
    · apply sum_update_lt
      unfold CShard.load
      omega
  | remRet s x p h hb hp he =>
    subst he
    have := work_step _ _ _ rfl hp
    right; left; simp only; omega
  | search s x h he => simp [FAct.isNew] at hn
  | searched s x h he =>
    subst he
    obtain ⟨h1, h2, h3, h4, _⟩ := searched_some h
    right; right
    refine ⟨rfl, Or.inr ⟨?_, ?_⟩⟩
    · apply sum_update_le
      unfold CShard.idlers
      rw [h1, h2]
    · apply sum_update_lt
      unfold CShard.load CShard.work
      rw [h1, h2, h3]
      omega

/-- **Termination**: there is no infinite execution in which nothing new is started. -/
theorem fine_terminates {so : Sorter} (st : Nat → Fine c) (a : Nat → FAct c.toPipeSize D)
    (hn : ∀ n, (a n).isNew = false) : ¬ ∀ n, (st n).step so (a n) = some (st (n + 1)) := by
  intro h
  obtain ⟨n, hn'⟩ := WellFounded.not_rel_apply_succ (r := (· < ·)) (fun n => (st n).left)
  exact hn' (left_step (hn n) (h n))

end Riot
