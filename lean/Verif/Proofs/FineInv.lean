import Verif.Proofs.Fine

/-!
# An engine whose shards never refresh during a removal behaves as one with atomic index calls
-/

namespace Riot

open Function (update)

variable {D : Type} {c : PipeCfg D}

/-! ## Which threads execute index calls -/

theorem idx_suffix_add {s s' : Fin c.shards} {op : IdxOp} {l : List (Micro c.toPipeSize D)} {m : Msg D}
    (h : (.idx s' op :: l) <:+ c.expand (.idxAdd s) m) :
    s' = s ∧ op.isAdd = true ∧ c.expand (.idxAdd s) m = .idx s' op :: l := by
  have hmem : ∀ (x : Micro c.toPipeSize D) (xs : List (Micro c.toPipeSize D)) (y : Micro c.toPipeSize D)
      (ys : List (Micro c.toPipeSize D)), (y :: ys) <:+ (x :: xs) → y ∉ xs → x = y ∧ xs = ys := by
    intro x xs y ys h hn
    rcases List.suffix_cons_iff.1 h with e | e
    · simp only [List.cons.injEq] at e; exact ⟨e.1.symm, e.2.symm⟩
    · exact absurd (e.subset List.mem_cons_self) hn
  cases m with
  | add doc f =>
    cases doc with
    | none =>
      simp only [PipeCfg.expand] at h ⊢
      obtain ⟨e1, e2⟩ := hmem _ _ _ _ h (by split <;> simp)
      simp only [Micro.idx.injEq] at e1
      obtain ⟨rfl, rfl⟩ := e1
      exact ⟨rfl, rfl, by rw [e2]⟩
    | some x =>
      simp only [PipeCfg.expand, List.cons_append] at h ⊢
      obtain ⟨e1, e2⟩ := hmem _ _ _ _ h (by split <;> simp)
      simp only [Micro.idx.injEq] at e1
      obtain ⟨rfl, rfl⟩ := e1
      exact ⟨rfl, rfl, by rw [e2]⟩
  | _ => simp [PipeCfg.expand] at h

theorem idx_suffix_rem {s s' : Fin c.shards} {op : IdxOp} {l : List (Micro c.toPipeSize D)} {m : Msg D}
    (h : (.idx s' op :: l) <:+ c.expand (.idxRem s) m) :
    s' = s ∧ op.isAdd = false ∧ c.expand (.idxRem s) m = .idx s' op :: l := by
  have hmem : ∀ (x : Micro c.toPipeSize D) (xs : List (Micro c.toPipeSize D)) (y : Micro c.toPipeSize D)
      (ys : List (Micro c.toPipeSize D)), (y :: ys) <:+ (x :: xs) → y ∉ xs → x = y ∧ xs = ys := by
    intro x xs y ys h hn
    rcases List.suffix_cons_iff.1 h with e | e
    · simp only [List.cons.injEq] at e; exact ⟨e.1.symm, e.2.symm⟩
    · exact absurd (e.subset List.mem_cons_self) hn
  cases m with
  | rem id f =>
    simp only [PipeCfg.expand, List.cons_append] at h ⊢
    obtain ⟨e1, e2⟩ := hmem _ _ _ _ h (by split <;> split <;> simp)
    simp only [Micro.idx.injEq] at e1
    obtain ⟨rfl, rfl⟩ := e1
    exact ⟨rfl, rfl, by rw [e2]⟩
  | _ => simp [PipeCfg.expand] at h

theorem idx_add_prog {db : Fin c.stores → List (Str × D)} {st : Pipe c} (h : Reach db st) {s s' : Fin c.shards}
    {op : IdxOp} {l : List (Micro c.toPipeSize D)} (hp : st.prog (.idxAdd s) = .idx s' op :: l) :
    s' = s ∧ op.isAdd = true := by
  obtain ⟨q, m, hq, ho⟩ := h.origin (.idxAdd s)
  simp only [Thread.input, Option.some.injEq] at hq
  subst hq
  rw [hp] at ho
  exact ⟨(idx_suffix_add ho).1, (idx_suffix_add ho).2.1⟩

theorem idx_rem_prog {db : Fin c.stores → List (Str × D)} {st : Pipe c} (h : Reach db st) {s s' : Fin c.shards}
    {op : IdxOp} {l : List (Micro c.toPipeSize D)} (hp : st.prog (.idxRem s) = .idx s' op :: l) :
    s' = s ∧ op.isAdd = false := by
  obtain ⟨q, m, hq, ho⟩ := h.origin (.idxRem s)
  simp only [Thread.input, Option.some.injEq] at hq
  subst hq
  rw [hp] at ho
  exact ⟨(idx_suffix_rem ho).1, (idx_suffix_rem ho).2.1⟩

/-! ## The invariant -/

/-- Shard `s`: `base` is the index after the calls in the log. -/
structure ShardRel (so : Sorter) (o : IndexerOpts) (st : Fine c) (s : Fin c.shards) (base : Indexer)
    (a r : Option IdxOp) : Prop where
  log : (Indexer.init o).run so (st.pipe.idxLog s) = some base
  rel : Rel so (st.shard s) base a r
  add : ∀ op, a = some op → ∃ l, st.pipe.prog (.idxAdd s) = .idx s op :: l
  rem : ∀ op, r = some op → ∃ l, st.pipe.prog (.idxRem s) = .idx s op :: l

structure FInv (so : Sorter) (o : IndexerOpts) (db : Fin c.stores → List (Str × D)) (st : Fine c) : Prop where
  reach : Reach db st.pipe
  alive : ∀ s, (st.shard s).dead = false → ∃ base a r, ShardRel so o st s base a r
  dead : ∀ s, (st.shard s).dead = true → ∃ t p, st.pipe.step (.run t) = some p ∧
    (Indexer.init o).run so (p.idxLog s) = none

theorem not_dead_iff {st : Fine c} : st.dead = false ↔ ∀ s, (st.shard s).dead = false := by
  unfold Fine.dead
  rw [List.any_eq_false]
  constructor
  · intro h s
    have := h s (List.mem_finRange s)
    simpa using this
  · intro h s _
    simp [h s]

theorem rel_init (so : Sorter) (o : IndexerOpts) : Rel so (CShard.init o) (Indexer.init o) none none := by
  refine ⟨⟨⟨?_, ?_, ?_⟩, ?_, ?_⟩, rfl, ?_, ?_, ?_⟩
  all_goals first
    | exact AddRel.idle none rfl (by simp [CShard.remRes, CShard.init, Indexer.stepOpt, CShard.abs, Indexer.init])
    | simp [CShard.init, CShard.addSlice, Indexer.init]

theorem finv_start (so : Sorter) (o : IndexerOpts) (db : Fin c.stores → List (Str × D)) :
    FInv so o db (Fine.start c o db) := by
  refine ⟨⟨[], rfl⟩, fun s _ => ⟨Indexer.init o, none, none, rfl, rel_init so o, ?_, ?_⟩, fun s h => ?_⟩
  · simp
  · simp
  · simp [Fine.start, CShard.init] at h

/-- A shard is not affected. -/
theorem ShardRel.frame {so : Sorter} {o : IndexerOpts} {st st' : Fine c} {s : Fin c.shards} {base : Indexer}
    {a r : Option IdxOp} (h : ShardRel so o st s base a r) (h1 : st'.shard s = st.shard s)
    (h2 : st'.pipe.idxLog s = st.pipe.idxLog s)
    (h3 : st'.pipe.prog (.idxAdd s) = st.pipe.prog (.idxAdd s))
    (h4 : st'.pipe.prog (.idxRem s) = st.pipe.prog (.idxRem s)) : ShardRel so o st' s base a r :=
  ⟨by rw [h2]; exact h.log, by rw [h1]; exact h.rel, by rw [h3]; exact h.add, by rw [h4]; exact h.rem⟩

theorem run_idx {st : Pipe c} {t : Thread c.toPipeSize} {s : Fin c.shards} {op : IdxOp}
    {l : List (Micro c.toPipeSize D)} (hp : st.prog t = .idx s op :: l) :
    st.step (.run t) =
      some { st with prog := update st.prog t l, idxLog := update st.idxLog s (st.idxLog s ++ [op]), seen := update st.seen t st.count } := by
  simp only [Pipe.step, hp, Pipe.exec]

/-- A shard acts, no call returns. -/
theorem finv_shard {so : Sorter} (hso : SortOk so) {o : IndexerOpts} {db : Fin c.stores → List (Str × D)}
    {st : Fine c} (hI : FInv so o db st) (hd : st.dead = false) {s : Fin c.shards} {x : SAct} {y : CShard}
    (h : (st.shard s).step so x = some y) (hc : ¬ y.Clash)
    (hadd : ∀ op, x = .begin op → op.isAdd = true → ∃ l, st.pipe.prog (.idxAdd s) = .idx s op :: l)
    (hrem : ∀ op, x = .begin op → op.isAdd = false → ∃ l, st.pipe.prog (.idxRem s) = .idx s op :: l)
    (hend : ∀ a r, endedCall a r y x = []) : FInv so o db (st.setShard s y) := by
  have hds := not_dead_iff.1 hd
  obtain ⟨base, a, r, hS⟩ := hI.alive s (hds s)
  have hsame : ∀ s', s' ≠ s → (st.setShard s y).shard s' = st.shard s' := by
    intro s' hs; simp [Fine.setShard, update, hs]
  have hself : (st.setShard s y).shard s = y := by simp [Fine.setShard]
  refine ⟨hI.reach, fun s' hd' => ?_, fun s' hd' => ?_⟩
  · by_cases e : s' = s
    · subst e
      rw [hself] at hd'
      rcases step_rel hso hS.rel hc h with ⟨g, _⟩ | ⟨_, base', g2, g3⟩
      · rw [hd'] at g; simp at g
      · rw [hend] at g2
        simp only [Indexer.run, Option.some.injEq] at g2
        subst g2
        refine ⟨base, _, _, hS.log, by rw [hself]; exact g3, fun op ho => ?_, fun op ho => ?_⟩
        · cases x with
          | begin op' =>
            cases op' with
            | remove id f => exact hS.add op ho
            | add d f =>
              simp only [nextAdd, Option.some.injEq] at ho
              subst ho; exact hadd _ rfl rfl
            | flush f =>
              simp only [nextAdd, Option.some.injEq] at ho
              subst ho; exact hadd _ rfl rfl
          | add =>
            simp only [nextAdd] at ho
            split at ho
            · exact hS.add op ho
            · simp at ho
          | _ => exact hS.add op ho
        · cases x with
          | begin op' =>
            cases op' with
            | remove id f =>
              simp only [nextRem, Option.some.injEq] at ho
              subst ho; exact hrem _ rfl rfl
            | add d f => exact hS.rem op ho
            | flush f => exact hS.rem op ho
          | rem =>
            simp only [nextRem] at ho
            split at ho
            · exact hS.rem op ho
            · simp at ho
          | _ => exact hS.rem op ho
    · rw [hsame s' e] at hd'
      obtain ⟨b', a', r', hS'⟩ := hI.alive s' hd'
      exact ⟨b', a', r', hS'.frame (hsame s' e) rfl rfl rfl⟩
  · by_cases e : s' = s
    · subst e
      rw [hself] at hd'
      rcases step_rel hso hS.rel hc h with ⟨_, _, op, ho, hn⟩ | ⟨g, _⟩
      · have key : ∀ t l, st.pipe.prog t = .idx s' op :: l → ∃ t p, (st.setShard s' y).pipe.step (.run t) = some p ∧
            (Indexer.init o).run so (p.idxLog s') = none := by
          intro t l hp
          refine ⟨t, _, run_idx (st := st.pipe) hp, ?_⟩
          simp only [Function.update_self]
          rw [indexer_run_append, hS.log]
          simp [Indexer.run, hn]
        rcases ho with ⟨_, ho⟩ | ⟨_, ho⟩
        · obtain ⟨l, hp⟩ := hS.add op ho; exact key _ l hp
        · obtain ⟨l, hp⟩ := hS.rem op ho; exact key _ l hp
      · rw [hd'] at g; simp at g
    · rw [hsame s' e, hds s'] at hd'; simp at hd'

/-- A call of the shard returns. -/
theorem finv_return {so : Sorter} (hso : SortOk so) {o : IndexerOpts} {db : Fin c.stores → List (Str × D)}
    {st : Fine c} (hI : FInv so o db st) (hd : st.dead = false) {s : Fin c.shards} {x : SAct} {y : CShard}
    (h : (st.shard s).step so x = some y) (hc : ¬ y.Clash)
    (hx : x = .add ∧ y.add = .idle ∨ x = .rem ∧ y.rem = none) {t : Thread c.toPipeSize}
    (ht : x = .add ∧ t = .idxAdd s ∨ x = .rem ∧ t = .idxRem s) {p : Pipe c}
    (hp : st.pipe.step (.run t) = some p) : FInv so o db { pipe := p, shard := update st.shard s y } := by
  have hds := not_dead_iff.1 hd
  obtain ⟨base, a, r, hS⟩ := hI.alive s (hds s)
  have key : ∃ op l, st.pipe.prog t = .idx s op :: l ∧ endedCall a r y x = [op] ∧
      (x = .add → nextAdd a y x = none ∧ nextRem r y x = r) ∧ (x = .rem → nextAdd a y x = a ∧ nextRem r y x = none) := by
    rcases hx with ⟨rfl, hi⟩ | ⟨rfl, hi⟩
    · have ht' : t = .idxAdd s := by rcases ht with ⟨_, h⟩ | ⟨h, _⟩; exacts [h, by simp at h]
      subst ht'
      have ha : ∃ op, a = some op := by
        cases a with
        | some op => exact ⟨op, rfl⟩
        | none =>
          exfalso
          have := hS.rel.add
          cases hA : (st.shard s).add with
          | idle =>
            simp only [CShard.step, hds s, CShard.addStep, hA] at h
            simp at h
          | _ => rw [hA] at this; cases this
      obtain ⟨op, rfl⟩ := ha
      obtain ⟨l, hl⟩ := hS.add op rfl
      refine ⟨op, l, hl, ?_, fun _ => ?_, fun h => by simp at h⟩
      · simp [endedCall, hi, AddPC.busy]
      · simp [nextAdd, nextRem, hi, AddPC.busy]
    · have ht' : t = .idxRem s := by rcases ht with ⟨h, _⟩ | ⟨_, h⟩; exacts [by simp at h, h]
      subst ht'
      have ha : ∃ op, r = some op := by
        cases r with
        | some op => exact ⟨op, rfl⟩
        | none =>
          exfalso
          have hr := hS.rel.remNone.2 rfl
          simp only [CShard.step, hds s, CShard.remWorkerStep, hr] at h
          simp at h
      obtain ⟨op, rfl⟩ := ha
      obtain ⟨l, hl⟩ := hS.rem op rfl
      refine ⟨op, l, hl, ?_, fun h => by simp at h, fun _ => ?_⟩
      · simp [endedCall, hi]
      · simp [nextAdd, nextRem, hi]
  obtain ⟨op, l, hl, hend, hn1, hn2⟩ := key
  have hpe : p = { st.pipe with prog := update st.pipe.prog t l,
                                idxLog := update st.pipe.idxLog s (st.pipe.idxLog s ++ [op]), seen := update st.pipe.seen t st.pipe.count } := step_return hl hp
  have hreach : Reach db p := hI.reach.step hp
  have halive : y.dead = false ∧ ∃ base', base.run so [op] = some base' ∧
      Rel so y base' (nextAdd a y x) (nextRem r y x) := by
    rcases step_rel hso hS.rel hc h with ⟨_, he, _⟩ | ⟨g1, base', g2, g3⟩
    · rw [hend] at he; simp at he
    · rw [hend] at g2; exact ⟨g1, base', g2, g3⟩
  obtain ⟨hyd, base', hb, hR⟩ := halive
  refine ⟨hreach, fun s' hd' => ?_, fun s' hd' => ?_⟩
  · by_cases e : s' = s
    · subst e
      refine ⟨base', nextAdd a y x, nextRem r y x, ?_, by simpa using hR, ?_, ?_⟩
      · rw [hpe]
        simp only [Function.update_self]
        rw [indexer_run_append, hS.log]
        exact hb
      · intro op' ho
        rcases ht with ⟨hxa, rfl⟩ | ⟨hxa, rfl⟩
        · rw [(hn1 hxa).1] at ho; simp at ho
        · rw [(hn2 hxa).1] at ho
          obtain ⟨l', hl'⟩ := hS.add op' ho
          refine ⟨l', ?_⟩
          rw [hpe]
          simpa [update] using hl'
      · intro op' ho
        rcases ht with ⟨hxa, rfl⟩ | ⟨hxa, rfl⟩
        · rw [(hn1 hxa).2] at ho
          obtain ⟨l', hl'⟩ := hS.rem op' ho
          refine ⟨l', ?_⟩
          rw [hpe]
          simpa [update] using hl'
        · rw [(hn2 hxa).2] at ho; simp at ho
    · simp only [update, e, dif_neg, not_false_eq_true] at hd'
      obtain ⟨b', a', r', hS'⟩ := hI.alive s' hd'
      refine ⟨b', a', r', hS'.frame (by simp [update, e]) ?_ ?_ ?_⟩
      · rw [hpe]; simp [update, e]
      · rw [hpe]
        rcases ht with ⟨_, rfl⟩ | ⟨_, rfl⟩ <;> simp [update, e]
      · rw [hpe]
        rcases ht with ⟨_, rfl⟩ | ⟨_, rfl⟩ <;> simp [update, e]
  · by_cases e : s' = s
    · subst e; simp [hyd] at hd'
    · simp [update, e, hds s'] at hd'

theorem finv_step {so : Sorter} (hso : SortOk so) {o : IndexerOpts} {db : Fin c.stores → List (Str × D)}
    {st st' : Fine c} {x : FAct c.toPipeSize D} (hI : FInv so o db st) (h : st.step so x = some st')
    (hc : ∀ s, ¬ (st'.shard s).Clash) : FInv so o db st' := by
  obtain ⟨hd, hs⟩ := fine_step h
  have hself : ∀ s (y : CShard), (st.setShard s y).shard s = y := by intro s y; simp [Fine.setShard]
  have hback : ∀ (a r : Option IdxOp) (y : CShard), y.add.busy = true → endedCall a r y .add = [] := by
    intro a r y hb; simp [endedCall, hb]
  cases hs with
  | pipe a p h0 hp he =>
    subst he
    obtain ⟨hk1, hk2⟩ := step_keeps h0 hp
    refine ⟨hI.reach.step hp, fun s hs => ?_, fun s hs => ?_⟩
    · obtain ⟨b, a', r, hS⟩ := hI.alive s hs
      refine ⟨b, a', r, by rw [hk1]; exact hS.log, hS.rel, fun op ho => ?_, fun op ho => ?_⟩
      · obtain ⟨l, hl⟩ := hS.add op ho
        exact ⟨l, by rw [hk2 _ _ _ (by simp) hl ⟨_, _, rfl⟩]; exact hl⟩
      · obtain ⟨l, hl⟩ := hS.rem op ho
        exact ⟨l, by rw [hk2 _ _ _ (by simp) hl ⟨_, _, rfl⟩]; exact hl⟩
    · simp only [(not_dead_iff.1 hd) s] at hs; simp at hs
  | beginAdd s op y hop hn hy he =>
    subst he
    have hcy := hc s; rw [hself] at hcy
    refine finv_shard hso hI hd hy hcy ?_ ?_ (fun a r => rfl)
    · intro op' e _
      simp only [SAct.begin.injEq] at e; subst e
      obtain ⟨s', l, hp⟩ := nextIdx_some hn
      exact ⟨l, by rw [← (idx_add_prog hI.reach hp).1]; exact (idx_add_prog hI.reach hp).1 ▸ hp⟩
    · intro op' e hf
      simp only [SAct.begin.injEq] at e; subst e
      rw [hop] at hf; simp at hf
  | beginRem s id f y hn hy he =>
    subst he
    have hcy := hc s; rw [hself] at hcy
    refine finv_shard hso hI hd hy hcy ?_ ?_ (fun a r => rfl)
    · intro op' e hf
      simp only [SAct.begin.injEq] at e; subst e
      simp [IdxOp.isAdd] at hf
    · intro op' e _
      simp only [SAct.begin.injEq] at e; subst e
      obtain ⟨s', l, hp⟩ := nextIdx_some hn
      exact ⟨l, (idx_rem_prog hI.reach hp).1 ▸ hp⟩
  | add s y hy hb he =>
    subst he
    have hcy := hc s; rw [hself] at hcy
    exact finv_shard hso hI hd hy hcy (fun _ e => by simp at e) (fun _ e => by simp at e)
      (fun a r => by simp [endedCall, hb])
  | addRet s y p hy hb hp he =>
    subst he
    have hcy := hc s
    simp only [Function.update_self] at hcy
    exact finv_return hso hI hd hy hcy (Or.inl ⟨rfl, hb⟩) (Or.inl ⟨rfl, rfl⟩) hp
  | rem s y hy hb he =>
    subst he
    have hcy := hc s; rw [hself] at hcy
    exact finv_shard hso hI hd hy hcy (fun _ e => by simp at e) (fun _ e => by simp at e)
      (fun a r => by simp [endedCall, hb])
  | remRet s y p hy hb hp he =>
    subst he
    have hcy := hc s
    simp only [Function.update_self] at hcy
    exact finv_return hso hI hd hy hcy (Or.inr ⟨rfl, hb⟩) (Or.inr ⟨rfl, rfl⟩) hp
  | search s y hy he =>
    subst he
    have hcy := hc s; rw [hself] at hcy
    exact finv_shard hso hI hd hy hcy (fun _ e => by simp at e) (fun _ e => by simp at e) (fun a r => rfl)
  | searched s y hy he =>
    subst he
    have hcy := hc s; rw [hself] at hcy
    exact finv_shard hso hI hd hy hcy (fun _ e => by simp at e) (fun _ e => by simp at e) (fun a r => rfl)

theorem fine_noClash_cons {so : Sorter} {st st' : Fine c} {x : FAct c.toPipeSize D} {l : List (FAct c.toPipeSize D)}
    (h : st.NoClash so (x :: l)) (hs : st.step so x = some st') : st'.NoClash so l := by
  intro pre st2 hp hr
  refine h (x :: pre) st2 (List.cons_prefix_cons.2 ⟨rfl, hp⟩) ?_
  simp [Fine.run, hs, hr]

theorem finv_run {so : Sorter} (hso : SortOk so) {o : IndexerOpts} {db : Fin c.stores → List (Str × D)}
    (as : List (FAct c.toPipeSize D)) : ∀ {st st' : Fine c}, FInv so o db st → st.NoClash so as →
    st.run so as = some st' → FInv so o db st' := by
  induction as with
  | nil => intro st st' hI _ h; simp only [Fine.run, Option.some.injEq] at h; subst h; exact hI
  | cons x l ih =>
    intro st st' hI hc h
    simp only [Fine.run] at h
    obtain ⟨st1, h1, h2⟩ := Option.bind_eq_some_iff.1 h
    have hc1 := hc [x] st1 (List.cons_prefix_cons.2 ⟨rfl, List.nil_prefix⟩) (by simp [Fine.run, h1])
    exact ih (finv_step hso hI h1 hc1) (fine_noClash_cons hc h1) h2

/-- When the shard is idle its index is that of the calls in the log. -/
theorem ShardRel.idle {so : Sorter} {o : IndexerOpts} {st : Fine c} {s : Fin c.shards} {base : Indexer}
    {a r : Option IdxOp} (h : ShardRel so o st s base a r) (hi : st.ShardIdle s) :
    (Indexer.init o).run so (st.pipe.idxLog s) = some (st.shard s).abs := by
  rw [h.log]
  have hr := h.rel.remNone.1 hi.2
  have hA := h.rel.add
  rw [hi.1] at hA
  subst hr
  cases hA with
  | idle _ hc hr =>
    simp only [CShard.remRes, hi.2, Indexer.stepOpt, Option.some.injEq] at hr
    rw [hr]
  | refreshing _ op ha => simp [AddPC.refreshing] at ha

end Riot
