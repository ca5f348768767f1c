import Verif.Proofs.ShardVis
import Verif.Props.Pipeline

/-!
# What a search of an engine sees while index calls are in progress
-/

namespace Riot

open Function (update)

variable {D : Type} {c : PipeCfg D}

/-- `tr` follows the states of the index of a shard after the first calls of `h`. -/
def Followed (so : Sorter) (o : IndexerOpts) (h : List IdxOp) (tr : Nat → AbsIndex) : Prop :=
  ∀ i, i ≤ h.length → ∃ ix k, (Indexer.init o).run so (h.take i) = some ix ∧ Inv ix k ∧ tr i = absOf ix k

/-- Shard `s`: `base` is the index after the calls in the log, `kb` its documents; `known` are the
documents in the table now. -/
structure SV (so : Sorter) (o : IndexerOpts) (st : Fine c) (s : Fin c.shards) (base : Indexer)
    (a r : Option IdxOp) (kb known : GoMap DocIndex) (tr : Nat → AbsIndex) : Prop where
  rel : ShardRel so o st s base a r
  w : W (st.shard s) base a r kb known
  trace : Trace (st.pipe.idxLog s) tr
  last : tr (st.pipe.idxLog s).length = absOf base kb
  each : Followed so o (st.pipe.idxLog s) tr

/-- Every live shard has such an index. -/
def VInv (so : Sorter) (o : IndexerOpts) (st : Fine c) : Prop :=
  ∀ s, (st.shard s).dead = false → ∃ base a r kb known tr, SV so o st s base a r kb known tr

theorem vinv_start (so : Sorter) (o : IndexerOpts) (db : Fin c.stores → List (Str × D)) :
    VInv so o (Fine.start c o db) := by
  intro s _
  refine ⟨Indexer.init o, none, none, .empty, .empty, fun _ => .empty, ⟨⟨rfl, rel_init so o, by simp, by simp⟩,
    W.fresh (rel_init so o) (Inv.init o) rfl (by simp), ⟨rfl, ?_⟩, ?_, ?_⟩⟩
  · intro i hi; simp [Fine.start, Pipe.start] at hi
  · simp [AbsIndex.empty, absOf, Indexer.init]
  · intro i hi
    refine ⟨Indexer.init o, .empty, ?_, Inv.init o, by simp [AbsIndex.empty, absOf, Indexer.init]⟩
    simp [Fine.start, Pipe.start, Indexer.run]

/-- An index call in a program is well formed. -/
theorem prog_ok (hk : c.KeysOk) {db : Fin c.stores → List (Str × D)} {st : Pipe c} (hr : Reach db st)
    {t : Thread c.toPipeSize} {s : Fin c.shards} {op : IdxOp} {l : List (Micro c.toPipeSize D)}
    (hp : st.prog t = .idx s op :: l) : OpOk op := by
  have h := run_idx hp
  exact log_ok hk (hr.step h) s op (by simp)

theorem trace_snoc {h : List IdxOp} {tr : Nat → AbsIndex} (ht : Trace h tr) {op : IdxOp} {b : AbsIndex}
    (hs : AbsStep op (tr h.length) b) :
    ∃ tr', Trace (h ++ [op]) tr' ∧ tr' (h ++ [op]).length = b ∧ ∀ i, i ≤ h.length → tr' i = tr i := by
  refine ⟨fun i => if i ≤ h.length then tr i else b, ⟨?_, ?_⟩, ?_, fun i hi => if_pos hi⟩
  · simp [ht.1]
  · intro i hi
    simp only [List.length_append, List.length_singleton] at hi
    rcases Nat.lt_or_ge i h.length with hl | hl
    · rw [List.getElem_append_left hl]
      simp only [if_pos (show i ≤ h.length by omega), if_pos (show i + 1 ≤ h.length by omega)]
      exact ht.2 i hl
    · have : i = h.length := by omega
      subst this
      simp only [List.getElem_append_right (le_refl h.length), Nat.sub_self, List.getElem_cons_zero,
        le_refl, if_true, if_neg (show ¬ h.length + 1 ≤ h.length by omega)]
      exact hs
  · simp

theorem dead_of_step {so : Sorter} {st y : CShard} {x : SAct} (h : st.step so x = some y) : st.dead = false := by
  cases hx : st.dead with
  | false => rfl
  | true => cases x <;> simp [CShard.step, hx] at h

/-- Shard `s` acts. `x'` is the state of the engine afterwards. -/
theorem sv_shard {so : Sorter} (hso : SortOk so) {o : IndexerOpts} {st st' : Fine c} {s : Fin c.shards}
    {base : Indexer} {a r : Option IdxOp} {kb known : GoMap DocIndex} {tr : Nat → AbsIndex}
    (hS : SV so o st s base a r kb known tr) {x : SAct} {y : CShard}
    (h : (st.shard s).step so x = some y) (hc : ¬ (st.shard s).Clash) (hcy : ¬ y.Clash)
    (hd : y.dead = false) (hok : ∀ op, x = .begin op → OpOk op) (hself : st'.shard s = y)
    (hlog : st'.pipe.idxLog s = st.pipe.idxLog s ++ endedCall a r y x)
    (hadd : ∀ op, nextAdd a y x = some op → ∃ l, st'.pipe.prog (.idxAdd s) = .idx s op :: l)
    (hrem : ∀ op, nextRem r y x = some op → ∃ l, st'.pipe.prog (.idxRem s) = .idx s op :: l) :
    ∃ base' kb' known' tr', SV so o st' s base' (nextAdd a y x) (nextRem r y x) kb' known' tr' := by
  rcases step_rel hso hS.rel.rel hcy h with ⟨g, _⟩ | ⟨_, base', hb, hR⟩
  · rw [hd] at g; simp at g
  · obtain ⟨kb', known', hw, hcase⟩ := step_w hso hS.rel.rel hS.w hc hcy hok h hd hb hR
    have hrun : (Indexer.init o).run so (st'.pipe.idxLog s) = some base' := by
      rw [hlog, indexer_run_append, hS.rel.log]; exact hb
    have htr : ∃ tr', Trace (st'.pipe.idxLog s) tr' ∧ tr' (st'.pipe.idxLog s).length = absOf base' kb' ∧
        Followed so o (st'.pipe.idxLog s) tr' := by
      rcases hcase with ⟨e1, e2, e3⟩ | ⟨op, e1, e2⟩
      · rw [hlog, e1, List.append_nil, e2, e3]; exact ⟨tr, hS.trace, hS.last, hS.each⟩
      · obtain ⟨tr', t1, t2, t3⟩ := trace_snoc hS.trace (op := op) (b := absOf base' kb') (by rw [hS.last]; exact e2)
        rw [e1] at hlog
        rw [hlog] at hrun ⊢
        refine ⟨tr', t1, t2, fun i hi => ?_⟩
        rcases Nat.lt_or_ge (st.pipe.idxLog s).length i with hl | hl
        · have hie : i = (st.pipe.idxLog s ++ [op]).length := by
            simp only [List.length_append, List.length_singleton] at hi ⊢; omega
          exact ⟨base', kb', by rw [hie, List.take_length]; exact hrun, hw.inv, by rw [hie]; exact t2⟩
        · obtain ⟨ix, k, h1, h2, h3⟩ := hS.each i hl
          exact ⟨ix, k, by rw [List.take_append_of_le_length hl]; exact h1, h2, by rw [t3 i hl]; exact h3⟩
    obtain ⟨tr', ht1, ht2, ht3⟩ := htr
    exact ⟨base', kb', known', tr', ⟨hrun, by rw [hself]; exact hR, hadd, hrem⟩, by rw [hself]; exact hw, ht1, ht2, ht3⟩

theorem SV.frame {so : Sorter} {o : IndexerOpts} {st st' : Fine c} {s : Fin c.shards} {base : Indexer}
    {a r : Option IdxOp} {kb known : GoMap DocIndex} {tr : Nat → AbsIndex}
    (h : SV so o st s base a r kb known tr) (h1 : st'.shard s = st.shard s)
    (h2 : st'.pipe.idxLog s = st.pipe.idxLog s)
    (h3 : ∀ op l, st.pipe.prog (.idxAdd s) = .idx s op :: l →
      st'.pipe.prog (.idxAdd s) = st.pipe.prog (.idxAdd s))
    (h4 : ∀ op l, st.pipe.prog (.idxRem s) = .idx s op :: l →
      st'.pipe.prog (.idxRem s) = st.pipe.prog (.idxRem s)) : SV so o st' s base a r kb known tr := by
  refine ⟨⟨by rw [h2]; exact h.rel.log, by rw [h1]; exact h.rel.rel, fun op ho => ?_, fun op ho => ?_⟩,
    by rw [h1]; exact h.w, by rw [h2]; exact h.trace, by rw [h2]; exact h.last, by rw [h2]; exact h.each⟩
  · obtain ⟨l, hl⟩ := h.rel.add op ho
    exact ⟨l, by rw [h3 op l hl]; exact hl⟩
  · obtain ⟨l, hl⟩ := h.rel.rem op ho
    exact ⟨l, by rw [h4 op l hl]; exact hl⟩

/-- A shard acts, no call returns. -/
theorem vinv_shard {so : Sorter} (hso : SortOk so) {o : IndexerOpts}
    {st : Fine c} (hV : VInv so o st) (hd : st.dead = false) {s : Fin c.shards} {x : SAct} {y : CShard}
    (h : (st.shard s).step so x = some y) (hc : ¬ (st.shard s).Clash) (hcy : ¬ y.Clash)
    (hok : ∀ op, x = .begin op → OpOk op)
    (hadd : ∀ op, x = .begin op → op.isAdd = true → ∃ l, st.pipe.prog (.idxAdd s) = .idx s op :: l)
    (hrem : ∀ op, x = .begin op → op.isAdd = false → ∃ l, st.pipe.prog (.idxRem s) = .idx s op :: l)
    (hend : ∀ a r, endedCall a r y x = []) : VInv so o (st.setShard s y) := by
  have hds := not_dead_iff.1 hd
  intro s' hd'
  by_cases e : s' = s
  · subst e
    have hself : (st.setShard s' y).shard s' = y := by simp [Fine.setShard]
    rw [hself] at hd'
    obtain ⟨base, a, r, kb, known, tr, hS⟩ := hV s' (hds s')
    obtain ⟨base', kb', known', tr', hS'⟩ := sv_shard hso (st' := st.setShard s' y) hS h hc hcy hd' hok hself
      (by rw [hend, List.append_nil]; rfl)
      (by
        intro op ho
        cases x with
        | begin op' =>
          cases op' with
          | remove id f => exact hS.rel.add op ho
          | add d f =>
            simp only [nextAdd, Option.some.injEq] at ho
            subst ho; exact hadd _ rfl rfl
          | flush f =>
            simp only [nextAdd, Option.some.injEq] at ho
            subst ho; exact hadd _ rfl rfl
        | add =>
          simp only [nextAdd] at ho
          split at ho
          · exact hS.rel.add op ho
          · simp at ho
        | _ => exact hS.rel.add op ho)
      (by
        intro op ho
        cases x with
        | begin op' =>
          cases op' with
          | remove id f =>
            simp only [nextRem, Option.some.injEq] at ho
            subst ho; exact hrem _ rfl rfl
          | add d f => exact hS.rel.rem op ho
          | flush f => exact hS.rel.rem op ho
        | rem =>
          simp only [nextRem] at ho
          split at ho
          · exact hS.rel.rem op ho
          · simp at ho
        | _ => exact hS.rel.rem op ho)
    exact ⟨base', _, _, kb', known', tr', hS'⟩
  · have hsame : (st.setShard s y).shard s' = st.shard s' := by simp [Fine.setShard, update, e]
    rw [hsame] at hd'
    obtain ⟨base, a, r, kb, known, tr, hS⟩ := hV s' hd'
    exact ⟨base, a, r, kb, known, tr, hS.frame hsame rfl (fun _ _ _ => rfl) (fun _ _ _ => rfl)⟩

/-- A call returns. -/
theorem vinv_return {so : Sorter} (hso : SortOk so) {o : IndexerOpts}
    {st : Fine c} (hV : VInv so o st) (hd : st.dead = false) {s : Fin c.shards} {x : SAct} {y : CShard}
    (h : (st.shard s).step so x = some y) (hc : ¬ (st.shard s).Clash) (hcy : ¬ y.Clash)
    (hx : x = .add ∧ y.add = .idle ∨ x = .rem ∧ y.rem = none) {t : Thread c.toPipeSize}
    (ht : x = .add ∧ t = .idxAdd s ∨ x = .rem ∧ t = .idxRem s) {p : Pipe c}
    (hp : st.pipe.step (.run t) = some p) : VInv so o { pipe := p, shard := update st.shard s y } := by
  have hds := not_dead_iff.1 hd
  obtain ⟨base, a, r, kb, known, tr, hS⟩ := hV s (hds s)
  have key : ∃ op l, st.pipe.prog t = .idx s op :: l ∧ endedCall a r y x = [op] ∧
      (x = .add → nextAdd a y x = none ∧ nextRem r y x = r) ∧ (x = .rem → nextAdd a y x = a ∧ nextRem r y x = none) := by
    rcases hx with ⟨rfl, hi⟩ | ⟨rfl, hi⟩
    · have ht' : t = .idxAdd s := by rcases ht with ⟨_, h⟩ | ⟨h, _⟩; exacts [h, by simp at h]
      subst ht'
      have ha : ∃ op, a = some op := by
        cases a with
        | some op => exact ⟨op, rfl⟩
        | none =>
          exfalso
          have := hS.rel.rel.add
          cases hA : (st.shard s).add with
          | idle =>
            simp only [CShard.step, hds s, CShard.addStep, hA] at h
            simp at h
          | _ => rw [hA] at this; cases this
      obtain ⟨op, rfl⟩ := ha
      obtain ⟨l, hl⟩ := hS.rel.add op rfl
      refine ⟨op, l, hl, ?_, fun _ => ?_, fun h => by simp at h⟩
      · simp [endedCall, hi, AddPC.busy]
      · simp [nextAdd, nextRem, hi, AddPC.busy]
    · have ht' : t = .idxRem s := by rcases ht with ⟨h, _⟩ | ⟨_, h⟩; exacts [by simp at h, h]
      subst ht'
      have ha : ∃ op, r = some op := by
        cases r with
        | some op => exact ⟨op, rfl⟩
        | none =>
          exfalso
          have hr := hS.rel.rel.remNone.2 rfl
          simp only [CShard.step, hds s, CShard.remWorkerStep, hr] at h
          simp at h
      obtain ⟨op, rfl⟩ := ha
      obtain ⟨l, hl⟩ := hS.rel.rem op rfl
      refine ⟨op, l, hl, ?_, fun h => by simp at h, fun _ => ?_⟩
      · simp [endedCall, hi]
      · simp [nextAdd, nextRem, hi]
  obtain ⟨op, l, hl, hend, hn1, hn2⟩ := key
  have hpe : p = { st.pipe with prog := update st.pipe.prog t l,
                                idxLog := update st.pipe.idxLog s (st.pipe.idxLog s ++ [op]), seen := update st.pipe.seen t st.pipe.count } := step_return hl hp
  have hbeg : ∀ op, x = .begin op → OpOk op := by
    intro op e; rcases hx with ⟨hx, _⟩ | ⟨hx, _⟩ <;> rw [hx] at e <;> simp at e
  intro s' hd'
  by_cases e : s' = s
  · subst e
    simp only [Function.update_self] at hd'
    obtain ⟨base', kb', known', tr', hS'⟩ := sv_shard hso
      (st' := { pipe := p, shard := update st.shard s' y }) hS h hc hcy hd' hbeg (by simp)
      (by rw [hend, hpe]; simp)
      (by
        intro op' ho
        rcases ht with ⟨hxa, rfl⟩ | ⟨hxa, rfl⟩
        · rw [(hn1 hxa).1] at ho; simp at ho
        · rw [(hn2 hxa).1] at ho
          obtain ⟨l', hl'⟩ := hS.rel.add op' ho
          refine ⟨l', ?_⟩
          rw [hpe]
          simpa [update] using hl')
      (by
        intro op' ho
        rcases ht with ⟨hxa, rfl⟩ | ⟨hxa, rfl⟩
        · rw [(hn1 hxa).2] at ho
          obtain ⟨l', hl'⟩ := hS.rel.rem op' ho
          refine ⟨l', ?_⟩
          rw [hpe]
          simpa [update] using hl'
        · rw [(hn2 hxa).2] at ho; simp at ho)
    exact ⟨base', _, _, kb', known', tr', hS'⟩
  · simp only [update, e, dif_neg, not_false_eq_true] at hd'
    obtain ⟨base, a, r, kb, known, tr, hS⟩ := hV s' hd'
    refine ⟨base, a, r, kb, known, tr, hS.frame (by simp [update, e]) ?_ ?_ ?_⟩
    · rw [hpe]; simp [update, e]
    · intro _ _ _; rw [hpe]
      rcases ht with ⟨_, rfl⟩ | ⟨_, rfl⟩ <;> simp [update, e]
    · intro _ _ _; rw [hpe]
      rcases ht with ⟨_, rfl⟩ | ⟨_, rfl⟩ <;> simp [update, e]

theorem vinv_step (hk : c.KeysOk) {so : Sorter} (hso : SortOk so) {o : IndexerOpts}
    {db : Fin c.stores → List (Str × D)} {st st' : Fine c} {x : FAct c.toPipeSize D} (hI : FInv so o db st)
    (hV : VInv so o st) (h : st.step so x = some st') (hc0 : ∀ s, ¬ (st.shard s).Clash)
    (hc : ∀ s, ¬ (st'.shard s).Clash) : VInv so o st' := by
  obtain ⟨hd, hs⟩ := fine_step h
  have hself : ∀ s (y : CShard), (st.setShard s y).shard s = y := by intro s y; simp [Fine.setShard]
  clear h
  cases hs with
  | pipe a p h0 hp he =>
    subst he
    obtain ⟨hk1, hk2⟩ := step_keeps h0 hp
    intro s hs
    obtain ⟨base, a, r, kb, known, tr, hS⟩ := hV s hs
    exact ⟨base, a, r, kb, known, tr, hS.frame rfl (by rw [hk1])
      (fun _ _ hl => hk2 _ _ _ (by simp) hl ⟨_, _, rfl⟩) (fun _ _ hl => hk2 _ _ _ (by simp) hl ⟨_, _, rfl⟩)⟩
  | beginAdd s op y hop hn hy he =>
    subst he
    have hcy := hc s; rw [hself] at hcy
    obtain ⟨s', l, hp⟩ := nextIdx_some hn
    obtain ⟨rfl, _⟩ := idx_add_prog hI.reach hp
    refine vinv_shard hso hV hd hy (hc0 s') hcy ?_ ?_ ?_ (fun a r => rfl)
    · intro op' e
      simp only [SAct.begin.injEq] at e; subst e
      exact prog_ok hk hI.reach hp
    · intro op' e _
      simp only [SAct.begin.injEq] at e; subst e
      exact ⟨l, hp⟩
    · intro op' e hf
      simp only [SAct.begin.injEq] at e; subst e
      rw [hop] at hf; simp at hf
  | beginRem s id f y hn hy he =>
    subst he
    have hcy := hc s; rw [hself] at hcy
    obtain ⟨s', l, hp⟩ := nextIdx_some hn
    obtain ⟨rfl, _⟩ := idx_rem_prog hI.reach hp
    refine vinv_shard hso hV hd hy (hc0 s') hcy ?_ ?_ ?_ (fun a r => rfl)
    · intro op' e
      simp only [SAct.begin.injEq] at e; subst e; trivial
    · intro op' e hf
      simp only [SAct.begin.injEq] at e; subst e
      simp [IdxOp.isAdd] at hf
    · intro op' e _
      simp only [SAct.begin.injEq] at e; subst e
      exact ⟨l, hp⟩
  | add s y hy hb he =>
    subst he
    have hcy := hc s; rw [hself] at hcy
    exact vinv_shard hso hV hd hy (hc0 s) hcy (fun _ e => by simp at e) (fun _ e => by simp at e)
      (fun _ e => by simp at e) (fun a r => by simp [endedCall, hb])
  | addRet s y p hy hb hp he =>
    subst he
    have hcy := hc s
    simp only [Function.update_self] at hcy
    exact vinv_return hso hV hd hy (hc0 s) hcy (Or.inl ⟨rfl, hb⟩) (Or.inl ⟨rfl, rfl⟩) hp
  | rem s y hy hb he =>
    subst he
    have hcy := hc s; rw [hself] at hcy
    exact vinv_shard hso hV hd hy (hc0 s) hcy (fun _ e => by simp at e) (fun _ e => by simp at e)
      (fun _ e => by simp at e) (fun a r => by simp [endedCall, hb])
  | remRet s y p hy hb hp he =>
    subst he
    have hcy := hc s
    simp only [Function.update_self] at hcy
    exact vinv_return hso hV hd hy (hc0 s) hcy (Or.inr ⟨rfl, hb⟩) (Or.inr ⟨rfl, rfl⟩) hp
  | search s y hy he =>
    subst he
    have hcy := hc s; rw [hself] at hcy
    exact vinv_shard hso hV hd hy (hc0 s) hcy (fun _ e => by simp at e) (fun _ e => by simp at e)
      (fun _ e => by simp at e) (fun a r => rfl)
  | searched s y hy he =>
    subst he
    have hcy := hc s; rw [hself] at hcy
    exact vinv_shard hso hV hd hy (hc0 s) hcy (fun _ e => by simp at e) (fun _ e => by simp at e)
      (fun _ e => by simp at e) (fun a r => rfl)

theorem vinv_run (hk : c.KeysOk) {so : Sorter} (hso : SortOk so) {o : IndexerOpts}
    {db : Fin c.stores → List (Str × D)} (as : List (FAct c.toPipeSize D)) : ∀ {st st' : Fine c},
    FInv so o db st → VInv so o st → st.NoClash so as → st.run so as = some st' → VInv so o st' := by
  induction as with
  | nil => intro st st' _ hV _ h; simp only [Fine.run, Option.some.injEq] at h; subst h; exact hV
  | cons x l ih =>
    intro st st' hI hV hc h
    simp only [Fine.run] at h
    obtain ⟨st1, h1, h2⟩ := Option.bind_eq_some_iff.1 h
    have hc0 := hc [] st List.nil_prefix rfl
    have hc1 := hc [x] st1 (List.cons_prefix_cons.2 ⟨rfl, List.nil_prefix⟩) (by simp [Fine.run, h1])
    exact ih (finv_step hso hI h1 hc1) (vinv_step hk hso hI hV h1 hc0 hc1) (fine_noClash_cons hc h1) h2

end Riot
