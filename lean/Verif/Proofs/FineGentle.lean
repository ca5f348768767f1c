import Verif.Proofs.Gentle

/-!
# Gentle runs of the engine with locks
-/

namespace Riot

open Function (update)

variable {D : Type} {c : PipeCfg D}

/-- The add worker has decided to refresh. -/
def AddPC.late : AddPC → Bool
  | .lockTable _ => true
  | a => a.refreshing

theorem addStep_late {so : Sorter} {st st' : CShard} (h : st.addStep so = some st') (hl : st'.add.late = true) :
    st.add.late = true ∨ ∃ doc f, st.add = .put doc f ∧
      (f = true ∨ (st.ix.addCache ++ doc.toList).length ≥ st.ix.opts.docCacheSize) := by
  cases ha : st.add with
  | idle => simp [CShard.addStep, ha] at h
  | put doc f =>
    right
    refine ⟨doc, f, rfl, ?_⟩
    simp only [CShard.addStep, ha] at h
    split at h
    · simp only [Option.some.injEq] at h; subst h; simp [ha, AddPC.late, AddPC.refreshing] at hl
    · rename_i ix hix
      simp only [Option.some.injEq] at h; subst h
      simp only at hl
      split at hl
      · rename_i hc
        have : ix.addCache = st.ix.addCache ++ doc.toList ∧ ix.opts = st.ix.opts := by
          cases doc with
          | none => simp at hix; subst hix; simp
          | some d =>
            simp only at hix
            split at hix
            · simp only [Option.some.injEq] at hix; subst hix; exact ⟨rfl, rfl⟩
            · simp at hix
        rw [this.1, this.2] at hc
        exact hc.symm
      · simp [AddPC.late, AddPC.refreshing] at hl
  | _ => left; rfl

/-- Invariant of gentle runs. -/
structure GInv (so : Sorter) (o : IndexerOpts) (db : Fin c.stores → List (Str × D)) (st : Fine c) : Prop where
  finv : FInv so o db st
  gentle : GentleInv so o db st.pipe
  late : ∀ s, (st.shard s).add.late = true → ∃ op l, st.pipe.prog (.idxAdd s) = .idx s op :: l ∧ op.force = true
  rem : ∀ s, (st.shard s).rem ≠ none → ∃ op l, st.pipe.prog (.idxRem s) = .idx s op :: l

theorem GInv.noClash {so : Sorter} {o : IndexerOpts} {db : Fin c.stores → List (Str × D)} {st : Fine c}
    (hg : GentleInv so o db st.pipe)
    (hl : ∀ s, (st.shard s).add.late = true → ∃ op l, st.pipe.prog (.idxAdd s) = .idx s op :: l ∧ op.force = true)
    (hr : ∀ s, (st.shard s).rem ≠ none → ∃ op l, st.pipe.prog (.idxRem s) = .idx s op :: l) (s : Fin c.shards) :
    ¬ (st.shard s).Clash := by
  rintro ⟨h1, h2⟩
  have hlate : (st.shard s).add.late = true := by
    cases hx : (st.shard s).add <;> simp_all [AddPC.late, AddPC.refreshing]
  obtain ⟨op, l, hp, hf⟩ := hl s hlate
  obtain ⟨op', l', hp'⟩ := hr s h2
  exact hg.exclusive hp hf hp'

theorem GInv.not_dead (hk : c.KeysOk) {so : Sorter} (hso : SortOk so) {o : IndexerOpts}
    {db : Fin c.stores → List (Str × D)} {st : Fine c} (h : GInv so o db st) : st.dead = false := by
  rw [not_dead_iff]
  intro s
  cases hd : (st.shard s).dead with
  | false => rfl
  | true =>
    obtain ⟨t, p, hp, hn⟩ := h.finv.dead s hd
    obtain ⟨ix, hix, _⟩ := (gentle_other hk hso h.gentle rfl hp).cap s
    rw [hix] at hn; simp at hn

theorem ginv_start {so : Sorter} {o : IndexerOpts} {db : Fin c.stores → List (Str × D)}
    (hs : GentleStart c o db) : GInv so o db (Fine.start c o db) := by
  refine ⟨finv_start so o db, gentle_start c hs, fun s h => ?_, fun s h => ?_⟩
  · simp [Fine.start, CShard.init, AddPC.late, AddPC.refreshing] at h
  · simp [Fine.start, CShard.init] at h

theorem remWorker_add {so : Sorter} {st st' : CShard} (h : st.remWorkerStep so = some st') : st'.add = st.add := by
  unfold CShard.remWorkerStep at h
  split at h
  · simp at h
  · simp only [Option.some.injEq] at h; subst h; rfl
  · obtain ⟨⟨st1, pc1⟩, h1, h2⟩ := Option.map_eq_some_iff.1 h
    subst h2
    exact (remStep_frame h1).2.1

theorem addStep_rem {so : Sorter} {st st' : CShard} (h : st.addStep so = some st') : st'.rem = st.rem :=
  (addStep_work h).1

theorem ginv_step (hk : c.KeysOk) {so : Sorter} (hso : SortOk so) {o : IndexerOpts}
    {db : Fin c.stores → List (Str × D)} {st st' : Fine c} {x : FAct c.toPipeSize D} (hI : GInv so o db st)
    (h : st.step so x = some st') (hg : ∀ i a, x = .pipe (.call i a) → GentleCall o db st.pipe a) :
    GInv so o db st' := by
  obtain ⟨hd, hs⟩ := fine_step h
  have hds := not_dead_iff.1 hd
  suffices hmain : GentleInv so o db st'.pipe ∧
      (∀ s, (st'.shard s).add.late = true → ∃ op l, st'.pipe.prog (.idxAdd s) = .idx s op :: l ∧ op.force = true) ∧
      (∀ s, (st'.shard s).rem ≠ none → ∃ op l, st'.pipe.prog (.idxRem s) = .idx s op :: l) by
    obtain ⟨h1, h2, h3⟩ := hmain
    exact ⟨finv_step hso hI.finv h (GInv.noClash h1 h2 h3), h1, h2, h3⟩
  -- a shard changes, the pipeline does not
  have hset : ∀ s (y : CShard), st' = st.setShard s y →
      (y.add.late = true → ∃ op l, st.pipe.prog (.idxAdd s) = .idx s op :: l ∧ op.force = true) →
      (y.rem ≠ none → ∃ op l, st.pipe.prog (.idxRem s) = .idx s op :: l) →
      GentleInv so o db st'.pipe ∧
      (∀ s, (st'.shard s).add.late = true → ∃ op l, st'.pipe.prog (.idxAdd s) = .idx s op :: l ∧ op.force = true) ∧
      (∀ s, (st'.shard s).rem ≠ none → ∃ op l, st'.pipe.prog (.idxRem s) = .idx s op :: l) := by
    intro s y he h1 h2
    subst he
    refine ⟨hI.gentle, fun s' hl => ?_, fun s' hl => ?_⟩
    · by_cases e : s' = s
      · subst e; simp only [Fine.setShard, Function.update_self] at hl; exact h1 hl
      · simp only [Fine.setShard, update, e, dif_neg, not_false_eq_true] at hl; exact hI.late s' hl
    · by_cases e : s' = s
      · subst e; simp only [Fine.setShard, Function.update_self] at hl; exact h2 hl
      · simp only [Fine.setShard, update, e, dif_neg, not_false_eq_true] at hl; exact hI.rem s' hl
  cases hs with
  | pipe a p h0 hp he =>
    subst he
    obtain ⟨_, hk2⟩ := step_keeps h0 hp
    refine ⟨?_, fun s hl => ?_, fun s hl => ?_⟩
    · cases hc : a.isCall with
      | false => exact gentle_other hk hso hI.gentle hc hp
      | true =>
        cases a with
        | call i b => exact gentle_call hI.gentle hp (hg i b rfl)
        | _ => simp [Act.isCall] at hc
    · obtain ⟨op, l, hl, hf⟩ := hI.late s hl
      exact ⟨op, l, by rw [← hl]; exact hk2 _ _ _ (by simp) hl ⟨_, _, rfl⟩, hf⟩
    · obtain ⟨op, l, hl⟩ := hI.rem s hl
      exact ⟨op, l, by rw [← hl]; exact hk2 _ _ _ (by simp) hl ⟨_, _, rfl⟩⟩
  | beginAdd s op y hop hn hy he =>
    refine hset s y he ?_ ?_
    · intro hl
      exfalso
      simp only [CShard.step, hds s, Bool.false_eq_true, if_false] at hy
      cases op with
      | add d f =>
        simp only at hy
        split at hy
        · simp only [Option.some.injEq] at hy; subst hy; simp [AddPC.late, AddPC.refreshing] at hl
        · simp at hy
      | flush f =>
        simp only at hy
        split at hy
        · simp only [Option.some.injEq] at hy; subst hy; simp [AddPC.late, AddPC.refreshing] at hl
        · simp at hy
      | remove id f => simp [IdxOp.isAdd] at hop
    · intro hr
      refine hI.rem s ?_
      simp only [CShard.step, hds s, Bool.false_eq_true, if_false] at hy
      cases op with
      | add d f =>
        simp only at hy
        split at hy
        · simp only [Option.some.injEq] at hy; subst hy; exact hr
        · simp at hy
      | flush f =>
        simp only at hy
        split at hy
        · simp only [Option.some.injEq] at hy; subst hy; exact hr
        · simp at hy
      | remove id f => simp [IdxOp.isAdd] at hop
  | beginRem s id f y hn hy he =>
    simp only [CShard.step, hds s, Bool.false_eq_true, if_false] at hy
    split at hy
    · simp only [Option.some.injEq] at hy
      subst hy
      refine hset s _ he (fun hl => hI.late s hl) (fun _ => ?_)
      obtain ⟨s', l, hp⟩ := nextIdx_some hn
      exact ⟨_, l, (idx_rem_prog hI.finv.reach hp).1 ▸ hp⟩
    · simp at hy
  | add s y hy hb he =>
    have hy' : (st.shard s).addStep so = some y := by
      simpa [CShard.step, hds s] using hy
    refine hset s y he (fun hl => ?_) (fun hr => hI.rem s (by rw [← addStep_rem hy']; exact hr))
    rcases addStep_late hy' hl with h1 | ⟨doc, f, h1, h2⟩
    · exact hI.late s h1
    · obtain ⟨base, a, r, hS⟩ := hI.finv.alive s (hds s)
      have hA := hS.rel.add
      rw [h1] at hA
      cases hA with
      | put _ _ _ hc hr =>
        obtain ⟨l, hl'⟩ := hS.add _ rfl
        refine ⟨_, l, hl', ?_⟩
        have hf : f = true := by
          rcases h2 with h2 | h2
          · exact h2
          · exfalso
            obtain ⟨ix, hix, hlen⟩ := hI.gentle.cap s
            have hb := hS.log
            rw [hix] at hb
            obtain rfl := Option.some.inj hb
            have hroom := hI.gentle.room s
            have hopts : (st.shard s).ix.opts = o.init := by
              rw [hS.rel.opts]
              exact (run_inv hso o _ (log_ok hk hI.finv.reach s) ix hix).1
            rw [hc, hopts, List.length_append] at h2
            have hdoc : doc.toList.length ≤ (μIdx c s IdxOp.adds).pending st.pipe := by
              cases doc with
              | none => simp
              | some d => simpa using prog_pend hl' (p := IdxOp.adds) rfl
            omega
        subst hf
        cases doc <;> rfl
      | refreshing _ _ ha => simp [AddPC.refreshing] at ha
  | addRet s y p hy hb hp he =>
    have hy' : (st.shard s).addStep so = some y := by
      simpa [CShard.step, hds s] using hy
    subst he
    obtain ⟨s1, op, l, hs1, hpe⟩ : ∃ s1 op l, st.pipe.prog (.idxAdd s) = .idx s1 op :: l ∧
        p = { st.pipe with prog := update st.pipe.prog (.idxAdd s) l,
                           idxLog := update st.pipe.idxLog s1 (st.pipe.idxLog s1 ++ [op]),
                           seen := update st.pipe.seen (.idxAdd s) st.pipe.count } := by
      obtain ⟨base, a, r, hS⟩ := hI.finv.alive s (hds s)
      cases a with
      | some op => obtain ⟨l, hl⟩ := hS.add op rfl; exact ⟨s, op, l, hl, step_return hl hp⟩
      | none =>
        exfalso
        have hA := hS.rel.add
        cases hx : (st.shard s).add with
        | idle => simp [CShard.addStep, hx] at hy'
        | _ => rw [hx] at hA; cases hA
    refine ⟨gentle_other hk hso hI.gentle rfl hp, fun s' hl => ?_, fun s' hr => ?_⟩
    · by_cases e : s' = s
      · subst e; simp [hb, AddPC.late, AddPC.refreshing] at hl
      · simp only [update, e, dif_neg, not_false_eq_true] at hl
        obtain ⟨op', l', h1, h2⟩ := hI.late s' hl
        exact ⟨op', l', by rw [hpe]; simpa [update, e] using h1, h2⟩
    · have hr' : (st.shard s').rem ≠ none := by
        by_cases e : s' = s
        · subst e; simp only [Function.update_self] at hr; rw [← addStep_rem hy']; exact hr
        · simpa [update, e] using hr
      obtain ⟨op', l', h1⟩ := hI.rem s' hr'
      exact ⟨op', l', by rw [hpe]; simpa [update] using h1⟩
  | rem s y hy hb he =>
    have hy' : (st.shard s).remWorkerStep so = some y := by
      simpa [CShard.step, hds s] using hy
    refine hset s y he (fun hl => hI.late s (by rw [← remWorker_add hy']; exact hl)) (fun _ => hI.rem s ?_)
    intro hn
    simp [CShard.remWorkerStep, hn] at hy'
  | remRet s y p hy hb hp he =>
    have hy' : (st.shard s).remWorkerStep so = some y := by
      simpa [CShard.step, hds s] using hy
    subst he
    have hrem : (st.shard s).rem ≠ none := by intro hn; simp [CShard.remWorkerStep, hn] at hy'
    obtain ⟨op, l, hs1⟩ := hI.rem s hrem
    have hpe := step_return hs1 hp
    refine ⟨gentle_other hk hso hI.gentle rfl hp, fun s' hl => ?_, fun s' hr => ?_⟩
    · have hl' : (st.shard s').add.late = true := by
        by_cases e : s' = s
        · subst e; simp only [Function.update_self] at hl; rw [← remWorker_add hy']; exact hl
        · simpa [update, e] using hl
      obtain ⟨op', l', h1, h2⟩ := hI.late s' hl'
      exact ⟨op', l', by rw [hpe]; simpa [update] using h1, h2⟩
    · by_cases e : s' = s
      · subst e; simp [hb] at hr
      · simp only [update, e, dif_neg, not_false_eq_true] at hr
        obtain ⟨op', l', h1⟩ := hI.rem s' hr
        exact ⟨op', l', by rw [hpe]; simpa [update, e] using h1⟩
  | search s y hy he =>
    simp only [CShard.step] at hy
    split at hy
    · simp at hy
    · simp only [Option.some.injEq] at hy
      subst hy
      exact hset s _ he (fun hl => hI.late s hl) (fun hr => hI.rem s hr)
  | searched s y hy he =>
    simp only [CShard.step] at hy
    split at hy
    · simp at hy
    · simp only [Option.some.injEq] at hy
      subst hy
      exact hset s _ he (fun hl => hI.late s hl) (fun hr => hI.rem s hr)

theorem ginv_run (hk : c.KeysOk) {so : Sorter} (hso : SortOk so) {o : IndexerOpts}
    {db : Fin c.stores → List (Str × D)} (as : List (FAct c.toPipeSize D)) : ∀ {st st' : Fine c}, GInv so o db st →
    st.Gentle so o db as → st.run so as = some st' → GInv so o db st' := by
  induction as with
  | nil => intro st st' hI _ h; simp only [Fine.run, Option.some.injEq] at h; subst h; exact hI
  | cons x l ih =>
    intro st st' hI hg h
    simp only [Fine.run] at h
    obtain ⟨st1, h1, h2⟩ := Option.bind_eq_some_iff.1 h
    refine ih (ginv_step hk hso hI h1 ?_) ?_ h2
    · rintro i a rfl
      exact hg [] i a l st rfl rfl
    · intro pre i a post st2 he hr
      exact hg (x :: pre) i a post st2 (by rw [he]; rfl) (by simp [Fine.run, h1, hr])

theorem gentle_prefix {so : Sorter} {o : IndexerOpts} {db : Fin c.stores → List (Str × D)} {st : Fine c}
    {pre as : List (FAct c.toPipeSize D)} (hp : pre <+: as) (hg : st.Gentle so o db as) : st.Gentle so o db pre := by
  obtain ⟨t, rfl⟩ := hp
  intro p i a post st' he hr
  exact hg p i a (post ++ t) st' (by rw [he]; simp) hr

end Riot
