import Verif.Proofs.Linear
import Verif.Proofs.PipelineIndex
import Verif.Spec.Fine

/-!
# A run of the engine with locks is a run of the engine with atomic index calls
-/

namespace Riot

open Function (update)

variable {D : Type} {c : PipeCfg D}

theorem pipe_run_append (a b : List (Act c.toPipeSize D)) : ∀ (st : Pipe c),
    st.run (a ++ b) = (st.run a).bind (fun st' => st'.run b) := by
  induction a with
  | nil => intro st; rfl
  | cons x a ih =>
    intro st
    simp only [List.cons_append, Pipe.run]
    cases st.step x with
    | none => rfl
    | some st' => simp only [Option.bind_some]; exact ih st'

theorem onShard_some {so : Sorter} {st st' : Fine c} {s : Fin c.shards} {a : SAct}
    (h : st.onShard so s a = some st') : ∃ x, (st.shard s).step so a = some x ∧ st' = st.setShard s x := by
  unfold Fine.onShard at h
  obtain ⟨x, h1, h2⟩ := Option.map_eq_some_iff.1 h
  exact ⟨x, h1, h2.symm⟩

theorem return_some {st st' : Fine c} {t : Thread c.toPipeSize} (h : st.return t = some st') :
    ∃ p, st.pipe.step (.run t) = some p ∧ st' = { st with pipe := p } := by
  unfold Fine.return at h
  obtain ⟨x, h1, h2⟩ := Option.map_eq_some_iff.1 h
  exact ⟨x, h1, h2.symm⟩

/-- What a step is. -/
inductive FineStep (so : Sorter) (st st' : Fine c) : FAct c.toPipeSize D → Prop
  | pipe (a : Act c.toPipeSize D) (p : Pipe c) (h0 : st.pipe.atIdx a = false) (h : st.pipe.step a = some p)
      (he : st' = { st with pipe := p }) : FineStep so st st' (.pipe a)
  | beginAdd (s : Fin c.shards) (op : IdxOp) (x : CShard) (hop : op.isAdd = true)
      (hn : st.pipe.nextIdx (.idxAdd s) = some op) (h : (st.shard s).step so (.begin op) = some x)
      (he : st' = st.setShard s x) : FineStep so st st' (.beginAdd s)
  | beginRem (s : Fin c.shards) (id : Str) (f : Bool) (x : CShard)
      (hn : st.pipe.nextIdx (.idxRem s) = some (.remove id f))
      (h : (st.shard s).step so (.begin (.remove id f)) = some x)
      (he : st' = st.setShard s x) : FineStep so st st' (.beginRem s)
  | add (s : Fin c.shards) (x : CShard) (h : (st.shard s).step so .add = some x) (hb : x.add.busy = true)
      (he : st' = st.setShard s x) : FineStep so st st' (.add s)
  | addRet (s : Fin c.shards) (x : CShard) (p : Pipe c) (h : (st.shard s).step so .add = some x)
      (hb : x.add = .idle) (hp : st.pipe.step (.run (.idxAdd s)) = some p)
      (he : st' = { pipe := p, shard := update st.shard s x }) : FineStep so st st' (.add s)
  | rem (s : Fin c.shards) (x : CShard) (h : (st.shard s).step so .rem = some x) (hb : x.rem.isSome = true)
      (he : st' = st.setShard s x) : FineStep so st st' (.rem s)
  | remRet (s : Fin c.shards) (x : CShard) (p : Pipe c) (h : (st.shard s).step so .rem = some x)
      (hb : x.rem = none) (hp : st.pipe.step (.run (.idxRem s)) = some p)
      (he : st' = { pipe := p, shard := update st.shard s x }) : FineStep so st st' (.rem s)
  | search (s : Fin c.shards) (x : CShard) (h : (st.shard s).step so .search = some x)
      (he : st' = st.setShard s x) : FineStep so st st' (.search s)
  | searched (s : Fin c.shards) (x : CShard) (h : (st.shard s).step so .searched = some x)
      (he : st' = st.setShard s x) : FineStep so st st' (.searched s)

theorem fine_step {so : Sorter} {st st' : Fine c} {a : FAct c.toPipeSize D} (h : st.step so a = some st') :
    st.dead = false ∧ FineStep so st st' a := by
  unfold Fine.step at h
  split at h
  · simp at h
  · rename_i hd
    refine ⟨by simpa using hd, ?_⟩
    cases a with
    | pipe a =>
      simp only at h
      split at h
      · simp at h
      · rename_i h0
        obtain ⟨p, h1, h2⟩ := Option.map_eq_some_iff.1 h
        exact .pipe a p (by simpa using h0) h1 h2.symm
    | beginAdd s =>
      simp only at h
      split at h
      · rename_i hn; obtain ⟨x, h1, h2⟩ := onShard_some h; exact .beginAdd s _ x rfl hn h1 h2
      · rename_i hn; obtain ⟨x, h1, h2⟩ := onShard_some h; exact .beginAdd s _ x rfl hn h1 h2
      · simp at h
    | beginRem s =>
      simp only at h
      split at h
      · rename_i hn; obtain ⟨x, h1, h2⟩ := onShard_some h; exact .beginRem s _ _ x hn h1 h2
      · simp at h
    | add s =>
      simp only at h
      obtain ⟨st1, h1, h2⟩ := Option.bind_eq_some_iff.1 h
      obtain ⟨x, h3, rfl⟩ := onShard_some h1
      have hx : (st.setShard s x).shard s = x := by simp [Fine.setShard]
      rw [hx] at h2
      split at h2
      · rename_i hi
        obtain ⟨p, h4, h5⟩ := return_some h2
        exact .addRet s x p h3 hi h4 h5
      · rename_i hi
        simp only [Option.some.injEq] at h2
        refine .add s x h3 ?_ h2.symm
        cases hb : x.add.busy with
        | true => rfl
        | false => exact absurd (busy_false hb) hi
    | rem s =>
      simp only at h
      obtain ⟨st1, h1, h2⟩ := Option.bind_eq_some_iff.1 h
      obtain ⟨x, h3, rfl⟩ := onShard_some h1
      have hx : (st.setShard s x).shard s = x := by simp [Fine.setShard]
      rw [hx] at h2
      split at h2
      · rename_i hi
        obtain ⟨p, h4, h5⟩ := return_some h2
        exact .remRet s x p h3 hi h4 h5
      · rename_i hi
        simp only [Option.some.injEq] at h2
        exact .rem s x h3 (by rw [hi]; rfl) h2.symm
    | search s =>
      simp only at h
      obtain ⟨x, h1, h2⟩ := onShard_some h
      exact .search s x h1 h2
    | searched s =>
      simp only at h
      obtain ⟨x, h1, h2⟩ := onShard_some h
      exact .searched s x h1 h2

/-- The pipeline part of a step. -/
theorem fine_coarse {so : Sorter} {st st' : Fine c} {a : FAct c.toPipeSize D} (h : FineStep so st st' a) :
    st.pipe.run (a.coarse so st) = some st'.pipe := by
  cases h with
  | pipe a p h0 h he => subst he; simp [FAct.coarse, Pipe.run, h]
  | beginAdd s op x hop hn h he => subst he; rfl
  | beginRem s id f x hn h he => subst he; rfl
  | add s x h hb he =>
    subst he
    simp only [FAct.coarse, h]
    cases hx : x.add <;> simp_all [AddPC.busy, Pipe.run, Fine.setShard]
  | addRet s x p h hb hp he => subst he; simp [FAct.coarse, h, hb, Pipe.run, hp]
  | rem s x h hb he =>
    subst he
    simp only [FAct.coarse, h]
    cases hx : x.rem <;> simp_all [Pipe.run, Fine.setShard]
  | remRet s x p h hb hp he => subst he; simp [FAct.coarse, h, hb, Pipe.run, hp]
  | search s x h he => subst he; rfl
  | searched s x h he => subst he; rfl

/-- The pipeline steps of a run. -/
def coarseActs (so : Sorter) (st : Fine c) : List (FAct c.toPipeSize D) → List (Act c.toPipeSize D)
  | [] => []
  | a :: l => a.coarse so st ++ (match st.step so a with | some st' => coarseActs so st' l | none => [])

theorem fine_run_coarse {so : Sorter} (as : List (FAct c.toPipeSize D)) : ∀ (st st' : Fine c),
    st.run so as = some st' → st.pipe.run (coarseActs so st as) = some st'.pipe := by
  induction as with
  | nil => intro st st' h; simp [Fine.run] at h; subst h; rfl
  | cons a l ih =>
    intro st st' h
    simp only [Fine.run] at h
    obtain ⟨st1, h1, h2⟩ := Option.bind_eq_some_iff.1 h
    simp only [coarseActs, h1]
    rw [pipe_run_append, fine_coarse (fine_step h1).2]
    exact ih st1 st' h2

theorem fine_run_append {so : Sorter} (a b : List (FAct c.toPipeSize D)) : ∀ (st : Fine c),
    st.run so (a ++ b) = (st.run so a).bind (fun st' => st'.run so b) := by
  induction a with
  | nil => intro st; rfl
  | cons x a ih =>
    intro st
    simp only [List.cons_append, Fine.run]
    cases st.step so x with
    | none => rfl
    | some st' => simp only [Option.bind_some]; exact ih st'

/-! ## What a pipeline step does to the programs of the index workers and their logs -/

theorem nextIdx_some {st : Pipe c} {t : Thread c.toPipeSize} {op : IdxOp} (h : st.nextIdx t = some op) :
    ∃ s l, st.prog t = .idx s op :: l := by
  unfold Pipe.nextIdx at h
  split at h
  · rename_i s op' l hp
    simp only [Option.some.injEq] at h
    subst h
    exact ⟨s, l, hp⟩
  · simp at h

/-- Steps other than index calls leave the index calls alone. -/
theorem step_keeps {st p : Pipe c} {a : Act c.toPipeSize D} (h0 : st.atIdx a = false)
    (h : st.step a = some p) : p.idxLog = st.idxLog ∧
    ∀ (t : Thread c.toPipeSize) (x : Micro c.toPipeSize D) (l : List (Micro c.toPipeSize D)),
      (∀ i, t ≠ .client i) → st.prog t = x :: l → (∃ s op, x = .idx s op) → p.prog t = st.prog t := by
  cases a with
  | call i call =>
    simp only [Pipe.step] at h
    split at h
    · simp only [Option.some.injEq] at h; subst h
      refine ⟨rfl, fun t x l ht _ _ => ?_⟩
      simp only [update]
      rw [dif_neg (ht i)]
    · simp at h
  | run t' =>
    simp only [Pipe.step] at h
    cases hp : st.prog t' with
    | nil => rw [hp] at h; simp at h
    | cons x l =>
      rw [hp] at h
      simp only at h
      have hx : ∀ s op, x ≠ .idx s op := by
        intro s op e
        subst e
        simp [Pipe.atIdx, Pipe.nextIdx, hp] at h0
      have hprog : ∀ (t : Thread c.toPipeSize) (y : Micro c.toPipeSize D) (l' : List (Micro c.toPipeSize D)),
          st.prog t = y :: l' → (∃ s op, y = .idx s op) → update st.prog t' l t = st.prog t := by
        intro t y l' hy ⟨s, op, hs⟩
        by_cases e : t = t'
        · subst e
          rw [hp] at hy
          simp only [List.cons.injEq] at hy
          exact absurd (hy.1.trans hs) (hx s op)
        · simp [update, e]
      cases x with
      | idx s op => exact absurd rfl (hx s op)
      | tick k n =>
        simp only [Pipe.exec, Option.some.injEq] at h; subst h
        exact ⟨rfl, fun t y l' _ => hprog t y l'⟩
      | send q m =>
        simp only [Pipe.exec] at h
        split at h
        · simp only [Option.some.injEq] at h; subst h
          exact ⟨rfl, fun t y l' _ => hprog t y l'⟩
        · simp at h
      | await w =>
        simp only [Pipe.exec] at h
        split at h
        · simp only [Option.some.injEq] at h; subst h
          exact ⟨rfl, fun t y l' _ => hprog t y l'⟩
        · simp at h
      | rank s e =>
        simp only [Pipe.exec, Option.some.injEq] at h; subst h
        exact ⟨rfl, fun t y l' _ => hprog t y l'⟩
      | db m op =>
        simp only [Pipe.exec, Option.some.injEq] at h; subst h
        exact ⟨rfl, fun t y l' _ => hprog t y l'⟩
      | spawn m op =>
        simp only [Pipe.exec, Option.some.injEq] at h; subst h
        exact ⟨rfl, fun t y l' _ => hprog t y l'⟩
  | recv t' =>
    simp only [Pipe.step] at h
    split at h
    · simp at h
    · split at h
      · rename_i q hq m l hp hc
        simp only [Option.some.injEq] at h; subst h
        refine ⟨rfl, fun t y l' _ hy _ => ?_⟩
        by_cases e : t = t'
        · subst e; rw [hp] at hy; simp at hy
        · simp [update, e]
      · simp at h
  | bg k =>
    simp only [Pipe.step] at h
    split at h
    · simp at h
    · simp only [Option.some.injEq] at h; subst h
      exact ⟨rfl, fun _ _ _ _ _ _ => rfl⟩
  | ready =>
    simp only [Pipe.step] at h
    split at h
    · simp only [Option.some.injEq] at h; subst h
      exact ⟨rfl, fun _ _ _ _ _ _ => rfl⟩
    · simp at h

/-- An index call returns. -/
theorem step_return {st p : Pipe c} {t : Thread c.toPipeSize} {s : Fin c.shards} {op : IdxOp}
    {l : List (Micro c.toPipeSize D)} (hp : st.prog t = .idx s op :: l) (h : st.step (.run t) = some p) :
    p = { st with prog := update st.prog t l, idxLog := update st.idxLog s (st.idxLog s ++ [op]),
                  seen := update st.seen t st.count } := by
  simp only [Pipe.step, hp, Pipe.exec, Option.some.injEq] at h
  exact h.symm

end Riot
