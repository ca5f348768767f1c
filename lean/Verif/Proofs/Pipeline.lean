import Verif.Spec.Pipeline
import Mathlib.Algebra.BigOperators.Group.Finset.Basic
import Mathlib.Algebra.BigOperators.Ring.List
import Mathlib.Data.List.FinRange
import Mathlib.Tactic.Linarith

/-!
# Conservation laws of the pipeline

Every atomic action has a weight; a message weighs as much as the actions it expands to. What has
been executed plus what is pending equals what the calls issued.
-/

namespace Riot

open Function (update)

variable {D : Type} {c : PipeCfg D}

/-- What can be observed of an engine without its queues. -/
structure Obs (c : PipeCfg D) where
  count : Counter → Nat
  idxLog : Fin c.shards → List IdxOp
  rankLog : Fin c.shards → List (RankEv D)
  dbLog : Fin c.stores → List (DbOp D)

def Pipe.obs (st : Pipe c) : Obs c := ⟨st.count, st.idxLog, st.rankLog, st.dbLog⟩

def Obs.exec (o : Obs c) : Micro c.toPipeSize D → Obs c
  | .tick k n => { o with count := update o.count k (o.count k + n) }
  | .idx s op => { o with idxLog := update o.idxLog s (o.idxLog s ++ [op]) }
  | .rank s e => { o with rankLog := update o.rankLog s (o.rankLog s ++ [e]) }
  | .db m op => { o with dbLog := update o.dbLog m (o.dbLog m ++ [op]) }
  | _ => o

/-- A quantity that every atomic action increases by its weight. -/
structure Meas (c : PipeCfg D) where
  val : Obs c → Nat
  w : Micro c.toPipeSize D → Nat
  step : ∀ o x, val (o.exec x) = val o + w x

/-- Sum of weights. -/
def wsum {α : Type} (w : α → Nat) (l : List α) : Nat := (l.map w).sum

@[simp] theorem wsum_nil {α : Type} (w : α → Nat) : wsum w [] = 0 := rfl
@[simp] theorem wsum_cons {α : Type} (w : α → Nat) (x : α) (l : List α) :
    wsum w (x :: l) = w x + wsum w l := by simp [wsum]
@[simp] theorem wsum_append {α : Type} (w : α → Nat) (l l' : List α) :
    wsum w (l ++ l') = wsum w l + wsum w l' := by simp [wsum]

theorem wsum_flatMap {α β : Type} (w : β → Nat) (f : α → List β) (l : List α) :
    wsum w (l.flatMap f) = wsum (fun x => wsum w (f x)) l := by
  induction l with
  | nil => rfl
  | cons x l ih => simp [ih]

theorem wsum_congr {α : Type} {w w' : α → Nat} {l : List α} (h : ∀ x ∈ l, w x = w' x) :
    wsum w l = wsum w' l := by
  unfold wsum
  rw [List.map_congr_left h]

theorem wsum_eq_zero {α : Type} {w : α → Nat} {l : List α} : wsum w l = 0 ↔ ∀ x ∈ l, w x = 0 := by
  induction l with
  | nil => simp
  | cons x l ih => simp [ih]

/-- Weight of actions when sends to worker channels are expanded once. -/
def Meas.w1 (μ : Meas c) : Micro c.toPipeSize D → Nat
  | .send q m => wsum μ.w (c.expand q m)
  | .spawn m op => μ.w (.db m op)
  | x => μ.w x

/-- Weight of a message. -/
def Meas.wm (μ : Meas c) (q : Chan c.toPipeSize) (m : Msg D) : Nat := wsum μ.w1 (c.expand q m)

/-- Full weight of an action. -/
def Meas.w2 (μ : Meas c) : Micro c.toPipeSize D → Nat
  | .send q m => μ.wm q m
  | .spawn m op => μ.w (.db m op)
  | x => μ.w x

/-- Simple actions: no send, no spawn. -/
def Micro.simple {z : PipeSize} : Micro z D → Bool
  | .send _ _ => false
  | .spawn _ _ => false
  | _ => true

theorem Meas.w1_simple (μ : Meas c) {x : Micro c.toPipeSize D} (h : x.simple = true) :
    μ.w1 x = μ.w x := by cases x <;> simp_all [Meas.w1, Micro.simple]

theorem Meas.w2_simple (μ : Meas c) {x : Micro c.toPipeSize D} (h : x.simple = true) :
    μ.w2 x = μ.w x := by cases x <;> simp_all [Meas.w2, Micro.simple]

theorem expand_simple {q : Chan c.toPipeSize} (hq : q ≠ .seg) (m : Msg D) :
    ∀ x ∈ c.expand q m, x.simple = true := by
  cases q with
  | seg => exact absurd rfl hq
  | idxAdd s =>
    cases m with
    | add doc f =>
      cases doc with
      | none => cases f <;> simp [PipeCfg.expand, Micro.simple]
      | some x => cases f <;> simp [PipeCfg.expand, Micro.simple]
    | _ => simp [PipeCfg.expand]
  | idxRem s =>
    cases m with
    | rem id f =>
      intro x hx
      simp only [PipeCfg.expand, List.mem_append, List.mem_cons] at hx
      rcases hx with (rfl | hx) | hx
      · rfl
      · split at hx <;> simp at hx; subst hx; rfl
      · split at hx <;> simp at hx; subst hx; rfl
    | _ => simp [PipeCfg.expand]
  | rankAdd s => cases m <;> simp [PipeCfg.expand, Micro.simple]
  | rankRem s => cases m <;> simp [PipeCfg.expand, Micro.simple]
  | store s =>
    cases m with
    | store id d =>
      intro x hx
      simp only [PipeCfg.expand] at hx
      split at hx <;> simp at hx <;> rcases hx with rfl | rfl <;> rfl
    | _ => simp [PipeCfg.expand]

/-- What a segmenter thread does: only sends, and never to its own channel. -/
theorem expand_seg (m : Msg D) : ∀ x ∈ c.expand .seg m, ∃ q m', x = .send q m' ∧ q ≠ .seg := by
  intro x hx
  cases m with
  | seg id d f =>
    simp only [PipeCfg.expand] at hx
    split at hx
    · split at hx
      · obtain ⟨s, _, rfl⟩ := List.mem_map.1 hx
        exact ⟨_, _, rfl, by simp⟩
      · simp at hx
    · simp only [List.mem_append, List.mem_cons] at hx
      rcases hx with (rfl | hx) | hx
      · exact ⟨_, _, rfl, by simp⟩
      · split at hx
        · obtain ⟨s, _, rfl⟩ := List.mem_map.1 hx
          exact ⟨_, _, rfl, by simp⟩
        · simp at hx
      · simp at hx; subst hx
        exact ⟨_, _, rfl, by simp⟩
  | _ => simp [PipeCfg.expand] at hx

theorem Meas.wm_of_ne (μ : Meas c) {q : Chan c.toPipeSize} (hq : q ≠ .seg) (m : Msg D) :
    μ.wm q m = wsum μ.w (c.expand q m) :=
  wsum_congr (fun x hx => μ.w1_simple (expand_simple hq m x hx))

/-- A received message weighs what it expands to. -/
theorem Meas.wsum_expand (μ : Meas c) (q : Chan c.toPipeSize) (m : Msg D) :
    wsum μ.w2 (c.expand q m) = μ.wm q m := by
  by_cases hq : q = .seg
  · subst hq
    apply wsum_congr
    intro x hx
    obtain ⟨q', m', rfl, hq'⟩ := expand_seg m x hx
    simp only [Meas.w2, Meas.w1]
    exact μ.wm_of_ne hq' m'
  · rw [μ.wm_of_ne hq]
    exact wsum_congr (fun x hx => μ.w2_simple (expand_simple hq m x hx))

/-- Weight of everything that has not been executed yet. -/
def Meas.pending (μ : Meas c) (st : Pipe c) : Nat :=
  ∑ t, wsum μ.w2 (st.prog t) + ∑ q, wsum (μ.wm q) (st.chan q) +
    wsum (fun x => μ.w (.db x.1 x.2)) st.spawned

theorem sum_update {ι α : Type} [Fintype ι] [DecidableEq ι] (f : ι → List α) (i : ι) (l : List α)
    (w : ι → α → Nat) :
    ∑ x, wsum (w x) (update f i l x) + wsum (w i) (f i) = ∑ x, wsum (w x) (f x) + wsum (w i) l := by
  rw [← Finset.add_sum_erase Finset.univ _ (Finset.mem_univ i),
    ← Finset.add_sum_erase Finset.univ (fun x => wsum (w x) (f x)) (Finset.mem_univ i)]
  have : ∑ x ∈ Finset.univ.erase i, wsum (w x) (update f i l x) =
      ∑ x ∈ Finset.univ.erase i, wsum (w x) (f x) := by
    apply Finset.sum_congr rfl
    intro x hx
    rw [Function.update_of_ne (Finset.ne_of_mem_erase hx)]
  rw [this]
  simp only [Function.update_self]
  omega

theorem wsum_eraseIdx {α : Type} (w : α → Nat) (l : List α) (k : Nat) (x : α)
    (h : l[k]? = some x) : wsum w (l.eraseIdx k) + w x = wsum w l := by
  induction l generalizing k with
  | nil => simp at h
  | cons y l ih =>
    cases k with
    | zero => simp at h; subst h; simp; omega
    | succ k =>
      simp only [List.getElem?_cons_succ] at h
      simp [List.eraseIdx_cons_succ, ← ih k h]; omega

/-- The weight an action adds to what was issued. -/
def Meas.issue (μ : Meas c) : Act c.toPipeSize D → Nat
  | .call _ a => wsum μ.w2 (c.call a)
  | _ => 0

/-- Executed plus pending weight changes only when a call starts. -/
theorem Meas.conserve_step (μ : Meas c) (st st' : Pipe c) (a : Act c.toPipeSize D)
    (h : st.step a = some st') :
    μ.val st'.obs + μ.pending st' = μ.val st.obs + μ.pending st + μ.issue a := by
  cases a with
  | call i a =>
    simp only [Pipe.step] at h
    split at h
    · rename_i hc
      rw [← Option.some.inj h]
      have := sum_update st.prog (.client i) (c.call a) (fun _ => μ.w2)
      rw [hc.2] at this
      simp only [Meas.pending, Meas.issue, Pipe.obs, wsum_nil] at *
      omega
    · simp at h
  | run t =>
    simp only [Pipe.step] at h
    split at h
    · simp at h
    · rename_i x l hp
      have hu := sum_update st.prog t l (fun _ => μ.w2)
      rw [hp, wsum_cons] at hu
      cases x with
      | send q m =>
        simp only [Pipe.exec] at h
        split at h
        · rw [← Option.some.inj h]
          have hq := sum_update st.chan q (st.chan q ++ [m]) μ.wm
          simp only [wsum_append, wsum_cons, wsum_nil, Meas.w2] at hq hu
          simp only [Meas.pending, Meas.issue, Pipe.obs]
          omega
        · simp at h
      | await w =>
        simp only [Pipe.exec] at h
        split at h
        · rw [← Option.some.inj h]
          have hs := μ.step st.obs (.await w)
          simp only [Obs.exec] at hs
          simp only [Meas.w2] at hu
          simp only [Meas.pending, Meas.issue, Pipe.obs] at *
          omega
        · simp at h
      | spawn m op =>
        simp only [Pipe.exec] at h
        rw [← Option.some.inj h]
        simp only [Meas.w2] at hu
        simp only [Meas.pending, Meas.issue, Pipe.obs, wsum_append, wsum_cons, wsum_nil] at *
        omega
      | tick k n =>
        simp only [Pipe.exec] at h
        rw [← Option.some.inj h]
        have hs := μ.step st.obs (.tick k n)
        simp only [Meas.w2] at hu
        simp only [Meas.pending, Meas.issue, Pipe.obs, Obs.exec] at *
        omega
      | idx s op =>
        simp only [Pipe.exec] at h
        rw [← Option.some.inj h]
        have hs := μ.step st.obs (.idx s op)
        simp only [Meas.w2] at hu
        simp only [Meas.pending, Meas.issue, Pipe.obs, Obs.exec] at *
        omega
      | rank s e =>
        simp only [Pipe.exec] at h
        rw [← Option.some.inj h]
        have hs := μ.step st.obs (.rank s e)
        simp only [Meas.w2] at hu
        simp only [Meas.pending, Meas.issue, Pipe.obs, Obs.exec] at *
        omega
      | db m op =>
        simp only [Pipe.exec] at h
        rw [← Option.some.inj h]
        have hs := μ.step st.obs (.db m op)
        simp only [Meas.w2] at hu
        simp only [Meas.pending, Meas.issue, Pipe.obs, Obs.exec] at *
        omega
  | recv t =>
    simp only [Pipe.step] at h
    split at h
    · simp at h
    · rename_i q hq
      split at h
      · rename_i m l hp hc
        rw [← Option.some.inj h]
        have hu := sum_update st.prog t (c.expand q m) (fun _ => μ.w2)
        have hv := sum_update st.chan q l μ.wm
        rw [hp, wsum_nil, μ.wsum_expand] at hu
        rw [hc, wsum_cons] at hv
        simp only [Meas.pending, Meas.issue, Pipe.obs] at *
        omega
      · simp at h
  | bg k =>
    simp only [Pipe.step] at h
    split at h
    · simp at h
    · rename_i m op hk
      rw [← Option.some.inj h]
      have hs := μ.step st.obs (.db m op)
      have he := wsum_eraseIdx (fun x => μ.w (.db x.1 x.2)) st.spawned k _ hk
      simp only [Meas.pending, Meas.issue, Pipe.obs, Obs.exec] at *
      omega
  | ready =>
    simp only [Pipe.step] at h
    split at h
    · rw [← Option.some.inj h]; rfl
    · simp at h

/-- The call an action starts. -/
def Act.called {z : PipeSize} : Act z D → List (Fin z.clients × Call D)
  | .call i x => [(i, x)]
  | _ => []

theorem step_calls (st st' : Pipe c) (a : Act c.toPipeSize D) (h : st.step a = some st') :
    st'.calls = st.calls ++ a.called := by
  cases a with
  | call i a =>
    simp only [Pipe.step] at h
    split at h
    · rw [← Option.some.inj h]; simp [Act.called]
    · simp at h
  | run t =>
    simp only [Pipe.step] at h
    split at h
    · simp at h
    · rename_i x l hp
      cases x <;> simp only [Pipe.exec] at h <;> first
        | (split at h <;> first | (rw [← Option.some.inj h]; simp [Act.called]) | simp at h)
        | (rw [← Option.some.inj h]; simp [Act.called])
  | recv t =>
    simp only [Pipe.step] at h
    split at h
    · simp at h
    · split at h
      · rw [← Option.some.inj h]; simp [Act.called]
      · simp at h
  | bg k =>
    simp only [Pipe.step] at h
    split at h
    · simp at h
    · rw [← Option.some.inj h]; simp [Act.called]
  | ready =>
    simp only [Pipe.step] at h
    split at h
    · rw [← Option.some.inj h]; simp [Act.called]
    · simp at h

/-- **Conservation**: executed plus pending weight is the weight of all calls plus what the
initial state contains. -/
theorem Meas.conserve (μ : Meas c) (st st' : Pipe c) (as : List (Act c.toPipeSize D))
    (h : st.run as = some st') :
    μ.val st'.obs + μ.pending st' + wsum (fun x => wsum μ.w2 (c.call x.2)) st.calls =
      μ.val st.obs + μ.pending st + wsum (fun x => wsum μ.w2 (c.call x.2)) st'.calls := by
  induction as generalizing st with
  | nil => simp only [Pipe.run, Option.some.injEq] at h; subst h; rfl
  | cons a as ih =>
    simp only [Pipe.run] at h
    obtain ⟨s1, h1, h2⟩ := Option.bind_eq_some_iff.1 h
    have e1 := ih s1 h2
    have e2 := μ.conserve_step st s1 a h1
    have e3 := step_calls st s1 a h1
    have e4 : wsum (fun x => wsum μ.w2 (c.call x.2)) s1.calls =
        wsum (fun x => wsum μ.w2 (c.call x.2)) st.calls + μ.issue a := by
      rw [e3, wsum_append]
      cases a <;> simp [Meas.issue, Act.called]
    omega

/-! ## The quantities -/

/-- The value of a counter. -/
def μCount (c : PipeCfg D) (k : Counter) : Meas c where
  val o := o.count k
  w x := match x with | .tick k' n => if k' = k then n else 0 | _ => 0
  step o x := by
    cases x <;> simp only [Obs.exec, Nat.add_zero]
    rename_i k' n
    by_cases h : k' = k
    · subst h; simp
    · simp [h, Ne.symm h]

/-- The number of index calls executed on shard `s` that satisfy `p`. -/
def μIdx (c : PipeCfg D) (s : Fin c.shards) (p : IdxOp → Bool) : Meas c where
  val o := (o.idxLog s).countP p
  w x := match x with | .idx s' op => if s' = s ∧ p op = true then 1 else 0 | _ => 0
  step o x := by
    cases x <;> simp only [Obs.exec, Nat.add_zero]
    rename_i s' op
    by_cases h : s' = s
    · subst h; by_cases hp : p op = true <;> simp [List.countP_append, hp]
    · simp [h, Ne.symm h]

/-- The number of ranker events executed on shard `s` that satisfy `p`. -/
def μRank (c : PipeCfg D) (s : Fin c.shards) (p : RankEv D → Bool) : Meas c where
  val o := (o.rankLog s).countP p
  w x := match x with | .rank s' op => if s' = s ∧ p op = true then 1 else 0 | _ => 0
  step o x := by
    cases x <;> simp only [Obs.exec, Nat.add_zero]
    rename_i s' op
    by_cases h : s' = s
    · subst h; by_cases hp : p op = true <;> simp [List.countP_append, hp]
    · simp [h, Ne.symm h]

/-- The number of database operations executed on store shard `m` that satisfy `p`. -/
def μDb (c : PipeCfg D) (m : Fin c.stores) (p : DbOp D → Bool) : Meas c where
  val o := (o.dbLog m).countP p
  w x := match x with | .db s' op => if s' = m ∧ p op = true then 1 else 0 | _ => 0
  step o x := by
    cases x <;> simp only [Obs.exec, Nat.add_zero]
    rename_i s' op
    by_cases h : s' = m
    · subst h; by_cases hp : p op = true <;> simp [List.countP_append, hp]
    · simp [h, Ne.symm h]

end Riot
