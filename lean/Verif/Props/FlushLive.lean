import Verif.Props.Pipeline
import Verif.Spec.PipeWitness
import Mathlib.Tactic.IntervalCases

/-!
# Does Flush return while other goroutines keep indexing? C120
-/

namespace Riot

variable {D : Type}

/-- engine.go:813-827: a round of the first loop of Flush, made at one moment, finds the equations true. -/
def Pipe.roundNow {c : PipeCfg D} (st : Pipe c) : Prop :=
  st.count .indexingReqs = st.count .indexed ∧ st.count .removingReqs * c.shards = st.count .removed ∧
    (c.useStore = true → st.count .indexingReqs = st.count .stored + st.credit)

variable {c : PipeCfg D}

/-- **C120 (partial: see `C120_refuted`)** Once no new calls are made, every Flush returns: whatever the schedule, the number of
remaining steps is bounded, and when nothing more can happen no client is left inside a call. -/
theorem C120_flush_returns_partial (hz : c.toPipeSize.Ok) (db : Fin c.stores → List (Str × D)) (as : List (Act c.toPipeSize D))
    (st : Pipe c) (h : (Pipe.start c db).run as = some st) :
    ∃ N, ∀ (bs : List (Act c.toPipeSize D)) (st' : Pipe c), (∀ a ∈ bs, a.isCall = false) → st.run bs = some st' →
      bs.length ≤ N ∧ ((∀ a, a.isCall = false → st'.step a = none) → ∀ i, st'.prog (.client i) = []) := by
  obtain ⟨N, hN⟩ := C32_calls_return hz db as st h
  exact ⟨N, fun bs st' h1 h2 => ⟨(hN bs st' h1 h2).1, fun h3 i => ((hN bs st' h1 h2).2 h3).2.1 _⟩⟩

/-- **C120 (partial: see `C120_refuted`)** One pause is enough: at a moment when every client is idle or inside a Flush and the
workers have nothing to do, a Flush that looks at the counters finds its equations true. -/
theorem C120_pause_suffices_partial (db : Fin c.stores → List (Str × D)) (as : List (Act c.toPipeSize D)) (st : Pipe c)
    (h : (Pipe.start c db).run as = some st) (hin : st.inited = true)
    (hcl : ∀ i, st.prog (.client i) <:+ c.call .flush) (hw : ∀ t, (∀ i, t ≠ .client i) → st.prog t = [])
    (hch : ∀ q, st.chan q = []) : st.roundNow := by
  have hr : Reach db st := ⟨as, h⟩
  have hz0 : ∀ k, c.callCount k .flush = 0 → (μCount c k).pending st = 0 := by
    intro k hk
    unfold Meas.pending
    have e3 : wsum (fun x : Fin c.stores × DbOp D => (μCount c k).w (.db x.1 x.2)) st.spawned = 0 := by
      induction st.spawned with
      | nil => rfl
      | cons x l ih => rw [wsum_cons, ih]; rfl
    have e1 : ∑ q, wsum ((μCount c k).wm q) (st.chan q) = 0 := Finset.sum_eq_zero (fun q _ => by rw [hch q]; rfl)
    rw [e3, e1, Finset.sum_eq_zero]
    intro t _
    by_cases ht : ∃ i, t = .client i
    · obtain ⟨i, rfl⟩ := ht
      have := wsum_suffix (μCount c k).w2 (hcl i)
      rw [μCount_call, hk] at this
      omega
    · rw [hw t (fun i hi => ht ⟨i, hi⟩)]; rfl
  have e2 := hr.indexingReqs_total
  rw [hz0 _ rfl] at e2
  refine ⟨?_, ?_, fun hs => ?_⟩
  · have e1 := hr.indexed_total
    rw [hz0 _ rfl] at e1
    omega
  · have e1 := hr.removed_total
    have e2 := hr.removingReqs_total
    rw [hz0 _ rfl] at e1 e2
    rw [Nat.add_zero] at e1 e2
    rw [e1, e2, Nat.mul_comm]
  · have e1 := hr.stored_total hs
    have e3 := hr.credit hin
    rw [hz0 _ rfl] at e1
    omega

/-- Two clients, two shards, with store. -/
def pausePipe : PipeCfg Nat := demoPipe 2 2 1 (by decide) (by decide) true

def pauseActs : List (Act pausePipe.toPipeSize Nat) :=
  (Pipe.start pausePipe (fun _ => [])).session (demoActs _ ++ demoRanks _)
    [(⟨0, by decide⟩, .index (str "1") 1 false), (⟨1, by decide⟩, .index (str "2") 2 false)] ++ [.call ⟨1, by decide⟩ .flush]

/-- The hypotheses are met: after two Index calls and their work, with a Flush waiting. -/
example : ∃ st : Pipe pausePipe, (Pipe.start pausePipe (fun _ => [])).run pauseActs = some st ∧ st.inited = true ∧
    st.prog (.client ⟨1, by decide⟩) = pausePipe.call .flush ∧ (∀ i, st.prog (.client i) <:+ pausePipe.call .flush) ∧
    (∀ t, (∀ i, t ≠ .client i) → st.prog t = []) ∧ (∀ q, st.chan q = []) ∧ st.count .indexingReqs = 2 := by
  refine ⟨_, (Option.some_get (x := (Pipe.start pausePipe (fun _ => [])).run pauseActs) (by decide +kernel)).symm, ?_⟩
  decide +kernel

/-! ## Endless indexing -/

/-- Three client goroutines, one shard, no store. -/
def busyPipe : PipeCfg Nat := demoPipe 3 1 1 (by decide) (by decide) false

abbrev BThread := Thread busyPipe.toPipeSize
abbrev BAct := Act busyPipe.toPipeSize Nat

def bshard : Fin busyPipe.shards := ⟨0, by decide⟩
def bgse : Fin busyPipe.gse := ⟨0, by decide⟩
def bclient (b : Bool) : Fin busyPipe.clients := if b then ⟨0, by decide⟩ else ⟨1, by decide⟩
def bflush : Fin busyPipe.clients := ⟨2, by decide⟩
def bid : Str := str "1"

/-- A second goroutine calls Index; then the document of the first one goes through the pipeline. -/
def busyHalf (b : Bool) : List BAct :=
  [.call (bclient !b) (.index bid 1 false), .run (.client (bclient !b)), .run (.client (bclient b)),
   .recv (.seg bgse), .run (.seg bgse), .run (.seg bgse), .recv (.idxAdd bshard), .run (.idxAdd bshard),
   .run (.idxAdd bshard), .run (.idxAdd bshard), .recv (.rankAdd bshard), .run (.rankAdd bshard)]

/-- One goroutine has announced a document (tick) and not yet sent it; a Flush waits; all else is idle. -/
structure Busy (b : Bool) (st : Pipe busyPipe) : Prop where
  inited : st.inited = true
  chan : st.chan = fun _ => []
  prog : st.prog = fun t => if t = .client (bclient b) then [.send .seg (.seg bid 1 false)]
    else if t = .client bflush then busyPipe.call .flush else []
  behind : st.count .indexingReqs = st.count .indexed + 1


theorem busy_call : busyPipe.call (.index bid 1 false) = [.tick .indexingReqs 1, .send .seg (.seg bid 1 false)] := by decide +kernel
theorem busy_seg : busyPipe.expand .seg (.seg bid 1 false) =
  [.send (.idxAdd bshard) (.add (some (bid, 1)) false), .send (.rankAdd bshard) (.rankAdd bid 1)] := by decide +kernel
theorem busy_add : busyPipe.expand (.idxAdd bshard) (.add (some (bid, 1)) false) =
  [.idx bshard (.add (busyPipe.docOf bid 1) false), .tick .tokens (busyPipe.docOf bid 1).keywords.length, .tick .indexed 1] := rfl
theorem busy_rank : busyPipe.expand (.rankAdd bshard) (.rankAdd bid 1) = [.rank bshard (.add bid 1)] := rfl
theorem busy_capSeg : busyPipe.cap .seg = 2 := rfl
theorem busy_capIdx (s) : busyPipe.cap (.idxAdd s) = 2 := rfl
theorem busy_capRank (s) : busyPipe.cap (.rankAdd s) = 2 := rfl
theorem busy_ne1 (b : Bool) : bclient (!b) ≠ bclient b := by cases b <;> decide
theorem busy_ne2 (b : Bool) : bclient b ≠ bclient (!b) := by cases b <;> decide
theorem busy_ne3 (b : Bool) : bclient b ≠ bflush := by cases b <;> decide


/-- The states of the half cycle. -/
theorem busyHalf_prefix (b : Bool) (st : Pipe busyPipe) (h : Busy b st) (k : Nat) (hk : k < 12) :
    ∃ st', st.run ((busyHalf b).take k) = some st' ∧ st'.prog (.client bflush) = busyPipe.call .flush ∧
      st'.count .indexingReqs ≠ st'.count .indexed := by
  obtain ⟨inited, prog, chan, spawned, count, credit, idxLog, rankLog, dbLog, seen, calls⟩ := st
  obtain ⟨h1, h2, h3, h4⟩ := h
  simp only at h1 h2 h3 h4
  subst h1 h2 h3
  have e := busy_ne3 b
  have e' := busy_ne3 (!b)
  interval_cases k <;>
  · refine ⟨?_, ?_, ?_⟩
    rotate_left
    · simp [busyHalf, Pipe.run, Pipe.step, Pipe.exec, busy_call, busy_seg, busy_add, busy_rank, busy_ne1, busy_ne2, busy_ne3, Thread.input, busy_capSeg, busy_capIdx,
        busy_capRank]
      rfl
    · constructor
      · simp [e.symm, e'.symm]
      · simp
        omega

theorem busyHalf_runs (b : Bool) (st : Pipe busyPipe) (h : Busy b st) :
    ∃ st', st.run (busyHalf b) = some st' ∧ Busy (!b) st' := by
  obtain ⟨inited, prog, chan, spawned, count, credit, idxLog, rankLog, dbLog, seen, calls⟩ := st
  obtain ⟨h1, h2, h3, h4⟩ := h
  simp only at h1 h2 h3 h4
  subst h1 h2 h3
  have e := busy_ne3 b
  have e' := busy_ne3 (!b)
  refine ⟨?_, ?_, ?_⟩
  rotate_left
  · simp [busyHalf, Pipe.run, Pipe.step, Pipe.exec, busy_call, busy_seg, busy_add, busy_rank, busy_ne1, busy_ne2, busy_ne3, Thread.input, busy_capSeg, busy_capIdx, busy_capRank]
    rfl
  · constructor
    · rfl
    · funext q
      simp only [Function.update_apply]
      split_ifs <;> rfl
    · funext t
      simp only [Function.update_apply]
      have := busy_ne1 b
      split_ifs <;> simp_all
    · simp
      omega

/-! ### The endless run -/

/-- The `n`-th action. -/
def endless (n : Nat) : BAct := (busyHalf (n / 12 % 2 == 0)).getD (n % 12) .ready

/-- One action at a time. -/
def endlessRun (st : Pipe busyPipe) : Nat → Pipe busyPipe
  | 0 => st
  | n + 1 => ((endlessRun st n).step (endless n)).getD (endlessRun st n)

theorem busyHalf_len (b : Bool) : (busyHalf b).length = 12 := rfl

theorem pipe_run_snoc {c : PipeCfg D} (st : Pipe c) (l : List (Act c.toPipeSize D)) (a : Act c.toPipeSize D) :
    st.run (l ++ [a]) = (st.run l).bind (fun s => s.step a) := by
  induction l generalizing st with
  | nil => simp [Pipe.run]
  | cons x l ih =>
    simp only [List.cons_append, Pipe.run]
    cases st.step x with
    | none => rfl
    | some s => exact ih s

/-- Inside one half cycle. -/
theorem endless_in {st0 : Pipe busyPipe} (q : Nat) (hq : Busy (q % 2 == 0) (endlessRun st0 (12 * q))) (k : Nat) (hk : k ≤ 12) :
    (endlessRun st0 (12 * q)).run ((busyHalf (q % 2 == 0)).take k) = some (endlessRun st0 (12 * q + k)) := by
  induction k with
  | zero => rfl
  | succ k ih =>
    have ih := ih (by omega)
    have hl : k < (busyHalf (q % 2 == 0)).length := by rw [busyHalf_len]; omega
    have hd : (12 * q + k) / 12 = q ∧ (12 * q + k) % 12 = k := by omega
    have ha : endless (12 * q + k) = (busyHalf (q % 2 == 0))[k] := by
      unfold endless
      rw [hd.1, hd.2]
      simp [List.getD, hl]
    have hs : ∃ s, (endlessRun st0 (12 * q)).run ((busyHalf (q % 2 == 0)).take (k + 1)) = some s := by
      by_cases h12 : k + 1 < 12
      · obtain ⟨s, hs, -⟩ := busyHalf_prefix _ _ hq (k + 1) h12
        exact ⟨s, hs⟩
      · obtain ⟨s, hs, -⟩ := busyHalf_runs _ _ hq
        exact ⟨s, by rw [List.take_of_length_le (by rw [busyHalf_len]; omega)]; exact hs⟩
    obtain ⟨s, hs⟩ := hs
    rw [hs]
    rw [List.take_add_one, List.getElem?_eq_getElem hl, Option.toList_some, pipe_run_snoc, ih, Option.bind_some] at hs
    rw [← Nat.add_assoc, endlessRun, ha, hs, Option.getD_some]

theorem endless_busy {st0 : Pipe busyPipe} (h : Busy true st0) (q : Nat) : Busy (q % 2 == 0) (endlessRun st0 (12 * q)) := by
  induction q with
  | zero => exact h
  | succ q ih =>
    have e := endless_in q ih 12 (le_refl _)
    rw [List.take_of_length_le (by rw [busyHalf_len])] at e
    obtain ⟨s, h1, h2⟩ := busyHalf_runs _ _ ih
    rw [e, Option.some.injEq] at h1
    have e2 : ((q + 1) % 2 == 0) = !(q % 2 == 0) := by
      rcases Nat.mod_two_eq_zero_or_one q with h | h <;> simp [Nat.add_mod, h]
    rw [e2, Nat.mul_succ, h1]
    exact h2

theorem endless_step {st0 : Pipe busyPipe} (h : Busy true st0) (n : Nat) :
    (endlessRun st0 n).step (endless n) = some (endlessRun st0 (n + 1)) := by
  have hb := endless_busy h (n / 12)
  have e : 12 * (n / 12) + n % 12 = n := Nat.div_add_mod n 12
  have h1 := endless_in _ hb (n % 12) (by omega)
  have h2 := endless_in _ hb (n % 12 + 1) (by omega)
  have hl : n % 12 < (busyHalf (n / 12 % 2 == 0)).length := by rw [busyHalf_len]; omega
  rw [List.take_add_one, List.getElem?_eq_getElem hl, Option.toList_some, pipe_run_snoc, h1, Option.bind_some, ← Nat.add_assoc, e] at h2
  rw [← h2]
  unfold endless
  simp [List.getD, hl]

theorem endless_waits {st0 : Pipe busyPipe} (h : Busy true st0) (n : Nat) :
    (endlessRun st0 n).prog (.client bflush) = busyPipe.call .flush ∧
      (endlessRun st0 n).count .indexingReqs ≠ (endlessRun st0 n).count .indexed := by
  have hb := endless_busy h (n / 12)
  have e : 12 * (n / 12) + n % 12 = n := Nat.div_add_mod n 12
  have h1 := endless_in _ hb (n % 12) (by omega)
  obtain ⟨s, g1, g2⟩ := busyHalf_prefix _ _ hb (n % 12) (Nat.mod_lt _ (by decide))
  rw [e] at h1
  rw [h1, Option.some.injEq] at g1
  rw [g1]
  exact g2

/-- A goroutine calls Index (it has announced the document), another one Flush. -/
def beforeEndless : List BAct := [.ready, .call bflush .flush, .call (bclient true) (.index bid 1 false), .run (.client (bclient true))]

theorem before_busy : ∃ st, (Pipe.start busyPipe (fun _ => [])).run beforeEndless = some st ∧ Busy true st := by
  refine ⟨?_, ?_, ?_⟩
  rotate_left
  · simp [beforeEndless, Pipe.start, Pipe.run, Pipe.step, Pipe.exec, busy_call, busy_ne3]
    rfl
  · have := busy_ne3 true
    constructor
    · rfl
    · rfl
    · funext t
      simp only [Function.update_apply]
      split_ifs <;> simp_all
      cases t <;> rfl
    · simp

theorem idle_or (i : Fin busyPipe.clients) (hi : i ≠ bflush) : i = bclient true ∨ i = bclient false := by
  revert i; decide

/-- **C120 is false of the code**: two goroutines call Index over and over; every one of their calls returns, the workers
finish all work and wait for more again and again, but there is no moment at which a Flush called by a third goroutine would
find its equations true: it is always in its first loop. (The second Index call announces its document before the first one is
counted as indexed.) -/
theorem C120_refuted : ∃ (st : Nat → Pipe busyPipe) (a : Nat → BAct),
    (∃ as, (Pipe.start busyPipe (fun _ => [])).run as = some (st 0)) ∧ (∀ n, (st n).step (a n) = some (st (n + 1))) ∧
    (∀ n, (st n).prog (.client bflush) = busyPipe.call .flush ∧ ¬ (st n).roundNow) ∧
    (∀ i, i ≠ bflush → ∀ n, (∃ m ≥ n, ∃ d x f, a m = .call i (.index d x f)) ∧ ∃ m ≥ n, (st m).prog (.client i) = []) ∧
    ∀ n, ∃ m ≥ n, (∀ q, (st m).chan q = []) ∧ ∀ t, (∀ i, t ≠ .client i) → (st m).prog t = [] := by
  obtain ⟨st0, h0, hb⟩ := before_busy
  refine ⟨endlessRun st0, endless, ⟨_, h0⟩, endless_step hb, fun n => ⟨(endless_waits hb n).1, fun h => (endless_waits hb n).2 h.1⟩, ?_, ?_⟩
  · have key : ∀ b n, ∃ q, n ≤ 12 * q ∧ (q % 2 == 0) = b := by
      intro b n
      cases b
      · exact ⟨2 * n + 1, by omega, by simp⟩
      · exact ⟨2 * n, by omega, by simp⟩
    have one : ∀ b n, (∃ m ≥ n, ∃ d x f, endless m = .call (bclient b) (.index d x f)) ∧
        ∃ m ≥ n, (endlessRun st0 m).prog (.client (bclient b)) = [] := by
      intro b n
      obtain ⟨q, h1, h2⟩ := key (!b) n
      refine ⟨⟨12 * q, h1, bid, 1, false, ?_⟩, 12 * q, h1, ?_⟩
      · unfold endless
        have e : 12 * q / 12 = q := by omega
        have e' : 12 * q % 12 = 0 := by omega
        rw [e, e', h2]
        simp [busyHalf]
      · have hq := endless_busy hb q
        rw [h2] at hq
        rw [hq.prog]
        simp [busy_ne2, busy_ne3]
    intro i hi n
    rcases idle_or i hi with rfl | rfl
    · exact one true n
    · exact one false n
  · intro n
    refine ⟨12 * n, by omega, fun q => ?_, fun t ht => ?_⟩
    · rw [(endless_busy hb n).chan]
    · rw [(endless_busy hb n).prog]
      simp [ht]

end Riot
