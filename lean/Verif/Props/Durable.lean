import Verif.Model.Durable
import Verif.Props.StoreLib

/-!
# C91: power failures, C92: Close
-/

namespace Riot

variable {D : Type} {c : PipeCfg D}

theorem step_dbLog_one (st st' : Pipe c) (a : Act c.toPipeSize D) (h : st.step a = some st') (m : Fin c.stores) :
    st'.dbLog m = st.dbLog m ∨ ∃ op, st'.dbLog m = st.dbLog m ++ [op] := by
  cases a with
  | call i b =>
    simp only [Pipe.step] at h
    split at h
    · rw [← Option.some.inj h]; exact Or.inl rfl
    · simp at h
  | run t =>
    cases hp : st.prog t with
    | nil => simp [Pipe.step, hp] at h
    | cons x l =>
      have he := (step_run_prog hp h).2
      cases x <;> simp only [Pipe.exec] at he
      case db s' op =>
        rw [← Option.some.inj he]
        by_cases hs : m = s'
        · subst hs; exact Or.inr ⟨op, by simp⟩
        · exact Or.inl (by simp [hs])
      all_goals first
        | (split at he <;> first | (rw [← Option.some.inj he]; exact Or.inl rfl) | simp at he)
        | (rw [← Option.some.inj he]; exact Or.inl rfl)
  | recv t' =>
    simp only [Pipe.step] at h
    split at h
    · simp at h
    · split at h
      · rw [← Option.some.inj h]; exact Or.inl rfl
      · simp at h
  | bg k =>
    simp only [Pipe.step] at h
    split at h
    · simp at h
    · rename_i s' op hk
      rw [← Option.some.inj h]
      by_cases hs : m = s'
      · subst hs; exact Or.inr ⟨op, by simp⟩
      · exact Or.inl (by simp [hs])
  | ready =>
    simp only [Pipe.step] at h
    split at h
    · rw [← Option.some.inj h]; exact Or.inl rfl
    · simp at h

/-- Every first part of the log of a database was its whole log at some moment of the run. -/
theorem dbLog_moment (m : Fin c.stores) (as : List (Act c.toPipeSize D)) (st0 st : Pipe c) (h : st0.run as = some st)
    (k : Nat) (hk : (st0.dbLog m).length ≤ k) :
    ∃ (n : Nat) (u : Pipe c), st0.run (as.take n) = some u ∧ u.dbLog m = (st.dbLog m).take k := by
  induction as generalizing st0 with
  | nil =>
    refine ⟨0, st0, rfl, ?_⟩
    cases Option.some.inj h
    rw [List.take_of_length_le hk]
  | cons a as ih =>
    obtain ⟨st1, h1, h2⟩ := Option.bind_eq_some_iff.1 h
    by_cases hl : (st1.dbLog m).length ≤ k
    · obtain ⟨n, u, hn, hu⟩ := ih st1 h2 hl
      exact ⟨n + 1, u, by rw [List.take_succ_cons]; exact Option.bind_eq_some_iff.2 ⟨st1, h1, hn⟩, hu⟩
    · rcases step_dbLog_one _ _ _ h1 m with he | ⟨op, he⟩
      · rw [he] at hl; exact absurd hk hl
      · have hlen : (st1.dbLog m).length = (st0.dbLog m).length + 1 := by rw [he]; simp
        have hkeq : k = (st0.dbLog m).length := by omega
        refine ⟨0, st0, rfl, ?_⟩
        have hp : st0.dbLog m <+: st.dbLog m :=
          (List.prefix_append _ _).trans ((he ▸ List.prefix_refl _ : st0.dbLog m ++ [op] <+: st1.dbLog m).trans
            (run_dbLog as st1 st h2 m))
        rw [hkeq]
        exact List.prefix_iff_eq_take.1 hp

/-- As `Lives`, but a life may also end by a failure of the machine. -/
inductive PowerLives (b : Bundled) (enc : D → Str) (dec : Str → Option D) (c : PipeCfg D) :
    (Fin c.stores → Store.Db) → List (Call D) → Prop
  | new : PowerLives b enc dec c (fun _ => .empty) []
  | live {files left : Fin c.stores → Store.Db} {calls : List (Call D)} {as : List (Act c.toPipeSize D)} {st : Pipe c} :
      PowerLives b enc dec c files calls →
      (Pipe.start c (fun m => storeInitReads dec (files m))).run as = some st →
      AfterPowerLoss b enc files st left →
      PowerLives b enc dec c left (calls ++ st.calls.map (·.2))

/-- A process that just ends is a special case: nothing is lost. -/
theorem AfterPowerLoss.none_lost (b : Bundled) (enc : D → Str) (files : Fin c.stores → Store.Db) (st : Pipe c) :
    AfterPowerLoss b enc files st (libAfter b.lib enc files st) :=
  fun m => ⟨(st.dbLog m).length, fun _ => Nat.le_refl _, by rw [List.take_length]; rfl⟩

theorem PowerLives.origin {b : Bundled} {enc : D → Str} {dec : Str → Option D} {files : Fin c.stores → Store.Db}
    {calls : List (Call D)} (h : PowerLives b enc dec c files calls) (m : Fin c.stores) (k v : Str)
    (hv : (files m).get k = some v) :
    c.storeRoute k = m ∧ k ≠ str "0" ∧ ∃ x f, v = enc x ∧ c.encodes x = true ∧ Call.index k x f ∈ calls := by
  induction h with
  | new => simp [GoMap.get_empty] at hv
  | live hl hrun hp ih =>
    obtain ⟨n, _, hm⟩ := hp m
    rw [hm] at hv
    rcases file_origin _ _ k v hv with h | ⟨x, hx, h1, h2⟩
    · obtain ⟨h1, h2, x, f, h4, h5, h6⟩ := ih h
      exact ⟨h1, h2, x, f, h4, h5, List.mem_append_left _ h6⟩
    · obtain ⟨_, g1, g2, g3, i, f, g4⟩ := db_mem_set ⟨_, hrun⟩ (List.mem_of_mem_take hx)
      exact ⟨g2, g1, x, f, h1, g3, List.mem_append_right _ (List.mem_map.2 ⟨_, g4, rfl⟩)⟩

/-- **C91** On every bundled store, whatever was called in any number of lives, ended by power failures or otherwise: the next engine
reads from the database of a store shard whole documents, each once, each given to Index under this id in some life (and never the
id "0"), and the id belongs to this shard. -/
theorem C91_only_given_documents {b : Bundled} {enc : D → Str} {dec : Str → Option D}
    (hdec : ∀ x, c.encodes x = true → dec (enc x) = some x) {files : Fin c.stores → Store.Db} {calls : List (Call D)}
    (h : PowerLives b enc dec c files calls) (m : Fin c.stores) :
    ((storeInitReads dec (files m)).map (·.1)).Nodup ∧
    ∀ (d : Str) (x : D), (d, x) ∈ storeInitReads dec (files m) →
      d ≠ str "0" ∧ c.storeRoute d = m ∧ c.encodes x = true ∧ ∃ f, Call.index d x f ∈ calls := by
  refine ⟨reads_nodup _ _, fun d x hx => ?_⟩
  obtain ⟨v, hv, hd⟩ := reads_mem.1 hx
  obtain ⟨h1, h2, y, f, h4, h5, h6⟩ := h.origin m d v hv
  rw [h4, hdec y h5] at hd
  cases hd
  exact ⟨h2, h1, h5, f, h6⟩

/-- **C91 (partial: an earlier moment)** On every bundled store, after a power failure at any moment of a run, each database holds what
it held at some moment of the run. Missing: that nothing of a finished Flush is lost (`C91_refuted_default_store`), and that it is the same
moment for all store shards (`C91_refuted_order`). -/
theorem C91_earlier_moment_partial (b : Bundled) (enc : D → Str) (db : Fin c.stores → List (Str × D))
    (files left : Fin c.stores → Store.Db) (as : List (Act c.toPipeSize D)) (st : Pipe c)
    (hrun : (Pipe.start c db).run as = some st) (h : AfterPowerLoss b enc files st left) (m : Fin c.stores) :
    ∃ (n : Nat) (u : Pipe c), (Pipe.start c db).run (as.take n) = some u ∧ left m = libAfter b.lib enc files u m := by
  obtain ⟨k, _, hk⟩ := h m
  obtain ⟨n, u, hu, hl⟩ := dbLog_moment m as _ st hrun k (Nat.zero_le _)
  exact ⟨n, u, hu, by rw [hk, ← hl]; rfl⟩

theorem AfterPowerLoss.synced {b : Bundled} (hb : b.synced = true) {enc : D → Str} {files left : Fin c.stores → Store.Db}
    {st : Pipe c} (h : AfterPowerLoss b enc files st left) : left = libAfter b.lib enc files st := by
  funext m
  obtain ⟨k, h1, h2⟩ := h m
  rw [h2, List.take_of_length_le (h1 hb)]
  rfl

/-- As `FlushedLives`, but a life may also end by a failure of the machine. -/
inductive FlushedPowerLives (b : Bundled) (enc : D → Str) (dec : Str → Option D) (c : PipeCfg D) (d : Str) :
    (Fin c.stores → Store.Db) → List (Call D) → Prop
  | new : FlushedPowerLives b enc dec c d (fun _ => .empty) []
  | live {files left : Fin c.stores → Store.Db} {calls : List (Call D)} {as later : List (Act c.toPipeSize D)}
      {st st' u : Pipe c} {i : Fin c.clients} :
      FlushedPowerLives b enc dec c d files calls →
      (Pipe.start c (fun m => storeInitReads dec (files m))).run as = some st →
      SequentialFor d (Pipe.start c (fun m => storeInitReads dec (files m))) as →
      (∀ i f, (i, Call.remove d f) ∉ st.calls) →
      FlushCompletes i st st' → st'.run later = some u → NoCallAbout d later →
      AfterPowerLoss b enc files u left →
      FlushedPowerLives b enc dec c d left (calls ++ st.calls.map (·.2))

theorem FlushedPowerLives.flushed {b : Bundled} (hb : b.synced = true) {enc : D → Str} {dec : Str → Option D} {d : Str}
    {files : Fin c.stores → Store.Db} {calls : List (Call D)} (h : FlushedPowerLives b enc dec c d files calls) :
    FlushedLives b.lib enc dec c d files calls := by
  induction h with
  | new => exact .new
  | live hl hrun hseq hrm hf hlat hno hp ih => rw [hp.synced hb]; exact .live ih hrun hseq hrm hf hlat hno

/-- **C91 (partial: bbolt and badger, the library accepts the id, `d` is never removed)** After any number of lives that ended, also by power
failures, after a Flush: the store shard of `d` holds the data of the last Index(d) of all lives whose encoding succeeded, no other shard
holds anything about `d`. Missing: the default store (`C91_refuted_default_store`), and the conditions of
`C90_last_version_kept_partial`. -/
theorem C91_synced_keeps_partial (hs : c.useStore = true) {b : Bundled} (hb : b.synced = true) {enc : D → Str}
    {dec : Str → Option D} (hdec : ∀ x, c.encodes x = true → dec (enc x) = some x) {d : Str} (h0 : d ≠ str "0")
    {files : Fin c.stores → Store.Db} {calls : List (Call D)} (hacc : AcceptsDoc b.lib c enc d calls)
    (h : FlushedPowerLives b enc dec c d files calls) (m : Fin c.stores) (x : D) :
    (d, x) ∈ storeInitReads dec (files m) ↔ m = c.storeRoute d ∧ lastStored c d none calls = some x :=
  C90_last_version_kept_partial hs hdec h0 hacc (h.flushed hb) m x

/-- **C91 is refuted** for the default store: whatever was called, flushed or closed, since the engine started, a power failure can take
all of it: the databases are again the ones the engine was started on. -/
theorem C91_refuted_default_store (enc : D → Str) (files : Fin c.stores → Store.Db) (st : Pipe c) :
    AfterPowerLoss .ldb enc files st files :=
  fun m => ⟨0, fun h => by simp [Bundled.synced] at h, by simp [Store.run]⟩

/-- Index("1", 7). -/
def inOrder : List (Fin storePipe.clients × Call Nat) := [(sclient, Call.index (str "1") 7 false)]

/-- **C91 is refuted**, also the order of the calls can be lost: Index("1", 7), Flush returns, Index("22", 4), Flush returns, power failure. On
the default store the next engine can find "22" in its databases, and "1" missing. -/
theorem C91_refuted_order : ∃ (as : List (Act storePipe.toPipeSize Nat)) (st0 st1 st2 st3 st4 : Pipe storePipe)
      (bs : List (Act storePipe.toPipeSize Nat)) (left : Fin storePipe.stores → Store.Db),
    (Pipe.start storePipe (fun _ => [])).run as = some st0 ∧ st0.calls = inOrder ∧ FlushCompletes sclient st0 st1 ∧
    st1.step (.call sclient (.index (str "22") 4 false)) = some st2 ∧ st2.run bs = some st3 ∧ FlushCompletes sclient st3 st4 ∧
    AfterPowerLoss .ldb demoEnc (fun _ => .empty) st4 left ∧
    storeInitReads demoDec (left (storePipe.storeRoute (str "22"))) = [(str "22", 4)] ∧
    storeInitReads demoDec (left (storePipe.storeRoute (str "1"))) = [] := by
  let as := (Pipe.start storePipe (fun _ => [])).session (demoActs _) inOrder
  have h : ((Pipe.start storePipe (fun _ => [])).run as).any (fun st0 =>
      decide (st0.calls = inOrder) &&
      (st0.flushBy sclient (st0.flushSched (demoActs _) sclient)).any (fun st1 =>
        (st1.step (.call sclient (.index (str "22") 4 false))).any (fun st2 =>
          (st2.run (st2.greedy (demoActs _ ++ demoRanks _) 100)).any (fun st3 =>
            (st3.flushBy sclient (st3.flushSched (demoActs _) sclient)).any (fun st4 =>
              decide (∀ m, st4.dbLog m = if m = db1 then [.set (str "1") 7] else [.set (str "22") 4])))))) = true := by
    decide +kernel
  obtain ⟨st0, hst0, hp0⟩ := (Option.any_eq_true _ _).1 h
  simp only [Bool.and_eq_true, decide_eq_true_eq] at hp0
  obtain ⟨st1, hst1, hp1⟩ := (Option.any_eq_true _ _).1 hp0.2
  obtain ⟨st2, hst2, hp2⟩ := (Option.any_eq_true _ _).1 hp1
  obtain ⟨st3, hst3, hp3⟩ := (Option.any_eq_true _ _).1 hp2
  obtain ⟨st4, hst4, hp4⟩ := (Option.any_eq_true _ _).1 hp3
  have hlog := of_decide_eq_true hp4
  let left : Fin storePipe.stores → Store.Db := fun m =>
    (Store.run Store.leveldb .empty ((if m = db1 then [] else [DbOp.set (str "22") 4]).map (DbOp.onLib demoEnc))).1
  refine ⟨as, st0, st1, st2, st3, st4, _, left, hst0, hp0.1, flushBy_completes hst1, hst2, hst3, flushBy_completes hst4, ?_, ?_, ?_⟩
  · intro m
    refine ⟨if m = db1 then 0 else 1, fun h => by simp [Bundled.synced] at h, ?_⟩
    rw [hlog m]
    by_cases hm : m = db1
    · simp [left, hm, Bundled.lib]
    · simp [left, hm, Bundled.lib]
  · decide +kernel
  · decide +kernel

/-! ## Close -/

/-- **C92 (partial: the library accepts the id, `d` is never removed and not called about while the databases are closed)** After Close, the
next engine reads exactly the last version of `d` given before Close, whatever is done with the closed engine afterwards. Missing:
removals (C44), and documents given after Close, which are lost (`C92_refuted_after_close`). -/
theorem C92_close_keeps_partial (hs : c.useStore = true) {b : Store.Lib} {enc : D → Str} {dec : Str → Option D}
    (hdec : ∀ x, c.encodes x = true → dec (enc x) = some x) {d : Str} (h0 : d ≠ str "0")
    {files left : Fin c.stores → Store.Db} {calls : List (Call D)} (h : FlushedLives b enc dec c d files calls)
    (as during : List (Act c.toPipeSize D)) (st st' : Pipe c) (i : Fin c.clients)
    (hrun : (Pipe.start c (fun m => storeInitReads dec (files m))).run as = some st)
    (hseq : SequentialFor d (Pipe.start c (fun m => storeInitReads dec (files m))) as)
    (hrm : ∀ i f, (i, Call.remove d f) ∉ st.calls) (hacc : AcceptsDoc b c enc d (calls ++ st.calls.map (·.2)))
    (hf : FlushCompletes i st st') (hno : NoCallAbout d during) (hcl : ClosedFiles b enc files st' during left)
    (m : Fin c.stores) (x : D) :
    (d, x) ∈ storeInitReads dec (left m) ↔
      m = c.storeRoute d ∧ lastStored c d none (calls ++ st.calls.map (·.2)) = some x := by
  obtain ⟨n, u, hu, hl⟩ := hcl m
  rw [hl]
  exact C90_last_version_kept_partial hs hdec h0 hacc
    (.live h hrun hseq hrm hf hu (fun i b hb => hno i b (List.mem_of_mem_take hb))) m x

/-- **C92 is refuted**: a document that is first given after Close is never stored, however long the engine lives on and whatever is
flushed (`v` is the state when Close returns). -/
theorem C92_refuted_after_close {b : Store.Lib} {enc : D → Str} {dec : Str → Option D} {d : Str}
    {files left : Fin c.stores → Store.Db} {calls : List (Call D)} (h : Lives b enc dec c files calls)
    (as during : List (Act c.toPipeSize D)) (st st' v : Pipe c) (i : Fin c.clients)
    (hrun : (Pipe.start c (fun m => storeInitReads dec (files m))).run as = some st) (hf : FlushCompletes i st st')
    (hv : st'.run during = some v) (hcl : ClosedFiles b enc files st' during left)
    (hnew : ∀ x f, Call.index d x f ∉ calls ++ v.calls.map (·.2)) (m : Fin c.stores) (x : D) :
    (d, x) ∉ storeInitReads dec (left m) := by
  intro hx
  obtain ⟨w, hw, _⟩ := reads_mem.1 hx
  obtain ⟨n, u, hu, hl⟩ := hcl m
  obtain ⟨bs, hbs⟩ := (hf.reach ⟨_, hrun⟩).run hu
  rw [hl] at hw
  obtain ⟨_, _, _, y, f, _, _, hc⟩ := (Lives.live h hbs).origin m d w hw
  refine hnew y f ?_
  have hsplit : u.run (during.drop n) = some v := by
    have := hv
    rw [← List.take_append_drop n during, run_append, hu] at this
    exact this
  rw [run_calls _ _ _ hsplit]
  simp only [List.map_append, List.mem_append] at hc ⊢
  rcases hc with hc | hc
  · exact Or.inl hc
  · exact Or.inr (Or.inl hc)

/-! ## Examples -/

/-- **C92 is refuted**, an instance: Index("1", 7), Close, Index("22", 4), Flush. A search finds both documents, but the closed databases
hold only "1". -/
theorem C92_refuted_found_but_lost : ∃ (as : List (Act storePipe.toPipeSize Nat)) (st0 st1 st2 st3 st4 : Pipe storePipe)
      (bs : List (Act storePipe.toPipeSize Nat)) (left : Fin storePipe.stores → Store.Db),
    (Pipe.start storePipe (fun _ => [])).run as = some st0 ∧ st0.calls = inOrder ∧ FlushCompletes sclient st0 st1 ∧
    ClosedFiles Store.leveldb demoEnc (fun _ => .empty) st1 [] left ∧
    st1.step (.call sclient (.index (str "22") 4 false)) = some st2 ∧ st2.run bs = some st3 ∧ FlushCompletes sclient st3 st4 ∧
    st4.findKey sshard1 "k7" = some [str "1"] ∧ st4.findKey sshard0 "k4" = some [str "22"] ∧
    storeInitReads demoDec (left (storePipe.storeRoute (str "1"))) = [(str "1", 7)] ∧
    storeInitReads demoDec (left (storePipe.storeRoute (str "22"))) = [] := by
  let as := (Pipe.start storePipe (fun _ => [])).session (demoActs _) inOrder
  have h : ((Pipe.start storePipe (fun _ => [])).run as).any (fun st0 =>
      decide (st0.calls = inOrder) &&
      (st0.flushBy sclient (st0.flushSched (demoActs _) sclient)).any (fun st1 =>
        decide (storeInitReads demoDec (libAfter Store.leveldb demoEnc (fun _ => .empty) st1 (storePipe.storeRoute (str "1"))) =
          [(str "1", 7)] ∧
          storeInitReads demoDec (libAfter Store.leveldb demoEnc (fun _ => .empty) st1 (storePipe.storeRoute (str "22"))) = []) &&
        (st1.step (.call sclient (.index (str "22") 4 false))).any (fun st2 =>
          (st2.run (st2.greedy (demoActs _ ++ demoRanks _) 100)).any (fun st3 =>
            (st3.flushBy sclient (st3.flushSched (demoActs _) sclient)).any (fun st4 =>
              decide (st4.findKey sshard1 "k7" = some [str "1"] ∧ st4.findKey sshard0 "k4" = some [str "22"])))))) = true := by
    decide +kernel
  obtain ⟨st0, hst0, hp0⟩ := (Option.any_eq_true _ _).1 h
  simp only [Bool.and_eq_true, decide_eq_true_eq] at hp0
  obtain ⟨st1, hst1, hp1⟩ := (Option.any_eq_true _ _).1 hp0.2
  simp only [Bool.and_eq_true] at hp1
  obtain ⟨hq, hp1⟩ := hp1
  have hq := of_decide_eq_true hq
  obtain ⟨st2, hst2, hp2⟩ := (Option.any_eq_true _ _).1 hp1
  obtain ⟨st3, hst3, hp3⟩ := (Option.any_eq_true _ _).1 hp2
  obtain ⟨st4, hst4, hp4⟩ := (Option.any_eq_true _ _).1 hp3
  have hp4 := of_decide_eq_true hp4
  exact ⟨as, st0, st1, st2, st3, st4, _, libAfter Store.leveldb demoEnc (fun _ => .empty) st1, hst0, hp0.1,
    flushBy_completes hst1, fun m => ⟨0, st1, rfl, rfl⟩, hst2, hst3, flushBy_completes hst4, hp4.1, hp4.2, hq.1, hq.2⟩

/-- The hypotheses of `C91_synced_keeps_partial` and `C92_close_keeps_partial` are met: two versions of "1" and one of "22" on bbolt, Flush, and
then a power failure (or the closing of the databases); the files have the last versions. -/
example : ∃ (as : List (Act storePipe.toPipeSize Nat)) (st st' : Pipe storePipe) (left : Fin storePipe.stores → Store.Db),
    (Pipe.start storePipe (fun m => storeInitReads demoDec ((fun _ => .empty : Fin storePipe.stores → Store.Db) m))).run as = some st ∧
    FlushCompletes sclient st st' ∧
    FlushedPowerLives .bolt demoEnc demoDec storePipe (str "1") left ([] ++ storedCalls.map (·.2)) ∧
    AcceptsDoc Bundled.bolt.lib storePipe demoEnc (str "1") ([] ++ storedCalls.map (·.2)) ∧
    ClosedFiles Bundled.bolt.lib demoEnc (fun _ => .empty) st' [] left ∧
    (∀ m, storeInitReads demoDec (left m) = leftDb m) ∧
    lastStored storePipe (str "1") none ([] ++ storedCalls.map (·.2)) = some 9 := by
  let as := (Pipe.start storePipe (fun _ => [])).session (demoActs _) storedCalls
  have h : ((Pipe.start storePipe (fun _ => [])).run as).any (fun st =>
      decide (st.calls = storedCalls) &&
      (st.flushBy sclient (st.flushSched (demoActs _) sclient)).any (fun st' =>
        decide (∀ m, storeInitReads demoDec (libAfter Store.bbolt demoEnc (fun _ => .empty) st' m) = leftDb m)))
      = true := by decide +kernel
  obtain ⟨st, hst, hp⟩ := (Option.any_eq_true _ _).1 h
  simp only [Bool.and_eq_true, decide_eq_true_eq] at hp
  obtain ⟨st', hst', hp'⟩ := (Option.any_eq_true _ _).1 hp.2
  have hp' := of_decide_eq_true hp'
  refine ⟨as, st, st', libAfter Store.bbolt demoEnc (fun _ => .empty) st', hst, flushBy_completes hst', ?_, ?_,
    fun m => ⟨0, st', rfl, rfl⟩, hp', by decide +kernel⟩
  · have := FlushedPowerLives.live (b := .bolt) (enc := demoEnc) (dec := demoDec) (d := str "1") (c := storePipe) (as := as)
      (st := st) (st' := st') (u := st') (i := sclient) (later := []) .new hst (sequential_one rfl _ _ _ _ hst)
      (by intro i f; rw [hp.1]; simp [storedCalls]) (flushBy_completes hst') rfl (by intro i b hb; simp at hb)
      (AfterPowerLoss.none_lost .bolt demoEnc (fun _ => .empty) st')
    rw [hp.1] at this
    exact this
  · intro x f hx _
    have hx : x ≤ 9 := by
      simp only [storedCalls, List.map_cons, List.map_nil, List.nil_append, List.mem_cons, Call.index.injEq, List.not_mem_nil,
        or_false] at hx
      omega
    have h1 : (str "1").length = 1 := by decide +kernel
    have h2 : str "1" ≠ [] := by decide +kernel
    have h3 : (demoEnc x).length ≤ 10 := by simp [demoEnc]; omega
    simp only [Bundled.lib, Store.bbolt, h1, if_neg h2]
    rw [if_neg (by omega), if_neg (by omega)]

end Riot
