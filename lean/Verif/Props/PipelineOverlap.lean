import Verif.Proofs.PipelineOverlap
import Verif.Props.Pipeline

/-!
# C77: Flush while others call

Flush loads the two sides of the equations it waits for one after the other, so it can see requests of
before and completions of after another call.
-/

namespace Riot

variable {D : Type} {c : PipeCfg D}

/-- **C77** A Flush that was called when no other call was in progress gives what it promises when no call starts
before it returns (this is C32 again). -/
theorem C77_undisturbed_flush_partial (db : Fin c.stores → List (Str × D)) (as : List (Act c.toPipeSize D)) (st st' : Pipe c)
    (h : (Pipe.start c db).run as = some st) (hidle : st.ClientsIdle) (i : Fin c.clients)
    (during : List (Act c.toPipeSize D)) (hf : FlushReturns i st st' during) (hno : ∀ a ∈ during, a.isCall = false)
    (s : Fin c.shards) : st.Flushed db st' s := by
  obtain ⟨_, st1, h1, h2, h3⟩ := hf
  obtain ⟨L, M, e, hp, _, hm, _⟩ := flush_index ⟨as, h⟩ ⟨hidle, st1, during, h1, hno, h2, h3⟩ s
  exact ⟨L, M, e, hp.symm.subperm.trans (List.filter_sublist.subperm), _, hm, rfl⟩

/-- **C77** On an engine with a single shard, Flush gives what it promises also when any number of other Flushes are
called before it returns: exactly the additions and removals issued before have been executed, and afterwards the
shard made a refresh. -/
theorem C77_concurrent_flushes_partial (db : Fin c.stores → List (Str × D)) (as : List (Act c.toPipeSize D))
    (st st' : Pipe c) (h : (Pipe.start c db).run as = some st) (hone : c.shards = 1) (hidle : st.ClientsIdle)
    (i : Fin c.clients) (during : List (Act c.toPipeSize D)) (hf : FlushReturns i st st' during)
    (hfl : ∀ j b, Act.call j b ∈ during → b = .flush) (s : Fin c.shards) :
    st.Flushed db st' s ∧ ((st'.idxLog s).filter IdxOp.isWork).Perm ((st.issued db s).filter IdxOp.isWork) := by
  obtain ⟨L, M, e, hp, hm, hx⟩ := flushes_index ⟨as, h⟩ hone hidle hf (fun a ha j b hab => hfl j b (hab ▸ ha)) s
  refine ⟨⟨L, M, e, hp.symm.subperm.trans (List.filter_sublist.subperm), _, hx, rfl⟩, ?_⟩
  rw [e, List.filter_append, hm, List.append_nil]
  exact hp

/-- **C77** Whatever is called meanwhile: when Flush returns, at least as many documents have been counted as indexed
(and as stored) as had been given to the engine when Flush was called, at least as many removals have been made, and
every refresh requested before and one more. -/
theorem C77_as_much_as_asked_partial (db : Fin c.stores → List (Str × D)) (as : List (Act c.toPipeSize D))
    (st st' : Pipe c) (h : (Pipe.start c db).run as = some st) (hidle : st.ClientsIdle)
    (i : Fin c.clients) (during : List (Act c.toPipeSize D)) (hf : FlushReturns i st st' during) :
    (c.recovered db).countP (fun x => x.1 ≠ str "0") + st.calls.countP (fun x => x.2.isIndex) ≤ st'.count .indexed ∧
    c.shards * st.calls.countP (fun x => x.2.isRemove) ≤ st'.count .removed ∧
    (c.useStore = true → st.calls.countP (fun x => x.2.isIndex) ≤ st'.count .stored) ∧
    c.shards ≤ st'.count .forced := by
  have hr : Reach db st := ⟨as, h⟩
  obtain ⟨h1, h2, h3, h4⟩ := flush_counts hr hf
  obtain ⟨hno, st1, e1, e2, e3⟩ := hf
  have hin := (call_inited e1).1
  have hz : ∀ k : Counter, k.isReq = true → (μCount c k).pending st = 0 := by
    intro k hk
    refine req_pending hr k hk (fun j => by rw [hidle j]; rfl) (fun m => by rw [hr.initOk.done hin m]; rfl)
  have t1 := hr.indexingReqs_total
  have t2 := hr.removingReqs_total
  rw [hz _ rfl, Nat.add_zero] at t1 t2
  have hin' : st'.inited = true := run_induction (P := fun x => x.inited = true) (fun x a y hi hs => by
    rcases step_inited x y a hs with ⟨h1, _⟩ | ⟨_, _, h2, _⟩
    · rw [h1]; exact hi
    · exact h2) (.call i .flush :: during) st st' hin (by rw [Pipe.run, e1, Option.bind_some, e2])
  have hcr := ((hr.step e1).run e2).credit hin'
  refine ⟨?_, ?_, ?_, ?_⟩
  · unfold PipeCfg.numRecovered at t1; omega
  · rw [← t2, Nat.mul_comm]; exact h2
  · intro hs
    have := h3 hs
    omega
  · have : 1 * c.shards ≤ (st.count .forceReqs + 1) * c.shards := Nat.mul_le_mul_right _ (by omega)
    omega

/-! ## Refutations -/

/-- Two clients, two segmenter threads, two shards. -/
def twoOfAll : PipeCfg Nat := { demoPipe 2 2 1 (by decide) (by decide) false with gse := 2 }

/-- Two clients, two segmenter threads, one shard. -/
def twoAndOne : PipeCfg Nat := { demoPipe 2 1 1 (by decide) (by decide) false with gse := 2 }

def Pipe.idleB {c : PipeCfg D} (st : Pipe c) : Bool :=
  (List.finRange c.clients).all (fun i => (st.prog (.client i)).isEmpty)

theorem idle_of_B {c : PipeCfg D} {st : Pipe c} (h : st.idleB = true) : st.ClientsIdle := by
  intro i
  have := List.all_eq_true.1 h i (List.mem_finRange i)
  simpa using this

/-- Client `i` flushes; check the result. -/
def Pipe.flushesB {c : PipeCfg D} (st : Pipe c) (i : Fin c.clients) (during : List (Act c.toPipeSize D))
    (good : Pipe c → Bool) : Bool :=
  during.all (fun a => !(match a with | .call j _ => decide (j = i) | _ => false)) &&
  (st.step (.call i .flush)).any (fun st1 => (st1.run during).any (fun st' =>
    (st'.prog (.client i)).isEmpty && good st'))

theorem flushes_of_B {c : PipeCfg D} {st : Pipe c} {i : Fin c.clients} {during : List (Act c.toPipeSize D)}
    {good : Pipe c → Bool} (h : st.flushesB i during good = true) :
    ∃ st', FlushReturns i st st' during ∧ good st' = true := by
  simp only [Pipe.flushesB, Bool.and_eq_true] at h
  obtain ⟨st1, h1, h0⟩ := (Option.any_eq_true _ _).1 h.2
  obtain ⟨st', h2, h3⟩ := (Option.any_eq_true _ _).1 h0
  simp only [Bool.and_eq_true, List.isEmpty_iff] at h3
  refine ⟨st', ⟨?_, st1, h1, h2, h3.1⟩, h3.2⟩
  rintro a ha b rfl
  have := List.all_eq_true.1 h.1 _ ha
  simp at this

/-- If a shard made no refresh, it is not flushed. -/
theorem not_flushed {c : PipeCfg D} {db : Fin c.stores → List (Str × D)} {st st' : Pipe c} {s : Fin c.shards}
    (h : (st'.idxLog s).all (fun op => !op.force) = true) : ¬ st.Flushed db st' s := by
  rintro ⟨L, M, e, _, op, hop, hf⟩
  have := List.all_eq_true.1 h op (by rw [e]; simp [hop])
  rw [hf] at this
  simp at this

/-- Index("1", 7) by client 0, executed on shard 1. -/
def indexedSeven : List (Act twoOfAll.toPipeSize Nat) :=
  let c0 : Thread twoOfAll.toPipeSize := .client ⟨0, by decide⟩
  let seg0 : Thread twoOfAll.toPipeSize := .seg ⟨0, by decide⟩
  let add1 : Thread twoOfAll.toPipeSize := .idxAdd ⟨1, by decide⟩
  [.ready, .call ⟨0, by decide⟩ (.index (str "1") 7 false), .run c0, .run c0, .recv seg0, .run seg0, .run seg0,
   .recv add1, .run add1, .run add1, .run add1]

/-- Client 0 flushes as well; both refreshes reach shard 0, none shard 1. -/
def twoFlushes : List (Act twoOfAll.toPipeSize Nat) :=
  let c0 : Thread twoOfAll.toPipeSize := .client ⟨0, by decide⟩
  let c1 : Thread twoOfAll.toPipeSize := .client ⟨1, by decide⟩
  let seg0 : Thread twoOfAll.toPipeSize := .seg ⟨0, by decide⟩
  let seg1 : Thread twoOfAll.toPipeSize := .seg ⟨1, by decide⟩
  let add0 : Thread twoOfAll.toPipeSize := .idxAdd ⟨0, by decide⟩
  [.run c1, .run c1, .run c1, .run c1, .run c1,
   .call ⟨0, by decide⟩ .flush, .run c0, .run c0, .run c0, .run c0, .run c0,
   .recv seg0, .run seg0, .recv seg1, .run seg1,
   .recv add0, .run add0, .run add0, .recv add0, .run add0, .run add0, .run c1]

/-- **C77 is false for two Flushes** that overlap on an engine with two shards: the document indexed before is on
shard 1, which has made no refresh when the Flush of client 1 returns, and a search does not find the document. -/
theorem C77_refuted_two_flushes :
    ∃ (st st' : Pipe twoOfAll) (i : Fin twoOfAll.clients) (s : Fin twoOfAll.shards),
      (Pipe.start twoOfAll (fun _ => [])).run indexedSeven = some st ∧ st.ClientsIdle ∧
      st.calls.map (·.2) = [.index (str "1") 7 false] ∧
      FlushReturns i st st' twoFlushes ∧ st'.calls.map (·.2) = [.index (str "1") 7 false, .flush, .flush] ∧
      ¬ st.Flushed (fun _ => []) st' s ∧ st'.findKey s "k7" = some [] := by
  have h : ((Pipe.start twoOfAll (fun _ => [])).run indexedSeven).any (fun st => st.idleB &&
      decide (st.calls.map (·.2) = [.index (str "1") 7 false]) &&
      st.flushesB ⟨1, by decide⟩ twoFlushes (fun st' =>
        decide (st'.calls.map (·.2) = [.index (str "1") 7 false, .flush, .flush]) &&
        (st'.idxLog ⟨1, by decide⟩).all (fun op => !op.force) &&
        decide (st'.findKey ⟨1, by decide⟩ "k7" = some []))) = true := by decide +kernel
  obtain ⟨st, hst, hp⟩ := (Option.any_eq_true _ _).1 h
  simp only [Bool.and_eq_true, decide_eq_true_eq] at hp
  obtain ⟨⟨h1, h2⟩, h3⟩ := hp
  obtain ⟨st', h4, h5⟩ := flushes_of_B h3
  simp only [Bool.and_eq_true, decide_eq_true_eq] at h5
  exact ⟨st, st', ⟨1, by decide⟩, ⟨1, by decide⟩, hst, idle_of_B h1, h2, h4, h5.1.1, not_flushed h5.1.2, h5.2⟩

/-- Index("1", 7) by client 0 has returned. -/
def askedSeven : List (Act twoAndOne.toPipeSize Nat) :=
  let c0 : Thread twoAndOne.toPipeSize := .client ⟨0, by decide⟩
  [.ready, .call ⟨0, by decide⟩ (.index (str "1") 7 false), .run c0, .run c0]

/-- Client 0 indexes another document; it is the first to be executed. -/
def otherIndex : List (Act twoAndOne.toPipeSize Nat) :=
  let c0 : Thread twoAndOne.toPipeSize := .client ⟨0, by decide⟩
  let c1 : Thread twoAndOne.toPipeSize := .client ⟨1, by decide⟩
  let seg0 : Thread twoAndOne.toPipeSize := .seg ⟨0, by decide⟩
  let seg1 : Thread twoAndOne.toPipeSize := .seg ⟨1, by decide⟩
  let add : Thread twoAndOne.toPipeSize := .idxAdd ⟨0, by decide⟩
  [.call ⟨0, by decide⟩ (.index (str "2") 9 false), .run c0, .run c0,
   .recv seg0, .recv seg1, .run seg1, .run seg1, .recv add, .run add, .run add, .run add,
   .run c1, .run c1, .run c1, .run c1, .run c1, .recv seg1, .run seg1, .recv add, .run add, .run add, .run c1]

/-- **C77 is false with an overlapping Index** even on a single shard: Index("1") has returned, then client 1 calls
Flush; meanwhile client 0 calls Index("2"), which is executed first. The Flush returns, and document "1" has not
been given to the shard. -/
theorem C77_refuted_overlapping_index :
    ∃ (st st' : Pipe twoAndOne) (i : Fin twoAndOne.clients) (s : Fin twoAndOne.shards),
      (Pipe.start twoAndOne (fun _ => [])).run askedSeven = some st ∧ st.ClientsIdle ∧
      st.calls.map (·.2) = [.index (str "1") 7 false] ∧
      FlushReturns i st st' otherIndex ∧
      st'.calls.map (·.2) = [.index (str "1") 7 false, .flush, .index (str "2") 9 false] ∧
      ¬ st.Flushed (fun _ => []) st' s ∧ st'.findKey s "k7" = some [] ∧ st'.findKey s "k9" = some [str "2"] := by
  have h : ((Pipe.start twoAndOne (fun _ => [])).run askedSeven).any (fun st => st.idleB &&
      decide (st.calls.map (·.2) = [.index (str "1") 7 false]) &&
      decide (st.issued (fun _ => []) ⟨0, by decide⟩ = [.add (twoAndOne.docOf (str "1") 7) false]) &&
      st.flushesB ⟨1, by decide⟩ otherIndex (fun st' =>
        decide (st'.calls.map (·.2) = [.index (str "1") 7 false, .flush, .index (str "2") 9 false]) &&
        !(st'.idxLog ⟨0, by decide⟩).contains (.add (twoAndOne.docOf (str "1") 7) false) &&
        decide (st'.findKey ⟨0, by decide⟩ "k7" = some []) &&
        decide (st'.findKey ⟨0, by decide⟩ "k9" = some [str "2"]))) = true := by decide +kernel
  obtain ⟨st, hst, hp⟩ := (Option.any_eq_true _ _).1 h
  simp only [Bool.and_eq_true, decide_eq_true_eq] at hp
  obtain ⟨⟨⟨h1, h2⟩, hi⟩, h3⟩ := hp
  obtain ⟨st', h4, h5⟩ := flushes_of_B h3
  simp only [Bool.and_eq_true, decide_eq_true_eq] at h5
  refine ⟨st, st', ⟨1, by decide⟩, ⟨0, by decide⟩, hst, idle_of_B h1, h2, h4, h5.1.1.1, ?_, h5.1.2, h5.2⟩
  rintro ⟨L, M, e, hs, _⟩
  rw [hi] at hs
  have hm := hs.subset (a := .add (twoAndOne.docOf (str "1") 7) false) (by simp [IdxOp.isWork])
  have := h5.1.1.2
  rw [e] at this
  simp [hm] at this

/-- The document "1" is indexed and flushed, RemoveDoc("1") has returned. -/
def removedSeven : List (Act twoOfAll.toPipeSize Nat) :=
  let c0 : Thread twoOfAll.toPipeSize := .client ⟨0, by decide⟩
  let add0 : Thread twoOfAll.toPipeSize := .idxAdd ⟨0, by decide⟩
  let add1 : Thread twoOfAll.toPipeSize := .idxAdd ⟨1, by decide⟩
  let seg0 : Thread twoOfAll.toPipeSize := .seg ⟨0, by decide⟩
  indexedSeven ++ [.call ⟨0, by decide⟩ .flush, .run c0, .run c0, .run c0, .run c0, .run c0, .recv seg0, .run seg0,
    .run seg0, .recv add0, .run add0, .run add0, .recv add1, .run add1, .run add1, .run c0,
    .call ⟨0, by decide⟩ (.remove (str "1") false), .run c0, .run c0, .run c0, .run c0, .run c0]

/-- Client 0 removes another document. Shard 0 executes both removals, shard 1 none. -/
def otherRemove : List (Act twoOfAll.toPipeSize Nat) :=
  let c0 : Thread twoOfAll.toPipeSize := .client ⟨0, by decide⟩
  let c1 : Thread twoOfAll.toPipeSize := .client ⟨1, by decide⟩
  let add0 : Thread twoOfAll.toPipeSize := .idxAdd ⟨0, by decide⟩
  let add1 : Thread twoOfAll.toPipeSize := .idxAdd ⟨1, by decide⟩
  let rem0 : Thread twoOfAll.toPipeSize := .idxRem ⟨0, by decide⟩
  let seg0 : Thread twoOfAll.toPipeSize := .seg ⟨0, by decide⟩
  [.run c1, .call ⟨0, by decide⟩ (.remove (str "2") false), .run c0, .run c0,
   .recv rem0, .run rem0, .run rem0, .recv rem0, .run rem0, .run rem0,
   .run c1, .run c1, .run c1, .run c1, .recv seg0, .run seg0,
   .run seg0, .recv add0, .run add0, .run add0, .recv add1, .run add1, .run add1, .run c1]

/-- **C77 is false with an overlapping RemoveDoc**: RemoveDoc("1") has returned, then client 1 calls Flush; meanwhile
client 0 calls RemoveDoc("2"). The Flush returns, and document "1" is still found. -/
theorem C77_refuted_overlapping_remove :
    ∃ (st st' : Pipe twoOfAll) (i : Fin twoOfAll.clients) (s : Fin twoOfAll.shards),
      (Pipe.start twoOfAll (fun _ => [])).run removedSeven = some st ∧ st.ClientsIdle ∧
      st.calls.map (·.2) = [.index (str "1") 7 false, .flush, .remove (str "1") false] ∧
      FlushReturns i st st' otherRemove ∧
      st'.calls.map (·.2) = [.index (str "1") 7 false, .flush, .remove (str "1") false, .flush, .remove (str "2") false] ∧
      st'.findKey s "k7" = some [str "1"] := by
  have h : ((Pipe.start twoOfAll (fun _ => [])).run removedSeven).any (fun st => st.idleB &&
      decide (st.calls.map (·.2) = [.index (str "1") 7 false, .flush, .remove (str "1") false]) &&
      st.flushesB ⟨1, by decide⟩ otherRemove (fun st' =>
        decide (st'.calls.map (·.2) =
          [.index (str "1") 7 false, .flush, .remove (str "1") false, .flush, .remove (str "2") false]) &&
        decide (st'.findKey ⟨1, by decide⟩ "k7" = some [str "1"]))) = true := by decide +kernel
  obtain ⟨st, hst, hp⟩ := (Option.any_eq_true _ _).1 h
  simp only [Bool.and_eq_true, decide_eq_true_eq] at hp
  obtain ⟨⟨h1, h2⟩, h3⟩ := hp
  obtain ⟨st', h4, h5⟩ := flushes_of_B h3
  simp only [Bool.and_eq_true, decide_eq_true_eq] at h5
  exact ⟨st, st', ⟨1, by decide⟩, ⟨1, by decide⟩, hst, idle_of_B h1, h2, h4, h5.1, h5.2⟩

/-- The hypotheses of `C77_concurrent_flushes_partial` and `C77_as_much_as_asked_partial` are met by two Flushes on one
shard, with a document indexed before. -/
example : ∃ (as during : List (Act twoAndOne.toPipeSize Nat)) (st st' : Pipe twoAndOne) (i : Fin twoAndOne.clients),
    (Pipe.start twoAndOne (fun _ => [])).run as = some st ∧ st.ClientsIdle ∧ twoAndOne.shards = 1 ∧
    FlushReturns i st st' during ∧ (∀ j b, Act.call j b ∈ during → b = .flush) ∧
    st'.calls.map (·.2) = [.index (str "1") 7 false, .flush, .flush] ∧ st'.findKey ⟨0, by decide⟩ "k7" = some [str "1"] := by
  let c0 : Thread twoAndOne.toPipeSize := .client ⟨0, by decide⟩
  let c1 : Thread twoAndOne.toPipeSize := .client ⟨1, by decide⟩
  let seg0 : Thread twoAndOne.toPipeSize := .seg ⟨0, by decide⟩
  let seg1 : Thread twoAndOne.toPipeSize := .seg ⟨1, by decide⟩
  let add : Thread twoAndOne.toPipeSize := .idxAdd ⟨0, by decide⟩
  let during : List (Act twoAndOne.toPipeSize Nat) :=
    [.recv seg0, .run seg0, .run seg0, .recv add, .run add, .run add, .run add,
     .call ⟨0, by decide⟩ .flush, .run c0, .run c0, .run c0, .run c0, .run c0,
     .run c1, .run c1, .run c1, .run c1, .run c1,
     .recv seg0, .run seg0, .recv seg1, .run seg1, .recv add, .run add, .run add, .recv add, .run add, .run add, .run c1]
  have h : ((Pipe.start twoAndOne (fun _ => [])).run askedSeven).any (fun st => st.idleB &&
      st.flushesB ⟨1, by decide⟩ during (fun st' =>
        decide (st'.calls.map (·.2) = [.index (str "1") 7 false, .flush, .flush]) &&
        decide (st'.findKey ⟨0, by decide⟩ "k7" = some [str "1"]))) = true := by decide +kernel
  obtain ⟨st, hst, hp⟩ := (Option.any_eq_true _ _).1 h
  simp only [Bool.and_eq_true] at hp
  obtain ⟨st', h4, h5⟩ := flushes_of_B hp.2
  simp only [Bool.and_eq_true, decide_eq_true_eq] at h5
  refine ⟨askedSeven, during, st, st', ⟨1, by decide⟩, hst, idle_of_B hp.1, rfl, h4, ?_, h5.1, h5.2⟩
  intro j b hm
  simp [during] at hm
  exact hm.2

end Riot
