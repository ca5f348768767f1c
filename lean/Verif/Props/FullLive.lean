import Verif.Proofs.FullLive
import Verif.Props.FullQuiet

/-!
# C75: every search returns
-/

namespace Riot

open Function (update)

variable {D F A : Type} {c : PipeCfg D}

/-- What every state of a running engine satisfies. -/
theorem full_reach {E : EngCfg D F A} {o : IndexerOpts} {db : Fin c.stores → List (Str × D)}
    {as : List (EAct c.toPipeSize D F)} {st : Full c F A} (h : (Full.start c o db).run E as = some st) :
    Proto st ∧ Counts st ∧ Limits E st ∧ Linked db st.fine ∧ ∃ fs, (Fine.start c o db).run E.so fs = some st.fine := by
  obtain ⟨p, q⟩ := counts_run as (Proto.start o db) (Counts.start o db) h
  obtain ⟨fs, hf⟩ := full_run_fine' as h
  exact ⟨p, q, limits_run as (Limits.start E o db) h, linked_run fs (linked_start c o db) hf, fs, hf⟩

/-- **C75** Work ends: from a state of a running engine there is no infinite execution in which no call and
no search is started. -/
theorem C75_work_terminates {E : EngCfg D F A} {o : IndexerOpts} {db : Fin c.stores → List (Str × D)}
    {as : List (EAct c.toPipeSize D F)} (st : Nat → Full c F A) (h : (Full.start c o db).run E as = some (st 0))
    (a : Nat → EAct c.toPipeSize D F) (hn : ∀ n, (a n).isNew = false) :
    ¬ ∀ n, (st n).step E (a n) = some (st (n + 1)) :=
  full_terminates st a (full_reach h).1 hn

/-- **C75** (partial: as long as no document identifier is given to Index twice, or nothing is removed; and
unless a worker panics) Every search returns, also without time-out: in a state in which nothing more can
happen all searches have returned, and from every state such a state can be reached (and is reached, by
`C75_work_terminates`, if calls and searches stop coming in). Both also if writers waiting for a table have
precedence over readers, as with sync.RWMutex. Missing: updates together with removals, for
which the property is false (`C75_refuted`). -/
theorem C75_search_returns_partial (hz : c.toPipeSize.Ok) (hdoc : c.DocOk) {E : EngCfg D F A} (hso : SortOk E.so)
    (hlt : 1 ≤ E.lookupThreads) (hrt : 1 ≤ E.rankThreads)
    {o : IndexerOpts} {db : Fin c.stores → List (Str × D)} {as : List (EAct c.toPipeSize D F)} {st : Full c F A}
    (h : (Full.start c o db).run E as = some st)
    (hn : ((st.fine.pipe.given db).filterMap Call.indexed).Nodup ∨ ∀ id f, Call.remove id f ∉ st.fine.pipe.given db) :
    (st.crashed = false → st.Stuck E → st.fine.Done ∧ ∀ k, k < st.searches.length → st.Returned k) ∧
    ∃ bs st', (∀ a ∈ bs, a.isNew = false ∧ a.isTimer = false) ∧ st.WritersFirst E bs ∧ st.run E bs = some st' ∧
      st'.searches = st.searches ∧ (st'.crashed = true ∨ ∀ k, k < st.searches.length → st'.Returned k) := by
  have key : ∀ {as : List (EAct c.toPipeSize D F)} {st : Full c F A}, (Full.start c o db).run E as = some st →
      (((st.fine.pipe.given db).filterMap Call.indexed).Nodup ∨ ∀ id f, Call.remove id f ∉ st.fine.pipe.given db) →
      st.crashed = false → st.Stuck E → st.fine.Done ∧ ∀ k, k < st.searches.length → st.Returned k := by
    intro as st h hn hd hs
    obtain ⟨p, q, _, l, fs, hf⟩ := full_reach h
    unfold Full.crashed at hd
    simp only [Bool.or_eq_false_iff] at hd
    have hx : ∀ s, ¬ (st.fine.shard s).crossed := by
      intro s
      rcases hn with hn | hn
      · exact fresh_engine hso hdoc hf hn hd.2 s
      · rintro ⟨_, id, f, hr⟩
        rw [noRemoval_engine hf hn s] at hr
        simp at hr
    obtain ⟨g1, g2⟩ := full_stuck hz hlt hrt l p q hd.1 hd.2 hx hs
    exact ⟨g1, fun k hk => ⟨hk, g2 k hk⟩⟩
  refine ⟨key h hn, ?_⟩
  obtain ⟨bs, st', g1, g0, g2, g3⟩ := full_reaches_stuck E st (full_reach h).1
  have hse := full_notNew_searches (fun a ha => (g1 a ha).1) g2
  refine ⟨bs, st', g1, g0, g2, hse, ?_⟩
  cases hd : st'.crashed with
  | true => exact Or.inl rfl
  | false =>
    right
    have e : st'.fine.pipe.given db = st.fine.pipe.given db := by
      unfold Pipe.given; rw [full_notNew_calls (fun a ha => (g1 a ha).1) g2]
    have hfin := (key (as := as ++ bs) (by rw [full_run_append, h]; exact g2) (by rw [e]; exact hn) hd g3).2
    rw [hse] at hfin
    exact hfin

/-- **C75** What happens to searches when the locks of a shard are crossed (C35): a search started afterwards
that has no time-out never returns; and time-outs do not help, because they only run once the request
has been sent to all shards: of all searches started afterwards, whatever their time-outs, at most as many
ever return as the request channel and the workers of the shard hold. -/
theorem C75_deadlock_blocks_searches {E : EngCfg D F A} {o : IndexerOpts} {db : Fin c.stores → List (Str × D)}
    {as : List (EAct c.toPipeSize D F)} {st : Full c F A} (h : (Full.start c o db).run E as = some st)
    {s : Fin c.shards} (hx : (st.fine.shard s).crossed)
    {bs : List (EAct c.toPipeSize D F)} {st' : Full c F A} (h' : st.run E bs = some st') :
    (∀ k r, st.searches.length ≤ k → st'.searches[k]? = some r → r.timeout ≤ 0 → ¬ st'.Returned k) ∧
    ∀ ks : List Nat, ks.Nodup → (∀ k ∈ ks, st.searches.length ≤ k ∧ st'.Returned k) →
      ks.length ≤ c.idxCap + E.lookupThreads := by
  obtain ⟨p, _, _, _, _⟩ := full_reach h
  have hb : Blocked st.searches.length s st := ⟨hx, fun k hk => by
    rw [(p.unsent k s).2 (by rw [(p.fresh k hk).1]; omega)]
    simp [ReqAt.before]⟩
  have hb' := blocked_run bs p hb h'
  have hr : (Full.start c o db).run E (as ++ bs) = some st' := by rw [full_run_append, h]; exact h'
  obtain ⟨p', q', l', _, _⟩ := full_reach hr
  exact ⟨fun k r hk hr ht => blocked_not_returned p' l' hb' hk hr ht, fun ks h1 h2 => blocked_few p' q' l' hb' ks h1 h2⟩

/-! ## The refutation -/

def oneFull : Full oneShard Nat Nat := Full.start oneShard (smallOpts .docIds 10) (fun _ => [])

/-- The pipeline actions, and index calls begin. -/
def idleCands : List (EAct oneShard.toPipeSize Nat Nat) :=
  (demoActs _ ++ demoRanks _).map .pipe ++ [.beginAdd theShard, .beginRem theShard]

/-- The schedule of C35: Index("X", 1), then Index("X", 2) and RemoveDoc("Y") at the same time. -/
def crossedRun : List (EAct oneShard.toPipeSize Nat Nat) := oneFull.script (demoEng true)
  [.inr (engineCands _), .inl (.pipe (.call clientA (.index (str "X") 1 true))), .inr (engineCands _),
   .inl (.pipe (.call clientA (.index (str "X") 2 true))), .inr idleCands,
   .inl (.pipe (.call clientB (.remove (str "Y") false))), .inr idleCands,
   .inl (.add theShard), .inl (.add theShard), .inl (.add theShard), .inl (.rem theShard)]

/-- **C75 is false of the code**: after two Index calls about the same document and one RemoveDoc of another
document, which all return, no search without time-out ever returns, whatever happens, and at most
`idxCap + 2` of the others (the engine of the example has 2 lookup workers per shard). -/
theorem C75_refuted : ∃ (as : List (EAct oneShard.toPipeSize Nat Nat)) (st : Full oneShard Nat Nat),
    oneFull.run (demoEng true) as = some st ∧ st.crashed = false ∧ st.fine.pipe.ClientsIdle ∧ st.searches = [] ∧
    st.fine.pipe.calls.map (·.2) = [.index (str "X") 1 true, .index (str "X") 2 true, .remove (str "Y") false] ∧
    ∀ bs st', st.run (demoEng true) bs = some st' →
      (∀ k r, st'.searches[k]? = some r → r.timeout ≤ 0 → ¬ st'.Returned k) ∧
      ∀ ks : List Nat, ks.Nodup → (∀ k ∈ ks, st'.Returned k) → ks.length ≤ oneShard.idxCap + 2 := by
  have h : (oneFull.run (demoEng true) crossedRun).any (fun st => !st.crashed &&
      (st.fine.pipe.prog (.client clientA)).isEmpty && (st.fine.pipe.prog (.client clientB)).isEmpty &&
      (st.fine.shard theShard).crossedB && decide (st.searches.length = 0) && decide (st.fine.pipe.calls.map (·.2) =
        [.index (str "X") 1 true, .index (str "X") 2 true, .remove (str "Y") false])) = true := by decide +kernel
  obtain ⟨st, h1, h⟩ := (Option.any_eq_true _ _).1 h
  simp only [Bool.and_eq_true, Bool.not_eq_true', List.isEmpty_iff, decide_eq_true_eq] at h
  obtain ⟨⟨⟨⟨⟨e1, e2⟩, e3⟩, e4⟩, e5⟩, e6⟩ := h
  refine ⟨crossedRun, st, h1, e1, ?_, List.length_eq_zero_iff.1 e5, e6, ?_⟩
  · intro i
    match i with
    | ⟨0, _⟩ => exact e2
    | ⟨1, _⟩ => exact e3
  · intro bs st' hr
    obtain ⟨g1, g2⟩ := C75_deadlock_blocks_searches h1 (crossed_of_B e4) hr
    exact ⟨fun k r => g1 k r (by omega), fun ks hn hk => g2 ks hn (fun k hm => ⟨by omega, hk k hm⟩)⟩

/-- The hypotheses of `C75_search_returns_partial` hold of the schedule of C73 in the middle of a search: "X" is
being removed and the search has looked at the first shard only. -/
def midRun : List (EAct pairEngine.toPipeSize Nat Nat) := preRun ++ .start searchK ::
  ((pairStart.run (demoEng true) (preRun ++ [.start searchK])).getD pairStart).script (demoEng true)
    [.inl (.send 0), .inl (.send 0), .inl (.take first), .inl (.lock first 0), .inl (.look first 0),
     .inl (.pipe (.call userA (.remove (str "X") true)))]

example : ∃ st, pairStart.run (demoEng true) midRun = some st ∧
    ((st.fine.pipe.given (fun _ => [])).filterMap Call.indexed).Nodup ∧ st.crashed = false ∧
    st.searches.length = 1 ∧ ¬ st.Returned 0 ∧ pairEngine.toPipeSize.Ok ∧ pairEngine.DocOk ∧
    1 ≤ (demoEng true).lookupThreads ∧ 1 ≤ (demoEng true).rankThreads := by
  have h : (pairStart.run (demoEng true) midRun).any (fun st => !st.crashed && decide (st.searches.length = 1) &&
      decide (((st.fine.pipe.given (fun _ => [])).filterMap Call.indexed).Nodup) &&
      decide ((st.got 0).length = 0)) = true := by decide +kernel
  obtain ⟨st, h1, h⟩ := (Option.any_eq_true _ _).1 h
  simp only [Bool.and_eq_true, Bool.not_eq_true', decide_eq_true_eq] at h
  obtain ⟨⟨⟨e1, e2⟩, e3⟩, e4⟩ := h
  refine ⟨st, h1, e3, e1, e2, ?_, ⟨by decide, by decide, by decide, by decide, by decide⟩, fun _ _ => rfl, by decide, by decide⟩
  rintro ⟨_, h⟩
  rw [e4] at h
  exact absurd h (by decide)

end Riot
