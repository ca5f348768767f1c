import Verif.Proofs.FullHist
import Verif.Props.EndToEnd
import Verif.Props.Concurrent
import Verif.Proofs.FineFresh

/-!
# The pipeline inside the whole engine, and documents nobody touches
-/

namespace Riot

open Function (update)

variable {D F A : Type} {c : PipeCfg D}

/-! ## Projection to Model/Fine -/

theorem full_step_fine {E : EngCfg D F A} {st st' : Full c F A} {a : EAct c.toPipeSize D F}
    (h : st.step E a = some st') : st'.fine = st.fine ∨ ∃ b, st.fine.step E.so b = some st'.fine ∧
      ∀ x, b = .pipe x → a = .pipe x := by
  unfold Full.step at h
  split at h
  · simp at h
  · cases hf : a.fine? with
    | some b =>
      rw [hf] at h
      obtain ⟨f, h1, rfl⟩ := Option.map_eq_some_iff.1 h
      refine Or.inr ⟨b, h1, ?_⟩
      rintro x rfl
      cases a <;> simp [EAct.fine?] at hf
      rw [hf]
    | none =>
      rw [hf] at h
      simp only at h
      cases a <;> simp only [Full.search, EAct.fine?, reduceCtorEq] at h hf
      case start r => split at h <;> simp at h; rw [← h]; exact .inl rfl
      case send k =>
        split at h
        · split at h <;> simp at h; rw [← h]; exact .inl rfl
        · simp at h
      case take s =>
        split at h
        · split at h <;> simp at h; rw [← h]; exact .inl rfl
        · simp at h
      case lock s k =>
        split at h
        · obtain ⟨f, h1, rfl⟩ := Option.map_eq_some_iff.1 h
          exact Or.inr ⟨_, h1, by simp⟩
        · simp at h
      case look s k =>
        split at h
        · split at h
          · simp at h; rw [← h]; exact .inl rfl
          · obtain ⟨f, h1, rfl⟩ := Option.map_eq_some_iff.1 h
            exact Or.inr ⟨_, h1, by simp⟩
        · simp at h
      case reply s k =>
        split at h
        · obtain ⟨f, h1, rfl⟩ := Option.map_eq_some_iff.1 h
          unfold Full.deliver at h1
          split at h1 <;> simp at h1
          rw [← h1]; exact .inl rfl
        · simp at h
      case forward s k =>
        split at h
        · split at h <;> simp at h; rw [← h]; exact .inl rfl
        · simp at h
      case takeRank s =>
        split at h
        · split at h
          · split at h <;> simp at h; rw [← h]; exact .inl rfl
          · simp at h
        · simp at h
      case read s k =>
        split at h
        · split at h <;> simp at h; rw [← h]; exact .inl rfl
        · simp at h
      case replyRank s k =>
        split at h
        · split at h
          · split at h
            · simp at h; rw [← h]; exact .inl rfl
            · obtain ⟨f, h1, rfl⟩ := Option.map_eq_some_iff.1 h
              unfold Full.deliver at h1
              split at h1 <;> simp at h1
              rw [← h1]; exact .inl rfl
          · simp at h
        · simp at h
      case recv k =>
        split at h
        · split at h <;> simp at h; rw [← h]; exact .inl rfl
        · simp at h
      case timer k =>
        split at h
        · split at h <;> simp at h; rw [← h]; exact .inl rfl
        · simp at h

theorem full_run_fine {E : EngCfg D F A} {st0 : Full c F A} (as : List (EAct c.toPipeSize D F)) :
    ∀ {st : Full c F A}, st0.run E as = some st → st0.NoClash E as →
      ∃ fs, st0.fine.run E.so fs = some st.fine ∧ st0.fine.NoClash E.so fs := by
  induction as using List.reverseRecOn with
  | nil =>
    intro st h hc
    simp only [Full.run, Option.some.injEq] at h
    subst h
    refine ⟨[], rfl, ?_⟩
    intro pre st' hp hr s
    rw [List.prefix_nil] at hp
    subst hp
    simp only [Fine.run, Option.some.injEq] at hr
    subst hr
    exact hc 0 (by simp) s
  | append_singleton as a ih =>
    intro st h hc
    obtain ⟨u, h1, h2⟩ := full_run_snoc h
    obtain ⟨fs, g1, g2⟩ := ih h1 (fun t ht s => by
      have := hc t (by simp; omega) s
      rwa [after_snoc [a] ht] at this)
    rcases full_step_fine h2 with e | ⟨b, hb, _⟩
    · exact ⟨fs, by rw [e]; exact g1, g2⟩
    · have hrun : st0.fine.run E.so (fs ++ [b]) = some st.fine := by
        rw [fine_run_append, g1]
        simp [Fine.run, hb]
      refine ⟨fs ++ [b], hrun, ?_⟩
      intro pre st' hp hr s
      rcases List.prefix_concat_iff.1 hp with rfl | hp
      · rw [hrun] at hr
        cases hr
        have := hc (as ++ [a]).length le_rfl s
        rwa [after_length h] at this
      · exact g2 pre st' hp hr s

/-- The state at a moment is reached by the actions before it. -/
theorem after_run {E : EngCfg D F A} {st0 st : Full c F A} {as : List (EAct c.toPipeSize D F)}
    (h : st0.run E as = some st) {t : Nat} : st0.run E (as.take t) = some (Full.after E st0 as t) := by
  unfold Full.after
  rw [← List.take_append_drop t as, full_run_append] at h
  obtain ⟨u, h1, _⟩ := Option.bind_eq_some_iff.1 h
  rw [h1]; rfl

theorem after_take {E : EngCfg D F A} {st0 : Full c F A} {as : List (EAct c.toPipeSize D F)} {t u : Nat} (h : u ≤ t) :
    Full.after E st0 (as.take t) u = Full.after E st0 as u := by
  unfold Full.after
  rw [List.take_take, Nat.min_eq_left h]

theorem after_noClash {E : EngCfg D F A} {st0 : Full c F A} {as : List (EAct c.toPipeSize D F)}
    (h : st0.NoClash E as) {t : Nat} (ht : t ≤ as.length) : st0.NoClash E (as.take t) := by
  intro u hu s
  rw [List.length_take] at hu
  rw [after_take (by omega)]
  exact h u (by omega) s

/-- The pipeline runs on. -/
theorem after_pipe {E : EngCfg D F A} {st0 st : Full c F A} {as : List (EAct c.toPipeSize D F)}
    (h : st0.run E as = some st) {t u : Nat} (htu : t ≤ u) :
    ∃ bs, (Full.after E st0 as t).fine.pipe.run bs = some (Full.after E st0 as u).fine.pipe ∧
      ∀ x ∈ bs.flatMap Act.called, ∃ v, t ≤ v ∧ as[v]? = some (.pipe (.call x.1 x.2)) := by
  induction u, htu using Nat.le_induction with
  | base => exact ⟨[], rfl, by simp⟩
  | succ u hu ih =>
    obtain ⟨bs, hbs, hcall⟩ := ih
    by_cases hlt : u < as.length
    · have h1 := after_run h (t := u + 1)
      rw [List.take_add_one, List.getElem?_eq_getElem hlt] at h1
      obtain ⟨v, h2, h3⟩ := full_run_snoc h1
      rw [after_run h] at h2
      cases h2
      rcases full_step_fine h3 with e | ⟨b, hb, hx⟩
      · exact ⟨bs, by rw [e]; exact hbs, hcall⟩
      · refine ⟨bs ++ b.coarse E.so (Full.after E st0 as u).fine, ?_, ?_⟩
        · rw [pipe_run_append, hbs]
          exact fine_coarse (fine_step hb).2
        · intro x hm
          rw [List.flatMap_append, List.mem_append] at hm
          rcases hm with hm | hm
          · exact hcall x hm
          · refine ⟨u, hu, ?_⟩
            rw [List.getElem?_eq_getElem hlt, Option.some.injEq]
            cases b <;> simp only [FAct.coarse] at hm
            case pipe a =>
              rw [hx a rfl]
              cases a <;> simp [Act.called] at hm
              rw [hm]
            case add s => split at hm <;> (try split at hm) <;> simp [Act.called] at hm
            case rem s => split at hm <;> (try split at hm) <;> simp [Act.called] at hm
            all_goals simp at hm
    · refine ⟨bs, ?_, hcall⟩
      have : Full.after E st0 as (u + 1) = Full.after E st0 as u := by
        unfold Full.after
        rw [List.take_of_length_le (by omega), List.take_of_length_le (by omega)]
      rw [this]; exact hbs

/-! ## Documents nobody touches -/

theorem step_rankLog (st st' : Pipe c) (a : Act c.toPipeSize D) (h : st.step a = some st')
    (s : Fin c.shards) : st.rankLog s <+: st'.rankLog s := by
  cases a with
  | call i b => rw [(call_inited h).2.2]
  | run t =>
    cases hp : st.prog t with
    | nil => simp [Pipe.step, hp] at h
    | cons x l =>
      have he := (step_run_prog hp h).2
      cases x <;> simp only [Pipe.exec] at he
      case rank s' op =>
        rw [← Option.some.inj he]
        by_cases hs : s = s'
        · subst hs; simp
        · simp [hs]
      all_goals first
        | (split at he <;> first | (rw [← Option.some.inj he]) | simp at he)
        | (rw [← Option.some.inj he])
  | recv t' =>
    simp only [Pipe.step] at h
    split at h
    · simp at h
    · split at h
      · rw [← Option.some.inj h]
      · simp at h
  | bg k =>
    simp only [Pipe.step] at h
    split at h
    · simp at h
    · rw [← Option.some.inj h]
  | ready =>
    simp only [Pipe.step] at h
    split at h
    · rw [← Option.some.inj h]
    · simp at h

theorem run_rankLog (as : List (Act c.toPipeSize D)) (st st' : Pipe c) (h : st.run as = some st')
    (s : Fin c.shards) : st.rankLog s <+: st'.rankLog s :=
  run_induction (P := fun x => st.rankLog s <+: x.rankLog s)
    (fun x a y hi hs => hi.trans (step_rankLog x y a hs s)) as st st' (List.prefix_refl _) h

/-- A disciplined document stays disciplined while nobody calls. -/
theorem rounds_after {E : EngCfg D F A} {st0 st : Full c F A} {as : List (EAct c.toPipeSize D F)}
    (h : st0.run E as = some st) {b t : Nat} (hbt : b ≤ t) {db : Fin c.stores → List (Str × D)} {d : Str}
    (hno : NobodyCalls as b d) {l : List (Call D)} (hr : Rounds db d (Full.after E st0 as b).fine.pipe l) :
    Rounds db d (Full.after E st0 as t).fine.pipe l := by
  obtain ⟨bs, hbs, hcall⟩ := after_pipe h hbt
  refine Rounds.later _ _ bs _ _ hr hbs (run_calls _ _ _ hbs) ?_
  rw [List.filter_eq_nil_iff]
  intro a ha
  obtain ⟨x, hx, rfl⟩ := List.mem_map.1 ha
  obtain ⟨v, hv, hav⟩ := hcall x hx
  rw [hno v x.1 x.2 hv hav]
  simp

theorem callRank_about (s : Fin c.shards) (d : Str) (a : Call D) (h : a.about d = false) :
    ∀ e ∈ c.callRank s a, e.about d = false := by
  intro e he
  cases a with
  | index id x f =>
    simp only [PipeCfg.callRank] at he
    split at he <;> simp at he
    subst he; simpa [RankEv.about, Call.about] using h
  | remove id f =>
    simp only [PipeCfg.callRank] at he
    split at he <;> simp at he
    subst he; simpa [RankEv.about, Call.about] using h
  | flush => simp [PipeCfg.callRank] at he

/-- The ranker events about a document stay the same while nobody calls. -/
theorem rankLog_after {E : EngCfg D F A} {st0 st : Full c F A} {as : List (EAct c.toPipeSize D F)}
    (h : st0.run E as = some st) {b t : Nat} (hbt : b ≤ t) {db : Fin c.stores → List (Str × D)} {d : Str}
    (hreach : Reach db (Full.after E st0 as b).fine.pipe)
    (hno : NobodyCalls as b d) (hd : (Full.after E st0 as b).fine.pipe.RankersDone db d) (s : Fin c.shards) :
    ((Full.after E st0 as t).fine.pipe.rankLog s).filter (RankEv.about d) =
      ((Full.after E st0 as b).fine.pipe.rankLog s).filter (RankEv.about d) := by
  obtain ⟨bs, hbs, hcall⟩ := after_pipe h hbt
  obtain ⟨N, hN⟩ := run_rankLog bs _ _ hbs s
  obtain ⟨as', has⟩ := hreach.run hbs
  have k := rank_conserve s (RankEv.about d) db as' _ has
  rw [issuedRank_eq] at k
  have hg : ((Full.after E st0 as t).fine.pipe.given db).flatMap (c.callRank s) =
      ((Full.after E st0 as b).fine.pipe.given db).flatMap (c.callRank s) ++
        ((bs.flatMap Act.called).map (·.2)).flatMap (c.callRank s) := by
    unfold Pipe.given
    rw [run_calls _ _ _ hbs, List.map_append, ← List.append_assoc, List.flatMap_append]
  have h0 : (((bs.flatMap Act.called).map (·.2)).flatMap (c.callRank s)).countP (RankEv.about d) = 0 := by
    rw [List.countP_eq_zero]
    intro e he
    obtain ⟨a, ha, hea⟩ := List.mem_flatMap.1 he
    obtain ⟨x, hx, rfl⟩ := List.mem_map.1 ha
    obtain ⟨v, hv, hav⟩ := hcall x hx
    rw [callRank_about s d x.2 (hno v x.1 x.2 hv hav) e hea]
    simp
  have h1 := (hd s).length_eq
  rw [← List.countP_eq_length_filter, ← List.countP_eq_length_filter] at h1
  rw [hg, List.countP_append, h0, h1, ← hN, List.countP_append] at k
  have hz : N.filter (RankEv.about d) = [] := by
    rw [← List.length_eq_zero_iff, ← List.countP_eq_length_filter]; omega
  rw [← hN, List.filter_append, hz, List.append_nil]

theorem rankIdeal_filter (info : RankInfo D F A) (idOnly : Bool) (d : Str) (l : List (RankEv D)) :
    rankIdeal (l.map (RankEv.op info idOnly)) d = rankIdeal ((l.filter (RankEv.about d)).map (RankEv.op info idOnly)) d := by
  induction l using List.reverseRecOn with
  | nil => rfl
  | append_singleton l e ih =>
    simp only [rankIdeal] at ih
    cases e with
    | add id x =>
      by_cases hid : id = d
      · subst hid
        have : ([RankEv.add id x] : List (RankEv D)).filter (RankEv.about id) = [RankEv.add id x] := by
          simp [RankEv.about]
        rw [List.filter_append, this]
        simp only [rankIdeal, List.map_append, List.foldl_append, List.map_cons, List.map_nil, List.foldl_cons,
          List.foldl_nil, RankEv.op, rankIdealStep, if_true, ih]
      · have : ([RankEv.add id x] : List (RankEv D)).filter (RankEv.about d) = [] := by
          simp [RankEv.about, hid]
        rw [List.filter_append, this, List.append_nil]
        simp only [rankIdeal, List.map_append, List.foldl_append, List.map_cons, List.map_nil, List.foldl_cons,
          List.foldl_nil, RankEv.op, rankIdealStep, if_neg (Ne.symm hid), ih]
    | remove id =>
      by_cases hid : id = d
      · subst hid
        have : ([RankEv.remove id] : List (RankEv D)).filter (RankEv.about id) = [RankEv.remove id] := by
          simp [RankEv.about]
        rw [List.filter_append, this]
        simp only [rankIdeal, List.map_append, List.foldl_append, List.map_cons, List.map_nil, List.foldl_cons,
          List.foldl_nil, RankEv.op, rankIdealStep, if_true]
      · have : ([RankEv.remove id] : List (RankEv D)).filter (RankEv.about d) = [] := by
          simp [RankEv.about, hid]
        rw [List.filter_append, this, List.append_nil]
        simp only [rankIdeal, List.map_append, List.foldl_append, List.map_cons, List.map_nil, List.foldl_cons,
          List.foldl_nil, RankEv.op, rankIdealStep, if_neg (Ne.symm hid), ih]

/-- What is registered about a document stays the same while nobody calls. -/
theorem registered_after {E : EngCfg D F A} {st0 st : Full c F A} {as : List (EAct c.toPipeSize D F)}
    (h : st0.run E as = some st) {b t : Nat} (hbt : b ≤ t) {db : Fin c.stores → List (Str × D)} {d : Str}
    (hreach : Reach db (Full.after E st0 as b).fine.pipe)
    (hno : NobodyCalls as b d) (hd : (Full.after E st0 as b).fine.pipe.RankersDone db d) (s : Fin c.shards) :
    (Full.after E st0 as t).registered E s d = (Full.after E st0 as b).registered E s d := by
  unfold Full.registered Pipe.rankHistory
  rw [rankIdeal_filter, rankLog_after h hbt hreach hno hd s, ← rankIdeal_filter]

/-- No call about a settled document is in progress. -/
theorem untouched_of_rounds (hdoc : c.DocOk) {db : Fin c.stores → List (Str × D)} {st : Fine c} {d : Str} (h0 : d ≠ str "0")
    {l : List (Call D)} (hr : Rounds db d st.pipe l) (s : Fin c.shards) : st.Untouched s d := by
  obtain ⟨hreach, hinv⟩ := hr.inv hdoc h0
  obtain ⟨_, hp, _, _⟩ := hinv s
  obtain ⟨bs, hb⟩ := id hreach
  have k := idx_conserve s (fun op => decide (op.id? = some d)) db bs _ hb
  have e := hp.length_eq
  unfold docOps at e
  rw [← List.countP_eq_length_filter, ← List.countP_eq_length_filter] at e
  have hz : (μIdx c s (fun op => decide (op.id? = some d))).pending st.pipe = 0 := by omega
  have key : ∀ (t : Thread c.toPipeSize) (op : IdxOp), (∀ s' op l, st.pipe.prog t = .idx s' op :: l → s' = s) →
      st.pipe.nextIdx t = some op → op.id? ≠ some d := by
    intro t op hs hn he
    unfold Pipe.nextIdx at hn
    split at hn
    · rename_i s' op' l' hpr
      simp only [Option.some.injEq] at hn
      subst hn
      have e1 := hs _ _ _ hpr
      subst e1
      have := prog_pend hpr (p := fun op => decide (op.id? = some d)) (by simpa using he)
      omega
    · simp at hn
  refine ⟨fun _ f hn => ?_, fun _ op hn => ?_⟩
  · exact key (.idxRem s) _ (fun s' op l hp => (idx_rem_prog hreach hp).1) hn rfl
  · exact key (.idxAdd s) _ (fun s' op l hp => (idx_add_prog hreach hp).1) hn

end Riot
