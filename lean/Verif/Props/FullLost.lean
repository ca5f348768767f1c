import Verif.Props.FullLive

/-!
# C74 is false when a cache refresh overlaps a removal
-/

namespace Riot

open Function (update)

variable {D F A : Type} {c : PipeCfg D}

/-- Two rounds: calls, a Flush with nothing else going on, more calls, another such Flush. -/
theorem after_two_rounds {E : EngCfg D F A} {o : IndexerOpts} {db : Fin c.stores → List (Str × D)} {d : Str}
    (hdoc : c.DocOk) (h0 : d ≠ str "0") {load1 tail1 load2 tail2 : List (EAct c.toPipeSize D F)} {i j : Fin c.clients}
    {st1 st2 st3 st4 : Full c F A}
    (r1 : (Full.start c o db).run E load1 = some st1) (r2 : st1.run E (.pipe (.call i .flush) :: tail1) = some st2)
    (r3 : st2.run E load2 = some st3) (r4 : st3.run E (.pipe (.call j .flush) :: tail2) = some st4)
    (hidle1 : ∀ i, st1.fine.pipe.prog (.client i) = []) (hidle3 : ∀ i, st3.fine.pipe.prog (.client i) = [])
    (htail1 : tail1.all (fun a => a.call?.isNone) = true) (htail2 : tail2.all (fun a => a.call?.isNone) = true)
    (hdone2 : st2.fine.pipe.prog (.client i) = []) (hdone4 : st4.fine.pipe.prog (.client j) = [])
    (hcalls1 : (((c.recovered db).map (fun x => Call.index x.1 x.2 false) ++
      st1.fine.pipe.calls.map (·.2)).filter (Call.about d)).length ≤ 1)
    {news : List (Fin c.clients × Call D)} (hnews : st3.fine.pipe.calls = st2.fine.pipe.calls ++ news)
    (hcalls2 : ((news.map (·.2)).filter (Call.about d)).length ≤ 1) (hq : st4.fine.pipe.Quiet) :
    (∃ l, Rounds db d st4.fine.pipe l) ∧ st4.fine.pipe.RankersDone db d := by
  have pipe_run : ∀ {st st' : Full c F A} {as : List (EAct c.toPipeSize D F)}, st.run E as = some st' →
      ∃ bs, st.fine.pipe.run bs = some st'.fine.pipe := by
    intro st st' as h
    obtain ⟨bs, g, _⟩ := after_pipe h (Nat.zero_le as.length)
    have e1 : Full.after E st as as.length = st' := by
      unfold Full.after; rw [List.take_length, h]; rfl
    rw [e1] at g
    exact ⟨bs, g⟩
  obtain ⟨as1, g1⟩ := pipe_run r1
  obtain ⟨as3, g3⟩ := pipe_run r3
  have hround1 := Rounds.first (db := db) (d := d) as1 i _ _ g1 (full_flush (E := E) hidle1 htail1 r2 hdone2) hcalls1
  have hround2 := Rounds.next _ _ as3 j _ _ news hround1 g3 (full_flush (E := E) hidle3 htail2 r4 hdone4) hnews hcalls2
  exact ⟨⟨_, hround2⟩, fun s => ((rank_quiet (hround2.inv hdoc h0).1 hq s).filter _).symm⟩

/-- Index("X", 1) and Index("Y", 2). -/
def lostA : List (EAct oneShard.toPipeSize Nat Nat) := oneFull.script (demoEng true)
  [.inr (engineCands _), .inl (.pipe (.call clientA (.index (str "X") 1 true))), .inr (engineCands _),
   .inl (.pipe (.call clientA (.index (str "Y") 2 true))), .inr (engineCands _)]

def lostS1 : Full oneShard Nat Nat := (oneFull.run (demoEng true) lostA).getD oneFull

/-- What follows a call of Flush. -/
def flushThen (st : Full oneShard Nat Nat) : List (EAct oneShard.toPipeSize Nat Nat) :=
  ((st.step (demoEng true) (.pipe (.call clientA .flush))).getD st).greedy (demoEng true) (engineCands _) 300

def lostS2 : Full oneShard Nat Nat :=
  (lostS1.run (demoEng true) (.pipe (.call clientA .flush) :: flushThen lostS1)).getD oneFull

/-- Index("X", 3) and RemoveDoc("Y") at the same time, as in `C55_refuted_lost_update`. -/
def lostB : List (EAct oneShard.toPipeSize Nat Nat) := lostS2.script (demoEng true)
  [.inl (.pipe (.call clientA (.index (str "X") 3 true))), .inl (.pipe (.call clientB (.remove (str "Y") true))),
   .inr idleCands, .inl (.rem theShard), .inl (.rem theShard), .inl (.rem theShard), .inl (.rem theShard),
   .inr (idleCands ++ [.add theShard]), .inr (engineCands _)]

def lostS3 : Full oneShard Nat Nat := (lostS2.run (demoEng true) lostB).getD oneFull

def lostS4 : Full oneShard Nat Nat :=
  (lostS3.run (demoEng true) (.pipe (.call clientA .flush) :: flushThen lostS3)).getD oneFull

/-- A search for the new word of "X". -/
def searchNew : SearchReq Nat := { tokens := [str "k3"] }

def lostC : List (EAct oneShard.toPipeSize Nat Nat) :=
  .start searchNew :: ((lostS4.step (demoEng true) (.start searchNew)).getD lostS4).greedy (demoEng true)
    (searchCands _ 1) 300

def lostPre : List (EAct oneShard.toPipeSize Nat Nat) :=
  lostA ++ .pipe (.call clientA .flush) :: flushThen lostS1 ++ (lostB ++ .pipe (.call clientA .flush) :: flushThen lostS3)

theorem run_getD {E : EngCfg D F A} {st x : Full c F A} {as : List (EAct c.toPipeSize D F)}
    (h : (st.run E as).isSome = true) : st.run E as = some ((st.run E as).getD x) := by
  obtain ⟨y, hy⟩ := Option.isSome_iff_exists.1 h
  rw [hy, Option.getD_some]

/-- **C74 is false of the code** when a cache refresh overlaps a removal: "X" is indexed, flushed, indexed again
(while "Y" is removed) and flushed, all work is done, then a search for a word of the last version of "X" is
made and nothing else happens. The response is complete and empty, although "X" is registered with the ranker. -/
theorem C74_refuted : ∃ (as : List (EAct oneShard.toPipeSize Nat Nat)) (b : Nat) (st : Full oneShard Nat Nat),
    oneFull.run (demoEng true) as = some st ∧ st.crashed = false ∧ Began as 0 b searchNew ∧ st.Returned 0 ∧
    (Full.after (demoEng true) oneFull as b).fine.pipe.Quiet ∧
    (∃ l, Rounds (fun _ => []) (str "X") (Full.after (demoEng true) oneFull as b).fine.pipe l) ∧
    (Full.after (demoEng true) oneFull as b).fine.pipe.RankersDone (fun _ => []) (str "X") ∧
    (∀ t i (a : Call Nat), b ≤ t → as[t]? ≠ some (.pipe (.call i a))) ∧
    Matches (ideal (((Full.after (demoEng true) oneFull as b).fine.pipe.given (fun _ => [])).flatMap
      (oneShard.callOps theShard))) searchNew.docIds ((demoEng true).tokens searchNew ++ searchNew.labels) (str "X") ∧
    ((Full.after (demoEng true) oneFull as b).registered (demoEng true) theShard (str "X")).isSome = true ∧
    respIds (st.response (demoEng true) 0) = some ([], 0) := by
  have d1 : (oneFull.run (demoEng true) lostA).isSome = true := by decide +kernel
  have d2 : (lostS1.run (demoEng true) (.pipe (.call clientA .flush) :: flushThen lostS1)).isSome = true := by decide +kernel
  have d3 : (lostS2.run (demoEng true) lostB).isSome = true := by decide +kernel
  have d4 : (lostS3.run (demoEng true) (.pipe (.call clientA .flush) :: flushThen lostS3)).isSome = true := by decide +kernel
  have h : (lostS4.run (demoEng true) lostC).any (fun st => !st.crashed && decide (0 < st.searches.length) &&
    decide ((st.got 0).length = oneShard.shards) &&
    decide (respIds (st.response (demoEng true) 0) = some ([], 0))) = true := by decide +kernel
  have i1 : decide (∀ i, lostS1.fine.pipe.prog (.client i) = []) = true := by decide +kernel
  have i3 : decide (∀ i, lostS3.fine.pipe.prog (.client i) = []) = true := by decide +kernel
  have t1 : (flushThen lostS1).all (fun a => a.call?.isNone) = true := by decide +kernel
  have t3 : (flushThen lostS3).all (fun a => a.call?.isNone) = true := by decide +kernel
  have e2 : lostS2.fine.pipe.prog (.client clientA) = [] := by decide +kernel
  have e4 : lostS4.fine.pipe.prog (.client clientA) = [] := by decide +kernel
  have c1 : (((oneShard.recovered (fun _ => [])).map (fun x => Call.index x.1 x.2 false) ++
      lostS1.fine.pipe.calls.map (·.2)).filter (Call.about (str "X"))).length ≤ 1 := by decide +kernel
  have c2 : lostS3.fine.pipe.calls = lostS2.fine.pipe.calls ++
      [(clientA, .index (str "X") 3 true), (clientB, .remove (str "Y") true)] := by decide +kernel
  have q : lostS4.fine.pipe.quietB = true := by decide +kernel
  have hno : lostC.all (fun a => a.call?.isNone) = true := by decide +kernel
  have hb : (lostPre.filter EAct.isStart).length = 0 := by decide +kernel
  have hm : (ideal ((lostS4.fine.pipe.given (fun _ => [])).flatMap (oneShard.callOps theShard)) (str "X")).any
    (fun doc => decide (str "k3" ∈ doc.keys)) = true := by decide +kernel
  have hreg : (lostS4.registered (demoEng true) theShard (str "X")).isSome = true := by decide +kernel
  have htok : (demoEng true).tokens searchNew = [str "k3"] := by decide +kernel
  have r1 : oneFull.run (demoEng true) lostA = some lostS1 := run_getD d1
  have r2 : lostS1.run (demoEng true) (.pipe (.call clientA .flush) :: flushThen lostS1) = some lostS2 := run_getD d2
  have r3 : lostS2.run (demoEng true) lostB = some lostS3 := run_getD d3
  have r4 : lostS3.run (demoEng true) (.pipe (.call clientA .flush) :: flushThen lostS3) = some lostS4 := run_getD d4
  have rpre : oneFull.run (demoEng true) lostPre = some lostS4 := by
    rw [lostPre, full_run_append, full_run_append, r1, Option.bind_some, r2, Option.bind_some, full_run_append, r3,
      Option.bind_some, r4]
  obtain ⟨k1, k2⟩ := after_two_rounds (E := demoEng true) (d := str "X") (c := oneShard) (o := smallOpts .docIds 10)
    (db := fun _ => []) oneShard_ok.2.1 (by decide +kernel) r1 r2 r3 r4 (of_decide_eq_true i1) (of_decide_eq_true i3)
    t1 t3 e2 e4 c1 c2 (by decide +kernel) (quiet_of_B q)
  obtain ⟨st, g1, g2⟩ := (Option.any_eq_true _ _).1 h
  simp only [Bool.and_eq_true, Bool.not_eq_true', decide_eq_true_eq] at g2
  have hafter : Full.after (demoEng true) oneFull (lostPre ++ lostC) lostPre.length = lostS4 := by
    unfold Full.after
    rw [List.take_left, rpre]; rfl
  have hst : lostC[0]? = some (.start searchNew) := by rw [lostC]; rfl
  refine ⟨lostPre ++ lostC, lostPre.length, st, by rw [full_run_append, rpre]; exact g1, g2.1.1.1, ⟨?_, ?_⟩,
    ⟨g2.1.1.2, g2.1.2⟩, ?_, ?_, ?_, ?_, ?_, ?_, g2.2⟩
  · rw [List.getElem?_append_right (Nat.le_refl _), Nat.sub_self]; exact hst
  · rw [List.take_left]; exact hb
  · rw [hafter]; exact quiet_of_B q
  · rw [hafter]; exact k1
  · rw [hafter]; exact k2
  · intro t i a hbt ht
    rw [List.getElem?_append_right hbt] at ht
    have := List.all_eq_true.1 hno _ (List.mem_of_getElem? ht)
    simp [EAct.call?] at this
  · rw [hafter]
    obtain ⟨doc, m1, m2⟩ := (Option.any_eq_true _ _).1 hm
    rw [htok]
    exact ⟨by simp, fun _ e => by simp [searchNew] at e, doc, m1, by simpa [searchNew] using m2⟩
  · rw [hafter]; exact hreg

end Riot
