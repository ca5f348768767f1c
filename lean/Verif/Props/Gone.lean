import Verif.Props.ShardingRun
import Verif.Props.FullLost

/-!
# Example schedules: other documents were indexed and removed again

The theorems about collections (C104, C105, C109, C122, C123) allow that other documents were indexed and removed meanwhile (`Remains`).
For a given engine, collection, further documents and request, `goneCheck` computes such a schedule and checks it by evaluation.
-/

namespace Riot

variable {D F A : Type}

section
variable (c : PipeCfg D) (E : EngCfg D F A) (o : IndexerOpts) (i : Fin c.clients) (docs gone : List (Str × D)) (r : SearchReq F)

/-- What follows a call of Flush until everything is done. -/
def goneTail (st : Full c F A) : List (EAct c.toPipeSize D F) :=
  ((st.step E (.pipe (.call i .flush))).getD st).greedy E (engineCands _) 300

def goneStart : Full c F A := Full.start c o (fun _ => [])
def goneLoad : List (EAct c.toPipeSize D F) := (goneStart c o : Full c F A).script E
  (.inr (engineCands _) :: (docs ++ gone).flatMap (fun x => [.inl (.pipe (.call i (.index x.1 x.2 false))), .inr (engineCands _)]))
def goneS1 : Full c F A := ((goneStart c o).run E (goneLoad c E o i docs gone)).getD (goneStart c o)
def goneFlush1 : List (EAct c.toPipeSize D F) := .pipe (.call i .flush) :: goneTail c E i (goneS1 c E o i docs gone)
def goneS2 : Full c F A := ((goneS1 c E o i docs gone).run E (goneFlush1 c E o i docs gone)).getD (goneStart c o)
def goneRemove : List (EAct c.toPipeSize D F) := (goneS2 c E o i docs gone).script E
  (gone.flatMap (fun x => [.inl (.pipe (.call i (.remove x.1 false))), .inr (engineCands _)]))
def goneS3 : Full c F A := ((goneS2 c E o i docs gone).run E (goneRemove c E o i docs gone)).getD (goneStart c o)
def goneFlush2 : List (EAct c.toPipeSize D F) := .pipe (.call i .flush) :: goneTail c E i (goneS3 c E o i docs gone)
def goneS4 : Full c F A := ((goneS3 c E o i docs gone).run E (goneFlush2 c E o i docs gone)).getD (goneStart c o)
def goneSearch : List (EAct c.toPipeSize D F) :=
  .start r :: (((goneS4 c E o i docs gone).step E (.start r)).getD (goneStart c o)).greedy E (searchCands _ 1) 300
def gonePre : List (EAct c.toPipeSize D F) :=
  goneLoad c E o i docs gone ++ goneFlush1 c E o i docs gone ++ (goneRemove c E o i docs gone ++ goneFlush2 c E o i docs gone)
/-- `docs` and `gone` are indexed; Flush; `gone` are removed; Flush; a search. -/
def goneRun : List (EAct c.toPipeSize D F) := gonePre c E o i docs gone ++ goneSearch c E o i docs gone r

/-- The schedule runs, everything is done before the search begins, and the response of the search is as expected. -/
def goneCheck [DecidableEq D] (want : Option (SearchResp F A) → Bool) : Bool :=
  ((goneStart c o).gentleRun E o (fun _ => []) (goneRun c E o i docs gone r)).any (fun st =>
    decide (0 < st.searches.length) && decide ((st.got 0).length = c.shards) && want (st.response E 0)) &&
  ((goneStart c o).run E (goneLoad c E o i docs gone)).isSome &&
  ((goneS1 c E o i docs gone).run E (goneFlush1 c E o i docs gone)).isSome &&
  ((goneS2 c E o i docs gone).run E (goneRemove c E o i docs gone)).isSome &&
  ((goneS3 c E o i docs gone).run E (goneFlush2 c E o i docs gone)).isSome &&
  (List.finRange c.clients).all (fun j => ((goneS1 c E o i docs gone).fine.pipe.prog (.client j)).isEmpty) &&
  (List.finRange c.clients).all (fun j => ((goneS3 c E o i docs gone).fine.pipe.prog (.client j)).isEmpty) &&
  (goneTail c E i (goneS1 c E o i docs gone)).all (fun a => a.call?.isNone) &&
  (goneTail c E i (goneS3 c E o i docs gone)).all (fun a => a.call?.isNone) &&
  ((goneS2 c E o i docs gone).fine.pipe.prog (.client i)).isEmpty &&
  ((goneS4 c E o i docs gone).fine.pipe.prog (.client i)).isEmpty &&
  (goneS4 c E o i docs gone).fine.pipe.quietB &&
  decide ((goneS1 c E o i docs gone).fine.pipe.calls = (docs ++ gone).map (fun x => (i, Call.index x.1 x.2 false))) &&
  decide ((goneS3 c E o i docs gone).fine.pipe.calls = (goneS2 c E o i docs gone).fine.pipe.calls ++ gone.map (fun x => (i, Call.remove x.1 false))) &&
  decide ((goneS4 c E o i docs gone).fine.pipe.calls.map (·.2) = (docs ++ gone).map (fun x => Call.index x.1 x.2 false) ++ Call.flush ::
    (gone.map (fun x => Call.remove x.1 false) ++ [Call.flush])) &&
  decide ((docs ++ gone).map (·.1)).Nodup &&
  decide (((gonePre c E o i docs gone).filter EAct.isStart).length = 0) &&
  (goneSearch c E o i docs gone r).all (fun a => a.call?.isNone) &&
  (c.recovered (fun _ => [])).isEmpty

end

theorem one_about {l : List (Call D)} {d : Str} {ids : List Str} (hn : ids.Nodup) (h : l.map (fun a => (a.about d : Bool)) = ids.map (fun x => decide (x = d))) :
    (l.filter (Call.about d)).length ≤ 1 := by
  rw [← List.countP_eq_length_filter]
  have : l.countP (Call.about d) = ids.countP (fun x => decide (x = d)) := by
    have h1 : l.countP (Call.about d) = (l.map (fun a => (a.about d : Bool))).countP id := by rw [List.countP_map]; rfl
    have h2 : ids.countP (fun x => decide (x = d)) = (ids.map (fun x => decide (x = d))).countP id := by rw [List.countP_map]; rfl
    rw [h1, h2, h]
  rw [this]
  have := List.nodup_iff_count_le_one.1 hn d
  rw [List.count_eq_countP] at this
  exact (List.countP_congr (fun x _ => by simp)).trans_le this

/-- The calls of a schedule `goneRun`. -/
def goneCalls (docs gone : List (Str × D)) : List (Call D) :=
  (docs ++ gone).map (fun x => Call.index x.1 x.2 false) ++ Call.flush :: (gone.map (fun x => Call.remove x.1 false) ++ [Call.flush])

/-- What a schedule does that was checked. -/
theorem gone_steps [DecidableEq D] {c : PipeCfg D} {E : EngCfg D F A} {textOf : D → DocText} {o : IndexerOpts} {i : Fin c.clients}
    {docs gone : List (Str × D)} {r : SearchReq F} {want : Option (SearchResp F A) → Bool} (ht : FromTexts c E textOf)
    (hc : goneCheck c E o i docs gone r want = true) :
    ∃ st, (((docs ++ gone).map (·.1)).Nodup ∧ GentleStart c o (fun _ => []) ∧
      (Full.start c o (fun _ => [])).run E (goneRun c E o i docs gone r) = some st ∧
      (Full.start c o (fun _ => [])).Gentle E o (fun _ => []) (goneRun c E o i docs gone r) ∧ st.Returned 0 ∧
      ∃ b f j, Began (goneRun c E o i docs gone r) 0 b r ∧ (Full.after E (Full.start c o (fun _ => [])) (goneRun c E o i docs gone r) b).fine.pipe.Quiet ∧
        (∀ d, d ≠ str "0" → ∃ l, Rounds (fun _ => []) d (Full.after E (Full.start c o (fun _ => [])) (goneRun c E o i docs gone r) b).fine.pipe l) ∧
        (goneRun c E o i docs gone r)[f]? = some (.pipe (.call j .flush)) ∧ f < b ∧
        (∀ t j (a : Call D), f < t → (goneRun c E o i docs gone r)[t]? ≠ some (.pipe (.call j a))) ∧
        (Full.after E (Full.start c o (fun _ => [])) (goneRun c E o i docs gone r) b).fine.pipe.given (fun _ => []) = goneCalls docs gone) ∧
      want (st.response E 0) = true := by
  unfold goneCheck at hc
  simp only [Bool.and_eq_true, decide_eq_true_eq] at hc
  obtain ⟨⟨⟨⟨⟨⟨⟨⟨⟨⟨⟨⟨⟨⟨⟨⟨⟨⟨h, d1⟩, d2⟩, d3⟩, d4⟩, i1⟩, i3⟩, t1⟩, t3⟩, e2⟩, e4⟩, q⟩, c1⟩, c3⟩, c4⟩, hnd⟩, hb⟩, hno⟩, hrec⟩ := hc
  have hrec' : c.recovered (fun _ => []) = [] := by simpa using hrec
  have r1 : (Full.start c o (fun _ => [])).run E (goneLoad c E o i docs gone) = some (goneS1 c E o i docs gone) := run_getD d1
  have r2 : (goneS1 c E o i docs gone).run E (goneFlush1 c E o i docs gone) = some (goneS2 c E o i docs gone) := run_getD d2
  have r3 : (goneS2 c E o i docs gone).run E (goneRemove c E o i docs gone) = some (goneS3 c E o i docs gone) := run_getD d3
  have r4 : (goneS3 c E o i docs gone).run E (goneFlush2 c E o i docs gone) = some (goneS4 c E o i docs gone) := run_getD d4
  have rpre : (Full.start c o (fun _ => [])).run E (gonePre c E o i docs gone) = some (goneS4 c E o i docs gone) := by
    rw [gonePre, full_run_append, full_run_append, r1, Option.bind_some, r2, Option.bind_some, full_run_append, r3,
      Option.bind_some, r4]
  have hnd1 : (gone.map (·.1)).Nodup := by
    rw [List.map_append, List.nodup_append] at hnd; exact hnd.2.1
  have hround : ∀ d, d ≠ str "0" → ∃ l, Rounds (fun _ => []) d (goneS4 c E o i docs gone).fine.pipe l := by
    intro d h0
    refine (after_two_rounds (E := E) (d := d) (c := c) (o := o) (db := fun _ => []) ht.docOk h0 r1 r2 r3 r4
      (fun j => by simpa using List.all_eq_true.1 i1 j (List.mem_finRange j))
      (fun j => by simpa using List.all_eq_true.1 i3 j (List.mem_finRange j)) t1 t3 (by simpa using e2) (by simpa using e4) ?_ c3 ?_ (quiet_of_B q)).1
    · rw [hrec', c1]
      refine one_about hnd ?_
      simp [Call.about, Function.comp_def]
    · refine one_about hnd1 ?_
      simp [Call.about, Function.comp_def]
  obtain ⟨st, h1, h2⟩ := (Option.any_eq_true _ _).1 h
  simp only [Bool.and_eq_true, decide_eq_true_eq] at h2
  obtain ⟨g1, g2⟩ := full_gentleRun_spec _ h1
  have hafter : Full.after E (Full.start c o (fun _ => [])) (goneRun c E o i docs gone r) (gonePre c E o i docs gone).length = goneS4 c E o i docs gone := by
    unfold Full.after goneRun
    rw [List.take_left, rpre]; rfl
  refine ⟨st, ⟨hnd, ?_, g1, g2, ⟨h2.1.1, h2.1.2⟩, (gonePre c E o i docs gone).length,
    (goneLoad c E o i docs gone ++ goneFlush1 c E o i docs gone ++ goneRemove c E o i docs gone).length, i, ⟨?_, ?_⟩, ?_, ?_, ?_, ?_, ?_, ?_⟩, h2.2⟩
  · intro s
    rw [hrec']
    simp only [List.map_nil, List.countP_nil]
    exact size_pos o
  · unfold goneRun
    rw [List.getElem?_append_right (Nat.le_refl _), Nat.sub_self]
    rw [goneSearch]; rfl
  · unfold goneRun
    rw [List.take_left]; exact hb
  · rw [hafter]; exact quiet_of_B q
  · rw [hafter]; exact hround
  · have : goneRun c E o i docs gone r = (goneLoad c E o i docs gone ++ goneFlush1 c E o i docs gone ++ goneRemove c E o i docs gone) ++
        (.pipe (.call i .flush) :: (goneTail c E i (goneS3 c E o i docs gone) ++ goneSearch c E o i docs gone r)) := by
      simp [goneRun, gonePre, goneFlush2, List.append_assoc]
    rw [this, List.getElem?_append_right (Nat.le_refl _), Nat.sub_self]
    rfl
  · simp [gonePre, goneFlush2]
  · intro t j a ht he
    have e : goneRun c E o i docs gone r = (goneLoad c E o i docs gone ++ goneFlush1 c E o i docs gone ++ goneRemove c E o i docs gone) ++
        (.pipe (.call i .flush) :: (goneTail c E i (goneS3 c E o i docs gone) ++ goneSearch c E o i docs gone r)) := by
      simp [goneRun, gonePre, goneFlush2, List.append_assoc]
    rw [e, List.getElem?_append_right (Nat.le_of_lt ht)] at he
    obtain ⟨n, hn⟩ : ∃ n, t - (goneLoad c E o i docs gone ++ goneFlush1 c E o i docs gone ++ goneRemove c E o i docs gone).length = n + 1 :=
      ⟨t - (goneLoad c E o i docs gone ++ goneFlush1 c E o i docs gone ++ goneRemove c E o i docs gone).length - 1, by omega⟩
    rw [hn, List.getElem?_cons_succ] at he
    have hm := List.mem_of_getElem? he
    have : (EAct.pipe (.call j a) : EAct c.toPipeSize D F).call?.isNone = true := by
      rcases List.mem_append.1 hm with hm | hm
      · exact List.all_eq_true.1 t3 _ hm
      · exact List.all_eq_true.1 hno _ hm
    simp [EAct.call?] at this
  · rw [hafter]
    unfold Pipe.given goneCalls
    rw [hrec', c4]
    rfl

theorem gone_remains {docs gone : List (Str × D)} (hnd : ((docs ++ gone).map (·.1)).Nodup) : Remains (goneCalls docs gone) docs := by
  unfold goneCalls
  have hdis : ∀ d x y, (d, x) ∈ docs → (d, y) ∉ gone := by
    intro d x y hx hy
    rw [List.map_append, List.nodup_append] at hnd
    exact hnd.2.2 d (List.mem_map.2 ⟨_, hx, rfl⟩) d (List.mem_map.2 ⟨_, hy, rfl⟩) rfl
  refine ⟨?_, ?_, ?_, ?_⟩
  · rw [List.map_append, List.nodup_append] at hnd; exact hnd.1
  · intro d x hx
    exact ⟨false, List.mem_append_left _ (List.mem_map.2 ⟨(d, x), List.mem_append_left _ hx, rfl⟩)⟩
  · intro d x hx
    constructor
    · intro f hf
      simp only [List.mem_append, List.mem_map, List.mem_cons, reduceCtorEq, and_false, exists_false, false_or, or_false, List.not_mem_nil,
        Call.remove.injEq] at hf
      obtain ⟨⟨d', y⟩, hy, e, _⟩ := hf
      simp only at e
      subst e
      exact hdis _ x y hx hy
    · intro y g hy
      simp only [List.mem_append, List.mem_map, List.mem_cons, reduceCtorEq, and_false, exists_false, or_false, List.not_mem_nil,
        Call.index.injEq] at hy
      obtain ⟨⟨d', y'⟩, hy', e1, e2, _⟩ := hy
      simp only at e1 e2
      subst e1 e2
      rcases hy' with hy' | hy'
      · rw [List.map_append, List.nodup_append] at hnd
        simpa using List.inj_on_of_nodup_map hnd.1 hy' hx rfl
      · exact absurd hy' (hdis _ x _ hx)
  · intro d x g hx
    simp only [List.mem_append, List.mem_map, List.mem_cons, reduceCtorEq, and_false, exists_false, or_false, List.not_mem_nil,
      Call.index.injEq] at hx
    obtain ⟨⟨d', x'⟩, hx', e1, e2, _⟩ := hx
    simp only at e1 e2
    subst e1 e2
    rcases hx' with hx' | hx'
    · exact Or.inl hx'
    · right
      obtain ⟨l1, l2, e⟩ := List.append_of_mem hx'
      refine ⟨(docs ++ gone).map (fun x => Call.index x.1 x.2 false) ++ Call.flush :: l1.map (fun x => Call.remove x.1 false), false,
        l2.map (fun x => Call.remove x.1 false) ++ [Call.flush], ?_, ?_⟩
      · rw [e]
        simp
      · intro y h hm
        simp at hm

/-- A schedule that was checked is a searched collection: the documents removed are not in it. -/
theorem gone_searched [DecidableEq D] {c : PipeCfg D} {E : EngCfg D F A} {textOf : D → DocText} {o : IndexerOpts} {i : Fin c.clients}
    {docs gone : List (Str × D)} {r : SearchReq F} {want : Option (SearchResp F A) → Bool} (ht : FromTexts c E textOf) (hso : SortOk E.so)
    (hgs : GSortOk E.gs) (hc : goneCheck c E o i docs gone r want = true) :
    ∃ st, SearchedCollection c E textOf o (fun _ => []) (goneRun c E o i docs gone r) st 0 r docs ∧ want (st.response E 0) = true := by
  obtain ⟨st, ⟨hnd, h1, h2, h3, h4, b, f, j, h5, h6, h7, h8, h9, h10, h11⟩, hw⟩ := gone_steps (textOf := textOf) ht hc
  exact ⟨st, ⟨ht, hso, hgs, h1, h2, h3, h4, b, f, j, h5, h6, h7, h8, h9, h10, h11 ▸ gone_remains hnd⟩, hw⟩

/-- The hypotheses of `C109_only_the_collection` hold: "X", "Y" and "Z" are indexed; on an engine with other sizes "V" and "W", which have
the words of the request, are indexed, too, and removed again. -/
example : ∃ st st', SearchedCollection textEngine (demoEng true) demoTexts (smallOpts .docIds 10) (fun _ => [])
      (goneRun textEngine (demoEng true) (smallOpts .docIds 10) textUser [(str "X", 4), (str "Y", 2), (str "Z", 3)] [(str "V", 4), (str "W", 3)] { text := str "red" })
      st 0 { text := str "red" } [(str "X", 4), (str "Y", 2), (str "Z", 3)] ∧
    SearchedCollection textEngine (demoEng true) demoTexts (smallOpts .docIds 5) (fun _ => [])
      (collRun textEngine (demoEng true) (smallOpts .docIds 5) textUser [(str "X", 4), (str "Y", 2), (str "Z", 3)] { text := str "red" })
      st' 0 { text := str "red" } [(str "X", 4), (str "Y", 2), (str "Z", 3)] ∧
    respIds (st.response (demoEng true) 0) = respIds (st'.response (demoEng true) 0) := by
  obtain ⟨st, h1, h2⟩ := gone_searched (c := textEngine) (E := demoEng true) (textOf := demoTexts) (o := smallOpts .docIds 10) (i := textUser)
    (docs := [(str "X", 4), (str "Y", 2), (str "Z", 3)]) (gone := [(str "V", 4), (str "W", 3)]) (r := { text := str "red" })
    (want := fun r => decide (respIds r = some ([str "X", str "Z", str "Y"], 3)))
    (fun id x => docOf_isDocIndexOf _ _ _ _) insSort_ok insGSort_ok (by decide +kernel)
  obtain ⟨st', h1', h2'⟩ := coll_searched (c := textEngine) (E := demoEng true) (textOf := demoTexts) (o := smallOpts .docIds 5) (i := textUser)
    (docs := [(str "X", 4), (str "Y", 2), (str "Z", 3)]) (r := { text := str "red" })
    (want := fun r => decide (respIds r = some ([str "X", str "Z", str "Y"], 3)))
    (fun id x => docOf_isDocIndexOf _ _ _ _) insSort_ok insGSort_ok (by decide +kernel)
  exact ⟨st, st', h1, h1', (of_decide_eq_true h2).trans (of_decide_eq_true h2').symm⟩

end Riot
