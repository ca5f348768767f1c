import Verif.Props.Criteria

/-!
# Example schedules: a collection is indexed and flushed, then searched

For a given engine, collection and request, `collCheck` computes such a schedule and checks it by evaluation; `coll_hyps` concludes that the
hypotheses of the theorems about collections hold of it.
-/

namespace Riot

variable {D F A : Type}

section
variable (c : PipeCfg D) (E : EngCfg D F A) (o : IndexerOpts) (i : Fin c.clients) (docs : List (Str × D)) (r : SearchReq F)

def collStart : Full c F A := Full.start c o (fun _ => [])
def collLoad : List (EAct c.toPipeSize D F) := (collStart c o : Full c F A).script E
  (.inr (engineCands _) :: docs.flatMap (fun x => [.inl (.pipe (.call i (.index x.1 x.2 false))), .inr (engineCands _)]))
def collLoaded : Full c F A := ((collStart c o).run E (collLoad c E o i docs)).getD (collStart c o)
def collTail : List (EAct c.toPipeSize D F) :=
  (((collLoaded c E o i docs).step E (.pipe (.call i .flush))).getD (collLoaded c E o i docs)).greedy E (engineCands _) 300
def collFlush : List (EAct c.toPipeSize D F) := .pipe (.call i .flush) :: collTail c E o i docs
def collFlushed : Full c F A := ((collLoaded c E o i docs).run E (collFlush c E o i docs)).getD (collLoaded c E o i docs)
def collSearch : List (EAct c.toPipeSize D F) :=
  .start r :: (((collFlushed c E o i docs).step E (.start r)).getD (collFlushed c E o i docs)).greedy E (searchCands _ 1) 300
/-- The documents are indexed one after the other; then Flush; then a search. -/
def collRun : List (EAct c.toPipeSize D F) := collLoad c E o i docs ++ collFlush c E o i docs ++ collSearch c E o i docs r

/-- The schedule runs, everything is done before the search begins, and the response of the search is as expected. -/
def collCheck [DecidableEq D] (want : Option (SearchResp F A) → Bool) : Bool :=
  ((collStart c o).gentleRun E o (fun _ => []) (collRun c E o i docs r)).any (fun st =>
    decide (0 < st.searches.length) && decide ((st.got 0).length = c.shards) && want (st.response E 0)) &&
  decide (((collLoad c E o i docs ++ collFlush c E o i docs).filter EAct.isStart).length = 0) &&
  ((collStart c o).run E (collLoad c E o i docs)).isSome &&
  ((collLoaded c E o i docs).run E (collFlush c E o i docs)).isSome &&
  (List.finRange c.clients).all (fun j => ((collLoaded c E o i docs).fine.pipe.prog (.client j)).isEmpty) &&
  decide ((collLoaded c E o i docs).fine.pipe.calls.map (·.2) = docs.map (fun x => Call.index x.1 x.2 false)) &&
  decide ((collFlushed c E o i docs).fine.pipe.given (fun _ => []) = docs.map (fun x => Call.index x.1 x.2 false) ++ [Call.flush]) &&
  decide (docs.map (·.1)).Nodup &&
  (collTail c E o i docs).all (fun a => a.call?.isNone) &&
  ((collFlushed c E o i docs).fine.pipe.prog (.client i)).isEmpty &&
  (collFlushed c E o i docs).fine.pipe.quietB &&
  (collSearch c E o i docs r).all (fun a => a.call?.isNone) &&
  (c.recovered (fun _ => [])).isEmpty

end

/-- The hypotheses of the theorems about collections hold of the schedule. -/
theorem coll_hyps [DecidableEq D] {c : PipeCfg D} {E : EngCfg D F A} {o : IndexerOpts} {i : Fin c.clients} {docs : List (Str × D)}
    {r : SearchReq F} {want : Option (SearchResp F A) → Bool} (hdoc : c.DocOk) (hc : collCheck c E o i docs r want = true) :
    ∃ st b f, (Full.start c o (fun _ => [])).run E (collRun c E o i docs r) = some st ∧
      (Full.start c o (fun _ => [])).Gentle E o (fun _ => []) (collRun c E o i docs r) ∧ GentleStart c o (fun _ => []) ∧
      Began (collRun c E o i docs r) 0 b r ∧ st.Returned 0 ∧
      (Full.after E (Full.start c o (fun _ => [])) (collRun c E o i docs r) b).fine.pipe.Quiet ∧
      (∀ d, d ≠ str "0" → ∃ l, Rounds (fun _ => []) d (Full.after E (Full.start c o (fun _ => [])) (collRun c E o i docs r) b).fine.pipe l) ∧
      (collRun c E o i docs r)[f]? = some (.pipe (.call i .flush)) ∧ f < b ∧
      (∀ t j (a : Call D), f < t → (collRun c E o i docs r)[t]? ≠ some (.pipe (.call j a))) ∧
      GivenOnce ((Full.after E (Full.start c o (fun _ => [])) (collRun c E o i docs r) b).fine.pipe.given (fun _ => [])) docs ∧
      want (st.response E 0) = true := by
  unfold collCheck at hc
  simp only [Bool.and_eq_true, decide_eq_true_eq] at hc
  obtain ⟨⟨⟨⟨⟨⟨⟨⟨⟨⟨⟨⟨h, hb⟩, hl⟩, hf⟩, hidle⟩, hcl1⟩, hcl2⟩, hnd⟩, htail⟩, hdone⟩, hq⟩, hno⟩, hrec⟩ := hc
  have hrec' : c.recovered (fun _ => []) = [] := by simpa using hrec
  have rl : (Full.start c o (fun _ => [])).run E (collLoad c E o i docs) = some (collLoaded c E o i docs) := by
    obtain ⟨x, hx⟩ := Option.isSome_iff_exists.1 hl
    rw [collLoaded, hx, Option.getD_some]; exact hx
  have rf : (collLoaded c E o i docs).run E (collFlush c E o i docs) = some (collFlushed c E o i docs) := by
    obtain ⟨x, hx⟩ := Option.isSome_iff_exists.1 hf
    rw [collFlushed, hx, Option.getD_some]
  have hst : (collSearch c E o i docs r)[0]? = some (.start r) := by rw [collSearch]; rfl
  have hall : ∀ d f, Call.remove d f ∉ (collFlushed c E o i docs).fine.pipe.given (fun _ => []) := by
    intro d f
    rw [hcl2]
    simp
  obtain ⟨b, k1, k2, k3, k4, k5, k6, k7, k8, k9⟩ := late_hyps_coll (E := E) (tail := collTail c E o i docs)
    (rest := collSearch c E o i docs r) (o := o) (db := fun _ => []) hdoc rl rf
    (fun j => by simpa using List.all_eq_true.1 hidle j (List.mem_finRange j)) htail (by simpa using hdone) (quiet_of_B hq)
    (by rw [hrec', hcl1]; rfl) hnd hall hb hst hno (as := collRun c E o i docs r) rfl
  obtain ⟨st, h1, h2⟩ := (Option.any_eq_true _ _).1 h
  simp only [Bool.and_eq_true, decide_eq_true_eq] at h2
  obtain ⟨g1, g2⟩ := full_gentleRun_spec _ h1
  refine ⟨st, b, _, g1, g2, ?_, k1, ⟨h2.1.1, h2.1.2⟩, k2, k3, k8, k7, k9, ?_, h2.2⟩
  · intro s
    rw [hrec']
    simp only [List.map_nil, List.countP_nil]
    exact size_pos o
  · rw [k6, hcl2]
    refine ⟨hnd, ?_, ?_⟩
    · intro a ha
      rcases List.mem_append.1 ha with ha | ha
      · obtain ⟨x, hx, rfl⟩ := List.mem_map.1 ha
        exact Or.inr ⟨x.1, x.2, false, hx, rfl⟩
      · exact Or.inl (by simpa using ha)
    · intro d x hx
      exact ⟨false, List.mem_append_left _ (List.mem_map.2 ⟨(d, x), hx, rfl⟩)⟩

end Riot
