import Verif.Proofs.PipelineLive

/-!
# What the calls issue to rankers and databases
-/

namespace Riot

open Function (update)

variable {D : Type} {c : PipeCfg D}

section rank
variable (s : Fin c.shards) (p : RankEv D → Bool)

theorem μRank_wm_seg (id : Str) (d : D) (f : Bool) :
    (μRank c s p).wm .seg (.seg id d f) = (c.callRank s (.index id d f)).countP p := by
  have h1 : ∀ s', (μRank c s p).w1 (.send (.idxAdd s') (.add none true)) = 0 := by
    intro s'; simp [Meas.w1, PipeCfg.expand, μRank]
  have h2 : ∀ s', (μRank c s p).w1 (.send (.idxAdd s') (.add (some (id, d)) f)) = 0 := by
    intro s'; cases f <;> simp [Meas.w1, PipeCfg.expand, μRank]
  have h3 : ∀ s', (μRank c s p).w1 (.send (.rankAdd s') (.rankAdd id d)) =
      if s' = s then (if p (.add id d) then 1 else 0) else 0 := by
    intro s'; simp [Meas.w1, PipeCfg.expand, μRank, ite_and_one]
  unfold Meas.wm PipeCfg.callRank
  simp only [PipeCfg.expand]
  by_cases h0 : id = str "0"
  · cases f
    · simp [h0]
    · simp [h0, wsum_map, h1, wsum_zero]
  · simp only [h0, if_false, wsum_cons, wsum_append, wsum_nil, h2, h3]
    have h4 : wsum (μRank c s p).w1 (if f = true then
        (c.allShards.filter (fun s => s ≠ c.route id d)).map
          (fun s => Micro.send (Chan.idxAdd s) (Msg.add none true)) else []) = 0 := by
      split
      · simp only [wsum_map, h1, wsum_zero]
      · rfl
    rw [h4]
    by_cases hr : c.route id d = s
    · simp [hr, h0, List.countP_cons]
    · simp [hr]

theorem μRank_internal (id : Str) (d : D) (f : Bool) :
    wsum (μRank c s p).w2 (c.internalIndex id d f) = (c.callRank s (.index id d f)).countP p := by
  unfold PipeCfg.internalIndex
  simp only [wsum_append, wsum_cons, wsum_nil]
  have h1 : wsum (μRank c s p).w2 (if id ≠ str "0" then [Micro.tick Counter.indexingReqs 1] else []) = 0 := by
    split <;> simp [Meas.w2, μRank]
  have h2 : wsum (μRank c s p).w2 (if f = true then [Micro.tick Counter.forceReqs 1] else []) = 0 := by
    split <;> simp [Meas.w2, μRank]
  rw [h1, h2]
  simp only [Meas.w2, μRank_wm_seg]
  omega

theorem μRank_call (a : Call D) :
    wsum (μRank c s p).w2 (c.call a) = (c.callRank s a).countP p := by
  cases a with
  | index id d f =>
    simp only [PipeCfg.call, wsum_append, μRank_internal]
    have : wsum (μRank c s p).w2 (if c.useStore = true ∧ id ≠ str "0" then
        [Micro.send (Chan.store (c.storeRoute id)) (Msg.store id d)] else []) = 0 := by
      split
      · simp only [wsum_cons, wsum_nil, Meas.w2, Meas.wm, PipeCfg.expand]
        split <;> simp [Meas.w1, μRank]
      · rfl
    rw [this]; rfl
  | remove id f =>
    simp only [PipeCfg.call, wsum_append]
    have h1 : wsum (μRank c s p).w2 (if id ≠ str "0" then [Micro.tick Counter.removingReqs 1] else []) = 0 := by
      split <;> simp [Meas.w2, μRank]
    have h2 : wsum (μRank c s p).w2 (if f = true then [Micro.tick Counter.forceReqs 1] else []) = 0 := by
      split <;> simp [Meas.w2, μRank]
    have h3 : wsum (μRank c s p).w2 (if c.useStore = true ∧ id ≠ str "0" then
        [Micro.spawn (c.storeRoute id) (DbOp.del id)] else []) = 0 := by
      split <;> simp [Meas.w2, μRank]
    have h4 : ∀ s', wsum (μRank c s p).w2 (Micro.send (Chan.idxRem s') (Msg.rem id f) ::
        if id = str "0" then [] else [Micro.send (Chan.rankRem s') (Msg.rankRem id)]) =
        if s' = s then (if id ≠ str "0" ∧ p (.remove id) then 1 else 0) else 0 := by
      intro s'
      have e1 : (μRank c s p).w2 (Micro.send (Chan.idxRem s') (Msg.rem id f)) = 0 := by
        simp only [Meas.w2, Meas.wm, PipeCfg.expand, wsum_append, wsum_cons]
        by_cases h0 : id = str "0" <;> cases f <;> simp [h0, Meas.w1, μRank]
      have e2 : (μRank c s p).w2 (Micro.send (Chan.rankRem s') (Msg.rankRem id)) =
          if s' = s then (if p (.remove id) then 1 else 0) else 0 := by
        simp [Meas.w2, Meas.wm, PipeCfg.expand, Meas.w1, μRank, ite_and_one]
      rw [wsum_cons, e1]
      by_cases h0 : id = str "0" <;> simp [h0, e2]
    rw [h1, h2, h3, wsum_flatMap]
    simp only [h4, wsum_allShards]
    by_cases h0 : id = str "0" <;> simp [PipeCfg.callRank, List.countP_cons, h0]
  | flush =>
    simp only [PipeCfg.call, wsum_append, μRank_internal]
    simp [Meas.w2, μRank, PipeCfg.callRank]

/-- Executed plus pending ranker events are the issued ones. -/
theorem rank_conserve (db : Fin c.stores → List (Str × D)) (as : List (Act c.toPipeSize D)) (st : Pipe c)
    (h : (Pipe.start c db).run as = some st) :
    (st.rankLog s).countP p + (μRank c s p).pending st = (st.issuedRank db s).countP p := by
  have := (μRank c s p).conserve _ _ as h
  rw [Pipe.start_prog_sum] at this
  simp only [μRank_internal, μRank_call] at this
  have e1 : (μRank c s p).val (Pipe.start c db).obs = 0 := rfl
  have e2 : (Pipe.start c db).calls = [] := rfl
  have e3 : (μRank c s p).val st.obs = (st.rankLog s).countP p := rfl
  rw [e1, e2, e3, wsum_nil] at this
  unfold Pipe.issuedRank
  rw [List.countP_append, countP_flatMap']
  by_cases hs : c.useStore = true
  · simp only [hs, if_true, countP_flatMap'] at this ⊢
    omega
  · simp only [hs, Bool.false_eq_true, if_false, List.countP_nil] at this ⊢
    omega

end rank

section db
variable (m : Fin c.stores) (p : DbOp D → Bool)

theorem μDb_wm_seg (id : Str) (d : D) (f : Bool) : (μDb c m p).wm .seg (.seg id d f) = 0 := by
  rw [Meas.wm, wsum_eq_zero]
  intro x hx
  simp only [PipeCfg.expand] at hx
  split at hx
  · split at hx
    · obtain ⟨s, _, rfl⟩ := List.mem_map.1 hx
      simp [Meas.w1, PipeCfg.expand, μDb]
    · simp at hx
  · simp only [List.mem_append, List.mem_cons, List.not_mem_nil, or_false] at hx
    rcases hx with (rfl | hx) | rfl
    · cases f <;> simp [Meas.w1, PipeCfg.expand, μDb]
    · split at hx
      · obtain ⟨s, _, rfl⟩ := List.mem_map.1 hx
        simp [Meas.w1, PipeCfg.expand, μDb]
      · simp at hx
    · simp [Meas.w1, PipeCfg.expand, μDb]

theorem μDb_internal (id : Str) (d : D) (f : Bool) :
    wsum (μDb c m p).w2 (c.internalIndex id d f) = 0 := by
  unfold PipeCfg.internalIndex
  simp only [wsum_append, wsum_cons, wsum_nil]
  have h1 : wsum (μDb c m p).w2 (if id ≠ str "0" then [Micro.tick Counter.indexingReqs 1] else []) = 0 := by
    split <;> simp [Meas.w2, μDb]
  have h2 : wsum (μDb c m p).w2 (if f = true then [Micro.tick Counter.forceReqs 1] else []) = 0 := by
    split <;> simp [Meas.w2, μDb]
  rw [h1, h2]
  simp only [Meas.w2, μDb_wm_seg]

theorem μDb_call (a : Call D) :
    wsum (μDb c m p).w2 (c.call a) = (c.callDb m a).countP p := by
  cases a with
  | index id d f =>
    simp only [PipeCfg.call, wsum_append, μDb_internal]
    by_cases hs : c.useStore = true ∧ id ≠ str "0"
    · rw [if_pos hs]
      simp only [wsum_cons, wsum_nil, Meas.w2, Meas.wm, PipeCfg.expand]
      cases he : c.encodes d
      · simp [Meas.w1, μDb, PipeCfg.callDb, he]
      · by_cases hm : c.storeRoute id = m <;>
          simp [Meas.w1, μDb, PipeCfg.callDb, he, hs, hm, List.countP_cons]
    · rw [if_neg hs]
      have : ¬ (c.useStore = true ∧ id ≠ str "0" ∧ c.storeRoute id = m ∧ c.encodes d = true) := by tauto
      simp [PipeCfg.callDb, this]
  | remove id f =>
    simp only [PipeCfg.call, wsum_append]
    have h1 : wsum (μDb c m p).w2 (if id ≠ str "0" then [Micro.tick Counter.removingReqs 1] else []) = 0 := by
      split <;> simp [Meas.w2, μDb]
    have h2 : wsum (μDb c m p).w2 (if f = true then [Micro.tick Counter.forceReqs 1] else []) = 0 := by
      split <;> simp [Meas.w2, μDb]
    have h4 : ∀ s', wsum (μDb c m p).w2 (Micro.send (Chan.idxRem s') (Msg.rem id f) ::
        if id = str "0" then [] else [Micro.send (Chan.rankRem s') (Msg.rankRem id)]) = 0 := by
      intro s'
      have e1 : (μDb c m p).w2 (Micro.send (Chan.idxRem s') (Msg.rem id f)) = 0 := by
        simp only [Meas.w2, Meas.wm, PipeCfg.expand, wsum_append, wsum_cons]
        by_cases h0 : id = str "0" <;> cases f <;> simp [h0, Meas.w1, μDb]
      have e2 : (μDb c m p).w2 (Micro.send (Chan.rankRem s') (Msg.rankRem id)) = 0 := by
        simp [Meas.w2, Meas.wm, PipeCfg.expand, Meas.w1, μDb]
      rw [wsum_cons, e1]
      by_cases h0 : id = str "0" <;> simp [h0, e2]
    rw [h1, h2, wsum_flatMap]
    simp only [h4, wsum_zero]
    by_cases hs : c.useStore = true ∧ id ≠ str "0"
    · by_cases hm : c.storeRoute id = m <;>
        simp [Meas.w2, μDb, PipeCfg.callDb, hs, hm, List.countP_cons]
    · have : ¬ (c.useStore = true ∧ id ≠ str "0" ∧ c.storeRoute id = m) := by tauto
      simp [PipeCfg.callDb, this, hs]
  | flush =>
    simp only [PipeCfg.call, wsum_append, μDb_internal]
    simp [Meas.w2, μDb, PipeCfg.callDb]

/-- Executed plus pending database operations are the issued ones. -/
theorem db_conserve (db : Fin c.stores → List (Str × D)) (as : List (Act c.toPipeSize D)) (st : Pipe c)
    (h : (Pipe.start c db).run as = some st) :
    (st.dbLog m).countP p + (μDb c m p).pending st = (st.issuedDb m).countP p := by
  have := (μDb c m p).conserve _ _ as h
  rw [Pipe.start_prog_sum] at this
  simp only [μDb_internal, μDb_call] at this
  have e1 : (μDb c m p).val (Pipe.start c db).obs = 0 := rfl
  have e2 : (Pipe.start c db).calls = [] := rfl
  have e3 : (μDb c m p).val st.obs = (st.dbLog m).countP p := rfl
  rw [e1, e2, e3, wsum_nil] at this
  unfold Pipe.issuedDb
  rw [countP_flatMap']
  simp only [wsum_zero, ite_self] at this
  omega

end db

end Riot
