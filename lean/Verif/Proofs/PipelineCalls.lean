import Verif.Proofs.Pipeline
import Mathlib.Algebra.BigOperators.Fin

/-!
# What the calls issue
-/

namespace Riot

open Function (update)

variable {D : Type} {c : PipeCfg D}

theorem wsum_map {α β : Type} (w : β → Nat) (f : α → β) (l : List α) :
    wsum w (l.map f) = wsum (fun x => w (f x)) l := by simp [wsum, Function.comp_def]

theorem wsum_const {α : Type} (k : Nat) (l : List α) : wsum (fun _ => k) l = l.length * k := by
  induction l with
  | nil => simp
  | cons x l ih => simp [ih, Nat.succ_mul]; omega

theorem wsum_ite_notMem {α : Type} [DecidableEq α] (l : List α) (s : α) (k : Nat) (h : s ∉ l) :
    wsum (fun s' => if s' = s then k else 0) l = 0 := by
  rw [wsum_eq_zero]
  intro x hx
  have : x ≠ s := by rintro rfl; exact h hx
  simp [this]

theorem wsum_ite_mem {α : Type} [DecidableEq α] (l : List α) (hn : l.Nodup) (s : α) (k : Nat) (h : s ∈ l) :
    wsum (fun s' => if s' = s then k else 0) l = k := by
  induction l with
  | nil => simp at h
  | cons x l ih =>
    rw [List.nodup_cons] at hn
    by_cases hx : x = s
    · subst hx
      simp [wsum_ite_notMem l x k hn.1]
    · have : s ∈ l := by
        rcases List.mem_cons.1 h with rfl | h
        · exact absurd rfl hx
        · exact h
      simp [hx, ih hn.2 this]

theorem wsum_allShards (c : PipeCfg D) (s : Fin c.shards) (k : Nat) :
    wsum (fun s' => if s' = s then k else 0) c.allShards = k :=
  wsum_ite_mem _ (List.nodup_finRange _) _ _ (List.mem_finRange _)

theorem wsum_otherShards (c : PipeCfg D) (s r : Fin c.shards) (k : Nat) :
    wsum (fun s' => if s' = s then k else 0) (c.allShards.filter (fun s => s ≠ r)) =
      if s = r then 0 else k := by
  by_cases h : s = r
  · subst h
    rw [if_pos rfl]
    exact wsum_ite_notMem _ _ _ (by simp)
  · rw [if_neg h]
    exact wsum_ite_mem _ ((List.nodup_finRange _).filter _) _ _
      (by simp [h])

theorem length_otherShards (c : PipeCfg D) (r : Fin c.shards) :
    (c.allShards.filter (fun s => s ≠ r)).length + 1 = c.shards := by
  have h1 : (c.allShards.filter (fun s => s ≠ r)) = c.allShards.erase r := by
    rw [PipeSize.allShards, (List.nodup_finRange _).erase_eq_filter]
    congr 1; ext s; by_cases h : s = r <;> simp [h, bne]
  rw [h1, List.length_erase_of_mem (by simp [PipeSize.allShards, List.mem_finRange])]
  have : 0 < c.shards := r.pos
  simp [PipeSize.allShards]
  omega

theorem ite_and_one {p q : Prop} [Decidable p] [Decidable q] :
    (if p ∧ q then 1 else 0 : Nat) = if p then (if q then 1 else 0) else 0 := by
  split <;> split <;> simp_all

/-! ### Index calls -/

section idx
variable (s : Fin c.shards) (p : IdxOp → Bool)

theorem μIdx_wm_seg (id : Str) (d : D) (f : Bool) :
    (μIdx c s p).wm .seg (.seg id d f) = (c.callOps s (.index id d f)).countP p := by
  have h1 : ∀ s', (μIdx c s p).w1 (.send (.idxAdd s') (.add none true)) =
      if s' = s then (if p (.flush true) then 1 else 0) else 0 := by
    intro s'; simp [Meas.w1, PipeCfg.expand, μIdx, ite_and_one]
  have h2 : ∀ s', (μIdx c s p).w1 (.send (.idxAdd s') (.add (some (id, d)) f)) =
      if s' = s then (if p (.add (c.docOf id d) f) then 1 else 0) else 0 := by
    intro s'; cases f <;> simp [Meas.w1, PipeCfg.expand, μIdx, ite_and_one]
  have h3 : ∀ s', (μIdx c s p).w1 (.send (.rankAdd s') (.rankAdd id d)) = 0 := by
    intro s'; simp [Meas.w1, PipeCfg.expand, μIdx]
  unfold Meas.wm PipeCfg.callOps
  simp only [PipeCfg.expand]
  by_cases h0 : id = str "0"
  · cases f
    · simp [h0]
    · simp only [h0, if_true, wsum_map, h1, wsum_allShards, List.countP_cons, List.countP_nil]
      simp
  · simp only [h0, if_false, wsum_cons, wsum_append, wsum_nil, h2, h3]
    cases f
    · by_cases hr : c.route id d = s
      · simp [hr, List.countP_cons]
      · simp [hr]
    · simp only [if_true, wsum_map, h1, wsum_otherShards]
      by_cases hr : c.route id d = s
      · simp [hr, List.countP_cons]
      · simp [hr, Ne.symm hr, List.countP_cons]

theorem μIdx_internal (id : Str) (d : D) (f : Bool) :
    wsum (μIdx c s p).w2 (c.internalIndex id d f) = (c.callOps s (.index id d f)).countP p := by
  unfold PipeCfg.internalIndex
  simp only [wsum_append, wsum_cons, wsum_nil]
  have h1 : wsum (μIdx c s p).w2 (if id ≠ str "0" then [Micro.tick Counter.indexingReqs 1] else []) = 0 := by
    split <;> simp [Meas.w2, μIdx]
  have h2 : wsum (μIdx c s p).w2 (if f = true then [Micro.tick Counter.forceReqs 1] else []) = 0 := by
    split <;> simp [Meas.w2, μIdx]
  rw [h1, h2]
  simp only [Meas.w2, μIdx_wm_seg]
  omega

theorem μIdx_call (a : Call D) :
    wsum (μIdx c s p).w2 (c.call a) = (c.callOps s a).countP p := by
  cases a with
  | index id d f =>
    simp only [PipeCfg.call, wsum_append, μIdx_internal]
    have : wsum (μIdx c s p).w2 (if c.useStore = true ∧ id ≠ str "0" then
        [Micro.send (Chan.store (c.storeRoute id)) (Msg.store id d)] else []) = 0 := by
      split
      · simp only [wsum_cons, wsum_nil, Meas.w2, Meas.wm, PipeCfg.expand]
        split <;> simp [Meas.w1, μIdx]
      · rfl
    rw [this]; rfl
  | remove id f =>
    simp only [PipeCfg.call, wsum_append]
    have h1 : wsum (μIdx c s p).w2 (if id ≠ str "0" then [Micro.tick Counter.removingReqs 1] else []) = 0 := by
      split <;> simp [Meas.w2, μIdx]
    have h2 : wsum (μIdx c s p).w2 (if f = true then [Micro.tick Counter.forceReqs 1] else []) = 0 := by
      split <;> simp [Meas.w2, μIdx]
    have h3 : wsum (μIdx c s p).w2 (if c.useStore = true ∧ id ≠ str "0" then
        [Micro.spawn (c.storeRoute id) (DbOp.del id)] else []) = 0 := by
      split <;> simp [Meas.w2, μIdx]
    have h4 : ∀ s', wsum (μIdx c s p).w2 (Micro.send (Chan.idxRem s') (Msg.rem id f) ::
        if id = str "0" then [] else [Micro.send (Chan.rankRem s') (Msg.rankRem id)]) =
        if s' = s then (if p (.remove id f) then 1 else 0) else 0 := by
      intro s'
      have e1 : (μIdx c s p).w2 (Micro.send (Chan.idxRem s') (Msg.rem id f)) =
          if s' = s then (if p (.remove id f) then 1 else 0) else 0 := by
        simp only [Meas.w2, Meas.wm, PipeCfg.expand, wsum_append, wsum_cons]
        by_cases h0 : id = str "0" <;> cases f <;> simp [h0, Meas.w1, μIdx, ite_and_one]
      have e2 : (μIdx c s p).w2 (Micro.send (Chan.rankRem s') (Msg.rankRem id)) = 0 := by
        simp [Meas.w2, Meas.wm, PipeCfg.expand, Meas.w1, μIdx]
      rw [wsum_cons, e1]
      by_cases h0 : id = str "0" <;> simp [h0, e2]
    rw [h1, h2, h3, wsum_flatMap]
    simp only [h4, wsum_allShards]
    simp [PipeCfg.callOps, List.countP_cons]
  | flush =>
    simp only [PipeCfg.call, wsum_append, μIdx_internal]
    simp [Meas.w2, μIdx, PipeCfg.callOps]

theorem Pipe.start_prog_sum (db : Fin c.stores → List (Str × D)) (μ : Meas c) :
    μ.pending (Pipe.start c db) = if c.useStore then
      wsum (fun m => wsum (fun x => wsum μ.w2 (c.internalIndex x.1 x.2 false)) (db m))
        (List.finRange c.stores) else 0 := by
  have h0 : ∑ q, wsum (μ.wm q) ((Pipe.start c db).chan q) = 0 := by simp [Pipe.start]
  have h1 : wsum (fun x => μ.w (.db x.1 x.2)) (Pipe.start c db).spawned = 0 := rfl
  unfold Meas.pending
  rw [h0, h1]
  simp only [Nat.add_zero]
  have h2 : ∑ t, wsum μ.w2 ((Pipe.start c db).prog t) =
      ∑ m : Fin c.stores, wsum μ.w2 ((Pipe.start c db).prog (.init m)) := by
    symm
    refine Finset.sum_of_injOn (fun m => (Thread.init m : Thread c.toPipeSize)) ?_ ?_ ?_ ?_
    · intro a _ b _ h; simpa using h
    · intro a _; simp
    · intro t _ ht
      cases t with
      | init m => exact absurd ⟨m, by simp, rfl⟩ ht
      | _ => rfl
    · intro m _; rfl
  rw [h2]
  by_cases hs : c.useStore = true
  · simp only [Pipe.start, hs, if_true, wsum_flatMap]
    rw [wsum, ← List.ofFn_eq_map, List.sum_ofFn]
  · simp [Pipe.start, hs]

theorem countP_flatMap' {α β : Type} (p : β → Bool) (f : α → List β) (l : List α) :
    (l.flatMap f).countP p = wsum (fun x => (f x).countP p) l := by
  induction l with
  | nil => rfl
  | cons x l ih => simp [ih, List.countP_append]

/-- Executed plus pending index calls are the issued ones. -/
theorem idx_conserve (db : Fin c.stores → List (Str × D)) (as : List (Act c.toPipeSize D)) (st : Pipe c)
    (h : (Pipe.start c db).run as = some st) :
    (st.idxLog s).countP p + (μIdx c s p).pending st = (st.issued db s).countP p := by
  have := (μIdx c s p).conserve _ _ as h
  rw [Pipe.start_prog_sum] at this
  simp only [μIdx_internal, μIdx_call] at this
  have e1 : (μIdx c s p).val (Pipe.start c db).obs = 0 := rfl
  have e2 : (Pipe.start c db).calls = [] := rfl
  have e3 : (μIdx c s p).val st.obs = (st.idxLog s).countP p := rfl
  rw [e1, e2, e3, wsum_nil] at this
  unfold Pipe.issued PipeCfg.recoverOps
  rw [List.countP_append, countP_flatMap']
  by_cases hs : c.useStore = true
  · simp only [hs, if_true, countP_flatMap'] at this ⊢
    omega
  · simp only [hs, Bool.false_eq_true, if_false, List.countP_nil] at this ⊢
    omega

end idx

/-! ### Counters -/

/-- Total of a counter a call leads to. -/
def PipeCfg.callCount (c : PipeCfg D) : Counter → Call D → Nat
  | .indexingReqs, .index id _ _ => if id = str "0" then 0 else 1
  | .indexed, .index id _ _ => if id = str "0" then 0 else 1
  | .stored, .index id _ _ => if id = str "0" ∨ c.useStore = false then 0 else 1
  | .tokens, .index id d _ => if id = str "0" then 0 else (c.docOf id d).keywords.length
  | .removingReqs, .remove id _ => if id = str "0" then 0 else 1
  | .removed, .remove id _ => if id = str "0" then 0 else c.shards
  | .forceReqs, .index _ _ f => if f then 1 else 0
  | .forceReqs, .remove _ f => if f then 1 else 0
  | .forceReqs, .flush => 1
  | .forced, .index _ _ f => if f then c.shards else 0
  | .forced, .remove _ f => if f then c.shards else 0
  | .forced, .flush => c.shards
  | _, _ => 0

theorem μCount_wm_seg (k : Counter) (id : Str) (d : D) (f : Bool) :
    (μCount c k).wm .seg (.seg id d f) = match k with
      | .indexed => if id = str "0" then 0 else 1
      | .tokens => if id = str "0" then 0 else (c.docOf id d).keywords.length
      | .forced => if f then c.shards else 0
      | _ => 0 := by
  have h1 : ∀ s', (μCount c k).w1 (.send (.idxAdd s') (.add none true)) =
      if k = .forced then 1 else 0 := by
    intro s'; cases k <;> simp [Meas.w1, PipeCfg.expand, μCount]
  have h2 : ∀ s', (μCount c k).w1 (.send (.idxAdd s') (.add (some (id, d)) f)) =
      match k with
      | .indexed => 1 | .tokens => (c.docOf id d).keywords.length
      | .forced => if f then 1 else 0 | _ => 0 := by
    intro s'; cases k <;> cases f <;> simp [Meas.w1, PipeCfg.expand, μCount]
  have h3 : ∀ s', (μCount c k).w1 (.send (.rankAdd s') (.rankAdd id d)) = 0 := by
    intro s'; simp [Meas.w1, PipeCfg.expand, μCount]
  unfold Meas.wm
  simp only [PipeCfg.expand]
  by_cases h0 : id = str "0"
  · cases f
    · cases k <;> simp [h0]
    · simp only [h0, if_true, wsum_map, h1, wsum_const]
      cases k <;> simp [PipeSize.allShards]
  · simp only [h0, if_false, wsum_cons, wsum_append, wsum_nil, h2, h3]
    cases f
    · cases k <;> simp
    · simp only [if_true, wsum_map, h1, wsum_const]
      have := length_otherShards c (c.route id d)
      cases k <;> simp only [reduceCtorEq, if_false, if_true, Nat.mul_one, Nat.mul_zero] <;> omega

theorem μCount_internal (k : Counter) (id : Str) (d : D) (f : Bool) :
    wsum (μCount c k).w2 (c.internalIndex id d f) =
      match k with
      | .indexingReqs => if id = str "0" then 0 else 1
      | .forceReqs => if f then 1 else 0
      | .indexed => if id = str "0" then 0 else 1
      | .tokens => if id = str "0" then 0 else (c.docOf id d).keywords.length
      | .forced => if f then c.shards else 0
      | _ => 0 := by
  unfold PipeCfg.internalIndex
  simp only [wsum_append, wsum_cons, wsum_nil]
  have h1 : wsum (μCount c k).w2 (if id ≠ str "0" then [Micro.tick Counter.indexingReqs 1] else []) =
      if k = .indexingReqs ∧ id ≠ str "0" then 1 else 0 := by
    by_cases h0 : id = str "0" <;> cases k <;> simp [Meas.w2, μCount, h0]
  have h2 : wsum (μCount c k).w2 (if f = true then [Micro.tick Counter.forceReqs 1] else []) =
      if k = .forceReqs ∧ f = true then 1 else 0 := by
    cases f <;> cases k <;> simp [Meas.w2, μCount]
  rw [h1, h2]
  simp only [Meas.w2, μCount_wm_seg]
  by_cases h0 : id = str "0" <;> cases k <;> cases f <;> simp [h0]

theorem μCount_call (k : Counter) (a : Call D) :
    wsum (μCount c k).w2 (c.call a) = c.callCount k a := by
  cases a with
  | index id d f =>
    simp only [PipeCfg.call, wsum_append, μCount_internal]
    have : wsum (μCount c k).w2 (if c.useStore = true ∧ id ≠ str "0" then
        [Micro.send (Chan.store (c.storeRoute id)) (Msg.store id d)] else []) =
        if k = .stored ∧ c.useStore = true ∧ id ≠ str "0" then 1 else 0 := by
      by_cases hs : c.useStore = true ∧ id ≠ str "0"
      · rw [if_pos hs]
        simp only [wsum_cons, wsum_nil, Meas.w2, Meas.wm, PipeCfg.expand]
        cases he : c.encodes d <;> cases k <;> simp [Meas.w1, μCount, hs]
      · rw [if_neg hs, if_neg (by tauto)]; rfl
    rw [this]
    by_cases h0 : id = str "0" <;> cases hs : c.useStore <;> cases k <;> cases f <;>
      simp [PipeCfg.callCount, h0, hs]
  | remove id f =>
    simp only [PipeCfg.call, wsum_append]
    have h1 : wsum (μCount c k).w2 (if id ≠ str "0" then [Micro.tick Counter.removingReqs 1] else []) =
        if k = .removingReqs ∧ id ≠ str "0" then 1 else 0 := by
      by_cases h0 : id = str "0" <;> cases k <;> simp [Meas.w2, μCount, h0]
    have h2 : wsum (μCount c k).w2 (if f = true then [Micro.tick Counter.forceReqs 1] else []) =
        if k = .forceReqs ∧ f = true then 1 else 0 := by
      cases f <;> cases k <;> simp [Meas.w2, μCount]
    have h3 : wsum (μCount c k).w2 (if c.useStore = true ∧ id ≠ str "0" then
        [Micro.spawn (c.storeRoute id) (DbOp.del id)] else []) = 0 := by
      split <;> simp [Meas.w2, μCount]
    have h4 : ∀ s', wsum (μCount c k).w2 (Micro.send (Chan.idxRem s') (Msg.rem id f) ::
        if id = str "0" then [] else [Micro.send (Chan.rankRem s') (Msg.rankRem id)]) =
        (if k = .removed ∧ id ≠ str "0" then 1 else 0) + if k = .forced ∧ f = true then 1 else 0 := by
      intro s'
      have e1 : (μCount c k).w2 (Micro.send (Chan.idxRem s') (Msg.rem id f)) =
          (if k = .removed ∧ id ≠ str "0" then 1 else 0) + if k = .forced ∧ f = true then 1 else 0 := by
        simp only [Meas.w2, Meas.wm, PipeCfg.expand, wsum_append, wsum_cons]
        by_cases h0 : id = str "0" <;> cases f <;> cases k <;> simp [h0, Meas.w1, μCount]
      have e2 : (μCount c k).w2 (Micro.send (Chan.rankRem s') (Msg.rankRem id)) = 0 := by
        simp [Meas.w2, Meas.wm, PipeCfg.expand, Meas.w1, μCount]
      rw [wsum_cons, e1]
      by_cases h0 : id = str "0" <;> simp [h0, e2]
    rw [h1, h2, h3, wsum_flatMap]
    simp only [h4, wsum_const]
    by_cases h0 : id = str "0" <;> cases f <;> cases k <;>
      simp [PipeCfg.callCount, h0, PipeSize.allShards]
  | flush =>
    simp only [PipeCfg.call, wsum_append, μCount_internal]
    cases k <;> simp [Meas.w2, μCount, PipeCfg.callCount]

/-- Executed plus pending counter increments. -/
theorem count_conserve (db : Fin c.stores → List (Str × D)) (as : List (Act c.toPipeSize D)) (st : Pipe c)
    (h : (Pipe.start c db).run as = some st) (k : Counter) :
    st.count k + (μCount c k).pending st =
      wsum (fun x => wsum (μCount c k).w2 (c.internalIndex x.1 x.2 false)) (c.recovered db) +
      wsum (fun x => c.callCount k x.2) st.calls := by
  have := (μCount c k).conserve _ _ as h
  rw [Pipe.start_prog_sum] at this
  simp only [μCount_call] at this
  have e1 : (μCount c k).val (Pipe.start c db).obs = 0 := rfl
  have e2 : (Pipe.start c db).calls = [] := rfl
  have e3 : (μCount c k).val st.obs = st.count k := rfl
  rw [e1, e2, e3, wsum_nil] at this
  unfold PipeCfg.recovered
  by_cases hs : c.useStore = true
  · simp only [hs, if_true, wsum_flatMap] at this ⊢
    omega
  · simp only [hs, Bool.false_eq_true, if_false, wsum_nil] at this ⊢
    omega

end Riot
