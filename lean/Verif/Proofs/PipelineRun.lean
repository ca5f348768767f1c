import Verif.Proofs.PipelineFlush

/-!
# Runs: where actions come from, what waiting implies, termination
-/

namespace Riot

open Function (update)

variable {D : Type} {c : PipeCfg D}

/-- Where the remaining actions of a thread come from. -/
def Origin (db : Fin c.stores → List (Str × D)) : Thread c.toPipeSize → List (Micro c.toPipeSize D) → Prop
  | .client _, l => ∃ a, l <:+ c.call a
  | .init m, l => l <:+ (Pipe.start c db).prog (.init m)
  | t, l => ∃ q m, t.input = some q ∧ l <:+ c.expand q m

theorem Origin.tail {db : Fin c.stores → List (Str × D)} {t : Thread c.toPipeSize} {x : Micro c.toPipeSize D}
    {l : List (Micro c.toPipeSize D)} (h : Origin db t (x :: l)) : Origin db t l := by
  have hs : l <:+ x :: l := List.suffix_cons x l
  cases t <;> simp only [Origin] at h ⊢
  case client => obtain ⟨a, h⟩ := h; exact ⟨a, hs.trans h⟩
  case init => exact hs.trans h
  all_goals (obtain ⟨q, m, hq, h⟩ := h; exact ⟨q, m, hq, hs.trans h⟩)

theorem origin_step (db : Fin c.stores → List (Str × D)) (st st' : Pipe c) (a : Act c.toPipeSize D)
    (h : st.step a = some st') (hi : ∀ t, Origin db t (st.prog t)) : ∀ t, Origin db t (st'.prog t) := by
  intro t
  rcases step_prog st st' a h t with e | ⟨x, e⟩ | ⟨q, msg, e, _, ht⟩ | ⟨i, b, e, _, rfl, _⟩
  · rw [e]; exact hi t
  · have := hi t; rw [e] at this; exact this.tail
  · rw [e]
    cases t
    case client => simp [Thread.input] at ht
    case init => simp [Thread.input] at ht
    all_goals exact ⟨q, msg, ht, List.suffix_refl _⟩
  · rw [e]; exact ⟨b, List.suffix_refl _⟩

theorem origin_start (db : Fin c.stores → List (Str × D)) (t : Thread c.toPipeSize) :
    Origin db t ((Pipe.start c db).prog t) := by
  cases t with
  | client i => exact ⟨.flush, List.nil_suffix⟩
  | init m => exact List.suffix_refl _
  | _ => exact ⟨_, .rankRem [], rfl, List.nil_suffix⟩

/-- States a new engine can reach. -/
def Reach (db : Fin c.stores → List (Str × D)) (st : Pipe c) : Prop :=
  ∃ as, (Pipe.start c db).run as = some st

theorem Reach.origin {db : Fin c.stores → List (Str × D)} {st : Pipe c} (h : Reach db st) :
    ∀ t, Origin db t (st.prog t) := by
  obtain ⟨as, h⟩ := h
  exact run_induction (P := fun st => ∀ t, Origin db t (st.prog t))
    (fun st a st' hi hs => origin_step db st st' a hs hi) as _ st (origin_start db) h

theorem Reach.run {db : Fin c.stores → List (Str × D)} {st st' : Pipe c} (h : Reach db st)
    {as : List (Act c.toPipeSize D)} (hr : st.run as = some st') : Reach db st' := by
  obtain ⟨as0, h⟩ := h
  exact ⟨as0 ++ as, by rw [run_append, h]; exact hr⟩

theorem run_one (st : Pipe c) (a : Act c.toPipeSize D) : st.run [a] = st.step a := by
  simp only [Pipe.run]
  cases st.step a <;> rfl

theorem Reach.step {db : Fin c.stores → List (Str × D)} {st st' : Pipe c} (h : Reach db st)
    {a : Act c.toPipeSize D} (hr : st.step a = some st') : Reach db st' :=
  h.run (as := [a]) (by rw [run_one]; exact hr)

/-! ### Initialisation -/

/-- Facts about initialisation. -/
structure InitOk (st : Pipe c) : Prop where
  done : st.inited = true → ∀ m, st.prog (.init m) = []
  before : st.inited = false → st.calls = [] ∧ ∀ i, st.prog (.client i) = []

theorem step_inited (st st' : Pipe c) (a : Act c.toPipeSize D) (h : st.step a = some st') :
    (st'.inited = st.inited ∧ st'.credit = st.credit ∧ a ≠ .ready) ∨
    (a = .ready ∧ st.inited = false ∧ st'.inited = true ∧ st'.credit = st.count .indexingReqs ∧
      (∀ m, st.prog (.init m) = []) ∧ st'.prog = st.prog ∧ st'.calls = st.calls ∧
      (c.useStore = true → st.count .indexingReqs = st.count .indexed)) := by
  cases a with
  | call i b =>
    simp only [Pipe.step] at h
    split at h
    · rw [← Option.some.inj h]; simp
    · simp at h
  | run t' =>
    simp only [Pipe.step] at h
    split at h
    · simp at h
    · rename_i x l hp
      left
      refine ⟨?_, ?_, by simp⟩ <;>
      (cases x <;> simp only [Pipe.exec] at h <;> first
        | (split at h <;> first | (rw [← Option.some.inj h]) | simp at h)
        | (rw [← Option.some.inj h]))
  | recv t' =>
    simp only [Pipe.step] at h
    split at h
    · simp at h
    · split at h
      · rw [← Option.some.inj h]; simp
      · simp at h
  | bg k =>
    simp only [Pipe.step] at h
    split at h
    · simp at h
    · rw [← Option.some.inj h]; simp
  | ready =>
    simp only [Pipe.step] at h
    split at h
    · rename_i hc
      right
      obtain ⟨h1, h2, h3⟩ := hc
      simp only [Bool.not_eq_eq_eq_not, Bool.not_true] at h1
      rw [← Option.some.inj h]; exact ⟨rfl, h1, rfl, rfl, h2, rfl, rfl, h3⟩
    · simp at h

theorem call_inited {st st' : Pipe c} {i : Fin c.clients} {b : Call D}
    (h : st.step (.call i b) = some st') : st.inited = true ∧ st.prog (.client i) = [] ∧
      st' = { st with prog := update st.prog (.client i) (c.call b), calls := st.calls ++ [(i, b)],
                       seen := update st.seen (.client i) st.count } := by
  simp only [Pipe.step] at h
  split at h
  · rename_i hc; exact ⟨hc.1, hc.2, (Option.some.inj h).symm⟩
  · simp at h

theorem initOk_step (st st' : Pipe c) (a : Act c.toPipeSize D) (h : st.step a = some st')
    (hi : InitOk st) : InitOk st' := by
  rcases step_inited st st' a h with ⟨h1, h2, h3⟩ | ⟨rfl, h1, h2, _, h3, h4, h5, _⟩
  · refine ⟨?_, ?_⟩
    · intro hd m
      rw [h1] at hd
      rcases step_prog st st' a h (.init m) with e | ⟨x, e⟩ | ⟨q, msg, e, _, ht⟩ | ⟨i, b, e, _, ht, _⟩
      · rw [e]; exact hi.done hd m
      · rw [hi.done hd m] at e; simp at e
      · simp [Thread.input] at ht
      · simp at ht
    · intro hd
      rw [h1] at hd
      have := hi.before hd
      have hnc : ∀ i b, a ≠ .call i b := by
        rintro i b rfl
        rw [(call_inited h).1] at hd; simp at hd
      refine ⟨?_, ?_⟩
      · rw [step_calls st st' a h, this.1]
        cases a <;> simp [Act.called]
        rename_i i b; exact absurd rfl (hnc i b)
      · intro i
        rcases step_prog st st' a h (.client i) with e | ⟨x, e⟩ | ⟨q, msg, e, _, ht⟩ | ⟨j, b, e, _, ht, hb⟩
        · rw [e]; exact this.2 i
        · rw [this.2 i] at e; simp at e
        · simp [Thread.input] at ht
        · exact absurd hb (hnc j b)
  · refine ⟨?_, ?_⟩
    · intro _ m; rw [h4]; exact h3 m
    · intro hd; rw [h2] at hd; simp at hd

theorem Reach.initOk {db : Fin c.stores → List (Str × D)} {st : Pipe c} (h : Reach db st) : InitOk st := by
  obtain ⟨as, h⟩ := h
  refine run_induction (P := InitOk) (fun st a st' hi hs => initOk_step st st' a hs hi) as _ st ?_ h
  refine ⟨?_, ?_⟩
  · intro h; simp [Pipe.start] at h
  · intro _; exact ⟨rfl, fun _ => rfl⟩

/-! ### Requests are counted by the callers -/

/-- The counters of requests. -/
def Counter.isReq : Counter → Bool
  | .indexingReqs | .removingReqs | .forceReqs => true
  | _ => false

theorem req_wm (k : Counter) (hk : k.isReq = true) (q : Chan c.toPipeSize) (m : Msg D) :
    (μCount c k).wm q m = 0 := by
  cases q with
  | seg =>
    cases m with
    | seg id d f => rw [μCount_wm_seg]; cases k <;> simp [Counter.isReq] at hk ⊢
    | _ => rfl
  | idxAdd s =>
    cases m with
    | add doc f => cases doc <;> cases f <;> cases k <;> simp [Counter.isReq, Meas.wm, PipeCfg.expand, Meas.w1, μCount] at hk ⊢
    | _ => rfl
  | idxRem s =>
    cases m with
    | rem id f =>
      by_cases h0 : id = str "0" <;> cases f <;> cases k <;>
        simp [Counter.isReq, Meas.wm, PipeCfg.expand, Meas.w1, μCount, h0] at hk ⊢
    | _ => rfl
  | rankAdd s => cases m <;> simp [Meas.wm, PipeCfg.expand, Meas.w1, μCount]
  | rankRem s => cases m <;> simp [Meas.wm, PipeCfg.expand, Meas.w1, μCount]
  | store s =>
    cases m with
    | store id d =>
      cases he : c.encodes d <;> cases k <;>
        simp [Counter.isReq, Meas.wm, PipeCfg.expand, Meas.w1, μCount, he] at hk ⊢
    | _ => rfl

theorem wsum_suffix {α : Type} (w : α → Nat) {l l' : List α} (h : l <:+ l') : wsum w l ≤ wsum w l' := by
  obtain ⟨p, rfl⟩ := h
  rw [wsum_append]; omega

/-- A request counter has nothing pending when its callers have not. -/
theorem req_pending {db : Fin c.stores → List (Str × D)} {st : Pipe c} (h : Reach db st)
    (k : Counter) (hk : k.isReq = true)
    (hc : ∀ i, wsum (μCount c k).w2 (st.prog (.client i)) = 0)
    (hi : ∀ m, wsum (μCount c k).w2 (st.prog (.init m)) = 0) : (μCount c k).pending st = 0 := by
  have e1 : ∑ t, wsum (μCount c k).w2 (st.prog t) = 0 := by
    apply Finset.sum_eq_zero
    intro t _
    have ho := h.origin t
    cases t with
    | client i => exact hc i
    | init m => exact hi m
    | _ =>
      obtain ⟨q, m, _, hs⟩ := ho
      have := wsum_suffix (μCount c k).w2 hs
      rw [Meas.wsum_expand, req_wm k hk] at this
      omega
  have e2 : ∑ q, wsum ((μCount c k).wm q) (st.chan q) = 0 := by
    apply Finset.sum_eq_zero
    intro q _
    rw [wsum_eq_zero]
    intro m _
    exact req_wm k hk q m
  have e3 : wsum (fun x => (μCount c k).w (.db x.1 x.2)) st.spawned = 0 := by
    rw [wsum_eq_zero]; intro x _; rfl
  unfold Meas.pending
  rw [e1, e2, e3]

/-- Weight of the remaining actions of a client that only flushes. -/
theorem flush_reqs {l : List (Micro c.toPipeSize D)} (h : l <:+ c.call .flush) (k : Counter)
    (hk : k = .indexingReqs ∨ k = .removingReqs) : wsum (μCount c k).w2 l = 0 := by
  have := wsum_suffix (μCount c k).w2 h
  rw [μCount_call] at this
  rcases hk with rfl | rfl <;> simp [PipeCfg.callCount] at this <;> omega

/-! ### Totals -/

/-- The number of documents `Init` re-indexes. -/
def PipeCfg.numRecovered (c : PipeCfg D) (db : Fin c.stores → List (Str × D)) : Nat :=
  (c.recovered db).countP (fun x => x.1 ≠ str "0")

theorem wsum_countP {α : Type} (p : α → Bool) (l : List α) :
    wsum (fun x => if p x then 1 else 0) l = l.countP p := by
  induction l with
  | nil => rfl
  | cons x l ih => rw [wsum_cons, ih, List.countP_cons]; omega

theorem wsum_zero {α : Type} (l : List α) : wsum (fun _ => 0) l = 0 := by
  rw [wsum_eq_zero]; intros; rfl

section totals
variable {db : Fin c.stores → List (Str × D)} {st : Pipe c} (h : Reach db st)
include h

theorem Reach.indexed_total :
    st.count .indexed + (μCount c .indexed).pending st =
      c.numRecovered db + st.calls.countP (fun x => x.2.isIndex) := by
  obtain ⟨as, h⟩ := h
  rw [count_conserve db as st h .indexed]
  congr 1
  · simp only [μCount_internal, PipeCfg.numRecovered, ← wsum_countP]
    apply wsum_congr; intro x _; by_cases h0 : x.1 = str "0" <;> simp [h0]
  · rw [← wsum_countP]
    apply wsum_congr; rintro ⟨i, a⟩ _
    cases a <;> simp [PipeCfg.callCount, Call.isIndex]

theorem Reach.indexingReqs_total :
    st.count .indexingReqs + (μCount c .indexingReqs).pending st =
      c.numRecovered db + st.calls.countP (fun x => x.2.isIndex) := by
  obtain ⟨as, h⟩ := h
  rw [count_conserve db as st h .indexingReqs]
  congr 1
  · simp only [μCount_internal, PipeCfg.numRecovered, ← wsum_countP]
    apply wsum_congr; intro x _; by_cases h0 : x.1 = str "0" <;> simp [h0]
  · rw [← wsum_countP]
    apply wsum_congr; rintro ⟨i, a⟩ _
    cases a <;> simp [PipeCfg.callCount, Call.isIndex]

theorem Reach.removingReqs_total :
    st.count .removingReqs + (μCount c .removingReqs).pending st =
      st.calls.countP (fun x => x.2.isRemove) := by
  obtain ⟨as, h⟩ := h
  rw [count_conserve db as st h .removingReqs]
  have : wsum (fun x => wsum (μCount c .removingReqs).w2 (c.internalIndex x.1 x.2 false)) (c.recovered db) = 0 := by
    simp only [μCount_internal]; exact wsum_zero _
  rw [this, Nat.zero_add, ← wsum_countP]
  apply wsum_congr; rintro ⟨i, a⟩ _
  cases a <;> simp [PipeCfg.callCount, Call.isRemove]

theorem Reach.removed_total :
    st.count .removed + (μCount c .removed).pending st =
      c.shards * st.calls.countP (fun x => x.2.isRemove) := by
  obtain ⟨as, h⟩ := h
  rw [count_conserve db as st h .removed]
  have : wsum (fun x => wsum (μCount c .removed).w2 (c.internalIndex x.1 x.2 false)) (c.recovered db) = 0 := by
    simp only [μCount_internal]; exact wsum_zero _
  rw [this, Nat.zero_add, ← wsum_countP]
  clear this h
  induction st.calls with
  | nil => rfl
  | cons x l ih =>
    obtain ⟨i, a⟩ := x
    rw [wsum_cons, wsum_cons, ih, Nat.mul_add]
    cases a <;> simp [PipeCfg.callCount, Call.isRemove]

theorem Reach.stored_total (hs : c.useStore = true) :
    st.count .stored + (μCount c .stored).pending st = st.calls.countP (fun x => x.2.isIndex) := by
  obtain ⟨as, h⟩ := h
  rw [count_conserve db as st h .stored]
  have : wsum (fun x => wsum (μCount c .stored).w2 (c.internalIndex x.1 x.2 false)) (c.recovered db) = 0 := by
    simp only [μCount_internal]; exact wsum_zero _
  rw [this, Nat.zero_add, ← wsum_countP]
  apply wsum_congr; rintro ⟨i, a⟩ _
  cases a <;> simp [PipeCfg.callCount, Call.isIndex, hs]

theorem Reach.forced_total :
    st.count .forced + (μCount c .forced).pending st =
      c.shards * (st.count .forceReqs + (μCount c .forceReqs).pending st) := by
  obtain ⟨as, h⟩ := h
  rw [count_conserve db as st h .forced, count_conserve db as st h .forceReqs]
  have e1 : wsum (fun x => wsum (μCount c .forced).w2 (c.internalIndex x.1 x.2 false)) (c.recovered db) = 0 := by
    simp only [μCount_internal]; exact wsum_zero _
  have e2 : wsum (fun x => wsum (μCount c .forceReqs).w2 (c.internalIndex x.1 x.2 false)) (c.recovered db) = 0 := by
    simp only [μCount_internal]; exact wsum_zero _
  rw [e1, e2, Nat.zero_add, Nat.zero_add]
  clear e1 e2 h
  induction st.calls with
  | nil => rfl
  | cons x l ih =>
    obtain ⟨i, a⟩ := x
    rw [wsum_cons, wsum_cons, ih, Nat.mul_add]
    cases a <;> simp [PipeCfg.callCount]

end totals

theorem start_flush_none (db : Fin c.stores → List (Str × D)) (m : Fin c.stores) (k : Counter)
    (hk : k ≠ .indexingReqs) (hk' : k.isReq = true) :
    wsum (μCount c k).w2 ((Pipe.start c db).prog (.init m)) = 0 := by
  simp only [Pipe.start]
  split
  · rw [wsum_flatMap]
    simp only [μCount_internal]
    cases k <;> simp [Counter.isReq] at hk hk' ⊢ <;> exact wsum_zero _
  · rfl

/-- The credit of numDocsStored is the number of recovered documents. -/
theorem Reach.credit {db : Fin c.stores → List (Str × D)} {st : Pipe c} (h : Reach db st)
    (hi : st.inited = true) : st.credit = c.numRecovered db := by
  obtain ⟨as, h⟩ := h
  have := run_induction (P := fun st => Reach db st ∧ (st.inited = true → st.credit = c.numRecovered db))
    (fun st a st' hp hs => by
      refine ⟨hp.1.step hs, ?_⟩
      rcases step_inited st st' a hs with ⟨h1, h2, _⟩ | ⟨rfl, h1, h2, h3, h4, _⟩
      · rw [h1, h2]; exact hp.2
      · intro _
        rw [h3]
        have hb := hp.1.initOk.before h1
        have := hp.1.indexingReqs_total
        rw [req_pending hp.1 .indexingReqs rfl (fun i => by rw [hb.2 i]; rfl)
          (fun m => by rw [h4 m]; rfl), hb.1] at this
        simpa using this) as _ st ⟨⟨[], rfl⟩, by simp [Pipe.start]⟩ h
  exact this.2 hi

end Riot
