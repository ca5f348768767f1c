import Verif.Proofs.PipelineRun

/-!
# What a completed Flush implies
-/

namespace Riot

open Function (update)

variable {D : Type} {c : PipeCfg D}

theorem run_calls (st st' : Pipe c) (as : List (Act c.toPipeSize D)) (h : st.run as = some st') :
    st'.calls = st.calls ++ as.flatMap Act.called := by
  induction as generalizing st with
  | nil => simp only [Pipe.run, Option.some.injEq] at h; subst h; simp
  | cons a as ih =>
    simp only [Pipe.run] at h
    obtain ⟨s1, h1, h2⟩ := Option.bind_eq_some_iff.1 h
    rw [ih s1 h2, step_calls st s1 a h1]; simp

theorem noCall_called {as : List (Act c.toPipeSize D)} (h : ∀ a ∈ as, a.isCall = false) :
    as.flatMap Act.called = [] := by
  rw [List.flatMap_eq_nil_iff]
  intro a ha
  have := h a ha
  cases a <;> simp_all [Act.isCall, Act.called]

/-- Only its own steps change the actions of a client. -/
theorem step_client (st st' : Pipe c) (a : Act c.toPipeSize D) (h : st.step a = some st')
    (i : Fin c.clients) (hc : ∀ b, a ≠ .call i b) (hr : a ≠ .run (.client i)) :
    st'.prog (.client i) = st.prog (.client i) := by
  cases a with
  | call j b =>
    rw [(call_inited h).2.2]
    have : j ≠ i := by rintro rfl; exact hc b rfl
    simp [Ne.symm this]
  | run t' =>
    have ht : Thread.client i ≠ t' := by rintro rfl; exact hr rfl
    simp only [Pipe.step] at h
    split at h
    · simp at h
    · rename_i x l hp
      have : st'.prog = update st.prog t' l := by
        cases x <;> simp only [Pipe.exec] at h <;> first
          | (split at h <;> first | (rw [← Option.some.inj h]) | simp at h)
          | (rw [← Option.some.inj h])
      rw [this, Function.update_of_ne ht]
  | recv t' =>
    simp only [Pipe.step] at h
    split at h
    · simp at h
    · rename_i q hq
      have ht : Thread.client i ≠ t' := by rintro rfl; simp [Thread.input] at hq
      split at h
      · rw [← Option.some.inj h]; simp [ht]
      · simp at h
  | bg k =>
    simp only [Pipe.step] at h
    split at h
    · simp at h
    · rw [← Option.some.inj h]
  | ready =>
    simp only [Pipe.step] at h
    split at h
    · rw [← Option.some.inj h]
    · simp at h

theorem step_run_prog {st st' : Pipe c} {t : Thread c.toPipeSize} {x : Micro c.toPipeSize D}
    {l : List (Micro c.toPipeSize D)} (hp : st.prog t = x :: l) (h : st.step (.run t) = some st') :
    st'.prog = update st.prog t l ∧
      { st with prog := update st.prog t l, seen := update st.seen t st.count }.exec (st.seen t) x = some st' := by
  simp only [Pipe.step, hp] at h
  refine ⟨?_, h⟩
  cases x <;> simp only [Pipe.exec] at h <;> first
    | (split at h <;> first | (rw [← Option.some.inj h]) | simp at h)
    | (rw [← Option.some.inj h])

/-- If a client that had actions `x :: l` has other actions later, it executed `x` in between. -/
theorem client_exec (i : Fin c.clients) (x : Micro c.toPipeSize D) (l : List (Micro c.toPipeSize D)) :
    ∀ (as : List (Act c.toPipeSize D)) (st st' : Pipe c), (∀ a ∈ as, ∀ b, a ≠ .call i b) →
      st.prog (.client i) = x :: l → st.run as = some st' → st'.prog (.client i) = [] →
      ∃ (as1 as2 : List (Act c.toPipeSize D)) (s s' : Pipe c), as = as1 ++ .run (.client i) :: as2 ∧
        st.run as1 = some s ∧ s.prog (.client i) = x :: l ∧ s.step (.run (.client i)) = some s' ∧
        s'.prog (.client i) = l ∧ s'.run as2 = some st'
  | [], st, st', _, hp, hr, hne => by
    simp only [Pipe.run, Option.some.injEq] at hr
    subst hr; rw [hp] at hne; simp at hne
  | a :: as, st, st', hc, hp, hr, hne => by
    simp only [Pipe.run] at hr
    obtain ⟨s1, h1, h2⟩ := Option.bind_eq_some_iff.1 hr
    by_cases ha : a = .run (.client i)
    · subst ha
      refine ⟨[], as, st, s1, rfl, rfl, hp, h1, ?_, h2⟩
      rw [(step_run_prog hp h1).1]; simp
    · have hp1 : s1.prog (.client i) = x :: l := by
        rw [step_client st s1 a h1 i ?_ ha, hp]
        exact hc a (by simp)
      obtain ⟨as1, as2, s, s', e, r1, p1, st1, p2, r2⟩ :=
        client_exec i x l as s1 st' (fun a ha => hc a (by simp [ha])) hp1 h2 hne
      refine ⟨a :: as1, as2, s, s', by simp [e], ?_, p1, st1, p2, r2⟩
      simp only [Pipe.run, h1, Option.bind_some, r1]

/-! ### Logs only grow -/

theorem step_idxLog (st st' : Pipe c) (a : Act c.toPipeSize D) (h : st.step a = some st')
    (s : Fin c.shards) : st.idxLog s <+: st'.idxLog s := by
  cases a with
  | call i b => rw [(call_inited h).2.2]
  | run t =>
    cases hp : st.prog t with
    | nil => simp [Pipe.step, hp] at h
    | cons x l =>
      have he := (step_run_prog hp h).2
      cases x <;> simp only [Pipe.exec] at he
      case idx s' op =>
        rw [← Option.some.inj he]
        by_cases hs : s = s'
        · subst hs; simp
        · simp [hs]
      all_goals first
        | (split at he <;> first | (rw [← Option.some.inj he]) | simp at he)
        | (rw [← Option.some.inj he])
  | recv t' =>
    simp only [Pipe.step] at h
    split at h
    · simp at h
    · split at h
      · rw [← Option.some.inj h]
      · simp at h
  | bg k =>
    simp only [Pipe.step] at h
    split at h
    · simp at h
    · rw [← Option.some.inj h]
  | ready =>
    simp only [Pipe.step] at h
    split at h
    · rw [← Option.some.inj h]
    · simp at h

theorem run_idxLog (as : List (Act c.toPipeSize D)) (st st' : Pipe c) (h : st.run as = some st')
    (s : Fin c.shards) : st.idxLog s <+: st'.idxLog s :=
  run_induction (P := fun x => st.idxLog s <+: x.idxLog s)
    (fun x a y hi hs => hi.trans (step_idxLog x y a hs s)) as st st' (List.prefix_refl _) h

/-! ### Clients that only flush -/

theorem flush_prog (c : PipeCfg D) : c.call .flush =
    [.await .indexed, .await .removed, .await .stored, .tick .forceReqs 1,
     .send .seg (.seg (str "0") c.emptyData true), .await .forced] := by
  simp [PipeCfg.call, PipeCfg.internalIndex]

/-- All clients are idle except that client `i` is in a Flush; the request counters have not changed since
its last action. -/
structure OnlyFlush (i : Fin c.clients) (st : Pipe c) : Prop where
  inited : st.inited = true
  others : ∀ j, j ≠ i → st.prog (.client j) = []
  suffix : st.prog (.client i) <:+ c.call .flush
  seen : ∀ k, k = .indexingReqs ∨ k = .removingReqs → st.count k ≤ st.seen (.client i) k
  seenForce : st.prog (.client i) = [.await .forced] → st.count .forceReqs ≤ st.seen (.client i) .forceReqs

theorem step_seen {st st' : Pipe c} {a : Act c.toPipeSize D} (ha : a.isCall = false) (h : st.step a = some st') :
    st'.seen = st.seen ∨ ∃ t, a = .run t ∧ st'.seen = update st.seen t st.count := by
  cases a with
  | call i b => simp [Act.isCall] at ha
  | run t =>
    right
    refine ⟨t, rfl, ?_⟩
    cases hp : st.prog t with
    | nil => simp [Pipe.step, hp] at h
    | cons x l =>
      have he := (step_run_prog hp h).2
      cases x <;> simp only [Pipe.exec] at he <;> first
        | (split at he <;> first | (rw [← Option.some.inj he]) | simp at he)
        | (rw [← Option.some.inj he])
  | recv t' =>
    left
    simp only [Pipe.step] at h
    split at h
    · simp at h
    · split at h
      · rw [← Option.some.inj h]
      · simp at h
  | bg k =>
    left
    simp only [Pipe.step] at h
    split at h
    · simp at h
    · rw [← Option.some.inj h]
  | ready =>
    left
    simp only [Pipe.step] at h
    split at h
    · rw [← Option.some.inj h]
    · simp at h

/-- Counters do not decrease. -/
theorem step_count_le {st st' : Pipe c} {a : Act c.toPipeSize D} (h : st.step a = some st') (k : Counter) :
    st.count k ≤ st'.count k := by
  cases a with
  | call i b => rw [(call_inited h).2.2]
  | run t =>
    cases hp : st.prog t with
    | nil => simp [Pipe.step, hp] at h
    | cons x l =>
      have he := (step_run_prog hp h).2
      cases x <;> simp only [Pipe.exec] at he
      case tick k' n =>
        rw [← Option.some.inj he]
        by_cases hk : k = k'
        · subst hk; simp
        · simp [hk]
      all_goals first
        | (split at he <;> first | (rw [← Option.some.inj he]) | simp at he)
        | (rw [← Option.some.inj he])
  | recv t' =>
    simp only [Pipe.step] at h
    split at h
    · simp at h
    · split at h
      · rw [← Option.some.inj h]
      · simp at h
  | bg k =>
    simp only [Pipe.step] at h
    split at h
    · simp at h
    · rw [← Option.some.inj h]
  | ready =>
    simp only [Pipe.step] at h
    split at h
    · rw [← Option.some.inj h]
    · simp at h

/-- What a thread saw is not more than what is there. -/
theorem step_seen_le {st st' : Pipe c} {a : Act c.toPipeSize D} (h : st.step a = some st')
    (hi : ∀ t k, st.seen t k ≤ st.count k) : ∀ t k, st'.seen t k ≤ st'.count k := by
  intro t k
  have hle := step_count_le h k
  have key : st'.seen = st.seen ∨ ∃ t, st'.seen = update st.seen t st.count := by
    by_cases ha : a.isCall = false
    · rcases step_seen ha h with e | ⟨t, _, e⟩
      · exact Or.inl e
      · exact Or.inr ⟨t, e⟩
    · cases a with
      | call i b => exact Or.inr ⟨.client i, by rw [(call_inited h).2.2]⟩
      | _ => simp [Act.isCall] at ha
  rcases key with e | ⟨t', e⟩
  · rw [e]; exact (hi t k).trans hle
  · rw [e]
    by_cases ht : t = t'
    · subst ht; simpa using hle
    · rw [Function.update_of_ne ht]; exact (hi t k).trans hle

theorem Reach.seen_le {db : Fin c.stores → List (Str × D)} {st : Pipe c} (h : Reach db st) :
    ∀ t k, st.seen t k ≤ st.count k := by
  obtain ⟨as, h⟩ := h
  exact run_induction (P := fun x => ∀ t k, x.seen t k ≤ x.count k)
    (fun x a y hi hs => step_seen_le hs hi) as _ st (fun t k => by simp [Pipe.start]) h

/-- A counter nobody is going to increase does not increase. -/
theorem count_le_of_pending {st st' : Pipe c} {a : Act c.toPipeSize D} (ha : a.isCall = false)
    (h : st.step a = some st') {k : Counter} (hk : (μCount c k).pending st = 0) : st'.count k ≤ st.count k := by
  have e := (μCount c k).conserve_step st st' a h
  have e0 : (μCount c k).issue a = 0 := by cases a <;> simp_all [Act.isCall, Meas.issue]
  rw [hk, e0] at e
  have e1 : (μCount c k).val st'.obs = st'.count k := rfl
  have e2 : (μCount c k).val st.obs = st.count k := rfl
  omega

theorem seen_le_of {i : Fin c.clients} {st st' : Pipe c} {a : Act c.toPipeSize D} (ha : a.isCall = false)
    (h : st.step a = some st') {k : Counter} (hk : (μCount c k).pending st = 0)
    (hs : a = .run (.client i) ∨ st.count k ≤ st.seen (.client i) k) : st'.count k ≤ st'.seen (.client i) k := by
  have hle := count_le_of_pending ha h hk
  rcases step_seen ha h with e | ⟨t, rfl, e⟩
  · rw [e]
    rcases hs with rfl | hs
    · cases hp : st.prog (.client i) with
      | nil => simp [Pipe.step, hp] at h
      | cons x l =>
        have he := (step_run_prog hp h).2
        have : st'.seen = update st.seen (.client i) st.count := by
          cases x <;> simp only [Pipe.exec] at he <;> first
            | (split at he <;> first | (rw [← Option.some.inj he]) | simp at he)
            | (rw [← Option.some.inj he])
        rw [← e, this]; simpa using hle
    · omega
  · rw [e]
    by_cases ht : t = .client i
    · subst ht; simpa using hle
    · rw [Function.update_of_ne (Ne.symm ht)]
      rcases hs with hs | hs
      · exact absurd (by simpa using hs) ht
      · omega

theorem onlyFlush_reqs {db : Fin c.stores → List (Str × D)} {st : Pipe c} (h : Reach db st)
    {i : Fin c.clients} (hf : OnlyFlush i st) (k : Counter)
    (hk : k = .indexingReqs ∨ k = .removingReqs) : (μCount c k).pending st = 0 := by
  apply req_pending h k (by rcases hk with rfl | rfl <;> rfl)
  · intro j
    by_cases hj : j = i
    · subst hj; exact flush_reqs hf.suffix k hk
    · rw [hf.others j hj]; rfl
  · intro m; rw [h.initOk.done hf.inited m]; rfl

theorem onlyFlush_force {db : Fin c.stores → List (Str × D)} {st : Pipe c} (h : Reach db st)
    {i : Fin c.clients} (hf : OnlyFlush i st) (hw : wsum (μCount c .forceReqs).w2 (st.prog (.client i)) = 0) :
    (μCount c .forceReqs).pending st = 0 := by
  apply req_pending h .forceReqs rfl
  · intro j
    by_cases hj : j = i
    · subst hj; exact hw
    · rw [hf.others j hj]; rfl
  · intro m; rw [h.initOk.done hf.inited m]; rfl

theorem onlyFlush_step {db : Fin c.stores → List (Str × D)} {i : Fin c.clients} {st st' : Pipe c} (hr : Reach db st)
    {a : Act c.toPipeSize D} (ha : a.isCall = false) (h : st.step a = some st') (hi : OnlyFlush i st) :
    OnlyFlush i st' := by
  refine ⟨?_, ?_, ?_, ?_, ?_⟩
  · rcases step_inited st st' a h with ⟨h1, _⟩ | ⟨_, _, h2, _⟩
    · rw [h1]; exact hi.inited
    · exact h2
  · intro j hj
    rcases step_prog st st' a h (.client j) with e | ⟨x, e⟩ | ⟨q, msg, e, _, ht⟩ | ⟨k, b, e, _, _, rfl⟩
    · rw [e]; exact hi.others j hj
    · rw [hi.others j hj] at e; simp at e
    · simp [Thread.input] at ht
    · simp [Act.isCall] at ha
  · rcases step_prog st st' a h (.client i) with e | ⟨x, e⟩ | ⟨q, msg, e, _, ht⟩ | ⟨k, b, e, _, _, rfl⟩
    · rw [e]; exact hi.suffix
    · have := hi.suffix; rw [e] at this; exact (List.suffix_cons _ _).trans this
    · simp [Thread.input] at ht
    · simp [Act.isCall] at ha
  · intro k hk
    exact seen_le_of ha h (onlyFlush_reqs hr hi k hk) (Or.inr (hi.seen k hk))
  · intro hp
    by_cases har : a = .run (.client i)
    · refine seen_le_of ha h (onlyFlush_force hr hi ?_) (Or.inl har)
      subst har
      cases hq : st.prog (.client i) with
      | nil => simp [Pipe.step, hq] at h
      | cons x l =>
        have hl : l = [.await .forced] := by
          rw [(step_run_prog hq h).1] at hp; simpa using hp
        subst hl
        obtain ⟨p, hs⟩ := hi.suffix
        rw [hq, flush_prog] at hs
        have hx : x = .send .seg (.seg (str "0") c.emptyData true) := by
          match p, hs with
          | [], hs => simp at hs
          | [_], hs => simp at hs
          | [_, _], hs => simp at hs
          | [_, _, _], hs => simp at hs
          | [_, _, _, _], hs => simp at hs; exact hs.2.2.2.2
          | _ :: _ :: _ :: _ :: _ :: p', hs =>
            have := congrArg List.length hs
            simp at this
        subst hx
        have := μCount_internal (c := c) .forceReqs (str "0") c.emptyData true
        simp only [PipeCfg.internalIndex, ne_eq, not_true_eq_false, if_false, if_true, List.nil_append, List.cons_append,
          wsum_cons] at this
        have h1 : (μCount c .forceReqs).w2 (.tick .forceReqs 1 : Micro c.toPipeSize D) = 1 := by
          simp [Meas.w2, μCount]
        have h2 : (μCount c .forceReqs).w2 (.await .forced : Micro c.toPipeSize D) = 0 := rfl
        simp only [wsum_cons, wsum_nil, h1, h2] at this ⊢
        simp [PipeCfg.callCount] at this
        exact this
    · have hp0 : st.prog (.client i) = [.await .forced] := by
        rw [← step_client st st' a h i (fun b e => by subst e; simp [Act.isCall] at ha) har]; exact hp
      exact seen_le_of ha h (onlyFlush_force hr hi (by rw [hp0]; rfl)) (Or.inr (hi.seenForce hp0))

theorem onlyFlush_run {db : Fin c.stores → List (Str × D)} {i : Fin c.clients} :
    ∀ (as : List (Act c.toPipeSize D)) (st st' : Pipe c), Reach db st →
    (∀ a ∈ as, a.isCall = false) → st.run as = some st' → OnlyFlush i st → OnlyFlush i st'
  | [], st, st', _, _, h, h0 => by simp only [Pipe.run, Option.some.injEq] at h; subst h; exact h0
  | a :: as, st, st', hr, hc, h, h0 => by
    simp only [Pipe.run] at h
    obtain ⟨s1, h1, h2⟩ := Option.bind_eq_some_iff.1 h
    exact onlyFlush_run as s1 st' (hr.step h1) (fun a ha => hc a (by simp [ha])) h2
      (onlyFlush_step hr (hc a (by simp)) h1 h0)

/-- If the left side has not changed since, the right side is large enough now. -/
theorem holds_eq {st : Pipe c} {seen : Counter → Nat} {w : Wait} (hs : w.left st.count ≤ w.left seen)
    (hu : w = .stored → c.useStore = true) (h : st.holds seen w = true) :
    w.left st.count * c.factor w ≤ w.right st.count st.credit := by
  unfold Pipe.holds at h
  rw [Bool.or_eq_true, Bool.or_eq_true] at h
  rcases h with (h | h) | h
  · simp only [Bool.and_eq_true, decide_eq_true_eq, Bool.not_eq_true'] at h
    rw [hu h.1] at h; simp at h
  · obtain ⟨v, h1, h2⟩ := List.any_eq_true.1 h
    rw [List.mem_range] at h1
    simp only [Bool.and_eq_true, decide_eq_true_eq, beq_iff_eq] at h2
    have : v = w.left st.count := by omega
    rw [← this]; exact h2.2.le
  · simp only [Bool.and_eq_true, decide_eq_true_eq] at h
    exact h.2

/-- If the equation is true now, it can be found true. -/
theorem holds_of_eq {st : Pipe c} {seen : Counter → Nat} {w : Wait} (hs : w.left seen ≤ w.left st.count)
    (h : w.left st.count * c.factor w = w.right st.count st.credit) : st.holds seen w = true := by
  unfold Pipe.holds
  rw [Bool.or_eq_true, Bool.or_eq_true]
  refine Or.inl (Or.inr (List.any_eq_true.2 ⟨w.left st.count, List.mem_range.2 (by omega), ?_⟩))
  simp [hs, h]

/-- The first wait of Flush: all documents have been counted. -/
theorem wait_indexed {db : Fin c.stores → List (Str × D)} {st : Pipe c} (h : Reach db st)
    {i : Fin c.clients} (hf : OnlyFlush i st) (hw : st.holds (st.seen (.client i)) .indexed = true) :
    (μCount c .indexed).pending st = 0 := by
  have h1 := h.indexed_total
  have h2 := h.indexingReqs_total
  rw [onlyFlush_reqs h hf .indexingReqs (Or.inl rfl)] at h2
  have := holds_eq (w := .indexed) (seen := st.seen (.client i)) (hf.seen .indexingReqs (Or.inl rfl)) (by simp) hw
  simp only [Wait.left, PipeCfg.factor, Wait.right] at this
  omega

/-- The second wait. -/
theorem wait_removed {db : Fin c.stores → List (Str × D)} {st : Pipe c} (h : Reach db st)
    {i : Fin c.clients} (hf : OnlyFlush i st) (hw : st.holds (st.seen (.client i)) .removed = true) :
    (μCount c .removed).pending st = 0 := by
  have h1 := h.removed_total
  have h2 := h.removingReqs_total
  rw [onlyFlush_reqs h hf .removingReqs (Or.inr rfl)] at h2
  have := holds_eq (w := .removed) (seen := st.seen (.client i)) (hf.seen .removingReqs (Or.inr rfl)) (by simp) hw
  simp only [Wait.left, PipeCfg.factor, Wait.right] at this
  rw [← h2, Nat.add_zero, Nat.mul_comm] at h1
  omega

/-- The third wait. -/
theorem wait_stored {db : Fin c.stores → List (Str × D)} {st : Pipe c} (h : Reach db st)
    {i : Fin c.clients} (hf : OnlyFlush i st) (hs : c.useStore = true)
    (hw : st.holds (st.seen (.client i)) .stored = true) :
    (μCount c .stored).pending st = 0 := by
  have h1 := h.stored_total hs
  have h2 := h.indexingReqs_total
  have h3 := h.credit hf.inited
  rw [onlyFlush_reqs h hf .indexingReqs (Or.inl rfl)] at h2
  have := holds_eq (w := .stored) (seen := st.seen (.client i)) (hf.seen .indexingReqs (Or.inl rfl)) (fun _ => hs) hw
  simp only [Wait.left, PipeCfg.factor, Wait.right] at this
  omega

/-- The last wait. -/
theorem wait_forced {db : Fin c.stores → List (Str × D)} {st : Pipe c} (h : Reach db st)
    {i : Fin c.clients} (hf : OnlyFlush i st) (hp : st.prog (.client i) = [.await .forced])
    (hw : st.holds (st.seen (.client i)) .forced = true) :
    (μCount c .forced).pending st = 0 := by
  have h1 := h.forced_total
  have h0 := onlyFlush_force h hf (by rw [hp]; rfl)
  rw [h0, Nat.add_zero, Nat.mul_comm] at h1
  have := holds_eq (w := .forced) (seen := st.seen (.client i)) (hf.seenForce hp) (by simp) hw
  simp only [Wait.left, PipeCfg.factor, Wait.right] at this
  omega

theorem holds_of_await {st st' : Pipe c} {i : Fin c.clients} {w : Wait} {l : List (Micro c.toPipeSize D)}
    (hp : st.prog (.client i) = .await w :: l) (h : st.step (.run (.client i)) = some st') :
    st.holds (st.seen (.client i)) w = true ∧ st'.idxLog = st.idxLog ∧ st'.dbLog = st.dbLog := by
  have he := (step_run_prog hp h).2
  simp only [Pipe.exec] at he
  split at he
  · rename_i hw
    refine ⟨?_, ?_, ?_⟩
    · cases w <;> exact hw
    · rw [← Option.some.inj he]
    · rw [← Option.some.inj he]
  · simp at he

/-- The stages of a completed Flush. -/
theorem flush_stages {i : Fin c.clients} {as : List (Act c.toPipeSize D)} {st1 st2 st3 : Pipe c}
    (hcall : st1.step (.call i .flush) = some st2) (hno : ∀ a ∈ as, a.isCall = false)
    (hr : st2.run as = some st3) (hdone : st3.prog (.client i) = []) :
    ∃ (a1 a2 a3 a4 a5 : List (Act c.toPipeSize D)) (s1 s2 s3 s4 s5 : Pipe c),
      (∀ a ∈ a1 ++ a2 ++ a3 ++ a4 ++ a5, a.isCall = false) ∧
      st2.run a1 = some s1 ∧ s1.run a2 = some s2 ∧ s2.run a3 = some s3 ∧ s3.run a4 = some s4 ∧
      s4.run a5 = some st3 ∧ s5 = s3 ∧
      s1.holds (s1.seen (.client i)) .indexed = true ∧ s2.holds (s2.seen (.client i)) .removed = true ∧
      s3.holds (s3.seen (.client i)) .stored = true ∧ s4.holds (s4.seen (.client i)) .forced = true ∧
      s3.prog (.client i) = .await .stored :: (c.internalIndex (str "0") c.emptyData true ++ [.await .forced]) ∧
      s4.prog (.client i) = [.await .forced] := by
  have hp2 : st2.prog (.client i) = c.call .flush := by
    rw [(call_inited hcall).2.2]; simp
  have hno0 := hno
  replace hno : ∀ a ∈ as, ∀ b, a ≠ .call i b := by
    rintro a ha b rfl
    have := hno _ ha
    simp [Act.isCall] at this
  have hrun : ∀ (u v w x : Pipe c) (a b : List (Act c.toPipeSize D)) (y : Act c.toPipeSize D),
      u.run a = some v → v.step y = some w → w.run b = some x → u.run (a ++ y :: b) = some x := by
    intro u v w x a b y e1 e2 e3
    rw [run_append, e1, Option.bind_some, Pipe.run, e2, Option.bind_some, e3]
  obtain ⟨a1, b1, u1, v1, e1, r1, p1, t1, q1, f1⟩ :=
    client_exec i _ _ as st2 st3 hno hp2 hr hdone
  have n1 : ∀ a ∈ b1, ∀ b, a ≠ .call i b := fun a ha => hno a (by simp [e1, ha])
  obtain ⟨a2, b2, u2, v2, e2, r2, p2, t2, q2, f2⟩ := client_exec i _ _ b1 v1 st3 n1 q1 f1 hdone
  have n2 : ∀ a ∈ b2, ∀ b, a ≠ .call i b := fun a ha => n1 a (by simp [e2, ha])
  obtain ⟨a3, b3, u3, v3, e3, r3, p3, t3, q3, f3⟩ := client_exec i _ _ b2 v2 st3 n2 q2 f2 hdone
  have n3 : ∀ a ∈ b3, ∀ b, a ≠ .call i b := fun a ha => n2 a (by simp [e3, ha])
  have q3' : v3.prog (.client i) = [.tick .forceReqs 1, .send .seg (.seg (str "0") c.emptyData true), .await .forced] := by
    rw [q3]; simp [PipeCfg.internalIndex]
  obtain ⟨a4, b4, u4, v4, e4, r4, p4, t4, q4, f4⟩ := client_exec i _ _ b3 v3 st3 n3 q3' f3 hdone
  have n4 : ∀ a ∈ b4, ∀ b, a ≠ .call i b := fun a ha => n3 a (by simp [e4, ha])
  obtain ⟨a5, b5, u5, v5, e5, r5, p5, t5, q5, f5⟩ := client_exec i _ _ b4 v4 st3 n4 q4 f4 hdone
  have n5 : ∀ a ∈ b5, ∀ b, a ≠ .call i b := fun a ha => n4 a (by simp [e5, ha])
  obtain ⟨a6, b6, u6, v6, e6, r6, p6, t6, q6, f6⟩ := client_exec i _ _ b5 v5 st3 n5 q5 f5 hdone
  refine ⟨a1, .run (.client i) :: a2, .run (.client i) :: a3,
    .run (.client i) :: (a4 ++ .run (.client i) :: (a5 ++ .run (.client i) :: a6)),
    .run (.client i) :: b6, u1, u2, u3, u6, u3, ?_, r1, ?_, ?_, ?_, ?_, rfl, ?_, ?_, ?_, ?_, p3, p6⟩
  · intro a ha
    have hm : a ∈ as := by
      rw [e1, e2, e3, e4, e5, e6]
      simp only [List.mem_append, List.mem_cons] at ha ⊢
      tauto
    exact hno0 a hm
  · simp only [Pipe.run, t1, Option.bind_some, r2]
  · simp only [Pipe.run, t2, Option.bind_some, r3]
  · rw [Pipe.run, t3, Option.bind_some]
    exact hrun _ _ _ _ _ _ _ r4 t4 (hrun _ _ _ _ _ _ _ r5 t5 r6)
  · simp only [Pipe.run, t6, Option.bind_some, f6]
  · exact (holds_of_await p1 t1).1
  · exact (holds_of_await p2 t2).1
  · exact (holds_of_await p3 t3).1
  · exact (holds_of_await p6 t6).1

/-- Pending weight of actions of a thread. -/
theorem pending_ge (μ : Meas c) (st : Pipe c) (t : Thread c.toPipeSize) :
    wsum μ.w2 (st.prog t) ≤ μ.pending st := by
  have := Finset.add_sum_erase Finset.univ (fun t => wsum μ.w2 (st.prog t)) (Finset.mem_univ t)
  unfold Meas.pending
  omega

/-- Pending work can only shrink without calls. -/
theorem pending_zero_run (μ : Meas c) (st st' : Pipe c)
    (as : List (Act c.toPipeSize D)) (hno : ∀ a ∈ as, a.isCall = false) (h : st.run as = some st')
    (hmono : μ.val st.obs ≤ μ.val st'.obs) (h0 : μ.pending st = 0) :
    μ.pending st' = 0 ∧ μ.val st'.obs = μ.val st.obs := by
  have hcons := μ.conserve st st' as h
  rw [run_calls st st' as h, noCall_called hno, List.append_nil] at hcons
  omega

end Riot
