import Verif.Proofs.PipelineIndex
import Mathlib.Algebra.Order.BigOperators.Group.Finset

/-!
# Flushes that overlap
-/

namespace Riot

open Function (update)

variable {D : Type} {c : PipeCfg D}

/-- What is pending of `μ` is also pending of `ν`, if that is so for all remainders of lists of actions. -/
theorem pending_le {db : Fin c.stores → List (Str × D)} {st : Pipe c} (hr : Reach db st) {μ ν : Meas c}
    (hexp : ∀ q m l, l <:+ c.expand q m → wsum μ.w2 l ≤ wsum ν.w2 l)
    (hcall : ∀ i, wsum μ.w2 (st.prog (.client i)) ≤ wsum ν.w2 (st.prog (.client i)))
    (hinit : ∀ m l, l <:+ (Pipe.start c db).prog (.init m) → wsum μ.w2 l ≤ wsum ν.w2 l)
    (hdb : ∀ m op, μ.w (.db m op) ≤ ν.w (.db m op)) : μ.pending st ≤ ν.pending st := by
  have e1 : ∑ t, wsum μ.w2 (st.prog t) ≤ ∑ t, wsum ν.w2 (st.prog t) := by
    apply Finset.sum_le_sum
    intro t _
    have ho := hr.origin t
    cases t with
    | client i => exact hcall i
    | init m => exact hinit m _ ho
    | _ => obtain ⟨q, m, _, hs⟩ := ho; exact hexp q m _ hs
  have e2 : ∑ q, wsum (μ.wm q) (st.chan q) ≤ ∑ q, wsum (ν.wm q) (st.chan q) := by
    apply Finset.sum_le_sum
    intro q _
    induction st.chan q with
    | nil => simp
    | cons m l ih =>
      have := hexp q m _ (List.suffix_refl _)
      rw [μ.wsum_expand, ν.wsum_expand] at this
      simp only [wsum_cons]; omega
  have e3 : wsum (fun x => μ.w (.db x.1 x.2)) st.spawned ≤ wsum (fun x => ν.w (.db x.1 x.2)) st.spawned := by
    induction st.spawned with
    | nil => simp
    | cons x l ih => have := hdb x.1 x.2; simp only [wsum_cons]; omega
  unfold Meas.pending
  omega

theorem wsum_le {α : Type} {w w' : α → Nat} {l : List α} (h : ∀ x ∈ l, w x ≤ w' x) : wsum w l ≤ wsum w' l := by
  induction l with
  | nil => simp
  | cons x l ih =>
    have h1 := h x (by simp)
    have h2 := ih (fun y hy => h y (by simp [hy]))
    simp only [wsum_cons]; omega

/-- Requests come before what they ask for. -/
theorem suffix_le {α : Type} {w w' : α → Nat} {A B l : List α} (hB : wsum w B = 0) (hA : wsum w A ≤ wsum w' B)
    (h : l <:+ A ++ B) : wsum w l ≤ wsum w' l := by
  obtain ⟨p, hp⟩ := h
  rcases List.append_eq_append_iff.1 hp with ⟨a, ha, rfl⟩ | ⟨a, rfl, rfl⟩
  · rw [ha, wsum_append] at hA
    simp only [wsum_append]; omega
  · rw [wsum_append] at hB
    omega

theorem callOps_force (s : Fin c.shards) (a : Call D) :
    (c.callOps s a).countP IdxOp.force = c.callCount .forceReqs a := by
  cases a with
  | index id d f =>
    by_cases h0 : id = str "0" <;> by_cases hr : c.route id d = s <;> cases f <;>
      simp [PipeCfg.callOps, PipeCfg.callCount, IdxOp.force, h0, hr]
  | remove id f => cases f <;> simp [PipeCfg.callOps, PipeCfg.callCount, IdxOp.force]
  | flush => simp [PipeCfg.callOps, PipeCfg.callCount, IdxOp.force]

/-- A refresh for a Flush. -/
def IdxOp.isRefresh : IdxOp → Bool
  | .flush true => true
  | _ => false

/-- Flush requests a refresh before it is made. -/
theorem forceReqs_le {db : Fin c.stores → List (Str × D)} {st : Pipe c} (hr : Reach db st) (s : Fin c.shards)
    (hf : ∀ j, st.prog (.client j) <:+ c.call .flush) :
    (μCount c .forceReqs).pending st ≤ (μIdx c s IdxOp.isRefresh).pending st := by
  refine pending_le hr ?_ ?_ ?_ (fun _ _ => Nat.zero_le _)
  · intro q m l hl
    have := wsum_suffix (μCount c .forceReqs).w2 hl
    rw [Meas.wsum_expand, req_wm .forceReqs rfl] at this
    omega
  · intro j
    have hl := hf j
    have hB : wsum (μCount c .forceReqs).w2 [(Micro.send .seg (.seg (str "0") c.emptyData true) : Micro c.toPipeSize D),
        .await .forced] = 0 := by
      rw [wsum_cons]; simp only [Meas.w2, μCount_wm_seg, wsum_cons, wsum_nil]; rfl
    replace hl : st.prog (.client j) <:+
        [(Micro.await .indexed : Micro c.toPipeSize D), .await .removed, .await .stored, .tick .forceReqs 1] ++
        [.send .seg (.seg (str "0") c.emptyData true), .await .forced] := by
      rw [flush_prog] at hl; exact hl
    refine suffix_le hB ?_ hl
    have e2 := μIdx_call (c := c) s IdxOp.isRefresh .flush
    rw [flush_prog] at e2
    have e3 : wsum (μIdx c s IdxOp.isRefresh).w2
        [(Micro.await .indexed : Micro c.toPipeSize D), .await .removed, .await .stored, .tick .forceReqs 1] = 0 := by
      simp [Meas.w2, μIdx]
    have e4 : wsum (μCount c .forceReqs).w2
        [(Micro.await .indexed : Micro c.toPipeSize D), .await .removed, .await .stored, .tick .forceReqs 1] = 1 := by
      simp [Meas.w2, μCount]
    have e5 : (c.callOps s (.flush : Call D)).countP IdxOp.isRefresh = 1 := by
      simp [PipeCfg.callOps, IdxOp.isRefresh]
    rw [e4]
    rw [e5, show [(Micro.await .indexed : Micro c.toPipeSize D), .await .removed, .await .stored, .tick .forceReqs 1,
      .send .seg (.seg (str "0") c.emptyData true), .await .forced] =
      [.await .indexed, .await .removed, .await .stored, .tick .forceReqs 1] ++
        [.send .seg (.seg (str "0") c.emptyData true), .await .forced] from rfl, wsum_append, e3] at e2
    omega
  · intro m l hl
    have := wsum_suffix (μCount c .forceReqs).w2 hl
    rw [start_flush_none db m .forceReqs (by simp) rfl] at this
    omega

/-- Refreshes are made before they are counted. -/
theorem idxForce_le {db : Fin c.stores → List (Str × D)} {st : Pipe c} (hr : Reach db st) (s : Fin c.shards) :
    (μIdx c s IdxOp.force).pending st ≤ (μCount c .forced).pending st := by
  have hne : ∀ q m l, q ≠ .seg → l <:+ c.expand q m →
      wsum (μIdx c s IdxOp.force).w2 l ≤ wsum (μCount c .forced).w2 l := by
    intro q m l hq hl
    have hz : (∀ x ∈ c.expand q m, (μIdx c s IdxOp.force).w2 x = 0) →
        wsum (μIdx c s IdxOp.force).w2 l ≤ wsum (μCount c .forced).w2 l := by
      intro h
      have := wsum_suffix (μIdx c s IdxOp.force).w2 hl
      rw [wsum_eq_zero.2 h] at this
      omega
    cases q with
    | seg => exact absurd rfl hq
    | idxAdd s' =>
      cases m with
      | add doc f =>
        cases doc with
        | none =>
          have hl' : l <:+ [Micro.idx s' (.flush f)] ++ (if f then [Micro.tick .forced 1] else []) := hl
          refine suffix_le ?_ ?_ hl'
          · cases f <;> simp [Meas.w2, μIdx]
          · cases f <;> simp [Meas.w2, μIdx, μCount, IdxOp.force]
            split <;> omega
        | some x =>
          obtain ⟨id, d⟩ := x
          refine suffix_le (A := [.idx s' (.add (c.docOf id d) f)])
            (B := [.tick .tokens (c.docOf id d).keywords.length, .tick .indexed 1] ++
              if f then [.tick .forced 1] else []) ?_ ?_ hl
          · cases f <;> simp [Meas.w2, μIdx]
          · cases f <;> simp [Meas.w2, μIdx, μCount, IdxOp.force]
            split <;> omega
      | _ => exact hz (by simp [PipeCfg.expand])
    | idxRem s' =>
      cases m with
      | rem id f =>
        refine suffix_le (A := [.idx s' (.remove id f)])
            (B := (if id ≠ str "0" then [.tick .removed 1] else []) ++
              if f then [.tick .forced 1] else []) ?_ ?_ hl
        · by_cases h0 : id = str "0" <;> cases f <;> simp [h0, Meas.w2, μIdx]
        · by_cases h0 : id = str "0" <;> cases f <;> simp [h0, Meas.w2, μIdx, μCount, IdxOp.force] <;>
            split <;> omega
      | _ => exact hz (by simp [PipeCfg.expand])
    | rankAdd s' => exact hz (by cases m <;> simp [PipeCfg.expand, Meas.w2, μIdx])
    | rankRem s' => exact hz (by cases m <;> simp [PipeCfg.expand, Meas.w2, μIdx])
    | store s' =>
      refine hz ?_
      cases m with
      | store id d =>
        intro x hx
        simp only [PipeCfg.expand] at hx
        split at hx <;> simp at hx <;> rcases hx with rfl | rfl <;> simp [Meas.w2, μIdx]
      | _ => simp [PipeCfg.expand]
  have hsend : ∀ q m, q ≠ .seg → (μIdx c s IdxOp.force).wm q m ≤ (μCount c .forced).wm q m := by
    intro q m hq
    rw [← Meas.wsum_expand, ← Meas.wsum_expand]
    exact hne q m _ hq (List.suffix_refl _)
  have hexp : ∀ q m l, l <:+ c.expand q m →
      wsum (μIdx c s IdxOp.force).w2 l ≤ wsum (μCount c .forced).w2 l := by
    intro q m l hl
    by_cases hq : q = .seg
    · subst hq
      apply wsum_le
      intro x hx
      obtain ⟨q', m', rfl, hq'⟩ := expand_seg m x (hl.subset hx)
      exact hsend q' m' hq'
    · exact hne q m l hq hl
  have hok : ∀ l : List (Micro c.toPipeSize D), (∀ x ∈ l, x.clientOk) →
      wsum (μIdx c s IdxOp.force).w2 l ≤ wsum (μCount c .forced).w2 l := by
    intro l hl
    apply wsum_le
    intro x hx
    have := hl x hx
    cases x with
    | send q m =>
      show (μIdx c s IdxOp.force).wm q m ≤ (μCount c .forced).wm q m
      rw [← Meas.wsum_expand, ← Meas.wsum_expand]
      exact hexp q m _ (List.suffix_refl _)
    | tick k n => exact Nat.zero_le _
    | await w => exact Nat.zero_le _
    | spawn m op => exact Nat.zero_le _
    | _ => simp [Micro.clientOk] at this
  refine pending_le hr hexp ?_ ?_ (fun _ _ => Nat.zero_le _)
  · intro j
    obtain ⟨a, hl⟩ := hr.origin (.client j)
    exact hok _ (fun x hx => call_ok a x (hl.subset hx))
  · intro m l hl
    exact hok l (fun x hx => start_prog_ok db _ x (hl.subset hx))

/-- Every refresh requested is made once on every shard. -/
theorem issued_force {db : Fin c.stores → List (Str × D)} {st : Pipe c} (hr : Reach db st) (s : Fin c.shards) :
    (st.issued db s).countP IdxOp.force = st.count .forceReqs + (μCount c .forceReqs).pending st := by
  obtain ⟨as, h⟩ := hr
  rw [count_conserve db as st h .forceReqs]
  have e2 : wsum (fun x => wsum (μCount c .forceReqs).w2 (c.internalIndex x.1 x.2 false)) (c.recovered db) = 0 := by
    simp only [μCount_internal]; exact wsum_zero _
  rw [e2, Nat.zero_add]
  unfold Pipe.issued PipeCfg.recoverOps
  rw [List.countP_append, countP_flatMap']
  have e3 : ∀ x : Str × D, (c.callOps s (.index x.1 x.2 false)).countP IdxOp.force = 0 := by
    intro x; rw [callOps_force]; rfl
  have e4 : List.countP IdxOp.force (if c.useStore = true then
      (List.finRange c.stores).flatMap (fun m => (db m).flatMap (fun x => c.callOps s (.index x.1 x.2 false)))
      else []) = 0 := by
    split
    · rw [countP_flatMap', wsum_eq_zero]
      intro m _
      rw [countP_flatMap', wsum_eq_zero]
      intro x _
      exact e3 x
    · rfl
  rw [e4, Nat.zero_add]
  exact wsum_congr (fun x _ => callOps_force s x.2)

/-- On an engine with a single shard at least as many refreshes have been made as are counted. -/
theorem le_executed {db : Fin c.stores → List (Str × D)} {st : Pipe c} (hr : Reach db st) (h1 : c.shards = 1)
    (s : Fin c.shards) : st.count .forced ≤ (st.idxLog s).countP IdxOp.force := by
  have e1 := issued_force hr s
  have e2 := idxForce_le hr s
  have e3 := hr.forced_total
  rw [h1, Nat.one_mul] at e3
  obtain ⟨as, h⟩ := hr
  have := idx_conserve s IdxOp.force db as st h
  omega

/-! ### Only Flushes -/

/-- All clients are idle or flushing. -/
structure OnlyFlushes (i : Fin c.clients) (st : Pipe c) : Prop where
  inited : st.inited = true
  suffix : ∀ j, st.prog (.client j) <:+ c.call .flush
  seen : ∀ k, k = .indexingReqs ∨ k = .removingReqs → st.count k ≤ st.seen (.client i) k

theorem onlyFlushes_reqs {db : Fin c.stores → List (Str × D)} {st : Pipe c} (h : Reach db st)
    {i : Fin c.clients} (hf : OnlyFlushes i st) (k : Counter)
    (hk : k = .indexingReqs ∨ k = .removingReqs) : (μCount c k).pending st = 0 := by
  apply req_pending h k (by rcases hk with rfl | rfl <;> rfl)
  · intro j; exact flush_reqs (hf.suffix j) k hk
  · intro m; rw [h.initOk.done hf.inited m]; rfl

theorem onlyFlushes_step {db : Fin c.stores → List (Str × D)} {i : Fin c.clients} {st st' : Pipe c} (hr : Reach db st)
    {a : Act c.toPipeSize D} (ha : ∀ j b, a = .call j b → b = .flush ∧ j ≠ i) (h : st.step a = some st')
    (hi : OnlyFlushes i st) : OnlyFlushes i st' := by
  refine ⟨?_, ?_, ?_⟩
  · rcases step_inited st st' a h with ⟨h1, _⟩ | ⟨_, _, h2, _⟩
    · rw [h1]; exact hi.inited
    · exact h2
  · intro j
    rcases step_prog st st' a h (.client j) with e | ⟨x, e⟩ | ⟨q, msg, e, _, ht⟩ | ⟨k, b, e, _, _, rfl⟩
    · rw [e]; exact hi.suffix j
    · have := hi.suffix j; rw [e] at this; exact (List.suffix_cons _ _).trans this
    · simp [Thread.input] at ht
    · rw [e, (ha _ _ rfl).1]
  · intro k hk
    by_cases hc : a.isCall = false
    · exact seen_le_of hc h (onlyFlushes_reqs hr hi k hk) (Or.inr (hi.seen k hk))
    · cases a with
      | call j b =>
        have hj := (ha j b rfl).2
        have := hi.seen k hk
        rw [(call_inited h).2.2]
        simp only
        rw [Function.update_of_ne (by simpa using Ne.symm hj)]
        exact this
      | _ => simp [Act.isCall] at hc

theorem onlyFlushes_run {db : Fin c.stores → List (Str × D)} {i : Fin c.clients} :
    ∀ (as : List (Act c.toPipeSize D)) (st st' : Pipe c), Reach db st →
    (∀ a ∈ as, ∀ j b, a = .call j b → b = .flush ∧ j ≠ i) → st.run as = some st' → OnlyFlushes i st →
    OnlyFlushes i st'
  | [], st, st', _, _, h, h0 => by simp only [Pipe.run, Option.some.injEq] at h; subst h; exact h0
  | a :: as, st, st', hr, hc, h, h0 => by
    simp only [Pipe.run] at h
    obtain ⟨s1, h1, h2⟩ := Option.bind_eq_some_iff.1 h
    exact onlyFlushes_run as s1 st' (hr.step h1) (fun a ha => hc a (by simp [ha])) h2
      (onlyFlushes_step hr (hc a (by simp)) h1 h0)

/-- The actions of a Flush, one by one: the state in which each is executed. -/
theorem flush_parts {i : Fin c.clients} {as : List (Act c.toPipeSize D)} {st1 st2 st3 : Pipe c}
    (hcall : st1.step (.call i .flush) = some st2) (hno : ∀ a ∈ as, ∀ b, a ≠ .call i b)
    (hr : st2.run as = some st3) (hdone : st3.prog (.client i) = []) :
    ∃ (a1 a2 a3 a4 a5 a6 b6 : List (Act c.toPipeSize D)) (u1 v1 u2 v2 u3 v3 u4 v4 u5 v5 u6 v6 : Pipe c),
      as = a1 ++ .run (.client i) :: (a2 ++ .run (.client i) :: (a3 ++ .run (.client i) ::
        (a4 ++ .run (.client i) :: (a5 ++ .run (.client i) :: (a6 ++ .run (.client i) :: b6))))) ∧
      (st2.run a1 = some u1 ∧ u1.step (.run (.client i)) = some v1 ∧ u1.holds (u1.seen (.client i)) .indexed = true) ∧
      (v1.run a2 = some u2 ∧ u2.step (.run (.client i)) = some v2 ∧ u2.holds (u2.seen (.client i)) .removed = true) ∧
      (v2.run a3 = some u3 ∧ u3.step (.run (.client i)) = some v3 ∧ u3.holds (u3.seen (.client i)) .stored = true) ∧
      (v3.run a4 = some u4 ∧ u4.step (.run (.client i)) = some v4 ∧ v4.count = update u4.count .forceReqs (u4.count .forceReqs + 1)) ∧
      (v4.run a5 = some u5 ∧ u5.step (.run (.client i)) = some v5 ∧ v5.seen (.client i) = u5.count) ∧
      (v5.run a6 = some u6 ∧ u6.step (.run (.client i)) = some v6 ∧ u6.holds (u6.seen (.client i)) .forced = true ∧
        u6.seen (.client i) = u5.count) ∧
      v6.run b6 = some st3 := by
  have hp2 : st2.prog (.client i) = c.call .flush := by
    rw [(call_inited hcall).2.2]; simp
  rw [flush_prog] at hp2
  obtain ⟨a1, b1, u1, v1, e1, r1, p1, t1, q1, f1⟩ := client_exec i _ _ as st2 st3 hno hp2 hr hdone
  have n1 : ∀ a ∈ b1, ∀ b, a ≠ .call i b := fun a ha => hno a (by simp [e1, ha])
  obtain ⟨a2, b2, u2, v2, e2, r2, p2, t2, q2, f2⟩ := client_exec i _ _ b1 v1 st3 n1 q1 f1 hdone
  have n2 : ∀ a ∈ b2, ∀ b, a ≠ .call i b := fun a ha => n1 a (by simp [e2, ha])
  obtain ⟨a3, b3, u3, v3, e3, r3, p3, t3, q3, f3⟩ := client_exec i _ _ b2 v2 st3 n2 q2 f2 hdone
  have n3 : ∀ a ∈ b3, ∀ b, a ≠ .call i b := fun a ha => n2 a (by simp [e3, ha])
  obtain ⟨a4, b4, u4, v4, e4, r4, p4, t4, q4, f4⟩ := client_exec i _ _ b3 v3 st3 n3 q3 f3 hdone
  have n4 : ∀ a ∈ b4, ∀ b, a ≠ .call i b := fun a ha => n3 a (by simp [e4, ha])
  obtain ⟨a5, b5, u5, v5, e5, r5, p5, t5, q5, f5⟩ := client_exec i _ _ b4 v4 st3 n4 q4 f4 hdone
  have n5 : ∀ a ∈ b5, ∀ b, a ≠ .call i b := fun a ha => n4 a (by simp [e5, ha])
  obtain ⟨a6, b6, u6, v6, e6, r6, p6, t6, q6, f6⟩ := client_exec i _ _ b5 v5 st3 n5 q5 f5 hdone
  have hs5 : v5.seen (.client i) = u5.count := by
    have he := (step_run_prog p5 t5).2
    simp only [Pipe.exec] at he
    split at he
    · rw [← Option.some.inj he]; simp
    · simp at he
  have hs6 : u6.seen (.client i) = v5.seen (.client i) := by
    -- the client does nothing in between
    have key : ∀ (as : List (Act c.toPipeSize D)) (x y : Pipe c), (∀ a ∈ as, ∀ b, a ≠ .call i b) →
        x.prog (.client i) = [.await .forced] → x.run as = some y → y.prog (.client i) = [.await .forced] →
        y.seen (.client i) = x.seen (.client i) := by
      intro as
      induction as with
      | nil => intro x y _ _ h _; simp only [Pipe.run, Option.some.injEq] at h; rw [h]
      | cons a as ih =>
        intro x y hn hx h hy
        simp only [Pipe.run] at h
        obtain ⟨z, h1, h2⟩ := Option.bind_eq_some_iff.1 h
        by_cases har : a = .run (.client i)
        · exfalso
          subst har
          have hz : z.prog (.client i) = [] := by rw [(step_run_prog hx h1).1]; simp
          -- it stays idle
          have hidle : ∀ (bs : List (Act c.toPipeSize D)) (z w : Pipe c), (∀ a ∈ bs, ∀ b, a ≠ .call i b) →
              z.prog (.client i) = [] → z.run bs = some w → w.prog (.client i) = [] := by
            intro bs
            induction bs with
            | nil => intro z w _ hz hw; simp only [Pipe.run, Option.some.injEq] at hw; rw [← hw]; exact hz
            | cons b bs ih' =>
              intro z w hn' hz hw
              simp only [Pipe.run] at hw
              obtain ⟨z', g1, g2⟩ := Option.bind_eq_some_iff.1 hw
              refine ih' z' w (fun a ha => hn' a (by simp [ha])) ?_ g2
              by_cases hb : b = .run (.client i)
              · subst hb; simp [Pipe.step, hz] at g1
              · rw [step_client z z' b g1 i (hn' b (by simp)) hb]; exact hz
          rw [hidle as z y (fun a ha => hn a (by simp [ha])) hz h2] at hy
          simp at hy
        · have hz : z.prog (.client i) = [.await .forced] := by
            rw [step_client x z a h1 i (hn a (by simp)) har]; exact hx
          rw [ih z y (fun a ha => hn a (by simp [ha])) hz h2 hy]
          by_cases hc : a.isCall = false
          · rcases step_seen hc h1 with e | ⟨t, rfl, e⟩
            · rw [e]
            · rw [e, Function.update_of_ne]
              rintro rfl
              exact har rfl
          · cases a with
            | call j b =>
              rw [(call_inited h1).2.2]
              simp only
              rw [Function.update_of_ne]
              intro e
              simp only [Thread.client.injEq] at e
              subst e
              exact hn _ (by simp) b rfl
            | _ => simp [Act.isCall] at hc
    exact key a6 v5 u6 (fun a ha => n5 a (by simp [e6, ha])) q5 r6 p6
  have hc4 : v4.count = update u4.count .forceReqs (u4.count .forceReqs + 1) := by
    have he := (step_run_prog p4 t4).2
    simp only [Pipe.exec] at he
    rw [← Option.some.inj he]
  refine ⟨a1, a2, a3, a4, a5, a6, b6, u1, v1, u2, v2, u3, v3, u4, v4, u5, v5, u6, v6, ?_,
    ⟨r1, t1, (holds_of_await p1 t1).1⟩, ⟨r2, t2, (holds_of_await p2 t2).1⟩, ⟨r3, t3, (holds_of_await p3 t3).1⟩,
    ⟨r4, t4, hc4⟩, ⟨r5, t5, hs5⟩, ⟨r6, t6, (holds_of_await p6 t6).1, hs6.trans hs5⟩, f6⟩
  rw [e1, e2, e3, e4, e5, e6]

theorem run_count_le (as : List (Act c.toPipeSize D)) (st st' : Pipe c) (h : st.run as = some st') (k : Counter) :
    st.count k ≤ st'.count k :=
  run_induction (P := fun x => st.count k ≤ x.count k)
    (fun _ _ _ hi hs => hi.trans (step_count_le hs k)) as st st' le_rfl h

/-- What was asked for when the left side was loaded has been counted. -/
theorem holds_ge {st : Pipe c} {seen : Counter → Nat} {w : Wait} (hs : w.left seen ≤ w.left st.count)
    (hu : w = .stored → c.useStore = true) (h : st.holds seen w = true) :
    w.left seen * c.factor w ≤ w.right st.count st.credit := by
  unfold Pipe.holds at h
  rw [Bool.or_eq_true, Bool.or_eq_true] at h
  rcases h with (h | h) | h
  · simp only [Bool.and_eq_true, decide_eq_true_eq, Bool.not_eq_true'] at h
    rw [hu h.1] at h; simp at h
  · obtain ⟨v, h1, h2⟩ := List.any_eq_true.1 h
    rw [List.mem_range] at h1
    simp only [Bool.and_eq_true, decide_eq_true_eq, beq_iff_eq] at h2
    rw [← h2.2]
    exact Nat.mul_le_mul_right _ h2.1
  · simp only [Bool.and_eq_true, decide_eq_true_eq] at h
    exact (Nat.mul_le_mul_right _ hs).trans h.2

/-- A thread has seen at least what was there when it started. -/
theorem seen_ge {i : Fin c.clients} (st : Pipe c) (n : Counter → Nat) (as : List (Act c.toPipeSize D)) (st' : Pipe c)
    (h : st.run as = some st') (h0 : ∀ k, n k ≤ st.count k ∧ n k ≤ st.seen (.client i) k) :
    ∀ k, n k ≤ st'.count k ∧ n k ≤ st'.seen (.client i) k := by
  refine run_induction (P := fun x => ∀ k, n k ≤ x.count k ∧ n k ≤ x.seen (.client i) k)
    (fun x a y hi hs k => ?_) as st st' h0 h
  have hle := step_count_le hs k
  refine ⟨(hi k).1.trans hle, ?_⟩
  by_cases hc : a.isCall = false
  · rcases step_seen hc hs with e | ⟨t, rfl, e⟩
    · rw [e]; exact (hi k).2
    · rw [e]
      by_cases ht : Thread.client i = t
      · subst ht; simpa using (hi k).1
      · rw [Function.update_of_ne ht]; exact (hi k).2
  · cases a with
    | call j b =>
      rw [(call_inited hs).2.2]
      simp only
      by_cases ht : Thread.client i = Thread.client (z := c.toPipeSize) j
      · rw [← ht]; simpa using (hi k).1
      · rw [Function.update_of_ne ht]; exact (hi k).2
    | _ => simp [Act.isCall] at hc

/-- What a returned Flush implies whatever else happens: as much has been done as had been asked for. -/
theorem flush_counts {db : Fin c.stores → List (Str × D)} {i : Fin c.clients} {st st' : Pipe c}
    {as : List (Act c.toPipeSize D)} (hr : Reach db st) (h : FlushReturns i st st' as) :
    st.count .indexingReqs ≤ st'.count .indexed ∧
    st.count .removingReqs * c.shards ≤ st'.count .removed ∧
    (c.useStore = true → st.count .indexingReqs ≤ st'.count .stored + st'.credit) ∧
    (st.count .forceReqs + 1) * c.shards ≤ st'.count .forced := by
  obtain ⟨hno, st1, h1, h2, hdone⟩ := h
  obtain ⟨a1, a2, a3, a4, a5, a6, b6, u1, v1, u2, v2, u3, v3, u4, v4, u5, v5, u6, v6, he, ⟨r1, t1, w1⟩, ⟨r2, t2, w2⟩,
    ⟨r3, t3, w3⟩, ⟨r4, t4, hc4⟩, ⟨r5, t5, _⟩, ⟨r6, t6, w6, hs6⟩, r7⟩ := flush_parts h1 hno h2 hdone
  have hst : ∀ k, st.count k ≤ st1.count k ∧ st.count k ≤ st1.seen (.client i) k := by
    intro k; rw [(call_inited h1).2.2]; simp
  have step1 : ∀ {x y : Pipe c} {a : Act c.toPipeSize D}, x.step a = some y → x.run [a] = some y := by
    intro x y a hxy; rw [run_one]; exact hxy
  have R1 := hr.step h1
  have U1 := R1.run r1
  have V1 := U1.step t1
  have U2 := V1.run r2
  have V2 := U2.step t2
  have U3 := V2.run r3
  have V3 := U3.step t3
  have U4 := V3.run r4
  have V4 := U4.step t4
  have U5 := V4.run r5
  have V5 := U5.step t5
  have U6 := V5.run r6
  have s1 := seen_ge st1 _ a1 u1 r1 hst
  have s1' := seen_ge u1 _ _ v1 (step1 t1) s1
  have s2 := seen_ge v1 _ a2 u2 r2 s1'
  have s2' := seen_ge u2 _ _ v2 (step1 t2) s2
  have s3 := seen_ge v2 _ a3 u3 r3 s2'
  have s3' := seen_ge u3 _ _ v3 (step1 t3) s3
  have s4 := seen_ge v3 _ a4 u4 r4 s3'
  have k45 := run_count_le a5 v4 u5 r5 .forceReqs
  rw [hc4] at k45
  simp only [Function.update_self] at k45
  -- counts at the end
  have m6 : ∀ k, u6.count k ≤ st'.count k := fun k =>
    (step_count_le t6 k).trans (run_count_le b6 v6 st' r7 k)
  have m5 : ∀ k, u5.count k ≤ st'.count k := fun k =>
    (step_count_le t5 k).trans ((run_count_le a6 v5 u6 r6 k).trans (m6 k))
  have m4 : ∀ k, u4.count k ≤ st'.count k := fun k =>
    (step_count_le t4 k).trans ((run_count_le a5 v4 u5 r5 k).trans (m5 k))
  have m3 : ∀ k, u3.count k ≤ st'.count k := fun k =>
    (step_count_le t3 k).trans ((run_count_le a4 v3 u4 r4 k).trans (m4 k))
  have m2 : ∀ k, u2.count k ≤ st'.count k := fun k =>
    (step_count_le t2 k).trans ((run_count_le a3 v2 u3 r3 k).trans (m3 k))
  have m1 : ∀ k, u1.count k ≤ st'.count k := fun k =>
    (step_count_le t1 k).trans ((run_count_le a2 v1 u2 r2 k).trans (m2 k))
  have hle : ∀ {x : Pipe c}, Reach db x → ∀ (w : Wait), w.left (x.seen (.client i)) ≤ w.left x.count := by
    intro x hx w
    cases w <;> exact hx.seen_le _ _
  refine ⟨?_, ?_, ?_, ?_⟩
  · have := holds_ge (hle U1 .indexed) (by simp) w1
    simp only [Wait.left, PipeCfg.factor, Wait.right] at this
    have e1 := (s1 .indexingReqs).2
    have e2 := m1 .indexed
    omega
  · have := holds_ge (hle U2 .removed) (by simp) w2
    simp only [Wait.left, PipeCfg.factor, Wait.right] at this
    have e1 := Nat.mul_le_mul_right c.shards (s2 .removingReqs).2
    have e2 := m2 .removed
    omega
  · intro hs
    have := holds_ge (hle U3 .stored) (fun _ => hs) w3
    simp only [Wait.left, PipeCfg.factor, Wait.right] at this
    have e1 := (s3 .indexingReqs).2
    have e2 := m3 .stored
    have e3 := U3.credit (run_induction (P := fun x => x.inited = true) (fun x a y hi hs => by
      rcases step_inited x y a hs with ⟨h1, _⟩ | ⟨_, _, h2, _⟩
      · rw [h1]; exact hi
      · exact h2) _ st u3 (call_inited h1).1 (by
        show st.run (.call i .flush :: (a1 ++ .run (.client i) :: (a2 ++ .run (.client i) :: a3))) = some u3
        rw [Pipe.run, h1, Option.bind_some, run_append, r1, Option.bind_some, Pipe.run, t1, Option.bind_some,
          run_append, r2, Option.bind_some, Pipe.run, t2, Option.bind_some, r3]))
    have e4 := (R1.run h2).credit (run_induction (P := fun x => x.inited = true) (fun x a y hi hs => by
      rcases step_inited x y a hs with ⟨h1, _⟩ | ⟨_, _, h2, _⟩
      · rw [h1]; exact hi
      · exact h2) (.call i .flush :: as) st st' (call_inited h1).1 (by rw [Pipe.run, h1, Option.bind_some, h2]))
    omega
  · have := holds_ge (hle U6 .forced) (by simp) w6
    simp only [Wait.left, PipeCfg.factor, Wait.right, hs6] at this
    have e1 := (s4 .forceReqs).1
    have e2 := m6 .forced
    have e3 : (st.count .forceReqs + 1) * c.shards ≤ u5.count .forceReqs * c.shards :=
      Nat.mul_le_mul_right _ (by omega)
    omega

/-- Flush calls issue no additions and removals. -/
theorem issued_flushes {db : Fin c.stores → List (Str × D)} {st st' : Pipe c} {as : List (Act c.toPipeSize D)}
    (h : st.run as = some st') (hc : ∀ a ∈ as, ∀ j b, a = .call j b → b = .flush) (s : Fin c.shards) (p : IdxOp → Bool) :
    (st'.issued db s).countP (fun op => p op && op.isWork) = (st.issued db s).countP (fun op => p op && op.isWork) := by
  unfold Pipe.issued
  rw [run_calls st st' as h, List.flatMap_append, ← List.append_assoc, List.countP_append]
  have : ((as.flatMap Act.called).flatMap (fun x => c.callOps s x.2)).countP (fun op => p op && op.isWork) = 0 := by
    rw [List.countP_eq_zero]
    intro op hop
    obtain ⟨⟨j, b⟩, hx, hop⟩ := List.mem_flatMap.1 hop
    obtain ⟨a, ha, hxa⟩ := List.mem_flatMap.1 hx
    cases a with
    | call j' b' =>
      simp only [Act.called, List.mem_singleton, Prod.mk.injEq] at hxa
      obtain ⟨rfl, rfl⟩ := hxa
      rw [hc _ ha _ _ rfl] at hop
      simp only [PipeCfg.callOps, List.mem_singleton] at hop
      subst hop
      simp [IdxOp.isWork]
    | _ => simp [Act.called] at hxa
  rw [this, Nat.add_zero]

/-- Nothing more to do for additions and removals stays so while only Flush is called. -/
theorem work_zero_run {db : Fin c.stores → List (Str × D)} {st st' : Pipe c} {as : List (Act c.toPipeSize D)}
    (hr : Reach db st) (h : st.run as = some st') (hc : ∀ a ∈ as, ∀ j b, a = .call j b → b = .flush)
    (s : Fin c.shards) (p : IdxOp → Bool) (h0 : (μIdx c s (fun op => p op && op.isWork)).pending st = 0) :
    (μIdx c s (fun op => p op && op.isWork)).pending st' = 0 := by
  have e := issued_flushes (db := db) h hc s p
  obtain ⟨M, hM⟩ := run_idxLog as st st' h s
  have hr' := hr.run h
  obtain ⟨bs, hb⟩ := hr
  obtain ⟨bs', hb'⟩ := hr'
  have k1 := idx_conserve s (fun op => p op && op.isWork) db bs st hb
  have k2 := idx_conserve s (fun op => p op && op.isWork) db bs' st' hb'
  rw [h0, Nat.add_zero] at k1
  rw [e, ← k1, ← hM, List.countP_append] at k2
  omega

/-- **Flushes that overlap** on an engine with a single shard. -/
theorem flushes_index {db : Fin c.stores → List (Str × D)} {i : Fin c.clients} {st st' : Pipe c}
    {as : List (Act c.toPipeSize D)} (hr : Reach db st) (hone : c.shards = 1) (hidle : st.ClientsIdle)
    (h : FlushReturns i st st' as) (hf : ∀ a ∈ as, ∀ j b, a = .call j b → b = .flush) (s : Fin c.shards) :
    ∃ L M, st'.idxLog s = L ++ M ∧
      (L.filter IdxOp.isWork).Perm ((st.issued db s).filter IdxOp.isWork) ∧
      M.filter IdxOp.isWork = [] ∧ IdxOp.flush true ∈ M := by
  obtain ⟨hno, st1, h1, h2, hdone⟩ := h
  obtain ⟨a1, a2, a3, a4, a5, a6, b6, u1, v1, u2, v2, u3, v3, u4, v4, u5, v5, u6, v6, he, ⟨r1, t1, w1⟩, ⟨r2, t2, w2⟩,
    ⟨r3, t3, _⟩, ⟨r4, t4, hc4⟩, ⟨r5, t5, _⟩, ⟨r6, t6, w6, hs6⟩, r7⟩ := flush_parts h1 hno h2 hdone
  have hcs : ∀ a ∈ as, ∀ j b, a = .call j b → b = .flush ∧ j ≠ i := by
    intro a ha j b hab
    refine ⟨hf a ha j b hab, ?_⟩
    rintro rfl
    exact hno a ha b hab
  have hm1 : ∀ a ∈ a1, a ∈ as := fun a ha => by rw [he]; simp [ha]
  have hm2 : ∀ a ∈ a2, a ∈ as := fun a ha => by rw [he]; simp [ha]
  have hm3 : ∀ a ∈ a3, a ∈ as := fun a ha => by rw [he]; simp [ha]
  have hm4 : ∀ a ∈ a4, a ∈ as := fun a ha => by rw [he]; simp [ha]
  have hm5 : ∀ a ∈ a5, a ∈ as := fun a ha => by rw [he]; simp [ha]
  have hm6 : ∀ a ∈ a6, a ∈ as := fun a ha => by rw [he]; simp [ha]
  have hm7 : ∀ a ∈ b6, a ∈ as := fun a ha => by rw [he]; simp [ha]
  have hrn : ∀ j b, (Act.run (.client i) : Act c.toPipeSize D) = .call j b → b = .flush ∧ j ≠ i := by
    intro j b hx; simp at hx
  have R1 := hr.step h1
  have U1 := R1.run r1
  have V1 := U1.step t1
  have U2 := V1.run r2
  have V2 := U2.step t2
  have U3 := V2.run r3
  have V3 := U3.step t3
  have U4 := V3.run r4
  have V4 := U4.step t4
  have U5 := V4.run r5
  have V5 := U5.step t5
  have U6 := V5.run r6
  have f0 : OnlyFlushes i st1 := by
    obtain ⟨e1, e2, e3⟩ := call_inited h1
    refine ⟨by rw [e3]; exact e1, ?_, ?_⟩
    · intro j
      rw [e3]
      by_cases hj : j = i
      · subst hj; simp
      · simp [hj, hidle j]
    · intro k _; rw [e3]; simp
  have f1 := onlyFlushes_run a1 st1 u1 R1 (fun a ha => hcs a (hm1 a ha)) r1 f0
  have f2 := onlyFlushes_run a2 v1 u2 V1 (fun a ha => hcs a (hm2 a ha)) r2 (onlyFlushes_step U1 hrn t1 f1)
  -- additions
  have hI : (μCount c .indexed).pending u1 = 0 := by
    have e1 := U1.indexed_total
    have e2 := U1.indexingReqs_total
    rw [onlyFlushes_reqs U1 f1 .indexingReqs (Or.inl rfl)] at e2
    have := holds_eq (w := .indexed) (seen := u1.seen (.client i)) (f1.seen .indexingReqs (Or.inl rfl)) (by simp) w1
    simp only [Wait.left, PipeCfg.factor, Wait.right] at this
    omega
  have hR : (μCount c .removed).pending u2 = 0 := by
    have e1 := U2.removed_total
    have e2 := U2.removingReqs_total
    rw [onlyFlushes_reqs U2 f2 .removingReqs (Or.inr rfl)] at e2
    have := holds_eq (w := .removed) (seen := u2.seen (.client i)) (f2.seen .removingReqs (Or.inr rfl)) (by simp) w2
    simp only [Wait.left, PipeCfg.factor, Wait.right] at this
    rw [← e2, Nat.add_zero, Nat.mul_comm] at e1
    omega
  have run12 : u1.run (.run (.client i) :: a2) = some u2 := by rw [Pipe.run, t1, Option.bind_some, r2]
  have run24 : u2.run (.run (.client i) :: (a3 ++ .run (.client i) :: a4)) = some u4 := by
    rw [Pipe.run, t2, Option.bind_some, run_append, r3, Option.bind_some, Pipe.run, t3, Option.bind_some, r4]
  have c12 : ∀ a ∈ (Act.run (.client i) : Act c.toPipeSize D) :: a2, ∀ j b, a = .call j b → b = .flush := by
    intro a ha j b hab
    rcases List.mem_cons.1 ha with rfl | ha
    · simp at hab
    · exact (hcs a (hm2 a ha) j b hab).1
  have c24 : ∀ a ∈ (Act.run (.client i) : Act c.toPipeSize D) :: (a3 ++ .run (.client i) :: a4), ∀ j b,
      a = .call j b → b = .flush := by
    intro a ha j b hab
    simp only [List.mem_cons, List.mem_append] at ha
    rcases ha with rfl | ha | rfl | ha
    · simp at hab
    · exact (hcs a (hm3 a ha) j b hab).1
    · simp at hab
    · exact (hcs a (hm4 a ha) j b hab).1
  have hwork : ∀ (p : IdxOp → Bool), (μIdx c s (fun op => p op && op.isWork)).pending u4 = 0 := by
    intro p
    -- additions are done at u1, removals at u2
    let pa : IdxOp → Bool := fun op => p op && (match op with | .add _ _ => true | _ => false)
    let pr : IdxOp → Bool := fun op => p op && (match op with | .remove id _ => id ≠ str "0" | _ => false)
    have ea : ∀ op, (pa op && op.isWork) = pa op := by
      intro op; cases op <;> simp [pa, IdxOp.isWork]
    have er : ∀ op, (pr op && op.isWork) = pr op := by
      intro op; cases op <;> simp [pr, IdxOp.isWork]
    have e1 : (μIdx c s (fun op => pa op && op.isWork)).pending u1 = 0 := by
      obtain ⟨bs, hb⟩ := U1
      refine (dom_add s _ ?_).pending_zero db bs u1 hb hI
      intro op hop; rw [ea] at hop
      cases op <;> simp [pa] at hop ⊢
    have e2 : (μIdx c s (fun op => pr op && op.isWork)).pending u2 = 0 := by
      obtain ⟨bs, hb⟩ := U2
      refine (dom_rem s _ ?_).pending_zero db bs u2 hb hR
      intro op hop; rw [er] at hop
      cases op <;> simp [pr] at hop ⊢; exact hop.2
    have e1' := work_zero_run U2 run24 c24 s pa (work_zero_run U1 run12 c12 s pa e1)
    have e2' := work_zero_run U2 run24 c24 s pr e2
    obtain ⟨bs, hb⟩ := U4
    have k1 := idx_conserve s (fun op => pa op && op.isWork) db bs u4 hb
    have k2 := idx_conserve s (fun op => pr op && op.isWork) db bs u4 hb
    have k3 := idx_conserve s (fun op => p op && op.isWork) db bs u4 hb
    have hsplit : ∀ l : List IdxOp, l.countP (fun op => p op && op.isWork) =
        l.countP (fun op => pa op && op.isWork) + l.countP (fun op => pr op && op.isWork) := by
      intro l
      induction l with
      | nil => rfl
      | cons op l ih =>
        rw [List.countP_cons, List.countP_cons, List.countP_cons, ih]
        have : (if (p op && op.isWork) = true then 1 else 0 : Nat) =
            (if (pa op && op.isWork) = true then 1 else 0) + if (pr op && op.isWork) = true then 1 else 0 := by
          cases op <;> simp [pa, pr, IdxOp.isWork]
        omega
    rw [hsplit, hsplit (u4.issued db s)] at k3
    omega
  have hrun4 : st.run (.call i .flush :: (a1 ++ .run (.client i) :: (a2 ++ .run (.client i) ::
      (a3 ++ .run (.client i) :: a4)))) = some u4 := by
    rw [Pipe.run, h1, Option.bind_some, run_append, r1, Option.bind_some, Pipe.run, t1, Option.bind_some,
      run_append, r2, Option.bind_some]
    exact run24
  have hc4' : ∀ a ∈ (Act.call i .flush : Act c.toPipeSize D) :: (a1 ++ .run (.client i) :: (a2 ++ .run (.client i) ::
      (a3 ++ .run (.client i) :: a4))), ∀ j b, a = .call j b → b = .flush := by
    intro a ha j b hab
    simp only [List.mem_cons, List.mem_append] at ha
    rcases ha with rfl | ha | rfl | ha | ha
    · simp only [Act.call.injEq] at hab; exact hab.2.symm
    · exact (hcs a (hm1 a ha) j b hab).1
    · simp at hab
    · exact (hcs a (hm2 a ha) j b hab).1
    · exact c24 a (by simpa using ha) j b hab
  have hend : u4.run (.run (.client i) :: (a5 ++ .run (.client i) :: (a6 ++ .run (.client i) :: b6))) = some st' := by
    rw [Pipe.run, t4, Option.bind_some, run_append, r5, Option.bind_some, Pipe.run, t5, Option.bind_some,
      run_append, r6, Option.bind_some, Pipe.run, t6, Option.bind_some, r7]
  have hcend : ∀ a ∈ (Act.run (.client i) : Act c.toPipeSize D) :: (a5 ++ .run (.client i) :: (a6 ++ .run (.client i) :: b6)),
      ∀ j b, a = .call j b → b = .flush := by
    intro a ha j b hab
    simp only [List.mem_cons, List.mem_append] at ha
    rcases ha with rfl | ha | rfl | ha | rfl | ha
    · simp at hab
    · exact (hcs a (hm5 a ha) j b hab).1
    · simp at hab
    · exact (hcs a (hm6 a ha) j b hab).1
    · simp at hab
    · exact (hcs a (hm7 a ha) j b hab).1
  obtain ⟨M, hM⟩ := run_idxLog _ u4 st' hend s
  have hMwork : M.filter IdxOp.isWork = [] := by
    have e1 := hwork (fun _ => true)
    have e2 := work_zero_run U4 hend hcend s (fun _ => true) e1
    have e3 := issued_flushes (db := db) hend hcend s (fun _ => true)
    obtain ⟨bs, hb⟩ := U4
    obtain ⟨bs', hb'⟩ := R1.run h2
    have k1 := idx_conserve s (fun op => true && op.isWork) db bs u4 hb
    have k2 := idx_conserve s (fun op => true && op.isWork) db bs' st' hb'
    rw [e1] at k1
    rw [e2, e3, ← hM, List.countP_append] at k2
    have h0 : M.countP (fun op => true && op.isWork) = 0 := by omega
    rw [List.countP_eq_zero] at h0
    rw [List.filter_eq_nil_iff]
    simpa using h0
  refine ⟨u4.idxLog s, M, hM.symm, ?_, hMwork, ?_⟩
  · apply perm_of_countP
    intro p
    rw [List.countP_filter, List.countP_filter]
    have e3 := issued_flushes (db := db) hrun4 hc4' s p
    have e1 := hwork p
    obtain ⟨bs, hb⟩ := U4
    have k1 := idx_conserve s (fun op => p op && op.isWork) db bs u4 hb
    omega
  · -- more refreshes than before
    have f4 := onlyFlushes_run _ u2 u4 U2 (by
      intro a ha j b hab
      simp only [List.mem_cons, List.mem_append] at ha
      rcases ha with rfl | ha | rfl | ha
      · exact hrn j b hab
      · exact hcs a (hm3 a ha) j b hab
      · exact hrn j b hab
      · exact hcs a (hm4 a ha) j b hab) run24 f2
    have e1 := forceReqs_le U4 s f4.suffix
    have e2 := le_executed U6 hone s
    have hw := holds_ge (seen := u6.seen (.client i)) (w := .forced) (U6.seen_le _ _) (by simp) w6
    simp only [Wait.left, PipeCfg.factor, Wait.right, hs6, hone, Nat.mul_one] at hw
    have k45 := run_count_le a5 v4 u5 r5 .forceReqs
    rw [hc4] at k45
    simp only [Function.update_self] at k45
    have hsplit : ∀ l : List IdxOp, l.countP IdxOp.force = l.countP IdxOp.isRefresh +
        l.countP (fun op => op.force && !op.isRefresh) := by
      intro l
      induction l with
      | nil => rfl
      | cons op l ih =>
        rw [List.countP_cons, List.countP_cons, List.countP_cons, ih]
        cases op with
        | flush f => cases f <;> simp [IdxOp.force, IdxOp.isRefresh] <;> omega
        | add d f => cases f <;> simp [IdxOp.force, IdxOp.isRefresh] <;> omega
        | remove d f => cases f <;> simp [IdxOp.force, IdxOp.isRefresh] <;> omega
    have i4 := issued_force U4 s
    obtain ⟨bs, hb⟩ := id U4
    obtain ⟨bs', hb'⟩ := id U6
    have k1 := idx_conserve s IdxOp.isRefresh db bs u4 hb
    have k2 := idx_conserve s (fun op => op.force && !op.isRefresh) db bs' u6 hb'
    rw [hsplit] at e2 i4
    have hrun46 : u4.run (.run (.client i) :: (a5 ++ .run (.client i) :: a6)) = some u6 := by
      rw [Pipe.run, t4, Option.bind_some, run_append, r5, Option.bind_some, Pipe.run, t5, Option.bind_some, r6]
    have hrun6 : u6.run (.run (.client i) :: b6) = some st' := by rw [Pipe.run, t6, Option.bind_some, r7]
    obtain ⟨M1, hM1⟩ := run_idxLog _ u4 u6 hrun46 s
    obtain ⟨M2, hM2⟩ := run_idxLog _ u6 st' hrun6 s
    have hMM : M = M1 ++ M2 := by
      have : u4.idxLog s ++ M = u4.idxLog s ++ (M1 ++ M2) := by
        rw [hM, ← hM2, ← hM1, List.append_assoc]
      exact List.append_cancel_left this
    have hsame : (u6.issued db s).countP (fun op => op.force && !op.isRefresh) =
        (u4.issued db s).countP (fun op => op.force && !op.isRefresh) := by
      unfold Pipe.issued
      rw [run_calls u4 u6 _ hrun46, List.flatMap_append, ← List.append_assoc, List.countP_append]
      have : ((((Act.run (.client i) : Act c.toPipeSize D) :: (a5 ++ .run (.client i) :: a6)).flatMap Act.called).flatMap
          (fun x => c.callOps s x.2)).countP (fun op => op.force && !op.isRefresh) = 0 := by
        rw [List.countP_eq_zero]
        intro op hop
        obtain ⟨⟨j, b⟩, hx, hop⟩ := List.mem_flatMap.1 hop
        obtain ⟨a, ha, hxa⟩ := List.mem_flatMap.1 hx
        cases a with
        | call j' b' =>
          simp only [Act.called, List.mem_singleton, Prod.mk.injEq] at hxa
          obtain ⟨rfl, rfl⟩ := hxa
          simp only [List.mem_cons, List.mem_append, reduceCtorEq, false_or] at ha
          have hbf : b = .flush := by
            rcases ha with ha | ha
            · exact (hcs _ (hm5 _ ha) j b rfl).1
            · exact (hcs _ (hm6 _ ha) j b rfl).1
          rw [hbf] at hop
          simp only [PipeCfg.callOps, List.mem_singleton] at hop
          subst hop
          simp [IdxOp.force, IdxOp.isRefresh]
        | _ => simp [Act.called] at hxa
      omega
    have hpos : 0 < M1.countP IdxOp.isRefresh := by
      have : (u6.idxLog s).countP IdxOp.isRefresh = (u4.idxLog s).countP IdxOp.isRefresh + M1.countP IdxOp.isRefresh := by
        rw [← hM1, List.countP_append]
      omega
    obtain ⟨op, hop, hpo⟩ := List.countP_pos_iff.1 hpos
    have hopM : op ∈ M := by rw [hMM]; simp [hop]
    cases op with
    | flush f => cases f <;> simp [IdxOp.isRefresh] at hpo; exact hopM
    | add d f => simp [IdxOp.isRefresh] at hpo
    | remove id f => simp [IdxOp.isRefresh] at hpo

end Riot
