import Verif.Proofs.PipelineFlushed

/-!
# Every run comes to rest

Every step except the start of a call uses up one unit of work, and while there is work some
step is possible.
-/

namespace Riot

open Function (update)

variable {D : Type} {c : PipeCfg D}

/-- Work of an action of a worker. -/
def PipeCfg.work1 (c : PipeCfg D) : Micro c.toPipeSize D → Nat
  | .send q m => 2 + (c.expand q m).length
  | .spawn _ _ => 2
  | _ => 1

/-- Work of a message: to receive it and to do what it asks for. -/
def PipeCfg.workM (c : PipeCfg D) (q : Chan c.toPipeSize) (m : Msg D) : Nat :=
  1 + wsum c.work1 (c.expand q m)

/-- Work of an action. -/
def PipeCfg.work2 (c : PipeCfg D) : Micro c.toPipeSize D → Nat
  | .send q m => 1 + c.workM q m
  | .spawn _ _ => 2
  | _ => 1

/-- All work an engine still has to do (`1` for Init to return). -/
def Pipe.work (st : Pipe c) : Nat :=
  ∑ t, wsum c.work2 (st.prog t) + ∑ q, wsum (c.workM q) (st.chan q) + st.spawned.length +
    if st.inited then 0 else 1

theorem wsum_one {α : Type} (l : List α) : wsum (fun _ => 1) l = l.length := by
  induction l with
  | nil => rfl
  | cons x l ih => rw [wsum_cons, ih]; simp; omega

theorem work_expand (q : Chan c.toPipeSize) (m : Msg D) :
    wsum c.work2 (c.expand q m) = wsum c.work1 (c.expand q m) := by
  apply wsum_congr
  intro x hx
  by_cases hq : q = .seg
  · subst hq
    obtain ⟨q', m', rfl, hq'⟩ := expand_seg m x hx
    simp only [PipeCfg.work2, PipeCfg.work1, PipeCfg.workM]
    have : wsum c.work1 (c.expand q' m') = (c.expand q' m').length := by
      rw [← wsum_one]
      apply wsum_congr
      intro y hy
      have := expand_simple hq' m' y hy
      cases y <;> simp [Micro.simple, PipeCfg.work1] at this ⊢
    omega
  · have := expand_simple hq m x hx
    cases x <;> simp [Micro.simple, PipeCfg.work1, PipeCfg.work2] at this ⊢

/-- Every step that is not a call takes one unit of work. -/
theorem work_step (st st' : Pipe c) (a : Act c.toPipeSize D) (hc : a.isCall = false)
    (h : st.step a = some st') : st'.work + 1 = st.work := by
  cases a with
  | call i b => simp [Act.isCall] at hc
  | run t =>
    cases hp : st.prog t with
    | nil => simp [Pipe.step, hp] at h
    | cons x l =>
      have he := (step_run_prog hp h).2
      have hu := sum_update st.prog t l (fun _ => c.work2)
      rw [hp, wsum_cons] at hu
      cases x with
      | send q m =>
        simp only [Pipe.exec] at he
        split at he
        · rw [← Option.some.inj he]
          have hq := sum_update st.chan q (st.chan q ++ [m]) c.workM
          simp only [wsum_append, wsum_cons, wsum_nil, PipeCfg.work2] at hq hu
          simp only [Pipe.work]
          omega
        · simp at he
      | await w =>
        simp only [Pipe.exec] at he
        split at he
        · rw [← Option.some.inj he]
          simp only [PipeCfg.work2] at hu
          simp only [Pipe.work]
          omega
        · simp at he
      | spawn m op =>
        simp only [Pipe.exec] at he
        rw [← Option.some.inj he]
        simp only [PipeCfg.work2] at hu
        simp only [Pipe.work, List.length_append, List.length_singleton]
        omega
      | _ =>
        simp only [Pipe.exec] at he
        rw [← Option.some.inj he]
        simp only [PipeCfg.work2] at hu
        simp only [Pipe.work]
        omega
  | recv t =>
    simp only [Pipe.step] at h
    split at h
    · simp at h
    · rename_i q hq
      split at h
      · rename_i m l hp hc
        rw [← Option.some.inj h]
        have hu := sum_update st.prog t (c.expand q m) (fun _ => c.work2)
        have hv := sum_update st.chan q l c.workM
        rw [hp, wsum_nil, work_expand] at hu
        rw [hc, wsum_cons] at hv
        simp only [Pipe.work, PipeCfg.workM] at *
        omega
      · simp at h
  | bg k =>
    simp only [Pipe.step] at h
    split at h
    · simp at h
    · rename_i m op hk
      rw [← Option.some.inj h]
      have hlt : k < st.spawned.length := (List.getElem?_eq_some_iff.1 hk).1
      simp only [Pipe.work, List.length_eraseIdx, hlt, if_true]
      omega
  | ready =>
    rcases step_inited st st' .ready h with ⟨_, _, h3⟩ | ⟨_, h1, h2, _⟩
    · exact absurd rfl h3
    · simp only [Pipe.step] at h
      split at h
      · rw [← Option.some.inj h]
        simp [Pipe.work, h1]
      · simp at h

/-- Runs without calls are bounded by the work. -/
theorem work_run (as : List (Act c.toPipeSize D)) (st st' : Pipe c)
    (hno : ∀ a ∈ as, a.isCall = false) (h : st.run as = some st') : st'.work + as.length = st.work := by
  induction as generalizing st with
  | nil => simp only [Pipe.run, Option.some.injEq] at h; subst h; rfl
  | cons a as ih =>
    simp only [Pipe.run] at h
    obtain ⟨s1, h1, h2⟩ := Option.bind_eq_some_iff.1 h
    have e1 := ih s1 (fun a ha => hno a (by simp [ha])) h2
    have e2 := work_step st s1 a (hno a (by simp)) h1
    simp only [List.length_cons]
    omega

/-- No step but the start of a call is possible. -/
def Pipe.Stuck (st : Pipe c) : Prop := ∀ a, a.isCall = false → st.step a = none

theorem stuck_run {st : Pipe c} (h : st.Stuck) (t : Thread c.toPipeSize) :
    st.prog t = [] ∨ (∃ q m l, st.prog t = .send q m :: l ∧ c.cap q ≤ (st.chan q).length) ∨
      ∃ w l, st.prog t = .await w :: l ∧ st.holds (st.seen t) w = false := by
  cases hp : st.prog t with
  | nil => exact Or.inl rfl
  | cons x l =>
    have := h (.run t) rfl
    simp only [Pipe.step, hp] at this
    cases x with
    | send q m =>
      right; left
      refine ⟨q, m, l, rfl, ?_⟩
      simp only [Pipe.exec] at this
      split at this
      · simp at this
      · omega
    | await w =>
      right; right
      refine ⟨w, l, rfl, ?_⟩
      simp only [Pipe.exec] at this
      split at this
      · simp at this
      · rename_i hw
        have : st.holds (st.seen t) w ≠ true := by cases w <;> exact hw
        simpa using this
    | _ => simp [Pipe.exec] at this

theorem stuck_recv {st : Pipe c} (h : st.Stuck) (t : Thread c.toPipeSize) (q : Chan c.toPipeSize)
    (hq : t.input = some q) (hp : st.prog t = []) : st.chan q = [] := by
  have := h (.recv t) rfl
  simp only [Pipe.step, hq, hp] at this
  cases hc : st.chan q with
  | nil => rfl
  | cons m l => simp [hc] at this

/-- Workers never wait for counters. -/
theorem expand_no_await (q : Chan c.toPipeSize) (m : Msg D) (w : Wait) : Micro.await w ∉ c.expand q m := by
  intro hx
  cases q with
  | seg => obtain ⟨_, _, h, _⟩ := expand_seg m _ hx; simp at h
  | idxAdd s =>
    cases m with
    | add doc f => cases doc <;> cases f <;> simp [PipeCfg.expand] at hx
    | _ => simp [PipeCfg.expand] at hx
  | idxRem s =>
    cases m with
    | rem id f =>
      by_cases h0 : id = str "0" <;> cases f <;> simp [PipeCfg.expand, h0] at hx
    | _ => simp [PipeCfg.expand] at hx
  | rankAdd s => cases m <;> simp [PipeCfg.expand] at hx
  | rankRem s => cases m <;> simp [PipeCfg.expand] at hx
  | store s =>
    cases m with
    | store id d => cases he : c.encodes d <;> simp [PipeCfg.expand, he] at hx
    | _ => simp [PipeCfg.expand] at hx

/-- Where a client waits. -/
theorem call_await {a : Call D} {w : Wait} {l : List (Micro c.toPipeSize D)}
    (h : .await w :: l <:+ c.call a) : a = .flush := by
  have hm : Micro.await w ∈ c.call a := h.subset (by simp)
  cases a with
  | flush => rfl
  | index id d f =>
    exfalso
    simp only [PipeCfg.call, PipeCfg.internalIndex, List.mem_append, List.mem_singleton] at hm
    rcases hm with ((hm | hm) | hm) | hm
    · split at hm <;> simp at hm
    · split at hm <;> simp at hm
    · simp at hm
    · split at hm <;> simp at hm
  | remove id f =>
    exfalso
    simp only [PipeCfg.call, List.mem_append, List.mem_flatMap] at hm
    rcases hm with ((hm | hm) | ⟨s, _, hm⟩) | hm
    · split at hm <;> simp at hm
    · split at hm <;> simp at hm
    · rcases List.mem_cons.1 hm with hm | hm
      · simp at hm
      · split at hm <;> simp at hm
    · split at hm <;> simp at hm

theorem suffix_flush {w : Wait} {l : List (Micro c.toPipeSize D)}
    (h : .await w :: l <:+ c.call .flush) :
    w ≠ .forced ∨ l = [] := by
  obtain ⟨p, hp⟩ := h
  simp only [PipeCfg.call, PipeCfg.internalIndex] at hp
  by_cases hw : w = .forced
  · right
    subst hw
    have hl := congrArg List.length hp
    simp at hl
    match p, hp with
    | [], hp => simp at hp
    | [_], hp => simp at hp
    | [_, _], hp => simp at hp
    | [_, _, _], hp => simp at hp
    | [_, _, _, _], hp => simp at hp
    | [_, _, _, _, _], hp => simp at hp; exact hp.2.2.2.2.2
    | _ :: _ :: _ :: _ :: _ :: _ :: p', hp => simp at hp
  · exact Or.inl hw

theorem pending_zero_of (μ : Meas c) {st : Pipe c} (hp : ∀ t, wsum μ.w2 (st.prog t) = 0)
    (hc : ∀ q, st.chan q = []) (hs : st.spawned = []) : μ.pending st = 0 := by
  unfold Meas.pending
  rw [Finset.sum_eq_zero (fun t _ => hp t), Finset.sum_eq_zero (fun q _ => by rw [hc q]; rfl), hs]
  rfl

theorem start_no_await (db : Fin c.stores → List (Str × D)) (m : Fin c.stores) (w : Wait) :
    Micro.await w ∉ (Pipe.start c db).prog (.init m) := by
  intro hm
  simp only [Pipe.start] at hm
  split at hm
  · obtain ⟨y, _, hy⟩ := List.mem_flatMap.1 hm
    simp only [PipeCfg.internalIndex, List.mem_append, List.mem_singleton] at hy
    rcases hy with (hy | hy) | hy
    · split at hy <;> simp at hy
    · simp at hy
    · simp at hy
  · simp at hm

/-- **No deadlock**: a reachable state in which nothing can happen is quiet. -/
theorem stuck_quiet (hz : c.toPipeSize.Ok) {db : Fin c.stores → List (Str × D)} {st : Pipe c}
    (hr : Reach db st) (h : st.Stuck) : st.inited = true ∧ st.Quiet := by
  have hor := hr.origin
  -- a worker behind a channel other than the segmenters' is idle
  have hw : ∀ t q, t.input = some q → q ≠ .seg → Origin db t (st.prog t) → (∃ q' m, t.input = some q' ∧ st.prog t <:+ c.expand q' m) → st.chan q = [] ∧ st.prog t = [] := by
    intro t q hq hne _ ⟨q', m, hq', ho⟩
    rw [hq] at hq'
    obtain rfl := Option.some.inj hq'
    have hp : st.prog t = [] := by
      rcases stuck_run h t with e | ⟨q1, m1, l, e, _⟩ | ⟨w, l, e, _⟩
      · exact e
      · have := expand_simple hne m (.send q1 m1) (ho.subset (by rw [e]; simp))
        simp [Micro.simple] at this
      · exact absurd (ho.subset (by rw [e]; simp)) (expand_no_await q m w)
    exact ⟨stuck_recv h t q hq hp, hp⟩
  have hseg : ∀ q : Chan c.toPipeSize, q ≠ .seg → st.chan q = [] := by
    intro q hq
    cases q with
    | seg => exact absurd rfl hq
    | idxAdd s => exact (hw (.idxAdd s) _ rfl hq (hor _) (hor (.idxAdd s))).1
    | idxRem s => exact (hw (.idxRem s) _ rfl hq (hor _) (hor (.idxRem s))).1
    | rankAdd s => exact (hw (.rankAdd s) _ rfl hq (hor _) (hor (.rankAdd s))).1
    | rankRem s => exact (hw (.rankRem s) _ rfl hq (hor _) (hor (.rankRem s))).1
    | store s => exact (hw (.store s) _ rfl hq (hor _) (hor (.store s))).1
  have hcap : ∀ q : Chan c.toPipeSize, 1 ≤ c.cap q := by
    intro q
    cases q <;> simp only [PipeSize.cap]
    · exact hz.segCap
    · exact hz.idxCap
    · exact hz.idxCap
    · exact hz.rankCap
    · exact hz.rankCap
    · exact le_rfl
  have hsegp : ∀ j, st.prog (.seg j) = [] := by
    intro j
    obtain ⟨q', m, hq', ho⟩ := hor (.seg j)
    obtain rfl := Option.some.inj hq'
    rcases stuck_run h (.seg j) with e | ⟨q1, m1, l, e, hl⟩ | ⟨w, l, e, _⟩
    · exact e
    · obtain ⟨q2, m2, e2, hne⟩ := expand_seg m (.send q1 m1) (ho.subset (by rw [e]; simp))
      simp only [Micro.send.injEq] at e2
      rw [e2.1, hseg q2 hne] at hl
      have := hcap q2
      simp at hl; omega
    · exact absurd (ho.subset (by rw [e]; simp)) (expand_no_await .seg m w)
  have hchan : ∀ q, st.chan q = [] := by
    intro q
    by_cases hq : q = .seg
    · subst hq
      exact stuck_recv h (.seg ⟨0, hz.gse⟩) .seg rfl (hsegp _)
    · exact hseg q hq
  have hsend : ∀ t, st.prog t = [] ∨ ∃ w l, st.prog t = .await w :: l ∧ st.holds (st.seen t) w = false := by
    intro t
    rcases stuck_run h t with e | ⟨q, m, l, e, hl⟩ | e
    · exact Or.inl e
    · rw [hchan q] at hl
      have := hcap q
      simp at hl; omega
    · exact Or.inr e
  have hinit : ∀ m, st.prog (.init m) = [] := by
    intro m
    rcases hsend (.init m) with e | ⟨w, l, e, _⟩
    · exact e
    · have := hor (.init m)
      exact absurd (this.subset (by rw [e]; simp)) (start_no_await db m w)
  have hother : ∀ t, (∀ i, t ≠ .client i) → st.prog t = [] := by
    intro t ht
    cases t with
    | client i => exact absurd rfl (ht i)
    | init m => exact hinit m
    | seg j => exact hsegp j
    | idxAdd s => exact (hw (.idxAdd s) _ rfl (by simp) (hor _) (hor (.idxAdd s))).2
    | idxRem s => exact (hw (.idxRem s) _ rfl (by simp) (hor _) (hor (.idxRem s))).2
    | rankAdd s => exact (hw (.rankAdd s) _ rfl (by simp) (hor _) (hor (.rankAdd s))).2
    | rankRem s => exact (hw (.rankRem s) _ rfl (by simp) (hor _) (hor (.rankRem s))).2
    | store s => exact (hw (.store s) _ rfl (by simp) (hor _) (hor (.store s))).2
  have hspawn : st.spawned = [] := by
    cases hs : st.spawned with
    | nil => rfl
    | cons x l =>
      have := h (.bg 0) rfl
      simp [Pipe.step, hs] at this
  have hin : st.inited = true := by
    by_contra hni
    simp only [Bool.not_eq_true] at hni
    have hb := hr.initOk.before hni
    have hall : ∀ t, st.prog t = [] := by
      intro t
      by_cases ht : ∃ i, t = .client i
      · obtain ⟨i, rfl⟩ := ht; exact hb.2 i
      · exact hother t (fun i hi => ht ⟨i, hi⟩)
    have hz0 : ∀ k, (μCount c k).pending st = 0 := fun k =>
      pending_zero_of _ (fun t => by rw [hall t]; rfl) hchan hspawn
    have e1 := hr.indexed_total
    have e2 := hr.indexingReqs_total
    rw [hz0] at e1 e2
    have := h .ready rfl
    simp only [Pipe.step] at this
    split at this
    · simp at this
    · rename_i hn
      exact hn ⟨by simp [hni], hinit, fun _ => by omega⟩
  -- clients wait only in Flush
  have hflush : ∀ i w l, st.prog (.client i) = .await w :: l → .await w :: l <:+ c.call .flush := by
    intro i w l e
    obtain ⟨a, ha⟩ := hor (.client i)
    rw [e] at ha
    have := call_await ha
    subst this
    exact ha
  have hz0 : ∀ k, c.callCount k .flush = 0 → (μCount c k).pending st = 0 := by
    intro k hk
    refine pending_zero_of _ (fun t => ?_) hchan hspawn
    by_cases ht : ∃ i, t = .client i
    · obtain ⟨i, rfl⟩ := ht
      rcases hsend (.client i) with e | ⟨w, l, e, _⟩
      · rw [e]; rfl
      · have hs := hflush i w l e
        rw [e]
        have := wsum_suffix (μCount c k).w2 hs
        rw [μCount_call, hk] at this
        omega
    · rw [hother t (fun i hi => ht ⟨i, hi⟩)]; rfl
  have hle : ∀ t (w : Wait), w.left (st.seen t) ≤ w.left st.count := by
    intro t w
    cases w <;> exact hr.seen_le t _
  have w1 : ∀ t, st.holds (st.seen t) .indexed = true := by
    intro t
    refine holds_of_eq (hle t _) ?_
    have e1 := hr.indexed_total
    have e2 := hr.indexingReqs_total
    rw [hz0 _ rfl] at e1 e2
    simp only [Wait.left, PipeCfg.factor, Wait.right]; omega
  have w2 : ∀ t, st.holds (st.seen t) .removed = true := by
    intro t
    refine holds_of_eq (hle t _) ?_
    have e1 := hr.removed_total
    have e2 := hr.removingReqs_total
    rw [hz0 _ rfl] at e1 e2
    simp only [Wait.left, PipeCfg.factor, Wait.right]
    rw [Nat.add_zero] at e1 e2
    rw [e1, e2, Nat.mul_comm]
  have w3 : ∀ t, st.holds (st.seen t) .stored = true := by
    intro t
    cases hs : c.useStore with
    | false => simp [Pipe.holds, hs]
    | true =>
      refine holds_of_eq (hle t _) ?_
      have e1 := hr.stored_total hs
      have e2 := hr.indexingReqs_total
      have e3 := hr.credit hin
      rw [hz0 _ rfl] at e1 e2
      simp only [Wait.left, PipeCfg.factor, Wait.right]; omega
  have hforced : ∀ i w l, st.prog (.client i) = .await w :: l → st.holds (st.seen (.client i)) w = false → w = .forced ∧ l = [] := by
    intro i w l e hf
    have hw : w = .forced := by
      cases w
      · rw [w1] at hf; simp at hf
      · rw [w2] at hf; simp at hf
      · rw [w3] at hf; simp at hf
      · rfl
    refine ⟨hw, ?_⟩
    rcases suffix_flush (hflush i w l e) with h' | h'
    · exact absurd hw h'
    · exact h'
  have w4 : ∀ t, st.holds (st.seen t) .forced = true := by
    intro t
    refine holds_of_eq (hle t _) ?_
    have hz1 : ∀ k, (μCount c k).pending st = 0 := by
      intro k
      refine pending_zero_of _ (fun t => ?_) hchan hspawn
      by_cases ht : ∃ i, t = .client i
      · obtain ⟨i, rfl⟩ := ht
        rcases hsend (.client i) with e | ⟨w, l, e, hf⟩
        · rw [e]; rfl
        · obtain ⟨rfl, rfl⟩ := hforced i w l e hf
          rw [e]; rfl
      · rw [hother t (fun i hi => ht ⟨i, hi⟩)]; rfl
    have e1 := hr.forced_total
    rw [hz1, hz1, Nat.add_zero, Nat.add_zero, Nat.mul_comm] at e1
    simp only [Wait.left, PipeCfg.factor, Wait.right]; omega
  refine ⟨hin, fun t => ?_, hchan, hspawn⟩
  by_cases ht : ∃ i, t = .client i
  · obtain ⟨i, rfl⟩ := ht
    rcases hsend (.client i) with e | ⟨w, l, e, hf⟩
    · exact e
    · obtain ⟨rfl, _⟩ := hforced i w l e hf
      rw [w4] at hf; simp at hf
  · exact hother t (fun i hi => ht ⟨i, hi⟩)

end Riot
