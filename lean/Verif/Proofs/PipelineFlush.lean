import Verif.Proofs.PipelineCalls

/-!
# Counters follow the work they count

Each counter is incremented after the work it counts, so when all increments of a counter have
been made, all of its work has been done.
-/

namespace Riot

open Function (update)

variable {D : Type} {c : PipeCfg D}

/-- Work measured by `μ` in the list is followed by work measured by `μ'`. -/
def Follows (μ' μ : Meas c) : List (Micro c.toPipeSize D) → Prop
  | [] => True
  | x :: l => (wsum μ'.w2 (x :: l) = 0 → μ.w2 x = 0) ∧ Follows μ' μ l

theorem Follows.zero {μ' μ : Meas c} : ∀ {l : List (Micro c.toPipeSize D)}, Follows μ' μ l →
    wsum μ'.w2 l = 0 → wsum μ.w2 l = 0
  | [], _, _ => rfl
  | x :: l, h, h0 => by
    rw [wsum_cons, h.1 h0, h.2.zero (by rw [wsum_cons] at h0; omega)]

theorem Follows.append {μ' μ : Meas c} : ∀ {l l' : List (Micro c.toPipeSize D)}, Follows μ' μ l →
    Follows μ' μ l' → Follows μ' μ (l ++ l')
  | [], _, _, h => h
  | x :: l, l', h, h' => by
    refine ⟨?_, h.2.append h'⟩
    intro h0
    apply h.1
    have h1 : wsum μ'.w2 ((x :: l) ++ l') = 0 := h0
    rw [wsum_append] at h1
    omega

theorem Follows.of_elem {μ' μ : Meas c} : ∀ {l : List (Micro c.toPipeSize D)},
    (∀ x ∈ l, μ'.w2 x = 0 → μ.w2 x = 0) → Follows μ' μ l
  | [], _ => trivial
  | x :: l, h => by
    refine ⟨?_, Follows.of_elem (fun y hy => h y (by simp [hy]))⟩
    intro h0
    rw [wsum_cons] at h0
    exact h x (by simp) (by omega)

theorem Follows.flatMap {α : Type} {μ' μ : Meas c} {f : α → List (Micro c.toPipeSize D)} :
    ∀ {l : List α}, (∀ x ∈ l, Follows μ' μ (f x)) → Follows μ' μ (l.flatMap f)
  | [], _ => trivial
  | x :: l, h => by
    rw [List.flatMap_cons]
    exact (h x (by simp)).append (Follows.flatMap (fun y hy => h y (by simp [hy])))

/-- Conditions under which `μ'` always follows `μ`. -/
structure Dom (μ' μ : Meas c) : Prop where
  tick : ∀ k n, μ.w (.tick k n) = 0
  await : ∀ w, μ.w (.await w) = 0
  del : ∀ m id, μ.w (.db m (.del id)) = 0
  exp : ∀ q m, q ≠ .seg → Follows μ' μ (c.expand q m)

theorem Dom.send_ne {μ' μ : Meas c} (h : Dom μ' μ) (q : Chan c.toPipeSize) (m : Msg D) (hq : q ≠ .seg) :
    μ'.wm q m = 0 → μ.wm q m = 0 := by
  rw [← μ'.wsum_expand, ← μ.wsum_expand]
  exact (h.exp q m hq).zero

theorem Dom.expand {μ' μ : Meas c} (h : Dom μ' μ) (q : Chan c.toPipeSize) (m : Msg D) :
    Follows μ' μ (c.expand q m) := by
  by_cases hq : q = .seg
  · subst hq
    apply Follows.of_elem
    intro x hx
    obtain ⟨q', m', rfl, hq'⟩ := expand_seg m x hx
    exact h.send_ne q' m' hq'
  · exact h.exp q m hq

theorem Dom.send {μ' μ : Meas c} (h : Dom μ' μ) (q : Chan c.toPipeSize) (m : Msg D) :
    μ'.wm q m = 0 → μ.wm q m = 0 := by
  rw [← μ'.wsum_expand, ← μ.wsum_expand]
  exact (h.expand q m).zero

/-- The actions clients execute. -/
def Micro.clientOk {z : PipeSize} : Micro z D → Prop
  | .tick _ _ => True
  | .send _ _ => True
  | .await _ => True
  | .spawn _ (.del _) => True
  | _ => False

theorem internalIndex_ok (id : Str) (d : D) (f : Bool) : ∀ x ∈ c.internalIndex id d f, x.clientOk := by
  intro x hx
  simp only [PipeCfg.internalIndex, List.mem_append, List.mem_singleton] at hx
  rcases hx with (hx | hx) | rfl
  · split at hx <;> simp at hx; subst hx; trivial
  · split at hx <;> simp at hx; subst hx; trivial
  · trivial

theorem call_ok (a : Call D) : ∀ x ∈ c.call a, x.clientOk := by
  intro x hx
  cases a with
  | index id d f =>
    simp only [PipeCfg.call, List.mem_append] at hx
    rcases hx with hx | hx
    · exact internalIndex_ok id d f x hx
    · split at hx <;> simp at hx; subst hx; trivial
  | remove id f =>
    simp only [PipeCfg.call, List.mem_append, List.mem_flatMap] at hx
    rcases hx with ((hx | hx) | ⟨s, _, hx⟩) | hx
    · split at hx <;> simp at hx; subst hx; trivial
    · split at hx <;> simp at hx; subst hx; trivial
    · rcases List.mem_cons.1 hx with rfl | hx
      · trivial
      · split at hx <;> simp at hx; subst hx; trivial
    · split at hx <;> simp at hx; subst hx; trivial
  | flush =>
    simp only [PipeCfg.call, List.mem_append, List.mem_cons, List.not_mem_nil, or_false] at hx
    rcases hx with ((rfl | rfl | rfl) | hx) | rfl
    · trivial
    · trivial
    · trivial
    · exact internalIndex_ok _ _ _ x hx
    · trivial

theorem Dom.clientOk {μ' μ : Meas c} (h : Dom μ' μ) {l : List (Micro c.toPipeSize D)}
    (hl : ∀ x ∈ l, x.clientOk) : Follows μ' μ l := by
  apply Follows.of_elem
  intro x hx
  have := hl x hx
  cases x with
  | tick k n => intro _; exact h.tick k n
  | await w => intro _; exact h.await w
  | send q m => exact h.send q m
  | spawn m op =>
    cases op with
    | del id => intro _; exact h.del m id
    | set id d => exact absurd this (by simp [Micro.clientOk])
  | _ => exact absurd this (by simp [Micro.clientOk])

/-- Spawned goroutines only delete. -/
def SpawnsDelete (st : Pipe c) : Prop :=
  (∀ t m op, Micro.spawn m op ∈ st.prog t → ∃ id, op = .del id) ∧
  ∀ x ∈ st.spawned, ∃ id, x.2 = .del id

theorem start_prog_ok (db : Fin c.stores → List (Str × D)) (t : Thread c.toPipeSize) :
    ∀ x ∈ (Pipe.start c db).prog t, x.clientOk := by
  intro x hx
  cases t with
  | init m =>
    simp only [Pipe.start] at hx
    split at hx
    · obtain ⟨y, _, hy⟩ := List.mem_flatMap.1 hx
      exact internalIndex_ok _ _ _ x hy
    · simp at hx
  | _ => simp [Pipe.start] at hx

/-- What a step does to the lists of actions: some thread gets a suffix, an expansion or a call. -/
theorem step_prog (st st' : Pipe c) (a : Act c.toPipeSize D) (h : st.step a = some st')
    (t : Thread c.toPipeSize) :
    st'.prog t = st.prog t ∨ (∃ x, st.prog t = x :: st'.prog t) ∨
    (∃ q m, st'.prog t = c.expand q m ∧ st.prog t = [] ∧ t.input = some q) ∨
    (∃ i b, st'.prog t = c.call b ∧ st.prog t = [] ∧ t = .client i ∧ a = .call i b) := by
  cases a with
  | call i b =>
    simp only [Pipe.step] at h
    split at h
    · rename_i hc
      rw [← Option.some.inj h]
      by_cases ht : t = .client i
      · subst ht; right; right; right; exact ⟨i, b, by simp, hc.2, rfl, rfl⟩
      · left; simp [ht]
    · simp at h
  | run t' =>
    simp only [Pipe.step] at h
    split at h
    · simp at h
    · rename_i x l hp
      have : st'.prog = update st.prog t' l := by
        cases x <;> simp only [Pipe.exec] at h <;> first
          | (split at h <;> first | (rw [← Option.some.inj h]) | simp at h)
          | (rw [← Option.some.inj h])
      rw [this]
      by_cases ht : t = t'
      · subst ht; right; left; exact ⟨x, by simp [hp]⟩
      · left; simp [ht]
  | recv t' =>
    simp only [Pipe.step] at h
    split at h
    · simp at h
    · rename_i q hq
      split at h
      · rename_i m l hp hc
        rw [← Option.some.inj h]
        by_cases ht : t = t'
        · subst ht; right; right; left; exact ⟨q, m, by simp, hp, hq⟩
        · left; simp [ht]
      · simp at h
  | bg k =>
    simp only [Pipe.step] at h
    split at h
    · simp at h
    · rw [← Option.some.inj h]; exact Or.inl rfl
  | ready =>
    simp only [Pipe.step] at h
    split at h
    · rw [← Option.some.inj h]; exact Or.inl rfl
    · simp at h

/-- What a step does to the spawned goroutines. -/
theorem step_spawned (st st' : Pipe c) (a : Act c.toPipeSize D) (h : st.step a = some st') :
    ∀ x ∈ st'.spawned, x ∈ st.spawned ∨ ∃ t, Micro.spawn x.1 x.2 ∈ st.prog t := by
  intro x hx
  cases a with
  | call i b =>
    simp only [Pipe.step] at h
    split at h
    · rw [← Option.some.inj h] at hx; exact Or.inl hx
    · simp at h
  | run t' =>
    simp only [Pipe.step] at h
    split at h
    · simp at h
    · rename_i y l hp
      cases y with
      | spawn m op =>
        simp only [Pipe.exec] at h
        rw [← Option.some.inj h] at hx
        simp only [List.mem_append, List.mem_singleton] at hx
        rcases hx with hx | rfl
        · exact Or.inl hx
        · right; exact ⟨t', by simp [hp]⟩
      | send q m =>
        simp only [Pipe.exec] at h
        split at h
        · rw [← Option.some.inj h] at hx; exact Or.inl hx
        · simp at h
      | await w =>
        simp only [Pipe.exec] at h
        split at h
        · rw [← Option.some.inj h] at hx; exact Or.inl hx
        · simp at h
      | _ =>
        simp only [Pipe.exec] at h
        rw [← Option.some.inj h] at hx; exact Or.inl hx
  | recv t' =>
    simp only [Pipe.step] at h
    split at h
    · simp at h
    · split at h
      · rw [← Option.some.inj h] at hx; exact Or.inl hx
      · simp at h
  | bg k =>
    simp only [Pipe.step] at h
    split at h
    · simp at h
    · rw [← Option.some.inj h] at hx
      exact Or.inl (List.mem_of_mem_eraseIdx hx)
  | ready =>
    simp only [Pipe.step] at h
    split at h
    · rw [← Option.some.inj h] at hx; exact Or.inl hx
    · simp at h

theorem expand_no_spawn (q : Chan c.toPipeSize) (m : Msg D) (s : Fin c.stores) (op : DbOp D) :
    Micro.spawn s op ∉ c.expand q m := by
  intro hx
  by_cases hq : q = .seg
  · subst hq
    obtain ⟨_, _, h, _⟩ := expand_seg m _ hx
    simp at h
  · have := expand_simple hq m _ hx
    simp [Micro.simple] at this

theorem spawnsDelete_step (st st' : Pipe c) (a : Act c.toPipeSize D) (h : st.step a = some st')
    (hi : SpawnsDelete st) : SpawnsDelete st' := by
  refine ⟨?_, ?_⟩
  · intro t m op hm
    rcases step_prog st st' a h t with e | ⟨x, e⟩ | ⟨q, msg, e, _⟩ | ⟨i, b, e, _⟩
    · rw [e] at hm; exact hi.1 t m op hm
    · exact hi.1 t m op (by rw [e]; simp [hm])
    · rw [e] at hm; exact absurd hm (expand_no_spawn q msg m op)
    · rw [e] at hm
      have := call_ok b _ hm
      cases op with
      | del id => exact ⟨id, rfl⟩
      | set id d => simp [Micro.clientOk] at this
  · intro x hx
    rcases step_spawned st st' a h x hx with h' | ⟨t, h'⟩
    · exact hi.2 x h'
    · exact hi.1 t _ _ h'

theorem follows_step {μ' μ : Meas c} (hd : Dom μ' μ) (st st' : Pipe c) (a : Act c.toPipeSize D)
    (h : st.step a = some st') (hi : ∀ t, Follows μ' μ (st.prog t)) :
    ∀ t, Follows μ' μ (st'.prog t) := by
  intro t
  rcases step_prog st st' a h t with e | ⟨x, e⟩ | ⟨q, msg, e, _⟩ | ⟨i, b, e, _⟩
  · rw [e]; exact hi t
  · have := hi t; rw [e] at this; exact this.2
  · rw [e]; exact hd.expand q msg
  · rw [e]; exact hd.clientOk (call_ok b)

theorem run_induction {P : Pipe c → Prop}
    (hs : ∀ st a st', P st → st.step a = some st' → P st') :
    ∀ (as : List (Act c.toPipeSize D)) (st st' : Pipe c), P st → st.run as = some st' → P st'
  | [], st, st', h0, h => by simp only [Pipe.run, Option.some.injEq] at h; subst h; exact h0
  | a :: as, st, st', h0, h => by
    simp only [Pipe.run] at h
    obtain ⟨s1, h1, h2⟩ := Option.bind_eq_some_iff.1 h
    exact run_induction hs as s1 st' (hs st a s1 h0 h1) h2

theorem run_append (st : Pipe c) (as bs : List (Act c.toPipeSize D)) :
    st.run (as ++ bs) = (st.run as).bind (fun s => s.run bs) := by
  induction as generalizing st with
  | nil => rfl
  | cons a as ih =>
    simp only [List.cons_append, Pipe.run, Option.bind_assoc]
    congr 1; ext s1; rw [ih]

/-- When all increments of `μ'` have been made, all work of `μ` has been done. -/
theorem Dom.pending_zero {μ' μ : Meas c} (hd : Dom μ' μ) (db : Fin c.stores → List (Str × D))
    (as : List (Act c.toPipeSize D)) (st : Pipe c) (h : (Pipe.start c db).run as = some st)
    (h0 : μ'.pending st = 0) : μ.pending st = 0 := by
  have h1 : ∀ t, Follows μ' μ (st.prog t) :=
    run_induction (P := fun st => ∀ t, Follows μ' μ (st.prog t))
      (fun st a st' hi hs => follows_step hd st st' a hs hi) as _ st
      (fun t => hd.clientOk (start_prog_ok db t)) h
  have h2 : SpawnsDelete st :=
    run_induction (P := SpawnsDelete)
      (fun st a st' hi hs => spawnsDelete_step st st' a hs hi) as _ st
      ⟨fun t m op hm => by
        have := start_prog_ok db t _ hm
        cases op with
        | del id => exact ⟨id, rfl⟩
        | set id d => simp [Micro.clientOk] at this,
       by simp [Pipe.start]⟩ h
  unfold Meas.pending at h0 ⊢
  have e1 : ∑ t, wsum μ'.w2 (st.prog t) = 0 := by omega
  have e2 : ∑ q, wsum (μ'.wm q) (st.chan q) = 0 := by omega
  rw [Finset.sum_eq_zero_iff] at e1 e2
  have f1 : ∑ t, wsum μ.w2 (st.prog t) = 0 :=
    Finset.sum_eq_zero (fun t ht => (h1 t).zero (e1 t ht))
  have f2 : ∑ q, wsum (μ.wm q) (st.chan q) = 0 := by
    apply Finset.sum_eq_zero
    intro q hq
    rw [wsum_eq_zero]
    intro m hm
    exact hd.send q m (wsum_eq_zero.1 (e2 q hq) m hm)
  have f3 : wsum (fun x => μ.w (.db x.1 x.2)) st.spawned = 0 := by
    rw [wsum_eq_zero]
    intro x hx
    obtain ⟨id, hid⟩ := h2.2 x hx
    rw [hid]; exact hd.del x.1 id
  rw [f1, f2, f3]

/-- Adds are executed before they are counted. -/
theorem dom_add (s : Fin c.shards) (p : IdxOp → Bool) (hp : ∀ op, p op = true → ∃ d f, op = .add d f) :
    Dom (μCount c .indexed) (μIdx c s p) where
  tick _ _ := rfl
  await _ := rfl
  del _ _ := rfl
  exp q m hq := by
    have hfl : ∀ f, p (.flush f) = false := by
      intro f; cases h : p (.flush f) with
      | false => rfl
      | true => obtain ⟨_, _, h'⟩ := hp _ h; simp at h'
    have hrm : ∀ id f, p (.remove id f) = false := by
      intro id f; cases h : p (.remove id f) with
      | false => rfl
      | true => obtain ⟨_, _, h'⟩ := hp _ h; simp at h'
    cases q with
    | seg => exact absurd rfl hq
    | idxAdd s' =>
      cases m with
      | add doc f =>
        cases doc with
        | none =>
          apply Follows.of_elem
          cases f <;> simp [PipeCfg.expand, Meas.w2, μIdx, hfl]
        | some x =>
          cases f <;> simp [PipeCfg.expand, Follows, Meas.w2, μIdx, μCount]
      | _ => trivial
    | idxRem s' =>
      cases m with
      | rem id f =>
        apply Follows.of_elem
        intro x hx
        simp only [PipeCfg.expand, List.mem_append, List.mem_cons] at hx
        rcases hx with (rfl | hx) | hx
        · simp [Meas.w2, μIdx, hrm]
        · split at hx <;> simp at hx; subst hx; simp [Meas.w2, μIdx]
        · split at hx <;> simp at hx; subst hx; simp [Meas.w2, μIdx]
      | _ => trivial
    | rankAdd s' => cases m <;> simp [PipeCfg.expand, Follows, Meas.w2, μIdx]
    | rankRem s' => cases m <;> simp [PipeCfg.expand, Follows, Meas.w2, μIdx]
    | store s' =>
      cases m with
      | store id d =>
        apply Follows.of_elem
        intro x hx
        simp only [PipeCfg.expand] at hx
        split at hx <;> simp at hx <;> rcases hx with rfl | rfl <;> simp [Meas.w2, μIdx]
      | _ => trivial

/-- Removals of real ids are executed before they are counted. -/
theorem dom_rem (s : Fin c.shards) (p : IdxOp → Bool)
    (hp : ∀ op, p op = true → ∃ id f, op = .remove id f ∧ id ≠ str "0") :
    Dom (μCount c .removed) (μIdx c s p) where
  tick _ _ := rfl
  await _ := rfl
  del _ _ := rfl
  exp q m hq := by
    have hfl : ∀ f, p (.flush f) = false := by
      intro f; cases h : p (.flush f) with
      | false => rfl
      | true => obtain ⟨_, _, h', _⟩ := hp _ h; simp at h'
    have had : ∀ d f, p (.add d f) = false := by
      intro id f; cases h : p (.add id f) with
      | false => rfl
      | true => obtain ⟨_, _, h', _⟩ := hp _ h; simp at h'
    have h0 : ∀ f, p (.remove (str "0") f) = false := by
      intro f; cases h : p (.remove (str "0") f) with
      | false => rfl
      | true =>
        obtain ⟨_, _, h', h''⟩ := hp _ h
        simp only [IdxOp.remove.injEq] at h'; exact absurd h'.1.symm h''
    cases q with
    | seg => exact absurd rfl hq
    | idxAdd s' =>
      cases m with
      | add doc f =>
        apply Follows.of_elem
        cases doc with
        | none => cases f <;> simp [PipeCfg.expand, Meas.w2, μIdx, hfl]
        | some x => cases f <;> simp [PipeCfg.expand, Meas.w2, μIdx, had]
      | _ => trivial
    | idxRem s' =>
      cases m with
      | rem id f =>
        by_cases hid : id = str "0"
        · cases f <;> simp [PipeCfg.expand, Follows, Meas.w2, μIdx, hid, h0]
        · cases f <;> simp [PipeCfg.expand, Follows, Meas.w2, μIdx, μCount, hid]
      | _ => trivial
    | rankAdd s' => cases m <;> simp [PipeCfg.expand, Follows, Meas.w2, μIdx]
    | rankRem s' => cases m <;> simp [PipeCfg.expand, Follows, Meas.w2, μIdx]
    | store s' =>
      cases m with
      | store id d =>
        apply Follows.of_elem
        intro x hx
        simp only [PipeCfg.expand] at hx
        split at hx <;> simp at hx <;> rcases hx with rfl | rfl <;> simp [Meas.w2, μIdx]
      | _ => trivial

/-- Forced operations are executed before they are counted. -/
theorem dom_forced (s : Fin c.shards) (p : IdxOp → Bool)
    (hp : ∀ op, p op = true → op.force = true) :
    Dom (μCount c .forced) (μIdx c s p) where
  tick _ _ := rfl
  await _ := rfl
  del _ _ := rfl
  exp q m hq := by
    have hf : ∀ op : IdxOp, op.force = false → p op = false := by
      intro op ho; cases h : p op with
      | false => rfl
      | true => rw [hp op h] at ho; simp at ho
    have h1 : p (.flush false) = false := hf _ rfl
    have h2 : ∀ id, p (.remove id false) = false := fun _ => hf _ rfl
    have h3 : ∀ d, p (.add d false) = false := fun _ => hf _ rfl
    cases q with
    | seg => exact absurd rfl hq
    | idxAdd s' =>
      cases m with
      | add doc f =>
        cases doc with
        | none => cases f <;> simp [PipeCfg.expand, Follows, Meas.w2, μIdx, μCount, h1]
        | some x => cases f <;> simp [PipeCfg.expand, Follows, Meas.w2, μIdx, μCount, h3]
      | _ => trivial
    | idxRem s' =>
      cases m with
      | rem id f =>
        by_cases hid : id = str "0" <;>
          cases f <;> simp [PipeCfg.expand, Follows, Meas.w2, μIdx, μCount, hid, h2]
      | _ => trivial
    | rankAdd s' => cases m <;> simp [PipeCfg.expand, Follows, Meas.w2, μIdx]
    | rankRem s' => cases m <;> simp [PipeCfg.expand, Follows, Meas.w2, μIdx]
    | store s' =>
      cases m with
      | store id d =>
        apply Follows.of_elem
        intro x hx
        simp only [PipeCfg.expand] at hx
        split at hx <;> simp at hx <;> rcases hx with rfl | rfl <;> simp [Meas.w2, μIdx]
      | _ => trivial

/-- Documents are written to the database before they are counted. -/
theorem dom_stored (m : Fin c.stores) (p : DbOp D → Bool) (hp : ∀ op, p op = true → ∃ id d, op = .set id d) :
    Dom (μCount c .stored) (μDb c m p) where
  tick _ _ := rfl
  await _ := rfl
  del m' id := by
    have : p (.del id) = false := by
      cases h : p (.del id) with
      | false => rfl
      | true => obtain ⟨_, _, h'⟩ := hp _ h; simp at h'
    simp [μDb, this]
  exp q msg hq := by
    cases q with
    | seg => exact absurd rfl hq
    | idxAdd s' =>
      cases msg with
      | add doc f =>
        apply Follows.of_elem
        cases doc <;> cases f <;> simp [PipeCfg.expand, Meas.w2, μDb]
      | _ => trivial
    | idxRem s' =>
      cases msg with
      | rem id f =>
        by_cases hid : id = str "0" <;> cases f <;> simp [PipeCfg.expand, Follows, Meas.w2, μDb, hid]
      | _ => trivial
    | rankAdd s' => cases msg <;> simp [PipeCfg.expand, Follows, Meas.w2, μDb]
    | rankRem s' => cases msg <;> simp [PipeCfg.expand, Follows, Meas.w2, μDb]
    | store s' =>
      cases msg with
      | store id d =>
        cases he : c.encodes d <;> simp [PipeCfg.expand, Follows, Meas.w2, μDb, μCount, he]
      | _ => trivial

end Riot
