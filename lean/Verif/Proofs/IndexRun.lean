import Verif.Proofs.Cache
import Mathlib.Data.List.Induction

/-! # Histories of index calls -/

namespace Riot

theorem Indexer.run_append (so : Sorter) (s : Indexer) (h1 h2 : List IdxOp) :
    s.run so (h1 ++ h2) = (s.run so h1).bind (fun s' => s'.run so h2) := by
  induction h1 generalizing s with
  | nil => simp [Indexer.run]
  | cons op ops ih =>
    simp only [List.cons_append, Indexer.run]
    cases s.step so op with
    | none => simp
    | some s' => simp [ih]

theorem Indexer.run_snoc (so : Sorter) (s : Indexer) (h : List IdxOp) (op : IdxOp) :
    s.run so (h ++ [op]) = (s.run so h).bind (fun s' => s'.step so op) := by
  rw [Indexer.run_append]
  congr 1
  funext s'
  simp only [Indexer.run]
  cases s'.step so op <;> rfl

/-- `RemoveDocToCache` never panics, and hides exactly its document. -/
theorem removeDocToCache_spec {so : Sorter} (hso : SortOk so) {s : Indexer}
    {known : GoMap DocIndex} (hi : Inv s known) (id : Str) (force : Bool) :
    ∃ s' b known', s.removeDocToCache so id force = some (s', b) ∧ Inv s' known' ∧
      AbsStep (.remove id force) (absOf s known) (absOf s' known') ∧ s'.opts = s.opts ∧
      s'.addCache = s.addCache ∧ Kept known known' s' := by
  -- registration
  obtain ⟨s1, hreg, hcore, hst, hrm, hnd, hlen, hop, hadd⟩ : ∃ s1, registerRemoval s id = some s1 ∧
      Core s1 known ∧
      (∀ d, s1.docsState.get d =
        if d = id ∧ id ≠ str "0" ∧ s.docsState.get d = some 0 then some 1 else s.docsState.get d) ∧
      (∀ d, s1.docsState.get d = some 1 ↔ d ∈ s1.removeCache) ∧ s1.removeCache.Nodup ∧
      s1.removeCache.length ≤ s.opts.docCacheSize ∧
      s1.opts = s.opts ∧ s1.addCache = s.addCache := by
    have hl := hi.rmLen
    by_cases h0 : id ≠ str "0"
    · by_cases hs0 : s.docsState.get id = some 0
      · have hcap : s.removeCache.length < 2 * s.opts.docCacheSize := by omega
        refine ⟨{ s with
            removeCache := s.removeCache ++ [id]
            docsState := s.docsState.set id 1
            numDocs := s.numDocs - 1 }, ?_, ?_, ?_, ?_, ?_, ?_, rfl, rfl⟩
        · simp [registerRemoval, h0, hs0, hcap]
        · refine ⟨hi.core.table, hi.core.ok, hi.core.lens, hi.core.total, ?_, ?_⟩
          · show s.numDocs - 1 = (((s.docsState.set id 1).count (· == 0) : Nat) : Int)
            rw [count_set_from_zero _ _ hs0, hi.core.num]
          · intro d
            show _ ↔ (s.docsState.set id 1).get d = some 0 ∨ (s.docsState.set id 1).get d = some 1
            rw [GoMap.get_set, hi.core.state d]
            by_cases hd : d = id
            · simp [hd, hs0]
            · simp [hd]
        · intro d
          show (s.docsState.set id 1).get d = _
          rw [GoMap.get_set]
          by_cases hd : d = id
          · simp [hd, h0, hs0]
          · simp [hd]
        · intro d
          show (s.docsState.set id 1).get d = some 1 ↔ d ∈ s.removeCache ++ [id]
          rw [GoMap.get_set]
          by_cases hd : d = id
          · simp [hd]
          · simp [hd, hi.rm d]
        · show (s.removeCache ++ [id]).Nodup
          rw [List.nodup_append]
          refine ⟨hi.rmNodup, by simp, ?_⟩
          intro a ha b hb
          simp only [List.mem_singleton] at hb
          subst hb
          rintro rfl
          have := (hi.rm a).2 ha
          rw [hs0] at this; simp at this
        · simp; omega
      · refine ⟨s, ?_, hi.core, ?_, hi.rm, hi.rmNodup, by omega, rfl, rfl⟩
        · cases hs : s.docsState.get id with
          | none => simp [registerRemoval, hs]
          | some v =>
            rcases hi.st01 _ _ hs with rfl | rfl
            · exact absurd hs hs0
            · simp [registerRemoval, hs]
        · intro d
          by_cases hd : d = id
          · subst hd; simp [hs0]
          · simp [hd]
    · refine ⟨s, ?_, hi.core, ?_, hi.rm, hi.rmNodup, by omega, rfl, rfl⟩
      · simp only [ne_eq, not_not] at h0
        simp [registerRemoval, h0]
      · intro d; simp only [ne_eq, not_not] at h0; simp [h0]
  have hst01 : ∀ d v, s1.docsState.get d = some v → v = 0 ∨ v = 1 := by
    intro d v hv
    rw [hst] at hv
    split at hv
    · right; exact (Option.some.inj hv).symm
    · exact hi.st01 d v hv
  by_cases hfl : s1.removeCache.length > 0 ∧
      (s1.removeCache.length ≥ s1.opts.docCacheSize ∨ force = true)
  · have hpermids := hso.ids_perm s1.removeCache
    obtain ⟨s2, hr1, hr2, hr3, hr4, hr5, hr6⟩ := removeDocs_spec
      (s := { s1 with removeCache := [] }) (known := known) (so.ids s1.removeCache)
      ⟨hcore.table, hcore.ok, hcore.lens, hcore.total, hcore.num, hcore.state⟩
      (hso.ids_sorted _) (by
        intro d hd
        show s1.docsState.get d ≠ some 0
        rw [(hrm d).2 (hpermids.mem_iff.1 hd)]; simp)
    have hr3' : ∀ d, s2.docsState.get d =
        if d ∈ s1.removeCache then none else s1.docsState.get d := by
      intro d; rw [hr3]; simp only [hpermids.mem_iff]
    refine ⟨s2, true, known.delAll (so.ids s1.removeCache), ?_, ?_, ?_, by rw [hr4]; exact hop,
      by rw [hr5]; exact hadd, ?_⟩
    · simp only [Indexer.removeDocToCache, hreg, bind, Option.bind, if_pos hfl, hr1, pure]
    · refine ⟨hr2, ?_, ?_, ?_, ?_, ?_, ?_⟩
      · intro d v hv
        rw [hr3'] at hv
        split at hv
        · simp at hv
        · exact hst01 d v hv
      · intro d
        rw [hr3', hr6]
        split
        · simp
        · rename_i hn; rw [hrm]; simp [hn]
      · rw [hr6]; simp
      · rw [hr6, hr4]; show 0 < s1.opts.docCacheSize
        rw [hop]; have := hi.rmLen; omega
      · rw [hr4, hr5]; show s1.addCache.length ≤ s1.opts.docCacheSize
        rw [hop, hadd]; exact hi.addLen
      · rw [hr5]; show ∀ doc ∈ s1.addCache, _
        rw [hadd]; exact hi.addOk
    · refine ⟨?_, ?_⟩
      · intro d
        simp only [absOf, hr3', GoMap.get_delAll, hpermids.mem_iff]
        by_cases hin : d ∈ s1.removeCache
        · have h1 := (hrm d).2 hin
          rw [hst] at h1
          simp only [hin, if_true]
          split at h1
          · rename_i hc; simp [hc.1, hc.2.1]
          · simp [h1]
        · have h1 : ¬ (d = id ∧ id ≠ str "0" ∧ s.docsState.get d = some 0) := by
            intro hc
            apply hin
            rw [← hrm, hst, if_pos hc]
          simp only [hin, if_false, hst, if_neg h1]
          by_cases hc : d = id ∧ id ≠ str "0"
          · rw [if_pos hc]
            have : s.docsState.get d ≠ some 0 := fun h => h1 ⟨hc.1, hc.2, h⟩
            simp [this]
          · rw [if_neg hc]
      · intro d x
        simp only [absOf, hr5]
        show x ∈ s1.addCache ∧ _ ↔ _
        rw [hadd]
    · intro d x hx
      right
      rw [GoMap.get_delAll] at hx
      split at hx
      · simp at hx
      · exact hx
  · refine ⟨s1, false, known, ?_, ?_, ?_, hop, hadd, fun d x hx => .inr hx⟩
    · simp only [Indexer.removeDocToCache, hreg, bind, Option.bind, if_neg hfl, pure]
    · refine ⟨hcore, hst01, hrm, hnd, ?_, ?_, ?_⟩
      · have h0 := hi.rmLen
        by_contra hc
        exact hfl ⟨by rw [hop] at hc; omega, Or.inl (by omega)⟩
      · rw [hadd, hop]; exact hi.addLen
      · rw [hadd]; exact hi.addOk
    · refine ⟨?_, ?_⟩
      · intro d
        simp only [absOf, hst]
        by_cases hc : d = id ∧ id ≠ str "0"
        · rw [if_pos hc]
          by_cases h0 : s.docsState.get d = some 0
          · obtain ⟨rfl, hc2⟩ := hc
            simp [hc2, h0]
          · simp [h0]
        · rw [if_neg hc]
          have : ¬ (d = id ∧ id ≠ str "0" ∧ s.docsState.get d = some 0) :=
            fun h => hc ⟨h.1, h.2.1⟩
          simp only [if_neg this]
      · intro d x; simp only [absOf, hadd]

theorem AbsCommit.refl_of_not_force (a : AbsIndex) : AbsCommit false a a := by
  intro d; left; simp

theorem Inv.push {s : Indexer} {known : GoMap DocIndex} (hi : Inv s known) (doc : DocIndex)
    (hok : doc.Ok) (hl : s.addCache.length < s.opts.docCacheSize) :
    Inv { s with addCache := s.addCache ++ [doc] } known := by
  refine ⟨⟨hi.core.table, hi.core.ok, hi.core.lens, hi.core.total, hi.core.num, hi.core.state⟩,
    hi.st01, hi.rm, hi.rmNodup, hi.rmLen, ?_, ?_⟩
  · simp; omega
  · intro x hx
    simp only [List.mem_append, List.mem_singleton] at hx
    rcases hx with hx | rfl
    · exact hi.addOk x hx
    · exact hok

theorem AbsCommit.congr_left {f : Bool} {a a' b : AbsIndex} (h : AbsCommit f a b)
    (hv : ∀ d, a'.vis d = a.vis d) (hp : ∀ d x, a'.pend d x ↔ a.pend d x) : AbsCommit f a' b := by
  intro d
  simp only [hv, hp]
  exact h d

/-- One call on a state satisfying the invariant: the only panic is an add to a full cache
(left full by a size-triggered refresh); otherwise the call refines the abstract step. -/
theorem step_spec {so : Sorter} (hso : SortOk so) {s : Indexer} {known : GoMap DocIndex}
    (hi : Inv s known) (op : IdxOp) (hop : OpOk op)
    (hroom : (∃ doc f, op = .add doc f) → s.addCache.length < s.opts.docCacheSize) :
    ∃ s' known', s.step so op = some s' ∧ Inv s' known' ∧
      AbsStep op (absOf s known) (absOf s' known') ∧ s'.opts = s.opts ∧ Kept known known' s' := by
  cases op with
  | remove id f =>
    obtain ⟨s', b, known', h1, h2, h3, h4, h5, h6⟩ := removeDocToCache_spec hso hi id f
    exact ⟨s', known', by simp [Indexer.step, h1], h2, h3, h4, h6⟩
  | flush f =>
    by_cases hc : s.addCache.length ≥ s.opts.docCacheSize ∨ f = true
    · obtain ⟨s', known', h1, h2, h3, h4, _, _, h6⟩ := flushAdds_spec hso hi f
      refine ⟨s', known', ?_, h2, h3, h4, h6⟩
      simp only [Indexer.step, Indexer.addDocToCache, bind, Option.bind, if_pos hc, h1]
    · refine ⟨s, known, ?_, hi, ?_, rfl, fun d x hx => .inr hx⟩
      · simp only [Indexer.step, Indexer.addDocToCache, bind, Option.bind, if_neg hc, pure]
      · have : f = false := by
          cases f with
          | false => rfl
          | true => exact absurd (Or.inr rfl) hc
        subst this
        exact AbsCommit.refl_of_not_force _
  | add doc f =>
    have hl := hroom ⟨doc, f, rfl⟩
    have hi1 := hi.push doc hop hl
    have hpend : ∀ d x, (absOf { s with addCache := s.addCache ++ [doc] } known).pend d x ↔
        ((absOf s known).pend d x ∨ (x = doc ∧ d = doc.docId)) := by
      intro d x
      simp only [absOf, List.mem_append, List.mem_singleton]
      constructor
      · rintro ⟨h | h, h2⟩
        · exact Or.inl ⟨h, h2⟩
        · exact Or.inr ⟨h, by rw [← h2, h]⟩
      · rintro (⟨h, h2⟩ | ⟨h, h2⟩)
        · exact ⟨Or.inl h, h2⟩
        · exact ⟨Or.inr h, by rw [h, h2]⟩
    by_cases hc : (s.addCache ++ [doc]).length ≥ s.opts.docCacheSize ∨ f = true
    · obtain ⟨s', known', h1, h2, h3, h4, _, _, h6⟩ := flushAdds_spec hso hi1 f
      refine ⟨s', known', ?_, h2, ?_, h4, h6⟩
      · simp only [Indexer.step, Indexer.addDocToCache, bind, Option.bind, if_pos hl, if_pos hc, h1]
      · exact h3.congr_left (fun _ => rfl) (fun d x => (hpend d x).symm)
    · refine ⟨_, known, ?_, hi1, ?_, rfl, fun d x hx => .inr hx⟩
      · simp only [Indexer.step, Indexer.addDocToCache, bind, Option.bind, if_pos hl, if_neg hc, pure]
      · have : f = false := by
          cases f with
          | false => rfl
          | true => exact absurd (Or.inr rfl) hc
        subst this
        exact (AbsCommit.refl_of_not_force _).congr_left (fun _ => rfl) (fun d x => (hpend d x).symm)

/-- An add to a full cache panics. -/
theorem step_full {so : Sorter} {s : Indexer} (doc : DocIndex) (f : Bool)
    (h : ¬ s.addCache.length < s.opts.docCacheSize) : s.step so (.add doc f) = none := by
  simp only [Indexer.step, Indexer.addDocToCache, bind, Option.bind, if_neg h]

/-- Every state reached by a history satisfies the invariant. -/
theorem run_inv {so : Sorter} (hso : SortOk so) (o : IndexerOpts) (h : List IdxOp)
    (hok : ∀ op ∈ h, OpOk op) (s : Indexer) (hr : (Indexer.init o).run so h = some s) :
    s.opts = o.init ∧ ∃ known, Inv s known := by
  induction h using List.reverseRecOn generalizing s with
  | nil =>
    simp only [Indexer.run, Option.some.injEq] at hr
    subst hr
    exact ⟨rfl, .empty, Inv.init o⟩
  | append_singleton h op ih =>
    rw [Indexer.run_snoc, Option.bind_eq_some_iff] at hr
    obtain ⟨s0, hr0, hstep⟩ := hr
    obtain ⟨ho, known0, hi0⟩ := ih (fun x hx => hok x (by simp [hx])) s0 hr0
    obtain ⟨s', known', h1, h2, h3, h4, _⟩ := step_spec hso hi0 op (hok op (by simp)) (by
      rintro ⟨doc, f, rfl⟩
      by_contra hc
      rw [step_full doc f hc] at hstep; simp at hstep)
    rw [h1, Option.some.injEq] at hstep
    subst hstep
    exact ⟨by rw [h4, ho], known', h2⟩

/-- One panic-free call from an arbitrary invariant state is an abstract step. -/
theorem step_refines {so : Sorter} (hso : SortOk so) {s s' : Indexer} {known : GoMap DocIndex}
    (hi : Inv s known) (op : IdxOp) (hop : OpOk op) (h : s.step so op = some s') :
    ∃ known', Inv s' known' ∧ AbsStep op (absOf s known) (absOf s' known') := by
  obtain ⟨s1, known', h1, h2, h3, _⟩ := step_spec hso hi op hop (by
    rintro ⟨doc, f, rfl⟩
    by_contra hc
    rw [step_full doc f hc] at h; simp at h)
  rw [h1, Option.some.injEq] at h
  subst h
  exact ⟨known', h2, h3⟩

theorem AbsCommit.pend_sub {f : Bool} {a b : AbsIndex} (h : AbsCommit f a b) {d : Str} {x : DocIndex}
    (hx : b.pend d x) : a.pend d x := by
  rcases h d with ⟨_, h2, _⟩ | ⟨_, _, _, h2⟩ | ⟨v, _, _, h2⟩
  · exact (h2 x).1 hx
  · exact (h2 x).1 hx
  · exact absurd hx (h2 x)

theorem AbsCommit.forced {a b : AbsIndex} (h : AbsCommit true a b) (d : Str) (x : DocIndex) :
    ¬ b.pend d x := by
  rcases h d with ⟨_, h2, h3⟩ | ⟨h1, _⟩ | ⟨v, _, _, h2⟩
  · rw [h2]; exact h3 rfl x
  · simp at h1
  · exact h2 x

/-- Simulation relation between a disciplined history and the state it produces. -/
structure DiscRel (h : List IdxOp) (s : Indexer) (known : GoMap DocIndex) : Prop where
  inv : Inv s known
  room : s.addCache.length < s.opts.docCacheSize
  nodup : (s.addCache.map (·.docId)).Nodup
  pend : ∀ d x, (absOf s known).pend d x → ideal h d = some x
  vis : ∀ d, (∀ x, ¬ (absOf s known).pend d x) → (absOf s known).vis d = ideal h d
  since : ∀ x ∈ s.addCache, ∃ h1 h2, h = h1 ++ .add x false :: h2 ∧ ∀ c ∈ h2, c.refreshes = false

theorem ideal_snoc (h : List IdxOp) (op : IdxOp) : ideal (h ++ [op]) = idealStep (ideal h) op := by
  simp [ideal, List.foldl_append]

theorem Disciplined.init {h : List IdxOp} {op : IdxOp} (hd : Disciplined (h ++ [op])) :
    Disciplined h := by
  refine ⟨?_, fun f hf => hd.2 f (by simp [hf])⟩
  intro h1 a h2 b h3 he hc
  exact hd.1 h1 a h2 b (h3 ++ [op]) (by simp [he]) hc

/-- An operation at the end of a disciplined history does not touch a pending document. -/
theorem DiscRel.fresh {h : List IdxOp} {s : Indexer} {known : GoMap DocIndex} {op : IdxOp}
    (hr : DiscRel h s known) (hd : Disciplined (h ++ [op])) {d : Str} (hid : op.id? = some d)
    (x : DocIndex) : ¬ (absOf s known).pend d x := by
  rintro ⟨hx, rfl⟩
  obtain ⟨h1, h2, he, hno⟩ := hr.since x hx
  rcases hd.1 h1 (.add x false) h2 op [] (by rw [he]) ⟨x, false, rfl, hid⟩ with h | ⟨c, hc, hc2⟩
  · simp [IdxOp.refreshes] at h
  · rw [hno c hc] at hc2; simp at hc2

theorem not_refreshes_since {h : List IdxOp} {x : DocIndex} {op : IdxOp} (hop : op.refreshes = false)
    (hs : ∃ h1 h2, h = h1 ++ .add x false :: h2 ∧ ∀ c ∈ h2, c.refreshes = false) :
    ∃ h1 h2, h ++ [op] = h1 ++ .add x false :: h2 ∧ ∀ c ∈ h2, c.refreshes = false := by
  obtain ⟨h1, h2, he, hno⟩ := hs
  refine ⟨h1, h2 ++ [op], by simp [he], ?_⟩
  intro c hc
  simp only [List.mem_append, List.mem_singleton] at hc
  rcases hc with hc | rfl
  · exact hno c hc
  · exact hop

/-- A disciplined history never panics and keeps the simulation. -/
theorem disciplined_run {so : Sorter} (hso : SortOk so) (o : IndexerOpts) (h : List IdxOp)
    (hok : ∀ op ∈ h, OpOk op) (hd : Disciplined h) :
    ∃ s known, (Indexer.init o).run so h = some s ∧ DiscRel h s known := by
  induction h using List.reverseRecOn with
  | nil =>
    refine ⟨Indexer.init o, .empty, rfl, Inv.init o, (Inv.init o).rmLen, ?_, ?_, ?_, ?_⟩
    · simp [Indexer.init]
    · simp [absOf, Indexer.init]
    · simp [absOf, Indexer.init, ideal]
    · simp [Indexer.init]
  | append_singleton h op ih =>
    obtain ⟨s, known, hrun, hrel⟩ := ih (fun x hx => hok x (by simp [hx])) hd.init
    have hopok := hok op (by simp)
    cases hopc : op with
    | remove id f =>
      subst hopc
      obtain ⟨s', b, known', h1, h2, h3, h4, h5, _⟩ := removeDocToCache_spec hso hrel.inv id f
      have hid0 : id ≠ str "0" := by
        rintro rfl
        exact hd.2 f (by simp)
      have hpend' : ∀ d x, (absOf s' known').pend d x ↔ (absOf s known).pend d x := h3.2
      refine ⟨s', known', ?_, h2, by rw [h4, h5]; exact hrel.room, by rw [h5]; exact hrel.nodup,
        ?_, ?_, ?_⟩
      · rw [Indexer.run_snoc, hrun]; simp [Indexer.step, h1]
      · intro d x hx
        rw [hpend'] at hx
        rw [ideal_snoc]
        simp only [idealStep]
        rw [if_neg, hrel.pend d x hx]
        rintro rfl
        exact hrel.fresh hd rfl x hx
      · intro d hno
        rw [ideal_snoc, h3.1 d]
        simp only [idealStep]
        by_cases hdi : d = id
        · simp [hdi, hid0]
        · rw [if_neg (fun h => hdi h.1), if_neg hdi]
          exact hrel.vis d (fun x hx => hno x ((hpend' d x).2 hx))
      · intro x hx
        rw [h5] at hx
        exact not_refreshes_since rfl (hrel.since x hx)
    | flush f =>
      subst hopc
      have hideal : ideal (h ++ [.flush f]) = ideal h := by rw [ideal_snoc]; rfl
      have hnofull : ¬ s.addCache.length ≥ s.opts.docCacheSize := by have := hrel.room; omega
      cases f with
      | false =>
        refine ⟨s, known, ?_, hrel.inv, hrel.room, hrel.nodup, ?_, ?_, ?_⟩
        · rw [Indexer.run_snoc, hrun]
          simp [Indexer.step, Indexer.addDocToCache, hnofull]
        · rw [hideal]; exact hrel.pend
        · rw [hideal]; exact hrel.vis
        · intro x hx; exact not_refreshes_since rfl (hrel.since x hx)
      | true =>
        obtain ⟨s', known', h1, h2, h3, h4, h5, h6, _⟩ := flushAdds_spec hso hrel.inv true
        have hnone : ∀ x, x ∉ s'.addCache := fun x hx => h3.forced x.docId x ⟨hx, rfl⟩
        have hnil : s'.addCache = [] := List.eq_nil_iff_forall_not_mem.2 hnone
        refine ⟨s', known', ?_, h2, ?_, ?_, ?_, ?_, ?_⟩
        · rw [Indexer.run_snoc, hrun]
          simp [Indexer.step, Indexer.addDocToCache, h1]
        · rw [hnil, h4]; have := hrel.room; simp; omega
        · rw [hnil]; simp
        · intro d x hx; exact absurd hx (h3.forced d x)
        · intro d _
          rw [hideal]
          rcases h3 d with ⟨hv, _, hn⟩ | ⟨hf, _⟩ | ⟨v, hv, hv2, _⟩
          · rw [hv]; exact hrel.vis d (hn rfl)
          · simp at hf
          · rw [hv2, hrel.pend d v hv]
        · intro x hx; exact absurd hx (hnone x)
    | add doc f =>
      subst hopc
      have hfresh := hrel.fresh hd (d := doc.docId) rfl
      have hi1 := hrel.inv.push doc hopok hrel.room
      have hnd1 : ((s.addCache ++ [doc]).map (·.docId)).Nodup := by
        rw [List.map_append, List.nodup_append]
        refine ⟨hrel.nodup, by simp, ?_⟩
        intro a ha b hb
        simp only [List.map_cons, List.map_nil, List.mem_singleton] at hb
        subst hb
        rintro rfl
        obtain ⟨x, hx, hx2⟩ := List.mem_map.1 ha
        exact hfresh x ⟨hx, hx2⟩
      have hpendI : ∀ d x, (absOf { s with addCache := s.addCache ++ [doc] } known).pend d x →
          ideal (h ++ [.add doc f]) d = some x := by
        rintro d x ⟨hx, hxd⟩
        rw [ideal_snoc]
        simp only [idealStep]
        simp only [List.mem_append, List.mem_singleton] at hx
        rcases hx with hx | rfl
        · rw [if_neg, hrel.pend d x ⟨hx, hxd⟩]
          rintro rfl
          exact hfresh x ⟨hx, hxd⟩
        · rw [if_pos hxd.symm]
      have hvisI : ∀ d, (∀ x, ¬ (absOf { s with addCache := s.addCache ++ [doc] } known).pend d x) →
          (absOf { s with addCache := s.addCache ++ [doc] } known).vis d =
            ideal (h ++ [.add doc f]) d := by
        intro d hno
        rw [ideal_snoc]
        simp only [idealStep]
        have hne : d ≠ doc.docId := by
          rintro rfl
          exact hno doc ⟨by simp, rfl⟩
        rw [if_neg hne]
        exact hrel.vis d (fun x hx => hno x ⟨by simp [hx.1], hx.2⟩)
      have hsince1 : f = false → ∀ x ∈ s.addCache ++ [doc], ∃ h1 h2,
          h ++ [.add doc f] = h1 ++ .add x false :: h2 ∧ ∀ c ∈ h2, c.refreshes = false := by
        intro hf x hx
        subst hf
        simp only [List.mem_append, List.mem_singleton] at hx
        rcases hx with hx | rfl
        · exact not_refreshes_since rfl (hrel.since x hx)
        · exact ⟨h, [], rfl, by simp⟩
      by_cases hc : (s.addCache ++ [doc]).length ≥ s.opts.docCacheSize ∨ f = true
      · obtain ⟨s', known', h1, h2, h3, h4, h5, h6, _⟩ := flushAdds_spec hso hi1 f
        obtain ⟨l, hl⟩ := h6
        have hsub : ∀ x ∈ s'.addCache, x ∈ s.addCache ++ [doc] := by
          intro x hx
          exact hl.mem_iff.1 (by simp [hx])
        refine ⟨s', known', ?_, h2, ?_, ?_, ?_, ?_, ?_⟩
        · rw [Indexer.run_snoc, hrun]
          simp only [Indexer.step, Indexer.addDocToCache, bind, Option.bind, if_pos hrel.room, if_pos hc, h1]
        · rw [h4]; exact h5 hnd1
        · have := (hl.map (·.docId)).nodup_iff.2 hnd1
          exact this.sublist ((List.sublist_append_left _ _).map _)
        · intro d x hx
          exact hpendI d x (h3.pend_sub hx)
        · intro d hno
          rcases h3 d with ⟨hv, hp, _⟩ | ⟨_, ⟨x, hx⟩, _, hp⟩ | ⟨v, hv, hv2, _⟩
          · rw [hv]
            exact hvisI d (fun x hx => hno x ((hp x).2 hx))
          · exact absurd ((hp x).2 hx) (hno x)
          · rw [hv2, hpendI d v hv]
        · intro x hx
          cases f with
          | false => exact hsince1 rfl x (hsub x hx)
          | true => exact absurd ⟨hx, rfl⟩ (h3.forced x.docId x)
      · have hf : f = false := by
          cases f with
          | false => rfl
          | true => exact absurd (Or.inr rfl) hc
        refine ⟨{ s with addCache := s.addCache ++ [doc] }, known, ?_, hi1, ?_, hnd1, hpendI, hvisI,
          hsince1 hf⟩
        · rw [Indexer.run_snoc, hrun]
          simp only [Indexer.step, Indexer.addDocToCache, bind, Option.bind, if_pos hrel.room, if_neg hc, pure]
        · show (s.addCache ++ [doc]).length < _
          by_contra hcc
          exact hc (Or.inl (by show s.opts.docCacheSize ≤ _; simpa using hcc))

/-- After a refreshing call at the end of a disciplined history the visible map is the
ideal one. -/
theorem disciplined_refreshed {so : Sorter} (hso : SortOk so) (o : IndexerOpts) (h : List IdxOp)
    (op : IdxOp) (hok : ∀ x ∈ h ++ [op], OpOk x) (hd : Disciplined (h ++ [op]))
    (hop : op.refreshes = true) :
    ∃ s known, (Indexer.init o).run so (h ++ [op]) = some s ∧ Inv s known ∧
      (∀ d, (absOf s known).vis d = ideal (h ++ [op]) d) ∧ s.addCache = [] := by
  obtain ⟨s, known, hrun, hrel⟩ := disciplined_run hso o _ hok hd
  have hnone : ∀ x, x ∉ s.addCache := by
    intro x hx
    obtain ⟨h1, h2, he, hno⟩ := hrel.since x hx
    rcases List.eq_nil_or_concat h2 with rfl | ⟨h2', c, rfl⟩
    · have := List.append_inj_right' he rfl
      simp only [List.cons.injEq, and_true] at this
      subst this
      simp [IdxOp.refreshes] at hop
    · have : h ++ [op] = (h1 ++ .add x false :: h2') ++ [c] := by rw [he]; simp
      have := List.append_inj_right' this rfl
      simp only [List.cons.injEq, and_true] at this
      subst this
      rw [hno op (by simp)] at hop; simp at hop
  exact ⟨s, known, hrun, hrel.inv, fun d => hrel.vis d (fun x hx => hnone x hx.1),
    List.eq_nil_iff_forall_not_mem.2 hnone⟩

end Riot
