import Verif.Proofs.Float32Index

/-!
# Exact totals for whole histories
-/

namespace Riot

variable {rnd : Rat → Rat} {bound : Int}

/-- All document lengths the index holds are natural numbers. -/
structure NatDocs (s : Indexer) (known : GoMap DocIndex) : Prop where
  stored : ∀ d x, known.get d = some x → IsNat x.tokenLen
  pending : ∀ x ∈ s.addCache, IsNat x.tokenLen

theorem sum_isNat (l : List Rat) (h : ∀ x ∈ l, IsNat x) : IsNat l.sum := by
  induction l with
  | nil => exact ⟨0, by simp⟩
  | cons a l ih =>
    rw [List.sum_cons]
    exact (h a (by simp)).add (ih (fun x hx => h x (by simp [hx])))

theorem sumBy_isNat {known : GoMap DocIndex} (h : ∀ d x, known.get d = some x → IsNat x.tokenLen) :
    IsNat (known.sumBy (·.tokenLen)) := by
  unfold GoMap.sumBy
  refine sum_isNat _ ?_
  intro x hx
  rw [List.mem_map] at hx
  obtain ⟨⟨k, v⟩, hv, rfl⟩ := hx
  exact h k v ((GoMap.get_eq_some_iff known k v).2 hv)

theorem Core.isNat {s : Indexer} {known : GoMap DocIndex} (hc : Core s known)
    (h : ∀ d x, known.get d = some x → IsNat x.tokenLen) : IsNat s.totalTokenLen ∧ LensNat s := by
  refine ⟨by rw [hc.total]; exact sumBy_isNat h, ?_⟩
  intro d v hv
  rw [hc.lens d] at hv
  cases hk : known.get d with
  | none => rw [hk] at hv; simp at hv
  | some x =>
    rw [hk] at hv
    simp only [Option.bind_some] at hv
    split at hv
    · simp at hv
    · rw [← Option.some.inj hv]; exact h d x hk

theorem removeDocsF_exact (hr : ExactUpTo bound rnd) {s : Indexer} {known : GoMap DocIndex} (docs : List Str)
    (hc : Core s known) (hn : ∀ d x, known.get d = some x → IsNat x.tokenLen)
    (hsort : docs.Pairwise (· ≤ ·)) (hst : ∀ d ∈ docs, s.docsState.get d ≠ some 0)
    (hb : s.totalTokenLen ≤ bound) :
    s.removeDocsF rnd docs = s.removeDocs docs := by
  obtain ⟨s', h1, h2, _⟩ := removeDocs_spec docs hc hsort hst
  have hn' : ∀ d x, (known.delAll docs).get d = some x → IsNat x.tokenLen := by
    intro d x hx
    rw [GoMap.get_delAll] at hx
    split at hx
    · simp at hx
    · exact hn d x hx
  have h0 := (h2.isNat hn').1.nonneg
  have htot : s'.totalTokenLen = (forgetDocs docs s).totalTokenLen := by
    unfold Indexer.removeDocs at h1
    simp only [bind, pure, Option.bind_eq_some_iff, Option.some.injEq] at h1
    obtain ⟨tb, _, e⟩ := h1
    rw [← e]
  rw [htot] at h0
  unfold Indexer.removeDocsF Indexer.removeDocs
  rw [forgetDocsF_exact hr docs s (hc.isNat hn).2 (hc.isNat hn).1 hb h0]

/-- The second half of `RemoveDocToCache`. -/
theorem removeTail_exact (hr : ExactUpTo bound rnd) {so : Sorter} (hso : SortOk so) {s s' : Indexer} {b : Bool}
    {known : GoMap DocIndex} {id : Str} {force : Bool}
    (hreg : ∀ s1, registerRemoval s id = some s1 → Core s1 known ∧ s1.totalTokenLen = s.totalTokenLen ∧
      ∀ d ∈ s1.removeCache, s1.docsState.get d = some 1)
    (hn : ∀ d x, known.get d = some x → IsNat x.tokenLen) (hb : s.totalTokenLen ≤ bound)
    (h : s.removeDocToCache so id force = some (s', b)) :
    s.removeDocToCacheF rnd so id force = some (s', b) ∧ s'.totalTokenLen ≤ s.totalTokenLen ∧
      IsNat s'.totalTokenLen := by
  unfold Indexer.removeDocToCache at h
  unfold Indexer.removeDocToCacheF
  simp only [bind, pure, Option.bind_eq_some_iff] at h ⊢
  obtain ⟨s1, hs1, h⟩ := h
  obtain ⟨hc, ht, hrm⟩ := hreg s1 hs1
  by_cases hcond : s1.removeCache.length > 0 ∧ (s1.removeCache.length ≥ s1.opts.docCacheSize ∨ force = true)
  · rw [if_pos hcond] at h
    rw [Option.bind_eq_some_iff] at h
    obtain ⟨s2, h2, h3⟩ := h
    simp only [Option.some.injEq, Prod.mk.injEq] at h3
    obtain ⟨rfl, rfl⟩ := h3
    have hc' : Core { s1 with removeCache := [] } known :=
      ⟨hc.table, hc.ok, hc.lens, hc.total, hc.num, hc.state⟩
    have hst : ∀ d ∈ so.ids s1.removeCache,
        ({ s1 with removeCache := [] } : Indexer).docsState.get d ≠ some 0 := by
      intro d hd
      show s1.docsState.get d ≠ some 0
      rw [hrm d ((hso.ids_perm _).mem_iff.1 hd)]
      simp
    have he := removeDocsF_exact hr (s := { s1 with removeCache := [] }) (so.ids s1.removeCache) hc' hn
      (hso.ids_sorted _) hst (by rw [← ht] at hb; exact hb)
    refine ⟨⟨s1, hs1, ?_⟩, ?_⟩
    · rw [if_pos hcond, he, h2]; rfl
    · obtain ⟨s3, h31, h32, _⟩ := removeDocs_spec _ hc' (hso.ids_sorted _) hst
      rw [h2, Option.some.injEq] at h31
      subst h31
      have hn' : ∀ d x, (known.delAll (so.ids s1.removeCache)).get d = some x → IsNat x.tokenLen := by
        intro d x hx
        rw [GoMap.get_delAll] at hx
        split at hx
        · simp at hx
        · exact hn d x hx
      refine ⟨?_, (h32.isNat hn').1⟩
      unfold Indexer.removeDocs at h2
      simp only [bind, pure, Option.bind_eq_some_iff, Option.some.injEq] at h2
      obtain ⟨tb, _, e⟩ := h2
      rw [← e, ← ht]
      exact forgetDocs_mono _ _ (hc'.isNat hn).2
  · rw [if_neg hcond] at h
    simp only [Option.some.injEq, Prod.mk.injEq] at h
    obtain ⟨rfl, rfl⟩ := h
    exact ⟨⟨s1, hs1, by rw [if_neg hcond]⟩, ht.le, (hc.isNat hn).1⟩

theorem registerRemoval_core {s : Indexer} {known : GoMap DocIndex} (hi : Inv s known) (id : Str) :
    ∀ s1, registerRemoval s id = some s1 → Core s1 known ∧ s1.totalTokenLen = s.totalTokenLen ∧
      ∀ d ∈ s1.removeCache, s1.docsState.get d = some 1 := by
  intro s1 h
  have hold : Core s known ∧ s.totalTokenLen = s.totalTokenLen ∧
      ∀ d ∈ s.removeCache, s.docsState.get d = some 1 := ⟨hi.core, rfl, fun d hd => (hi.rm d).2 hd⟩
  by_cases h0 : id ≠ str "0"
  · cases hs : s.docsState.get id with
    | none =>
      simp only [registerRemoval, h0, hs, if_true, ne_eq, not_false_eq_true, Option.some.injEq] at h
      rw [← h]; exact hold
    | some v =>
      rcases hi.st01 _ _ hs with rfl | rfl
      · have hcap : s.removeCache.length < 2 * s.opts.docCacheSize := by have := hi.rmLen; omega
        simp only [registerRemoval, h0, hs, hcap, if_true, ne_eq, not_false_eq_true, Option.some.injEq] at h
        rw [← h]
        refine ⟨⟨hi.core.table, hi.core.ok, hi.core.lens, hi.core.total, ?_, ?_⟩, rfl, ?_⟩
        · show s.numDocs - 1 = (((s.docsState.set id 1).count (· == 0) : Nat) : Int)
          rw [count_set_from_zero _ _ hs, hi.core.num]
        · intro d
          show _ ↔ (s.docsState.set id 1).get d = some 0 ∨ (s.docsState.set id 1).get d = some 1
          rw [GoMap.get_set, hi.core.state d]
          by_cases hd : d = id
          · simp [hd, hs]
          · simp [hd]
        · intro d hd
          show (s.docsState.set id 1).get d = some 1
          rw [GoMap.get_set]
          by_cases hdi : d = id
          · simp [hdi]
          · rw [if_neg hdi]
            have hd' : d ∈ s.removeCache ++ [id] := hd
            simp only [List.mem_append, List.mem_singleton, hdi, or_false] at hd'
            exact (hi.rm d).2 hd'
      · simp only [registerRemoval, h0, hs, if_true, ne_eq, not_false_eq_true, Option.some.injEq] at h
        rw [← h]; exact hold
  · simp only [registerRemoval, h0, if_false, Option.some.injEq] at h
    rw [← h]; exact hold

theorem flushAddsF_exact (hr : ExactUpTo bound rnd) {so : Sorter} (hso : SortOk so) {s s' : Indexer}
    {known : GoMap DocIndex} (hi : Inv s known) (hn : NatDocs s known) {force : Bool}
    (hb : s.totalTokenLen ≤ bound) (h : flushAdds so s force = some s') (hb' : s'.totalTokenLen ≤ bound) :
    flushAddsF rnd so s force = some s' := by
  obtain ⟨s1, pos, hscan, h1⟩ := scan_step hi s.addCache.length 0 0 s (scanInv_start hi) (by omega)
  have htot1 : s1.totalTokenLen = s.totalTokenLen := by rw [h1.core.total, hi.core.total]
  have hreg : ∀ s2, registerRemoval s1 (str "0") = some s2 → Core s2 known ∧
      s2.totalTokenLen = s1.totalTokenLen ∧ ∀ d ∈ s2.removeCache, s2.docsState.get d = some 1 := by
    intro s2 h2
    have e : s1 = s2 := by simpa [registerRemoval] using h2
    subst e
    exact ⟨h1.core, rfl, fun d hd => (h1.rm d).2 hd⟩
  unfold flushAdds at h
  unfold flushAddsF
  simp only [hscan, bind, Option.bind_some] at h ⊢
  rw [Option.bind_eq_some_iff] at h
  obtain ⟨⟨s2, removed⟩, hrem, hadd⟩ := h
  obtain ⟨hremF, hle, hnat⟩ := removeTail_exact hr hso hreg hn.stored (by rw [htot1]; exact hb) hrem
  rw [hremF]
  simp only [Option.bind_some]
  simp only [Indexer.addDocs] at hadd
  simp only [Indexer.addDocsF]
  have hcache : s2.addCache = s1.addCache := by
    unfold Indexer.removeDocToCache at hrem
    simp only [bind, pure, Option.bind_eq_some_iff] at hrem
    obtain ⟨s3, hs3, hrem⟩ := hrem
    have e : s1 = s3 := by simpa [registerRemoval] using hs3
    subst e
    split at hrem
    · rw [Option.bind_eq_some_iff] at hrem
      obtain ⟨s4, h4, h5⟩ := hrem
      simp only [Option.some.injEq, Prod.mk.injEq] at h5
      rw [← h5.1]
      obtain ⟨s5, h51, _, _, _, h55, _⟩ := removeDocs_spec
        (s := { s1 with removeCache := [] }) (known := known) (so.ids s1.removeCache)
        ⟨h1.core.table, h1.core.ok, h1.core.lens, h1.core.total, h1.core.num, h1.core.state⟩
        (hso.ids_sorted _) (by
          intro d hd
          show s1.docsState.get d ≠ some 0
          rw [(h1.rm d).2 ((hso.ids_perm _).mem_iff.1 hd)]; simp)
      rw [h4, Option.some.injEq] at h51
      rw [h51, h55]
    · simp only [Option.some.injEq, Prod.mk.injEq] at hrem
      rw [← hrem.1]
  refine addDocsLoopF_exact hr _ _ _ _ hnat ?_ hadd hb'
  intro x hx
  have hx1 := (hso.docs_perm _).mem_iff.1 hx
  have hx2 := List.mem_of_mem_drop hx1
  rw [hcache] at hx2
  exact hn.pending x (h1.perm.mem_iff.1 hx2)

theorem stepF_exact (hr : ExactUpTo bound rnd) {so : Sorter} (hso : SortOk so) {s s' : Indexer}
    {known : GoMap DocIndex} (hi : Inv s known) (hn : NatDocs s known) {op : IdxOp} (hop : OpOk op)
    (hlen : LenOk op) (hb : s.totalTokenLen ≤ bound) (h : s.step so op = some s')
    (hb' : s'.totalTokenLen ≤ bound) : s.stepF rnd so op = some s' := by
  cases op with
  | remove id f =>
    simp only [Indexer.step, Indexer.stepF, Option.map_eq_some_iff] at h ⊢
    obtain ⟨⟨s1, b⟩, h1, rfl⟩ := h
    exact ⟨_, (removeTail_exact hr hso (registerRemoval_core hi id) hn.stored hb h1).1, rfl⟩
  | flush f =>
    simp only [Indexer.step, Indexer.stepF, Indexer.addDocToCache, Indexer.addDocToCacheF, bind, pure,
      Option.bind_some] at h ⊢
    split at h
    · rename_i hc; rw [if_pos hc]; exact flushAddsF_exact hr hso hi hn hb h hb'
    · rename_i hc; rw [if_neg hc]; exact h
  | add doc f =>
    simp only [Indexer.step, Indexer.stepF, Indexer.addDocToCache, Indexer.addDocToCacheF, bind, pure] at h ⊢
    by_cases hl : s.addCache.length < s.opts.docCacheSize
    · rw [if_pos hl] at h ⊢
      simp only [Option.bind_some] at h ⊢
      split at h
      · rename_i hc; rw [if_pos hc]
        refine flushAddsF_exact hr hso (hi.push doc hop hl) ⟨hn.stored, ?_⟩ hb h hb'
        intro x hx
        simp only [List.mem_append, List.mem_singleton] at hx
        rcases hx with hx | rfl
        · exact hn.pending x hx
        · exact hlen
      · rename_i hc; rw [if_neg hc]; exact h
    · rw [if_neg hl] at h; simp at h

/-- The lengths stay natural numbers. -/
theorem NatDocs.step {so : Sorter} (hso : SortOk so) {s s' : Indexer}
    {known : GoMap DocIndex} (hi : Inv s known) (hn : NatDocs s known) {op : IdxOp} (hop : OpOk op)
    (hlen : LenOk op) (h : s.step so op = some s') :
    ∃ known', Inv s' known' ∧ NatDocs s' known' := by
  obtain ⟨s1, known', h1, h2, h3, _, h5⟩ := step_spec hso hi op hop (by
    rintro ⟨doc, f, rfl⟩
    by_contra hc
    rw [step_full doc f hc] at h; simp at h)
  rw [h1, Option.some.injEq] at h
  subst h
  refine ⟨known', h2, ?_⟩
  have hvis : ∀ d x, (absOf s known).vis d = some x → IsNat x.tokenLen := by
    intro d x hx
    simp only [absOf] at hx
    split at hx
    · exact hn.stored d x hx
    · simp at hx
  have hpend : ∀ d x, (absOf s known).pend d x → IsNat x.tokenLen := fun d x hx => hn.pending x hx.1
  have hcommit : ∀ (f : Bool) (a : AbsIndex), AbsCommit f a (absOf s1 known') →
      (∀ d x, a.vis d = some x → IsNat x.tokenLen) → (∀ d x, a.pend d x → IsNat x.tokenLen) →
      NatDocs s1 known' := by
    intro f a hc hv hp
    constructor
    · intro d x hx
      rcases h5 d x hx with hk | hk
      · rcases hc d with ⟨e, _⟩ | ⟨_, _, e, _⟩ | ⟨v, hv1, e, _⟩
        · rw [e] at hk; exact hv d x hk
        · rw [e] at hk; simp at hk
        · rw [e, Option.some.injEq] at hk; rw [← hk]; exact hp d v hv1
      · exact hn.stored d x hk
    · intro x hx
      exact hp x.docId x (hc.pend_sub ⟨hx, rfl⟩)
  cases op with
  | add doc f =>
    refine hcommit f _ h3 hvis ?_
    rintro d x (hx | ⟨rfl, _⟩)
    · exact hpend d x hx
    · exact hlen
  | flush f => exact hcommit f _ h3 hvis hpend
  | remove id f =>
    constructor
    · intro d x hx
      rcases h5 d x hx with hk | hk
      · rw [h3.1 d] at hk
        split at hk
        · simp at hk
        · exact hvis d x hk
      · exact hn.stored d x hk
    · intro x hx
      exact hpend x.docId x ((h3.2 x.docId x).1 ⟨hx, rfl⟩)

/-- A history whose exact totals never exceed the bound is computed exactly. -/
theorem runF_exact (hr : ExactUpTo bound rnd) {so : Sorter} (hso : SortOk so) (o : IndexerOpts)
    (h : List IdxOp) (hok : ∀ op ∈ h, OpOk op) (hlen : ∀ op ∈ h, LenOk op)
    (hb : ∀ i t, (Indexer.init o).run so (h.take i) = some t → t.totalTokenLen ≤ bound) (s : Indexer)
    (hrun : (Indexer.init o).run so h = some s) :
    (Indexer.init o).runF rnd so h = some s ∧ ∃ known, Inv s known ∧ NatDocs s known := by
  induction h using List.reverseRecOn generalizing s with
  | nil =>
    refine ⟨hrun, .empty, ?_, ?_, ?_⟩
    · simp only [Indexer.run, Option.some.injEq] at hrun
      rw [← hrun]; exact Inv.init o
    · simp
    · simp only [Indexer.run, Option.some.injEq] at hrun
      rw [← hrun]; simp [Indexer.init]
  | append_singleton h op ih =>
    have hfull := hb (h.length + 1) s (by rw [List.take_of_length_le (by simp)]; exact hrun)
    rw [Indexer.run_snoc, Option.bind_eq_some_iff] at hrun
    obtain ⟨s0, hr0, hstep⟩ := hrun
    have hb0 : ∀ i t, (Indexer.init o).run so (h.take i) = some t → t.totalTokenLen ≤ bound := by
      intro i t ht
      by_cases hi : i ≤ h.length
      · refine hb i t ?_
        rw [List.take_append_of_le_length hi]; exact ht
      · refine hb h.length t ?_
        rw [List.take_append_of_le_length le_rfl]
        rw [List.take_of_length_le (by omega)] at ht
        simpa using ht
    obtain ⟨hF, known, hi, hn⟩ := ih (fun x hx => hok x (by simp [hx])) (fun x hx => hlen x (by simp [hx]))
      hb0 s0 hr0
    have hs0 := hb0 h.length s0 (by simpa using hr0)
    refine ⟨?_, hn.step hso hi (hok op (by simp)) (hlen op (by simp)) hstep⟩
    rw [Indexer.runF_snoc, hF]
    exact stepF_exact hr hso hi hn (hok op (by simp)) (hlen op (by simp)) hs0 hstep hfull

end Riot
