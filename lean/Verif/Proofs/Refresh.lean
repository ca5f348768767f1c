import Verif.Proofs.IndexRun

/-! # A forced call leaves no pending removal -/

namespace Riot

theorem addOneDoc_removeCache {s s' : Indexer} {p p' : GoMap Nat} {doc : DocIndex}
    (h : addOneDoc s p doc = some (s', p')) : s'.removeCache = s.removeCache := by
  unfold addOneDoc at h
  split at h
  · simp only [Option.some.injEq, Prod.mk.injEq] at h; rw [h.1]
  · simp only [bind, Option.bind_eq_some_iff, pure, Option.some.injEq, Prod.mk.injEq,
      Prod.exists] at h
    obtain ⟨t, p1, _, rfl, _⟩ := h
    dsimp only
    split <;> rfl

theorem addDocsLoop_removeCache : ∀ (docs : List DocIndex) (s s' : Indexer) (p : GoMap Nat),
    addDocsLoop docs s p = some s' → s'.removeCache = s.removeCache
  | [], s, s', p, h => by simp [addDocsLoop] at h; rw [h]
  | doc :: rest, s, s', p, h => by
    rw [addDocsLoop.eq_def] at h
    simp only at h
    split at h
    · split at h
      · exact addDocsLoop_removeCache _ _ _ _ h
      · simp only [bind, Option.bind_eq_some_iff, Prod.exists] at h
        obtain ⟨s1, p1, h1, h2⟩ := h
        rw [addDocsLoop_removeCache _ _ _ _ h2, addOneDoc_removeCache h1]
    · simp only [bind, Option.bind_eq_some_iff, Prod.exists] at h
      obtain ⟨s1, p1, h1, h2⟩ := h
      rw [addDocsLoop_removeCache _ _ _ _ h2, addOneDoc_removeCache h1]

theorem forgetDocs_removeCache : ∀ (docs : List Str) (s : Indexer),
    (forgetDocs docs s).removeCache = s.removeCache
  | [], s => rfl
  | d :: ds, s => by rw [forgetDocs, forgetDocs_removeCache ds]

theorem removeDocs_removeCache {s s' : Indexer} {docs : List Str} (h : s.removeDocs docs = some s') :
    s'.removeCache = s.removeCache := by
  simp only [Indexer.removeDocs, bind, Option.bind_eq_some_iff, pure, Option.some.injEq] at h
  obtain ⟨t, _, rfl⟩ := h
  exact forgetDocs_removeCache docs s

theorem removeDocToCache_forced {so : Sorter} {s s' : Indexer} {d : Str} {b : Bool}
    (h : s.removeDocToCache so d true = some (s', b)) : s'.removeCache = [] := by
  simp only [Indexer.removeDocToCache, bind, Option.bind_eq_some_iff] at h
  obtain ⟨s1, _, h⟩ := h
  split at h
  · simp only [pure] at h
    rw [Option.bind_eq_some_iff] at h
    obtain ⟨s2, h2, h⟩ := h
    simp only [Option.some.injEq, Prod.mk.injEq] at h
    rw [← h.1, removeDocs_removeCache h2]
  · rename_i hn
    simp only [pure, Option.some.injEq, Prod.mk.injEq] at h
    rw [← h.1]
    simp only [or_true, and_true] at hn
    exact List.length_eq_zero_iff.1 (by omega)

/-- After any forced call no removal is pending. -/
theorem step_forced {so : Sorter} {s s' : Indexer} {op : IdxOp} (hop : op.refreshes = true)
    (h : s.step so op = some s') : s'.removeCache = [] := by
  have key : ∀ s0 : Indexer, flushAdds so s0 true = some s' → s'.removeCache = [] := by
    intro s0 h
    simp only [flushAdds, bind, Option.bind_eq_some_iff, Prod.exists] at h
    obtain ⟨s1, p, _, s2, b, h2, h3⟩ := h
    have := addDocsLoop_removeCache _ _ _ _ h3
    rw [this]
    have := removeDocToCache_forced h2
    exact this
  cases op with
  | add doc f =>
    simp only [IdxOp.refreshes] at hop; subst hop
    simp only [Indexer.step, Indexer.addDocToCache, or_true, if_true] at h
    split at h
    · exact key _ h
    · simp at h
  | flush f =>
    simp only [IdxOp.refreshes] at hop; subst hop
    simp only [Indexer.step, Indexer.addDocToCache, or_true, if_true] at h
    obtain ⟨s1, _, h⟩ := Option.bind_eq_some_iff.1 h
    exact key _ h
  | remove d f => simp [IdxOp.refreshes] at hop

/-- Without pending removals every physically indexed document is visible. -/
theorem vis_eq_known {s : Indexer} {known : GoMap DocIndex} (hi : Inv s known)
    (hr : s.removeCache = []) (d : Str) : (absOf s known).vis d = known.get d := by
  simp only [absOf]
  split
  · rfl
  · rename_i h0
    cases hk : known.get d with
    | none => rfl
    | some doc =>
      rcases (hi.core.state d).1 (by rw [hk]; rfl) with h | h
      · exact absurd h h0
      · rw [hi.rm d, hr] at h; simp at h

end Riot
