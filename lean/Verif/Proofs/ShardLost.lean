import Verif.Proofs.ShardLive
import Verif.Model.Lookup

/-!
# A document marked as removed that is not in the removal cache stays like that
-/

namespace Riot

/-- `d` waits for a removal that nobody will execute. -/
def Indexer.Parked (s : Indexer) (d : Str) : Prop :=
  s.docsState.get d = some 1 ∧ d ∉ s.removeCache

theorem forgetDocs_get {d : Str} (docs : List Str) : ∀ (s : Indexer), d ∉ docs →
    (forgetDocs docs s).docsState.get d = s.docsState.get d := by
  induction docs with
  | nil => intro s _; rfl
  | cons x ds ih =>
    intro s h
    rw [forgetDocs, ih _ (fun h' => h (List.mem_cons_of_mem _ h'))]
    simp only [GoMap.get_del]
    rw [if_neg (fun h' => h (by rw [h']; exact List.mem_cons_self))]

theorem removeDocs_get {d : Str} {s s' : Indexer} {docs : List Str} (h : s.removeDocs docs = some s')
    (hd : d ∉ docs) : s'.docsState.get d = s.docsState.get d := by
  unfold Indexer.removeDocs at h
  simp only [bind, pure, Option.bind_eq_some_iff] at h
  obtain ⟨t, _, h⟩ := h
  simp only [Option.some.injEq] at h
  subst h
  exact forgetDocs_get docs s hd

theorem registerRemoval_parked {d id : Str} {s s' : Indexer} (hp : s.Parked d)
    (h : registerRemoval s id = some s') : s'.Parked d := by
  unfold registerRemoval at h
  split at h
  · split at h
    · rename_i hst
      have hne : d ≠ id := fun e => by rw [← e, hp.1] at hst; simp at hst
      split at h
      · simp only [Option.some.injEq] at h; subst h
        refine ⟨?_, ?_⟩
        · simp only [GoMap.get_set, if_neg hne]; exact hp.1
        · simp only [List.mem_append, List.mem_singleton, not_or]; exact ⟨hp.2, hne⟩
      · simp at h
    · rename_i hst
      simp only [Option.some.injEq] at h; subst h
      refine ⟨?_, hp.2⟩
      simp only [GoMap.get_set]
      split
      · rfl
      · exact hp.1
    · simp only [Option.some.injEq] at h; subst h; exact hp
  · simp only [Option.some.injEq] at h; subst h; exact hp

theorem removeDocToCache_parked {so : Sorter} (hso : SortOk so) {d id : Str} {f : Bool} {s : Indexer}
    {x : Indexer × Bool} (hp : s.Parked d) (h : s.removeDocToCache so id f = some x) : x.1.Parked d := by
  unfold Indexer.removeDocToCache at h
  simp only [bind, pure, Option.bind_eq_some_iff] at h
  obtain ⟨s1, h1, h⟩ := h
  have hp1 := registerRemoval_parked hp h1
  split at h
  · rw [Option.bind_eq_some_iff] at h
    obtain ⟨s2, h2, h⟩ := h
    simp only [Option.some.injEq] at h; subst h
    have hs := removeDocs_same h2
    refine ⟨?_, ?_⟩
    · rw [removeDocs_get h2 (fun hx => hp1.2 ((hso.ids_perm _).mem_iff.1 hx))]; exact hp1.1
    · simp only [hs.2.2]; simp
  · simp only [Option.some.injEq] at h; subst h; exact hp1

theorem scanCache_parked {d : Str} : ∀ (fuel i p : Nat) (s : Indexer) (x : Indexer × Nat), s.Parked d →
    scanCache fuel i p s = some x → x.1.Parked d := by
  intro fuel
  induction fuel with
  | zero => intro i p s x hp h; simp [scanCache] at h; subst h; exact hp
  | succ n ih =>
    intro i p s x hp h
    rw [scanCache] at h
    split at h
    · simp at h
    · rename_i doc hdoc
      split at h
      · rename_i hst
        refine ih _ _ _ _ ?_ h
        refine ⟨?_, hp.2⟩
        simp only [GoMap.get_set]
        rw [if_neg (fun e => by rw [← e, hp.1] at hst; simp at hst)]; exact hp.1
      · rename_i st hst
        split at h
        · split at h
          · simp at h
          · rename_i cache hcache
            simp only at h
            split at h
            · rename_i h0
              have hne : d ≠ doc.docId := fun e => by rw [← e, hp.1, h0] at hst; simp at hst
              split at h
              · refine ih _ _ _ _ ?_ h
                refine ⟨?_, ?_⟩
                · simp only [GoMap.get_set, if_neg hne]; exact hp.1
                · simp only [List.mem_append, List.mem_singleton, not_or]; exact ⟨hp.2, hne⟩
              · simp at h
            · refine ih _ _ _ _ ?_ h
              exact ⟨hp.1, hp.2⟩
        · exact ih _ _ _ _ hp h

theorem addOneDoc_get {d : Str} {s s' : Indexer} {p p' : GoMap Nat} {doc : DocIndex}
    (h : addOneDoc s p doc = some (s', p')) (hd : s.docsState.get d = some 1) :
    s'.docsState.get d = some 1 := by
  unfold addOneDoc at h
  split at h
  · simp at h; rw [← h.1]; exact hd
  · rename_i hne
    simp only [bind, pure, Option.bind_eq_some_iff] at h
    obtain ⟨x, _, h⟩ := h
    simp only [Option.some.injEq, Prod.mk.injEq] at h
    rw [← h.1]
    simp only [GoMap.get_set]
    rw [if_neg (fun e => hne (by rw [← e]; exact hd))]
    split <;> exact hd

theorem addDocsLoop_get {d : Str} (docs : List DocIndex) : ∀ (s s' : Indexer) (p : GoMap Nat),
    addDocsLoop docs s p = some s' → s.docsState.get d = some 1 → s'.docsState.get d = some 1 := by
  induction docs with
  | nil => intro s s' p h hd; simp [addDocsLoop] at h; subst h; exact hd
  | cons doc rest ih =>
    intro s s' p h hd
    cases rest with
    | nil =>
      simp only [addDocsLoop, bind, Option.bind_eq_some_iff] at h
      obtain ⟨⟨s1, p1⟩, h1, h2⟩ := h
      simp only [Option.some.injEq] at h2
      subst h2
      exact addOneDoc_get h1 hd
    | cons next rest =>
      rw [addDocsLoop] at h
      split at h
      · exact ih s s' p h hd
      · simp only [bind, Option.bind_eq_some_iff] at h
        obtain ⟨⟨s1, p1⟩, h1, h2⟩ := h
        exact ih _ _ _ h2 (addOneDoc_get h1 hd)

theorem flushAdds_parked {so : Sorter} (hso : SortOk so) {d : Str} {f : Bool} {s s' : Indexer}
    (hp : s.Parked d) (h : flushAdds so s f = some s') : s'.Parked d := by
  unfold flushAdds at h
  simp only [bind, Option.bind_eq_some_iff] at h
  obtain ⟨x, h1, y, h2, h3⟩ := h
  have hp1 := removeDocToCache_parked hso (scanCache_parked _ _ _ _ _ hp h1) h2
  have hs := addDocs_same h3
  exact ⟨addDocsLoop_get _ _ _ _ h3 hp1.1, by rw [hs.2.2]; exact hp1.2⟩

theorem step_parked {so : Sorter} (hso : SortOk so) {d : Str} {op : IdxOp} {s s' : Indexer}
    (hp : s.Parked d) (h : s.step so op = some s') : s'.Parked d := by
  have hcont : ∀ (s1 : Indexer) (f : Bool), s1.Parked d →
      (if s1.addCache.length ≥ s1.opts.docCacheSize ∨ f = true then flushAdds so s1 f else some s1) = some s' →
      s'.Parked d := by
    intro s1 f hp1 h2
    split at h2
    · exact flushAdds_parked hso hp1 h2
    · simp at h2; subst h2; exact hp1
  have hadd : ∀ (doc : Option DocIndex) (f : Bool), s.addDocToCache so doc f = some s' → s'.Parked d := by
    intro doc f h
    unfold Indexer.addDocToCache at h
    simp only [bind, pure] at h
    cases doc with
    | none => exact hcont _ _ hp h
    | some x =>
      simp only at h
      split at h
      · simp only [Option.bind_some] at h
        refine hcont { s with addCache := s.addCache ++ [x] } f ?_ h
        exact ⟨hp.1, hp.2⟩
      · simp at h
  cases op with
  | add x f => exact hadd (some x) f h
  | flush f => exact hadd none f h
  | remove id f =>
    simp only [Indexer.step] at h
    obtain ⟨x, h1, h2⟩ := Option.map_eq_some_iff.1 h
    subst h2
    exact removeDocToCache_parked hso hp h1

theorem run_parked {so : Sorter} (hso : SortOk so) {d : Str} (h : List IdxOp) : ∀ {s s' : Indexer},
    s.Parked d → s.run so h = some s' → s'.Parked d := by
  induction h with
  | nil => intro s s' hp h; simp [Indexer.run] at h; subst h; exact hp
  | cons op ops ih =>
    intro s s' hp h
    simp only [Indexer.run] at h
    obtain ⟨s1, h1, h2⟩ := Option.bind_eq_some_iff.1 h
    exact ih (step_parked hso hp h1) h2

/-! ## Plain lookups return documents in state 0 only -/

theorem scoreDoc_docId {log2 : Rat → Rat} {s : Indexer} {avg : Rat} {base : Str}
    {rows : List (KeywordIndices × Nat)} {lens : List Nat} {doc : IndexedDoc}
    (h : scoreDoc log2 s avg base rows lens = some doc) : doc.docId = base := by
  unfold scoreDoc at h
  simp only [bind, pure] at h
  split at h
  · rw [Option.bind_eq_some_iff] at h
    obtain ⟨locs, _, h⟩ := h
    split at h
    · simp only [Option.some.injEq] at h; subst h; rfl
    · rw [Option.bind_eq_some_iff] at h
      obtain ⟨x, _, h⟩ := h
      rw [Option.bind_eq_some_iff] at h
      obtain ⟨v, _, h⟩ := h
      simp only [Option.some.injEq] at h; subst h; rfl
  · rw [Option.bind_eq_some_iff] at h
    obtain ⟨v, _, h⟩ := h
    simp only [Option.some.injEq] at h; subst h; rfl
  · simp only [Option.some.injEq] at h; subst h; rfl

theorem lookupLoop_state0 {log2 : Rat → Rat} {s : Indexer} {avg : Rat} {row0 : KeywordIndices}
    {tokens : List Str} {docIds : Option (List Str)} {co : Bool} : ∀ (p : Nat)
    (rows : List (KeywordIndices × Nat)) (acc res : List IndexedDoc × Nat),
    lookupLoop log2 s avg row0 tokens docIds co p rows acc = some res →
    (∀ x ∈ acc.1, s.docsState.get x.docId = some 0) → ∀ x ∈ res.1, s.docsState.get x.docId = some 0 := by
  intro p
  induction p with
  | zero => intro rows acc res h ha; simp [lookupLoop] at h; subst h; exact ha
  | succ p ih =>
    intro rows acc res h ha
    rw [lookupLoop] at h
    split at h
    · simp at h
    · rename_i base hb
      split at h
      · exact ih _ _ _ h ha
      · split at h
        · simp at h
        · simp at h; subst h; exact ha
        · exact ih _ _ _ h ha
        · split at h
          · exact ih _ _ _ h ha
          · rename_i hst
            split at h
            · simp at h
            · rename_i doc hdoc
              refine ih _ _ _ h ?_
              intro x hx
              simp only at hx
              split at hx
              · exact ha x hx
              · rcases List.mem_append.1 hx with hx | hx
                · exact ha x hx
                · simp only [List.mem_singleton] at hx
                  subst hx
                  rw [scoreDoc_docId hdoc]
                  simpa using hst

theorem lookup_state0 {log2 : Rat → Rat} {s : Indexer} {tokens labels : List Str}
    {docIds : Option (List Str)} {co : Bool} {res : List IndexedDoc × Nat}
    (h : s.lookup log2 tokens labels docIds co = some res) :
    ∀ x ∈ res.1, s.docsState.get x.docId = some 0 := by
  unfold Indexer.lookup at h
  split at h
  · simp at h; subst h; simp
  · simp only at h
    unfold Indexer.internalLookup at h
    split at h
    · simp at h; subst h; simp
    · simp at h; subst h; simp
    · exact lookupLoop_state0 _ _ _ _ h (by simp)

end Riot
