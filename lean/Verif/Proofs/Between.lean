import Verif.Proofs.FineVis
import Verif.Proofs.FineGentle

/-!
# The index between two refreshes
-/

namespace Riot

/-- A log that fits runs, and its cache holds at most the documents added since the last refresh. -/
theorem fits_cap {so : Sorter} (hso : SortOk so) {o : IndexerOpts} (h : List IdxOp) (hf : Fits o h)
    (hok : ∀ x ∈ h, OpOk x) :
    ∃ ix, (Indexer.init o).run so h = some ix ∧ ix.addCache.length ≤ addsSince h := by
  induction h using List.reverseRecOn with
  | nil => exact ⟨Indexer.init o, rfl, by simp [Indexer.init]⟩
  | append_singleton h op ih =>
    obtain ⟨ix, h1, h2⟩ := ih (fun h1 x h2 e => hf h1 x (h2 ++ [op]) (by rw [e]; simp)) (fun x hx => hok x (by simp [hx]))
    exact cap_snoc hso o hok h1 h2 (hf h op [] rfl)

/-- A call that does not refresh, with room in the cache: only a removal changes what is visible. -/
theorem vis_step_calm {so : Sorter} {ix ix' : Indexer} {k k' : GoMap DocIndex} {op : IdxOp}
    (hi' : Inv ix' k') (h : ix.step so op = some ix') (hs : AbsStep op (absOf ix k) (absOf ix' k'))
    (hr : op.refreshes = false) (hl : ix.addCache.length + (if op.adds then 1 else 0) < ix.opts.docCacheSize) (d : Str) :
    ((∀ f, op ≠ .remove d f) → (absOf ix' k').vis d = (absOf ix k).vis d) ∧
    (∀ f, op = .remove d f → d ≠ str "0" → (absOf ix' k').vis d = none) := by
  cases op with
  | remove id f =>
    refine ⟨fun hne => ?_, ?_⟩
    · rw [hs.1 d, if_neg]
      rintro ⟨rfl, _⟩
      exact hne f rfl
    · rintro f' e h0
      cases e
      rw [hs.1 d, if_pos ⟨rfl, h0⟩]
  | flush f =>
    simp only [IdxOp.refreshes] at hr
    subst hr
    simp only [IdxOp.adds, Bool.false_eq_true, if_false, Nat.add_zero] at hl
    refine ⟨fun _ => ?_, fun f e => by simp at e⟩
    simp only [Indexer.step] at h
    rw [addDocToCache_fits so ix none false (by simp), if_neg (by simp; omega)] at h
    simp only [Option.some.injEq] at h
    rcases hs d with ⟨e, _⟩ | ⟨_, _, e, _⟩ | ⟨v, ⟨hv, _⟩, _, e⟩
    · exact e
    · have hst : ix'.docsState = ix.docsState := by subst h; rfl
      rw [e]
      simp only [absOf] at e ⊢
      rw [hst] at e
      split at e
      · rename_i h0
        have := (hi'.core.state d).2 (.inl (by rw [hst]; exact h0))
        rw [e] at this; simp at this
      · rename_i h0; rw [if_neg h0]
    · have hc : v ∈ ix'.addCache := by subst h; simpa [Indexer.pushAdd] using hv
      exact absurd ⟨hc, by assumption⟩ (e v)
  | add doc f =>
    simp only [IdxOp.refreshes] at hr
    subst hr
    simp only [IdxOp.adds, if_true] at hl
    refine ⟨fun _ => ?_, fun f e => by simp at e⟩
    simp only [Indexer.step] at h
    rw [addDocToCache_fits so ix (some doc) false (by intro _; omega), if_neg (by simp; omega)] at h
    simp only [Option.some.injEq] at h
    rcases hs d with ⟨e, _⟩ | ⟨_, _, e, _⟩ | ⟨v, hv, _, e⟩
    · exact e
    · have hst : ix'.docsState = ix.docsState := by subst h; rfl
      rw [e]
      simp only [absOf] at e ⊢
      rw [hst] at e
      split at e
      · rename_i h0
        have := (hi'.core.state d).2 (.inl (by rw [hst]; exact h0))
        rw [e] at this; simp at this
      · rename_i h0; rw [if_neg h0]
    · have hc : v ∈ ix'.addCache ∧ v.docId = d := by
        subst h
        rcases hv with ⟨h1, h2⟩ | ⟨rfl, h2⟩
        · exact ⟨by simp [Indexer.pushAdd, h1], h2⟩
        · exact ⟨by simp [Indexer.pushAdd], h2.symm⟩
      exact absurd hc (e v)

theorem Trace.prefix {h g : List IdxOp} {tr : Nat → AbsIndex} (ht : Trace (h ++ g) tr) : Trace h tr := by
  refine ⟨ht.1, fun i hi => ?_⟩
  have := ht.2 i (by rw [List.length_append]; omega)
  rwa [List.getElem_append_left hi] at this

theorem Followed.prefix {so : Sorter} {o : IndexerOpts} {h g : List IdxOp} {tr : Nat → AbsIndex}
    (hf : Followed so o (h ++ g) tr) : Followed so o h tr := by
  intro i hi
  have := hf i (by rw [List.length_append]; omega)
  rwa [List.take_append_of_le_length hi] at this

theorem Fits.prefix {o : IndexerOpts} {h g : List IdxOp} (hf : Fits o (h ++ g)) : Fits o h :=
  fun h1 op h2 e => hf h1 op (h2 ++ g) (by rw [e]; simp)

/-- A call that does not refresh shows nothing new. -/
theorem vis_step_le {so : Sorter} {ix ix' : Indexer} {k k' : GoMap DocIndex} {op : IdxOp}
    (hi' : Inv ix' k') (h : ix.step so op = some ix') (hs : AbsStep op (absOf ix k) (absOf ix' k'))
    (hr : op.refreshes = false) (hl : ix.addCache.length + (if op.adds then 1 else 0) < ix.opts.docCacheSize) (d : Str) :
    (absOf ix' k').vis d = none ∨ (absOf ix' k').vis d = (absOf ix k).vis d := by
  by_cases hrm : ∃ f, op = .remove d f
  · obtain ⟨f, rfl⟩ := hrm
    rw [hs.1 d]
    split
    · exact .inl rfl
    · exact .inr rfl
  · exact .inr ((vis_step_calm hi' h hs hr hl d).1 (fun f e => hrm ⟨f, e⟩))

/-- If nothing is visible, calls that do not refresh leave it so. -/
theorem vis_none_calm {so : Sorter} (hso : SortOk so) {o : IndexerOpts} {tr : Nat → AbsIndex} (h1 h2 : List IdxOp)
    (ht : Trace (h1 ++ h2) tr) (hfo : Followed so o (h1 ++ h2) tr) (hfi : Fits o (h1 ++ h2))
    (hok : ∀ x ∈ h1 ++ h2, OpOk x) (hr : ∀ x ∈ h2, x.refreshes = false) (h0 : ∀ d, (tr h1.length).vis d = none) :
    ∀ d, (tr (h1 ++ h2).length).vis d = none := by
  induction h2 using List.reverseRecOn with
  | nil => simpa using h0
  | append_singleton h2 op ih =>
    rw [← List.append_assoc] at ht hfo hfi hok ⊢
    have ih := ih ht.prefix hfo.prefix hfi.prefix (fun x hx => hok x (by
      rw [List.mem_append]; exact .inl hx)) (fun x hx => hr x (by simp [hx]))
    obtain ⟨ix, k, r1, v1, a1⟩ := hfo.prefix _ (Nat.le_refl (h1 ++ h2).length)
    obtain ⟨ix', k', r2, v2, a2⟩ := hfo _ (Nat.le_refl (h1 ++ h2 ++ [op]).length)
    rw [List.take_length] at r1 r2
    have hstep : ix.step so op = some ix' := by
      rw [Indexer.run_snoc, r1] at r2; exact r2
    have habs := ht.2 (h1 ++ h2).length (by simp only [List.length_append, List.length_singleton]; omega)
    have hop : (h1 ++ h2 ++ [op])[(h1 ++ h2).length]'(by simp only [List.length_append, List.length_singleton]; omega) = op := by
      rw [List.getElem_append_right (Nat.le_refl _)]
      simp only [Nat.sub_self, List.getElem_cons_zero]
    have hlen : (h1 ++ h2 ++ [op]).length = (h1 ++ h2).length + 1 := by
      rw [List.length_append (bs := [op])]; rfl
    rw [hop, a1, ← hlen, a2] at habs
    obtain ⟨ix2, c1, c2⟩ := fits_cap hso _ hfi.prefix (fun x hx => hok x (by rw [List.mem_append]; exact .inl hx))
    rw [r1] at c1
    cases c1
    have hopts := (run_inv hso o _ (fun x hx => hok x (by rw [List.mem_append]; exact .inl hx)) ix r1).1
    have hroom := hfi (h1 ++ h2) op [] rfl
    intro d
    rw [a2]
    rcases vis_step_le v2 hstep habs (hr op (by simp)) (by rw [hopts]; omega) d with e | e
    · exact e
    · rw [e, ← a1]; exact ih d

/-- Without an added document nothing is ever visible. -/
theorem vis_none_noAdds {h : List IdxOp} {tr : Nat → AbsIndex} (ht : Trace h tr) (hn : ∀ x ∈ h, x.adds = false) :
    ∀ d, (tr h.length).vis d = none ∧ ∀ x, ¬ (tr h.length).pend d x := by
  induction h using List.reverseRecOn with
  | nil => intro d; rw [List.length_nil, ht.1]; simp [AbsIndex.empty]
  | append_singleton h op ih =>
    have ih := ih ht.prefix (fun x hx => hn x (by simp [hx]))
    have habs := ht.2 h.length (by simp only [List.length_append, List.length_singleton]; omega)
    have hop : (h ++ [op])[h.length]'(by simp only [List.length_append, List.length_singleton]; omega) = op := by simp
    rw [hop] at habs
    have hlen : (h ++ [op]).length = h.length + 1 := by simp
    rw [hlen]
    intro d
    obtain ⟨i1, i2⟩ := ih d
    cases op with
    | add doc f => have := hn (.add doc f) (by simp); simp [IdxOp.adds] at this
    | flush f =>
      rcases habs d with ⟨e1, e2, _⟩ | ⟨_, ⟨x, hx⟩, _⟩ | ⟨v, hv, _⟩
      · exact ⟨by rw [e1, i1], fun x hx => i2 x ((e2 x).1 hx)⟩
      · exact absurd hx (i2 x)
      · exact absurd hv (i2 v)
    | remove id f =>
      refine ⟨?_, fun x hx => i2 x ((habs.2 d x).1 hx)⟩
      rw [habs.1 d, i1]; split <;> rfl

/-- What is visible after calls that do not refresh. -/
theorem vis_calm {so : Sorter} (hso : SortOk so) {o : IndexerOpts} {tr : Nat → AbsIndex} (h1 h2 : List IdxOp)
    (ht : Trace (h1 ++ h2) tr) (hfo : Followed so o (h1 ++ h2) tr) (hfi : Fits o (h1 ++ h2))
    (hok : ∀ x ∈ h1 ++ h2, OpOk x) (hr : ∀ x ∈ h2, x.refreshes = false) {d : Str} (h0 : d ≠ str "0") :
    ((tr (h1 ++ h2).length).vis d = none ∨ (tr (h1 ++ h2).length).vis d = (tr h1.length).vis d) ∧
    ((∀ f, IdxOp.remove d f ∉ h2) → (tr (h1 ++ h2).length).vis d = (tr h1.length).vis d) ∧
    ∀ f, IdxOp.remove d f ∈ h2 → (tr (h1 ++ h2).length).vis d = none := by
  induction h2 using List.reverseRecOn with
  | nil => simp
  | append_singleton h2 op ih =>
    rw [← List.append_assoc] at ht hfo hfi hok ⊢
    obtain ⟨i1, i2, i3⟩ := ih ht.prefix hfo.prefix hfi.prefix (fun x hx => hok x (by
      rw [List.mem_append]; exact .inl hx)) (fun x hx => hr x (by simp [hx]))
    obtain ⟨ix, k, r1, v1, a1⟩ := hfo.prefix _ (Nat.le_refl (h1 ++ h2).length)
    obtain ⟨ix', k', r2, v2, a2⟩ := hfo _ (Nat.le_refl (h1 ++ h2 ++ [op]).length)
    rw [List.take_length] at r1 r2
    have hstep : ix.step so op = some ix' := by
      rw [Indexer.run_snoc, r1] at r2; exact r2
    have habs := ht.2 (h1 ++ h2).length (by simp only [List.length_append, List.length_singleton]; omega)
    have hop : (h1 ++ h2 ++ [op])[(h1 ++ h2).length]'(by simp only [List.length_append, List.length_singleton]; omega) = op := by
      rw [List.getElem_append_right (Nat.le_refl _)]
      simp only [Nat.sub_self, List.getElem_cons_zero]
    have hlen : (h1 ++ h2 ++ [op]).length = (h1 ++ h2).length + 1 := by
      rw [List.length_append (bs := [op])]; rfl
    rw [hop, a1, ← hlen, a2] at habs
    obtain ⟨ix2, c1, c2⟩ := fits_cap hso _ hfi.prefix (fun x hx => hok x (by rw [List.mem_append]; exact .inl hx))
    rw [r1] at c1
    cases c1
    have hopts := (run_inv hso o _ (fun x hx => hok x (by rw [List.mem_append]; exact .inl hx)) ix r1).1
    have hroom := hfi (h1 ++ h2) op [] rfl
    obtain ⟨s1, s2⟩ := vis_step_calm v2 hstep habs (hr op (by simp)) (by rw [hopts]; omega) d
    rw [← a1, ← a2] at s1
    rw [← a2] at s2
    by_cases hrm : ∃ f, op = .remove d f
    · obtain ⟨f, rfl⟩ := hrm
      have hn := s2 f rfl h0
      exact ⟨.inl hn, fun hno => absurd (by simp) (hno f), fun _ _ => hn⟩
    · have hv := s1 (fun f e => hrm ⟨f, e⟩)
      refine ⟨by rw [hv]; exact i1, fun hno => ?_, fun f hf => ?_⟩
      · rw [hv]; exact i2 (fun f hf => hno f (by simp [hf]))
      · rw [hv]
        rcases List.mem_append.1 hf with hf | hf
        · exact i3 f hf
        · simp only [List.mem_singleton] at hf
          exact absurd ⟨f, hf.symm⟩ hrm

end Riot
