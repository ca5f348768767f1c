import Verif.Spec.Float32
import Verif.Proofs.Float32
import Verif.Proofs.IndexRun

/-!
# Index mutations with float32 arithmetic
-/

namespace Riot

variable {rnd : Rat → Rat}

/-! ## All rounding functions: only the total differs -/

/-- The state with another total. -/
abbrev Indexer.withTotal (s : Indexer) (x : Rat) : Indexer := { s with totalTokenLen := x }

/-- Equal except for the total token length. -/
def SameBut (s t : Indexer) : Prop := t = s.withTotal t.totalTokenLen

theorem SameBut.refl (s : Indexer) : SameBut s s := rfl

/-- Both panic, or both succeed with related results. -/
def SimOpt {α β : Type} (R : α → β → Prop) (x : Option α) (y : Option β) : Prop :=
  (x = none ∧ y = none) ∨ ∃ a b, x = some a ∧ y = some b ∧ R a b

theorem SimOpt.bind {α β γ δ : Type} {R : α → β → Prop} {Q : γ → δ → Prop} {x : Option α} {y : Option β}
    (h : SimOpt R x y) {f : α → Option γ} {g : β → Option δ} (hfg : ∀ a b, R a b → SimOpt Q (f a) (g b)) :
    SimOpt Q (x.bind f) (y.bind g) := by
  rcases h with ⟨rfl, rfl⟩ | ⟨a, b, rfl, rfl, hab⟩
  · exact .inl ⟨rfl, rfl⟩
  · exact hfg a b hab

theorem SimOpt.of_eq {α : Type} {R : α → α → Prop} (hR : ∀ a, R a a) (x : Option α) : SimOpt R x x := by
  cases x with
  | none => exact .inl ⟨rfl, rfl⟩
  | some a => exact .inr ⟨a, a, rfl, rfl, hR a⟩

/-- Pairs whose first components agree except for the total. -/
def SamePair {α : Type} (x y : Indexer × α) : Prop := SameBut x.1 y.1 ∧ x.2 = y.2

theorem addOneDoc_withTotal (s : Indexer) (x : Rat) (ptrs : GoMap Nat) (doc : DocIndex) :
    SimOpt SamePair (addOneDoc s ptrs doc) (addOneDocF rnd (s.withTotal x) ptrs doc) := by
  unfold addOneDoc addOneDocF
  by_cases h : s.docsState.get doc.docId = some 1
  · rw [if_pos h, if_pos (by exact h)]
    exact .inr ⟨_, _, rfl, rfl, rfl, rfl⟩
  have h' : ¬ (s.withTotal x).docsState.get doc.docId = some 1 := h
  rw [if_neg h, if_neg h']
  by_cases ht : doc.tokenLen = 0
  · simp only [ht, ne_eq, not_true_eq_false, if_false]
    show SimOpt SamePair ((addKeywords s.opts.indexType doc.docId doc.keywords s.table ptrs).bind _)
      ((addKeywords s.opts.indexType doc.docId doc.keywords s.table ptrs).bind _)
    refine (SimOpt.of_eq (R := Eq) (fun _ => rfl) _).bind ?_
    rintro a b rfl
    exact .inr ⟨_, _, rfl, rfl, rfl, rfl⟩
  · simp only [ht, ne_eq, not_false_eq_true, if_true]
    show SimOpt SamePair ((addKeywords s.opts.indexType doc.docId doc.keywords s.table ptrs).bind _)
      ((addKeywords s.opts.indexType doc.docId doc.keywords s.table ptrs).bind _)
    refine (SimOpt.of_eq (R := Eq) (fun _ => rfl) _).bind ?_
    rintro a b rfl
    exact .inr ⟨_, _, rfl, rfl, rfl, rfl⟩

theorem addDocsLoop_sim (docs : List DocIndex) : ∀ (s t : Indexer) (ptrs : GoMap Nat), SameBut s t →
    SimOpt SameBut (addDocsLoop docs s ptrs) (addDocsLoopF rnd docs t ptrs) := by
  induction docs with
  | nil => intro s t ptrs h; exact .inr ⟨s, t, rfl, rfl, h⟩
  | cons doc rest ih =>
    intro s t ptrs h
    have hone : SimOpt SameBut
        ((addOneDoc s ptrs doc).bind (fun r => addDocsLoop rest r.1 r.2))
        ((addOneDocF rnd t ptrs doc).bind (fun r => addDocsLoopF rnd rest r.1 r.2)) := by
      unfold SameBut at h
      rw [h]
      refine (addOneDoc_withTotal s _ ptrs doc).bind ?_
      rintro ⟨a, p⟩ ⟨b, p'⟩ ⟨h1, h2⟩
      simp only at h1 h2
      subst h2
      exact ih a b p h1
    cases rest with
    | nil => simpa only [addDocsLoop, addDocsLoopF, bind] using hone
    | cons next rest' =>
      rw [addDocsLoop, addDocsLoopF]
      simp only []
      by_cases hc : doc.docId = next.docId
      · rw [if_pos hc, if_pos hc]; exact ih s t ptrs h
      · rw [if_neg hc, if_neg hc]; exact hone

theorem forgetDocs_sim (docs : List Str) : ∀ (s t : Indexer), SameBut s t →
    SameBut (forgetDocs docs s) (forgetDocsF rnd docs t) := by
  induction docs with
  | nil => intro s t h; exact h
  | cons d ds ih =>
    intro s t h
    unfold SameBut at h
    rw [h]
    simp only [forgetDocs, forgetDocsF]
    exact ih _ _ rfl

theorem removeDocs_sim (docs : List Str) {s t : Indexer} (h : SameBut s t) :
    SimOpt SameBut (s.removeDocs docs) (t.removeDocsF rnd docs) := by
  unfold Indexer.removeDocs Indexer.removeDocsF
  have h1 := forgetDocs_sim (rnd := rnd) docs s t h
  unfold SameBut at h1
  rw [h1]
  simp only [bind, pure, Indexer.withTotal]
  cases (forgetDocs docs s).table.rangeUpdate (removeRow (forgetDocs docs s).opts.indexType docs) with
  | none => exact .inl ⟨rfl, rfl⟩
  | some tb => exact .inr ⟨_, _, rfl, rfl, rfl⟩

theorem registerRemoval_sim (d : Str) {s t : Indexer} (h : SameBut s t) :
    SimOpt SameBut (registerRemoval s d) (registerRemoval t d) := by
  unfold SameBut at h
  rw [h]
  unfold registerRemoval
  simp only [Indexer.withTotal]
  by_cases h0 : d ≠ str "0"
  · rw [if_pos h0, if_pos h0]
    split
    · by_cases hc : s.removeCache.length < 2 * s.opts.docCacheSize
      · rw [if_pos hc, if_pos hc]; exact .inr ⟨_, _, rfl, rfl, rfl⟩
      · rw [if_neg hc, if_neg hc]; exact .inl ⟨rfl, rfl⟩
    · exact .inr ⟨_, _, rfl, rfl, rfl⟩
    · exact .inr ⟨_, _, rfl, rfl, rfl⟩
  · rw [if_neg h0, if_neg h0]; exact .inr ⟨_, _, rfl, rfl, rfl⟩

theorem removeDocToCache_sim (so : Sorter) (d : Str) (force : Bool) {s t : Indexer} (h : SameBut s t) :
    SimOpt SamePair (s.removeDocToCache so d force) (t.removeDocToCacheF rnd so d force) := by
  unfold Indexer.removeDocToCache Indexer.removeDocToCacheF
  refine (registerRemoval_sim d h).bind ?_
  intro a b hab
  unfold SameBut at hab
  rw [hab]
  simp only [Indexer.withTotal, bind, pure]
  by_cases hc : a.removeCache.length > 0 ∧ (a.removeCache.length ≥ a.opts.docCacheSize ∨ force = true)
  · rw [if_pos hc, if_pos hc]
    refine (removeDocs_sim (so.ids a.removeCache) (s := { a with removeCache := [] })
      (t := { a.withTotal b.totalTokenLen with removeCache := [] }) rfl).bind ?_
    intro x y hxy
    exact .inr ⟨_, _, rfl, rfl, hxy, rfl⟩
  · rw [if_neg hc, if_neg hc]; exact .inr ⟨_, _, rfl, rfl, rfl, rfl⟩

theorem scanCache_sim : ∀ (fuel i pos : Nat) (s t : Indexer), SameBut s t →
    SimOpt SamePair (scanCache fuel i pos s) (scanCache fuel i pos t) := by
  intro fuel
  induction fuel with
  | zero => intro i pos s t h; exact .inr ⟨_, _, rfl, rfl, h, rfl⟩
  | succ fuel ih =>
    intro i pos s t h
    unfold SameBut at h
    rw [h]
    simp only [scanCache, Indexer.withTotal]
    cases s.addCache[i]? with
    | none => exact .inl ⟨rfl, rfl⟩
    | some doc =>
      simp only []
      cases s.docsState.get doc.docId with
      | none => exact ih _ _ _ _ rfl
      | some st =>
        simp only []
        by_cases h1 : st ≤ 1
        · rw [if_pos h1, if_pos h1]
          cases swapCache s.addCache pos i doc with
          | none => exact .inl ⟨rfl, rfl⟩
          | some cache =>
            simp only []
            by_cases h0 : st = 0
            · rw [if_pos h0, if_pos h0]
              by_cases hc : s.removeCache.length < 2 * s.opts.docCacheSize
              · rw [if_pos hc, if_pos hc]; exact ih _ _ _ _ rfl
              · rw [if_neg hc, if_neg hc]; exact .inl ⟨rfl, rfl⟩
            · rw [if_neg h0, if_neg h0]; exact ih _ _ _ _ rfl
        · rw [if_neg h1, if_neg h1]; exact ih _ _ _ _ rfl

theorem flushAdds_sim (so : Sorter) (force : Bool) {s t : Indexer} (h : SameBut s t) :
    SimOpt SameBut (flushAdds so s force) (flushAddsF rnd so t force) := by
  unfold flushAdds flushAddsF
  have hl : t.addCache.length = s.addCache.length := by unfold SameBut at h; rw [h]
  rw [hl]
  refine (scanCache_sim _ 0 0 s t h).bind ?_
  rintro ⟨a, p⟩ ⟨b, p'⟩ ⟨hab, hp⟩
  simp only at hab hp
  subst hp
  refine (removeDocToCache_sim so (str "0") force hab).bind ?_
  rintro ⟨c, r⟩ ⟨d, r'⟩ ⟨hcd, hr⟩
  simp only at hcd hr
  subst hr
  unfold SameBut at hcd
  rw [hcd]
  exact addDocsLoop_sim _ _ _ _ rfl

theorem addDocToCache_tail (so : Sorter) (force : Bool) {a b : Indexer} (hab : SameBut a b) :
    SimOpt SameBut
      (if a.addCache.length ≥ a.opts.docCacheSize ∨ force = true then flushAdds so a force else some a)
      (if b.addCache.length ≥ b.opts.docCacheSize ∨ force = true then flushAddsF rnd so b force
        else some b) := by
  have e1 : b.addCache.length = a.addCache.length := by unfold SameBut at hab; rw [hab]
  have e2 : b.opts.docCacheSize = a.opts.docCacheSize := by unfold SameBut at hab; rw [hab]
  rw [e1, e2]
  by_cases hc : a.addCache.length ≥ a.opts.docCacheSize ∨ force = true
  · rw [if_pos hc, if_pos hc]; exact flushAdds_sim so force hab
  · rw [if_neg hc, if_neg hc]; exact .inr ⟨_, _, rfl, rfl, hab⟩

theorem addDocToCache_sim (so : Sorter) (doc : Option DocIndex) (force : Bool) {s t : Indexer}
    (h : SameBut s t) :
    SimOpt SameBut (s.addDocToCache so doc force) (t.addDocToCacheF rnd so doc force) := by
  unfold Indexer.addDocToCache Indexer.addDocToCacheF
  cases doc with
  | none => exact addDocToCache_tail so force h
  | some d =>
    have h' := h
    unfold SameBut at h'
    rw [h']
    simp only [bind, pure]
    by_cases hc : s.addCache.length < s.opts.docCacheSize
    · rw [if_pos hc, if_pos hc]
      exact addDocToCache_tail so force
        (a := { s with addCache := s.addCache ++ [d] })
        (b := { s.withTotal t.totalTokenLen with addCache := s.addCache ++ [d] }) rfl
    · rw [if_neg hc, if_neg hc]; exact .inl ⟨rfl, rfl⟩

theorem step_sim (so : Sorter) (op : IdxOp) {s t : Indexer} (h : SameBut s t) :
    SimOpt SameBut (s.step so op) (t.stepF rnd so op) := by
  cases op with
  | add d f => exact addDocToCache_sim so (some d) f h
  | flush f => exact addDocToCache_sim so none f h
  | remove d f =>
    simp only [Indexer.step, Indexer.stepF]
    rcases removeDocToCache_sim (rnd := rnd) so d f h with ⟨h1, h2⟩ | ⟨a, b, h1, h2, h3⟩
    · rw [h1, h2]; exact .inl ⟨rfl, rfl⟩
    · rw [h1, h2]; exact .inr ⟨_, _, rfl, rfl, h3.1⟩

theorem run_sim (so : Sorter) (ops : List IdxOp) : ∀ (s t : Indexer), SameBut s t →
    SimOpt SameBut (s.run so ops) (t.runF rnd so ops) := by
  induction ops with
  | nil => intro s t h; exact .inr ⟨s, t, rfl, rfl, h⟩
  | cons op ops ih =>
    intro s t h
    exact (step_sim so op h).bind (fun a b hab => ih a b hab)

theorem Indexer.runF_snoc (so : Sorter) (s : Indexer) (h : List IdxOp) (op : IdxOp) :
    s.runF rnd so (h ++ [op]) = (s.runF rnd so h).bind (fun s' => s'.stepF rnd so op) := by
  induction h generalizing s with
  | nil => simp [Indexer.runF]
  | cons a h ih =>
    simp only [List.cons_append, Indexer.runF, Option.bind_assoc]
    congr 1
    funext s'
    exact ih s'

/-! ## Exact totals -/

/-- `x` is a natural number. -/
def IsNat (x : Rat) : Prop := ∃ n : Nat, x = n

theorem IsNat.nonneg {x : Rat} (h : IsNat x) : 0 ≤ x := by obtain ⟨n, rfl⟩ := h; positivity

theorem IsNat.add {x y : Rat} (h : IsNat x) (h' : IsNat y) : IsNat (x + y) := by
  obtain ⟨n, rfl⟩ := h; obtain ⟨m, rfl⟩ := h'; exact ⟨n + m, by push_cast; rfl⟩

theorem IsNat.sub {x y : Rat} (h : IsNat x) (h' : IsNat y) (hle : y ≤ x) : IsNat (x - y) := by
  obtain ⟨n, rfl⟩ := h; obtain ⟨m, rfl⟩ := h'
  have : m ≤ n := by exact_mod_cast hle
  exact ⟨n - m, by push_cast [this]; rfl⟩

variable {bound : Int}

theorem exact_nat (hr : ExactUpTo bound rnd) {x : Rat} (hx : IsNat x) (hb : x ≤ bound) : rnd x = x := by
  obtain ⟨n, rfl⟩ := hx
  have := hr n (by rw [abs_of_nonneg (by positivity)]; exact_mod_cast hb)
  exact_mod_cast this

/-- The lengths the index knows are natural numbers. -/
def LensNat (s : Indexer) : Prop := ∀ d v, s.docTokenLens.get d = some v → IsNat v

theorem forgetDocs_mono (docs : List Str) : ∀ (s : Indexer), LensNat s →
    (forgetDocs docs s).totalTokenLen ≤ s.totalTokenLen := by
  induction docs with
  | nil => intro s _; exact le_rfl
  | cons d ds ih =>
    intro s hl
    simp only [forgetDocs]
    refine (ih _ ?_).trans ?_
    · intro d' v hv
      simp only [GoMap.get_del] at hv
      split at hv
      · simp at hv
      · exact hl d' v hv
    · have : 0 ≤ (s.docTokenLens.get d).getD 0 := by
        cases h : s.docTokenLens.get d with
        | none => simp
        | some v => exact (hl d v h).nonneg
      simp only
      linarith

theorem forgetDocsF_exact (hr : ExactUpTo bound rnd) (docs : List Str) : ∀ (s : Indexer), LensNat s →
    IsNat s.totalTokenLen → s.totalTokenLen ≤ bound → 0 ≤ (forgetDocs docs s).totalTokenLen →
    forgetDocsF rnd docs s = forgetDocs docs s := by
  induction docs with
  | nil => intro s _ _ _ _; rfl
  | cons d ds ih =>
    intro s hl hn hb hfin
    have hv : IsNat ((s.docTokenLens.get d).getD 0) := by
      cases h : s.docTokenLens.get d with
      | none => exact ⟨0, by simp⟩
      | some v => exact hl d v h
    have hl' : LensNat { s with totalTokenLen := s.totalTokenLen - (s.docTokenLens.get d).getD 0, docTokenLens := s.docTokenLens.del d, docsState := s.docsState.del d } := by
      intro d' v hv
      simp only [GoMap.get_del] at hv
      split at hv
      · simp at hv
      · exact hl d' v hv
    simp only [forgetDocs] at hfin
    have hm := forgetDocs_mono ds _ hl'
    have h0 : 0 ≤ s.totalTokenLen - (s.docTokenLens.get d).getD 0 := hfin.trans hm
    have hnat := hn.sub hv (by linarith)
    have hle : s.totalTokenLen - (s.docTokenLens.get d).getD 0 ≤ bound := by linarith [hv.nonneg]
    simp only [forgetDocs, forgetDocsF]
    rw [exact_nat hr hnat hle]
    exact ih _ hl' hnat hle hfin

theorem addOneDoc_total {s s' : Indexer} {ptrs ptrs' : GoMap Nat} {doc : DocIndex}
    (h : addOneDoc s ptrs doc = some (s', ptrs')) :
    s'.totalTokenLen = s.totalTokenLen ∨ s'.totalTokenLen = s.totalTokenLen + doc.tokenLen := by
  unfold addOneDoc at h
  split at h
  · simp only [Option.some.injEq, Prod.mk.injEq] at h; left; rw [h.1]
  · simp only [bind, pure, Option.bind_eq_some_iff, Option.some.injEq, Prod.mk.injEq] at h
    obtain ⟨r, _, h1, _⟩ := h
    rw [← h1]
    split
    · right; rfl
    · left; rfl

theorem addOneDocF_exact (hr : ExactUpTo bound rnd) {s s' : Indexer} {ptrs ptrs' : GoMap Nat} {doc : DocIndex}
    (hn : IsNat s.totalTokenLen) (hd : IsNat doc.tokenLen)
    (h : addOneDoc s ptrs doc = some (s', ptrs')) (hb : s'.totalTokenLen ≤ bound) :
    addOneDocF rnd s ptrs doc = some (s', ptrs') := by
  unfold addOneDoc at h
  unfold addOneDocF
  split at h
  · rename_i hc; rw [if_pos hc]; exact h
  · rename_i hc
    rw [if_neg hc]
    by_cases ht : doc.tokenLen = 0
    · simpa [ht] using h
    · simp only [ne_eq, ht, not_false_eq_true, if_true] at h ⊢
      have h2 := h
      simp only [bind, pure, Option.bind_eq_some_iff, Option.some.injEq, Prod.mk.injEq] at h2
      obtain ⟨r, _, h1, _⟩ := h2
      rw [← h1] at hb
      rw [exact_nat hr (hn.add hd) hb]
      exact h

theorem addDocsLoop_mono (docs : List DocIndex) : ∀ (s s' : Indexer) (ptrs : GoMap Nat),
    (∀ x ∈ docs, IsNat x.tokenLen) → addDocsLoop docs s ptrs = some s' →
    s.totalTokenLen ≤ s'.totalTokenLen := by
  induction docs with
  | nil => intro s s' ptrs _ h; simp only [addDocsLoop, Option.some.injEq] at h; rw [h]
  | cons doc rest ih =>
    intro s s' ptrs hn h
    have hone : ∀ r, addOneDoc s ptrs doc = some r → addDocsLoop rest r.1 r.2 = some s' →
        s.totalTokenLen ≤ s'.totalTokenLen := by
      intro r h1 h2
      refine le_trans ?_ (ih _ _ _ (fun x hx => hn x (by simp [hx])) h2)
      rcases addOneDoc_total (s' := r.1) (ptrs' := r.2) h1 with e | e
      · rw [e]
      · rw [e]; linarith [(hn doc (by simp)).nonneg]
    cases rest with
    | nil =>
      simp only [addDocsLoop, bind, Option.bind_eq_some_iff] at h
      obtain ⟨r, h1, h2⟩ := h
      exact hone r h1 (by simpa [addDocsLoop] using h2)
    | cons next rest' =>
      simp only [addDocsLoop] at h
      split at h
      · exact ih s s' ptrs (fun x hx => hn x (by simp [hx])) h
      · simp only [bind, Option.bind_eq_some_iff] at h
        obtain ⟨r, h1, h2⟩ := h
        exact hone r h1 h2

theorem addDocsLoopF_exact (hr : ExactUpTo bound rnd) (docs : List DocIndex) :
    ∀ (s s' : Indexer) (ptrs : GoMap Nat), IsNat s.totalTokenLen → (∀ x ∈ docs, IsNat x.tokenLen) →
    addDocsLoop docs s ptrs = some s' → s'.totalTokenLen ≤ bound →
    addDocsLoopF rnd docs s ptrs = some s' := by
  induction docs with
  | nil => intro s s' ptrs _ _ h _; exact h
  | cons doc rest ih =>
    intro s s' ptrs hn hd h hb
    have hd' : ∀ x ∈ rest, IsNat x.tokenLen := fun x hx => hd x (by simp [hx])
    have hone : ∀ r, addOneDoc s ptrs doc = some r → addDocsLoop rest r.1 r.2 = some s' →
        addOneDocF rnd s ptrs doc = some r ∧ addDocsLoopF rnd rest r.1 r.2 = some s' := by
      intro r h1 h2
      have hm := addDocsLoop_mono rest _ _ _ hd' h2
      refine ⟨addOneDocF_exact hr (s' := r.1) (ptrs' := r.2) hn (hd doc (by simp)) h1 (hm.trans hb), ?_⟩
      refine ih _ _ _ ?_ hd' h2 hb
      rcases addOneDoc_total (s' := r.1) (ptrs' := r.2) h1 with e | e
      · rw [e]; exact hn
      · rw [e]; exact hn.add (hd doc (by simp))
    cases rest with
    | nil =>
      simp only [addDocsLoop, addDocsLoopF, bind, Option.bind_eq_some_iff] at h ⊢
      obtain ⟨r, h1, h2⟩ := h
      exact ⟨r, (hone r h1 (by simpa [addDocsLoop] using h2)).1, by simpa using h2⟩
    | cons next rest' =>
      simp only [addDocsLoop, addDocsLoopF] at h ⊢
      split at h
      · rename_i hc; rw [if_pos hc]
        exact ih s s' ptrs hn hd' h hb
      · rename_i hc; rw [if_neg hc]
        simp only [bind, Option.bind_eq_some_iff] at h ⊢
        obtain ⟨r, h1, h2⟩ := h
        exact ⟨r, hone r h1 h2⟩

end Riot
