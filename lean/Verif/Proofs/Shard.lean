import Verif.Model.Shard
import Verif.Spec.Index

/-!
# Calls that do not overlap behave as in Model/Indexer
-/

namespace Riot

/-- Put a removal cache. -/
def Indexer.withRem (s : Indexer) (R : List Str) : Indexer := { s with removeCache := R }

theorem addOneDoc_withRem (s : Indexer) (R : List Str) (p : GoMap Nat) (doc : DocIndex) :
    addOneDoc (s.withRem R) p doc = (addOneDoc s p doc).map (fun x => (x.1.withRem R, x.2)) := by
  unfold addOneDoc
  have : (s.withRem R).docsState = s.docsState := rfl
  rw [this]
  by_cases h1 : s.docsState.get doc.docId = some 1
  · simp [h1]
  · simp only [h1, if_false]
    by_cases h2 : doc.tokenLen = 0
    · simp only [h2, ne_eq, not_true_eq_false, if_false, bind, pure]
      simp only [Indexer.withRem]
      cases addKeywords s.opts.indexType doc.docId doc.keywords s.table p <;> simp
    · simp only [h2, ne_eq, not_false_eq_true, if_true, bind, pure]
      simp only [Indexer.withRem]
      cases addKeywords s.opts.indexType doc.docId doc.keywords s.table p <;> simp

theorem addDocsLoop_withRem (R : List Str) (docs : List DocIndex) : ∀ (s : Indexer) (p : GoMap Nat),
    addDocsLoop docs (s.withRem R) p = (addDocsLoop docs s p).map (·.withRem R) := by
  induction docs with
  | nil => intro s p; simp [addDocsLoop]
  | cons doc rest ih =>
    intro s p
    cases rest with
    | nil =>
      simp only [addDocsLoop, bind, addOneDoc_withRem]
      cases addOneDoc s p doc <;> simp
    | cons next rest =>
      rw [addDocsLoop, addDocsLoop]
      split
      · exact ih s p
      · simp only [bind, addOneDoc_withRem]
        cases addOneDoc s p doc with
        | none => rfl
        | some x => simp only [Option.map_some, Option.bind_some]; exact ih x.1 x.2

theorem addDocs_withRem (s : Indexer) (R : List Str) (docs : List DocIndex) :
    (s.withRem R).addDocs docs = (s.addDocs docs).map (·.withRem R) :=
  addDocsLoop_withRem R docs s .empty

theorem forgetDocs_withRem (R : List Str) (docs : List Str) : ∀ s : Indexer,
    forgetDocs docs (s.withRem R) = (forgetDocs docs s).withRem R := by
  induction docs with
  | nil => intro s; rfl
  | cons d ds ih =>
    intro s
    rw [forgetDocs, forgetDocs]
    exact ih { s with totalTokenLen := s.totalTokenLen - (s.docTokenLens.get d).getD 0,
                      docTokenLens := s.docTokenLens.del d, docsState := s.docsState.del d }

theorem removeDocs_withRem (s : Indexer) (R : List Str) (docs : List Str) :
    (s.withRem R).removeDocs docs = (s.removeDocs docs).map (·.withRem R) := by
  unfold Indexer.removeDocs
  rw [forgetDocs_withRem]
  simp only [bind, pure]
  have h1 : ((forgetDocs docs s).withRem R).table = (forgetDocs docs s).table := rfl
  have h2 : ((forgetDocs docs s).withRem R).opts = (forgetDocs docs s).opts := rfl
  rw [h1, h2]
  cases (forgetDocs docs s).table.rangeUpdate (removeRow (forgetDocs docs s).opts.indexType docs) <;> rfl

/-- What AddDocs and RemoveDocs leave alone. -/
def Indexer.same (s s' : Indexer) : Prop :=
  s'.opts = s.opts ∧ s'.addCache = s.addCache ∧ s'.removeCache = s.removeCache

theorem Indexer.same.trans {a b c : Indexer} (h : a.same b) (h' : b.same c) : a.same c :=
  ⟨h'.1.trans h.1, h'.2.1.trans h.2.1, h'.2.2.trans h.2.2⟩

theorem addOneDoc_same {s s' : Indexer} {p p' : GoMap Nat} {doc : DocIndex}
    (h : addOneDoc s p doc = some (s', p')) : s.same s' := by
  unfold addOneDoc at h
  split at h
  · simp at h; rw [← h.1]; exact ⟨rfl, rfl, rfl⟩
  · simp only [bind, pure, Option.bind_eq_some_iff] at h
    obtain ⟨x, _, h⟩ := h
    simp only [Option.some.injEq, Prod.mk.injEq] at h
    rw [← h.1]
    split <;> exact ⟨rfl, rfl, rfl⟩

theorem addDocsLoop_same (docs : List DocIndex) : ∀ (s s' : Indexer) (p : GoMap Nat),
    addDocsLoop docs s p = some s' → s.same s' := by
  induction docs with
  | nil => intro s s' p h; simp [addDocsLoop] at h; subst h; exact ⟨rfl, rfl, rfl⟩
  | cons doc rest ih =>
    intro s s' p h
    cases rest with
    | nil =>
      simp only [addDocsLoop, bind, Option.bind_eq_some_iff] at h
      obtain ⟨⟨s1, p1⟩, h1, h2⟩ := h
      simp only [Option.some.injEq] at h2
      subst h2
      exact addOneDoc_same h1
    | cons next rest =>
      rw [addDocsLoop] at h
      split at h
      · exact ih s s' p h
      · simp only [bind, Option.bind_eq_some_iff] at h
        obtain ⟨⟨s1, p1⟩, h1, h2⟩ := h
        exact (addOneDoc_same h1).trans (ih _ _ _ h2)

theorem addDocs_same {s s' : Indexer} {docs : List DocIndex} (h : s.addDocs docs = some s') : s.same s' :=
  addDocsLoop_same docs s s' _ h

theorem forgetDocs_same (docs : List Str) : ∀ s : Indexer, s.same (forgetDocs docs s) := by
  induction docs with
  | nil => intro s; exact ⟨rfl, rfl, rfl⟩
  | cons d ds ih =>
    intro s
    have := ih { s with totalTokenLen := s.totalTokenLen - (s.docTokenLens.get d).getD 0,
                        docTokenLens := s.docTokenLens.del d, docsState := s.docsState.del d }
    rw [forgetDocs]
    exact ⟨this.1, this.2.1, this.2.2⟩

theorem removeDocs_same {s s' : Indexer} {docs : List Str} (h : s.removeDocs docs = some s') : s.same s' := by
  unfold Indexer.removeDocs at h
  simp only [bind, pure, Option.bind_eq_some_iff] at h
  obtain ⟨t, _, h⟩ := h
  simp only [Option.some.injEq] at h
  subst h
  have := forgetDocs_same docs s
  exact ⟨this.1, this.2.1, this.2.2⟩

/-! ## The rest of a call -/

/-- The result of the rest of RemoveDocToCache. -/
def CShard.remFinish (so : Sorter) (st : CShard) : RemPC → Option (Indexer × Bool)
  | .lockCache id f => st.abs.removeDocToCache so id f
  | .lockTable id f => st.abs.removeDocToCache so id f
  | .check f => st.abs.removeDocToCache so (str "0") f
  | .sort n => (st.abs.removeDocs (so.ids (st.arr.take n))).map (·, true)
  | .remove n => (st.abs.removeDocs (st.arr.take n)).map (·, true)
  | .ret b => some (st.abs, b)

/-- core/indexer.go:163-172: the last part of AddDocToCache. -/
def takeAdds (so : Sorter) (x : Indexer × Bool) (position : Nat) : Option Indexer :=
  let position := if x.2 then 0 else position
  { x.1 with addCache := x.1.addCache.take position }.addDocs (so.docs (x.1.addCache.drop position))

/-- The result of the rest of AddDocToCache. -/
def CShard.addFinish (so : Sorter) (st : CShard) : Option Indexer :=
  match st.add with
  | .idle => some st.abs
  | .put doc f => st.abs.addDocToCache so doc f
  | .lockTable f => flushAdds so st.abs f
  | .scan fuel i position f => do
    let (s, p) ← scanCache fuel i position st.abs
    let x ← s.removeDocToCache so (str "0") f
    takeAdds so x p
  | .lockCache fuel i position f id =>
    (if st.abs.removeCache.length < 2 * st.abs.opts.docCacheSize then
        some { st.abs with removeCache := st.abs.removeCache ++ [id],
                           docsState := st.abs.docsState.set id 1,
                           numDocs := st.abs.numDocs - 1 }
      else none).bind
    (fun s => (scanCache fuel (i + 1) (position + 1) s).bind
      (fun x => (x.1.removeDocToCache so (str "0") f).bind (fun y => takeAdds so y x.2)))
  | .remove pc position => do
    let x ← st.remFinish so pc
    takeAdds so x position
  | .lockTable2 docs => st.abs.addDocs docs

/-- The result of the call in progress (at most one worker is busy). -/
def CShard.finish (so : Sorter) (st : CShard) : Option Indexer :=
  if st.dead then none else
  match st.rem with
  | none => st.addFinish so
  | some pc => (st.remFinish so pc).map (·.1)

/-- Array and pointer are in bounds. -/
structure CShard.Ok (st : CShard) : Prop where
  len : st.arr.length = 2 * st.ix.opts.docCacheSize
  ptr : st.ptr ≤ st.arr.length
  nil : st.ix.removeCache = []

/-- The removal slice in use is in bounds and the cache is empty. -/
def CShard.slice (st : CShard) : RemPC → Prop
  | .sort n => n ≤ st.arr.length ∧ st.ptr = 0
  | .remove n => n ≤ st.arr.length ∧ st.ptr = 0
  | .lockTable id _ => id ≠ str "0"
  | _ => True

theorem take_set_append {l : List Str} {n : Nat} {x : Str} (h : n < l.length) :
    (l.set n x).take (n + 1) = l.take n ++ [x] := by
  rw [List.take_add_one]
  rw [List.take_set_of_le (le_refl n)]
  simp [h]

theorem push_abs {st : CShard} (ok : st.Ok) (id : Str) :
    st.push id = if st.abs.removeCache.length < 2 * st.abs.opts.docCacheSize then
      some { st with arr := st.arr.set st.ptr id, ptr := st.ptr + 1 } else none := by
  have h1 : st.abs.removeCache.length = st.ptr := by
    simp [CShard.abs, List.length_take, ok.ptr]
  have h2 : st.abs.opts = st.ix.opts := rfl
  unfold CShard.push goSet
  rw [h1, h2, ← ok.len]
  by_cases h : st.ptr < st.arr.length <;> simp [h]

theorem abs_eq_withRem (st : CShard) : st.abs = st.ix.withRem (st.arr.take st.ptr) := rfl

theorem register_abs {st : CShard} (ok : st.Ok) {id : Str} (h0 : id ≠ str "0") :
    (st.register id).map CShard.abs = registerRemoval st.abs id ∧
    ∀ st', st.register id = some st' → st'.Ok ∧ st'.add = st.add ∧ st'.rem = st.rem ∧ st'.dead = st.dead ∧
      st'.ix.opts = st.ix.opts ∧ st'.readers = st.readers := by
  unfold CShard.register registerRemoval
  rw [if_pos h0]
  have hd : st.abs.docsState = st.ix.docsState := rfl
  rw [hd]
  cases hg : st.ix.docsState.get id with
  | none => simp; exact ok
  | some n =>
    match n with
    | 0 =>
      rw [push_abs ok]
      simp only
      by_cases hlt : st.abs.removeCache.length < 2 * st.abs.opts.docCacheSize
      · simp only [hlt, if_true]
        have hl : st.ptr < st.arr.length := by
          have h1 : st.abs.removeCache.length = st.ptr := by
            simp [CShard.abs, List.length_take, ok.ptr]
          have h2 : st.abs.opts = st.ix.opts := rfl
          rw [h1, h2, ← ok.len] at hlt; exact hlt
        simp only [Option.map_some, Option.some.injEq, forall_eq', and_self, and_true]
        constructor
        · simp only [CShard.abs, take_set_append hl]
        · exact ⟨by simp [ok.len], by simp; omega, ok.nil⟩
      · simp [hlt]
    | 1 => simp; exact ok
    | 2 =>
      simp only [Option.map_some, Option.some.injEq, forall_eq', and_self, and_true]
      exact ⟨rfl, ok.len, ok.ptr, ok.nil⟩
    | n + 3 => simp; exact ok

/-- One action in RemoveDocToCache keeps the result of the call. -/
theorem remStep_finish {so : Sorter} (hso : SortOk so) {st st' : CShard} (ok : st.Ok) {a b : Bool} {pc pc' : RemPC}
    (hsl : st.slice pc) (hd : st.dead = false) (h : st.remStep so a b pc = some (st', pc')) :
    (st'.dead = true ∧ st.remFinish so pc = none) ∨
    (st'.dead = false ∧ st'.Ok ∧ st'.slice pc' ∧ st'.remFinish so pc' = st.remFinish so pc ∧
      st'.add = st.add ∧ st'.rem = st.rem ∧ st'.readers = st.readers) := by
  cases pc with
  | lockCache id f =>
    simp only [CShard.remStep] at h
    split at h
    · simp only [Option.some.injEq, Prod.mk.injEq] at h
      obtain ⟨rfl, rfl⟩ := h
      right
      refine ⟨hd, ok, ?_, ?_, rfl, rfl, rfl⟩
      · split <;> simp_all [CShard.slice]
      · split
        · rfl
        · rename_i h0; simp only [ne_eq, not_not] at h0; subst h0; rfl
    · simp at h
  | lockTable id f =>
    simp only [CShard.remStep] at h
    split at h
    · simp only [Option.some.injEq, Prod.mk.injEq] at h
      obtain ⟨rfl, rfl⟩ := h
      simp only [CShard.slice] at hsl
      obtain ⟨h1, h2⟩ := register_abs ok hsl
      cases hreg : st.register id with
      | none =>
        left
        rw [hreg] at h1
        refine ⟨rfl, ?_⟩
        simp only [CShard.remFinish, Indexer.removeDocToCache, ← h1]
        rfl
      | some st2 =>
        right
        obtain ⟨g1, g2, g3, g4, g5, g6⟩ := h2 st2 hreg
        rw [hreg] at h1
        simp only [CShard.orDie]
        refine ⟨by rw [g4]; exact hd, g1, trivial, ?_, g2, g3, g6⟩
        simp only [CShard.remFinish, Indexer.removeDocToCache, ← h1, Option.map_some]
        simp [registerRemoval]
    · simp at h
  | check f =>
    simp only [CShard.remStep] at h
    have hlen : st.abs.removeCache.length = st.ptr := by simp [CShard.abs, List.length_take, ok.ptr]
    have hopt : st.abs.opts = st.ix.opts := rfl
    split at h
    · rename_i hc
      simp only [Option.some.injEq, Prod.mk.injEq] at h
      obtain ⟨rfl, rfl⟩ := h
      right
      refine ⟨hd, ⟨ok.len, by simp, ok.nil⟩, ⟨ok.ptr, rfl⟩, ?_, rfl, rfl, rfl⟩
      simp only [CShard.remFinish, Indexer.removeDocToCache, registerRemoval]
      have hc' : st.abs.removeCache.length > 0 ∧
          (st.abs.removeCache.length ≥ st.abs.opts.docCacheSize ∨ f = true) := by rw [hlen, hopt]; exact hc
      simp only [ne_eq, not_true_eq_false, if_false, bind, Option.bind_some, if_pos hc']
      have e1 : ({ st with ptr := 0 } : CShard).abs = { st.abs with removeCache := [] } := by
        simp [CShard.abs]
      have e2 : st.abs.removeCache = st.arr.take st.ptr := rfl
      rw [e1, e2]
      cases Indexer.removeDocs { st.abs with removeCache := [] } (so.ids (st.arr.take st.ptr)) <;> rfl
    · rename_i hc
      simp only [Option.some.injEq, Prod.mk.injEq] at h
      obtain ⟨rfl, rfl⟩ := h
      right
      refine ⟨hd, ok, trivial, ?_, rfl, rfl, rfl⟩
      simp only [CShard.remFinish, Indexer.removeDocToCache, registerRemoval]
      have hc' : ¬ (st.abs.removeCache.length > 0 ∧
          (st.abs.removeCache.length ≥ st.abs.opts.docCacheSize ∨ f = true)) := by rw [hlen, hopt]; exact hc
      simp only [ne_eq, not_true_eq_false, if_false, bind, Option.bind_some, if_neg hc']
      rfl
  | sort n =>
    simp only [CShard.remStep, Option.some.injEq, Prod.mk.injEq] at h
    obtain ⟨rfl, rfl⟩ := h
    right
    have hl : (so.ids (st.arr.take n)).length = n := by
      rw [(hso.ids_perm _).length_eq, List.length_take]; exact Nat.min_eq_left hsl.1
    have htot : (so.ids (st.arr.take n) ++ st.arr.drop n).length = st.arr.length := by
      rw [List.length_append, hl, List.length_drop]; have := hsl.1; omega
    refine ⟨hd, ⟨by simp only [htot, ok.len], by simp only [htot]; exact ok.ptr, ok.nil⟩,
      ⟨by simp only [htot]; exact hsl.1, hsl.2⟩, ?_, rfl, rfl, rfl⟩
    simp only [CShard.remFinish]
    have e1 : ({ st with arr := so.ids (st.arr.take n) ++ st.arr.drop n } : CShard).abs = st.abs := by
      simp [CShard.abs, hsl.2]
    rw [e1]
    congr 2
    rw [List.take_append_of_le_length (by rw [hl]), List.take_of_length_le (by rw [hl])]
  | remove n =>
    simp only [CShard.remStep] at h
    split at h
    · simp only [Option.some.injEq, Prod.mk.injEq] at h
      obtain ⟨rfl, rfl⟩ := h
      have hr := removeDocs_withRem st.ix (st.arr.take st.ptr) (st.arr.take n)
      cases hrd : st.ix.removeDocs (st.arr.take n) with
      | none =>
        left
        refine ⟨rfl, ?_⟩
        rw [hrd] at hr
        simp only [CShard.remFinish, abs_eq_withRem, hr]
        rfl
      | some ix =>
        right
        have hsame := removeDocs_same hrd
        simp only [Option.map_some, CShard.orDie]
        refine ⟨hd, ⟨by rw [hsame.1]; exact ok.len, ok.ptr, by rw [hsame.2.2]; exact ok.nil⟩, trivial, ?_, trivial, trivial, trivial⟩
        rw [hrd] at hr
        simp only [CShard.remFinish]
        rw [abs_eq_withRem st, hr]
        rfl
    · simp at h
  | ret b => simp [CShard.remStep] at h

/-- The slice condition of the add worker. -/
def CShard.addSlice (st : CShard) : Prop :=
  match st.add with
  | .remove pc _ => st.slice pc
  | _ => True

theorem addFinish_scan (so : Sorter) (st : CShard) (fuel i position : Nat) (f : Bool)
    (h : st.add = .scan fuel i position f) : st.addFinish so = (scanCache fuel i position st.abs).bind
      (fun x => (x.1.removeDocToCache so (str "0") f).bind (fun y => takeAdds so y x.2)) := by
  unfold CShard.addFinish
  rw [h]; rfl

/-- One action of the add worker keeps the result of its call. -/
theorem addStep_finish {so : Sorter} (hso : SortOk so) {st st' : CShard} (ok : st.Ok) (hd : st.dead = false)
    (hsl : st.addSlice) (h : st.addStep so = some st') :
    (st'.dead = true ∧ st.addFinish so = none) ∨
    (st'.dead = false ∧ st'.Ok ∧ st'.addSlice ∧ st'.addFinish so = st.addFinish so ∧ st'.rem = st.rem) := by
  unfold CShard.addStep at h
  simp only at h
  split at h
  · simp at h
  · -- put
    rename_i doc f ha
    have hfin : st.addFinish so = st.abs.addDocToCache so doc f := by unfold CShard.addFinish; rw [ha]
    cases doc with
    | none =>
      simp only [Option.some.injEq] at h
      subst h
      right
      refine ⟨hd, ⟨ok.len, ok.ptr, ok.nil⟩, ?_, ?_, rfl⟩
      · unfold CShard.addSlice; simp only; split <;> first | trivial | (split at * <;> simp_all)
      · rw [hfin]
        simp only [Indexer.addDocToCache, bind, Option.bind_some]
        have e1 : st.abs.addCache = st.ix.addCache := rfl
        have e2 : st.abs.opts = st.ix.opts := rfl
        rw [e1, e2]
        by_cases hc : st.ix.addCache.length ≥ st.ix.opts.docCacheSize ∨ f = true
        · simp only [hc, if_true, CShard.addFinish]; rfl
        · simp only [hc, if_false, CShard.addFinish]; rfl
    | some d =>
      simp only at h
      by_cases hc : st.ix.addCache.length < st.ix.opts.docCacheSize
      · simp only [hc, if_true, Option.some.injEq] at h
        subst h
        right
        refine ⟨hd, ⟨ok.len, ok.ptr, ok.nil⟩, ?_, ?_, rfl⟩
        · unfold CShard.addSlice; simp only; split <;> first | trivial | (split at * <;> simp_all)
        · rw [hfin]
          have e1 : st.abs.addCache = st.ix.addCache := rfl
          have e2 : st.abs.opts = st.ix.opts := rfl
          simp only [Indexer.addDocToCache, bind, e1, e2, hc, if_true, Option.bind_some]
          by_cases hc' : (st.ix.addCache ++ [d]).length ≥ st.ix.opts.docCacheSize ∨ f = true
          · simp only [hc', if_true, CShard.addFinish]; rfl
          · simp only [hc', if_false, CShard.addFinish]; rfl
      · simp only [hc, if_false, Option.some.injEq] at h
        subst h
        left
        refine ⟨rfl, ?_⟩
        rw [hfin]
        have e1 : st.abs.addCache = st.ix.addCache := rfl
        have e2 : st.abs.opts = st.ix.opts := rfl
        simp only [Indexer.addDocToCache, bind, e1, e2, hc, if_false]
        rfl
  · -- lockTable
    rename_i f ha
    split at h
    · simp only [Option.some.injEq] at h
      subst h
      right
      refine ⟨hd, ⟨ok.len, ok.ptr, ok.nil⟩, trivial, ?_, rfl⟩
      rw [addFinish_scan so _ _ _ _ _ rfl]
      conv_rhs => unfold CShard.addFinish
      rw [ha]
      have e1 : st.abs.addCache = st.ix.addCache := rfl
      simp only [flushAdds, bind, e1]
      rfl
    · simp at h
  · -- end of scan
    rename_i i position f ha
    simp only [Option.some.injEq] at h
    subst h
    right
    refine ⟨hd, ⟨ok.len, ok.ptr, ok.nil⟩, trivial, ?_, rfl⟩
    rw [addFinish_scan so _ _ _ _ _ ha]
    simp only [CShard.addFinish, CShard.remFinish, scanCache, Option.bind_some, bind]
    rfl
  · -- scan
    rename_i fuel i position f ha
    rw [addFinish_scan so _ _ _ _ _ ha]
    have e1 : st.abs.addCache = st.ix.addCache := rfl
    have e2 : st.abs.docsState = st.ix.docsState := rfl
    rw [scanCache, e1, e2]
    split at h
    · rename_i hg
      simp only [Option.some.injEq] at h
      subst h
      left
      exact ⟨rfl, by rw [hg]; rfl⟩
    · rename_i doc hg
      rw [hg]
      simp only
      split at h
      · rename_i hs
        simp only [Option.some.injEq] at h
        subst h
        right
        refine ⟨hd, ⟨ok.len, ok.ptr, ok.nil⟩, trivial, ?_, rfl⟩
        rw [addFinish_scan so _ _ _ _ _ rfl, hs]
        rfl
      · rename_i s hs
        rw [hs]
        simp only
        split at h
        · rename_i hs1
          rw [if_pos hs1]
          split at h
          · rename_i hsw
            simp only [Option.some.injEq] at h
            subst h
            left
            exact ⟨rfl, by rw [hsw]; rfl⟩
          · rename_i cache hsw
            simp only [Option.some.injEq] at h
            subst h
            rw [hsw]
            simp only
            right
            refine ⟨hd, ⟨ok.len, ok.ptr, ok.nil⟩, ?_, ?_, trivial⟩
            · unfold CShard.addSlice; simp only; split <;> first | trivial | (split at * <;> simp_all)
            · by_cases h0 : s = 0
              · simp only [h0, if_true, CShard.addFinish]
                have e3 : (CShard.mk { st.ix with addCache := cache } st.arr st.ptr st.readers st.dead
                    (.lockCache fuel i position f doc.docId) st.rem).abs = { st.abs with addCache := cache } := rfl
                rw [e3]
                simp only [bind]
                by_cases hc : st.abs.removeCache.length < 2 * st.abs.opts.docCacheSize
                · simp only [hc, if_true, Option.bind_some]
                  rfl
                · simp only [hc, if_false]; rfl
              · simp only [h0, if_false]
                rw [addFinish_scan so _ _ _ _ _ rfl]
                rfl
        · rename_i hs1
          rw [if_neg hs1]
          simp only [Option.some.injEq] at h
          subst h
          right
          refine ⟨hd, ⟨ok.len, ok.ptr, ok.nil⟩, trivial, ?_, rfl⟩
          rw [addFinish_scan so _ _ _ _ _ rfl]
          rfl
  · -- lockCache
    rename_i fuel i position f id ha
    split at h
    · simp only [Option.some.injEq] at h
      subst h
      have hfin : st.addFinish so = (if st.abs.removeCache.length < 2 * st.abs.opts.docCacheSize then
          some { st.abs with removeCache := st.abs.removeCache ++ [id],
                             docsState := st.abs.docsState.set id 1,
                             numDocs := st.abs.numDocs - 1 } else none).bind
          (fun s => (scanCache fuel (i + 1) (position + 1) s).bind
            (fun x => (x.1.removeDocToCache so (str "0") f).bind (fun y => takeAdds so y x.2))) := by
        unfold CShard.addFinish; rw [ha]
      rw [hfin, push_abs ok]
      split
      · rename_i hlt
        have hl : st.ptr < st.arr.length := by
          have h1 : st.abs.removeCache.length = st.ptr := by
            simp [CShard.abs, List.length_take, ok.ptr]
          have h2 : st.abs.opts = st.ix.opts := rfl
          rw [h1, h2, ← ok.len] at hlt; exact hlt
        right
        simp only [Option.map_some, CShard.orDie]
        refine ⟨hd, ⟨by simp [ok.len], by simp; omega, ok.nil⟩, trivial, ?_, trivial⟩
        rw [addFinish_scan so _ _ _ _ _ rfl]
        simp only [CShard.abs, Option.bind_some, take_set_append hl]
      · left; exact ⟨rfl, rfl⟩
    · simp at h
  · -- returned from RemoveDocToCache
    rename_i removed position ha
    simp only [Option.some.injEq] at h
    subst h
    right
    refine ⟨hd, ⟨ok.len, ok.ptr, ok.nil⟩, trivial, ?_, rfl⟩
    simp only [CShard.addFinish, ha, CShard.remFinish, bind, Option.bind_some, takeAdds]
    rfl
  · -- inside RemoveDocToCache
    rename_i pc position hne ha
    obtain ⟨⟨st2, pc2⟩, h2, h3⟩ := Option.map_eq_some_iff.1 h
    simp only at h3
    subst h3
    have hsl' : st.slice pc := by unfold CShard.addSlice at hsl; rw [ha] at hsl; exact hsl
    have hfin : st.addFinish so = (st.remFinish so pc).bind (fun x => takeAdds so x position) := by
      unfold CShard.addFinish; rw [ha]; rfl
    rcases remStep_finish hso ok hsl' hd h2 with ⟨g1, g2⟩ | ⟨g1, g2, g3, g4, _, g6, _⟩
    · left; exact ⟨g1, by rw [hfin, g2]; rfl⟩
    · right
      refine ⟨g1, ⟨g2.len, g2.ptr, g2.nil⟩, ?_, ?_, g6⟩
      · unfold CShard.addSlice
        simp only
        cases pc2 <;> exact g3
      · rw [hfin, ← g4]
        show (({ st2 with add := .remove pc2 position } : CShard).remFinish so pc2).bind _ = _
        congr 1
  · -- AddDocs
    rename_i docs ha
    split at h
    · simp only [Option.some.injEq] at h
      subst h
      have hfin : st.addFinish so = st.abs.addDocs docs := by unfold CShard.addFinish; rw [ha]
      have hr := addDocs_withRem st.ix (st.arr.take st.ptr) docs
      cases hrd : st.ix.addDocs docs with
      | none =>
        left
        rw [hrd] at hr
        exact ⟨rfl, by rw [hfin, abs_eq_withRem, hr]; rfl⟩
      | some ix =>
        right
        have hsame := addDocs_same hrd
        simp only [Option.map_some, CShard.orDie]
        refine ⟨hd, ⟨by rw [hsame.1]; exact ok.len, ok.ptr, by rw [hsame.2.2]; exact ok.nil⟩, trivial, ?_, trivial⟩
        rw [hfin, abs_eq_withRem st, hr, hrd]
        rfl
    · simp at h

/-! ## Runs without overlapping calls -/

/-- The add worker is inside a call. -/
def AddPC.busy : AddPC → Bool
  | .idle => false
  | _ => true

/-- Both workers are inside a call. -/
def CShard.overlap (st : CShard) : Bool := st.add.busy && st.rem.isSome

/-- The calls started, in order. -/
def SAct.op? : SAct → Option IdxOp
  | .begin op => some op
  | _ => none

/-- No two calls overlap during the run. -/
def Serial (so : Sorter) : CShard → List SAct → Prop
  | st, [] => st.overlap = false
  | st, a :: l => st.overlap = false ∧ ∀ st', st.step so a = some st' → Serial so st' l

structure CShard.Inv (st : CShard) : Prop where
  ok : st.Ok
  add : st.addSlice
  rem : ∀ pc, st.rem = some pc → st.slice pc

theorem busy_false {a : AddPC} (h : a.busy = false) : a = .idle := by cases a <;> simp_all [AddPC.busy]

theorem slice_congr {st st' : CShard} (h1 : st'.arr = st.arr) (h2 : st'.ptr = st.ptr) (pc : RemPC) :
    st'.slice pc ↔ st.slice pc := by
  cases pc <;> simp [CShard.slice, h1, h2]

theorem remFinish_congr (so : Sorter) {st st' : CShard} (h1 : st'.arr = st.arr) (h2 : st'.ptr = st.ptr)
    (h3 : st'.ix = st.ix) (pc : RemPC) : st'.remFinish so pc = st.remFinish so pc := by
  have : st'.abs = st.abs := by simp [CShard.abs, h1, h2, h3]
  cases pc <;> simp [CShard.remFinish, this, h1]

/-- A step without overlap keeps (or extends) the result. -/
theorem step_finish {so : Sorter} (hso : SortOk so) {st st' : CShard} (hd : st.dead = false) (hi : st.Inv)
    (ho : st.overlap = false) (ho' : st'.overlap = false) {a : SAct} (h : st.step so a = some st') :
    (st'.dead = false → st'.Inv) ∧
    st'.finish so = (st.finish so).bind (fun ix => ix.run so a.op?.toList) := by
  have hnone : ∀ x : Option Indexer, x = x.bind (fun ix => ix.run so []) := by
    intro x; cases x <;> rfl
  cases a with
  | begin op =>
    simp only [CShard.step, hd, Bool.false_eq_true, if_false] at h
    have hstart : ∀ (f : Indexer → Option Indexer), st.add = .idle → st.rem = none →
        (st.finish so).bind f = f st.abs := by
      intro f h1 h2
      simp [CShard.finish, hd, h2, CShard.addFinish, h1]
    have hone : ∀ (x : Indexer), x.run so [op] = x.step so op := by
      intro x
      simp only [Indexer.run]
      cases x.step so op <;> rfl
    cases op with
    | add d f =>
      simp only at h
      split at h
      · rename_i ha
        simp only [Option.some.injEq] at h
        subst h
        have hr : st.rem = none := by
          simp only [CShard.overlap, AddPC.busy, Bool.true_and] at ho'
          cases hx : st.rem with
          | none => rfl
          | some x => rw [hx] at ho'; simp at ho'
        refine ⟨fun _ => ⟨⟨hi.ok.len, hi.ok.ptr, hi.ok.nil⟩, trivial, fun pc hp => (by rw [hr] at hp; simp at hp)⟩, ?_⟩
        rw [hstart _ ha hr]
        simp only [SAct.op?, Option.toList_some, hone]
        simp only [CShard.finish, hd, hr, CShard.addFinish, Bool.false_eq_true, if_false]
        rfl
      · simp at h
    | flush f =>
      simp only at h
      split at h
      · rename_i ha
        simp only [Option.some.injEq] at h
        subst h
        have hr : st.rem = none := by
          simp only [CShard.overlap, AddPC.busy, Bool.true_and] at ho'
          cases hx : st.rem with
          | none => rfl
          | some x => rw [hx] at ho'; simp at ho'
        refine ⟨fun _ => ⟨⟨hi.ok.len, hi.ok.ptr, hi.ok.nil⟩, trivial, fun pc hp => (by rw [hr] at hp; simp at hp)⟩, ?_⟩
        rw [hstart _ ha hr]
        simp only [SAct.op?, Option.toList_some, hone]
        simp only [CShard.finish, hd, hr, CShard.addFinish, Bool.false_eq_true, if_false]
        rfl
      · simp at h
    | remove id f =>
      simp only at h
      split at h
      · rename_i hr
        simp only [Option.some.injEq] at h
        subst h
        have ha : st.add = .idle := by
          simp only [CShard.overlap, Option.isSome_some, Bool.and_true] at ho'
          exact busy_false ho'
        refine ⟨fun _ => ⟨⟨hi.ok.len, hi.ok.ptr, hi.ok.nil⟩, ?_, fun pc hp => ?_⟩, ?_⟩
        · unfold CShard.addSlice; simp only [ha]
        · simp only [Option.some.injEq] at hp; subst hp; trivial
        · rw [hstart _ ha hr]
          simp only [SAct.op?, Option.toList_some, hone]
          simp only [CShard.finish, hd, Bool.false_eq_true, if_false]
          rfl
      · simp at h
  | add =>
    simp only [CShard.step, hd, Bool.false_eq_true, if_false] at h
    have hr : st.rem = none := by
      simp only [CShard.overlap] at ho
      cases hx : st.rem with
      | none => rfl
      | some x =>
        rw [hx] at ho
        simp only [Option.isSome_some, Bool.and_true] at ho
        rw [CShard.addStep, busy_false ho] at h
        simp at h
    simp only [SAct.op?, Option.toList_none]
    rw [← hnone]
    rcases addStep_finish hso hi.ok hd hi.add h with ⟨g1, g2⟩ | ⟨g1, g2, g3, g4, g5⟩
    · refine ⟨fun hx => (by rw [hx] at g1; simp at g1), ?_⟩
      simp [CShard.finish, g1, hd, hr, g2]
    · refine ⟨fun _ => ⟨g2, g3, fun pc hp => (by rw [g5, hr] at hp; simp at hp)⟩, ?_⟩
      simp [CShard.finish, g1, hd, hr, g4, g5]
  | rem =>
    simp only [CShard.step, hd, Bool.false_eq_true, if_false] at h
    simp only [SAct.op?, Option.toList_none]
    rw [← hnone]
    unfold CShard.remWorkerStep at h
    cases hr : st.rem with
    | none => rw [hr] at h; simp at h
    | some pc =>
      have ha : st.add = .idle := by
        simp only [CShard.overlap, hr, Option.isSome_some, Bool.and_true] at ho
        exact busy_false ho
      rw [hr] at h
      have hgen : ∀ (a b : Bool), (st.remStep so a b pc).map (fun x => ({ x.1 with rem := some x.2 } : CShard)) = some st' →
          (st'.dead = false → st'.Inv) ∧ st'.finish so = st.finish so := by
        intro a b hx
        obtain ⟨⟨st2, pc2⟩, h2, h3⟩ := Option.map_eq_some_iff.1 hx
        simp only at h3
        subst h3
        rcases remStep_finish hso hi.ok (hi.rem pc hr) hd h2 with ⟨g1, g2⟩ | ⟨g1, g2, g3, g4, g5, g6, _⟩
        · refine ⟨fun hx => (by simp only at hx; rw [hx] at g1; simp at g1), ?_⟩
          simp [CShard.finish, g1, hd, hr, g2]
        · refine ⟨fun _ => ⟨⟨g2.len, g2.ptr, g2.nil⟩, ?_, ?_⟩, ?_⟩
          · unfold CShard.addSlice; simp only [g5, ha]
          · intro pc' hp
            simp only [Option.some.injEq] at hp
            subst hp
            exact (slice_congr (st := st2) rfl rfl _).2 g3
          · simp only [CShard.finish, g1, hd, hr, Bool.false_eq_true, if_false]
            rw [← g4]; congr 1
      cases pc with
      | ret b =>
        simp only [Option.some.injEq] at h
        subst h
        refine ⟨fun _ => ⟨⟨hi.ok.len, hi.ok.ptr, hi.ok.nil⟩, ?_, fun pc hp => (by simp at hp)⟩, ?_⟩
        · unfold CShard.addSlice; simp only [ha]
        · simp only [CShard.finish, hd, hr, Bool.false_eq_true, if_false, CShard.addFinish, ha, CShard.remFinish]
          rfl
      | lockCache id f => exact hgen _ _ h
      | lockTable id f => exact hgen _ _ h
      | check f => exact hgen _ _ h
      | sort n => exact hgen _ _ h
      | remove n => exact hgen _ _ h
  | search =>
    simp only [CShard.step, hd] at h
    split at h
    · simp at h
    · simp only [Option.some.injEq] at h
      subst h
      simp only [SAct.op?, Option.toList_none]
      rw [← hnone]
      refine ⟨fun _ => ⟨⟨hi.ok.len, hi.ok.ptr, hi.ok.nil⟩, hi.add, hi.rem⟩, ?_⟩
      unfold CShard.finish CShard.addFinish
      simp only [hd, Bool.false_eq_true, if_false]
      rfl
  | searched =>
    simp only [CShard.step, hd] at h
    split at h
    · simp at h
    · simp only [Option.some.injEq] at h
      subst h
      simp only [SAct.op?, Option.toList_none]
      rw [← hnone]
      refine ⟨fun _ => ⟨⟨hi.ok.len, hi.ok.ptr, hi.ok.nil⟩, hi.add, hi.rem⟩, ?_⟩
      unfold CShard.finish CShard.addFinish
      simp only [hd, Bool.false_eq_true, if_false]
      rfl

theorem indexer_run_append (so : Sorter) (s : Indexer) (a b : List IdxOp) :
    s.run so (a ++ b) = (s.run so a).bind (fun s' => s'.run so b) := by
  induction a generalizing s with
  | nil => rfl
  | cons x a ih =>
    simp only [List.cons_append, Indexer.run]
    cases s.step so x with
    | none => rfl
    | some s' => simp only [Option.bind_some]; exact ih s'

theorem serial_run {so : Sorter} (hso : SortOk so) (as : List SAct) : ∀ (st st' : CShard),
    (st.dead = false → st.Inv) → Serial so st as → st.run so as = some st' →
    (st'.dead = false → st'.Inv) ∧
    st'.finish so = (st.finish so).bind (fun ix => ix.run so (as.filterMap SAct.op?)) := by
  induction as with
  | nil =>
    intro st st' hi _ h
    simp only [CShard.run, Option.some.injEq] at h
    subst h
    refine ⟨hi, ?_⟩
    cases st.finish so <;> rfl
  | cons a l ih =>
    intro st st' hi hs h
    simp only [CShard.run] at h
    obtain ⟨st1, h1, h2⟩ := Option.bind_eq_some_iff.1 h
    have hd : st.dead = false := by
      cases hx : st.dead with
      | false => rfl
      | true => cases a <;> simp [CShard.step, hx] at h1
    have hs1 := hs.2 st1 h1
    have ho1 : st1.overlap = false := by
      cases l with
      | nil => exact hs1
      | cons => exact hs1.1
    obtain ⟨g1, g2⟩ := step_finish hso hd (hi hd) hs.1 ho1 h1
    obtain ⟨k1, k2⟩ := ih st1 st' g1 hs1 h2
    refine ⟨k1, ?_⟩
    rw [k2, g2]
    cases st.finish so with
    | none => rfl
    | some ix =>
      simp only [Option.bind_some]
      rw [← indexer_run_append]
      congr 1
      cases a <;> rfl

end Riot
