import Verif.Proofs.ShardLive

/-!
# Overlapping calls that behave as if executed one after the other

If no refresh overlaps a removal, a shard behaves as if the calls were executed one after the
other in the order in which they return.
-/

namespace Riot

/-- core/indexer.go:123-125: append to the add cache. -/
def Indexer.pushAdd (s : Indexer) (doc : Option DocIndex) : Indexer :=
  { s with addCache := s.addCache ++ doc.toList }

/-- The call AddDocToCache(doc, f). -/
def addOp (doc : Option DocIndex) (f : Bool) : IdxOp :=
  match doc with
  | none => .flush f
  | some d => .add d f

theorem step_addOp (so : Sorter) (s : Indexer) (doc : Option DocIndex) (f : Bool) :
    s.step so (addOp doc f) = s.addDocToCache so doc f := by
  cases doc <;> rfl

/-- A call of the add worker. -/
def IdxOp.isAdd : IdxOp → Bool
  | .remove .. => false
  | _ => true

theorem isAdd_addOp (doc : Option DocIndex) (f : Bool) : (addOp doc f).isAdd = true := by
  cases doc <;> rfl

/-! ## Removals do not look at the add cache -/

theorem forgetDocs_pushAdd (doc : Option DocIndex) (docs : List Str) : ∀ s : Indexer,
    forgetDocs docs (s.pushAdd doc) = (forgetDocs docs s).pushAdd doc := by
  induction docs with
  | nil => intro s; rfl
  | cons d ds ih =>
    intro s
    rw [forgetDocs, forgetDocs]
    exact ih { s with totalTokenLen := s.totalTokenLen - (s.docTokenLens.get d).getD 0,
                      docTokenLens := s.docTokenLens.del d, docsState := s.docsState.del d }

theorem removeDocs_pushAdd (s : Indexer) (doc : Option DocIndex) (docs : List Str) :
    (s.pushAdd doc).removeDocs docs = (s.removeDocs docs).map (·.pushAdd doc) := by
  unfold Indexer.removeDocs
  rw [forgetDocs_pushAdd]
  simp only [bind, pure]
  have h1 : ((forgetDocs docs s).pushAdd doc).table = (forgetDocs docs s).table := rfl
  have h2 : ((forgetDocs docs s).pushAdd doc).opts = (forgetDocs docs s).opts := rfl
  rw [h1, h2]
  cases (forgetDocs docs s).table.rangeUpdate (removeRow (forgetDocs docs s).opts.indexType docs) <;> rfl

theorem registerRemoval_pushAdd (s : Indexer) (doc : Option DocIndex) (id : Str) :
    registerRemoval (s.pushAdd doc) id = (registerRemoval s id).map (·.pushAdd doc) := by
  unfold registerRemoval
  by_cases h0 : id ≠ str "0"
  · rw [if_pos h0, if_pos h0]
    have hd : (s.pushAdd doc).docsState = s.docsState := rfl
    have hr : (s.pushAdd doc).removeCache = s.removeCache := rfl
    have ho : (s.pushAdd doc).opts = s.opts := rfl
    rw [hd, hr, ho]
    split
    · split <;> rfl
    · rfl
    · rfl
  · rw [if_neg h0, if_neg h0]; rfl

theorem removeDocToCache_pushAdd (so : Sorter) (s : Indexer) (doc : Option DocIndex) (id : Str) (f : Bool) :
    (s.pushAdd doc).removeDocToCache so id f =
      (s.removeDocToCache so id f).map (fun x => (x.1.pushAdd doc, x.2)) := by
  unfold Indexer.removeDocToCache
  rw [registerRemoval_pushAdd]
  simp only [bind, pure]
  cases registerRemoval s id with
  | none => rfl
  | some s1 =>
    simp only [Option.map_some, Option.bind_some]
    have hr : (s1.pushAdd doc).removeCache = s1.removeCache := rfl
    have ho : (s1.pushAdd doc).opts = s1.opts := rfl
    rw [hr, ho]
    split
    · refine Eq.trans (congrArg (fun z => Option.bind z fun a => some (a, true))
        (removeDocs_pushAdd { s1 with removeCache := [] } doc (so.ids s1.removeCache))) ?_
      cases Indexer.removeDocs { s1 with removeCache := [] } (so.ids s1.removeCache) <;> rfl
    · rfl

theorem registerRemoval_same {s s' : Indexer} {id : Str} (h : registerRemoval s id = some s') :
    s'.opts = s.opts ∧ s'.addCache = s.addCache := by
  unfold registerRemoval at h
  split at h
  · split at h
    · split at h
      · simp only [Option.some.injEq] at h; subst h; exact ⟨rfl, rfl⟩
      · simp at h
    · simp only [Option.some.injEq] at h; subst h; exact ⟨rfl, rfl⟩
    · simp only [Option.some.injEq] at h; subst h; exact ⟨rfl, rfl⟩
  · simp only [Option.some.injEq] at h; subst h; exact ⟨rfl, rfl⟩

theorem removeDocToCache_same {so : Sorter} {s : Indexer} {x : Indexer × Bool} {id : Str} {f : Bool}
    (h : s.removeDocToCache so id f = some x) : x.1.opts = s.opts ∧ x.1.addCache = s.addCache := by
  unfold Indexer.removeDocToCache at h
  simp only [bind, pure, Option.bind_eq_some_iff] at h
  obtain ⟨s1, h1, h⟩ := h
  have hs := registerRemoval_same h1
  split at h
  · rw [Option.bind_eq_some_iff] at h
    obtain ⟨s2, h2, h⟩ := h
    simp only [Option.some.injEq] at h; subst h
    have h3 := removeDocs_same h2
    exact ⟨by rw [← hs.1]; exact h3.1, by rw [← hs.2]; exact h3.2.1⟩
  · simp only [Option.some.injEq] at h; subst h; exact hs

theorem remFinish_pushAdd (so : Sorter) {st st' : CShard} {doc : Option DocIndex} (h1 : st'.arr = st.arr)
    (h2 : st'.ptr = st.ptr) (h3 : st'.ix = st.ix.pushAdd doc) (pc : RemPC) :
    st'.remFinish so pc = (st.remFinish so pc).map (fun x => (x.1.pushAdd doc, x.2)) := by
  have habs : st'.abs = st.abs.pushAdd doc := by
    simp only [CShard.abs, h1, h2, h3]; rfl
  cases pc with
  | lockCache id f => simp only [CShard.remFinish, habs, removeDocToCache_pushAdd]
  | lockTable id f => simp only [CShard.remFinish, habs, removeDocToCache_pushAdd]
  | check f => simp only [CShard.remFinish, habs, removeDocToCache_pushAdd]
  | sort n =>
    simp only [CShard.remFinish, habs, removeDocs_pushAdd, h1]
    cases st.abs.removeDocs (so.ids (st.arr.take n)) <;> rfl
  | remove n =>
    simp only [CShard.remFinish, habs, removeDocs_pushAdd, h1]
    cases st.abs.removeDocs (st.arr.take n) <;> rfl
  | ret b => simp only [CShard.remFinish, habs]; rfl

/-! ## The relation -/

/-- The shard after the running removal. -/
def CShard.remRes (so : Sorter) (st : CShard) : Option Indexer :=
  match st.rem with
  | none => some st.abs
  | some pc => (st.remFinish so pc).map (·.1)

/-- The index after the running removal. -/
def Indexer.stepOpt (so : Sorter) (s : Indexer) : Option IdxOp → Option Indexer
  | none => some s
  | some op => s.step so op

/-- The document put into the cache by a call that waits for the table. -/
inductive AddRel (so : Sorter) (st : CShard) (base : Indexer) : AddPC → Option IdxOp → Option IdxOp → Prop
  | idle (r : Option IdxOp) (hc : st.ix.addCache = base.addCache)
      (hr : st.remRes so = base.stepOpt so r) : AddRel so st base .idle none r
  | put (r : Option IdxOp) (doc : Option DocIndex) (f : Bool) (hc : st.ix.addCache = base.addCache)
      (hr : st.remRes so = base.stepOpt so r) : AddRel so st base (.put doc f) (some (addOp doc f)) r
  | lockTable (r : Option IdxOp) (doc : Option DocIndex) (f : Bool)
      (hc : st.ix.addCache = base.addCache ++ doc.toList)
      (hfit : doc ≠ none → base.addCache.length < base.opts.docCacheSize)
      (hfl : (base.addCache ++ doc.toList).length ≥ base.opts.docCacheSize ∨ f = true)
      (hr : st.remRes so = (base.stepOpt so r).map (·.pushAdd doc)) :
      AddRel so st base (.lockTable f) (some (addOp doc f)) r
  | refreshing (a : AddPC) (op : IdxOp) (ha : a.refreshing = true) (hop : op.isAdd = true)
      (hf : st.addFinish so = base.step so op) : AddRel so st base a (some op) none

/-- `base` is the index after the calls that have returned; `a`, `r` are running. -/
structure Rel (so : Sorter) (st : CShard) (base : Indexer) (a r : Option IdxOp) : Prop where
  inv : st.Inv
  opts : st.ix.opts = base.opts
  remNone : st.rem = none ↔ r = none
  remOp : ∀ op, r = some op → op.isAdd = false
  add : AddRel so st base st.add a r

theorem addFinish_of_refreshing {so : Sorter} {st st' : CShard} (h : st.addStep so = some st')
    (ha : st.add.refreshing = true) (hd' : st'.dead = false) :
    st'.add = .idle ∨ st'.add.refreshing = true := by
  unfold CShard.addStep at h
  simp only at h
  split at h
  · simp at h
  · rename_i hx; rw [hx] at ha; simp [AddPC.refreshing] at ha
  · rename_i hx; rw [hx] at ha; simp [AddPC.refreshing] at ha
  · simp only [Option.some.injEq] at h; subst h; right; rfl
  · split at h
    · simp only [Option.some.injEq] at h; subst h; simp at hd'
    · split at h
      · simp only [Option.some.injEq] at h; subst h; right; rfl
      · split at h
        · split at h
          · simp only [Option.some.injEq] at h; subst h; simp at hd'
          · simp only [Option.some.injEq] at h; subst h; right; simp only; split <;> rfl
        · simp only [Option.some.injEq] at h; subst h; right; rfl
  · split at h
    · rename_i fuel i p f id hx hc
      simp only [Option.some.injEq] at h
      cases hp : st.push id with
      | none => rw [hp] at h; subst h; simp [CShard.orDie] at hd'
      | some st1 => rw [hp] at h; subst h; right; rfl
    · simp at h
  · simp only [Option.some.injEq] at h; subst h; right; rfl
  · obtain ⟨⟨st1, pc1⟩, h1, h2⟩ := Option.map_eq_some_iff.1 h
    subst h2; right; rfl
  · rename_i docs hx
    split at h
    · simp only [Option.some.injEq] at h
      cases hp : st.ix.addDocs docs with
      | none => rw [hp] at h; subst h; simp [CShard.orDie] at hd'
      | some ix => rw [hp] at h; subst h; left; rfl
    · simp at h

theorem register_opts {st st' : CShard} {id : Str} (h : st.register id = some st') :
    st'.ix.opts = st.ix.opts := by
  unfold CShard.register at h
  split at h
  · obtain ⟨st1, h1, h2⟩ := Option.map_eq_some_iff.1 h
    subst h2
    simp [(push_frame h1).1]
  · simp at h; subst h; rfl
  · simp at h; subst h; rfl

theorem remStep_opts {so : Sorter} {st st' : CShard} {a b : Bool} {pc pc' : RemPC}
    (h : st.remStep so a b pc = some (st', pc')) : st'.ix.opts = st.ix.opts := by
  cases pc with
  | lockCache id f =>
    simp only [CShard.remStep] at h
    split at h
    · simp only [Option.some.injEq, Prod.mk.injEq] at h; obtain ⟨rfl, rfl⟩ := h; rfl
    · simp at h
  | lockTable id f =>
    simp only [CShard.remStep] at h
    split at h
    · simp only [Option.some.injEq, Prod.mk.injEq] at h
      obtain ⟨rfl, rfl⟩ := h
      cases hr : st.register id with
      | none => rfl
      | some st2 => exact register_opts hr
    · simp at h
  | check f =>
    simp only [CShard.remStep] at h
    split at h <;> (simp only [Option.some.injEq, Prod.mk.injEq] at h; obtain ⟨rfl, rfl⟩ := h; rfl)
  | sort n =>
    simp only [CShard.remStep, Option.some.injEq, Prod.mk.injEq] at h
    obtain ⟨rfl, rfl⟩ := h; rfl
  | remove n =>
    simp only [CShard.remStep] at h
    split at h
    · simp only [Option.some.injEq, Prod.mk.injEq] at h
      obtain ⟨rfl, rfl⟩ := h
      cases hr : st.ix.removeDocs (st.arr.take n) with
      | none => rfl
      | some ix => exact (removeDocs_same hr).1
    · simp at h
  | ret b => simp [CShard.remStep] at h

theorem addStep_opts {so : Sorter} {st st' : CShard} (h : st.addStep so = some st') :
    st'.ix.opts = st.ix.opts := by
  unfold CShard.addStep at h
  simp only at h
  split at h
  · simp at h
  · rename_i doc f ha
    split at h
    · simp only [Option.some.injEq] at h; subst h; rfl
    · rename_i ix hix
      simp only [Option.some.injEq] at h; subst h
      cases doc with
      | none => simp at hix; subst hix; rfl
      | some d =>
        simp only at hix
        split at hix
        · simp only [Option.some.injEq] at hix; subst hix; rfl
        · simp at hix
  · split at h
    · simp only [Option.some.injEq] at h; subst h; rfl
    · simp at h
  · simp only [Option.some.injEq] at h; subst h; rfl
  · split at h
    · simp only [Option.some.injEq] at h; subst h; rfl
    · split at h
      · simp only [Option.some.injEq] at h; subst h; rfl
      · split at h
        · split at h <;> (simp only [Option.some.injEq] at h; subst h; rfl)
        · simp only [Option.some.injEq] at h; subst h; rfl
  · rename_i fuel i p f id hx
    split at h
    · simp only [Option.some.injEq] at h
      cases hp : st.push id with
      | none => rw [hp] at h; subst h; rfl
      | some st1 => rw [hp] at h; subst h; simp [CShard.orDie, (push_frame hp).1]
    · simp at h
  · simp only [Option.some.injEq] at h; subst h; rfl
  · obtain ⟨⟨st1, pc1⟩, h1, h2⟩ := Option.map_eq_some_iff.1 h
    subst h2; exact (remStep_opts h1 :)
  · rename_i docs hx
    split at h
    · simp only [Option.some.injEq] at h
      cases hp : st.ix.addDocs docs with
      | none => rw [hp] at h; subst h; rfl
      | some ix => rw [hp] at h; subst h; exact (addDocs_same hp).1
    · simp at h

theorem step_opts {so : Sorter} {s s' : Indexer} {op : IdxOp} (hop : op.isAdd = false)
    (h : s.step so op = some s') : s'.opts = s.opts ∧ s'.addCache = s.addCache := by
  cases op with
  | remove id f =>
    simp only [Indexer.step] at h
    obtain ⟨x, h1, h2⟩ := Option.map_eq_some_iff.1 h
    subst h2
    exact removeDocToCache_same h1
  | _ => simp [IdxOp.isAdd] at hop

theorem step_pushAdd {so : Sorter} {s : Indexer} {op : IdxOp} (hop : op.isAdd = false) (doc : Option DocIndex) :
    (s.pushAdd doc).step so op = (s.step so op).map (·.pushAdd doc) := by
  cases op with
  | remove id f =>
    simp only [Indexer.step, removeDocToCache_pushAdd]
    cases s.removeDocToCache so id f <;> rfl
  | _ => simp [IdxOp.isAdd] at hop

theorem stepOpt_pushAdd {so : Sorter} {s : Indexer} {r : Option IdxOp}
    (hop : ∀ op, r = some op → op.isAdd = false) (doc : Option DocIndex) :
    (s.pushAdd doc).stepOpt so r = (s.stepOpt so r).map (·.pushAdd doc) := by
  cases r with
  | none => rfl
  | some op => exact step_pushAdd (hop op rfl) doc

theorem remRes_pushAdd (so : Sorter) {st st' : CShard} {doc : Option DocIndex} (h1 : st'.arr = st.arr)
    (h2 : st'.ptr = st.ptr) (h3 : st'.ix = st.ix.pushAdd doc) (h4 : st'.rem = st.rem) :
    st'.remRes so = (st.remRes so).map (·.pushAdd doc) := by
  unfold CShard.remRes
  rw [h4]
  cases st.rem with
  | none =>
    simp only [Option.map_some, Option.some.injEq]
    simp only [CShard.abs, h1, h2, h3]; rfl
  | some pc =>
    simp only [remFinish_pushAdd so h1 h2 h3]
    cases st.remFinish so pc <;> rfl

theorem pushAdd_none (s : Indexer) : s.pushAdd none = s := by
  unfold Indexer.pushAdd; simp

/-- AddDocToCache when the document fits. -/
theorem addDocToCache_fits (so : Sorter) (s : Indexer) (doc : Option DocIndex) (f : Bool)
    (hfit : doc ≠ none → s.addCache.length < s.opts.docCacheSize) :
    s.addDocToCache so doc f =
      if (s.addCache ++ doc.toList).length ≥ s.opts.docCacheSize ∨ f = true
      then flushAdds so (s.pushAdd doc) f else some (s.pushAdd doc) := by
  unfold Indexer.addDocToCache
  cases doc with
  | none => simp only [bind, pure, Option.bind_some, pushAdd_none, Option.toList_none, List.append_nil]
  | some d =>
    simp only [bind, pure, if_pos (hfit (by simp)), Option.bind_some]
    rfl

theorem addDocToCache_full (so : Sorter) (s : Indexer) (d : DocIndex) (f : Bool)
    (h : ¬ s.addCache.length < s.opts.docCacheSize) : s.addDocToCache so (some d) f = none := by
  unfold Indexer.addDocToCache
  simp only [bind, if_neg h]
  rfl

/-- What an action of the add worker does to the relation. -/
theorem addStep_rel {so : Sorter} (hso : SortOk so) {st st' : CShard} {base : Indexer} {a r : Option IdxOp}
    (hd : st.dead = false) (hR : Rel so st base a r) (hc' : ¬ st'.Clash) (h : st.addStep so = some st') :
    ∃ op, a = some op ∧
    ((st'.dead = true ∧ base.step so op = none) ∨
     (st'.dead = false ∧ st'.add = .idle ∧ ∃ base', base.step so op = some base' ∧ Rel so st' base' none r) ∨
     (st'.dead = false ∧ st'.add ≠ .idle ∧ Rel so st' base a r)) := by
  have hadd := hR.add
  generalize hA : st.add = A at hadd
  cases hadd with
  | idle r hc hr => simp [CShard.addStep, hA] at h
  | put r doc f hc hr =>
    refine ⟨_, rfl, ?_⟩
    rw [step_addOp]
    unfold CShard.addStep at h
    simp only [hA] at h
    have hfinal : ∀ ix, ix = st.ix.pushAdd doc →
        (doc ≠ none → base.addCache.length < base.opts.docCacheSize) →
        some { st with ix := ix, add := if ix.addCache.length ≥ ix.opts.docCacheSize ∨ f = true
          then AddPC.lockTable f else AddPC.idle } = some st' →
        (st'.dead = false ∧ st'.add = .idle ∧ ∃ base', base.addDocToCache so doc f = some base' ∧ Rel so st' base' none r) ∨
        (st'.dead = false ∧ st'.add ≠ .idle ∧ Rel so st' base (some (addOp doc f)) r) := by
      intro ix hix hfit h
      subst hix
      simp only [Option.some.injEq] at h
      have hcond : ((st.ix.pushAdd doc).addCache.length ≥ (st.ix.pushAdd doc).opts.docCacheSize ∨ f = true) ↔
          ((base.addCache ++ doc.toList).length ≥ base.opts.docCacheSize ∨ f = true) := by
        have e1 : (st.ix.pushAdd doc).addCache = base.addCache ++ doc.toList := by
          simp [Indexer.pushAdd, hc]
        have e2 : (st.ix.pushAdd doc).opts = base.opts := hR.opts
        rw [e1, e2]
      rw [addDocToCache_fits so base doc f hfit]
      have hinv : ∀ A', A'.refreshing = false → ({ st with ix := st.ix.pushAdd doc, add := A' } : CShard).Inv := by
        intro A' hA'
        refine ⟨⟨hR.inv.ok.len, hR.inv.ok.ptr, hR.inv.ok.nil⟩, ?_, ?_⟩
        · unfold CShard.addSlice; cases A' <;> simp_all [AddPC.refreshing]
        · intro pc hp; exact (slice_congr rfl rfl pc).2 (hR.inv.rem pc hp)
      have hrr : ∀ A', ({ st with ix := st.ix.pushAdd doc, add := A' } : CShard).remRes so =
          (st.remRes so).map (·.pushAdd doc) := fun A' =>
        remRes_pushAdd so (st := st) (st' := { st with ix := st.ix.pushAdd doc, add := A' }) rfl rfl rfl rfl
      by_cases hx : (base.addCache ++ doc.toList).length ≥ base.opts.docCacheSize ∨ f = true
      · right
        rw [if_pos (hcond.2 hx)] at h
        subst h
        refine ⟨hd, by simp, ⟨hinv _ rfl, hR.opts, hR.remNone, hR.remOp, ?_⟩⟩
        refine AddRel.lockTable r doc f ?_ hfit hx ?_
        · simp [Indexer.pushAdd, hc]
        · rw [hrr, hr]
      · left
        rw [if_neg (fun h => hx (hcond.1 h))] at h
        rw [if_neg hx]
        subst h
        refine ⟨hd, rfl, base.pushAdd doc, rfl, ⟨hinv _ rfl, hR.opts, hR.remNone, hR.remOp, ?_⟩⟩
        refine AddRel.idle r ?_ ?_
        · simp [Indexer.pushAdd, hc]
        · rw [hrr, hr, stepOpt_pushAdd hR.remOp]
    cases doc with
    | none => exact Or.inr (hfinal st.ix (pushAdd_none _).symm (by simp) h)
    | some d =>
      simp only at h
      by_cases hf : st.ix.addCache.length < st.ix.opts.docCacheSize
      · simp only [if_pos hf] at h
        exact Or.inr (hfinal _ rfl (fun _ => by rw [← hc, ← hR.opts]; exact hf) h)
      · simp only [if_neg hf, Option.some.injEq] at h
        subst h
        left
        exact ⟨rfl, addDocToCache_full so base d f (by rw [← hc, ← hR.opts]; exact hf)⟩
  | lockTable r doc f hc hfit hfl hr =>
    refine ⟨_, rfl, ?_⟩
    rw [step_addOp]
    obtain hs | hs := addStep_finish hso hR.inv.ok hd hR.inv.add h
    · left
      unfold CShard.addStep at h
      simp only [hA] at h
      split at h
      · simp only [Option.some.injEq] at h; subst h; rw [hd] at hs; simp at hs
      · simp at h
    · right; right
      unfold CShard.addStep at h
      simp only [hA] at h
      split at h
      · simp only [Option.some.injEq] at h
        have hrem : st.rem = none := by
          by_contra hne
          apply hc'
          subst h
          exact ⟨rfl, hne⟩
        have hrn : r = none := hR.remNone.1 hrem
        subst hrn
        have habs : st.abs = base.pushAdd doc := by
          unfold CShard.remRes at hr
          rw [hrem] at hr
          simpa [Indexer.stepOpt] using hr
        have hfin : st.addFinish so = base.step so (addOp doc f) := by
          rw [step_addOp, addDocToCache_fits so base doc f hfit, if_pos hfl]
          unfold CShard.addFinish
          rw [hA, ← habs]
        obtain ⟨g1, g2, g3, g4, g5⟩ := hs
        have hadd' : st'.add.refreshing = true := by subst h; rfl
        refine ⟨g1, by subst h; simp, ⟨⟨g2, g3, ?_⟩, ?_, ?_, by simp, ?_⟩⟩
        · intro pc hp; rw [g5, hrem] at hp; simp at hp
        · subst h; exact hR.opts
        · rw [g5]; simp [hrem]
        · exact AddRel.refreshing _ _ hadd' (isAdd_addOp _ _) (by rw [g4]; exact hfin)
      · simp at h
  | refreshing A op ha hop hf =>
    refine ⟨op, rfl, ?_⟩
    have hrem : st.rem = none := hR.remNone.2 rfl
    rw [← hA] at ha
    obtain ⟨h1, h2⟩ | ⟨g1, g2, g3, g4, g5⟩ := addStep_finish hso hR.inv.ok hd hR.inv.add h
    · left; exact ⟨h1, by rw [← hf]; exact h2⟩
    · right
      have hinv : st'.Inv := ⟨g2, g3, fun pc hp => by rw [g5, hrem] at hp; simp at hp⟩
      have hopts : st'.ix.opts = st.ix.opts := by
        exact addStep_opts h
      have hrem' : st'.rem = none := by rw [g5]; exact hrem
      rcases addFinish_of_refreshing h ha g1 with hi | hi
      · left
        have e : st'.addFinish so = some st'.abs := by unfold CShard.addFinish; rw [hi]
        refine ⟨g1, hi, st'.abs, by rw [← hf, ← g4, e], ⟨hinv, rfl, by simp [hrem'], by simp, ?_⟩⟩
        rw [hi]
        refine AddRel.idle none rfl ?_
        unfold CShard.remRes; rw [hrem']; rfl
      · right
        refine ⟨g1, by intro hx; rw [hx] at hi; simp [AddPC.refreshing] at hi,
          ⟨hinv, by rw [hopts]; exact hR.opts, by simp [hrem'], by simp, ?_⟩⟩
        exact AddRel.refreshing _ _ hi hop (by rw [g4]; exact hf)

theorem map_pushAdd_none {x : Option Indexer} : x.map (·.pushAdd none) = x := by
  cases x <;> simp [pushAdd_none]

/-- The document of a call waiting for the table, and what `AddRel` says when a removal runs. -/
theorem AddRel.view {so : Sorter} {st : CShard} {base : Indexer} {A : AddPC} {a r : Option IdxOp}
    (h : AddRel so st base A a r) (hr : A.refreshing = false) :
    ∃ doc, st.ix.addCache = base.addCache ++ Option.toList doc ∧
      st.remRes so = (base.stepOpt so r).map (·.pushAdd doc) ∧
      ∀ (st' : CShard) (base' : Indexer) (r' : Option IdxOp), base'.opts = base.opts →
        base'.addCache = base.addCache → st'.ix.addCache = st.ix.addCache →
        st'.remRes so = (base'.stepOpt so r').map (·.pushAdd doc) → AddRel so st' base' A a r' := by
  cases h with
  | idle r hc hr =>
    refine ⟨none, by simpa using hc, by rw [map_pushAdd_none]; exact hr, ?_⟩
    intro st' base' r' h1 h2 h3 h4
    rw [map_pushAdd_none] at h4
    exact AddRel.idle r' (by rw [h3, h2]; exact hc) h4
  | put r doc f hc hr =>
    refine ⟨none, by simpa using hc, by rw [map_pushAdd_none]; exact hr, ?_⟩
    intro st' base' r' h1 h2 h3 h4
    rw [map_pushAdd_none] at h4
    exact AddRel.put r' doc f (by rw [h3, h2]; exact hc) h4
  | lockTable r doc f hc hfit hfl hr =>
    refine ⟨doc, hc, hr, ?_⟩
    intro st' base' r' h1 h2 h3 h4
    exact AddRel.lockTable r' doc f (by rw [h3, h2]; exact hc) (by rw [h1, h2]; exact hfit)
      (by rw [h1, h2]; exact hfl) h4
  | refreshing A op ha hop hf => rw [ha] at hr; simp at hr

/-- What an action of the remove worker does to the relation. -/
theorem remWorkerStep_rel {so : Sorter} (hso : SortOk so) {st st' : CShard} {base : Indexer}
    {a r : Option IdxOp} (hd : st.dead = false) (hR : Rel so st base a r)
    (h : st.remWorkerStep so = some st') :
    ∃ op, r = some op ∧
    ((st'.dead = true ∧ base.step so op = none) ∨
     (st'.dead = false ∧ st'.rem = none ∧ ∃ base', base.step so op = some base' ∧ Rel so st' base' a none) ∨
     (st'.dead = false ∧ st'.rem ≠ none ∧ Rel so st' base a r)) := by
  unfold CShard.remWorkerStep at h
  cases hrem : st.rem with
  | none => rw [hrem] at h; simp at h
  | some pc =>
  rw [hrem] at h
  have hrne : r ≠ none := fun e => by have := hR.remNone.2 e; rw [hrem] at this; simp at this
  obtain ⟨op, rfl⟩ := Option.ne_none_iff_exists'.1 hrne
  refine ⟨op, rfl, ?_⟩
  have hnr : st.add.refreshing = false := by
    cases hx : st.add.refreshing with
    | false => rfl
    | true =>
      have := hR.add
      generalize st.add = A at this hx
      cases this <;> simp_all [AddPC.refreshing]
  obtain ⟨doc, v1, v2, v3⟩ := hR.add.view hnr
  have hres : st.remRes so = (st.remFinish so pc).map (·.1) := by unfold CShard.remRes; rw [hrem]
  rw [hres] at v2
  have hslice := hR.inv.rem pc hrem
  by_cases hret : ∃ b, pc = .ret b
  · obtain ⟨b, rfl⟩ := hret
    simp only [Option.some.injEq] at h
    subst h
    right; left
    simp only [CShard.remFinish, Option.map_some, Indexer.stepOpt] at v2
    obtain ⟨base', hb, he⟩ := Option.map_eq_some_iff.1 v2.symm
    obtain ⟨o1, o2⟩ := step_opts (hR.remOp op rfl) hb
    refine ⟨hd, rfl, base', hb, ⟨⟨⟨hR.inv.ok.len, hR.inv.ok.ptr, hR.inv.ok.nil⟩, ?_, by simp⟩, ?_, by simp, by simp, ?_⟩⟩
    · have := hR.inv.add
      unfold CShard.addSlice at this ⊢
      simp only
      cases hx : st.add <;> simp_all [AddPC.refreshing]
    · rw [o1]; exact hR.opts
    · refine v3 _ _ none o1 o2 rfl ?_
      simp only [CShard.remRes, Indexer.stepOpt, Option.map_some, Option.some.injEq]
      exact he.symm
  · have h' : (st.remStep so (st.readers = 0 ∧ !st.add.holdsTable) (!st.add.holdsCache) pc).map
        (fun x => { x.1 with rem := some x.2 }) = some st' := by
      cases pc <;> first | exact h | exact absurd ⟨_, rfl⟩ hret
    obtain ⟨⟨st1, pc1⟩, h1, h2⟩ := Option.map_eq_some_iff.1 h'
    subst h2
    obtain ⟨e1, e2, e3, e4, e5, e6⟩ := remStep_frame h1
    have e7 := remStep_opts h1
    rcases remStep_finish hso hR.inv.ok hslice hd h1 with ⟨g1, g2⟩ | ⟨g1, g2, g3, g4, g5, g6, g7⟩
    · left
      refine ⟨g1, ?_⟩
      rw [g2] at v2
      simp only [Option.map_none, Indexer.stepOpt] at v2
      exact Option.map_eq_none_iff.1 v2.symm
    · right; right
      refine ⟨g1, by simp, ⟨⟨⟨g2.len, g2.ptr, g2.nil⟩, ?_, ?_⟩, ?_, by simp, hR.remOp, ?_⟩⟩
      · unfold CShard.addSlice
        simp only [g5]
        cases hx : st.add <;> simp_all [AddPC.refreshing]
      · intro pc' hp
        simp only [Option.some.injEq] at hp
        subst hp
        exact (slice_congr rfl rfl _).2 g3
      · simp only; rw [e7]; exact hR.opts
      · simp only [g5]
        refine v3 _ _ _ rfl rfl e1 ?_
        rw [← v2]
        have e8 := remFinish_congr so (st := st1)
          (st' := { st1 with add := st.add, rem := some pc1 }) rfl rfl rfl pc1
        unfold CShard.remRes
        simp only
        rw [← g4, ← e8]

theorem abs_stepRel_begin {so : Sorter} {st : CShard} {base : Indexer} {a r : Option IdxOp}
    (hR : Rel so st base a r) (hrem : st.rem = none) (hnr : st.add.refreshing = false) (id : Str) (f : Bool) :
    Rel so { st with rem := some (.lockCache id f) } base a (some (.remove id f)) := by
  have hr : r = none := hR.remNone.1 hrem
  subst hr
  obtain ⟨doc, v1, v2, v3⟩ := hR.add.view hnr
  refine ⟨⟨⟨hR.inv.ok.len, hR.inv.ok.ptr, hR.inv.ok.nil⟩, hR.inv.add, ?_⟩, hR.opts, by simp, ?_, ?_⟩
  · intro pc hp; simp only [Option.some.injEq] at hp; subst hp; trivial
  · intro op ho; simp only [Option.some.injEq] at ho; subst ho; rfl
  · refine v3 _ _ _ rfl rfl rfl ?_
    have hab : st.abs = base.pushAdd doc := by
      unfold CShard.remRes at v2; rw [hrem] at v2; simpa [Indexer.stepOpt] using v2
    have hab' : ({ st with rem := some (.lockCache id f) } : CShard).abs = st.abs := rfl
    simp only [CShard.remRes, CShard.remFinish, Indexer.stepOpt, hab', hab, removeDocToCache_pushAdd, Indexer.step]
    cases base.removeDocToCache so id f <;> rfl

/-- The call that is running after an action. -/
def nextAdd (a : Option IdxOp) (st' : CShard) : SAct → Option IdxOp
  | .begin (.remove _ _) => a
  | .begin op => some op
  | .add => if st'.add.busy then a else none
  | _ => a

def nextRem (r : Option IdxOp) (st' : CShard) : SAct → Option IdxOp
  | .begin (.remove id f) => some (.remove id f)
  | .rem => if st'.rem.isSome then r else none
  | _ => r

/-- The call that returns with an action. -/
def endedCall (a r : Option IdxOp) (st' : CShard) : SAct → List IdxOp
  | .add => if st'.add.busy then [] else a.toList
  | .rem => if st'.rem.isSome then [] else r.toList
  | _ => []

theorem addStep_dead_busy {so : Sorter} {st st' : CShard} (hd : st.dead = false) (h : st.addStep so = some st')
    (hd' : st'.dead = true) : st'.add.busy = true := by
  unfold CShard.addStep at h
  simp only at h
  split at h
  · simp at h
  · rename_i doc f ha
    split at h
    · simp only [Option.some.injEq] at h; subst h; simp [ha, AddPC.busy]
    · simp only [Option.some.injEq] at h; subst h; rw [hd] at hd'; simp at hd'
  · split at h
    · simp only [Option.some.injEq] at h; subst h; rfl
    · simp at h
  · simp only [Option.some.injEq] at h; subst h; rfl
  · rename_i ha
    split at h
    · simp only [Option.some.injEq] at h; subst h; simp [ha, AddPC.busy]
    · split at h
      · simp only [Option.some.injEq] at h; subst h; rfl
      · split at h
        · split at h
          · simp only [Option.some.injEq] at h; subst h; simp [ha, AddPC.busy]
          · simp only [Option.some.injEq] at h; subst h; simp only; split <;> rfl
        · simp only [Option.some.injEq] at h; subst h; rfl
  · rename_i fuel i p f id hx
    split at h
    · simp only [Option.some.injEq] at h
      cases hp : st.push id with
      | none => rw [hp] at h; subst h; simp [CShard.orDie, hx, AddPC.busy]
      | some st1 => rw [hp] at h; subst h; rfl
    · simp at h
  · simp only [Option.some.injEq] at h; subst h; rfl
  · obtain ⟨⟨st1, pc1⟩, h1, h2⟩ := Option.map_eq_some_iff.1 h
    subst h2; rfl
  · rename_i docs hx
    split at h
    · simp only [Option.some.injEq] at h
      cases hp : st.ix.addDocs docs with
      | none => rw [hp] at h; subst h; simp [CShard.orDie, hx, AddPC.busy]
      | some ix => rw [hp] at h; subst h; simp [CShard.orDie, hd] at hd'
    · simp at h

theorem remWorkerStep_dead_busy {so : Sorter} {st st' : CShard} (hd : st.dead = false)
    (h : st.remWorkerStep so = some st') (hd' : st'.dead = true) : st'.rem.isSome = true := by
  unfold CShard.remWorkerStep at h
  split at h
  · simp at h
  · simp only [Option.some.injEq] at h; subst h; simp [hd] at hd'
  · obtain ⟨⟨st1, pc1⟩, h1, h2⟩ := Option.map_eq_some_iff.1 h
    subst h2; rfl

/-- One step: the calls that have returned explain the shard. -/
theorem step_rel {so : Sorter} (hso : SortOk so) {st st' : CShard} {base : Indexer} {a r : Option IdxOp}
    {x : SAct} (hR : Rel so st base a r) (hc : ¬ st'.Clash) (h : st.step so x = some st') :
    (st'.dead = true ∧ endedCall a r st' x = [] ∧
      ∃ op, (x = .add ∧ a = some op ∨ x = .rem ∧ r = some op) ∧ base.step so op = none) ∨
    (st'.dead = false ∧ ∃ base', base.run so (endedCall a r st' x) = some base' ∧
      Rel so st' base' (nextAdd a st' x) (nextRem r st' x)) := by
  have hd : st.dead = false := by
    cases hx : st.dead with
    | false => rfl
    | true => cases x <;> simp [CShard.step, hx] at h
  have hreaders : ∀ n, Rel so { st with readers := n } base a r := by
    intro n
    refine ⟨⟨⟨hR.inv.ok.len, hR.inv.ok.ptr, hR.inv.ok.nil⟩, hR.inv.add, hR.inv.rem⟩, hR.opts, hR.remNone, hR.remOp, ?_⟩
    have key : ∀ A a r, AddRel so st base A a r → AddRel so { st with readers := n } base A a r := by
      intro A a r h
      cases h with
      | idle r hc hr => exact AddRel.idle _ hc hr
      | put r doc f hc hr => exact AddRel.put _ _ _ hc hr
      | lockTable r doc f hc h1 h2 hr => exact AddRel.lockTable _ _ _ hc h1 h2 hr
      | refreshing A op h1 h2 h3 => exact AddRel.refreshing _ _ h1 h2 h3
    exact key _ _ _ hR.add
  cases x with
  | begin op =>
    right
    simp only [CShard.step] at h
    rw [if_neg (by simp [hd])] at h
    have hadd : ∀ doc f, st.add = .idle → Rel so { st with add := .put doc f } base (some (addOp doc f)) r := by
      intro doc f hi
      have := hR.add
      rw [hi] at this
      cases this with
      | idle r hc' hr =>
        refine ⟨⟨⟨hR.inv.ok.len, hR.inv.ok.ptr, hR.inv.ok.nil⟩, trivial, hR.inv.rem⟩, hR.opts, hR.remNone, hR.remOp, ?_⟩
        exact AddRel.put _ _ _ hc' hr
      | refreshing A op ha => simp [AddPC.refreshing] at ha
    cases op with
    | add d f =>
      simp only at h
      split at h
      · rename_i hi
        simp only [Option.some.injEq] at h; subst h
        exact ⟨hd, base, rfl, hadd (some d) f hi⟩
      · simp at h
    | flush f =>
      simp only at h
      split at h
      · rename_i hi
        simp only [Option.some.injEq] at h; subst h
        exact ⟨hd, base, rfl, hadd none f hi⟩
      · simp at h
    | remove id f =>
      simp only at h
      split at h
      · rename_i hn
        simp only [Option.some.injEq] at h; subst h
        refine ⟨hd, base, rfl, ?_⟩
        refine abs_stepRel_begin hR hn ?_ id f
        cases hx : st.add.refreshing with
        | false => rfl
        | true => exact absurd ⟨hx, by simp⟩ hc
      · simp at h
  | add =>
    simp only [CShard.step, hd, Bool.false_eq_true, if_false] at h
    obtain ⟨op, ha, hcase⟩ := addStep_rel hso hd hR hc h
    rcases hcase with ⟨h1, h2⟩ | ⟨h1, h2, base', h3, h4⟩ | ⟨h1, h2, h3⟩
    · exact Or.inl ⟨h1, by simp [endedCall, addStep_dead_busy hd h h1], op, Or.inl ⟨rfl, ha⟩, h2⟩
    · refine Or.inr ⟨h1, base', ?_, ?_⟩
      · simp only [endedCall, h2, AddPC.busy, Bool.false_eq_true, if_false, ha, Option.toList_some,
          Indexer.run, h3, Option.bind_some]
      · simp only [nextAdd, nextRem, h2, AddPC.busy, Bool.false_eq_true, if_false]; exact h4
    · have hb : st'.add.busy = true := by
        cases hx : st'.add.busy with
        | true => rfl
        | false => exact absurd (busy_false hx) h2
      refine Or.inr ⟨h1, base, ?_, ?_⟩
      · simp [endedCall, hb, Indexer.run]
      · simp only [nextAdd, nextRem, hb, if_true]; exact h3
  | rem =>
    simp only [CShard.step, hd, Bool.false_eq_true, if_false] at h
    obtain ⟨op, ha, hcase⟩ := remWorkerStep_rel hso hd hR h
    rcases hcase with ⟨h1, h2⟩ | ⟨h1, h2, base', h3, h4⟩ | ⟨h1, h2, h3⟩
    · exact Or.inl ⟨h1, by simp [endedCall, remWorkerStep_dead_busy hd h h1], op, Or.inr ⟨rfl, ha⟩, h2⟩
    · refine Or.inr ⟨h1, base', ?_, ?_⟩
      · simp [endedCall, h2, ha, Indexer.run, h3]
      · simp only [nextAdd, nextRem, h2, Option.isSome_none, Bool.false_eq_true, if_false]; exact h4
    · have hb : st'.rem.isSome = true := Option.isSome_iff_ne_none.2 h2
      refine Or.inr ⟨h1, base, ?_, ?_⟩
      · simp [endedCall, hb, Indexer.run]
      · simp only [nextAdd, nextRem, hb, if_true]; exact h3
  | search =>
    right
    simp only [CShard.step] at h
    split at h
    · simp at h
    · simp only [Option.some.injEq] at h; subst h
      exact ⟨hd, base, rfl, hreaders _⟩
  | searched =>
    right
    simp only [CShard.step] at h
    split at h
    · simp at h
    · simp only [Option.some.injEq] at h; subst h
      exact ⟨hd, base, rfl, hreaders _⟩

theorem returned_cons (so : Sorter) (st st' : CShard) (a r : Option IdxOp) (x : SAct) (l : List SAct)
    (h : st.step so x = some st') :
    returned so st a r (x :: l) =
      endedCall a r st' x ++ returned so st' (nextAdd a st' x) (nextRem r st' x) l := by
  rw [returned, h]
  cases x with
  | begin op => cases op <;> rfl
  | add => simp only [endedCall, nextAdd, nextRem]; cases st'.add <;> rfl
  | rem => simp only [endedCall, nextAdd, nextRem]; cases st'.rem <;> rfl
  | search => rfl
  | searched => rfl

theorem noClash_cons {so : Sorter} {st st' : CShard} {x : SAct} {l : List SAct}
    (h : NoClash so st (x :: l)) (hs : st.step so x = some st') : NoClash so st' l := by
  intro pre st2 hp hr
  refine h (x :: pre) st2 (List.cons_prefix_cons.2 ⟨rfl, hp⟩) ?_
  simp [CShard.run, hs, hr]

theorem linear_run {so : Sorter} (hso : SortOk so) (as : List SAct) : ∀ (st st' : CShard) (base : Indexer)
    (a r : Option IdxOp), st.dead = false → Rel so st base a r → NoClash so st as → st.run so as = some st' →
    (st'.dead = true ∧ ∃ op, base.run so (returned so st a r as ++ [op]) = none) ∨
    (st'.dead = false ∧ ∃ base' a' r', base.run so (returned so st a r as) = some base' ∧ Rel so st' base' a' r') := by
  induction as with
  | nil =>
    intro st st' base a r hd0 hR _ h
    simp only [CShard.run, Option.some.injEq] at h
    subst h
    exact Or.inr ⟨hd0, base, a, r, rfl, hR⟩
  | cons x l ih =>
    intro st st' base a r hd0 hR hc h
    simp only [CShard.run] at h
    obtain ⟨st1, h1, h2⟩ := Option.bind_eq_some_iff.1 h
    rw [returned_cons so st st1 a r x l h1]
    have hc1 : ¬ st1.Clash := hc [x] st1 (List.cons_prefix_cons.2 ⟨rfl, List.nil_prefix⟩) (by simp [CShard.run, h1])
    rcases step_rel hso hR hc1 h1 with ⟨hd, he, op, hop, hn⟩ | ⟨hd, base1, hb, hR1⟩
    · cases l with
      | nil =>
        simp only [CShard.run, Option.some.injEq] at h2
        subst h2
        refine Or.inl ⟨hd, op, ?_⟩
        rw [he]
        simp [returned, Indexer.run, hn]
      | cons y l =>
        exfalso
        simp only [CShard.run] at h2
        obtain ⟨st2, h3, _⟩ := Option.bind_eq_some_iff.1 h2
        cases y <;> simp [CShard.step, hd] at h3
    · rcases ih st1 st' base1 _ _ hd hR1 (noClash_cons hc h1) h2 with ⟨g1, op, g2⟩ | ⟨g1, base', a', r', g2, g3⟩
      · refine Or.inl ⟨g1, op, ?_⟩
        rw [List.append_assoc, indexer_run_append, hb]; exact g2
      · refine Or.inr ⟨g1, base', a', r', ?_, g3⟩
        rw [indexer_run_append, hb]; exact g2

end Riot
