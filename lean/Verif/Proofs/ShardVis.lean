import Verif.Proofs.FineInv
import Verif.Proofs.IndexRun

/-!
# What a search sees while index calls are in progress
-/

namespace Riot

/-- The visible version of a document. -/
def visOf (s : Indexer) (known : GoMap DocIndex) (d : Str) : Option DocIndex :=
  if s.docsState.get d = some 0 then known.get d else none

theorem absOf_vis (s : Indexer) (known : GoMap DocIndex) : (absOf s known).vis = visOf s known := rfl

/-- Documents that a call in progress may hide: the one being removed, and, during a refresh, those
that have a version waiting. -/
def Hid (refreshing : Bool) (base : Indexer) (a r : Option IdxOp) (d : Str) : Prop :=
  (∃ op, r = some op ∧ op.id? = some d) ∨
  (refreshing = true ∧ ((∃ op, a = some op ∧ op.id? = some d) ∨ ∃ x ∈ base.addCache, x.docId = d))

/-- The removal slice in flight names hidden documents; it is sorted when it is used. -/
def SliceW (st : CShard) : RemPC → Prop
  | .sort n => ∀ d ∈ st.arr.take n, st.ix.docsState.get d ≠ some 0
  | .remove n => (∀ d ∈ st.arr.take n, st.ix.docsState.get d ≠ some 0) ∧ (st.arr.take n).Pairwise (· ≤ ·)
  | _ => True

def AddPC.scanning : AddPC → Bool
  | .scan .. => true
  | .lockCache .. => true
  | _ => false

/-- Invariant of a shard in the middle of calls. -/
structure W (st : CShard) (base : Indexer) (a r : Option IdxOp) (kb known : GoMap DocIndex) : Prop where
  inv : Inv base kb
  core : Core st.ix known
  vis : ∀ d, visOf st.ix known d = visOf base kb d ∨
    (visOf st.ix known d = none ∧ Hid st.add.refreshing base a r d)
  no2 : st.add.refreshing = false → ∀ d, st.ix.docsState.get d ≠ some 2
  rm : ∀ d ∈ st.arr.take st.ptr, st.ix.docsState.get d ≠ some 0
  addSl : ∀ pc p, st.add = .remove pc p → SliceW st pc
  addId : ∀ pc p, st.add = .remove pc p →
    ∀ id f, pc ≠ .lockTable id f ∧ (pc = .lockCache id f → id = str "0")
  remSl : ∀ pc, st.rem = some pc → SliceW st pc
  cache : st.add.scanning = true → ∀ x ∈ st.ix.addCache, Hid true base a r x.docId
  lock : ∀ fuel i p f id, st.add = .lockCache fuel i p f id →
    st.ix.docsState.get id = some 0 ∧ Hid true base a r id
  remId : ∀ id f, st.rem = some (.lockCache id f) ∨ st.rem = some (.lockTable id f) →
    r = some (.remove id f)
  aOk : ∀ op, a = some op → OpOk op

/-! ## Changing the state of a document -/

theorem core_set1 {s : Indexer} {known : GoMap DocIndex} (hc : Core s known) {d : Str}
    (h : s.docsState.get d = some 0) :
    Core { s with docsState := s.docsState.set d 1, numDocs := s.numDocs - 1 } known := by
  refine ⟨hc.table, hc.ok, hc.lens, hc.total, ?_, ?_⟩
  · show s.numDocs - 1 = (((s.docsState.set d 1).count (· == 0) : Nat) : Int)
    rw [count_set_from_zero _ _ h, hc.num]
  · intro x
    show _ ↔ (s.docsState.set d 1).get x = some 0 ∨ (s.docsState.set d 1).get x = some 1
    rw [GoMap.get_set, hc.state x]
    by_cases hx : x = d
    · simp [hx, h]
    · simp [hx]

theorem core_set2 {s : Indexer} {known : GoMap DocIndex} (hc : Core s known) {d : Str}
    (h : s.docsState.get d = none) :
    Core { s with docsState := s.docsState.set d 2 } known := by
  refine ⟨hc.table, hc.ok, hc.lens, hc.total, ?_, ?_⟩
  · show s.numDocs = (((s.docsState.set d 2).count (· == 0) : Nat) : Int)
    rw [count_set_from_none _ _ _ (by omega) h, hc.num]
  · intro x
    show _ ↔ (s.docsState.set d 2).get x = some 0 ∨ (s.docsState.set d 2).get x = some 1
    rw [GoMap.get_set, hc.state x]
    by_cases hx : x = d
    · rw [if_pos hx, hx, h]; simp
    · rw [if_neg hx]

theorem core_congr {s s' : Indexer} {known : GoMap DocIndex} (hc : Core s known)
    (h1 : s'.table = s.table) (h2 : s'.opts = s.opts) (h3 : s'.docTokenLens = s.docTokenLens)
    (h4 : s'.totalTokenLen = s.totalTokenLen) (h5 : s'.numDocs = s.numDocs)
    (h6 : s'.docsState = s.docsState) : Core s' known :=
  ⟨by rw [h1, h2]; exact hc.table, hc.ok, by rw [h3]; exact hc.lens, by rw [h4]; exact hc.total,
    by rw [h5, h6]; exact hc.num, by rw [h6]; exact hc.state⟩

theorem SliceW.congr {st st' : CShard} {pc : RemPC} (h : SliceW st pc) (h1 : st'.arr = st.arr)
    (h2 : ∀ d, st.ix.docsState.get d ≠ some 0 → st'.ix.docsState.get d ≠ some 0) : SliceW st' pc := by
  cases pc with
  | sort n => intro d hd; rw [h1] at hd; exact h2 d (h d hd)
  | remove n =>
    refine ⟨fun d hd => ?_, by rw [h1]; exact h.2⟩
    rw [h1] at hd; exact h2 d (h.1 d hd)
  | _ => trivial

/-! ## Between calls -/

/-- A shard none of whose workers is removing or refreshing is the index of the calls that have
returned. -/
theorem W.fresh {so : Sorter} {st : CShard} {base : Indexer} {a : Option IdxOp} {kb : GoMap DocIndex}
    (hR : Rel so st base a none) (hi : Inv base kb) (hnr : st.add.refreshing = false)
    (ha : ∀ op, a = some op → OpOk op) : W st base a none kb kb := by
  have hrem : st.rem = none := hR.remNone.2 rfl
  obtain ⟨doc, _, v2, _⟩ := hR.add.view hnr
  have hab : st.abs = base.pushAdd doc := by
    unfold CShard.remRes at v2; rw [hrem] at v2; simpa [Indexer.stepOpt] using v2
  have hst : st.ix.docsState = base.docsState := by have := congrArg Indexer.docsState hab; exact this
  have hrm : st.arr.take st.ptr = base.removeCache := by
    have := congrArg Indexer.removeCache hab; exact this
  have e1 : st.ix.table = base.table := by have := congrArg Indexer.table hab; exact this
  have e2 : st.ix.docTokenLens = base.docTokenLens := by
    have := congrArg Indexer.docTokenLens hab; exact this
  have e3 : st.ix.totalTokenLen = base.totalTokenLen := by
    have := congrArg Indexer.totalTokenLen hab; exact this
  have e4 : st.ix.numDocs = base.numDocs := by have := congrArg Indexer.numDocs hab; exact this
  refine ⟨hi, ?_, ?_, ?_, ?_, ?_, ?_, ?_, ?_, ?_, ?_, ha⟩
  · exact core_congr hi.core e1 hR.opts e2 e3 e4 hst
  · intro d; left; simp only [visOf, hst]
  · intro _ d h
    rw [hst] at h
    rcases hi.st01 d 2 h with h | h <;> omega
  · intro d hd
    rw [hrm] at hd
    rw [hst, (hi.rm d).2 hd]; simp
  · intro pc p h; rw [h] at hnr; simp [AddPC.refreshing] at hnr
  · intro pc p h; rw [h] at hnr; simp [AddPC.refreshing] at hnr
  · intro pc h; rw [hrem] at h; simp at h
  · intro h
    cases hx : st.add <;> rw [hx] at h hnr <;> simp [AddPC.scanning, AddPC.refreshing] at h hnr
  · intro fuel i p f id h; rw [h] at hnr; simp [AddPC.refreshing] at hnr
  · intro id f h; rw [hrem] at h; simp at h

/-! ## One action inside RemoveDocToCache -/

/-- The part of the invariant that the actions of RemoveDocToCache are about. -/
structure WR (st : CShard) (known : GoMap DocIndex) : Prop where
  core : Core st.ix known
  rm : ∀ d ∈ st.arr.take st.ptr, st.ix.docsState.get d ≠ some 0

theorem mem_take_set {l : List Str} {n : Nat} {x d : Str} (h : d ∈ (l.set n x).take (n + 1)) :
    d ∈ l.take n ∨ d = x := by
  rcases Nat.lt_or_ge n l.length with hn | hn
  · rw [take_set_append hn] at h; simpa using h
  · rw [List.set_eq_of_length_le hn, List.take_of_length_le (by omega)] at h
    left; rw [List.take_of_length_le hn]; exact h

theorem register_w {st st' : CShard} {known : GoMap DocIndex} {id : Str} (h : WR st known)
    (ok : st.Ok) (hn2 : st.ix.docsState.get id ≠ some 2) (hr : st.register id = some st') :
    WR st' known ∧ st'.add = st.add ∧ st'.rem = st.rem ∧ st'.ix.addCache = st.ix.addCache ∧
      (∀ d, d ≠ id → st'.ix.docsState.get d = st.ix.docsState.get d) ∧
      (∀ d, st.ix.docsState.get d ≠ some 0 → st'.ix.docsState.get d = st.ix.docsState.get d) ∧
      (st'.ix.docsState.get id ≠ some 0) := by
  unfold CShard.register at hr
  split at hr
  · rename_i h0
    rw [push_abs ok] at hr
    split at hr
    · simp only [Option.map_some, Option.some.injEq] at hr
      subst hr
      refine ⟨⟨core_set1 h.core h0, ?_⟩, rfl, rfl, rfl, ?_, ?_, ?_⟩
      · intro d hd
        show (st.ix.docsState.set id 1).get d ≠ some 0
        rw [GoMap.get_set]
        split
        · simp
        · rename_i hne
          rcases mem_take_set hd with hd | hd
          · exact h.rm d hd
          · exact absurd hd hne
      · intro d hd
        show (st.ix.docsState.set id 1).get d = _
        rw [GoMap.get_set, if_neg hd]
      · intro d hd
        show (st.ix.docsState.set id 1).get d = _
        rw [GoMap.get_set, if_neg]
        rintro rfl; exact hd h0
      · show (st.ix.docsState.set id 1).get id ≠ some 0
        rw [GoMap.get_set, if_pos rfl]; simp
    · simp at hr
  · rename_i h2; exact absurd h2 hn2
  · rename_i h0 h2
    simp only [Option.some.injEq] at hr; subst hr
    exact ⟨h, rfl, rfl, rfl, fun _ _ => rfl, fun _ _ => rfl, h0⟩

/-- One action of a goroutine in RemoveDocToCache: it hides at most the document being removed. -/
theorem remStep_w {so : Sorter} (hso : SortOk so) {st st' : CShard} {known : GoMap DocIndex}
    {tf cf : Bool} {pc pc' : RemPC} (h : WR st known) (ok : st.Ok) (hsl : SliceW st pc)
    (hn2 : ∀ id f, pc = .lockTable id f → st.ix.docsState.get id ≠ some 2)
    (hs : st.remStep so tf cf pc = some (st', pc')) (hd' : st'.dead = false) :
    ∃ known', WR st' known' ∧ st'.add = st.add ∧ st'.rem = st.rem ∧ SliceW st' pc' ∧
      st'.ix.addCache = st.ix.addCache ∧
      (∀ d, st'.ix.docsState.get d = some 2 → st.ix.docsState.get d = some 2) ∧
      (∀ d, visOf st'.ix known' d = visOf st.ix known d ∨
        (visOf st'.ix known' d = none ∧ ∃ f, pc = .lockTable d f)) ∧
      (∀ id f, pc' = .lockCache id f ∨ pc' = .lockTable id f → pc = .lockCache id f ∧ id ≠ str "0") := by
  cases pc with
  | lockCache id f =>
    simp only [CShard.remStep] at hs
    split at hs
    · simp only [Option.some.injEq, Prod.mk.injEq] at hs
      obtain ⟨rfl, rfl⟩ := hs
      refine ⟨known, h, rfl, rfl, ?_, rfl, fun _ x => x, fun _ => Or.inl rfl, ?_⟩
      · split <;> trivial
      · intro id' f' hx
        split at hx <;> simp at hx
        rename_i h0
        obtain ⟨rfl, rfl⟩ := hx; exact ⟨rfl, h0⟩
    · simp at hs
  | lockTable id f =>
    simp only [CShard.remStep] at hs
    split at hs
    · simp only [Option.some.injEq, Prod.mk.injEq] at hs
      obtain ⟨hst, rfl⟩ := hs
      cases hr : st.register id with
      | none => rw [hr] at hst; subst hst; simp [CShard.orDie] at hd'
      | some st1 =>
        rw [hr] at hst; simp only [CShard.orDie] at hst; subst hst
        obtain ⟨h1, h2, h3, h4, h5, h6, h7⟩ := register_w h ok (hn2 id f rfl) hr
        refine ⟨known, h1, h2, h3, trivial, h4, ?_, ?_, by simp⟩
        · intro d hd
          by_cases hx : d = id
          · subst hx
            by_cases h0 : st.ix.docsState.get d = some 0
            · have hk := (h1.core.state d).1
              have hk0 := (h.core.state d).2 (Or.inl h0)
              rcases hk hk0 with e | e <;> rw [e] at hd <;> simp at hd
            · rw [← h6 d h0]; exact hd
          · rw [← h5 d hx]; exact hd
        · intro d
          by_cases hx : d = id
          · subst hx
            right
            exact ⟨by simp [visOf, h7], f, rfl⟩
          · left
            simp only [visOf, h5 d hx]
    · simp at hs
  | check f =>
    simp only [CShard.remStep] at hs
    split at hs
    · simp only [Option.some.injEq, Prod.mk.injEq] at hs
      obtain ⟨rfl, rfl⟩ := hs
      exact ⟨known, ⟨h.core, by simp⟩, rfl, rfl, h.rm, rfl, fun _ x => x, fun _ => Or.inl rfl, by simp⟩
    · simp only [Option.some.injEq, Prod.mk.injEq] at hs
      obtain ⟨rfl, rfl⟩ := hs
      exact ⟨known, h, rfl, rfl, trivial, rfl, fun _ x => x, fun _ => Or.inl rfl, by simp⟩
  | sort n =>
    simp only [CShard.remStep, Option.some.injEq, Prod.mk.injEq] at hs
    obtain ⟨rfl, rfl⟩ := hs
    have hlen : (so.ids (st.arr.take n)).length = (st.arr.take n).length := (hso.ids_perm _).length_eq
    have htake : (so.ids (st.arr.take n) ++ st.arr.drop n).take n = so.ids (st.arr.take n) := by
      rw [List.take_append]
      rcases Nat.le_total n st.arr.length with hn | hn
      · rw [List.length_take, Nat.min_eq_left hn] at hlen
        rw [hlen, List.take_of_length_le (by omega)]; simp
      · rw [List.drop_eq_nil_of_le hn, List.take_nil, List.append_nil, List.take_of_length_le]
        rw [hlen, List.length_take]; omega
    refine ⟨known, ⟨h.core, ?_⟩, rfl, rfl, ⟨?_, ?_⟩, rfl, fun _ x => x, fun _ => Or.inl rfl, by simp⟩
    · intro d hd
      have hperm : (so.ids (st.arr.take n) ++ st.arr.drop n).Perm st.arr := by
        have := (hso.ids_perm (st.arr.take n)).append_right (st.arr.drop n)
        rwa [List.take_append_drop] at this
      -- the cache pointer is 0 while a slice is in flight or lies inside the sorted part
      by_cases hp : st.ptr ≤ n
      · have : d ∈ so.ids (st.arr.take n) := by
          rw [← htake]
          exact List.take_subset_take_left _ hp hd
        exact hsl d ((hso.ids_perm _).mem_iff.1 this)
      · have hd2 : d ∈ so.ids (st.arr.take n) ∨ d ∈ (st.arr.drop n).take (st.ptr - n) := by
          rw [List.take_append] at hd
          rcases List.mem_append.1 hd with hd | hd
          · exact Or.inl (List.mem_of_mem_take hd)
          · right
            rcases Nat.le_total n st.arr.length with hn | hn
            · rw [List.length_take, Nat.min_eq_left hn] at hlen
              rwa [hlen] at hd
            · rw [List.drop_eq_nil_of_le hn] at hd; simp at hd
        rcases hd2 with hd2 | hd2
        · exact hsl d ((hso.ids_perm _).mem_iff.1 hd2)
        · apply h.rm d
          have : st.arr.take st.ptr = st.arr.take n ++ (st.arr.drop n).take (st.ptr - n) := by
            rw [← List.take_add]; congr 1; omega
          rw [this]; exact List.mem_append_right _ hd2
    · intro d hd
      have hd : d ∈ (so.ids (st.arr.take n) ++ st.arr.drop n).take n := hd
      rw [htake] at hd
      exact hsl d ((hso.ids_perm _).mem_iff.1 hd)
    · show ((so.ids (st.arr.take n) ++ st.arr.drop n).take n).Pairwise _
      rw [htake]; exact hso.ids_sorted _
  | remove n =>
    simp only [CShard.remStep] at hs
    split at hs
    · simp only [Option.some.injEq, Prod.mk.injEq] at hs
      obtain ⟨hst, rfl⟩ := hs
      obtain ⟨s', e1, e2, e3, e4, e5, e6⟩ := removeDocs_spec (st.arr.take n) h.core hsl.2 hsl.1
      rw [e1] at hst
      simp only [Option.map_some, CShard.orDie] at hst
      subst hst
      refine ⟨_, ⟨e2, ?_⟩, rfl, rfl, trivial, e5, ?_, ?_, by simp⟩
      · intro d hd
        show s'.docsState.get d ≠ some 0
        rw [e3 d]
        split
        · simp
        · exact h.rm d hd
      · intro d hd
        have hd : s'.docsState.get d = some 2 := hd
        rw [e3 d] at hd
        split at hd
        · simp at hd
        · exact hd
      · intro d
        left
        show visOf s' _ d = _
        simp only [visOf, e3 d]
        by_cases hd : d ∈ st.arr.take n
        · simp [hd, hsl.1 d hd]
        · simp only [if_neg hd]
          rw [GoMap.get_delAll, if_neg hd]
    · simp at hs
  | ret b => simp [CShard.remStep] at hs

/-! ## One action of a shard -/

theorem hid_nr {base : Indexer} {a : Option IdxOp} {d : Str} : ¬ Hid false base a none d := by
  rintro (⟨op, h, _⟩ | ⟨h, _⟩) <;> simp at h

/-- A commit that only puts a document into the cache. -/
theorem absStep_push {base : Indexer} {kb : GoMap DocIndex} (doc : Option DocIndex) :
    AbsStep (addOp doc false) (absOf base kb) (absOf (base.pushAdd doc) kb) := by
  cases doc with
  | none => rw [pushAdd_none]; exact AbsCommit.refl_of_not_force _
  | some doc =>
    refine (AbsCommit.refl_of_not_force _).congr_left (fun _ => rfl) (fun d x => ?_)
    simp only [absOf, Indexer.pushAdd, Option.toList_some, List.mem_append, List.mem_singleton]
    constructor
    · rintro (⟨h, h2⟩ | ⟨h, h2⟩)
      · exact ⟨Or.inl h, h2⟩
      · exact ⟨Or.inr h, by rw [h, h2]⟩
    · rintro ⟨h | h, h2⟩
      · exact Or.inl ⟨h, h2⟩
      · exact Or.inr ⟨h, by rw [← h2, h]⟩

theorem Inv.pushAdd {base : Indexer} {kb : GoMap DocIndex} (hi : Inv base kb) {doc : Option DocIndex}
    {f : Bool} (hok : OpOk (addOp doc f)) (hfit : doc ≠ none → base.addCache.length < base.opts.docCacheSize) :
    Inv (base.pushAdd doc) kb := by
  cases doc with
  | none => rw [pushAdd_none]; exact hi
  | some d => exact hi.push d hok (hfit (by simp))

theorem swapCache_mem {cache cache' : List DocIndex} {p i : Nat} {doc : DocIndex}
    (hi : cache[i]? = some doc) (h : swapCache cache p i doc = some cache') :
    ∀ x ∈ cache', x ∈ cache := by
  unfold swapCache at h
  split at h
  · split at h
    · simp at h
    · rename_i q hq
      simp only [Option.some.injEq] at h
      subst h
      intro x hx
      rcases List.mem_or_eq_of_mem_set hx with hx | rfl
      · rcases List.mem_or_eq_of_mem_set hx with hx | rfl
        · exact hx
        · exact List.mem_of_getElem? hi
      · exact List.mem_of_getElem? hq
  · simp only [Option.some.injEq] at h
    subst h; exact fun _ hx => hx

/-- Changing only the counters of readers. -/
theorem W.readers {st : CShard} {base : Indexer} {a r : Option IdxOp} {kb known : GoMap DocIndex}
    (h : W st base a r kb known) (n : Nat) : W { st with readers := n } base a r kb known :=
  ⟨h.inv, h.core, h.vis, h.no2, h.rm, fun pc p e => (h.addSl pc p e).congr rfl (fun _ x => x), h.addId,
    fun pc e => (h.remSl pc e).congr rfl (fun _ x => x), h.cache, h.lock, h.remId, h.aOk⟩

/-- The add worker acts inside a refresh (and does not return). -/
theorem addStep_w {so : Sorter} (hso : SortOk so) {st st' : CShard} {base : Indexer} {a r : Option IdxOp}
    {kb known : GoMap DocIndex} (hR : Rel so st base a r) (hw : W st base a r kb known)
    (hc' : ¬ st'.Clash) (h : st.addStep so = some st') (hd' : st'.dead = false) (hne : st'.add ≠ .idle) :
    ∃ known', W st' base a r kb known' := by
  have ok := hR.inv.ok
  unfold CShard.addStep at h
  simp only at h
  split at h
  · simp at h
  · -- put
    rename_i doc f hA
    split at h
    · simp only [Option.some.injEq] at h; subst h; simp at hd'
    · rename_i ix hix
      simp only [Option.some.injEq] at h; subst h
      have hst : ix.docsState = st.ix.docsState ∧ Core ix known := by
        cases doc with
        | none => simp only [Option.some.injEq] at hix; subst hix; exact ⟨rfl, hw.core⟩
        | some d =>
          simp only at hix
          split at hix
          · simp only [Option.some.injEq] at hix; subst hix
            exact ⟨rfl, core_congr hw.core rfl rfl rfl rfl rfl rfl⟩
          · simp at hix
      have hnr : st.add.refreshing = false := by rw [hA]; rfl
      have hadd : (if ix.addCache.length ≥ ix.opts.docCacheSize ∨ f = true then AddPC.lockTable f
          else .idle) = .lockTable f := by
        split
        · rfl
        · rename_i hx; simp [hx] at hne
      rw [hadd] at *
      refine ⟨known, hw.inv, hst.2, ?_, ?_, ?_, by simp, by simp, ?_, by simp [AddPC.scanning], by simp,
        hw.remId, hw.aOk⟩
      · intro d
        have := hw.vis d
        rw [hnr] at this
        have e : visOf ix known d = visOf st.ix known d := by simp only [visOf, hst.1]
        simp only [e]; exact this
      · intro _ d; simp only [hst.1]; exact hw.no2 hnr d
      · intro d hd; simp only [hst.1]; exact hw.rm d hd
      · intro pc hp
        exact (hw.remSl pc hp).congr rfl (fun d x => by simp only [hst.1]; exact x)
  · -- lockTable
    rename_i f hA
    split at h
    · simp only [Option.some.injEq] at h; subst h
      have hrem : st.rem = none := by
        by_contra hx; exact hc' ⟨rfl, hx⟩
      have hr : r = none := hR.remNone.1 hrem
      have hnr : st.add.refreshing = false := by rw [hA]; rfl
      have hA' := hR.add
      rw [hA] at hA'
      refine ⟨known, hw.inv, hw.core, ?_, by simp [AddPC.refreshing], hw.rm, by simp, by simp, ?_, ?_, by simp,
        hw.remId, hw.aOk⟩
      · intro d
        rcases hw.vis d with e | ⟨_, e⟩
        · exact Or.inl e
        · rw [hnr, hr] at e; exact absurd e hid_nr
      · intro pc hp; exact (hw.remSl pc hp).congr rfl (fun _ x => x)
      · intro _ x hx
        cases hA' with
        | lockTable _ doc _ hc _ _ _ =>
          have hx : x ∈ st.ix.addCache := hx
          rw [hc] at hx
          rcases List.mem_append.1 hx with hx | hx
          · exact Or.inr ⟨rfl, Or.inr ⟨x, hx, rfl⟩⟩
          · refine Or.inr ⟨rfl, Or.inl ⟨_, rfl, ?_⟩⟩
            cases doc with
            | none => simp at hx
            | some d => simp at hx; subst hx; rfl
        | refreshing _ op ha => simp [AddPC.refreshing] at ha
    · simp at h
  · -- end of the scan
    rename_i i position force hA
    simp only [Option.some.injEq] at h; subst h
    have hrf : st.add.refreshing = true := by rw [hA]; rfl
    refine ⟨known, hw.inv, hw.core, ?_, by simp [AddPC.refreshing], hw.rm, ?_, ?_, ?_,
      by simp [AddPC.scanning], by simp, hw.remId, hw.aOk⟩
    · intro d; have := hw.vis d; rw [hrf] at this; exact this
    · intro pc p e; simp only [AddPC.remove.injEq] at e; obtain ⟨rfl, _⟩ := e; trivial
    · intro pc p e; simp only [AddPC.remove.injEq] at e; obtain ⟨rfl, _⟩ := e
      intro id f
      refine ⟨by simp, ?_⟩
      intro e; simp only [RemPC.lockCache.injEq] at e; exact e.1.symm
    · intro pc hp; exact (hw.remSl pc hp).congr rfl (fun _ x => x)
  · -- one document of the scan
    rename_i fuel i position force hA
    have hrf : st.add.refreshing = true := by rw [hA]; rfl
    have hsc : st.add.scanning = true := by rw [hA]; rfl
    split at h
    · simp only [Option.some.injEq] at h; subst h; simp at hd'
    · rename_i doc hdoc
      split at h
      · rename_i hst
        simp only [Option.some.injEq] at h; subst h
        have hget : ∀ d, (st.ix.docsState.set doc.docId 2).get d =
            if d = doc.docId then some 2 else st.ix.docsState.get d := fun d => GoMap.get_set _ _ _ _
        refine ⟨known, hw.inv, core_set2 hw.core hst, ?_, by simp [AddPC.refreshing], ?_, by simp, by simp, ?_, ?_,
          by simp, hw.remId, hw.aOk⟩
        · intro d
          have := hw.vis d
          rw [hrf] at this
          have e : visOf { st.ix with docsState := st.ix.docsState.set doc.docId 2 } known d =
              visOf st.ix known d := by
            simp only [visOf, hget]
            by_cases hd : d = doc.docId
            · simp [hd, hst]
            · simp [hd]
          rw [show (AddPC.refreshing (.scan fuel (i + 1) position force)) = true from rfl, e]
          exact this
        · intro d hd
          show (st.ix.docsState.set doc.docId 2).get d ≠ some 0
          rw [hget]; split
          · simp
          · exact hw.rm d hd
        · intro pc hp
          refine (hw.remSl pc hp).congr rfl (fun d x => ?_)
          show (st.ix.docsState.set doc.docId 2).get d ≠ some 0
          rw [hget]; split
          · simp
          · exact x
        · intro _ x hx; exact hw.cache hsc x hx
      · rename_i s hst
        split at h
        · split at h
          · simp only [Option.some.injEq] at h; subst h; simp at hd'
          · rename_i cache hcache
            simp only [Option.some.injEq] at h; subst h
            have hm := swapCache_mem hdoc hcache
            have hsc' : (if s = 0 then AddPC.lockCache fuel i position force doc.docId
                else .scan fuel (i + 1) (position + 1) force).refreshing = true := by split <;> rfl
            refine ⟨known, hw.inv, core_congr hw.core rfl rfl rfl rfl rfl rfl, ?_, ?_, hw.rm, ?_, ?_, ?_, ?_, ?_,
              hw.remId, hw.aOk⟩
            · intro d
              have := hw.vis d
              rw [hrf] at this
              simp only [hsc']
              exact this
            · intro e; simp only [hsc'] at e; simp at e
            · intro pc p e; simp only at e; split at e <;> simp at e
            · intro pc p e; simp only at e; split at e <;> simp at e
            · intro pc hp; exact (hw.remSl pc hp).congr rfl (fun _ x => x)
            · intro _ x hx; exact hw.cache hsc x (hm x hx)
            · intro fuel' i' p' f' id e
              simp only at e
              split at e
              · rename_i h0
                simp only [AddPC.lockCache.injEq] at e
                obtain ⟨_, _, _, _, rfl⟩ := e
                exact ⟨by rw [hst, h0], hw.cache hsc doc (List.mem_of_getElem? hdoc)⟩
              · simp at e
        · simp only [Option.some.injEq] at h; subst h
          refine ⟨known, hw.inv, hw.core, ?_, by simp [AddPC.refreshing], hw.rm, by simp, by simp, ?_, ?_, by simp,
            hw.remId, hw.aOk⟩
          · intro d; have := hw.vis d; rw [hrf] at this; exact this
          · intro pc hp; exact (hw.remSl pc hp).congr rfl (fun _ x => x)
          · intro _ x hx; exact hw.cache hsc x hx
  · -- lockCache
    rename_i fuel i position force id hA
    have hrf : st.add.refreshing = true := by rw [hA]; rfl
    have hsc : st.add.scanning = true := by rw [hA]; rfl
    obtain ⟨h0, hhid⟩ := hw.lock _ _ _ _ _ hA
    split at h
    · simp only [Option.some.injEq] at h
      rw [push_abs ok] at h
      split at h
      · simp only [Option.map_some, CShard.orDie] at h
        subst h
        have hget : ∀ d, (st.ix.docsState.set id 1).get d =
            if d = id then some 1 else st.ix.docsState.get d := fun d => GoMap.get_set _ _ _ _
        refine ⟨known, hw.inv, core_set1 hw.core h0, ?_, by simp [AddPC.refreshing], ?_, by simp, by simp, ?_, ?_,
          by simp, hw.remId, hw.aOk⟩
        · intro d
          rw [show (AddPC.refreshing (.scan fuel (i + 1) (position + 1) force)) = true from rfl]
          by_cases hd : d = id
          · right
            subst hd
            exact ⟨by simp [visOf, hget], hhid⟩
          · have := hw.vis d
            rw [hrf] at this
            have e : visOf { st.ix with docsState := st.ix.docsState.set id 1, numDocs := st.ix.numDocs - 1 }
                known d = visOf st.ix known d := by simp [visOf, hget, hd]
            rw [e]; exact this
        · intro d hd
          show (st.ix.docsState.set id 1).get d ≠ some 0
          rw [hget]; split
          · simp
          · rename_i hx
            rcases mem_take_set hd with hd | hd
            · exact hw.rm d hd
            · exact absurd hd hx
        · intro pc hp
          have hrem : st.rem = none := by
            by_contra hx; exact hc' ⟨rfl, hx⟩
          have hp : st.rem = some pc := hp
          rw [hrem] at hp; simp at hp
        · intro _ x hx; exact hw.cache hsc x hx
      · simp only [Option.map_none, CShard.orDie] at h
        subst h; simp at hd'
    · simp at h
  · -- return of the inner RemoveDocToCache
    rename_i removed position hA
    have hrf : st.add.refreshing = true := by rw [hA]; rfl
    simp only [Option.some.injEq] at h; subst h
    refine ⟨known, hw.inv, core_congr hw.core rfl rfl rfl rfl rfl rfl, ?_, by simp [AddPC.refreshing], hw.rm,
      by simp, by simp, ?_, by simp [AddPC.scanning], by simp, hw.remId, hw.aOk⟩
    · intro d; have := hw.vis d; rw [hrf] at this; exact this
    · intro pc hp; exact (hw.remSl pc hp).congr rfl (fun _ x => x)
  · -- inside the inner RemoveDocToCache
    rename_i pc position hnret hA
    have hrf : st.add.refreshing = true := by rw [hA]; rfl
    obtain ⟨⟨st1, pc1⟩, h1, h2⟩ := Option.map_eq_some_iff.1 h
    subst h2
    have hid := hw.addId _ _ hA
    obtain ⟨known', g1, g2, g3, g4, g5, g6, g7, g8⟩ := remStep_w hso ⟨hw.core, hw.rm⟩ ok (hw.addSl _ _ hA)
      (fun id f e => absurd e (hid id f).1) h1 hd'
    have hrem : st.rem = none := by
      by_contra hx
      refine hc' ⟨rfl, ?_⟩
      show st1.rem ≠ none
      rw [g3]; exact hx
    refine ⟨known', hw.inv, g1.core, ?_, by simp [AddPC.refreshing], g1.rm, ?_, ?_, ?_,
      by simp [AddPC.scanning], by simp, ?_, hw.aOk⟩
    · intro d
      have := hw.vis d
      rw [hrf] at this
      rcases g7 d with e | ⟨_, f, e⟩
      · rw [show (AddPC.refreshing (.remove pc1 position)) = true from rfl]
        simp only
        rw [e]; exact this
      · exact absurd e (hid d f).1
    · intro pc' p e
      simp only [AddPC.remove.injEq] at e
      obtain ⟨rfl, _⟩ := e
      exact g4.congr rfl (fun _ x => x)
    · intro pc' p e
      simp only [AddPC.remove.injEq] at e
      obtain ⟨rfl, _⟩ := e
      intro id f
      constructor
      · intro e
        obtain ⟨e1, e2⟩ := g8 id f (Or.inr e)
        exact e2 ((hid id f).2 e1)
      · intro e
        obtain ⟨e1, e2⟩ := g8 id f (Or.inl e)
        exact (hid id f).2 e1
    · intro pc' hp
      have hp : st1.rem = some pc' := hp
      rw [g3, hrem] at hp; simp at hp
    · intro id f e
      have e : st1.rem = some (.lockCache id f) ∨ st1.rem = some (.lockTable id f) := e
      rw [g3, hrem] at e; simp at e
  · -- AddDocs
    split at h
    · simp only [Option.some.injEq] at h
      cases hp : st.ix.addDocs _ with
      | none => rw [hp] at h; subst h; simp [CShard.orDie] at hd'
      | some ix => rw [hp] at h; subst h; simp [CShard.orDie] at hne
    · simp at h

/-- One action of a shard. -/
theorem step_w {so : Sorter} (hso : SortOk so) {st st' : CShard} {base base' : Indexer}
    {a r : Option IdxOp} {kb known : GoMap DocIndex} {x : SAct} (hR : Rel so st base a r)
    (hw : W st base a r kb known) (hc : ¬ st.Clash) (hc' : ¬ st'.Clash) (hok : ∀ op, x = .begin op → OpOk op)
    (h : st.step so x = some st') (hd' : st'.dead = false)
    (hb : base.run so (endedCall a r st' x) = some base')
    (hR' : Rel so st' base' (nextAdd a st' x) (nextRem r st' x)) :
    ∃ kb' known', W st' base' (nextAdd a st' x) (nextRem r st' x) kb' known' ∧
      ((endedCall a r st' x = [] ∧ base' = base ∧ kb' = kb) ∨
       ∃ op, endedCall a r st' x = [op] ∧ AbsStep op (absOf base kb) (absOf base' kb')) := by
  have hd : st.dead = false := by
    cases hx : st.dead with
    | false => rfl
    | true => cases x <;> simp [CShard.step, hx] at h
  -- a call returns and no removal is in progress
  have fresh : ∀ op, endedCall a r st' x = [op] → OpOk op → nextRem r st' x = none →
      st'.add.refreshing = false → (∀ op', nextAdd a st' x = some op' → OpOk op') →
      ∃ kb' known', W st' base' (nextAdd a st' x) (nextRem r st' x) kb' known' ∧
        ((endedCall a r st' x = [] ∧ base' = base ∧ kb' = kb) ∨
         ∃ op, endedCall a r st' x = [op] ∧ AbsStep op (absOf base kb) (absOf base' kb')) := by
    intro op he hop hr hnr ha
    rw [he] at hb
    have hs : base.step so op = some base' := by
      simpa [Indexer.run] using hb
    obtain ⟨kb', hi', hab⟩ := step_refines hso hw.inv op hop hs
    rw [hr] at hR' ⊢
    exact ⟨kb', kb', W.fresh hR' hi' hnr ha, Or.inr ⟨op, he, hab⟩⟩
  cases x with
  | begin op =>
    have hbase : base' = base := by simpa [endedCall, Indexer.run] using hb.symm
    subst hbase
    refine ⟨kb, known, ?_, Or.inl ⟨rfl, rfl, rfl⟩⟩
    simp only [CShard.step] at h
    rw [if_neg (by simp [hd])] at h
    have hadd : ∀ doc f, st.add = .idle → OpOk (addOp doc f) →
        W { st with add := .put doc f } base' (some (addOp doc f)) r kb known := by
      intro doc f hi hop
      have hnr : st.add.refreshing = false := by rw [hi]; rfl
      refine ⟨hw.inv, hw.core, ?_, fun _ => hw.no2 hnr, hw.rm, by simp, by simp, ?_, by simp [AddPC.scanning], by simp,
        hw.remId, ?_⟩
      · intro d
        rcases hw.vis d with e | ⟨e, e2⟩
        · exact Or.inl e
        · refine Or.inr ⟨e, ?_⟩
          rw [hnr] at e2
          rcases e2 with e2 | ⟨e2, _⟩
          · exact Or.inl e2
          · simp at e2
      · intro pc hp; exact (hw.remSl pc hp).congr rfl (fun _ x => x)
      · intro op e; simp only [Option.some.injEq] at e; subst e; exact hop
    cases op with
    | add d f =>
      simp only at h
      split at h
      · rename_i hi
        simp only [Option.some.injEq] at h; subst h
        exact hadd (some d) f hi (hok _ rfl)
      · simp at h
    | flush f =>
      simp only at h
      split at h
      · rename_i hi
        simp only [Option.some.injEq] at h; subst h
        exact hadd none f hi trivial
      · simp at h
    | remove id f =>
      simp only at h
      split at h
      · rename_i hn
        simp only [Option.some.injEq] at h; subst h
        have hr : r = none := hR.remNone.1 hn
        have hnr : st.add.refreshing = false := by
          cases hx : st.add.refreshing with
          | false => rfl
          | true => exact absurd ⟨hx, by simp⟩ hc'
        refine ⟨hw.inv, hw.core, ?_, hw.no2, hw.rm, ?_, hw.addId, ?_, ?_, ?_, ?_, hw.aOk⟩
        · intro d
          rcases hw.vis d with e | ⟨e, e2⟩
          · exact Or.inl e
          · rw [hnr, hr] at e2; exact absurd e2 hid_nr
        · intro pc p e; exact (hw.addSl pc p e).congr rfl (fun _ x => x)
        · intro pc hp; simp only [Option.some.injEq] at hp; subst hp; trivial
        · intro e
          exfalso
          have e : st.add.scanning = true := e
          cases hx : st.add <;> rw [hx] at e hnr <;> simp [AddPC.scanning, AddPC.refreshing] at e hnr
        · intro fuel i p f' id' e
          have e : st.add = _ := e
          rw [e] at hnr; simp [AddPC.refreshing] at hnr
        · intro id' f' e
          simp only [Option.some.injEq, RemPC.lockCache.injEq] at e
          rcases e with ⟨rfl, rfl⟩ | e
          · rfl
          · simp at e
      · simp at h
  | search =>
    have hbase : base' = base := by simpa [endedCall, Indexer.run] using hb.symm
    subst hbase
    refine ⟨kb, known, ?_, Or.inl ⟨rfl, rfl, rfl⟩⟩
    simp only [CShard.step] at h
    split at h
    · simp at h
    · simp only [Option.some.injEq] at h; subst h
      exact hw.readers _
  | searched =>
    have hbase : base' = base := by simpa [endedCall, Indexer.run] using hb.symm
    subst hbase
    refine ⟨kb, known, ?_, Or.inl ⟨rfl, rfl, rfl⟩⟩
    simp only [CShard.step] at h
    split at h
    · simp at h
    · simp only [Option.some.injEq] at h; subst h
      exact hw.readers _
  | rem =>
    simp only [CShard.step, hd, Bool.false_eq_true, if_false] at h
    unfold CShard.remWorkerStep at h
    split at h
    · simp at h
    · -- return
      rename_i b hrem
      simp only [Option.some.injEq] at h
      obtain ⟨op, ha, hcase⟩ := remWorkerStep_rel hso hd hR (st' := st') (by
        unfold CShard.remWorkerStep; rw [hrem]; simp [h])
      subst h
      have hnr : st.add.refreshing = false := by
        cases hx : st.add.refreshing with
        | false => rfl
        | true => exact absurd ⟨hx, by rw [hrem]; simp⟩ hc
      refine fresh op (by simp [endedCall, ha]) ?_ (by simp [nextRem]) hnr (fun op' e => hw.aOk op' e)
      have := hR.remOp op ha
      cases op <;> simp [IdxOp.isAdd] at this ⊢ <;> trivial
    · rename_i pc hnret hrem
      obtain ⟨⟨st1, pc1⟩, h1, h2⟩ := Option.map_eq_some_iff.1 h
      subst h2
      have hbase : base' = base := by simpa [endedCall, Indexer.run] using hb.symm
      subst hbase
      have hnr : st.add.refreshing = false := by
        cases hx : st.add.refreshing with
        | false => rfl
        | true => exact absurd ⟨hx, by rw [hrem]; simp⟩ hc
      obtain ⟨known', g1, g2, g3, g4, g5, g6, g7, g8⟩ := remStep_w hso ⟨hw.core, hw.rm⟩ hR.inv.ok
        (hw.remSl _ hrem) (fun id f e => hw.no2 hnr id) h1 hd'
      refine ⟨kb, known', ?_, Or.inl ⟨by simp [endedCall], rfl, rfl⟩⟩
      simp only [nextAdd, nextRem, Option.isSome_some, if_true]
      have hnr1 : st1.add.refreshing = false := by rw [g2]; exact hnr
      refine ⟨hw.inv, g1.core, ?_, ?_, g1.rm, ?_, ?_, ?_, ?_, ?_, ?_, hw.aOk⟩
      · intro d
        simp only [hnr1]
        rcases g7 d with e | ⟨e, f, e2⟩
        · rw [e]
          have := hw.vis d
          rw [hnr] at this; exact this
        · right
          refine ⟨e, Or.inl ⟨_, hw.remId d f (Or.inr (by rw [hrem, e2])), rfl⟩⟩
      · intro _ d e; exact hw.no2 hnr d (g6 d e)
      · intro pc' p e
        have e : st1.add = _ := e
        rw [e] at hnr1; simp [AddPC.refreshing] at hnr1
      · intro pc' p e
        have e : st1.add = _ := e
        rw [e] at hnr1; simp [AddPC.refreshing] at hnr1
      · intro pc' hp
        simp only [Option.some.injEq] at hp; subst hp
        exact g4.congr rfl (fun _ x => x)
      · intro e
        exfalso
        have e : st1.add.scanning = true := e
        cases hx : st1.add <;> rw [hx] at e hnr1 <;> simp [AddPC.scanning, AddPC.refreshing] at e hnr1
      · intro fuel i p f' id' e
        have e : st1.add = _ := e
        rw [e] at hnr1; simp [AddPC.refreshing] at hnr1
      · intro id f e
        simp only [Option.some.injEq] at e
        exact hw.remId id f (Or.inl (by rw [hrem, (g8 id f e).1]))
  | add =>
    simp only [CShard.step, hd, Bool.false_eq_true, if_false] at h
    by_cases hidle : st'.add = .idle
    · -- the call returns
      obtain ⟨op, ha, hcase⟩ := addStep_rel hso hd hR hc' h
      have he : endedCall a r st' .add = [op] := by simp [endedCall, hidle, AddPC.busy, ha]
      by_cases hr : r = none
      · refine fresh op he (hw.aOk op ha) (by simp [nextRem, hr]) (by rw [hidle]; rfl) ?_
        intro op' e; simp [nextAdd, hidle, AddPC.busy] at e
      · -- a removal is in progress: the document was only cached
        have hrem : st.rem ≠ none := fun e => hr (hR.remNone.1 e)
        have hnr : st.add.refreshing = false := by
          cases hx : st.add.refreshing with
          | false => rfl
          | true => exact absurd ⟨hx, hrem⟩ hc
        have hA := hR.add
        have hb' : base.step so op = some base' := by rw [he] at hb; simpa [Indexer.run] using hb
        generalize hAdd : st.add = A at hA
        rw [ha] at hA
        cases hA with
        | lockTable _ doc f =>
          exfalso
          unfold CShard.addStep at h
          simp only [hAdd] at h
          split at h
          · simp only [Option.some.injEq] at h; subst h; simp at hidle
          · simp at h
        | refreshing _ op hx => rw [hAdd] at hnr; rw [hnr] at hx; simp at hx
        | put _ doc f hcache _ =>
          unfold CShard.addStep at h
          simp only [hAdd] at h
          split at h
          · simp only [Option.some.injEq] at h; subst h; simp at hd'
          · rename_i ix hix
            simp only [Option.some.injEq] at h; subst h
            simp only at hidle
            have hnf : ¬ (ix.addCache.length ≥ ix.opts.docCacheSize ∨ f = true) := by
              intro hx; rw [if_pos hx] at hidle; simp at hidle
            have hpush : ix = st.ix.pushAdd doc ∧
                (doc ≠ none → base.addCache.length < base.opts.docCacheSize) := by
              cases doc with
              | none => simp only [Option.some.injEq] at hix; subst hix; rw [pushAdd_none]; simp
              | some d =>
                simp only at hix
                split at hix
                · rename_i hl
                  simp only [Option.some.injEq] at hix; subst hix
                  refine ⟨rfl, fun _ => ?_⟩
                  rw [← hcache, ← hR.opts]; exact hl
                · simp at hix
            obtain ⟨hpush, hfit⟩ := hpush
            subst hpush
            have hf : f = false := by
              cases f with
              | false => rfl
              | true => exact absurd (Or.inr rfl) hnf
            subst hf
            rw [step_addOp, addDocToCache_fits so base doc false hfit, if_neg] at hb'
            · simp only [Option.some.injEq] at hb'
              subst hb'
              refine ⟨kb, known, ?_, Or.inr ⟨_, he, absStep_push doc⟩⟩
              have haok := hw.aOk _ ha
              simp only [hidle]
              simp only [nextAdd, nextRem, AddPC.busy, Bool.false_eq_true, if_false]
              refine ⟨hw.inv.pushAdd haok hfit, core_congr hw.core rfl rfl rfl rfl rfl rfl, ?_,
                fun _ => hw.no2 hnr, hw.rm, by simp, by simp, ?_, by simp [AddPC.scanning], by simp,
                hw.remId, by simp⟩
              · intro d
                rcases hw.vis d with e | ⟨e, e2⟩
                · exact Or.inl e
                · refine Or.inr ⟨e, ?_⟩
                  rw [hnr] at e2
                  rcases e2 with e2 | ⟨e2, _⟩
                  · exact Or.inl e2
                  · simp at e2
              · intro pc hp; exact (hw.remSl pc hp).congr rfl (fun _ x => x)
            · have e1 : (st.ix.pushAdd doc).addCache = base.addCache ++ doc.toList := by
                simp only [Indexer.pushAdd, hcache]
              have e2 : (st.ix.pushAdd doc).opts = base.opts := hR.opts
              rw [e1, e2] at hnf
              exact hnf
    · obtain ⟨known', hw'⟩ := addStep_w hso hR hw hc' h hd' hidle
      have hb' : st'.add.busy = true := by
        cases hx : st'.add.busy with
        | true => rfl
        | false => exact absurd (busy_false hx) hidle
      have hbase : base' = base := by simpa [endedCall, hb', Indexer.run] using hb.symm
      subst hbase
      refine ⟨kb, known', ?_, Or.inl ⟨by simp [endedCall, hb'], rfl, rfl⟩⟩
      simpa [nextAdd, nextRem, hb'] using hw'

/-! ## Runs -/

/-- The calls in progress at the end of a schedule. -/
def inProgress (so : Sorter) (st : CShard) (a r : Option IdxOp) : List SAct → Option IdxOp × Option IdxOp
  | [] => (a, r)
  | x :: l =>
    match st.step so x with
    | none => (a, r)
    | some st' => inProgress so st' (nextAdd a st' x) (nextRem r st' x) l

theorem vis_run {so : Sorter} (hso : SortOk so) (as : List SAct) : ∀ (st st' : CShard) (base : Indexer)
    (a r : Option IdxOp) (kb known : GoMap DocIndex) (hist : List IdxOp) (tr : Nat → AbsIndex),
    st.dead = false → Rel so st base a r → W st base a r kb known → Trace hist tr →
    tr hist.length = absOf base kb → (∀ op, SAct.begin op ∈ as → OpOk op) →
    NoClash so st as → st.run so as = some st' → st'.dead = false →
    ∃ base' kb' known' tr', W st' base' (inProgress so st a r as).1 (inProgress so st a r as).2 kb' known' ∧
      Trace (hist ++ returned so st a r as) tr' ∧
      tr' (hist ++ returned so st a r as).length = absOf base' kb' ∧
      Rel so st' base' (inProgress so st a r as).1 (inProgress so st a r as).2 ∧
      base.run so (returned so st a r as) = some base' := by
  induction as with
  | nil =>
    intro st st' base a r kb known hist tr hd0 hR hw ht htr _ _ h _
    simp only [CShard.run, Option.some.injEq] at h
    subst h
    exact ⟨base, kb, known, tr, hw, by simpa [returned] using ht, by simpa [returned] using htr, hR, rfl⟩
  | cons x l ih =>
    intro st st' base a r kb known hist tr hd0 hR hw ht htr hok hc h hd'
    simp only [CShard.run] at h
    obtain ⟨st1, h1, h2⟩ := Option.bind_eq_some_iff.1 h
    have hc0 : ¬ st.Clash := hc [] st (List.nil_prefix) rfl
    have hc1 : ¬ st1.Clash := hc [x] st1 (List.cons_prefix_cons.2 ⟨rfl, List.nil_prefix⟩) (by simp [CShard.run, h1])
    rcases step_rel hso hR hc1 h1 with ⟨hd, _⟩ | ⟨hd, base1, hb, hR1⟩
    · exfalso
      cases l with
      | nil => simp only [CShard.run, Option.some.injEq] at h2; subst h2; rw [hd] at hd'; simp at hd'
      | cons y l =>
        simp only [CShard.run] at h2
        obtain ⟨st2, h3, _⟩ := Option.bind_eq_some_iff.1 h2
        cases y <;> simp [CShard.step, hd] at h3
    · obtain ⟨kb1, known1, hw1, hcase⟩ := step_w hso hR hw hc0 hc1 (fun op e => hok op (by simp [e])) h1 hd hb hR1
      have hin : inProgress so st a r (x :: l) = inProgress so st1 (nextAdd a st1 x) (nextRem r st1 x) l := by
        rw [inProgress, h1]
      rw [hin, returned_cons so st st1 a r x l h1]
      have htr1 : ∃ tr1, Trace (hist ++ endedCall a r st1 x) tr1 ∧
          tr1 (hist ++ endedCall a r st1 x).length = absOf base1 kb1 := by
        rcases hcase with ⟨e1, e2, e3⟩ | ⟨op, e1, e2⟩
        · subst e2 e3; rw [e1, List.append_nil]; exact ⟨tr, ht, htr⟩
        · rw [e1]
          refine ⟨fun i => if i ≤ hist.length then tr i else absOf base1 kb1, ⟨?_, ?_⟩, ?_⟩
          · simp [ht.1]
          · intro i hi
            simp only [List.length_append, List.length_singleton] at hi
            rcases Nat.lt_or_ge i hist.length with hl | hl
            · rw [List.getElem_append_left hl]
              simp only [if_pos (show i ≤ hist.length by omega), if_pos (show i + 1 ≤ hist.length by omega)]
              exact ht.2 i hl
            · have : i = hist.length := by omega
              subst this
              simp only [List.getElem_append_right (le_refl hist.length), Nat.sub_self, List.getElem_cons_zero,
                le_refl, if_true, if_neg (show ¬ hist.length + 1 ≤ hist.length by omega)]
              rw [htr]; exact e2
          · simp
      obtain ⟨tr1, ht1, htr1⟩ := htr1
      obtain ⟨base', kb', known', tr', f1, f2, f3, f5, f4⟩ := ih st1 st' base1 _ _ kb1 known1
        (hist ++ endedCall a r st1 x) tr1 hd hR1 hw1 ht1 htr1 (fun op e => hok op (by simp [e]))
        (noClash_cons hc h1) h2 hd'
      rw [List.append_assoc] at f2 f3
      refine ⟨base', kb', known', tr', f1, f2, f3, f5, ?_⟩
      rw [indexer_run_append, hb]; exact f4

end Riot
