import Verif.Proofs.AddDocs
import Verif.Spec.Index

/-! # The add/remove caches: every call refines the abstract index -/

namespace Riot

/-- Invariant of the index between two calls. -/
structure Inv (s : Indexer) (known : GoMap DocIndex) : Prop where
  core : Core s known
  st01 : ∀ d v, s.docsState.get d = some v → v = 0 ∨ v = 1
  rm : ∀ d, s.docsState.get d = some 1 ↔ d ∈ s.removeCache
  rmNodup : s.removeCache.Nodup
  rmLen : s.removeCache.length < s.opts.docCacheSize
  addLen : s.addCache.length ≤ s.opts.docCacheSize
  addOk : ∀ doc ∈ s.addCache, doc.Ok

/-- The abstract state of an index. -/
def absOf (s : Indexer) (known : GoMap DocIndex) : AbsIndex where
  vis := fun d => if s.docsState.get d = some 0 then known.get d else none
  pend := fun d x => x ∈ s.addCache ∧ x.docId = d

/-- A version the index still stores is visible, or was stored before. -/
def Kept (known known' : GoMap DocIndex) (s' : Indexer) : Prop :=
  ∀ d x, known'.get d = some x → (absOf s' known').vis d = some x ∨ known.get d = some x

theorem Inv.init (o : IndexerOpts) : Inv (Indexer.init o) .empty := by
  refine ⟨⟨?_, ?_, ?_, ?_, ?_, ?_⟩, ?_, ?_, ?_, ?_, ?_, ?_⟩
  · intro k
    exact ⟨[], by simp [SortedPs], by simp [HasPosting], by simp [Indexer.init]⟩
  · simp
  · simp [Indexer.init]
  · simp [Indexer.init, GoMap.sumBy, GoMap.empty]
  · simp [Indexer.init, GoMap.count, GoMap.empty]
  · simp [Indexer.init]
  · simp [Indexer.init]
  · simp [Indexer.init]
  · simp [Indexer.init]
  · simp only [Indexer.init, List.length_nil]
    unfold IndexerOpts.init
    split
    · simp
    · omega
  · simp [Indexer.init]
  · simp [Indexer.init]

/-- Loop invariant of the scan of the add cache. -/
structure ScanInv (s : Indexer) (known : GoMap DocIndex) (i pos : Nat) (si : Indexer) : Prop where
  core : Core si known
  opts : si.opts = s.opts
  perm : si.addCache.Perm s.addCache
  rest : si.addCache.drop i = s.addCache.drop i
  posle : pos ≤ i
  ile : i ≤ s.addCache.length
  front : ∀ j x, j < pos → si.addCache[j]? = some x → s.docsState.get x.docId ≠ none
  mid : ∀ j x, pos ≤ j → j < i → si.addCache[j]? = some x → s.docsState.get x.docId = none
  st : ∀ d, si.docsState.get d =
    if d ∈ (s.addCache.take i).map (·.docId) then
      (if s.docsState.get d = none then some 2 else some 1)
    else s.docsState.get d
  rm : ∀ d, si.docsState.get d = some 1 ↔ d ∈ si.removeCache
  rmNodup : si.removeCache.Nodup
  rmLen : si.removeCache.length ≤ s.removeCache.length + i

theorem count_set_from_zero (m : GoMap Nat) (d : Str) (h : m.get d = some 0) :
    ((m.set d 1).count (· == 0) : Int) = (m.count (· == 0) : Int) - 1 := by
  have h1 := GoMap.count_del m (· == 0) d
  have h2 := GoMap.count_set m (· == 0) d 1
  simp only [h, Option.any_some, beq_self_eq_true, if_true] at h1
  simp only [Nat.reduceBEq, Bool.false_eq_true, if_false, zero_add] at h2
  omega

theorem count_set_from_none (m : GoMap Nat) (d : Str) (v : Nat) (hv : v ≠ 0) (h : m.get d = none) :
    (m.set d v).count (· == 0) = m.count (· == 0) := by
  have h1 := GoMap.count_del m (· == 0) d
  have h2 := GoMap.count_set m (· == 0) d v
  simp [h] at h1
  simp [hv] at h2
  omega

theorem scan_step {s : Indexer} {known : GoMap DocIndex} (hi : Inv s known) :
    ∀ (fuel i pos : Nat) (si : Indexer), ScanInv s known i pos si →
      i + fuel = s.addCache.length →
      ∃ s' pos', scanCache fuel i pos si = some (s', pos') ∧
        ScanInv s known s.addCache.length pos' s' := by
  intro fuel
  induction fuel with
  | zero =>
    intro i pos si h hif
    have : i = s.addCache.length := by omega
    subst this
    exact ⟨si, pos, rfl, h⟩
  | succ fuel ih =>
    intro i pos si h hif
    have hlen : si.addCache.length = s.addCache.length := h.perm.length_eq
    have hi' : i < si.addCache.length := by omega
    have hi0 : i < s.addCache.length := by omega
    have hdoc : si.addCache[i] = s.addCache[i] := by
      have a : si.addCache.drop i = si.addCache[i] :: si.addCache.drop (i + 1) :=
        List.drop_eq_getElem_cons hi'
      have b : s.addCache.drop i = s.addCache[i] :: s.addCache.drop (i + 1) :=
        List.drop_eq_getElem_cons hi0
      rw [h.rest, b] at a
      exact (List.cons.inj a).1.symm
    have hrest' : si.addCache.drop (i + 1) = s.addCache.drop (i + 1) := by
      rw [← List.drop_drop (l := si.addCache), ← List.drop_drop (l := s.addCache), h.rest]
    have htake : (s.addCache.take (i + 1)).map (·.docId) =
        (s.addCache.take i).map (·.docId) ++ [s.addCache[i].docId] := by
      rw [List.take_succ_eq_append_getElem hi0, List.map_append, List.map_singleton]
    set doc := s.addCache[i] with hdocdef
    have hget : si.addCache[i]? = some doc := by rw [List.getElem?_eq_getElem hi', hdoc]
    have hst := h.st doc.docId
    rw [scanCache]
    simp only [hget]
    cases hs : si.docsState.get doc.docId with
    | none =>
      simp only
      have hold : s.docsState.get doc.docId = none := by
        rw [hs] at hst
        split at hst
        · split at hst <;> simp at hst
        · exact hst.symm
      apply ih (i + 1) pos
      · refine ⟨?_, h.opts, h.perm, hrest', by have := h.posle; omega, by omega, h.front, ?_, ?_, ?_, h.rmNodup,
          by have := h.rmLen; simp only; omega⟩
        · refine ⟨h.core.table, h.core.ok, h.core.lens, h.core.total, ?_, ?_⟩
          · show si.numDocs = (((si.docsState.set doc.docId 2).count (· == 0) : Nat) : Int)
            rw [count_set_from_none _ _ _ (by omega) hs, h.core.num]
          · intro d
            show _ ↔ (si.docsState.set doc.docId 2).get d = some 0 ∨
              (si.docsState.set doc.docId 2).get d = some 1
            rw [GoMap.get_set, h.core.state d]
            by_cases hd : d = doc.docId
            · rw [if_pos hd, hd, hs]; simp
            · rw [if_neg hd]
        · intro j x hj1 hj2 hx
          rcases Nat.lt_or_ge j i with hji | hji
          · exact h.mid j x hj1 hji hx
          · have : j = i := by omega
            subst this
            have hx : si.addCache[j]? = some x := hx
            rw [hget] at hx
            obtain rfl := Option.some.inj hx
            exact hold
        · intro d
          show (si.docsState.set doc.docId 2).get d = _
          rw [GoMap.get_set, h.st d, htake]
          by_cases hd : d = doc.docId
          · subst hd; simp [hold]
          · simp [hd]
        · intro d
          show (si.docsState.set doc.docId 2).get d = some 1 ↔ d ∈ si.removeCache
          rw [GoMap.get_set, ← h.rm d]
          by_cases hd : d = doc.docId
          · rw [if_pos hd, hd, hs]; simp
          · rw [if_neg hd]
      · omega
    | some st =>
      simp only
      by_cases hle : st ≤ 1
      · rw [if_pos hle]
        have hlive : s.docsState.get doc.docId ≠ none := by
          intro hn
          rw [hs, hn] at hst
          split at hst
          · simp at hst; omega
          · simp at hst
        -- the swap
        obtain ⟨cache, hcache, hperm, hdrop, hfront, hmid⟩ :
            ∃ cache, swapCache si.addCache pos i doc = some cache ∧ cache.Perm s.addCache ∧
              cache.drop (i + 1) = s.addCache.drop (i + 1) ∧
              (∀ j x, j < pos + 1 → cache[j]? = some x → s.docsState.get x.docId ≠ none) ∧
              (∀ j x, pos + 1 ≤ j → j < i + 1 → cache[j]? = some x →
                s.docsState.get x.docId = none) := by
          by_cases hpi : pos ≠ i
          · have hpos : pos < si.addCache.length := by have := h.posle; omega
            have hpi' : pos < i := by have := h.posle; omega
            refine ⟨(si.addCache.set pos doc).set i si.addCache[pos], ?_, ?_, ?_, ?_, ?_⟩
            · rw [swapCache, if_pos hpi, List.getElem?_eq_getElem hpos]
            · have := List.set_set_perm (as := si.addCache) (i := pos) (j := i) hpos hi'
              rw [hdoc] at this
              exact this.trans h.perm
            · rw [List.drop_set_of_lt (by omega), List.drop_set_of_lt (by omega), hrest']
            · intro j x hj hx
              rw [List.getElem?_set_ne (by omega)] at hx
              rcases Nat.lt_or_ge j pos with hjp | hjp
              · rw [List.getElem?_set_ne (by omega)] at hx
                exact h.front j x hjp hx
              · have : j = pos := by omega
                subst this
                rw [List.getElem?_set_self hpos] at hx
                obtain rfl := Option.some.inj hx
                exact hlive
            · intro j x hj1 hj2 hx
              rcases Nat.lt_or_ge j i with hji | hji
              · rw [List.getElem?_set_ne (by omega), List.getElem?_set_ne (by omega)] at hx
                exact h.mid j x (by omega) hji hx
              · have : j = i := by omega
                subst this
                rw [List.getElem?_set_self (by simpa using hi')] at hx
                obtain rfl := Option.some.inj hx
                exact h.mid pos _ (le_refl _) hpi' (List.getElem?_eq_getElem hpos)
          · have hpi' : pos = i := by omega
            refine ⟨si.addCache, by rw [swapCache, if_neg hpi], h.perm, hrest', ?_, ?_⟩
            · intro j x hj hx
              rcases Nat.lt_or_ge j pos with hjp | hjp
              · exact h.front j x hjp hx
              · have : j = i := by omega
                subst this
                rw [hget] at hx
                obtain rfl := Option.some.inj hx
                exact hlive
            · intro j x hj1 hj2; omega
        rw [hcache]
        simp only
        by_cases hz : st = 0
        · subst hz
          have hcap : si.removeCache.length < 2 * si.opts.docCacheSize := by
            have a := h.rmLen
            have b := hi.rmLen
            have c := hi.addLen
            rw [h.opts]; omega
          rw [if_pos rfl, if_pos hcap]
          have hnotin : doc.docId ∉ si.removeCache := by
            rw [← h.rm, hs]; simp
          apply ih (i + 1) (pos + 1)
          · refine ⟨?_, h.opts, hperm, hdrop, by have := h.posle; omega, by omega, hfront, hmid, ?_, ?_, ?_, ?_⟩
            · refine ⟨h.core.table, h.core.ok, h.core.lens, h.core.total, ?_, ?_⟩
              · show si.numDocs - 1 = (((si.docsState.set doc.docId 1).count (· == 0) : Nat) : Int)
                rw [count_set_from_zero _ _ hs, h.core.num]
              · intro d
                show _ ↔ (si.docsState.set doc.docId 1).get d = some 0 ∨
                  (si.docsState.set doc.docId 1).get d = some 1
                rw [GoMap.get_set, h.core.state d]
                by_cases hd : d = doc.docId
                · rw [if_pos hd, hd, hs]; simp
                · rw [if_neg hd]
            · intro d
              show (si.docsState.set doc.docId 1).get d = _
              rw [GoMap.get_set, h.st d, htake]
              by_cases hd : d = doc.docId
              · subst hd; simp [hlive]
              · simp [hd]
            · intro d
              show (si.docsState.set doc.docId 1).get d = some 1 ↔ d ∈ si.removeCache ++ [doc.docId]
              rw [GoMap.get_set]
              by_cases hd : d = doc.docId
              · simp [hd]
              · simp [hd, h.rm d]
            · show (si.removeCache ++ [doc.docId]).Nodup
              rw [List.nodup_append]
              refine ⟨h.rmNodup, by simp, ?_⟩
              intro a ha b hb
              simp only [List.mem_singleton] at hb
              subst hb
              rintro rfl
              exact hnotin ha
            · show (si.removeCache ++ [doc.docId]).length ≤ _
              have := h.rmLen
              simp only [List.length_append, List.length_singleton]; omega
          · omega
        · rw [if_neg hz]
          have hst1 : st = 1 := by omega
          subst hst1
          apply ih (i + 1) (pos + 1)
          · refine ⟨?_, h.opts, hperm, hdrop, by have := h.posle; omega, by omega, hfront, hmid, ?_, h.rm, h.rmNodup,
              by have := h.rmLen; simp only; omega⟩
            · exact ⟨h.core.table, h.core.ok, h.core.lens, h.core.total, h.core.num, h.core.state⟩
            · intro d
              show si.docsState.get d = _
              rw [htake]
              by_cases hd : d = doc.docId
              · subst hd; simp [hlive, hs]
              · rw [h.st d]; simp [hd]
          · omega
      · rw [if_neg hle]
        have hold : s.docsState.get doc.docId = none ∧ st = 2 := by
          rw [hs] at hst
          split at hst
          · split at hst
            · rename_i hn
              exact ⟨hn, by simpa using hst⟩
            · simp only [Option.some.injEq] at hst; omega
          · rcases hi.st01 _ _ hst.symm with hh | hh <;> omega
        apply ih (i + 1) pos
        · refine ⟨h.core, h.opts, h.perm, hrest', by have := h.posle; omega, by omega, h.front, ?_, ?_, h.rm, h.rmNodup,
            by have := h.rmLen; omega⟩
          · intro j x hj1 hj2 hx
            rcases Nat.lt_or_ge j i with hji | hji
            · exact h.mid j x hj1 hji hx
            · have : j = i := by omega
              subst this
              rw [hget] at hx
              obtain rfl := Option.some.inj hx
              exact hold.1
          · intro d
            rw [htake]
            by_cases hd : d = doc.docId
            · subst hd; simp [hold, hs]
            · rw [h.st d]; simp [hd]
        · omega

theorem scanInv_start {s : Indexer} {known : GoMap DocIndex} (hi : Inv s known) :
    ScanInv s known 0 0 s :=
  ⟨hi.core, rfl, List.Perm.refl _, rfl, le_refl _, by omega, by intro j x h; omega,
    by intro j x _ h; omega, by simp, hi.rm, hi.rmNodup, by omega⟩

/-- The flush part of `AddDocToCache`: never panics, keeps the invariant, and is a refresh
of the abstract index. -/
theorem flushAdds_spec {so : Sorter} (hso : SortOk so) {s : Indexer} {known : GoMap DocIndex}
    (hi : Inv s known) (force : Bool) :
    ∃ s' known', flushAdds so s force = some s' ∧ Inv s' known' ∧
      AbsCommit force (absOf s known) (absOf s' known') ∧ s'.opts = s.opts ∧
      ((s.addCache.map (·.docId)).Nodup → s'.addCache.length < s.opts.docCacheSize) ∧
      (∃ l, (s'.addCache ++ l).Perm s.addCache) ∧ Kept known known' s' := by
  obtain ⟨s1, pos, hscan, h1⟩ := scan_step hi s.addCache.length 0 0 s (scanInv_start hi) (by omega)
  have hlen1 : s1.addCache.length = s.addCache.length := h1.perm.length_eq
  have hposle := h1.posle
  have hst1 : ∀ d, s1.docsState.get d =
      if d ∈ s.addCache.map (·.docId) then
        (if s.docsState.get d = none then some 2 else some 1)
      else s.docsState.get d := by
    intro d; have := h1.st d; simpa using this
  have hmem1 : ∀ x, x ∈ s1.addCache ↔ x ∈ s.addCache := fun x => h1.perm.mem_iff
  have hfront : ∀ x ∈ s1.addCache.take pos, s.docsState.get x.docId ≠ none := by
    intro x hx
    obtain ⟨j, hj, rfl⟩ := List.mem_iff_getElem.1 hx
    simp only [List.length_take] at hj
    rw [List.getElem_take]
    exact h1.front j _ (by omega) (List.getElem?_eq_getElem (by omega))
  have hback : ∀ x ∈ s1.addCache.drop pos, s.docsState.get x.docId = none := by
    intro x hx
    obtain ⟨j, hj, rfl⟩ := List.mem_iff_getElem.1 hx
    simp only [List.length_drop] at hj
    rw [List.getElem_drop]
    exact h1.mid (pos + j) _ (by omega) (by omega) (List.getElem?_eq_getElem (by omega))
  have hidmem : ∀ x ∈ s.addCache, x.docId ∈ s.addCache.map (·.docId) :=
    fun x hx => List.mem_map.2 ⟨x, hx, rfl⟩
  have hreg : registerRemoval s1 (str "0") = some s1 := by simp [registerRemoval]
  by_cases hrem : s1.removeCache.length > 0 ∧
      (s1.removeCache.length ≥ s1.opts.docCacheSize ∨ force = true)
  · -- the removal cache is flushed: all pending documents are published
    have hpermids := hso.ids_perm s1.removeCache
    have hnot0 : ∀ d ∈ so.ids s1.removeCache, s1.docsState.get d ≠ some 0 := by
      intro d hd
      rw [(h1.rm d).2 (hpermids.mem_iff.1 hd)]; simp
    obtain ⟨s2, hr1, hr2, hr3, hr4, hr5, hr6⟩ := removeDocs_spec
      (s := { s1 with removeCache := [] }) (known := known) (so.ids s1.removeCache)
      ⟨h1.core.table, h1.core.ok, h1.core.lens, h1.core.total, h1.core.num, h1.core.state⟩
      (hso.ids_sorted _) hnot0
    have hr3' : ∀ d, s2.docsState.get d = if d ∈ s1.removeCache then none else s1.docsState.get d := by
      intro d; rw [hr3]; simp only [hpermids.mem_iff]
    have hpdocs := hso.docs_perm s2.addCache
    have hmem2 : ∀ x, x ∈ so.docs s2.addCache ↔ x ∈ s.addCache := by
      intro x; rw [hpdocs.mem_iff, hr5]; exact hmem1 x
    obtain ⟨s3, known3, ha1, ha2, ha3, ha4, ha5, ha6, ha7⟩ := addDocsLoop_spec (so.docs s2.addCache)
      (s := { s2 with addCache := [] }) (known := known.delAll (so.ids s1.removeCache)) (ptrs := .empty)
      ⟨hr2.table, hr2.ok, hr2.lens, hr2.total, hr2.num, hr2.state⟩
      (hso.docs_sorted _)
      (fun x hx => hi.addOk x ((hmem2 x).1 hx))
      (by
        intro x hx
        have hx' := (hmem2 x).1 hx
        show s2.docsState.get x.docId = none ∨ s2.docsState.get x.docId = some 2
        rw [hr3']
        by_cases hin : x.docId ∈ s1.removeCache
        · simp [hin]
        · rw [if_neg hin]
          have := hst1 x.docId
          rw [if_pos (hidmem x hx')] at this
          split at this
          · right; exact this
          · exact absurd ((h1.rm _).1 this) hin)
      (fun x _ => PtrOk.empty _ _)
    have hfl : flushAdds so s force = some s3 := by
      have hR : s1.removeDocToCache so (str "0") force = some (s2, true) := by
        simp only [Indexer.removeDocToCache, hreg, bind, Option.bind, if_pos hrem, hr1, pure]
      simp only [flushAdds, hscan, bind, Option.bind, hR, if_true, List.drop_zero, List.take_zero,
        Indexer.addDocs, ha1]
    have hst3 : ∀ d, s3.docsState.get d =
        if d ∈ s.addCache.map (·.docId) then some 0
        else if d ∈ s1.removeCache then none else s.docsState.get d := by
      intro d
      by_cases hd : d ∈ s.addCache.map (·.docId)
      · rw [if_pos hd]
        obtain ⟨x, hx, rfl⟩ := List.mem_map.1 hd
        exact (ha4 x ((hmem2 x).2 hx)).1
      · rw [if_neg hd]
        have := (ha3 d (by
          intro x hx he
          exact hd (he ▸ hidmem x ((hmem2 x).1 hx)))).2
        rw [this]
        show s2.docsState.get d = _
        rw [hr3', hst1, if_neg hd]
    refine ⟨s3, known3, hfl, ?_, ?_, ?_, ?_, ?_, ?_⟩
    · refine ⟨ha2, ?_, ?_, ?_, ?_, ?_, ?_⟩
      · intro d v hv
        rw [hst3] at hv
        split at hv
        · left; exact (Option.some.inj hv).symm
        · split at hv
          · simp at hv
          · exact hi.st01 d v hv
      · intro d
        rw [hst3]
        have : s3.removeCache = [] := by rw [ha7]; exact hr6
        rw [this]
        split
        · simp
        · rename_i hd
          split
          · simp
          · rename_i hnr
            simp only [List.not_mem_nil, iff_false]
            intro h
            have := hst1 d
            rw [if_neg hd, h] at this
            exact hnr ((h1.rm d).1 this)
      · have : s3.removeCache = [] := by rw [ha7]; exact hr6
        rw [this]; simp
      · have : s3.removeCache = [] := by rw [ha7]; exact hr6
        have ho : s3.opts = s.opts := by
          rw [ha5]; show s2.opts = _; rw [hr4]; exact h1.opts
        rw [this, ho]; have := hi.rmLen; simp; omega
      · rw [ha6]; simp
      · rw [ha6]; simp
    · intro d
      by_cases hd : d ∈ s.addCache.map (·.docId)
      · right; right
        obtain ⟨x, hx, rfl⟩ := List.mem_map.1 hd
        obtain ⟨a, v, hv, hv1, hv2⟩ := ha4 x ((hmem2 x).2 hx)
        refine ⟨v, ⟨(hmem2 v).1 hv, hv1⟩, ?_, ?_⟩
        · simp only [absOf, a, if_true, hv2]
        · intro y hy
          have hy1 : y ∈ s3.addCache := hy.1
          rw [ha6] at hy1
          simp at hy1
      · left
        have hno : ∀ y, ¬ ((absOf s known).pend d y) := by
          rintro y ⟨hy, rfl⟩; exact hd (hidmem y hy)
        refine ⟨?_, ?_, fun _ => hno⟩
        · simp only [absOf]
          rw [hst3, if_neg hd]
          have hk := (ha3 d (by
            intro x hx he
            exact hd (he ▸ hidmem x ((hmem2 x).1 hx)))).1
          rw [hk, GoMap.get_delAll]
          simp only [hpermids.mem_iff]
          by_cases hin : d ∈ s1.removeCache
          · simp only [hin, if_true]
            have h1' := (h1.rm d).2 hin
            rw [hst1, if_neg hd] at h1'
            simp [h1']
          · simp [hin]
        · intro y
          constructor
          · intro hy
            have hy1 : y ∈ s3.addCache := hy.1
            rw [ha6] at hy1
            simp at hy1
          · intro hy; exact absurd hy (hno y)
    · rw [ha5]; show s2.opts = _; rw [hr4]; exact h1.opts
    · intro _
      rw [ha6]; have := hi.rmLen; simp; omega
    · refine ⟨s.addCache, ?_⟩
      rw [ha6]; simp
    · intro d x hx
      by_cases hd : ∃ y ∈ so.docs s2.addCache, y.docId = d
      · obtain ⟨y, hy, rfl⟩ := hd
        left
        simp only [absOf, (ha4 y hy).1, if_true, hx]
      · right
        rw [(ha3 d (fun y hy e => hd ⟨y, hy, e⟩)).1, GoMap.get_delAll] at hx
        split at hx
        · simp at hx
        · exact hx
  · -- nothing removed: only the new documents are published
    have hpdocs := hso.docs_perm (s1.addCache.drop pos)
    have hmem2 : ∀ x, x ∈ so.docs (s1.addCache.drop pos) ↔ x ∈ s1.addCache.drop pos :=
      fun x => hpdocs.mem_iff
    have hsub : ∀ x ∈ s1.addCache.drop pos, x ∈ s.addCache := fun x hx =>
      (hmem1 x).1 (List.mem_of_mem_drop hx)
    have hsubt : ∀ x ∈ s1.addCache.take pos, x ∈ s.addCache := fun x hx =>
      (hmem1 x).1 (List.mem_of_mem_take hx)
    obtain ⟨s3, known3, ha1, ha2, ha3, ha4, ha5, ha6, ha7⟩ := addDocsLoop_spec
      (so.docs (s1.addCache.drop pos))
      (s := { s1 with addCache := s1.addCache.take pos }) (known := known) (ptrs := .empty)
      ⟨h1.core.table, h1.core.ok, h1.core.lens, h1.core.total, h1.core.num, h1.core.state⟩
      (hso.docs_sorted _)
      (fun x hx => hi.addOk x (hsub x ((hmem2 x).1 hx)))
      (by
        intro x hx
        have hx' := (hmem2 x).1 hx
        right
        show s1.docsState.get x.docId = some 2
        rw [hst1, if_pos (hidmem x (hsub x hx')), if_pos (hback x hx')])
      (fun x _ => PtrOk.empty _ _)
    have hfl : flushAdds so s force = some s3 := by
      have hR : s1.removeDocToCache so (str "0") force = some (s1, false) := by
        simp only [Indexer.removeDocToCache, hreg, bind, Option.bind, if_neg hrem, pure]
      simp only [flushAdds, hscan, bind, Option.bind, hR, Bool.false_eq_true, if_false,
        Indexer.addDocs, ha1]
    have hrmlen : s1.removeCache.length < s.opts.docCacheSize := by
      have h0 := hi.rmLen
      by_contra hc
      apply hrem
      rw [h1.opts]
      exact ⟨by omega, Or.inl (by omega)⟩
    have hst3 : ∀ d, s3.docsState.get d =
        if d ∈ s.addCache.map (·.docId) then
          (if s.docsState.get d = none then some 0 else some 1)
        else s.docsState.get d := by
      intro d
      by_cases hd : ∃ x ∈ s1.addCache.drop pos, x.docId = d
      · obtain ⟨x, hx, rfl⟩ := hd
        rw [(ha4 x ((hmem2 x).2 hx)).1, if_pos (hidmem x (hsub x hx)), if_pos (hback x hx)]
      · have := (ha3 d (by
          intro x hx he
          exact hd ⟨x, (hmem2 x).1 hx, he⟩)).2
        rw [this]
        show s1.docsState.get d = _
        rw [hst1]
        by_cases hd2 : d ∈ s.addCache.map (·.docId)
        · simp only [if_pos hd2]
          obtain ⟨x, hx, rfl⟩ := List.mem_map.1 hd2
          have hx1 : x ∈ s1.addCache.take pos := by
            have := (hmem1 x).2 hx
            rw [← List.take_append_drop pos s1.addCache, List.mem_append] at this
            rcases this with h | h
            · exact h
            · exact absurd ⟨x, h, rfl⟩ hd
          have := hfront x hx1
          simp [this]
        · simp only [if_neg hd2]
    have hop : s3.opts = s.opts := by rw [ha5]; exact h1.opts
    have hcache3 : s3.addCache = s1.addCache.take pos := by rw [ha6]
    have hrm3 : s3.removeCache = s1.removeCache := by rw [ha7]
    refine ⟨s3, known3, hfl, ?_, ?_, hop, ?_, ?_, ?_⟩
    · refine ⟨ha2, ?_, ?_, ?_, ?_, ?_, ?_⟩
      · intro d v hv
        rw [hst3] at hv
        split at hv
        · split at hv
          · left; exact (Option.some.inj hv).symm
          · right; exact (Option.some.inj hv).symm
        · exact hi.st01 d v hv
      · intro d
        rw [hrm3, ← h1.rm, hst3, hst1]
        by_cases hd : d ∈ s.addCache.map (·.docId)
        · simp only [if_pos hd]; split <;> simp
        · simp only [if_neg hd]
      · rw [hrm3]; exact h1.rmNodup
      · rw [hrm3, hop]; exact hrmlen
      · rw [hcache3, hop]; have := hi.addLen; simp; omega
      · rw [hcache3]; intro x hx; exact hi.addOk x (hsubt x hx)
    · intro d
      by_cases hd : d ∈ s.addCache.map (·.docId)
      · obtain ⟨x, hx, rfl⟩ := List.mem_map.1 hd
        by_cases hn : s.docsState.get x.docId = none
        · -- new document: published
          right; right
          have hx1 : x ∈ s1.addCache.drop pos := by
            have := (hmem1 x).2 hx
            rw [← List.take_append_drop pos s1.addCache, List.mem_append] at this
            rcases this with h | h
            · exact absurd hn (hfront x h)
            · exact h
          obtain ⟨a, v, hv, hv1, hv2⟩ := ha4 x ((hmem2 x).2 hx1)
          refine ⟨v, ⟨hsub v ((hmem2 v).1 hv), hv1⟩, ?_, ?_⟩
          · simp only [absOf, a, if_true, hv2]
          · rintro y ⟨hy, hyd⟩
            rw [hcache3] at hy
            exact hfront y hy (by rw [hyd, hn])
        · -- live document: hidden, replacement still waiting
          right; left
          have hx1' : ∀ y ∈ s.addCache, y.docId = x.docId → y ∈ s1.addCache.take pos := by
            intro y hy hyx
            have := (hmem1 y).2 hy
            rw [← List.take_append_drop pos s1.addCache, List.mem_append] at this
            rcases this with h | h
            · exact h
            · exact absurd (hback y h) (by rw [hyx]; exact hn)
          have hinrm : x.docId ∈ s1.removeCache := by
            rw [← h1.rm, hst1, if_pos hd, if_neg hn]
          refine ⟨?_, ⟨x, hx, rfl⟩, ?_, ?_⟩
          · cases force with
            | false => rfl
            | true =>
              exfalso
              exact hrem ⟨List.length_pos_of_mem hinrm, Or.inr rfl⟩
          · simp only [absOf]
            rw [hst3, if_pos hd, if_neg hn]; simp
          · intro y
            simp only [absOf, hcache3]
            constructor
            · rintro ⟨hy, hyd⟩; exact ⟨hsubt y hy, hyd⟩
            · rintro ⟨hy, hyd⟩; exact ⟨hx1' y hy hyd, hyd⟩
      · left
        have hno : ∀ y, ¬ ((absOf s known).pend d y) := by
          rintro y ⟨hy, rfl⟩; exact hd (hidmem y hy)
        refine ⟨?_, ?_, fun _ => hno⟩
        · simp only [absOf]
          rw [hst3, if_neg hd]
          have hk := (ha3 d (by
            intro x hx he
            exact hd (he ▸ hidmem x (hsub x ((hmem2 x).1 hx))))).1
          rw [hk]
        · intro y
          constructor
          · rintro ⟨hy, hyd⟩
            rw [hcache3] at hy
            exact absurd ⟨hsubt y hy, hyd⟩ (hno y)
          · intro hy; exact absurd hy (hno y)
    · intro hnd
      rw [hcache3]
      have hnd1 : ((s1.addCache.take pos).map (·.docId)).Nodup := by
        have : (s1.addCache.map (·.docId)).Nodup := (h1.perm.map _).nodup_iff.2 hnd
        exact this.sublist ((List.take_sublist _ _).map _)
      have hsubset : (s1.addCache.take pos).map (·.docId) ⊆ s1.removeCache := by
        intro d hd
        obtain ⟨x, hx, rfl⟩ := List.mem_map.1 hd
        rw [← h1.rm, hst1, if_pos (hidmem x (hsubt x hx)), if_neg (hfront x hx)]
      have := (List.subperm_of_subset hnd1 hsubset).length_le
      simp only [List.length_map] at this
      omega
    · refine ⟨s1.addCache.drop pos, ?_⟩
      · rw [hcache3, List.take_append_drop]; exact h1.perm
    · intro d x hx
      by_cases hd : ∃ y ∈ so.docs (s1.addCache.drop pos), y.docId = d
      · obtain ⟨y, hy, rfl⟩ := hd
        left
        simp only [absOf, (ha4 y hy).1, if_true, hx]
      · right
        rwa [(ha3 d (fun y hy e => hd ⟨y, hy, e⟩)).1] at hx

end Riot
