import Verif.Proofs.Rows
import Mathlib.Tactic.Ring

/-! # `AddDocs` / `RemoveDocs` against the documents physically in the table -/

namespace Riot

/-- The keyword texts of a document are pairwise distinct. The engine builds `Keywords`
from a map (engine.go `makeTokensMap`/segmenter_worker), so this always holds there. -/
def DocIndex.Ok (doc : DocIndex) : Prop := (doc.keywords.map (·.text)).Nodup

instance (doc : DocIndex) : Decidable doc.Ok := by unfold DocIndex.Ok; infer_instance

/-- `p` is the posting of a known document for key `k`. -/
def HasPosting (known : GoMap DocIndex) (k : Str) (p : Posting) : Prop :=
  ∃ doc kw, known.get p.docId = some doc ∧ kw ∈ doc.keywords ∧ kw.text = k ∧
    p.frequency = kw.frequency ∧ p.starts = kw.starts

/-- The table holds exactly the postings of the known documents. -/
def TableOk (it : IndexType) (table : GoMap KeywordIndices) (known : GoMap DocIndex) : Prop :=
  ∀ k, ∃ ps, SortedPs ps ∧ (∀ p, p ∈ ps ↔ HasPosting known k p) ∧
    table.get k = if ps = [] then none else some (mkRow it ps)

/-- The insertion pointers are behind every position that may still be used for `d`. -/
def PtrOk (table : GoMap KeywordIndices) (ptrs : GoMap Nat) (d : Str) : Prop :=
  ∀ k, (table.get k = none → (ptrs.get k).getD 0 = 0) ∧
    ∀ ki, table.get k = some ki →
      ((ptrs.get k).getD 0 ≤ ki.docIds.length ∧
        (0 < (ptrs.get k).getD 0 → ∀ x, ki.docIds[(ptrs.get k).getD 0 - 1]? = some x → x < d))

theorem PtrOk.mono {table : GoMap KeywordIndices} {ptrs : GoMap Nat} {d d' : Str}
    (h : PtrOk table ptrs d) (hd : d ≤ d') : PtrOk table ptrs d' := by
  intro k
  refine ⟨(h k).1, fun ki hk => ⟨((h k).2 ki hk).1, fun h0 x hx => ?_⟩⟩
  exact lt_of_lt_of_le (((h k).2 ki hk).2 h0 x hx) hd

theorem PtrOk.empty (table : GoMap KeywordIndices) (d : Str) : PtrOk table .empty d := by
  intro k; simp

theorem sorted_insert {ps : List Posting} (hs : SortedPs ps) (d : Str) (fr : Rat) (st : List Int)
    (hd : d ∉ ps.map (·.docId)) :
    SortedPs (ps.take (rankOf (ps.map (·.docId)) d) ++
      ⟨d, fr, st⟩ :: ps.drop (rankOf (ps.map (·.docId)) d)) := by
  set ids := ps.map (·.docId) with hids
  have hr := rankOf_le ids d
  replace hs : SortedIds ids := hs
  have e1 : ids.take (rankOf ids d) ++ d :: ids.drop (rankOf ids d) =
      (ps.take (rankOf ids d) ++ ⟨d, fr, st⟩ :: ps.drop (rankOf ids d)).map (·.docId) := by
    simp [hids, List.map_take, List.map_drop]
  show SortedIds ((ps.take (rankOf ids d) ++ ⟨d, fr, st⟩ :: ps.drop (rankOf ids d)).map (·.docId))
  rw [← e1]
  rw [SortedIds, List.pairwise_append]
  refine ⟨hs.sublist (List.take_sublist _ _), ?_, ?_⟩
  · rw [List.pairwise_cons]
    refine ⟨?_, hs.sublist (List.drop_sublist _ _)⟩
    intro x hx
    obtain ⟨i, hi, rfl⟩ := List.mem_iff_getElem.1 hx
    simp only [List.length_drop] at hi
    rw [List.getElem_drop]
    refine lt_of_le_of_ne (le_of_rankOf_le hs (by omega) (by omega)) ?_
    rintro h
    exact hd (h ▸ List.getElem_mem _)
  · intro a ha b hb
    obtain ⟨i, hi, rfl⟩ := List.mem_iff_getElem.1 ha
    simp only [List.length_take] at hi
    rw [List.getElem_take]
    have h1 : ids[i] < d := lt_of_lt_rankOf hs (by omega)
    rcases List.mem_cons.1 hb with rfl | hb
    · exact h1
    · obtain ⟨j, hj, rfl⟩ := List.mem_iff_getElem.1 hb
      simp only [List.length_drop] at hj
      rw [List.getElem_drop]
      exact lt_of_lt_of_le h1 (le_of_rankOf_le hs (by omega) (by omega))

theorem mem_insert_at {α : Type} (l : List α) (r : Nat) (x p : α) :
    p ∈ l.take r ++ x :: l.drop r ↔ p = x ∨ p ∈ l := by
  conv_rhs => rw [← List.take_append_drop r l]
  simp only [List.mem_append, List.mem_cons]
  tauto

/-- One keyword of one document. -/
theorem addKeyword_spec {it : IndexType} {table : GoMap KeywordIndices} {ptrs : GoMap Nat}
    {known : GoMap DocIndex} {part : DocIndex} {d : Str} {kw : KeywordIndex}
    (ht : TableOk it table known) (hp : PtrOk table ptrs d)
    (hpart : known.get d = some part) (hkw : kw.text ∉ part.keywords.map (·.text)) :
    ∃ table' ptrs', addKeyword it d table ptrs kw = some (table', ptrs') ∧
      TableOk it table' (known.set d { part with keywords := part.keywords ++ [kw] }) ∧
      PtrOk table' ptrs' d := by
  obtain ⟨ps, hs, hmem, hget⟩ := ht kw.text
  have hnot : d ∉ ps.map (·.docId) := by
    intro hm
    obtain ⟨p, hpm, rfl⟩ := List.mem_map.1 hm
    obtain ⟨doc, kw', h1, h2, h3, _⟩ := (hmem p).1 hpm
    rw [hpart] at h1
    obtain rfl := Option.some.inj h1
    exact hkw (List.mem_map.2 ⟨kw', h2, h3⟩)
  -- membership in the new known map
  have hHP : ∀ k p, HasPosting (known.set d { part with keywords := part.keywords ++ [kw] }) k p ↔
      (k = kw.text ∧ p = ⟨d, kw.frequency, kw.starts⟩) ∨ HasPosting known k p := by
    intro k p
    constructor
    · rintro ⟨doc, kw', h1, h2, h3, h4, h5⟩
      rw [GoMap.get_set] at h1
      by_cases hpd : p.docId = d
      · rw [if_pos hpd] at h1
        obtain rfl := Option.some.inj h1
        simp only [List.mem_append, List.mem_singleton] at h2
        rcases h2 with h2 | rfl
        · exact Or.inr ⟨part, kw', by rw [hpd, hpart], h2, h3, h4, h5⟩
        · left
          refine ⟨h3.symm, ?_⟩
          cases p; simp only at h4 h5 hpd; simp [h4, h5, hpd]
      · rw [if_neg hpd] at h1
        exact Or.inr ⟨doc, kw', h1, h2, h3, h4, h5⟩
    · rintro (⟨rfl, rfl⟩ | ⟨doc, kw', h1, h2, h3, h4, h5⟩)
      · exact ⟨_, kw, by rw [GoMap.get_set, if_pos rfl], by simp, rfl, rfl, rfl⟩
      · by_cases hpd : p.docId = d
        · rw [hpd, hpart] at h1
          obtain rfl := Option.some.inj h1
          exact ⟨_, kw', by rw [GoMap.get_set, if_pos hpd], by simp [h2], h3, h4, h5⟩
        · exact ⟨doc, kw', by rw [GoMap.get_set, if_neg hpd, h1], h2, h3, h4, h5⟩
  -- the other keys are unaffected
  have hother : ∀ (table' : GoMap KeywordIndices), ∀ k, k ≠ kw.text →
      table'.get k = table.get k → ∃ ps, SortedPs ps ∧
      (∀ p, p ∈ ps ↔ HasPosting (known.set d { part with keywords := part.keywords ++ [kw] }) k p) ∧
      table'.get k = if ps = [] then none else some (mkRow it ps) := by
    intro table' k hk hsame
    obtain ⟨qs, a, b, c⟩ := ht k
    refine ⟨qs, a, ?_, by rw [hsame, c]⟩
    intro p
    rw [b, hHP]
    constructor
    · exact Or.inr
    · rintro (⟨h, _⟩ | h)
      · exact absurd h hk
      · exact h
  by_cases hnil : ps = []
  · -- new row
    rw [if_pos hnil] at hget
    refine ⟨table.set kw.text (newRow it d kw), ptrs, by simp [addKeyword, hget], ?_, ?_⟩
    · intro k
      by_cases hk : k = kw.text
      · subst hk
        refine ⟨[⟨d, kw.frequency, kw.starts⟩], by simp [SortedPs], ?_, ?_⟩
        · intro p
          rw [hHP, ← hmem p, hnil]
          simp
        · rw [GoMap.get_set, if_pos rfl, newRow_eq]; simp
      · exact hother _ k hk (by rw [GoMap.get_set, if_neg hk])
    · intro k
      rw [GoMap.get_set]
      by_cases hk : k = kw.text
      · rw [if_pos hk]
        refine ⟨by simp, ?_⟩
        intro ki hki
        have h0 := (hp k).1 (by rw [hk, hget])
        rw [h0]
        simp
      · rw [if_neg hk]; exact hp k
  · rw [if_neg hnil] at hget
    have hpk := (hp kw.text).2 _ hget
    have hrow : (mkRow it ps).docIds = ps.map (·.docId) := rfl
    have hsearch : searchIndex (mkRow it ps).docIds ((ptrs.get kw.text).getD 0)
        ((mkRow it ps).docIds.length - 1) d =
        some (rankOf (ps.map (·.docId)) d, decide (d ∈ ps.map (·.docId))) := by
      rw [hrow]
      have hle := hpk.1
      rw [hrow] at hle
      refine searchIndex_full hs hle ?_
      · intro h0
        exact hpk.2 h0 _ (by rw [hrow]; exact List.getElem?_eq_getElem (by omega))
    have hr : rankOf (ps.map (·.docId)) d ≤ ps.length := by
      simpa using rankOf_le (ps.map (·.docId)) d
    refine ⟨_, _, by
      simp only [addKeyword, hget, bind, Option.bind, hsearch, insertRow_mkRow it ps _ d kw hr, pure]
      rfl, ?_, ?_⟩
    · intro k
      by_cases hk : k = kw.text
      · subst hk
        refine ⟨_, sorted_insert hs d kw.frequency kw.starts hnot, ?_, ?_⟩
        · intro p
          rw [mem_insert_at, hHP, hmem]
          simp
        · rw [GoMap.get_set, if_pos rfl, if_neg (by simp)]
      · exact hother _ k hk (by rw [GoMap.get_set, if_neg hk])
    · intro k
      rw [GoMap.get_set, GoMap.get_set]
      by_cases hk : k = kw.text
      · rw [if_pos hk, if_pos hk]
        refine ⟨by simp, ?_⟩
        intro ki hki
        obtain rfl := Option.some.inj hki
        simp only [Option.getD_some]
        refine ⟨by simp [mkRow]; omega, ?_⟩
        intro h0 x hx
        simp only [mkRow, List.map_append, List.map_take, List.map_cons] at hx
        rw [List.getElem?_append_left (by simp; omega), List.getElem?_take_of_lt (by omega),
          List.getElem?_eq_getElem (by simp; omega), Option.some.injEq] at hx
        rw [← hx]
        exact lt_of_lt_rankOf hs (by omega)
      · rw [if_neg hk, if_neg hk]; exact hp k

theorem addKeywords_spec {it : IndexType} {d : Str} :
    ∀ (kws : List KeywordIndex) {table : GoMap KeywordIndices} {ptrs : GoMap Nat}
      {known : GoMap DocIndex} {part : DocIndex},
      TableOk it table known → PtrOk table ptrs d → known.get d = some part →
      ((part.keywords ++ kws).map (·.text)).Nodup →
      ∃ table' ptrs' known', addKeywords it d kws table ptrs = some (table', ptrs') ∧
        TableOk it table' known' ∧ PtrOk table' ptrs' d ∧
        (∀ k, known'.get k = (known.set d { part with keywords := part.keywords ++ kws }).get k) := by
  intro kws
  induction kws with
  | nil =>
    intro table ptrs known part ht hp hk _
    refine ⟨table, ptrs, known, rfl, ht, hp, ?_⟩
    intro k
    rw [GoMap.get_set]
    by_cases h : k = d
    · rw [if_pos h, h, hk]; simp
    · rw [if_neg h]
  | cons kw kws ih =>
    intro table ptrs known part ht hp hk hn
    have hkw : kw.text ∉ part.keywords.map (·.text) := by
      rw [List.map_append, List.map_cons, List.nodup_append] at hn
      intro hm
      exact hn.2.2 _ hm _ (by simp) rfl
    obtain ⟨t1, p1, h1, h2, h3⟩ := addKeyword_spec ht hp hk hkw
    obtain ⟨t2, p2, k2, g1, g2, g3, g4⟩ := ih (part := { part with keywords := part.keywords ++ [kw] })
      h2 h3 (by simp) (by simpa using hn)
    refine ⟨t2, p2, k2, ?_, g2, g3, ?_⟩
    · simp only [addKeywords, h1, bind, Option.bind, g1]
    · intro k
      rw [g4, GoMap.get_set, GoMap.get_set, GoMap.get_set]
      by_cases h : k = d
      · simp [h]
      · simp [h]

theorem TableOk.congr {it : IndexType} {table : GoMap KeywordIndices} {known known' : GoMap DocIndex}
    (h : TableOk it table known) (he : ∀ d, known'.get d = known.get d) : TableOk it table known' := by
  intro k
  obtain ⟨ps, a, b, c⟩ := h k
  refine ⟨ps, a, ?_, c⟩
  intro p
  rw [b]
  constructor <;> rintro ⟨doc, kw, h1, h2⟩
  · exact ⟨doc, kw, by rw [he, h1], h2⟩
  · exact ⟨doc, kw, by rw [← he, h1], h2⟩

/-- Core invariant: the state describes exactly the known (physically indexed) documents. -/
structure Core (s : Indexer) (known : GoMap DocIndex) : Prop where
  table : TableOk s.opts.indexType s.table known
  ok : ∀ d doc, known.get d = some doc → doc.docId = d ∧ doc.Ok
  lens : ∀ d, s.docTokenLens.get d =
    (known.get d).bind (fun doc => if doc.tokenLen = 0 then none else some doc.tokenLen)
  total : s.totalTokenLen = known.sumBy (·.tokenLen)
  num : s.numDocs = s.docsState.count (· == 0)
  state : ∀ d, (known.get d).isSome = true ↔ s.docsState.get d = some 0 ∨ s.docsState.get d = some 1

theorem addOneDoc_spec {s : Indexer} {known : GoMap DocIndex} {ptrs : GoMap Nat} {doc : DocIndex}
    (hc : Core s known) (hdoc : doc.Ok) (hp : PtrOk s.table ptrs doc.docId)
    (hst : s.docsState.get doc.docId = none ∨ s.docsState.get doc.docId = some 2) :
    ∃ s' ptrs', addOneDoc s ptrs doc = some (s', ptrs') ∧
      Core s' (known.set doc.docId doc) ∧ PtrOk s'.table ptrs' doc.docId ∧
      s'.docsState = s.docsState.set doc.docId 0 ∧ s'.opts = s.opts ∧
      s'.addCache = s.addCache ∧ s'.removeCache = s.removeCache := by
  have hne1 : s.docsState.get doc.docId ≠ some 1 := by
    rcases hst with h | h <;> rw [h] <;> simp
  have hne0 : s.docsState.get doc.docId ≠ some 0 := by
    rcases hst with h | h <;> rw [h] <;> simp
  have hunk : known.get doc.docId = none := by
    have := hc.state doc.docId
    cases h : known.get doc.docId with
    | none => rfl
    | some x =>
      rw [h] at this
      rcases this.1 rfl with h' | h'
      · exact absurd h' hne0
      · exact absurd h' hne1
  -- start from the document with no keyword yet
  have hstart : TableOk s.opts.indexType s.table (known.set doc.docId { doc with keywords := [] }) := by
    intro k
    obtain ⟨ps, a, b, c⟩ := hc.table k
    refine ⟨ps, a, ?_, c⟩
    intro p
    rw [b]
    constructor
    · rintro ⟨d', kw, h1, h2⟩
      refine ⟨d', kw, ?_, h2⟩
      rw [GoMap.get_set, if_neg, h1]
      rintro h; rw [h, hunk] at h1; simp at h1
    · rintro ⟨d', kw, h1, h2, h3⟩
      rw [GoMap.get_set] at h1
      split at h1
      · obtain rfl := Option.some.inj h1
        simp at h2
      · exact ⟨d', kw, h1, h2, h3⟩
  obtain ⟨t', p', k', h1, h2, h3, h4⟩ := addKeywords_spec (it := s.opts.indexType) (d := doc.docId)
    doc.keywords hstart hp (GoMap.get_set_self _ _ _) (by simpa [DocIndex.Ok] using hdoc)
  have hk' : ∀ d, (known.set doc.docId doc).get d = k'.get d := by
    intro d
    rw [h4, GoMap.get_set, GoMap.get_set, GoMap.get_set]
    by_cases h : d = doc.docId
    · simp [h]
    · simp [h]
  have hcount : (s.docsState.del doc.docId).count (· == 0) = s.docsState.count (· == 0) := by
    have := GoMap.count_del s.docsState (· == 0) doc.docId
    have hz : ((s.docsState.get doc.docId).any (· == 0)) = false := by
      rcases hst with h | h <;> simp [h]
    simpa [hz] using this
  obtain ⟨s1, hs1⟩ : ∃ s1, s1 = (if doc.tokenLen ≠ 0 then
        { s with docTokenLens := s.docTokenLens.set doc.docId doc.tokenLen,
                 totalTokenLen := s.totalTokenLen + doc.tokenLen } else s) := ⟨_, rfl⟩
  have e1 : s1.opts = s.opts := by rw [hs1]; split <;> rfl
  have e2 : s1.table = s.table := by rw [hs1]; split <;> rfl
  have e3 : s1.docsState = s.docsState := by rw [hs1]; split <;> rfl
  have e4 : s1.addCache = s.addCache := by rw [hs1]; split <;> rfl
  have e5 : s1.removeCache = s.removeCache := by rw [hs1]; split <;> rfl
  have e6 : s1.numDocs = s.numDocs := by rw [hs1]; split <;> rfl
  have e7 : s1.totalTokenLen = s.totalTokenLen + doc.tokenLen := by
    rw [hs1]; split
    · rfl
    · rename_i hz
      simp only [ne_eq, not_not] at hz
      simp [hz]
  have e8 : ∀ d, s1.docTokenLens.get d = if d = doc.docId then
      (if doc.tokenLen = 0 then none else some doc.tokenLen) else s.docTokenLens.get d := by
    intro d
    rw [hs1]
    by_cases hz : doc.tokenLen = 0
    · simp only [hz, ne_eq, not_true_eq_false, if_false, if_true]
      by_cases h : d = doc.docId
      · rw [if_pos h, h, hc.lens, hunk]; rfl
      · rw [if_neg h]
    · simp only [ne_eq, hz, not_false_eq_true, if_true, GoMap.get_set, if_false]
  refine ⟨{ s1 with table := t', docsState := s1.docsState.set doc.docId 0,
                    numDocs := s1.numDocs + 1 }, p', ?_, ?_, h3, ?_, e1, e4, e5⟩
  · simp only [addOneDoc, if_neg hne1, bind, Option.bind, pure, ← hs1, e1, e2, h1]
  · refine ⟨?_, ?_, ?_, ?_, ?_, ?_⟩
    · show TableOk s1.opts.indexType t' _
      rw [e1]
      exact h2.congr hk'
    · intro d d' h
      rw [GoMap.get_set] at h
      split at h
      · rename_i he
        obtain rfl := Option.some.inj h
        exact ⟨he.symm, hdoc⟩
      · exact hc.ok d d' h
    · intro d
      show s1.docTokenLens.get d = _
      rw [e8, GoMap.get_set]
      split
      · simp
      · exact hc.lens d
    · show s1.totalTokenLen = _
      rw [GoMap.sumBy_set, GoMap.sumBy_del, hunk, e7, hc.total]
      simp; ring
    · show s1.numDocs + 1 = (((s1.docsState.set doc.docId 0).count (· == 0) : Nat) : Int)
      rw [GoMap.count_set, e3, hcount, e6, hc.num]
      simp; ring
    · intro d
      show _ ↔ (s1.docsState.set doc.docId 0).get d = some 0 ∨
        (s1.docsState.set doc.docId 0).get d = some 1
      rw [e3, GoMap.get_set, GoMap.get_set]
      by_cases h : d = doc.docId
      · simp [h]
      · simp only [if_neg h]
        exact hc.state d
  · show s1.docsState.set doc.docId 0 = _
    rw [e3]

/-- The loop of `AddDocs` over a sorted batch of documents none of which is in the table:
for every id of the batch one of its versions becomes visible. -/
theorem addDocsLoop_spec :
    ∀ (docs : List DocIndex) {s : Indexer} {known : GoMap DocIndex} {ptrs : GoMap Nat},
      Core s known → docs.Pairwise (fun a b => a.docId ≤ b.docId) →
      (∀ doc ∈ docs, doc.Ok) →
      (∀ doc ∈ docs, s.docsState.get doc.docId = none ∨ s.docsState.get doc.docId = some 2) →
      (∀ doc ∈ docs, PtrOk s.table ptrs doc.docId) →
      ∃ s' known', addDocsLoop docs s ptrs = some s' ∧ Core s' known' ∧
        (∀ d, (∀ doc ∈ docs, doc.docId ≠ d) →
          known'.get d = known.get d ∧ s'.docsState.get d = s.docsState.get d) ∧
        (∀ doc ∈ docs, s'.docsState.get doc.docId = some 0 ∧
          ∃ v ∈ docs, v.docId = doc.docId ∧ known'.get doc.docId = some v) ∧
        s'.opts = s.opts ∧ s'.addCache = s.addCache ∧ s'.removeCache = s.removeCache := by
  intro docs
  induction docs with
  | nil =>
    intro s known ptrs hc _ _ _ _
    exact ⟨s, known, by simp [addDocsLoop], hc, by simp, by simp, rfl, rfl, rfl⟩
  | cons doc rest ih =>
    intro s known ptrs hc hsort hok hst hptr
    have hsort' := (List.pairwise_cons.1 hsort)
    by_cases hskip : ∃ next tl, rest = next :: tl ∧ doc.docId = next.docId
    · obtain ⟨next, tl, hrest, heq⟩ := hskip
      obtain ⟨s', known', h1, h2, h3, h4, h5⟩ := ih hc hsort'.2
        (fun d hd => hok d (List.mem_cons_of_mem _ hd))
        (fun d hd => hst d (List.mem_cons_of_mem _ hd))
        (fun d hd => hptr d (List.mem_cons_of_mem _ hd))
      refine ⟨s', known', ?_, h2, ?_, ?_, h5⟩
      · subst hrest
        rw [addDocsLoop]
        simp only [if_pos heq]
        exact h1
      · intro d hd
        exact h3 d (fun x hx => hd x (List.mem_cons_of_mem _ hx))
      · intro x hx
        rcases List.mem_cons.1 hx with rfl | hx
        · obtain ⟨a, v, hv, hv1, hv2⟩ := h4 next (by simp [hrest])
          rw [heq]
          exact ⟨a, v, List.mem_cons_of_mem _ hv, hv1, hv2⟩
        · obtain ⟨a, v, hv, hv1, hv2⟩ := h4 x hx
          exact ⟨a, v, List.mem_cons_of_mem _ hv, hv1, hv2⟩
    · obtain ⟨s1, p1, h1, h2, h3, h4, h5, h6, h7⟩ := addOneDoc_spec hc (hok doc (by simp))
        (hptr doc (by simp)) (hst doc (by simp))
      have hstrict : ∀ x ∈ rest, doc.docId < x.docId := by
        intro x hx
        cases rest with
        | nil => simp at hx
        | cons next tl =>
          have hne : doc.docId ≠ next.docId := fun h => hskip ⟨next, tl, rfl, h⟩
          have hlt : doc.docId < next.docId := lt_of_le_of_ne (hsort'.1 next (by simp)) hne
          rcases List.mem_cons.1 hx with rfl | hx
          · exact hlt
          · exact lt_of_lt_of_le hlt ((List.pairwise_cons.1 hsort'.2).1 x hx)
      obtain ⟨s', known', g1, g2, g3, g4, g5, g6, g7⟩ := ih h2 hsort'.2
        (fun d hd => hok d (List.mem_cons_of_mem _ hd))
        (by
          intro x hx
          rw [h4, GoMap.get_set, if_neg (ne_of_gt (hstrict x hx))]
          exact hst x (List.mem_cons_of_mem _ hx))
        (fun x hx => h3.mono (le_of_lt (hstrict x hx)))
      refine ⟨s', known', ?_, g2, ?_, ?_, by rw [g5, h5], by rw [g6, h6], by rw [g7, h7]⟩
      · cases rest with
        | nil => simp only [addDocsLoop, h1, bind, Option.bind]; simpa [addDocsLoop] using g1
        | cons next tl =>
          rw [addDocsLoop]
          have hne : doc.docId ≠ next.docId := fun h => hskip ⟨next, tl, rfl, h⟩
          simp only [if_neg hne, h1, bind, Option.bind]
          exact g1
      · intro d hd
        obtain ⟨a, b⟩ := g3 d (fun x hx => hd x (List.mem_cons_of_mem _ hx))
        have hdd : d ≠ doc.docId := fun h => hd doc (by simp) h.symm
        rw [a, b, h4, GoMap.get_set, GoMap.get_set, if_neg hdd, if_neg hdd]
        exact ⟨rfl, rfl⟩
      · intro x hx
        rcases List.mem_cons.1 hx with rfl | hx
        · obtain ⟨a, b⟩ := g3 x.docId (fun y hy => ne_of_gt (hstrict y hy))
          rw [a, b, h4]
          exact ⟨by simp, x, by simp, rfl, by simp⟩
        · obtain ⟨a, v, hv, hv1, hv2⟩ := g4 x hx
          exact ⟨a, v, List.mem_cons_of_mem _ hv, hv1, hv2⟩

/-- delete a list of ids -/
def GoMap.delAll {V : Type} (m : GoMap V) (ds : List Str) : GoMap V := ds.foldl GoMap.del m

theorem GoMap.get_delAll {V : Type} (m : GoMap V) (ds : List Str) (d : Str) :
    (m.delAll ds).get d = if d ∈ ds then none else m.get d := by
  induction ds generalizing m with
  | nil => simp [delAll]
  | cons x xs ih =>
    have : m.delAll (x :: xs) = (m.del x).delAll xs := rfl
    rw [this, ih, get_del]
    by_cases h1 : d = x
    · simp [h1]
    · simp [h1]

theorem forgetDocs_spec (docs : List Str) :
    ∀ {s : Indexer} {known : GoMap DocIndex},
      (∀ d, s.docTokenLens.get d =
        (known.get d).bind (fun doc => if doc.tokenLen = 0 then none else some doc.tokenLen)) →
      s.totalTokenLen = known.sumBy (·.tokenLen) →
      (∀ d ∈ docs, s.docsState.get d ≠ some 0) →
      let s' := forgetDocs docs s
      (∀ d, s'.docTokenLens.get d = ((known.delAll docs).get d).bind
          (fun doc => if doc.tokenLen = 0 then none else some doc.tokenLen)) ∧
      s'.totalTokenLen = (known.delAll docs).sumBy (·.tokenLen) ∧
      s'.docsState.count (· == 0) = s.docsState.count (· == 0) ∧
      (∀ d, s'.docsState.get d = if d ∈ docs then none else s.docsState.get d) ∧
      s'.table = s.table ∧ s'.opts = s.opts ∧ s'.addCache = s.addCache ∧
      s'.removeCache = s.removeCache ∧ s'.numDocs = s.numDocs := by
  induction docs with
  | nil => intro s known h1 h2 _; simp [forgetDocs, GoMap.delAll, h1, h2]
  | cons x xs ih =>
    intro s known h1 h2 h3
    simp only [forgetDocs]
    obtain ⟨a, b, c, e, f⟩ := ih (s := { s with
          totalTokenLen := s.totalTokenLen - (s.docTokenLens.get x).getD 0,
          docTokenLens := s.docTokenLens.del x, docsState := s.docsState.del x })
        (known := known.del x)
      (by
        intro d
        simp only [GoMap.get_del]
        by_cases h : d = x
        · simp [h]
        · simp [h, h1])
      (by
        simp only [GoMap.sumBy_del, h2, h1]
        congr 1
        cases known.get x with
        | none => simp
        | some doc => by_cases hz : doc.tokenLen = 0 <;> simp [hz])
      (by
        intro d hd
        simp only [GoMap.get_del]
        split
        · simp
        · exact h3 d (List.mem_cons_of_mem _ hd))
    refine ⟨a, b, ?_, ?_, f⟩
    · rw [c]
      have := GoMap.count_del s.docsState (· == 0) x
      have hz : ((s.docsState.get x).any (· == 0)) = false := by
        have := h3 x (by simp)
        cases h : s.docsState.get x with
        | none => simp
        | some v =>
          rw [h] at this
          simp only [ne_eq, Option.some.injEq] at this
          simp [this]
      simpa [hz] using this
    · intro d
      rw [e]
      simp only [GoMap.get_del]
      by_cases h : d = x
      · simp [h]
      · simp [h]

/-- `RemoveDocs` on a sorted list of ids that are not in state 0: exactly these documents
disappear from the table. -/
theorem removeDocs_spec {s : Indexer} {known : GoMap DocIndex} (docs : List Str)
    (hc : Core s known) (hsort : docs.Pairwise (· ≤ ·))
    (hst : ∀ d ∈ docs, s.docsState.get d ≠ some 0) :
    ∃ s', s.removeDocs docs = some s' ∧ Core s' (known.delAll docs) ∧
      (∀ d, s'.docsState.get d = if d ∈ docs then none else s.docsState.get d) ∧
      s'.opts = s.opts ∧ s'.addCache = s.addCache ∧ s'.removeCache = s.removeCache := by
  obtain ⟨a, b, c, e, f, g, h, i, j⟩ := forgetDocs_spec docs hc.lens hc.total hst
  have hrow : ∀ k ki, (forgetDocs docs s).table.get k = some ki →
      removeRow (forgetDocs docs s).opts.indexType docs ki =
        some ((removeRow s.opts.indexType docs ki).getD none) := by
    intro k ki hk
    rw [f] at hk
    obtain ⟨ps, h1, h2, h3⟩ := hc.table k
    rw [hk] at h3
    split at h3
    · simp at h3
    · rename_i hne
      obtain rfl := Option.some.inj h3
      rw [g, removeRow_mkRow _ docs hsort ps h1 hne]
      simp
  obtain ⟨t', ht1, ht2⟩ := GoMap.rangeUpdate_eq_some _ _ _ hrow
  refine ⟨{ forgetDocs docs s with table := t' }, ?_, ?_, e, g, h, i⟩
  · simp only [Indexer.removeDocs, bind, Option.bind, ht1, pure]
  · refine ⟨?_, ?_, a, b, ?_, ?_⟩
    · intro k
      obtain ⟨ps, h1, h2, h3⟩ := hc.table k
      refine ⟨ps.filter (fun p => p.docId ∉ docs), ?_, ?_, ?_⟩
      · exact h1.sublist ((List.filter_sublist).map _)
      · intro p
        rw [List.mem_filter, h2]
        constructor
        · rintro ⟨⟨doc, kw, e1, e2⟩, hp⟩
          refine ⟨doc, kw, ?_, e2⟩
          rw [GoMap.get_delAll, if_neg (by simpa using hp), e1]
        · rintro ⟨doc, kw, e1, e2⟩
          rw [GoMap.get_delAll] at e1
          split at e1
          · simp at e1
          · rename_i hp
            exact ⟨⟨doc, kw, e1, e2⟩, by simpa using hp⟩
      · show t'.get k = _
        rw [ht2, f, h3]
        by_cases hne : ps = []
        · simp [hne]
        · simp only [if_neg hne, Option.bind_some]
          rw [removeRow_mkRow _ docs hsort ps h1 hne]
          simp only [Option.getD_some, g]
    · intro d doc hd
      rw [GoMap.get_delAll] at hd
      split at hd
      · simp at hd
      · exact hc.ok d doc hd
    · show (forgetDocs docs s).numDocs = _
      rw [j, hc.num]
      show _ = (((forgetDocs docs s).docsState.count (· == 0) : Nat) : Int)
      rw [c]
    · intro d
      show _ ↔ (forgetDocs docs s).docsState.get d = some 0 ∨ (forgetDocs docs s).docsState.get d = some 1
      rw [e, GoMap.get_delAll]
      split
      · simp
      · exact hc.state d

end Riot
