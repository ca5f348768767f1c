import Verif.Proofs.Refresh
import Verif.Proofs.Lookup
import Verif.Proofs.IndexRun
import Verif.Spec.History

/-! # Two indexes with the same documents answer the same -/

namespace Riot

theorem GoMap.sumBy_congr {V W : Type} (m : GoMap V) (m' : GoMap W) (f : V → Rat) (g : W → Rat)
    (h : ∀ k, (m.get k).map f = (m'.get k).map g) : m.sumBy f = m'.sumBy g := by
  have hp : (m.entries.map (fun e => (e.1, f e.2))).Perm (m'.entries.map (fun e => (e.1, g e.2))) := by
    have n1 : (m.entries.map (fun e => (e.1, f e.2))).Nodup := by
      apply List.Nodup.of_map Prod.fst
      rw [List.map_map]; exact m.nodup
    have n2 : (m'.entries.map (fun e => (e.1, g e.2))).Nodup := by
      apply List.Nodup.of_map Prod.fst
      rw [List.map_map]; exact m'.nodup
    rw [List.perm_ext_iff_of_nodup n1 n2]
    rintro ⟨k, q⟩
    have e1 : (k, q) ∈ m.entries.map (fun e => (e.1, f e.2)) ↔ (m.get k).map f = some q := by
      simp only [List.mem_map, Prod.mk.injEq, Prod.exists, Option.map_eq_some_iff, GoMap.get_eq_some_iff]
      constructor
      · rintro ⟨a, b, h1, rfl, h2⟩; exact ⟨b, h1, h2⟩
      · rintro ⟨b, h1, h2⟩; exact ⟨k, b, h1, rfl, h2⟩
    have e2 : (k, q) ∈ m'.entries.map (fun e => (e.1, g e.2)) ↔ (m'.get k).map g = some q := by
      simp only [List.mem_map, Prod.mk.injEq, Prod.exists, Option.map_eq_some_iff, GoMap.get_eq_some_iff]
      constructor
      · rintro ⟨a, b, h1, rfl, h2⟩; exact ⟨b, h1, h2⟩
      · rintro ⟨b, h1, h2⟩; exact ⟨k, b, h1, rfl, h2⟩
    rw [e1, e2, h]
  have := (hp.map Prod.snd).sum_eq
  simpa [GoMap.sumBy, List.map_map, Function.comp_def] using this

theorem GoMap.count_congr {V : Type} (m m' : GoMap V) (p : V → Bool)
    (h : ∀ k, m.get k = m'.get k) : m.count p = m'.count p := by
  rw [← length_keysWhere, ← length_keysWhere]
  apply List.Perm.length_eq
  rw [List.perm_ext_iff_of_nodup (keysWhere_nodup ..) (keysWhere_nodup ..)]
  intro k
  simp only [mem_keysWhere, h]

/-- Everything a search reads is the same. -/
structure Alike (s s' : Indexer) : Prop where
  it : s.opts.indexType = s'.opts.indexType
  bm : s.opts.bm25 = s'.opts.bm25
  table : ∀ k, s.table.get k = s'.table.get k
  state : ∀ d, s.docsState.get d = s'.docsState.get d
  lens : ∀ d, s.docTokenLens.get d = s'.docTokenLens.get d
  num : s.numDocs = s'.numDocs
  total : s.totalTokenLen = s'.totalTokenLen

theorem sortedPs_ext {ps qs : List Posting} (h1 : SortedPs ps) (h2 : SortedPs qs) (h : ∀ p, p ∈ ps ↔ p ∈ qs) : ps = qs := by
  have p1 : ps.Pairwise (fun a b => a.docId < b.docId) := List.pairwise_map.1 h1
  have p2 : qs.Pairwise (fun a b => a.docId < b.docId) := List.pairwise_map.1 h2
  have n1 : ps.Nodup := p1.imp (fun h e => by subst e; exact lt_irrefl _ h)
  have n2 : qs.Nodup := p2.imp (fun h e => by subst e; exact lt_irrefl _ h)
  have hp : ps.Perm qs := (List.perm_ext_iff_of_nodup n1 n2).2 h
  exact hp.eq_of_pairwise (fun a b _ _ h1 h2 => absurd (h1.trans h2) (lt_irrefl _)) p1 p2

theorem holdSame_hasPosting {known known' : GoMap DocIndex} (h : HoldSame known.get known'.get) (k : Str) (p : Posting) :
    HasPosting known k p → HasPosting known' k p := by
  rintro ⟨doc, kw, h1, h2, h3⟩
  rcases h p.docId with ⟨e, _⟩ | ⟨a, b, e1, e2, _, _, hp⟩
  · rw [h1] at e; cases e
  · rw [h1] at e1
    obtain rfl := Option.some.inj e1
    exact ⟨b, kw, e2, hp.mem_iff.1 h2, h3⟩

theorem HoldSame.symm {m m' : Str → Option DocIndex} (h : HoldSame m m') : HoldSame m' m := by
  intro d
  rcases h d with ⟨a, b⟩ | ⟨a, b, e1, e2, e3, e4, e5⟩
  · exact Or.inl ⟨b, a⟩
  · exact Or.inr ⟨b, a, e2, e1, e3.symm, e4.symm, e5.symm⟩

theorem inv_state {s : Indexer} {known : GoMap DocIndex} (hi : Inv s known) (hr : s.removeCache = []) (d : Str) :
    s.docsState.get d = if (known.get d).isSome = true then some 0 else none := by
  have hst := hi.core.state d
  by_cases h : (known.get d).isSome = true
  · rw [if_pos h]
    rcases hst.1 h with h1 | h1
    · exact h1
    · rw [hi.rm d, hr] at h1; simp at h1
  · rw [if_neg h]
    cases hv : s.docsState.get d with
    | none => rfl
    | some v =>
      rcases hi.st01 d v hv with rfl | rfl
      · exact absurd (hst.2 (Or.inl hv)) h
      · exact absurd (hst.2 (Or.inr hv)) h

theorem alike_of_same {s s' : Indexer} {known known' : GoMap DocIndex} (h1 : Inv s known) (h2 : Inv s' known')
    (r1 : s.removeCache = []) (r2 : s'.removeCache = []) (hit : s.opts.indexType = s'.opts.indexType)
    (hbm : s.opts.bm25 = s'.opts.bm25) (h : HoldSame known.get known'.get) : Alike s s' := by
  have hsome : ∀ d, (known.get d).isSome = (known'.get d).isSome := by
    intro d
    rcases h d with ⟨a, b⟩ | ⟨a, b, e1, e2, _⟩
    · rw [a, b]
    · rw [e1, e2]; rfl
  have hstate : ∀ d, s.docsState.get d = s'.docsState.get d := by
    intro d; rw [inv_state h1 r1, inv_state h2 r2, hsome]
  refine ⟨hit, hbm, fun k => ?_, hstate, fun d => ?_, ?_, ?_⟩
  · obtain ⟨ps, a1, a2, a3⟩ := h1.core.table k
    obtain ⟨qs, b1, b2, b3⟩ := h2.core.table k
    have : ps = qs := sortedPs_ext a1 b1 (fun p => by
      rw [a2, b2]; exact ⟨holdSame_hasPosting h k p, holdSame_hasPosting h.symm k p⟩)
    rw [a3, b3, this, hit]
  · rw [h1.core.lens, h2.core.lens]
    rcases h d with ⟨a, b⟩ | ⟨a, b, e1, e2, _, e4, _⟩
    · rw [a, b]
    · rw [e1, e2]; simp only [Option.bind_some, e4]
  · rw [h1.core.num, h2.core.num, GoMap.count_congr _ _ _ hstate]
  · rw [h1.core.total, h2.core.total]
    apply GoMap.sumBy_congr
    intro d
    rcases h d with ⟨a, b⟩ | ⟨a, b, e1, e2, _, e4, _⟩
    · rw [a, b]
    · rw [e1, e2]; simp only [Option.map_some, e4]

theorem bm25Sum_alike {o o' : IndexerOpts} (log2 : Rat → Rat) (hit : o.indexType = o'.indexType) (hbm : o.bm25 = o'.bm25)
    (n d avg : Rat) (rows : List (KeywordIndices × Nat)) : bm25Sum log2 o n d avg rows = bm25Sum log2 o' n d avg rows := by
  induction rows with
  | nil => rfl
  | cons x rows ih => obtain ⟨ki, ptr⟩ := x; simp only [bm25Sum, hit, hbm, ih]

theorem scoreDoc_alike {s s' : Indexer} (log2 : Rat → Rat) (h : Alike s s') (avg : Rat) (base : Str)
    (rows : List (KeywordIndices × Nat)) (lens : List Nat) :
    scoreDoc log2 s avg base rows lens = scoreDoc log2 s' avg base rows lens := by
  unfold scoreDoc
  simp only [h.it, h.num, h.lens, bm25Sum_alike log2 h.it h.bm]

theorem lookupLoop_alike {s s' : Indexer} (log2 : Rat → Rat) (h : Alike s s') (avg : Rat) (row0 : KeywordIndices)
    (tokens : List Str) (docIds : Option (List Str)) (countOnly : Bool) (p : Nat) : ∀ rows acc,
    lookupLoop log2 s avg row0 tokens docIds countOnly p rows acc =
      lookupLoop log2 s' avg row0 tokens docIds countOnly p rows acc := by
  induction p with
  | zero => intro rows acc; rfl
  | succ p ih =>
    intro rows acc
    unfold lookupLoop
    simp only [ih, h.state, scoreDoc_alike log2 h]

theorem collectRows_alike {t t' : GoMap KeywordIndices} (h : ∀ k, t.get k = t'.get k) (ks : List Str) :
    collectRows t ks = collectRows t' ks := by
  induction ks with
  | nil => rfl
  | cons k ks ih => simp only [collectRows, h, ih]

theorem logicLookup_alike {s s' : Indexer} (h : Alike s s') (docIds : Option (List Str)) (countOnly : Bool)
    (e : List Str) (l : Logic) : s.logicLookup docIds countOnly e l = s'.logicLookup docIds countOnly e l := by
  have hf : ∀ ks, foundRows s.table ks = foundRows s'.table ks := by
    intro ks; simp only [foundRows]; congr 1; exact funext h.table
  unfold Indexer.logicLookup
  simp only [collectRows_alike h.table, hf]

theorem lookup_alike {s s' : Indexer} (h : Alike s s') (log2 : Rat → Rat) (tokens labels : List Str)
    (docIds : Option (List Str)) (countOnly : Bool) (l : Option Logic) :
    s.lookup log2 tokens labels docIds countOnly l = s'.lookup log2 tokens labels docIds countOnly l := by
  have hi : ∀ a b c d, s.internalLookup log2 a b c d = s'.internalLookup log2 a b c d := by
    intro a b c d
    unfold Indexer.internalLookup
    simp only [collectRows_alike h.table, lookupLoop_alike log2 h, h.num, h.total]
  unfold Indexer.lookup
  simp only [hi, logicLookup_alike h, h.num]

theorem IndexerOpts.init_it (o : IndexerOpts) : o.init.indexType = o.indexType ∧ o.init.bm25 = o.bm25 := by
  unfold IndexerOpts.init; split <;> exact ⟨rfl, rfl⟩

end Riot
