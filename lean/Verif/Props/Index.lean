import Verif.Proofs.Trace
import Verif.Proofs.Lookup
import Verif.Spec.Witness

/-!
# Properties of the inverted index: content (C01-C08, C12, C18, C19, C51, C52)

All statements are about `(Indexer.init o).run so h`: a new index with options `o` after the
calls `h`, `so` being any implementation of `sort.Sort`. `none` means that some call
crashed. `Trace h tr` (Spec/Index) gives an abstract state `tr i` after every prefix.
-/

namespace Riot

/-- Everything later theorems need about a prefix of a history: also, that a stored version is the version
visible last. -/
theorem prefix_stored {so : Sorter} (hso : SortOk so) (o : IndexerOpts) (h : List IdxOp)
    (hok : ∀ op ∈ h, OpOk op) (s : Indexer) (hr : (Indexer.init o).run so h = some s) :
    ∃ tr, Trace h tr ∧ ∀ i ≤ h.length, ∀ si, (Indexer.init o).run so (h.take i) = some si →
      ∃ known, si.opts = o.init ∧ Inv si known ∧ tr i = absOf si known ∧
        ∀ d x, known.get d = some x → LastVisible tr i d x := by
  obtain ⟨tr, ht, hall⟩ := trace_exists hso o h hok s hr
  refine ⟨tr, ht, ?_⟩
  intro i hi si hsi
  obtain ⟨sj, known, a, b, c, e⟩ := hall i hi
  rw [a, Option.some.injEq] at hsi
  subst hsi
  exact ⟨known, b, c, e⟩

/-- Everything later theorems need about a prefix of a history. -/
theorem prefix_state {so : Sorter} (hso : SortOk so) (o : IndexerOpts) (h : List IdxOp)
    (hok : ∀ op ∈ h, OpOk op) (s : Indexer) (hr : (Indexer.init o).run so h = some s) :
    ∃ tr, Trace h tr ∧ ∀ i ≤ h.length, ∀ si, (Indexer.init o).run so (h.take i) = some si →
      ∃ known, si.opts = o.init ∧ Inv si known ∧ tr i = absOf si known := by
  obtain ⟨tr, ht, hall⟩ := trace_exists hso o h hok s hr
  refine ⟨tr, ht, ?_⟩
  intro i hi si hsi
  obtain ⟨sj, known, a, b, c, e, _⟩ := hall i hi
  rw [a, Option.some.injEq] at hsi
  subst hsi
  exact ⟨known, b, c, e⟩

theorem expectedDoc_docId (log2 : Rat → Rat) (o : IndexerOpts) (n avg : Rat) (df : Str → Nat)
    (tokens : List Str) (doc : DocIndex) :
    (expectedDoc log2 o n avg df tokens doc).docId = doc.docId := by
  unfold expectedDoc
  cases o.indexType
  · rfl
  · rfl
  · simp only; split <;> rfl

/-- The content of one plain lookup in a good state, whatever the request, if it returns. -/
theorem lookup_returns (log2 : Rat → Rat) {s : Indexer} {known : GoMap DocIndex} (hc : Core s known)
    (tokens labels : List Str) (docIds : Option (List Str)) (r : List IndexedDoc × Nat)
    (h : s.lookup log2 tokens labels docIds false = some r) :
    r.2 = r.1.length ∧ (r.1.map (·.docId)).Pairwise (· > ·) ∧
    (∀ d, d ∈ r.1.map (·.docId) ↔ Matches (absOf s known).vis docIds (tokens ++ labels) d) ∧
    (∀ x ∈ r.1, ∃ doc, (absOf s known).vis x.docId = some doc ∧
      x = expectedDoc log2 s.opts s.numDocs (s.totalTokenLen / s.numDocs) (dfOf known) tokens doc) := by
  by_cases ht : s.opts.indexType = .locs → tokens ≠ []
  · obtain ⟨L, h1, h2, h3⟩ := lookup_spec log2 hc tokens labels docIds false ht
    rw [h, Option.some.injEq] at h1
    subst h1
    have hids : ∀ d ∈ L, ∃ doc, (absOf s known).vis d = some doc ∧ known.get d = some doc ∧
        doc.docId = d := by
      intro d hd
      obtain ⟨_, _, doc, e1, _⟩ := (h3 d).1 hd
      have e2 : known.get d = some doc := by
        simp only [absOf] at e1
        split at e1
        · exact e1
        · simp at e1
      exact ⟨doc, e1, e2, (hc.ok d doc e2).1⟩
    have hmap : (L.map (fun d => expectedDoc log2 s.opts s.numDocs
          (s.totalTokenLen / s.numDocs) (dfOf known) tokens ((known.get d).getD ⟨d, 0, []⟩))).map
          (·.docId) = L := by
      rw [List.map_map]
      conv_rhs => rw [← List.map_id L]
      apply List.map_congr_left
      intro d hd
      obtain ⟨doc, _, e2, e3⟩ := hids d hd
      simp [expectedDoc_docId, e2, e3]
    refine ⟨by simp, ?_, ?_, ?_⟩
    · simp only [Bool.false_eq_true, if_false]; rw [hmap]; exact h2
    · intro d; simp only [Bool.false_eq_true, if_false]; rw [hmap]; exact h3 d
    · intro x hx
      simp only [Bool.false_eq_true, if_false, List.mem_map] at hx
      obtain ⟨d, hd, rfl⟩ := hx
      obtain ⟨doc, e1, e2, e3⟩ := hids d hd
      refine ⟨doc, ?_, by simp [e2]⟩
      rw [expectedDoc_docId, e2, Option.getD_some, e3]; exact e1
  · push Not at ht
    obtain ⟨ht1, rfl⟩ := ht
    rcases lookup_labels_only log2 hc labels docIds false ht1 with ⟨h1, h2⟩ | ⟨h1, _⟩
    · rw [h, Option.some.injEq] at h1
      subst h1
      refine ⟨rfl, by simp, ?_, by simp⟩
      intro d; simp [h2 d]
    · rw [h] at h1; simp at h1

/-! ## C01 -/

/-- **C01** At every moment of every history, a plain search that returns returns exactly the
visible documents containing all tokens and labels, each once, in strictly descending id
order. (When it does not return: C13.) -/
theorem C01_and_search_exact {so : Sorter} (hso : SortOk so) (o : IndexerOpts) (h : List IdxOp)
    (hok : ∀ op ∈ h, OpOk op) (s : Indexer) (hr : (Indexer.init o).run so h = some s) :
    ∃ tr, Trace h tr ∧ ∀ i ≤ h.length, ∀ si, (Indexer.init o).run so (h.take i) = some si →
      ∀ log2 tokens labels docs n, si.lookup log2 tokens labels none false = some (docs, n) →
        n = docs.length ∧ (docs.map (·.docId)).Pairwise (· > ·) ∧
        ∀ d, d ∈ docs.map (·.docId) ↔
          tokens ++ labels ≠ [] ∧ ∃ doc, (tr i).vis d = some doc ∧
            (∀ k ∈ tokens, k ∈ doc.keys) ∧ ∀ k ∈ labels, k ∈ doc.keys := by
  obtain ⟨tr, ht, hall⟩ := prefix_state hso o h hok s hr
  refine ⟨tr, ht, ?_⟩
  intro i hi si hsi log2 tokens labels docs n hl
  obtain ⟨known, _, hinv, htr⟩ := hall i hi si hsi
  obtain ⟨a, b, c, _⟩ := lookup_returns log2 hinv.core tokens labels none _ hl
  refine ⟨a, b, ?_⟩
  intro d
  rw [c d, htr]
  simp only [Matches, Allowed, List.mem_append, or_imp, forall_and]
  simp

/-- **C01** For a disciplined document (see C04) the visible version is the one the history
says, so after a forced refresh the search result is determined by the calls alone. -/
theorem C01_and_search_exact_ideal {so : Sorter} (hso : SortOk so) (o : IndexerOpts)
    (h : List IdxOp) (op : IdxOp) (hok : ∀ x ∈ h ++ [op], OpOk x) (hop : op.refreshes = true)
    (s : Indexer) (hr : (Indexer.init o).run so (h ++ [op]) = some s)
    (log2 : Rat → Rat) (tokens labels : List Str) (docs : List IndexedDoc) (n : Nat)
    (hl : s.lookup log2 tokens labels none false = some (docs, n))
    (d : Str) (hd : DocDisciplined d (h ++ [op])) :
    d ∈ docs.map (·.docId) ↔
      tokens ++ labels ≠ [] ∧ ∃ doc, ideal (h ++ [op]) d = some doc ∧
        (∀ k ∈ tokens, k ∈ doc.keys) ∧ ∀ k ∈ labels, k ∈ doc.keys := by
  obtain ⟨tr, ht, hall⟩ := prefix_state hso o _ hok s hr
  obtain ⟨known, _, hinv, htr⟩ := hall _ le_rfl s (by rw [List.take_length]; exact hr)
  obtain ⟨_, _, c, _⟩ := lookup_returns log2 hinv.core tokens labels none _ hl
  have hv := (ht.doc_ideal hd).2 (fun x hx => ht.refreshed hop d x (by simpa using hx))
  rw [c d]
  rw [htr] at hv
  simp only [Matches, Allowed, List.mem_append, or_imp, forall_and, hv]
  simp

/-- The hypotheses are met: three documents, one removed, one updated; every id is disciplined. -/
def demoHistory : List IdxOp :=
  [.add (mkDoc "1" ["a", "b"]) false, .add (mkDoc "2" ["b", "c"]) false,
   .add (mkDoc "3" ["b"]) true, .remove (str "3") false, .add (mkDoc "1" ["b", "d"]) false,
   .flush true]

example : idsOf (runLookup (smallOpts .locs 10) demoHistory [str "b"] []) =
    some [str "2", str "1"] := by decide +kernel
example : idsOf (runLookup (smallOpts .locs 10) demoHistory [str "b", str "d"] []) =
    some [str "1"] := by decide +kernel
example : ∀ op ∈ demoHistory, OpOk op := by decide +kernel

/-! ## C02 (plain requests; logic requests are in Props/Logic) -/

/-- **C02** Plain requests with a DocIds set: exactly the matching documents inside the set. -/
theorem C02_docids_plain {so : Sorter} (hso : SortOk so) (o : IndexerOpts) (h : List IdxOp)
    (hok : ∀ op ∈ h, OpOk op) (s : Indexer) (hr : (Indexer.init o).run so h = some s) :
    ∃ tr, Trace h tr ∧ ∀ i ≤ h.length, ∀ si, (Indexer.init o).run so (h.take i) = some si →
      ∀ log2 tokens labels ds docs n, si.lookup log2 tokens labels (some ds) false = some (docs, n) →
        ∀ d, d ∈ docs.map (·.docId) ↔
          d ∈ ds ∧ tokens ++ labels ≠ [] ∧ ∃ doc, (tr i).vis d = some doc ∧
            (∀ k ∈ tokens, k ∈ doc.keys) ∧ ∀ k ∈ labels, k ∈ doc.keys := by
  obtain ⟨tr, ht, hall⟩ := prefix_state hso o h hok s hr
  refine ⟨tr, ht, ?_⟩
  intro i hi si hsi log2 tokens labels ds docs n hl
  obtain ⟨known, _, hinv, htr⟩ := hall i hi si hsi
  obtain ⟨a, b, c, _⟩ := lookup_returns log2 hinv.core tokens labels (some ds) _ hl
  intro d
  rw [c d, htr]
  simp only [Matches, Allowed, List.mem_append, or_imp, forall_and, Option.some.injEq, forall_eq']
  tauto

example : idsOf (runLookup (smallOpts .locs 10) demoHistory [str "b"] [] (some [str "1", str "7"])) =
    some [str "1"] := by decide +kernel

/-! ## C04, C05 -/

/-- **C04** (partial: for documents used with discipline; the general statement is refuted
below). In every history that does not crash, after a forced refresh the visible version of
every disciplined document is the one obtained by executing the history on an empty map. -/
theorem C04_history_refines_map_partial {so : Sorter} (hso : SortOk so) (o : IndexerOpts)
    (h : List IdxOp) (op : IdxOp) (hok : ∀ x ∈ h ++ [op], OpOk x) (hop : op.refreshes = true)
    (s : Indexer) (hr : (Indexer.init o).run so (h ++ [op]) = some s) :
    ∃ tr, Trace (h ++ [op]) tr ∧
      (∀ d, DocDisciplined d (h ++ [op]) → (tr (h.length + 1)).vis d = ideal (h ++ [op]) d) ∧
      ∀ d, s.hasDoc d = true ↔ (tr (h.length + 1)).vis d ≠ none := by
  obtain ⟨tr, ht, hall⟩ := prefix_state hso o _ hok s hr
  obtain ⟨known, _, hinv, htr⟩ := hall _ le_rfl s (by rw [List.take_length]; exact hr)
  simp only [List.length_append, List.length_singleton] at htr
  refine ⟨tr, ht, fun d hd => ?_, fun d => ?_⟩
  · have := (ht.doc_ideal hd).2 (fun x hx => ht.refreshed hop d x (by simpa using hx))
    simpa using this
  · rw [htr]
    simp only [absOf, Indexer.hasDoc]
    have hst := hinv.core.state d
    cases hs : s.docsState.get d with
    | none => simp
    | some v =>
      by_cases h0 : v = 0
      · subst h0
        have := hst.2 (Or.inl hs)
        simp [Option.isSome_iff_ne_none.1 this]
      · simp [h0]

/-- **C04** (partial) Histories in which every document is used with discipline never crash,
and after a forced refresh the visible content is exactly the ideal map. -/
theorem C04_disciplined_history_partial {so : Sorter} (hso : SortOk so) (o : IndexerOpts)
    (h : List IdxOp) (op : IdxOp) (hok : ∀ x ∈ h ++ [op], OpOk x) (hd : Disciplined (h ++ [op]))
    (hop : op.refreshes = true) :
    ∃ s, (Indexer.init o).run so (h ++ [op]) = some s ∧
      (∀ d, s.hasDoc d = true ↔ ideal (h ++ [op]) d ≠ none) ∧
      ∀ log2 tokens labels docs n, s.lookup log2 tokens labels none false = some (docs, n) →
        ∀ d, d ∈ docs.map (·.docId) ↔
          tokens ++ labels ≠ [] ∧ ∃ doc, ideal (h ++ [op]) d = some doc ∧
            ∀ k ∈ tokens ++ labels, k ∈ doc.keys := by
  obtain ⟨s, known, hrun, hinv, hvis, _⟩ := disciplined_refreshed hso o h op hok hd hop
  refine ⟨s, hrun, fun d => ?_, ?_⟩
  · rw [← hvis]
    simp only [absOf, Indexer.hasDoc]
    have hst := hinv.core.state d
    cases hs : s.docsState.get d with
    | none => simp
    | some v =>
      by_cases h0 : v = 0
      · subst h0
        have := hst.2 (Or.inl hs)
        simp [Option.isSome_iff_ne_none.1 this]
      · simp [h0]
  · intro log2 tokens labels docs n hl d
    obtain ⟨_, _, c, _⟩ := lookup_returns log2 hinv.core tokens labels none _ hl
    rw [c d]
    simp only [Matches, Allowed, hvis]
    simp

/-- Add-remove-add history with a refresh between: disciplined (cache size 2, so the caches
also fill up by themselves). -/
example : idsOf (runLookup (smallOpts .freqs 2) demoHistory [str "b"] []) =
    some [str "2", str "1"] := by decide +kernel

/-- **C04 is false in general** (stale version): document X is indexed; then A is added
twice (versions "old" and "new") and X once more, and a forced refresh follows. The index
then serves the OLD version of A. -/
theorem C04_refuted_stale_version :
    ∃ (h : List IdxOp), (∀ op ∈ h, OpOk op) ∧
      ideal h (str "A") = some (mkDoc "A" ["new"]) ∧
      idsOf (runLookup (smallOpts .locs 10) h [str "old"] []) = some [str "A"] ∧
      idsOf (runLookup (smallOpts .locs 10) h [str "new"] []) = some [] := by
  refine ⟨[.add (mkDoc "X" ["x"]) true, .add (mkDoc "A" ["old"]) false,
    .add (mkDoc "A" ["new"]) false, .add (mkDoc "X" ["x"]) false, .flush true], ?_, ?_, ?_, ?_⟩ <;>
  decide +kernel

/-- **C05** (partial: histories used with discipline never crash, whatever the cache size). -/
theorem C05_no_crash_partial {so : Sorter} (hso : SortOk so) (o : IndexerOpts) (h : List IdxOp)
    (hok : ∀ op ∈ h, OpOk op) (hd : Disciplined h) :
    ((Indexer.init o).run so h).isSome = true := by
  obtain ⟨s, _, hr, _⟩ := disciplined_run hso o h hok hd
  simp [hr]

/-- **C05** In every history, the only call that can crash is an add, and only when the add
cache is already full of documents that an earlier refresh failed to insert. -/
theorem C05_only_full_cache_crashes {so : Sorter} (hso : SortOk so) (o : IndexerOpts)
    (h : List IdxOp) (op : IdxOp) (hok : ∀ x ∈ h ++ [op], OpOk x) (s : Indexer)
    (hr : (Indexer.init o).run so h = some s) :
    (Indexer.init o).run so (h ++ [op]) = none ↔
      (∃ doc f, op = .add doc f) ∧ s.addCache.length = s.opts.docCacheSize := by
  obtain ⟨_, known, hinv⟩ := run_inv hso o h (fun x hx => hok x (by simp [hx])) s hr
  rw [Indexer.run_snoc, hr, Option.bind_some]
  have hl := hinv.addLen
  constructor
  · intro hn
    by_contra hc
    obtain ⟨s', _, e, _⟩ := step_spec hso hinv op (hok op (by simp)) (by
      rintro ⟨doc, f, rfl⟩
      by_contra hcc
      exact hc ⟨⟨doc, f, rfl⟩, by omega⟩)
    rw [e] at hn; simp at hn
  · rintro ⟨⟨doc, f, rfl⟩, he⟩
    exact step_full doc f (by omega)

/-- **C05 is false in general**: with DocCacheSize = 2, adding the same document five times
(no forced refresh) crashes the index: index out of range. -/
theorem C05_refuted_repeated_add :
    ∃ (h : List IdxOp), (∀ op ∈ h, OpOk op) ∧
      ((Indexer.init (smallOpts .locs 2)).run insSort h).isNone = true := by
  refine ⟨List.replicate 5 (.add (mkDoc "X" ["x"]) false), ?_, ?_⟩ <;> decide +kernel

/-! ## C06, C07 -/

/-- **C06** Immediately after a removal call, no plain search returns the document (whether
or not the removal has been flushed), for every id except the reserved id `"0"`. -/
theorem C06_removed_invisible {so : Sorter} (hso : SortOk so) (o : IndexerOpts) (h : List IdxOp)
    (d : Str) (f : Bool) (h0 : d ≠ str "0") (hok : ∀ x ∈ h, OpOk x) (s : Indexer)
    (hr : (Indexer.init o).run so (h ++ [.remove d f]) = some s) :
    s.hasDoc d = false ∧
    ∀ log2 tokens labels docIds docs n,
      s.lookup log2 tokens labels docIds false = some (docs, n) → d ∉ docs.map (·.docId) := by
  obtain ⟨tr, ht, hall⟩ := prefix_state hso o (h ++ [.remove d f]) (by
    intro x hx
    simp only [List.mem_append, List.mem_singleton] at hx
    rcases hx with hx | rfl
    · exact hok x hx
    · trivial) s hr
  obtain ⟨known, _, hinv, htr⟩ := hall _ le_rfl s (by rw [List.take_length]; exact hr)
  simp only [List.length_append, List.length_singleton] at htr
  have hv : (absOf s known).vis d = none := by
    rw [← htr, ht.init.2.1 d, if_pos ⟨rfl, h0⟩]
  constructor
  · simp only [absOf] at hv
    simp only [Indexer.hasDoc]
    cases hs : s.docsState.get d with
    | none => rfl
    | some v =>
      by_cases hv0 : v = 0
      · subst hv0
        rw [if_pos hs] at hv
        have := (hinv.core.state d).2 (Or.inl hs)
        rw [hv] at this; simp at this
      · simp [hv0]
  · intro log2 tokens labels docIds docs n hl hd
    obtain ⟨_, _, c, _⟩ := lookup_returns log2 hinv.core tokens labels docIds _ hl
    obtain ⟨_, _, doc, e, _⟩ := (c d).1 hd
    rw [hv] at e; simp at e

/-- **C06** The document stays invisible as long as it is not added again, provided no add
of it was still waiting for a refresh at the moment of the removal (`hw`: every add of it
before is followed by a forced refresh, before the removal). -/
theorem C06_removed_stays_invisible {so : Sorter} (hso : SortOk so) (o : IndexerOpts)
    (h h2 : List IdxOp) (d : Str) (f : Bool) (h0 : d ≠ str "0")
    (hok : ∀ x ∈ h ++ [.remove d f] ++ h2, OpOk x)
    (hw : ∀ h1 doc g h3, h = h1 ++ IdxOp.add doc g :: h3 → doc.docId = d →
      g = true ∨ ∃ c ∈ h3, c.refreshes = true)
    (hno : ∀ doc g, IdxOp.add doc g ∈ h2 → doc.docId ≠ d) (s : Indexer)
    (hr : (Indexer.init o).run so (h ++ [.remove d f] ++ h2) = some s) :
    ∀ log2 tokens labels docIds docs n,
      s.lookup log2 tokens labels docIds false = some (docs, n) → d ∉ docs.map (·.docId) := by
  obtain ⟨tr, ht, hall⟩ := prefix_state hso o _ hok s hr
  obtain ⟨known, _, hinv, htr⟩ := hall _ le_rfl s (by rw [List.take_length]; exact hr)
  have ht1 : Trace (h ++ [.remove d f]) tr := by
    have := ht.take (h ++ [IdxOp.remove d f]).length
    rwa [List.take_left] at this
  obtain ⟨ht0, hrem⟩ := ht1.init
  have hp0 : ∀ x, ¬ (tr h.length).pend d x := by
    intro x hx
    obtain ⟨hxd, h1, h3, he, hnr⟩ := ht0.pend_since hx
    rcases hw h1 x false h3 he hxd with hh | ⟨c, hc, hc2⟩
    · simp at hh
    · rw [hnr c hc] at hc2; simp at hc2
  have hv1 : (tr (h ++ [IdxOp.remove d f]).length).vis d = none := by
    simp only [List.length_append, List.length_singleton]
    rw [hrem.1 d, if_pos ⟨rfl, h0⟩]
  have hp1 : ∀ x, ¬ (tr (h ++ [IdxOp.remove d f]).length).pend d x := by
    simp only [List.length_append, List.length_singleton]
    exact fun x hx => hp0 x ((hrem.2 d x).1 hx)
  have hfin := (ht.stays_invisible hv1 hp1 hno).1
  intro log2 tokens labels docIds docs n hl hd
  obtain ⟨_, _, c, _⟩ := lookup_returns log2 hinv.core tokens labels docIds _ hl
  obtain ⟨_, _, doc, e, _⟩ := (c d).1 hd
  rw [← htr, hfin] at e; simp at e

/-- **C06 is false for the id `"0"`**: removing it has no effect at all, even forced. -/
theorem C06_refuted_reserved_id :
    idsOf (runLookup (smallOpts .locs 10)
      [.add (mkDoc "0" ["a"]) true, .remove (str "0") true] [str "a"] []) = some [str "0"] := by
  decide +kernel

/-- The hypotheses are met, and the search did return the document before. -/
example : idsOf (runLookup (smallOpts .locs 10) [.add (mkDoc "1" ["a"]) true] [str "a"] []) =
      some [str "1"] ∧
    idsOf (runLookup (smallOpts .locs 10) [.add (mkDoc "1" ["a"]) true, .remove (str "1") false]
      [str "a"] []) = some [] := by constructor <;> decide +kernel

/-- **C07** HasDoc is true exactly for the visible documents: at every moment, `HasDoc(d)` iff
the trace has a visible version of `d`, iff (for a document with a key `k`) a search for `k`
on an index that does not store locations, or any token search that returns, finds `d`. -/
theorem C07_hasDoc_exact {so : Sorter} (hso : SortOk so) (o : IndexerOpts) (h : List IdxOp)
    (hok : ∀ op ∈ h, OpOk op) (s : Indexer) (hr : (Indexer.init o).run so h = some s) :
    ∃ tr, Trace h tr ∧ ∀ i ≤ h.length, ∀ si, (Indexer.init o).run so (h.take i) = some si →
      (∀ d, si.hasDoc d = true ↔ ∃ doc, (tr i).vis d = some doc) ∧
      ∀ log2 k docs n, si.lookup log2 [k] [] none false = some (docs, n) →
        ∀ d, d ∈ docs.map (·.docId) ↔ si.hasDoc d = true ∧
          ∃ doc, (tr i).vis d = some doc ∧ k ∈ doc.keys := by
  obtain ⟨tr, ht, hall⟩ := prefix_state hso o h hok s hr
  refine ⟨tr, ht, ?_⟩
  intro i hi si hsi
  obtain ⟨known, _, hinv, htr⟩ := hall i hi si hsi
  have hhas : ∀ d, si.hasDoc d = true ↔ ∃ doc, (tr i).vis d = some doc := by
    intro d
    rw [htr]
    simp only [absOf, Indexer.hasDoc]
    have hst := hinv.core.state d
    cases hs : si.docsState.get d with
    | none => simp
    | some v =>
      by_cases h0 : v = 0
      · subst h0
        have := hst.2 (Or.inl hs)
        simpa using Option.isSome_iff_exists.1 this
      · simp [h0]
  refine ⟨hhas, ?_⟩
  intro log2 k docs n hl d
  obtain ⟨_, _, c, _⟩ := lookup_returns log2 hinv.core [k] [] none _ hl
  rw [c d, hhas d, htr]
  simp only [Matches, Allowed]
  constructor
  · rintro ⟨_, _, doc, e1, e2⟩
    exact ⟨⟨doc, e1⟩, doc, e1, e2 k (by simp)⟩
  · rintro ⟨_, doc, e1, e2⟩
    exact ⟨by simp, by simp, doc, e1, by simpa using e2⟩

/-! ## C08 -/

/-- **C08** In a location index, the token locations returned for a document are, token by
token, the locations the visible version of that document was added with (no locations at
all are reported when some token of the request has none in it). -/
theorem C08_locations_attached {so : Sorter} (hso : SortOk so) (o : IndexerOpts)
    (hit : o.indexType = .locs) (h : List IdxOp)
    (hok : ∀ op ∈ h, OpOk op) (s : Indexer) (hr : (Indexer.init o).run so h = some s) :
    ∃ tr, Trace h tr ∧ ∀ i ≤ h.length, ∀ si, (Indexer.init o).run so (h.take i) = some si →
      ∀ log2 tokens labels docIds docs n,
        si.lookup log2 tokens labels docIds false = some (docs, n) →
        ∀ x ∈ docs, ∃ doc, (tr i).vis x.docId = some doc ∧
          ((∀ t ∈ tokens, doc.startsOf t ≠ []) → x.tokenLocs = tokens.map doc.startsOf) ∧
          ((∃ t ∈ tokens, doc.startsOf t = []) → x.tokenLocs = []) := by
  obtain ⟨tr, ht, hall⟩ := prefix_state hso o h hok s hr
  refine ⟨tr, ht, ?_⟩
  intro i hi si hsi log2 tokens labels docIds docs n hl x hx
  obtain ⟨known, hopt, hinv, htr⟩ := hall i hi si hsi
  obtain ⟨_, _, _, hdata⟩ := lookup_returns log2 hinv.core tokens labels docIds _ hl
  obtain ⟨doc, e1, e2⟩ := hdata x hx
  refine ⟨doc, by rw [htr]; exact e1, ?_, ?_⟩
  · intro hall
    rw [e2, expectedDoc, hopt]
    have : o.init.indexType = .locs := by unfold IndexerOpts.init; split <;> exact hit
    simp only [this, if_pos hall]
  · rintro ⟨t, ht1, ht2⟩
    rw [e2, expectedDoc, hopt]
    have : o.init.indexType = .locs := by unfold IndexerOpts.init; split <;> exact hit
    simp only [this]
    rw [if_neg (fun h => h t ht1 ht2)]

example : (runLookup (smallOpts .locs 10) demoHistory [str "d", str "b"] []).map
    (fun r => r.1.map (·.tokenLocs)) = some [[[1], [0]]] := by decide +kernel

/-! ## C12 -/

theorem known_enumerates {s : Indexer} {known : GoMap DocIndex} (hc : Core s known) :
    ∃ docs, Enumerates docs (absOf s known).vis ∧ s.numDocs = docs.length := by
  refine ⟨(s.docsState.keysWhere (· == 0)).filterMap known.get, ⟨?_, ?_⟩, ?_⟩
  · have hk : ((s.docsState.keysWhere (· == 0)).filterMap known.get).map (·.docId) =
        s.docsState.keysWhere (· == 0) := by
      rw [List.map_filterMap]
      have : ∀ d ∈ s.docsState.keysWhere (· == 0), (known.get d).map (·.docId) = some d := by
        intro d hd
        rw [GoMap.mem_keysWhere] at hd
        obtain ⟨v, h1, h2⟩ := hd
        have h2' : v = 0 := by simpa using h2
        subst h2'
        obtain ⟨doc, hdoc⟩ := Option.isSome_iff_exists.1 ((hc.state d).2 (Or.inl h1))
        simp [hdoc, (hc.ok d doc hdoc).1]
      rw [List.filterMap_congr this]
      simp
    rw [hk]
    exact GoMap.keysWhere_nodup _ _
  · intro d doc
    simp only [absOf, List.mem_filterMap, GoMap.mem_keysWhere, beq_iff_eq, exists_eq_right]
    constructor
    · intro h
      split at h
      · rename_i h0
        exact ⟨⟨d, h0, h⟩, (hc.ok d doc h).1⟩
      · simp at h
    · rintro ⟨⟨d', h0, h1⟩, h2⟩
      have := (hc.ok d' doc h1).1
      rw [this] at h2
      subst h2
      simp [h0, h1]
  · rw [hc.num, ← GoMap.length_keysWhere]
    congr 1
    have : ∀ l : List Str, (∀ d ∈ l, (known.get d).isSome = true) →
        (l.filterMap known.get).length = l.length := by
      intro l
      induction l with
      | nil => simp
      | cons a l ih =>
        intro h
        obtain ⟨x, hx⟩ := Option.isSome_iff_exists.1 (h a (by simp))
        simp [hx, ih (fun d hd => h d (by simp [hd]))]
    rw [this]
    intro d hd
    rw [GoMap.mem_keysWhere] at hd
    obtain ⟨v, h1, h2⟩ := hd
    have h2' : v = 0 := by simpa using h2
    subst h2'
    exact (hc.state d).2 (Or.inl h1)

theorem enumerates_known {known : GoMap DocIndex}
    (hok : ∀ d doc, known.get d = some doc → doc.docId = d ∧ doc.Ok) :
    Enumerates (known.entries.map (·.2)) known.get := by
  constructor
  · have : (known.entries.map (·.2)).map (·.docId) = known.entries.map (·.1) := by
      rw [List.map_map]
      apply List.map_congr_left
      rintro ⟨d, doc⟩ h
      exact (hok d doc ((GoMap.get_eq_some_iff known d doc).2 h)).1
    rw [this]; exact known.nodup
  · intro d doc
    rw [GoMap.get_eq_some_iff]
    constructor
    · intro h
      exact ⟨List.mem_map.2 ⟨(d, doc), h, rfl⟩, (hok d doc ((GoMap.get_eq_some_iff _ _ _).2 h)).1⟩
    · rintro ⟨h1, h2⟩
      obtain ⟨⟨d', doc'⟩, h3, rfl⟩ := List.mem_map.1 h1
      have := (hok d' doc' ((GoMap.get_eq_some_iff _ _ _).2 h3)).1
      rw [this] at h2
      subst h2
      exact h3

theorem Enumerates.perm {docs docs' : List DocIndex} {vis : Str → Option DocIndex}
    (h1 : Enumerates docs vis) (h2 : Enumerates docs' vis) : docs.Perm docs' := by
  have hn1 : docs.Nodup := List.Nodup.of_map _ h1.1
  have hn2 : docs'.Nodup := List.Nodup.of_map _ h2.1
  rw [List.perm_ext_iff_of_nodup hn1 hn2]
  intro doc
  have a := h1.2 doc.docId doc
  have b := h2.2 doc.docId doc
  simp only [and_true] at a b
  rw [← a, b]

/-- **C12** At every moment of every history, the document counter equals the number of
visible documents (so it never goes below zero), and right after a forced refresh the total
token length is the sum of the token lengths of the visible documents. -/
theorem C12_statistics {so : Sorter} (hso : SortOk so) (o : IndexerOpts) (h : List IdxOp)
    (hok : ∀ op ∈ h, OpOk op) (s : Indexer) (hr : (Indexer.init o).run so h = some s) :
    ∃ tr, Trace h tr ∧ ∀ i ≤ h.length, ∀ si, (Indexer.init o).run so (h.take i) = some si →
      ∃ docs, Enumerates docs (tr i).vis ∧ si.numDocs = docs.length ∧ 0 ≤ si.numDocs ∧
        ((∃ op, (h.take i).getLast? = some op ∧ op.refreshes = true) →
          si.totalTokenLen = (docs.map (·.tokenLen)).sum) := by
  obtain ⟨tr, ht, hall⟩ := prefix_state hso o h hok s hr
  refine ⟨tr, ht, ?_⟩
  intro i hi si hsi
  obtain ⟨known, hopt, hinv, htr⟩ := hall i hi si hsi
  obtain ⟨docs, h1, h2⟩ := known_enumerates hinv.core
  refine ⟨docs, by rw [htr]; exact h1, h2, by omega, ?_⟩
  rintro ⟨op, hlast, href⟩
  obtain ⟨h0, hh0⟩ : ∃ h0, h.take i = h0 ++ [op] := by
    rw [List.getLast?_eq_some_iff] at hlast; exact hlast
  rw [hh0, Indexer.run_snoc, Option.bind_eq_some_iff] at hsi
  obtain ⟨s0, _, hstep⟩ := hsi
  have hrm := step_forced href hstep
  have hvk : (absOf si known).vis = known.get := funext (vis_eq_known hinv hrm)
  rw [hvk] at h1
  have hp := h1.perm (enumerates_known hinv.core.ok)
  rw [hinv.core.total, GoMap.sumBy, (hp.map _).sum_eq, List.map_map]
  rfl

example : ((Indexer.init (smallOpts .locs 10)).run insSort demoHistory).map
    (fun s => (s.numDocs, s.totalTokenLen)) = some (2, 4) := by decide +kernel

/-! ## C18, C19, C52 -/

/-- **C18** (partial: forced calls). In every history, after a forced add the added document
is visible. -/
theorem C18_forced_readd_visible_partial {so : Sorter} (hso : SortOk so) (o : IndexerOpts)
    (h : List IdxOp) (doc : DocIndex) (hok : ∀ x ∈ h ++ [.add doc true], OpOk x) (s : Indexer)
    (hr : (Indexer.init o).run so (h ++ [.add doc true]) = some s) :
    s.hasDoc doc.docId = true := by
  obtain ⟨tr, ht, hall⟩ := prefix_state hso o _ hok s hr
  obtain ⟨known, _, hinv, htr⟩ := hall _ le_rfl s (by rw [List.take_length]; exact hr)
  simp only [List.length_append, List.length_singleton] at htr
  have hc := ht.init.2
  simp only [AbsStep] at hc
  have hv : ∃ v, (absOf s known).vis doc.docId = some v := by
    rw [← htr]
    rcases hc doc.docId with ⟨_, _, e3⟩ | ⟨e1, _⟩ | ⟨v, _, e2, _⟩
    · exact absurd (Or.inr ⟨rfl, rfl⟩) (e3 rfl doc)
    · simp at e1
    · exact ⟨v, e2⟩
  obtain ⟨v, hv⟩ := hv
  simp only [absOf] at hv
  split at hv
  · rename_i h0; simp [Indexer.hasDoc, h0]
  · simp at hv

/-- **C18 is false in general**: with DocCacheSize = 2, "X" is visible; re-adding X and
adding another document (no removal anywhere) makes X invisible, until the next forced
refresh. -/
theorem C18_refuted_readd_hides :
    idsOf (runLookup (smallOpts .locs 2) [.add (mkDoc "X" ["x"]) true] [str "x"] []) =
      some [str "X"] ∧
    idsOf (runLookup (smallOpts .locs 2) [.add (mkDoc "X" ["x"]) true, .add (mkDoc "X" ["x"]) false,
      .add (mkDoc "Y" ["y"]) false] [str "x"] []) = some [] := by
  constructor <;> decide +kernel

/-- **C19** (partial: documents used with discipline): if the last call about `d` is its
removal, then after a forced refresh no search returns `d`. -/
theorem C19_removal_wins_partial {so : Sorter} (hso : SortOk so) (o : IndexerOpts)
    (h : List IdxOp) (d : Str) (f : Bool) (h2 : List IdxOp)
    (hok : ∀ x ∈ h ++ [.remove d f] ++ h2 ++ [.flush true], OpOk x)
    (hno : ∀ x ∈ h2, x.id? ≠ some d)
    (hd : DocDisciplined d (h ++ [.remove d f] ++ h2 ++ [.flush true])) (s : Indexer)
    (hr : (Indexer.init o).run so (h ++ [.remove d f] ++ h2 ++ [.flush true]) = some s) :
    ∀ log2 tokens labels docIds docs n,
      s.lookup log2 tokens labels docIds false = some (docs, n) → d ∉ docs.map (·.docId) := by
  obtain ⟨tr, ht, hall⟩ := prefix_state hso o _ hok s hr
  obtain ⟨known, _, hinv, htr⟩ := hall _ le_rfl s (by rw [List.take_length]; exact hr)
  have hv := (ht.doc_ideal hd).2 (fun x hx => ht.refreshed rfl d x (by
    rw [List.length_append, List.length_singleton] at hx; exact hx))
  have hideal : ideal (h ++ [.remove d f] ++ h2 ++ [.flush true]) d = none := by
    rw [ideal_snoc]
    simp only [idealStep]
    clear hr hok hall ht htr hd hv
    induction h2 using List.reverseRecOn with
    | nil => rw [List.append_nil, ideal_snoc]; simp [idealStep]
    | append_singleton h2 op ih =>
      rw [← List.append_assoc, ideal_snoc]
      have hne := hno op (by simp)
      have ih' := ih (fun x hx => hno x (by simp [hx]))
      cases op with
      | add doc g =>
        have : d ≠ doc.docId := fun e => hne (by simp [IdxOp.id?, e])
        simp only [idealStep, if_neg this]; exact ih'
      | remove id g =>
        have : d ≠ id := fun e => hne (by simp [IdxOp.id?, e])
        simp only [idealStep, if_neg this]; exact ih'
      | flush g => exact ih'
  intro log2 tokens labels docIds docs n hl hdm
  obtain ⟨_, _, c, _⟩ := lookup_returns log2 hinv.core tokens labels docIds _ hl
  obtain ⟨_, _, doc, e, _⟩ := (c d).1 hdm
  rw [← htr, hv, hideal] at e; simp at e

/-- **C19 is false in general**: add, then remove before the add was flushed, then a forced
refresh: the document is in the index. -/
theorem C19_refuted_remove_of_cached_add :
    idsOf (runLookup (smallOpts .locs 10) [.add (mkDoc "X" ["x"]) false, .remove (str "X") false,
      .flush true] [str "x"] []) = some [str "X"] := by decide +kernel

/-- Two further lemmas about one document between two mentions. -/
theorem Trace.only_version {h h2 : List IdxOp} {tr : Nat → AbsIndex} (ht : Trace (h ++ h2) tr)
    {d : Str} {v : DocIndex}
    (h0 : (∀ x, (tr h.length).pend d x ↔ x = v) ∨
      ((∀ x, ¬ (tr h.length).pend d x) ∧ (tr h.length).vis d = some v))
    (hno : ∀ x ∈ h2, x.id? ≠ some d) :
    (∀ x, (tr (h ++ h2).length).pend d x ↔ x = v) ∨
      ((∀ x, ¬ (tr (h ++ h2).length).pend d x) ∧ (tr (h ++ h2).length).vis d = some v) := by
  induction h2 using List.reverseRecOn with
  | nil => simpa using h0
  | append_singleton h2 op ih =>
    rw [← List.append_assoc] at ht ⊢
    obtain ⟨ht', hstep⟩ := ht.init
    have ih' := ih ht' (fun x hx => hno x (by simp [hx]))
    rw [List.length_append (as := h ++ h2), List.length_singleton]
    have hcommit : ∀ (f : Bool) (a b : AbsIndex), AbsCommit f a b →
        ((∀ x, a.pend d x ↔ x = v) ∨ ((∀ x, ¬ a.pend d x) ∧ a.vis d = some v)) →
        ((∀ x, b.pend d x ↔ x = v) ∨ ((∀ x, ¬ b.pend d x) ∧ b.vis d = some v)) := by
      intro f a b hc hh
      rcases hc d with ⟨e1, e2, _⟩ | ⟨_, ⟨y, e1⟩, _, e3⟩ | ⟨w, e1, e2, e3⟩
      · rcases hh with hh | ⟨g1, g2⟩
        · exact Or.inl (fun x => (e2 x).trans (hh x))
        · exact Or.inr ⟨fun x hx => g1 x ((e2 x).1 hx), e1.trans g2⟩
      · rcases hh with hh | ⟨g1, g2⟩
        · exact Or.inl (fun x => (e3 x).trans (hh x))
        · exact absurd e1 (g1 y)
      · rcases hh with hh | ⟨g1, g2⟩
        · exact Or.inr ⟨e3, by rw [e2, (hh w).1 e1]⟩
        · exact absurd e1 (g1 w)
    have hne := hno op (by simp)
    cases op with
    | add doc g =>
      have hid : d ≠ doc.docId := fun e => hne (by simp [IdxOp.id?, e])
      refine hcommit g _ _ hstep ?_
      simp only [hid, and_false, or_false]
      exact ih'
    | flush g => exact hcommit g _ _ hstep ih'
    | remove id g =>
      have hid : d ≠ id := fun e => hne (by simp [IdxOp.id?, e])
      obtain ⟨e1, e2⟩ := hstep
      rcases ih' with hh | ⟨g1, g2⟩
      · exact Or.inl (fun x => (e2 d x).trans (hh x))
      · refine Or.inr ⟨fun x hx => g1 x ((e2 d x).1 hx), ?_⟩
        rw [e1, if_neg (fun h => hid h.1)]; exact g2

/-- **C52** (partial: no older add of the document waits in the cache). In every history that
does not crash: if no add of `d` is waiting (`hw`), `d` is removed, and later added again as
`doc` (its last mention), then after the next forced refresh the visible version of `d` is
`doc`, whatever the other documents do. -/
theorem C52_readd_after_remove_partial {so : Sorter} (hso : SortOk so) (o : IndexerOpts)
    (h1 h2 h3 : List IdxOp) (doc : DocIndex) (f g : Bool)
    (hok : ∀ x ∈ h1 ++ [.remove doc.docId f] ++ h2 ++ [.add doc g] ++ h3 ++ [.flush true], OpOk x)
    (hw : ∀ a x b c, h1 = a ++ IdxOp.add x b :: c → x.docId = doc.docId →
      b = true ∨ ∃ y ∈ c, y.refreshes = true)
    (hno2 : ∀ x ∈ h2, x.id? ≠ some doc.docId) (hno3 : ∀ x ∈ h3, x.id? ≠ some doc.docId)
    (s : Indexer)
    (hr : (Indexer.init o).run so
      (h1 ++ [.remove doc.docId f] ++ h2 ++ [.add doc g] ++ h3 ++ [.flush true]) = some s) :
    s.hasDoc doc.docId = true ∧
    ∀ log2 tokens labels docs n, s.lookup log2 tokens labels none false = some (docs, n) →
      (doc.docId ∈ docs.map (·.docId) ↔
        tokens ++ labels ≠ [] ∧ ∀ k ∈ tokens ++ labels, k ∈ doc.keys) := by
  obtain ⟨tr, ht, hall⟩ := prefix_state hso o _ hok s hr
  obtain ⟨known, _, hinv, htr⟩ := hall _ le_rfl s (by rw [List.take_length]; exact hr)
  set d := doc.docId with hddef
  set H1 := h1 ++ [IdxOp.remove d f] with hH1
  set H3 := H1 ++ h2 ++ [IdxOp.add doc g] with hH3
  have t1 : Trace (H3 ++ h3) tr := ht.init.1
  have t3 : Trace H3 tr := by
    have := t1.take H3.length; rwa [List.take_left] at this
  have t2 : Trace (H1 ++ h2) tr := t3.init.1
  have tH1 : Trace H1 tr := by
    have := t2.take H1.length; rwa [List.take_left] at this
  have hp0 : ∀ x, ¬ (tr h1.length).pend d x := by
    intro x hx
    obtain ⟨hxd, a, c, he, hnr⟩ := tH1.init.1.pend_since hx
    rcases hw a x false c he hxd with hh | ⟨y, hc, hc2⟩
    · simp at hh
    · rw [hnr y hc] at hc2; simp at hc2
  have hp1 : ∀ x, ¬ (tr H1.length).pend d x := by
    intro x hx
    have := tH1.init.2.2 d x
    rw [show H1.length = h1.length + 1 by simp [hH1]] at hx
    exact hp0 x (this.1 hx)
  have hp2 : ∀ x, ¬ (tr (H1 ++ h2).length).pend d x := by
    intro x hx
    obtain ⟨hxd, a, c, he, hnr⟩ := t2.pend_since hx
    -- the add lies in `h1` (then it was refreshed) or in `h2` (excluded)
    rw [List.append_eq_append_iff] at he
    rcases he with ⟨a', e1, e2⟩ | ⟨a', e1, e2⟩
    · exact hno2 (.add x false) (by rw [e2]; simp) (by simp [IdxOp.id?, hxd])
    · cases a' with
      | nil =>
        simp only [List.nil_append] at e2
        exact hno2 (.add x false) (by rw [← e2]; simp) (by simp [IdxOp.id?, hxd])
      | cons y a' =>
        simp only [List.cons_append, List.cons.injEq] at e2
        obtain ⟨rfl, e2⟩ := e2
        rcases List.eq_nil_or_concat a' with rfl | ⟨a'', z, rfl⟩
        · have := List.append_inj_right' e1 rfl
          simp at this
        · have e3 : h1 ++ [IdxOp.remove d f] = (a ++ IdxOp.add x false :: a'') ++ [z] := by
            rw [← hH1, e1]; simp
          have e4 := List.append_inj_left' e3 rfl
          rcases hw a x false a'' e4 hxd with hh | ⟨y, hc, hc2⟩
          · simp at hh
          · rw [hnr y (by rw [e2]; simp [hc])] at hc2; simp at hc2
  -- after the add
  have hadd : (∀ x, (tr H3.length).pend d x ↔ x = doc) ∨
      ((∀ x, ¬ (tr H3.length).pend d x) ∧ (tr H3.length).vis d = some doc) := by
    have hs := t3.init.2
    rw [show H3.length = (H1 ++ h2).length + 1 by rw [hH3, List.length_append, List.length_singleton]]
    simp only [AbsStep] at hs
    have hpd : ∀ x, ((tr (H1 ++ h2).length).pend d x ∨ (x = doc ∧ d = doc.docId)) ↔ x = doc := by
      intro x; rw [or_iff_right (hp2 x)]; exact and_iff_left hddef
    rcases hs d with ⟨_, e2, _⟩ | ⟨_, _, _, e3⟩ | ⟨w, e1, e2, e3⟩
    · exact Or.inl (fun x => (e2 x).trans (hpd x))
    · exact Or.inl (fun x => (e3 x).trans (hpd x))
    · exact Or.inr ⟨e3, by rw [e2, (hpd w).1 e1]⟩
  have hfinal := t1.only_version hadd hno3
  have hvis : (tr ((H3 ++ h3).length + 1)).vis d = some doc := by
    have hs := ht.init.2
    simp only [AbsStep] at hs
    rcases hs d with ⟨e1, _, e3⟩ | ⟨e1, _⟩ | ⟨w, e1, e2, _⟩
    · rcases hfinal with hh | ⟨_, g2⟩
      · exact absurd ((hh doc).2 rfl) (e3 rfl doc)
      · rw [e1, g2]
    · simp at e1
    · rcases hfinal with hh | ⟨g1, _⟩
      · rw [e2, (hh w).1 e1]
      · exact absurd e1 (g1 w)
  rw [show (H3 ++ h3).length + 1 = (H3 ++ h3 ++ [IdxOp.flush true]).length by
    rw [List.length_append (as := H3 ++ h3), List.length_singleton]] at hvis
  rw [htr] at hvis
  constructor
  · simp only [absOf] at hvis
    split at hvis
    · rename_i h0; simp [Indexer.hasDoc, h0]
    · simp at hvis
  · intro log2 tokens labels docs n hl
    obtain ⟨_, _, c, _⟩ := lookup_returns log2 hinv.core tokens labels none _ hl
    rw [c d]
    simp only [Matches, Allowed, hvis]
    simp

/-- Hypotheses met: "1" is indexed, removed and added again, with no refresh in between. -/
example : idsOf (runLookup (smallOpts .locs 10) ([.add (mkDoc "1" ["a"]) true] ++
    [.remove (str "1") false] ++ [.add (mkDoc "2" ["b"]) false] ++ [.add (mkDoc "1" ["b"]) false] ++ [] ++
    [.flush true]) [str "b"] []) = some [str "2", str "1"] := by decide +kernel

/-- **C52 is false of the code**: document "1" is removed while an older add of it waits in the cache, and added
again; the update of another document reorders the cache, and after the final Flush the old version is
served: "1" is found by its old keyword, not by its new one. -/
theorem C52_refuted :
    let h := [IdxOp.add (mkDoc "2" ["z"]) true, .add (mkDoc "1" ["old"]) false, .remove (str "1") false,
      .add (mkDoc "1" ["new"]) false, .add (mkDoc "2" ["z"]) false, .flush true]
    ideal h (str "1") = some (mkDoc "1" ["new"]) ∧
    idsOf (runLookup (smallOpts .locs 10) h [str "new"] []) = some [] ∧
    idsOf (runLookup (smallOpts .locs 10) h [str "old"] []) = some [str "1"] := by
  refine ⟨?_, ?_, ?_⟩ <;> decide +kernel

/-! ## C51 -/

/-- **C51** Position search on the whole of a sorted posting list: a present id is found at
its position; otherwise the position is the unique one at which inserting the id keeps the
list sorted. -/
theorem C51_binary_search {ids : List Str} (hs : ids.Pairwise (· < ·)) (d : Str) :
    ∃ p b, searchIndex ids 0 (ids.length - 1) d = some (p, b) ∧
      (b = true ↔ d ∈ ids) ∧ (b = true → ids[p]? = some d) ∧
      (b = false → p ≤ ids.length ∧ (ids.take p ++ d :: ids.drop p).Pairwise (· < ·) ∧
        ∀ q ≤ ids.length, (ids.take q ++ d :: ids.drop q).Pairwise (· < ·) → q = p) := by
  refine ⟨rankOf ids d, decide (d ∈ ids),
    searchIndex_full hs (by omega) (fun h => absurd h (by omega)), by simp, ?_, ?_⟩
  · intro hb
    exact getElem_rankOf hs (by simpa using hb)
  · intro hb
    have hnm : d ∉ ids := by simpa using hb
    have hle := rankOf_le ids d
    refine ⟨hle, ?_, ?_⟩
    · rw [List.pairwise_append]
      refine ⟨hs.sublist (List.take_sublist _ _), ?_, ?_⟩
      · rw [List.pairwise_cons]
        refine ⟨?_, hs.sublist (List.drop_sublist _ _)⟩
        intro x hx
        obtain ⟨i, hi, rfl⟩ := List.mem_iff_getElem.1 hx
        simp only [List.length_drop] at hi
        rw [List.getElem_drop]
        have := le_of_rankOf_le hs (d := d) (i := rankOf ids d + i) (by omega) (by omega)
        exact lt_of_le_of_ne this (fun e => hnm (e ▸ List.getElem_mem _))
      · intro a ha x hx
        obtain ⟨i, hi, rfl⟩ := List.mem_iff_getElem.1 ha
        simp only [List.length_take] at hi
        rw [List.getElem_take]
        have h1 : ids[i] < d := lt_of_lt_rankOf hs (i := i) (by omega)
        rcases List.mem_cons.1 hx with rfl | hx
        · exact h1
        · obtain ⟨j, hj, rfl⟩ := List.mem_iff_getElem.1 hx
          simp only [List.length_drop] at hj
          rw [List.getElem_drop]
          exact List.pairwise_iff_getElem.1 hs _ _ _ _ (by omega)
    · intro q hq hpw
      rw [List.pairwise_append] at hpw
      obtain ⟨_, p2, p3⟩ := hpw
      rw [List.pairwise_cons] at p2
      symm
      apply rankOf_eq hs hq
      · intro h0
        refine p3 _ ?_ d (by simp)
        rw [List.mem_iff_getElem]
        exact ⟨q - 1, by simp; omega, by simp⟩
      · intro h
        refine le_of_lt (p2.1 _ ?_)
        rw [List.mem_iff_getElem]
        exact ⟨0, by simp; omega, by simp⟩

/-- **C51** On a sub-range `[start, e]`, when everything before the range is smaller: the
result is that of the search in the prefix up to `e`. -/
theorem C51_binary_search_range {ids : List Str} (hs : ids.Pairwise (· < ·)) {start e : Nat}
    (d : Str) (h1 : start ≤ e) (h2 : e < ids.length)
    (hbefore : ∀ x ∈ ids.take start, x < d) :
    ∃ p b, searchIndex ids start e d = some (p, b) ∧ start ≤ p ∧ p ≤ e + 1 ∧
      (b = true ↔ d ∈ ids.take (e + 1)) ∧ (b = true → ids[p]? = some d) ∧
      (b = false → (∀ x ∈ ids.take p, x < d) ∧ ∀ x ∈ (ids.take (e + 1)).drop p, d < x) := by
  have hs' : SortedIds (ids.take (e + 1)) := hs.sublist (List.take_sublist _ _)
  have hlen : (ids.take (e + 1)).length = e + 1 := by simp; omega
  have hb' : ∀ (_ : 0 < start), ids[start - 1] < d := by
    intro h0
    refine hbefore _ ?_
    rw [List.mem_iff_getElem]
    exact ⟨start - 1, by simp; omega, by simp⟩
  have hle := rankOf_le (ids.take (e + 1)) d
  have hge : start ≤ rankOf (ids.take (e + 1)) d := by
    by_contra hc
    have := le_of_rankOf_le hs' (d := d) (i := start - 1) (by omega) (by omega)
    rw [List.getElem_take] at this
    exact absurd (hb' (by omega)) (not_lt.2 this)
  refine ⟨_, _, searchIndex_eq hs (by omega) h1 h2 hb', hge, by omega, by simp, ?_, ?_⟩
  · intro hb
    have := getElem_rankOf hs' (by simpa using hb : d ∈ ids.take (e + 1))
    have hlt := (List.getElem?_eq_some_iff.1 this).1
    rw [List.getElem?_take_of_lt (by omega)] at this
    exact this
  · intro hb
    have hnm : d ∉ ids.take (e + 1) := by simpa using hb
    constructor
    · intro x hx
      obtain ⟨i, hi, rfl⟩ := List.mem_iff_getElem.1 hx
      simp only [List.length_take] at hi
      rw [List.getElem_take]
      have := lt_of_lt_rankOf hs' (d := d) (i := i) (by omega)
      rwa [List.getElem_take] at this
    · intro x hx
      obtain ⟨i, hi, rfl⟩ := List.mem_iff_getElem.1 hx
      simp only [List.length_drop] at hi
      rw [List.getElem_drop]
      have := le_of_rankOf_le hs' (d := d) (i := rankOf (ids.take (e + 1)) d + i) (by omega) (by omega)
      exact lt_of_le_of_ne this (fun e' => hnm (e' ▸ List.getElem_mem _))

example : searchIndex [str "1", str "3", str "5", str "7"] 0 3 (str "4") = some (2, false) := by
  decide +kernel

end Riot
