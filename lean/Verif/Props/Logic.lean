import Verif.Props.Search

/-!
# Logic requests: C02 (logic part), C13, C14, C15, C16, C17

A logic request `l` with keywords `kw = tokens ++ labels` has the clauses
`clauseKeys kw l.must l.expr.must` (Must), `clauseKeys kw l.should l.expr.should` (Should)
and `clauseKeys kw l.notIn l.expr.notIn` (NotIn), see Spec/Search.
-/

namespace Riot

theorem eff_clear {l : Logic} (h : l.Clear) (kw : List Str) :
    effMust kw l = clauseKeys kw l.must l.expr.must ∧
    effShould kw l = clauseKeys kw l.should l.expr.should ∧
    effNotIn kw l = clauseKeys kw l.notIn l.expr.notIn := by
  obtain ⟨h1, h2⟩ := h
  refine ⟨rfl, ?_, ?_⟩
  · unfold effShould clauseKeys
    by_cases hs : l.expr.should = []
    · by_cases hf : l.should = true
      · simp [h1 hf hs]
      · simp [hf]
    · simp [hs]
  · unfold effNotIn clauseKeys
    by_cases hs : l.expr.notIn = []
    · by_cases hf : l.notIn = true
      · simp [h2 hf hs]
      · simp [hf]
    · simp [hs]

/-- Requests written with explicit lists only, or with flags only, are clear. -/
theorem clear_of_lists {l : Logic} (h1 : l.should = false) (h2 : l.notIn = false) : l.Clear := by
  simp [Logic.Clear, h1, h2]

theorem clear_of_flags {l : Logic} (h1 : l.expr.must = []) (h2 : l.expr.should = []) : l.Clear := by
  simp [Logic.Clear, h1, h2]

/-- What a lookup with a logic option does, by cases. -/
theorem lookup_logic (log2 : Rat → Rat) (s : Indexer) (tokens labels : List Str)
    (docIds : Option (List Str)) (c : Bool) (l : Logic) :
    (s.numDocs = 0 ∧ s.lookup log2 tokens labels docIds c (some l) = some ([], 0)) ∨
    (s.numDocs ≠ 0 ∧ ((tokens ++ labels ≠ [] ∧ (l.must || l.should || l.notIn) = true) ∨
        l.expr.must ≠ [] ∨ l.expr.should ≠ []) ∧
      s.lookup log2 tokens labels docIds c (some l) = s.logicLookup docIds c (tokens ++ labels) l) ∨
    (s.numDocs ≠ 0 ∧ (tokens ++ labels = [] ∨ (l.must || l.should || l.notIn) = false) ∧
        l.expr.must = [] ∧ l.expr.should = [] ∧
      s.lookup log2 tokens labels docIds c (some l) = s.lookup log2 tokens labels docIds c none) := by
  by_cases h0 : s.numDocs = 0
  · left; simp [Indexer.lookup, h0]
  · right
    simp only [Indexer.lookup, if_neg h0]
    by_cases h1 : (tokens ++ labels).length > 0 ∧ (l.must || l.should || l.notIn) = true
    · left
      rw [if_pos h1]
      exact ⟨h0, Or.inl ⟨List.length_pos_iff.1 h1.1, h1.2⟩, rfl⟩
    · rw [if_neg h1]
      by_cases h2 : l.expr.must.length > 0 ∨ l.expr.should.length > 0
      · left
        rw [if_pos h2]
        refine ⟨h0, Or.inr ?_, rfl⟩
        rcases h2 with h2 | h2
        · exact Or.inl (List.length_pos_iff.1 h2)
        · exact Or.inr (List.length_pos_iff.1 h2)
      · right
        rw [if_neg h2]
        push Not at h2
        refine ⟨h0, ?_, List.length_eq_zero_iff.1 (by omega), List.length_eq_zero_iff.1 (by omega), rfl⟩
        by_cases hk : tokens ++ labels = []
        · exact Or.inl hk
        · right
          by_contra hc
          exact h1 ⟨List.length_pos_iff.2 hk, by simpa only [Bool.not_eq_false] using hc⟩

theorem vis_some_iff {s : Indexer} {known : GoMap DocIndex} {d : Str} {doc : DocIndex} :
    (absOf s known).vis d = some doc ↔ s.docsState.get d = some 0 ∧ known.get d = some doc := by
  simp only [absOf]
  split
  · rename_i h; simp [h]
  · rename_i h; simp [h]

/-- No visible document when the counter is zero. -/
theorem vis_none_of_zero {s : Indexer} {known : GoMap DocIndex} (hc : Core s known)
    (h0 : s.numDocs = 0) (d : Str) : (absOf s known).vis d = none := by
  obtain ⟨docs, ⟨_, h2⟩, h3⟩ := known_enumerates hc
  have : docs = [] := by
    rw [← List.length_eq_zero_iff]; omega
  subst this
  cases h : (absOf s known).vis d with
  | none => rfl
  | some doc => have := (h2 d doc).1 h; simp at this

theorem logicMatches_vis {s : Indexer} {known : GoMap DocIndex} {m sh n : Option (List Str)}
    {d : Str} {doc : DocIndex} (hv : (absOf s known).vis d = some doc) :
    LogicMatches known.get m sh n d ↔ LogicMatches (absOf s known).vis m sh n d := by
  have hk := (vis_some_iff.1 hv).2
  simp only [LogicMatches, hv, hk]

theorem idsResult_ids (L : List Str) : (idsResult L false).1.map (·.docId) = L ∧
    (idsResult L false).2 = L.length := by
  simp only [idsResult, Bool.false_eq_true, if_false, List.map_map]
  exact ⟨List.map_id L, trivial⟩

/-- Was the last call one that forces a refresh? -/
def JustRefreshed (h : List IdxOp) : Prop := ∃ op, h.getLast? = some op ∧ op.refreshes = true

theorem just_refreshed_vis {so : Sorter} {o : IndexerOpts} {h : List IdxOp} {s : Indexer}
    {known : GoMap DocIndex} (hr : (Indexer.init o).run so h = some s) (hinv : Inv s known)
    (hj : JustRefreshed h) : (absOf s known).vis = known.get := by
  obtain ⟨op, hlast, href⟩ := hj
  obtain ⟨h0, hh0⟩ : ∃ h0, h = h0 ++ [op] := by
    rw [List.getLast?_eq_some_iff] at hlast; exact hlast
  rw [hh0, Indexer.run_snoc, Option.bind_eq_some_iff] at hr
  obtain ⟨s0, _, hstep⟩ := hr
  exact funext (vis_eq_known hinv (step_forced href hstep))

/-- Must requests in a good state. -/
theorem must_state (log2 : Rat → Rat) {s : Indexer} {known : GoMap DocIndex} (hc : Core s known)
    (tokens labels : List Str) (docIds : Option (List Str)) {l : Logic} (hp : l.Clear)
    {M : List Str} (hM : clauseKeys (tokens ++ labels) l.must l.expr.must = some M) (hne : M ≠ []) :
    ∃ docs, s.lookup log2 tokens labels docIds false (some l) = some (docs, docs.length) ∧
      (docs.map (·.docId)).Pairwise (· > ·) ∧
      (∀ d ∈ docs.map (·.docId), Allowed docIds d ∧
        KMatches known (some M) (clauseKeys (tokens ++ labels) l.should l.expr.should)
          (clauseKeys (tokens ++ labels) l.notIn l.expr.notIn) d) ∧
      (s.numDocs ≠ 0 → ∀ d, Allowed docIds d →
        KMatches known (some M) (clauseKeys (tokens ++ labels) l.should l.expr.should)
          (clauseKeys (tokens ++ labels) l.notIn l.expr.notIn) d → d ∈ docs.map (·.docId)) := by
  obtain ⟨p1, p2, p3⟩ := eff_clear hp (tokens ++ labels)
  rcases lookup_logic log2 s tokens labels docIds false l with ⟨h0, h1⟩ | ⟨h0, _, h1⟩ | ⟨_, h0, h1, h2, _⟩
  · exact ⟨[], h1, by simp, by simp, fun h => absurd h0 h⟩
  · obtain ⟨L, a, b, c⟩ := logicLookup_must hc docIds false (tokens ++ labels) l (p1.trans hM) hne
    refine ⟨(idsResult L false).1, ?_, ?_, ?_, ?_⟩
    · rw [h1, a]
      simp [idsResult]
    · rw [(idsResult_ids L).1]; exact b
    · intro d hd
      rw [(idsResult_ids L).1, c d, p2, p3] at hd; exact hd
    · intro _ d h3 h4
      rw [(idsResult_ids L).1, c d, p2, p3]; exact ⟨h3, h4⟩
  · exfalso
    simp only [clauseKeys, h1, ne_eq, not_true, if_false] at hM
    split at hM
    · rename_i hm
      simp only [Option.some.injEq] at hM
      rcases h0 with h0 | h0
      · exact hne (by rw [← hM, h0])
      · rw [hm] at h0; simp at h0
    · simp at hM

/-- Should requests in a good state: the DocIds restriction plays no role. -/
theorem should_state (log2 : Rat → Rat) {s : Indexer} {known : GoMap DocIndex} (hc : Core s known)
    (tokens labels : List Str) (docIds : Option (List Str)) {l : Logic} (hp : l.Clear)
    (hM : clauseKeys (tokens ++ labels) l.must l.expr.must = none)
    {S : List Str} (hS : clauseKeys (tokens ++ labels) l.should l.expr.should = some S) :
    ∃ docs, s.lookup log2 tokens labels docIds false (some l) = some (docs, docs.length) ∧
      (docs.map (·.docId)).Nodup ∧
      (∀ d ∈ docs.map (·.docId), KMatches known none (some S)
          (clauseKeys (tokens ++ labels) l.notIn l.expr.notIn) d) ∧
      (s.numDocs ≠ 0 → ∀ d, KMatches known none (some S)
          (clauseKeys (tokens ++ labels) l.notIn l.expr.notIn) d → d ∈ docs.map (·.docId)) := by
  obtain ⟨p1, p2, p3⟩ := eff_clear hp (tokens ++ labels)
  rcases lookup_logic log2 s tokens labels docIds false l with ⟨h0, h1⟩ | ⟨h0, _, h1⟩ | ⟨_, h0, h1, h2, h3⟩
  · exact ⟨[], h1, by simp, by simp, fun h => absurd h0 h⟩
  · obtain ⟨L, a, b, c⟩ := logicLookup_should hc docIds false (tokens ++ labels) l (p1.trans hM)
      (p2.trans hS)
    refine ⟨(idsResult L false).1, ?_, ?_, ?_, ?_⟩
    · rw [h1, a]
      simp [idsResult]
    · rw [(idsResult_ids L).1]; exact b
    · intro d hd
      rw [(idsResult_ids L).1, c d, p3] at hd; exact hd
    · intro _ d h4
      rw [(idsResult_ids L).1, c d, p3]; exact h4
  · simp only [clauseKeys, h2, ne_eq, not_true, if_false] at hS
    split at hS
    case isFalse => simp at hS
    rename_i hsh
    simp only [Option.some.injEq] at hS
    have hk : tokens ++ labels = [] := by
      rcases h0 with h0 | h0
      · exact h0
      · rw [hsh] at h0; simp at h0
    have hlook : s.lookup log2 tokens labels docIds false none = some ([], 0) := by
      simp only [Indexer.lookup, hk, Indexer.internalLookup, collectRows]
      split <;> rfl
    refine ⟨[], by rw [h3, hlook]; rfl, by simp, by simp, ?_⟩
    intro _ d hm
    obtain ⟨doc, _, _, e3, _⟩ := hm
    obtain ⟨k, hk', _⟩ := e3 S rfl
    rw [← hS, hk] at hk'; simp at hk'

/-- A stored version that matches is the version visible last. -/
theorem last_matched {tr : Nat → AbsIndex} {i : Nat} {known : GoMap DocIndex} {m sh n : Option (List Str)} {d : Str}
    (h : ∀ d x, known.get d = some x → LastVisible tr i d x) (hm : LogicMatches known.get m sh n d) :
    ∃ j ≤ i, LogicMatches (tr j).vis m sh n d ∧ ∀ k, j < k → k ≤ i → (tr k).vis d = none := by
  obtain ⟨doc, e, h1⟩ := hm
  obtain ⟨j, hj, e1, e2⟩ := h d doc e
  exact ⟨j, hj, ⟨doc, e1, h1⟩, e2⟩

/-! ## C14, C02 for Must -/

/-- **C14** (partial: exact for visible documents at every moment; outside the visible
documents only removed-but-not-flushed ones can appear whose last visible version matched, and
none right after a forced refresh; that they do appear: `C14_refuted`), together with **C02** for Must requests. At every moment of every
history a Must request returns; its ids are strictly descending; every id it returns is
allowed by DocIds; a visible document is returned iff it is allowed by DocIds, has all Must
keys, a Should key if there is a Should clause, and no NotIn key; right after a forced
refresh nothing else is returned. -/
theorem C14_must_exact_partial {so : Sorter} (hso : SortOk so) (o : IndexerOpts) (h : List IdxOp)
    (hok : ∀ op ∈ h, OpOk op) (s : Indexer) (hr : (Indexer.init o).run so h = some s) :
    ∃ tr, Trace h tr ∧ ∀ i ≤ h.length, ∀ si, (Indexer.init o).run so (h.take i) = some si →
      ∀ log2 tokens labels docIds (l : Logic), l.Clear →
      ∀ M S N, clauseKeys (tokens ++ labels) l.must l.expr.must = some M → M ≠ [] →
        S = clauseKeys (tokens ++ labels) l.should l.expr.should →
        N = clauseKeys (tokens ++ labels) l.notIn l.expr.notIn →
        ∃ docs, si.lookup log2 tokens labels docIds false (some l) = some (docs, docs.length) ∧
          (docs.map (·.docId)).Pairwise (· > ·) ∧
          (∀ d ∈ docs.map (·.docId), Allowed docIds d) ∧
          (∀ d doc, (tr i).vis d = some doc →
            (d ∈ docs.map (·.docId) ↔ Allowed docIds d ∧ LogicMatches (tr i).vis (some M) S N d)) ∧
          (∀ d ∈ docs.map (·.docId), ∃ j ≤ i, LogicMatches (tr j).vis (some M) S N d ∧
            ∀ m, j < m → m ≤ i → (tr m).vis d = none) ∧
          (JustRefreshed (h.take i) → ∀ d, d ∈ docs.map (·.docId) ↔
            Allowed docIds d ∧ LogicMatches (tr i).vis (some M) S N d) := by
  obtain ⟨tr, ht, hall⟩ := prefix_stored hso o h hok s hr
  refine ⟨tr, ht, ?_⟩
  intro i hi si hsi log2 tokens labels docIds l hp M S N hM hne hS hN
  subst hS hN
  obtain ⟨known, hopt, hinv, htr, hlast⟩ := hall i hi si hsi
  obtain ⟨docs, a, b, c, e⟩ := must_state log2 hinv.core tokens labels docIds hp hM hne
  have hvis : ∀ d doc, (tr i).vis d = some doc →
      (d ∈ docs.map (·.docId) ↔ Allowed docIds d ∧ LogicMatches (tr i).vis (some M)
        (clauseKeys (tokens ++ labels) l.should l.expr.should)
        (clauseKeys (tokens ++ labels) l.notIn l.expr.notIn) d) := by
    intro d doc hv
    rw [htr] at hv ⊢
    have hn : si.numDocs ≠ 0 := by
      intro h0
      rw [vis_none_of_zero hinv.core h0] at hv; simp at hv
    rw [← logicMatches_vis hv]
    exact ⟨fun hd => c d hd, fun hd => e hn d hd.1 hd.2⟩
  refine ⟨docs, a, b, fun d hd => (c d hd).1, hvis, fun d hd => last_matched hlast (c d hd).2, ?_⟩
  intro hj d
  have hvk := just_refreshed_vis hsi hinv hj
  constructor
  · intro hd
    have := c d hd
    rw [htr, hvk]; exact this
  · intro hd
    obtain ⟨doc, hv, _⟩ := hd.2
    exact (hvis d doc hv).2 hd

/-- Hypotheses met, with all three clauses and a DocIds set: documents 1..4, one of them
excluded by NotIn, one by DocIds, one by Should. -/
example : idsOf (runLookup (smallOpts .locs 10)
    [.add (mkDoc "1" ["a", "b", "c"]) false, .add (mkDoc "2" ["a", "b"]) false,
     .add (mkDoc "3" ["a", "b", "c", "x"]) false, .add (mkDoc "4" ["a", "d"]) false,
     .add (mkDoc "5" ["a", "b", "d"]) true]
    [] [] (some [str "1", str "3", str "4", str "2"])
    (some { expr := ⟨[str "a", str "b"], [str "c", str "d", str "none"], [str "x"]⟩ })) =
    some [str "1"] := by decide +kernel

example : ({ expr := ⟨[str "a", str "b"], [str "c", str "d"], [str "x"]⟩ } : Logic).Clear := by
  simp [Logic.Clear]

/-- A mixture of flags and lists that is clear: the documents with all words of the query, one of the listed words, and not the
listed one. -/
example : ({ must := true, expr := ⟨[], [str "c", str "d"], [str "x"]⟩ } : Logic).Clear ∧
    idsOf (runLookup (smallOpts .locs 10)
    [.add (mkDoc "1" ["a", "b", "c"]) false, .add (mkDoc "2" ["a", "b"]) false,
     .add (mkDoc "3" ["a", "b", "c", "x"]) false, .add (mkDoc "4" ["a", "d"]) false,
     .add (mkDoc "5" ["a", "b", "d"]) true]
    [str "a", str "b"] [] none
    (some { must := true, expr := ⟨[], [str "c", str "d"], [str "x"]⟩ })) =
    some [str "5", str "1"] := ⟨by simp [Logic.Clear], by decide +kernel⟩

/-- What the code does with a request that is not clear, for all contents: a Should or NotIn clause asked for by its flag alone
takes the explicit list of the clause before it (the last one of Must and Should that has a list) instead of the keywords. The
answer is that of the request without the flags and with these lists written out. -/
theorem C14_mixed_takes_previous (log2 : Rat → Rat) (s : Indexer) (tokens labels : List Str) (docIds : Option (List Str))
    (c : Bool) (l : Logic) (hM : l.expr.must ≠ [] ∨ l.expr.should ≠ []) :
    s.lookup log2 tokens labels docIds c (some l) = s.lookup log2 tokens labels docIds c (some { must := l.must, expr := {
      must := l.expr.must,
      should := if l.should = true ∧ l.expr.should = [] then l.expr.must else l.expr.should,
      notIn := if l.notIn = true ∧ l.expr.notIn = [] then
          (if l.expr.should = [] then l.expr.must else l.expr.should) else l.expr.notIn } }) := by
  have h1 : ∀ l' : Logic, (l'.expr.must ≠ [] ∨ l'.expr.should ≠ []) →
      s.lookup log2 tokens labels docIds c (some l') =
        if s.numDocs = 0 then some ([], 0) else s.logicLookup docIds c (tokens ++ labels) l' := by
    intro l' e
    have e' : l'.expr.must.length > 0 ∨ l'.expr.should.length > 0 := by
      simpa only [gt_iff_lt, List.length_pos_iff] using e
    simp only [Indexer.lookup]
    split
    · rfl
    · split
      · rfl
      · first | rfl | rw [if_pos e']
  refine (h1 l hM).trans (Eq.trans ?_ (h1 _ ?_).symm)
  · congr 1
    unfold Indexer.logicLookup
    obtain ⟨m, sh, n, ⟨em, es, en⟩⟩ := l
    cases em <;> cases es <;> cases en <;> cases sh <;> cases n <;> simp at hM ⊢
  · rcases hM with h | h
    · exact .inl h
    · exact .inr (by rw [if_neg (fun e => h e.2)]; exact h)

/-- **C14 is false for a request that is not clear** (the shape of examples/logic `logic2`): with the keyword "y", the explicit
Must list ["a"] and the Should flag, the keyword plays no role: document "1", which does not contain "y", is returned. -/
theorem C14_refuted_mixed :
    ¬ ({ should := true, expr := ⟨[str "a"], [], [str "x"]⟩ } : Logic).Clear ∧
    idsOf (runLookup (smallOpts .locs 10)
      [.add (mkDoc "1" ["a"]) false, .add (mkDoc "2" ["a", "y"]) true] [str "y"] [] none
      (some { should := true, expr := ⟨[str "a"], [], [str "x"]⟩ })) = some [str "2", str "1"] := by
  constructor
  · simp [Logic.Clear]
  · decide +kernel

/-- **C02 is false for Should requests**: the DocIds set contains only document "1", and the
request returns document "2" too. -/
theorem C02_refuted_should :
    idsOf (runLookup (smallOpts .locs 10)
      [.add (mkDoc "1" ["a"]) false, .add (mkDoc "2" ["a"]) true] [str "a"] []
      (some [str "1"]) (some { should := true })) = some [str "1", str "2"] := by decide +kernel

/-- **C02** for Must requests: no document outside the DocIds set is returned, at any moment,
and every visible document inside it that matches is. -/
theorem C02_docids_must {so : Sorter} (hso : SortOk so) (o : IndexerOpts) (h : List IdxOp)
    (hok : ∀ op ∈ h, OpOk op) (s : Indexer) (hr : (Indexer.init o).run so h = some s) :
    ∃ tr, Trace h tr ∧ ∀ i ≤ h.length, ∀ si, (Indexer.init o).run so (h.take i) = some si →
      ∀ log2 tokens labels ds (l : Logic), l.Clear →
      ∀ M, clauseKeys (tokens ++ labels) l.must l.expr.must = some M → M ≠ [] →
        ∃ docs, si.lookup log2 tokens labels (some ds) false (some l) = some (docs, docs.length) ∧
          (∀ d ∈ docs.map (·.docId), d ∈ ds) ∧
          (∀ d ∈ ds, LogicMatches (tr i).vis (some M)
              (clauseKeys (tokens ++ labels) l.should l.expr.should)
              (clauseKeys (tokens ++ labels) l.notIn l.expr.notIn) d →
            d ∈ docs.map (·.docId)) := by
  obtain ⟨tr, ht, hall⟩ := C14_must_exact_partial hso o h hok s hr
  refine ⟨tr, ht, ?_⟩
  intro i hi si hsi log2 tokens labels ds l hp M hM hne
  obtain ⟨docs, a, _, b, c, _⟩ := hall i hi si hsi log2 tokens labels (some ds) l hp M _ _ hM hne rfl rfl
  refine ⟨docs, a, fun d hd => b d hd ds rfl, ?_⟩
  intro d hd hm
  obtain ⟨doc, hv, _⟩ := id hm
  exact (c d doc hv).2 ⟨fun ds' e => by simp only [Option.some.injEq] at e; exact e ▸ hd, hm⟩

/-! ## C15 -/

/-- **C15** (partial: exact for visible documents at every moment, and for all documents
right after a forced refresh; otherwise removed-but-not-flushed documents whose last visible version
matched can appear, and do: `C15_refuted`). A Should request without Must
returns; no id twice; a visible document is returned iff it has a Should key and no NotIn
key. The DocIds restriction is ignored (`C02_refuted_should`). -/
theorem C15_should_exact_partial {so : Sorter} (hso : SortOk so) (o : IndexerOpts) (h : List IdxOp)
    (hok : ∀ op ∈ h, OpOk op) (s : Indexer) (hr : (Indexer.init o).run so h = some s) :
    ∃ tr, Trace h tr ∧ ∀ i ≤ h.length, ∀ si, (Indexer.init o).run so (h.take i) = some si →
      ∀ log2 tokens labels docIds (l : Logic), l.Clear →
        clauseKeys (tokens ++ labels) l.must l.expr.must = none →
      ∀ S N, clauseKeys (tokens ++ labels) l.should l.expr.should = some S →
        N = clauseKeys (tokens ++ labels) l.notIn l.expr.notIn →
        ∃ docs, si.lookup log2 tokens labels docIds false (some l) = some (docs, docs.length) ∧
          (docs.map (·.docId)).Nodup ∧
          (∀ d doc, (tr i).vis d = some doc →
            (d ∈ docs.map (·.docId) ↔ LogicMatches (tr i).vis none (some S) N d)) ∧
          (∀ d ∈ docs.map (·.docId), ∃ j ≤ i, LogicMatches (tr j).vis none (some S) N d ∧
            ∀ m, j < m → m ≤ i → (tr m).vis d = none) ∧
          (JustRefreshed (h.take i) → ∀ d, d ∈ docs.map (·.docId) ↔
            LogicMatches (tr i).vis none (some S) N d) := by
  obtain ⟨tr, ht, hall⟩ := prefix_stored hso o h hok s hr
  refine ⟨tr, ht, ?_⟩
  intro i hi si hsi log2 tokens labels docIds l hp hM S N hS hN
  subst hN
  obtain ⟨known, hopt, hinv, htr, hlast⟩ := hall i hi si hsi
  obtain ⟨docs, a, b, c, e⟩ := should_state log2 hinv.core tokens labels docIds hp hM hS
  have hvis : ∀ d doc, (tr i).vis d = some doc →
      (d ∈ docs.map (·.docId) ↔ LogicMatches (tr i).vis none (some S)
        (clauseKeys (tokens ++ labels) l.notIn l.expr.notIn) d) := by
    intro d doc hv
    rw [htr] at hv ⊢
    have hn : si.numDocs ≠ 0 := by
      intro h0
      rw [vis_none_of_zero hinv.core h0] at hv; simp at hv
    rw [← logicMatches_vis hv]
    exact ⟨fun hd => c d hd, fun hd => e hn d hd⟩
  refine ⟨docs, a, b, hvis, fun d hd => last_matched hlast (c d hd), ?_⟩
  intro hj d
  have hvk := just_refreshed_vis hsi hinv hj
  constructor
  · intro hd
    have := c d hd
    rw [htr, hvk]; exact this
  · intro hd
    obtain ⟨doc, hv, _⟩ := id hd
    exact (hvis d doc hv).2 hd

example : idsOf (runLookup (smallOpts .locs 10)
    [.add (mkDoc "1" ["a", "b"]) false, .add (mkDoc "2" ["b"]) false,
     .add (mkDoc "3" ["a", "x"]) false, .add (mkDoc "4" ["d"]) true]
    [] [] none (some { expr := ⟨[], [str "a", str "b", str "none"], [str "x"]⟩ })) =
    some [str "1", str "2"] := by decide +kernel

/-! ## C16 -/

/-- **C16** (partial: requests with a Must or a Should clause). No visible document returned
contains a NotIn key. -/
theorem C16_notin_excludes_partial {so : Sorter} (hso : SortOk so) (o : IndexerOpts) (h : List IdxOp)
    (hok : ∀ op ∈ h, OpOk op) (s : Indexer) (hr : (Indexer.init o).run so h = some s) :
    ∃ tr, Trace h tr ∧ ∀ i ≤ h.length, ∀ si, (Indexer.init o).run so (h.take i) = some si →
      ∀ log2 tokens labels docIds (l : Logic), l.Clear →
        ((∃ M, clauseKeys (tokens ++ labels) l.must l.expr.must = some M ∧ M ≠ []) ∨
          (clauseKeys (tokens ++ labels) l.must l.expr.must = none ∧
            clauseKeys (tokens ++ labels) l.should l.expr.should ≠ none)) →
        ∀ N, clauseKeys (tokens ++ labels) l.notIn l.expr.notIn = some N →
        ∀ docs n, si.lookup log2 tokens labels docIds false (some l) = some (docs, n) →
          ∀ d doc, d ∈ docs.map (·.docId) → (tr i).vis d = some doc → ∀ k ∈ N, k ∉ doc.keys := by
  obtain ⟨tr, ht, hall⟩ := prefix_state hso o h hok s hr
  refine ⟨tr, ht, ?_⟩
  intro i hi si hsi log2 tokens labels docIds l hp hcl N hN docs n hl d doc hd hv k hk
  obtain ⟨known, hopt, hinv, htr⟩ := hall i hi si hsi
  rw [htr] at hv
  have hkn := (vis_some_iff.1 hv).2
  rcases hcl with ⟨M, hM, hne⟩ | ⟨hM, hS⟩
  · obtain ⟨docs', a, _, c, _⟩ := must_state log2 hinv.core tokens labels docIds hp hM hne
    rw [a, Option.some.injEq, Prod.mk.injEq] at hl
    obtain ⟨rfl, _⟩ := hl
    obtain ⟨_, doc', e1, _, _, e4⟩ := c d hd
    rw [hkn, Option.some.injEq] at e1
    subst e1
    exact e4 N hN k hk
  · obtain ⟨S, hS⟩ := Option.ne_none_iff_exists'.1 hS
    obtain ⟨docs', a, _, c, _⟩ := should_state log2 hinv.core tokens labels docIds hp hM hS
    rw [a, Option.some.injEq, Prod.mk.injEq] at hl
    obtain ⟨rfl, _⟩ := hl
    obtain ⟨doc', e1, _, _, e4⟩ := c d hd
    rw [hkn, Option.some.injEq] at e1
    subst e1
    exact e4 N hN k hk

/-- What a request with only the NotIn flag really does, for every history: it returns
precisely the visible documents that DO contain one of the keywords (the opposite of C16). -/
theorem C16_notin_only_returns_containing {so : Sorter} (hso : SortOk so) (o : IndexerOpts)
    (h : List IdxOp) (hok : ∀ op ∈ h, OpOk op) (s : Indexer)
    (hr : (Indexer.init o).run so h = some s) :
    ∃ tr, Trace h tr ∧ ∀ log2 tokens labels docIds,
      ∃ docs n, s.lookup log2 tokens labels docIds false (some { notIn := true }) = some (docs, n) ∧
        ∀ d doc, (tr h.length).vis d = some doc →
          (d ∈ docs.map (·.docId) ↔ ∃ k ∈ tokens ++ labels, k ∈ doc.keys) := by
  obtain ⟨tr, ht, hall⟩ := prefix_state hso o h hok s hr
  refine ⟨tr, ht, ?_⟩
  obtain ⟨known, hopt, hinv, htr⟩ := hall _ le_rfl s (by rw [List.take_length]; exact hr)
  intro log2 tokens labels docIds
  rcases lookup_logic log2 s tokens labels docIds false { notIn := true } with
    ⟨h0, h1⟩ | ⟨h0, _, h1⟩ | ⟨_, h0, _, _, h3⟩
  · refine ⟨[], 0, h1, ?_⟩
    intro d doc hv
    rw [htr, vis_none_of_zero hinv.core h0] at hv; simp at hv
  · obtain ⟨L, a, b⟩ := logicLookup_notIn hinv.core docIds false (tokens ++ labels) { notIn := true }
      (by simp [effMust, clauseKeys]) (by simp [effShould, clauseKeys])
    refine ⟨(idsResult L false).1, (idsResult L false).2, by rw [h1, a], ?_⟩
    intro d doc hv
    rw [htr] at hv
    rw [(idsResult_ids L).1, b d]
    have hN : effNotIn (tokens ++ labels) { notIn := true } = some (tokens ++ labels) := by
      simp [effNotIn, clauseKeys]
    rw [(vis_some_iff.1 hv).2, hN]
    simp
  · have hk : tokens ++ labels = [] := by
      rcases h0 with h0 | h0
      · exact h0
      · simp at h0
    refine ⟨[], 0, ?_, ?_⟩
    · rw [h3]
      simp only [Indexer.lookup, hk, Indexer.internalLookup, collectRows]
      split <;> rfl
    · intro d doc _
      simp [hk]

/-- **C16 is false in general**: a request whose only clause is NotIn ["x"] returns the
document that contains "x"; and an explicit NotIn list next to a plain keyword is ignored. -/
theorem C16_refuted_notin_only :
    idsOf (runLookup (smallOpts .locs 10)
      [.add (mkDoc "1" ["x"]) false, .add (mkDoc "2" ["y"]) true] [str "x"] [] none
      (some { notIn := true })) = some [str "1"] ∧
    idsOf (runLookup (smallOpts .locs 10)
      [.add (mkDoc "1" ["x", "y"]) false, .add (mkDoc "2" ["y"]) true] [str "y"] [] none
      (some { expr := ⟨[], [], [str "x"]⟩ })) = some [str "2", str "1"] := by
  constructor <;> decide +kernel

/-! ## C17 -/

/-- **C17** (partial: right after a call that forces a refresh). Every document returned by any
request, plain or logic, pure or mixed, is a visible document. -/
theorem C17_no_removed_documents_partial {so : Sorter} (hso : SortOk so) (o : IndexerOpts)
    (h : List IdxOp) (hok : ∀ op ∈ h, OpOk op) (s : Indexer)
    (hr : (Indexer.init o).run so h = some s) (hj : JustRefreshed h) :
    ∃ tr, Trace h tr ∧ ∀ log2 tokens labels docIds logic docs n,
      s.lookup log2 tokens labels docIds false logic = some (docs, n) →
        ∀ d ∈ docs.map (·.docId), (tr h.length).vis d ≠ none := by
  obtain ⟨tr, ht, hall⟩ := prefix_state hso o h hok s hr
  refine ⟨tr, ht, ?_⟩
  obtain ⟨known, hopt, hinv, htr⟩ := hall _ le_rfl s (by rw [List.take_length]; exact hr)
  have hvk := just_refreshed_vis hr hinv hj
  intro log2 tokens labels docIds logic docs n hl d hd
  have hplain : s.lookup log2 tokens labels docIds false none = some (docs, n) →
      (tr h.length).vis d ≠ none := by
    intro hl
    obtain ⟨_, _, c, _⟩ := lookup_returns log2 hinv.core tokens labels docIds _ hl
    obtain ⟨_, _, doc, e, _⟩ := (c d).1 hd
    rw [htr, e]; simp
  cases logic with
  | none => exact hplain hl
  | some l =>
    rcases lookup_logic log2 s tokens labels docIds false l with
      ⟨h0, h1⟩ | ⟨h0, _, h1⟩ | ⟨_, h0, _, _, h3⟩
    · rw [hl, Option.some.injEq, Prod.mk.injEq] at h1
      rw [h1.1] at hd; simp at hd
    · rw [hl] at h1
      rw [htr, hvk]
      have fin : ∀ L, some (docs, n) = some (idsResult L false) → d ∈ L := by
        intro L he
        have : docs = (idsResult L false).1 := by simpa using congrArg (fun x => (x.getD ([], 0)).1) he
        rw [this, (idsResult_ids L).1] at hd; exact hd
      cases hM : effMust (tokens ++ labels) l with
      | some M =>
        by_cases hne : M = []
        · subst hne
          -- the crashing shape: it returns nothing
          rw [effMust, clauseKeys_eq] at hM
          split at hM
          case isFalse => simp at hM
          rename_i hum
          simp only [Option.some.injEq] at hM
          simp only [Indexer.logicLookup, hum, if_true, hM, collectRows] at h1
          have hnil : docs = [] := by
            generalize ((l.should || decide (l.expr.should.length > 0)) && _) = b at h1
            cases b <;> simp at h1
            exact h1.1
          rw [hnil] at hd; simp at hd
        · obtain ⟨L, a, _, c⟩ := logicLookup_must hinv.core docIds false (tokens ++ labels) l hM hne
          obtain ⟨_, doc, e, _⟩ := (c d).1 (fin L (h1.trans a))
          rw [e]; simp
      | none =>
        cases hS : effShould (tokens ++ labels) l with
        | some S =>
          obtain ⟨L, a, _, c⟩ := logicLookup_should hinv.core docIds false (tokens ++ labels) l hM hS
          obtain ⟨doc, e, _⟩ := (c d).1 (fin L (h1.trans a))
          rw [e]; simp
        | none =>
          obtain ⟨L, a, c⟩ := logicLookup_notIn hinv.core docIds false (tokens ++ labels) l hM hS
          obtain ⟨doc, _, e, _⟩ := (c d).1 (fin L (h1.trans a))
          rw [e]; simp
    · exact hplain (h3 ▸ hl)

/-- **C17 is false in general**: document "1" was removed, the removal is not flushed; Must and
Should requests still return it, a plain request does not. -/
theorem C17_refuted_pending_removal :
    let h := [IdxOp.add (mkDoc "1" ["x"]) false, .add (mkDoc "2" ["x"]) true, .remove (str "1") false]
    idsOf (runLookup (smallOpts .locs 10) h [str "x"] []) = some [str "2"] ∧
    idsOf (runLookup (smallOpts .locs 10) h [str "x"] [] none (some { must := true })) =
      some [str "2", str "1"] ∧
    idsOf (runLookup (smallOpts .locs 10) h [str "x"] [] none (some { should := true })) =
      some [str "1", str "2"] := by
  refine ⟨?_, ?_, ?_⟩ <;> decide +kernel

/-- **C14 is false of the code** (while a removal is pending): with keys Must = "x", NotIn = "y", the request
returns the removed document "1", although no document of that history contains "x". -/
theorem C14_refuted :
    let h := [IdxOp.add (mkDoc "1" ["x"]) false, .add (mkDoc "2" ["z"]) true, .remove (str "1") false]
    ideal h (str "1") = none ∧
    idsOf (runLookup (smallOpts .locs 10) h [] [] none (some { expr := ⟨[str "x"], [], [str "y"]⟩ })) =
      some [str "1"] := by
  refine ⟨?_, ?_⟩ <;> decide +kernel

/-- **C15 is false of the code** (while a removal is pending). -/
theorem C15_refuted :
    let h := [IdxOp.add (mkDoc "1" ["x"]) false, .add (mkDoc "2" ["z"]) true, .remove (str "1") false]
    ideal h (str "1") = none ∧
    idsOf (runLookup (smallOpts .locs 10) h [] [] none (some { expr := ⟨[], [str "x"], [str "y"]⟩ })) =
      some [str "1"] := by
  refine ⟨?_, ?_⟩ <;> decide +kernel

/-! ## C13 -/

/-- When a lookup crashes, in any state with the index invariant. -/
theorem lookup_none_core {si : Indexer} {known : GoMap DocIndex} (hcore : Core si known) {log2 : Rat → Rat}
    {tokens labels : List Str} {docIds : Option (List Str)} {countOnly : Bool} {logic : Option Logic}
    (hl : si.lookup log2 tokens labels docIds countOnly logic = none) :
    (si.opts.indexType = .locs ∧ tokens = [] ∧ (∃ d, Matches (absOf si known).vis docIds labels d) ∧
      ∀ l, logic = some l → l.must = false ∧ l.should = false ∧ l.notIn = false ∧
        l.expr.must = [] ∧ l.expr.should = []) ∨
    (tokens = [] ∧ labels = [] ∧
      ∃ l, logic = some l ∧ l.must = true ∧ l.expr.must = [] ∧ l.expr.should ≠ []) := by
  have hplain : si.lookup log2 tokens labels docIds countOnly none = none →
      si.opts.indexType = .locs ∧ tokens = [] ∧ ∃ d, Matches (absOf si known).vis docIds labels d := by
    intro hl
    by_cases hc : si.opts.indexType = .locs → tokens ≠ []
    · obtain ⟨L, h1, _⟩ := lookup_spec log2 hcore tokens labels docIds countOnly hc
      rw [hl] at h1; simp at h1
    · push Not at hc
      obtain ⟨hc1, rfl⟩ := hc
      rcases lookup_labels_only log2 hcore labels docIds countOnly hc1 with ⟨h1, _⟩ | ⟨_, h2⟩
      · rw [hl] at h1; simp at h1
      · exact ⟨hc1, rfl, h2⟩
  cases logic with
  | none =>
    obtain ⟨a, b, c⟩ := hplain hl
    exact Or.inl ⟨a, b, c, by simp⟩
  | some l =>
    rcases lookup_logic log2 si tokens labels docIds countOnly l with
      ⟨h0, h1⟩ | ⟨h0, hd, h1⟩ | ⟨_, h0, hm0, hs0, h3⟩
    · rw [hl] at h1; simp at h1
    · rw [hl] at h1
      cases hM : effMust (tokens ++ labels) l with
      | some M =>
        by_cases hne : M = []
        · subst hne
          right
          rw [effMust, clauseKeys] at hM
          split at hM
          · rename_i hx; simp only [Option.some.injEq] at hM; exact absurd hM hx
          · rename_i hx
            split at hM
            · rename_i hm
              simp only [Option.some.injEq] at hM
              have hx' : l.expr.must = [] := by simpa using hx
              have hk := List.append_eq_nil_iff.1 hM
              refine ⟨hk.1, hk.2, l, rfl, hm, hx', ?_⟩
              rcases hd with ⟨hd, _⟩ | hd | hd
              · exact absurd hM hd
              · exact absurd hx' hd
              · exact hd
            · simp at hM
        · obtain ⟨L, a, _⟩ := logicLookup_must hcore docIds countOnly (tokens ++ labels) l hM hne
          rw [a] at h1; simp at h1
      | none =>
        cases hS : effShould (tokens ++ labels) l with
        | some S =>
          obtain ⟨L, a, _⟩ := logicLookup_should hcore docIds countOnly (tokens ++ labels) l hM hS
          rw [a] at h1; simp at h1
        | none =>
          obtain ⟨L, a, _⟩ := logicLookup_notIn hcore docIds countOnly (tokens ++ labels) l hM hS
          rw [a] at h1; simp at h1
    · obtain ⟨a, b, c⟩ := hplain (h3 ▸ hl)
      left
      refine ⟨a, b, c, ?_⟩
      intro l' he
      simp only [Option.some.injEq] at he
      subst he
      rcases h0 with h0 | h0
      · exfalso
        obtain ⟨d, hd⟩ := c
        exact hd.1 (List.append_eq_nil_iff.1 h0).2
      · simp only [Bool.or_eq_false_iff] at h0
        exact ⟨h0.1.1, h0.1.2, h0.2, hm0, hs0⟩

/-- **C13** (partial: all requests except two shapes that crash, see the refutations). At every
moment of every history, a search crashes only if it is (1) treated as a plain request on a
location index, has no tokens, only labels, and some visible document matches; or (2) a
request with the Must flag, no keywords, no explicit Must list and an explicit Should list
of which some key is indexed. -/
theorem C13_search_never_crashes_partial {so : Sorter} (hso : SortOk so) (o : IndexerOpts)
    (h : List IdxOp) (hok : ∀ op ∈ h, OpOk op) (s : Indexer)
    (hr : (Indexer.init o).run so h = some s) :
    ∃ tr, Trace h tr ∧ ∀ i ≤ h.length, ∀ si, (Indexer.init o).run so (h.take i) = some si →
      ∀ log2 tokens labels docIds countOnly logic,
        si.lookup log2 tokens labels docIds countOnly logic = none →
        (o.indexType = .locs ∧ tokens = [] ∧ (∃ d, Matches (tr i).vis docIds labels d) ∧
          ∀ l, logic = some l → l.must = false ∧ l.should = false ∧ l.notIn = false ∧
            l.expr.must = [] ∧ l.expr.should = []) ∨
        (tokens = [] ∧ labels = [] ∧
          ∃ l, logic = some l ∧ l.must = true ∧ l.expr.must = [] ∧ l.expr.should ≠ []) := by
  obtain ⟨tr, ht, hall⟩ := prefix_state hso o h hok s hr
  refine ⟨tr, ht, ?_⟩
  intro i hi si hsi log2 tokens labels docIds countOnly logic hl
  obtain ⟨known, hopt, hinv, htr⟩ := hall i hi si hsi
  have ho1 : o.init.indexType = o.indexType := by unfold IndexerOpts.init; split <;> rfl
  rcases lookup_none_core hinv.core hl with ⟨a, b, c, d⟩ | h
  · rw [hopt, ho1] at a
    exact Or.inl ⟨a, b, by rw [htr]; exact c, d⟩
  · exact Or.inr h

/-- **C13 is false**: a label-only search on a location index crashes as soon as a document
with the label is visible. -/
theorem C13_refuted_label_only :
    (runLookup (smallOpts .locs 10) [.add (mkDoc "1" ["lab"]) true] [] [str "lab"]).isNone = true := by
  decide +kernel

/-- **C13 is false**: Must flag, no keywords, explicit Should list. -/
theorem C13_refuted_must_without_keys :
    (runLookup (smallOpts .freqs 10) [.add (mkDoc "1" ["x"]) true] [] [] none
      (some { must := true, expr := ⟨[], [str "x"], []⟩ })).isNone = true := by
  decide +kernel

/-- In every history, the label-only crash happens whenever a visible document matches. -/
theorem C13_label_only_always_crashes {so : Sorter} (hso : SortOk so) (o : IndexerOpts)
    (hit : o.indexType = .locs) (h : List IdxOp) (hok : ∀ op ∈ h, OpOk op) (s : Indexer)
    (hr : (Indexer.init o).run so h = some s) :
    ∃ tr, Trace h tr ∧ ∀ log2 labels docIds countOnly,
      (s.lookup log2 [] labels docIds countOnly = none ↔
        ∃ d, Matches (tr h.length).vis docIds labels d) := by
  obtain ⟨tr, ht, hall⟩ := prefix_state hso o h hok s hr
  refine ⟨tr, ht, ?_⟩
  obtain ⟨known, hopt, hinv, htr⟩ := hall _ le_rfl s (by rw [List.take_length]; exact hr)
  intro log2 labels docIds countOnly
  have ho1 : o.init.indexType = o.indexType := by unfold IndexerOpts.init; split <;> rfl
  rw [htr]
  rcases lookup_labels_only log2 hinv.core labels docIds countOnly (by rw [hopt, ho1, hit]) with
    ⟨h1, h2⟩ | ⟨h1, h2⟩
  · rw [h1]; simp [h2]
  · rw [h1]; simp [h2]

end Riot
