import Verif.Props.Index
import Verif.Props.Logic

/-!
# C101: requests are sets of conditions

The laws a user relies on when combining requests. `s` is the index after any history that did not crash; `idsFor` are the
documents a request returns, in the order of the answer (`none`: the request crashed).
-/

namespace Riot

/-- The ids a lookup returns. -/
def Indexer.idsFor (s : Indexer) (log2 : Rat → Rat) (tokens labels : List Str) (docIds : Option (List Str))
    (logic : Option Logic := none) : Option (List Str) :=
  (s.lookup log2 tokens labels docIds false logic).map (fun r => r.1.map (·.docId))

theorem idsFor_mem {so : Sorter} (hso : SortOk so) {o : IndexerOpts} {h : List IdxOp} (hok : ∀ op ∈ h, OpOk op) {s : Indexer}
    (hr : (Indexer.init o).run so h = some s) :
    ∃ vis : Str → Option DocIndex, ∀ log2 tokens labels docIds ids, s.idsFor log2 tokens labels docIds = some ids →
      ids.Pairwise (· > ·) ∧ ∀ d, d ∈ ids ↔ Matches vis docIds (tokens ++ labels) d := by
  obtain ⟨tr, _, hall⟩ := prefix_state hso o h hok s hr
  obtain ⟨known, _, hinv, _⟩ := hall _ le_rfl s (by rw [List.take_length]; exact hr)
  refine ⟨(absOf s known).vis, fun log2 tokens labels docIds ids hi => ?_⟩
  obtain ⟨r, r1, rfl⟩ := Option.map_eq_some_iff.1 hi
  obtain ⟨_, b, c, _⟩ := lookup_returns log2 hinv.core tokens labels docIds r r1
  exact ⟨b, c⟩

theorem desc_ext {l l' : List Str} (h : l.Pairwise (· > ·)) (h' : l'.Pairwise (· > ·)) (hm : ∀ d, d ∈ l ↔ d ∈ l') : l = l' := by
  have n1 : l.Nodup := h.imp (fun hab => ne_of_gt hab)
  have n2 : l'.Nodup := h'.imp (fun hab => ne_of_gt hab)
  exact ((List.perm_ext_iff_of_nodup n1 n2).2 hm).eq_of_pairwise (fun a b _ _ h1 h2 => absurd h1 (not_lt_of_gt h2)) h h'

/-- **C101** (order and repetition do not matter) Two requests whose words and labels are together the same set, and which
restrict to the same set of documents, return the same documents in the same order. -/
theorem C101_sets {so : Sorter} (hso : SortOk so) {o : IndexerOpts} {h : List IdxOp} (hok : ∀ op ∈ h, OpOk op) {s : Indexer}
    (hr : (Indexer.init o).run so h = some s) {log2 : Rat → Rat} {tokens labels tokens' labels' : List Str}
    {docIds docIds' : Option (List Str)} {ids ids' : List Str}
    (hk : ∀ k, (k ∈ tokens ∨ k ∈ labels) ↔ (k ∈ tokens' ∨ k ∈ labels'))
    (hd : (docIds = none ↔ docIds' = none) ∧ ∀ ds ds', docIds = some ds → docIds' = some ds' → ∀ d, d ∈ ds ↔ d ∈ ds')
    (h1 : s.idsFor log2 tokens labels docIds = some ids) (h2 : s.idsFor log2 tokens' labels' docIds' = some ids') : ids = ids' := by
  obtain ⟨vis, hv⟩ := idsFor_mem hso hok hr
  obtain ⟨a1, a2⟩ := hv _ _ _ _ _ h1
  obtain ⟨b1, b2⟩ := hv _ _ _ _ _ h2
  refine desc_ext a1 b1 (fun d => ?_)
  rw [a2, b2]
  have e1 : (tokens ++ labels ≠ []) ↔ (tokens' ++ labels' ≠ []) := by
    rw [← not_iff_not, not_not, not_not, List.eq_nil_iff_forall_not_mem, List.eq_nil_iff_forall_not_mem]
    simp only [List.mem_append, hk]
  have e2 : Allowed docIds d ↔ Allowed docIds' d := by
    unfold Allowed
    cases docIds with
    | none => simp [hd.1.1 rfl]
    | some ds =>
      cases docIds' with
      | none => simp at hd
      | some ds' => simpa using hd.2 ds ds' rfl rfl d
  unfold Matches
  rw [e1, e2]
  simp only [List.mem_append, hk]

/-- **C101** (AND) A request for the words of two requests returns exactly what both return. -/
theorem C101_and {so : Sorter} (hso : SortOk so) {o : IndexerOpts} {h : List IdxOp} (hok : ∀ op ∈ h, OpOk op) {s : Indexer}
    (hr : (Indexer.init o).run so h = some s) {log2 : Rat → Rat} {t₁ l₁ t₂ l₂ : List Str} {docIds : Option (List Str)}
    {ids ids₁ ids₂ : List Str} (hne₁ : t₁ ++ l₁ ≠ []) (hne₂ : t₂ ++ l₂ ≠ [])
    (h0 : s.idsFor log2 (t₁ ++ t₂) (l₁ ++ l₂) docIds = some ids)
    (h1 : s.idsFor log2 t₁ l₁ docIds = some ids₁) (h2 : s.idsFor log2 t₂ l₂ docIds = some ids₂) :
    ids = ids₁.filter (fun d => decide (d ∈ ids₂)) := by
  obtain ⟨vis, hv⟩ := idsFor_mem hso hok hr
  obtain ⟨c1, c2⟩ := hv _ _ _ _ _ h0
  obtain ⟨a1, a2⟩ := hv _ _ _ _ _ h1
  obtain ⟨_, b2⟩ := hv _ _ _ _ _ h2
  refine desc_ext c1 (a1.sublist List.filter_sublist) (fun d => ?_)
  simp only [List.mem_filter, decide_eq_true_eq, a2, b2, c2]
  unfold Matches
  constructor
  · rintro ⟨_, ha, doc, e, hall⟩
    refine ⟨⟨hne₁, ha, doc, e, fun k hk => hall k ?_⟩, hne₂, ha, doc, e, fun k hk => hall k ?_⟩
    all_goals simp only [List.mem_append] at hk ⊢; tauto
  · rintro ⟨⟨_, ha, doc, e, h1⟩, _, _, doc', e', h2⟩
    rw [e, Option.some.injEq] at e'
    subst e'
    refine ⟨fun hn => hne₁ ?_, ha, doc, e, fun k hk => ?_⟩
    · simp only [List.append_eq_nil_iff] at hn ⊢
      tauto
    · simp only [List.mem_append] at hk h1 h2
      rcases hk with (hk | hk) | hk | hk
      · exact h1 k (.inl hk)
      · exact h2 k (.inl hk)
      · exact h1 k (.inr hk)
      · exact h2 k (.inr hk)

/-- **C101** (narrowing) Adding words or labels to a request never adds a document, and keeps the order. -/
theorem C101_narrows {so : Sorter} (hso : SortOk so) {o : IndexerOpts} {h : List IdxOp} (hok : ∀ op ∈ h, OpOk op) {s : Indexer}
    (hr : (Indexer.init o).run so h = some s) {log2 : Rat → Rat} {tokens labels tokens' labels' : List Str}
    {docIds : Option (List Str)} {ids ids' : List Str} (hne : tokens ++ labels ≠ [])
    (hk : ∀ k, (k ∈ tokens ∨ k ∈ labels) → (k ∈ tokens' ∨ k ∈ labels'))
    (h1 : s.idsFor log2 tokens labels docIds = some ids) (h2 : s.idsFor log2 tokens' labels' docIds = some ids') :
    ids'.Sublist ids := by
  obtain ⟨vis, hv⟩ := idsFor_mem hso hok hr
  obtain ⟨a1, a2⟩ := hv _ _ _ _ _ h1
  obtain ⟨b1, b2⟩ := hv _ _ _ _ _ h2
  have : ids' = ids.filter (fun d => decide (d ∈ ids')) := by
    refine desc_ext b1 (a1.sublist List.filter_sublist) (fun d => ?_)
    simp only [List.mem_filter, decide_eq_true_eq, a2, b2]
    refine ⟨fun hm => ⟨?_, hm⟩, fun hm => hm.2⟩
    obtain ⟨_, ha, doc, e, hall⟩ := hm
    refine ⟨hne, ha, doc, e, fun k hk' => hall k ?_⟩
    simp only [List.mem_append] at hk' ⊢
    exact hk k hk'
  rw [this]
  exact List.filter_sublist

/-- **C101** (restriction) Restricting a plain request to a set of documents is filtering its answer. -/
theorem C101_restrict {so : Sorter} (hso : SortOk so) {o : IndexerOpts} {h : List IdxOp} (hok : ∀ op ∈ h, OpOk op) {s : Indexer}
    (hr : (Indexer.init o).run so h = some s) {log2 : Rat → Rat} {tokens labels ds ids ids' : List Str}
    (h1 : s.idsFor log2 tokens labels none = some ids) (h2 : s.idsFor log2 tokens labels (some ds) = some ids') :
    ids' = ids.filter (fun d => decide (d ∈ ds)) := by
  obtain ⟨vis, hv⟩ := idsFor_mem hso hok hr
  obtain ⟨a1, a2⟩ := hv _ _ _ _ _ h1
  obtain ⟨b1, b2⟩ := hv _ _ _ _ _ h2
  refine desc_ext b1 (a1.sublist List.filter_sublist) (fun d => ?_)
  simp only [List.mem_filter, decide_eq_true_eq, a2, b2]
  simp only [Matches, Allowed, Option.some.injEq, forall_eq', reduceCtorEq, false_implies, implies_true, true_and]
  tauto

/-- The plain answer for one key: `d` is in it. -/
def Indexer.Has1 (s : Indexer) (log2 : Rat → Rat) (k d : Str) : Prop :=
  ∃ ids, s.idsFor log2 [k] [] none = some ids ∧ d ∈ ids

/-- **C101** (partial: directly after a refresh) Logic requests agree with plain ones: Must with the keys `M`, Should with the
keys `S` and NotIn with the keys `N` gives the documents of the plain answer for `M` that a plain request for some
key of `S` returns (if there is a Should clause) and no plain request for a key of `N` returns; without a Must clause, the documents
that a plain request for some key of `S` and no plain request for a key of `N` returns. -/
theorem C101_logic_partial {so : Sorter} (hso : SortOk so) {o : IndexerOpts} {h : List IdxOp} (hok : ∀ op ∈ h, OpOk op)
    {s : Indexer} (hr : (Indexer.init o).run so h = some s) (href : JustRefreshed h) (log2 : Rat → Rat) {M S N : List Str}
    (hask : M ≠ [] ∨ S ≠ []) :
    ∃ ids, s.idsFor log2 [] [] none (some { expr := { must := M, should := S, notIn := N } }) = some ids ∧ ids.Nodup ∧
      (M ≠ [] → ids.Pairwise (· > ·) ∧ ∃ all, s.idsFor log2 M [] none = some all ∧ ∀ d ∈ ids, d ∈ all) ∧
      ∀ d, d ∈ ids ↔ (∀ k ∈ M, s.Has1 log2 k d) ∧ (S ≠ [] → ∃ k ∈ S, s.Has1 log2 k d) ∧ ∀ k ∈ N, ¬ s.Has1 log2 k d := by
  obtain ⟨tr, _, hall⟩ := prefix_state hso o h hok s hr
  obtain ⟨known, _, hinv, _⟩ := hall _ le_rfl s (by rw [List.take_length]; exact hr)
  have hvk := just_refreshed_vis hr hinv href
  have hone : ∀ ks : List Str, ks ≠ [] → ∃ ids, s.idsFor log2 ks [] none = some ids ∧
      ∀ d, d ∈ ids ↔ ∃ doc, known.get d = some doc ∧ ∀ k ∈ ks, k ∈ doc.keys := by
    intro ks hne
    obtain ⟨L, l1, l2, l3⟩ := lookup_spec log2 hinv.core ks [] none false (fun _ => hne)
    obtain ⟨_, _, c, _⟩ := lookup_returns log2 hinv.core ks [] none _ l1
    refine ⟨_, by unfold Indexer.idsFor; rw [l1]; rfl, fun d => ?_⟩
    rw [c d, hvk]
    simp [Matches, Allowed, hne]
  have h1 : ∀ k d, s.Has1 log2 k d ↔ ∃ doc, known.get d = some doc ∧ k ∈ doc.keys := by
    intro k d
    obtain ⟨ids, i1, i2⟩ := hone [k] (by simp)
    unfold Indexer.Has1
    constructor
    · rintro ⟨ids', j1, j2⟩
      rw [i1, Option.some.injEq] at j1
      subst j1
      simpa using (i2 d).1 j2
    · intro hx
      exact ⟨ids, i1, (i2 d).2 (by simpa using hx)⟩
  have hz : ∀ d doc, known.get d = some doc → s.numDocs ≠ 0 := by
    intro d doc hd h0
    have := vis_none_of_zero hinv.core h0 (d := d)
    rw [hvk, hd] at this
    simp at this
  have hclear : ({ expr := { must := M, should := S, notIn := N } } : Logic).Clear := clear_of_lists rfl rfl
  have hck : ∀ K : List Str, clauseKeys ([] ++ [] : List Str) false K = if K = [] then none else some K := by
    intro K; unfold clauseKeys; by_cases hK : K = [] <;> simp [hK]
  have hkm : ∀ d, (M ≠ [] ∨ S ≠ []) → (KMatches known (if M = [] then none else some M) (if S = [] then none else some S)
      (if N = [] then none else some N) d ↔
      (∀ k ∈ M, s.Has1 log2 k d) ∧ (S ≠ [] → ∃ k ∈ S, s.Has1 log2 k d) ∧ ∀ k ∈ N, ¬ s.Has1 log2 k d) := by
    intro d hMS
    have aux : ∀ (K : List Str) (P : List Str → Prop), (∀ ks, (if K = [] then none else some K) = some ks → P ks) ↔ (K ≠ [] → P K) := by
      intro K P; by_cases hK : K = [] <;> simp [hK]
    show LogicMatches known.get _ _ _ d ↔ _
    unfold LogicMatches
    simp only [aux, h1]
    constructor
    · rintro ⟨doc, e, a, b, c⟩
      refine ⟨fun k hk => ⟨doc, e, a (List.ne_nil_of_mem hk) k hk⟩, fun hS => ?_, fun k hk hx => ?_⟩
      · obtain ⟨k, k1, k2⟩ := b hS
        exact ⟨k, k1, doc, e, k2⟩
      · obtain ⟨doc', e', k2⟩ := hx
        rw [e, Option.some.injEq] at e'
        subst e'
        exact c (List.ne_nil_of_mem hk) k hk k2
    · rintro ⟨a, b, c⟩
      have : ∃ doc, known.get d = some doc := by
        rcases hMS with hM | hS
        · obtain ⟨k, hk⟩ := List.exists_mem_of_ne_nil _ hM
          obtain ⟨doc, e, _⟩ := a k hk
          exact ⟨doc, e⟩
        · obtain ⟨k, _, doc, e, _⟩ := b hS
          exact ⟨doc, e⟩
      obtain ⟨doc, e⟩ := this
      simp only [e, Option.some.injEq, exists_eq_left'] at a b c
      exact ⟨doc, e, fun _ => a, b, fun _ => c⟩
  by_cases hM : M = []
  · have hS : S ≠ [] := by rcases hask with h | h; exact absurd hM h; exact h
    subst hM
    obtain ⟨docs, d1, d2, d3, d4⟩ := should_state log2 hinv.core [] [] none hclear (by simp [clauseKeys]) (S := S)
      (by rw [hck, if_neg hS])
    refine ⟨_, by unfold Indexer.idsFor; rw [d1]; rfl, d2, fun h => absurd rfl h, fun d => ?_⟩
    have hk := hkm d (.inr hS)
    rw [if_pos rfl, if_neg hS] at hk
    rw [hck] at d3 d4
    refine ⟨fun hd => hk.1 (d3 d hd), fun hx => ?_⟩
    obtain ⟨doc, e, _⟩ := id (hk.2 hx)
    exact d4 (hz d doc e) d (hk.2 hx)
  · obtain ⟨docs, d1, d2, d3, d4⟩ := must_state log2 hinv.core [] [] none hclear (M := M) (by rw [hck, if_neg hM]) hM
    obtain ⟨all, a1, a2⟩ := hone M hM
    rw [hck, hck] at d3 d4
    refine ⟨_, by unfold Indexer.idsFor; rw [d1]; rfl, d2.imp (fun hab => ne_of_gt hab), fun _ => ⟨d2, all, a1, fun d hd => ?_⟩, fun d => ?_⟩
    · obtain ⟨doc, e, x, _⟩ := (d3 d hd).2
      exact (a2 d).2 ⟨doc, e, x M rfl⟩
    · have hk := hkm d (.inl hM)
      rw [if_neg hM] at hk
      refine ⟨fun hd => hk.1 (d3 d hd).2, fun hx => ?_⟩
      obtain ⟨doc, e, _⟩ := id (hk.2 hx)
      exact d4 (hz d doc e) d (by simp [Allowed]) (hk.2 hx)

/-- The hypotheses hold: three documents, one updated and one removed, refreshed. -/
example : JustRefreshed demoHistory ∧ (∀ op ∈ demoHistory, OpOk op) ∧
    ((Indexer.init (smallOpts .locs 10)).run insSort demoHistory).isSome := by
  refine ⟨⟨_, rfl, by decide +kernel⟩, by decide +kernel, by decide +kernel⟩

/-- Both sides of the laws are not trivial there. -/
example : ((Indexer.init (smallOpts .locs 10)).run insSort demoHistory).map (fun s =>
    [s.idsFor (fun x => x) [str "b"] [] none, s.idsFor (fun x => x) [str "d", str "b", str "d"] [] none,
      s.idsFor (fun x => x) [str "b"] [str "d"] none, s.idsFor (fun x => x) [str "b"] [] (some [str "2"]),
      s.idsFor (fun x => x) [] [] none (some { expr := { must := [str "b"], should := [], notIn := [str "d"] } }),
      s.idsFor (fun x => x) [] [] none (some { expr := { must := [], should := [str "d", str "c"], notIn := [] } })]) =
    some [some [str "2", str "1"], some [str "1"], some [str "1"], some [str "2"], some [str "2"], some [str "1", str "2"]] := by decide +kernel

/-- **C101** (refuted between refreshes) While a removal is pending, Must "x" without "y" returns a document that the plain
request for "x" does not return. -/
theorem C101_refuted_pending : ∃ s : Indexer,
    (Indexer.init (smallOpts .locs 10)).run insSort
      [.add (mkDoc "1" ["x"]) false, .add (mkDoc "2" ["z"]) true, .remove (str "1") false] = some s ∧
    s.idsFor (fun x => x) [str "x"] [] none = some [] ∧
    s.idsFor (fun x => x) [] [] none (some { expr := { must := [str "x"], should := [], notIn := [str "y"] } }) = some [str "1"] := by
  obtain ⟨s, hs⟩ := Option.isSome_iff_exists.1 (show ((Indexer.init (smallOpts .locs 10)).run insSort
      [.add (mkDoc "1" ["x"]) false, .add (mkDoc "2" ["z"]) true, .remove (str "1") false]).isSome by decide +kernel)
  have hb : (((Indexer.init (smallOpts .locs 10)).run insSort
      [.add (mkDoc "1" ["x"]) false, .add (mkDoc "2" ["z"]) true, .remove (str "1") false]).map (fun s =>
      (s.idsFor (fun x => x) [str "x"] [] none, s.idsFor (fun x => x) [] [] none
        (some { expr := { must := [str "x"], should := [], notIn := [str "y"] } })))) = some (some [], some [str "1"]) := by
    decide +kernel
  rw [hs] at hb
  simp only [Option.map_some, Option.some.injEq, Prod.mk.injEq] at hb
  exact ⟨s, hs, hb⟩

end Riot
