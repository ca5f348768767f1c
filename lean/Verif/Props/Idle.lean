import Verif.Props.History

/-!
# C103: calls without effect

Whatever happened before (any history, no discipline assumed), from a refreshed index on: flushing again, removing a document that is
not there, indexing or removing the same document twice, and indexing a new document and removing it, leave no trace in any answer.
-/

namespace Riot

/-- The two indexes give the same answers to every question the API can ask. -/
def Indexer.SameAnswers (s s' : Indexer) : Prop :=
  (∀ d, s.hasDoc d = s'.hasDoc d) ∧
  ∀ (log2 : Rat → Rat) (tokens labels : List Str) (docIds : Option (List Str)) (countOnly : Bool) (l : Option Logic),
    s.lookup log2 tokens labels docIds countOnly l = s'.lookup log2 tokens labels docIds countOnly l

/-- The index was reached by a history, of any kind, whose last call was a refresh (a forced addition or a Flush). -/
def Indexer.JustRefreshedBy (so : Sorter) (o : IndexerOpts) (s : Indexer) : Prop :=
  ∃ (h : List IdxOp) (op : IdxOp), (∀ x ∈ h ++ [op], OpOk x) ∧ op.refreshes = true ∧
    (Indexer.init o).run so (h ++ [op]) = some s

theorem addCache_of_pend {s : Indexer} {known : GoMap DocIndex} (h : ∀ d x, ¬ (absOf s known).pend d x) : s.addCache = [] := by
  rw [List.eq_nil_iff_forall_not_mem]
  exact fun x hx => h x.docId x ⟨hx, rfl⟩

theorem refresh_pend {op : IdxOp} (hop : op.refreshes = true) {a b : AbsIndex} (h : AbsStep op a b) (d : Str) (x : DocIndex) :
    ¬ b.pend d x := by
  cases op with
  | add doc f => simp only [IdxOp.refreshes] at hop; subst hop; exact AbsCommit.forced h d x
  | flush f => simp only [IdxOp.refreshes] at hop; subst hop; exact AbsCommit.forced h d x
  | remove id f => cases hop

/-- What a refreshed index looks like. -/
theorem refreshed_state {so : Sorter} (hso : SortOk so) {o : IndexerOpts} {s : Indexer} (h : s.JustRefreshedBy so o) :
    ∃ known, Inv s known ∧ s.addCache = [] ∧ s.removeCache = [] ∧ s.opts = o.init := by
  obtain ⟨h, op, hok, hop, hr⟩ := h
  have hstep := hr
  rw [Indexer.run_snoc, Option.bind_eq_some_iff] at hstep
  obtain ⟨s0, h0, hstep⟩ := hstep
  obtain ⟨e0, k0, i0⟩ := run_inv hso o h (fun x hx => hok x (by simp [hx])) s0 h0
  obtain ⟨k, i, ab⟩ := step_refines hso i0 op (hok op (by simp)) hstep
  obtain ⟨e, _⟩ := run_inv hso o _ hok s hr
  exact ⟨k, i, addCache_of_pend (refresh_pend hop ab), step_forced hop hstep, e⟩

theorem sameAnswers_of {s s' : Indexer} {known known' : GoMap DocIndex} (h1 : Inv s known) (h2 : Inv s' known')
    (r1 : s.removeCache = []) (r2 : s'.removeCache = []) (ho : s.opts = s'.opts) (h : ∀ d, known.get d = known'.get d) :
    s.SameAnswers s' := by
  have ha : Alike s s' := alike_of_same h1 h2 r1 r2 (by rw [ho]) (by rw [ho]) (fun d => by
    rw [h d]
    cases known'.get d with
    | none => exact Or.inl ⟨rfl, rfl⟩
    | some x => exact Or.inr ⟨x, x, rfl, rfl, rfl, rfl, .refl _⟩)
  exact ⟨fun d => by simp only [Indexer.hasDoc, ha.state], fun _ _ _ _ _ _ => lookup_alike ha ..⟩

/-- A forced addition to an index with an empty cache, or a Flush of one, and what it leaves. -/
theorem add_forced {so : Sorter} (hso : SortOk so) {s : Indexer} {known : GoMap DocIndex} (hi : Inv s known) (ha : s.addCache = [])
    (hsize : 0 < s.opts.docCacheSize) (doc : DocIndex) (hok : OpOk (.add doc true)) :
    ∃ s' known', s.step so (.add doc true) = some s' ∧ Inv s' known' ∧ s'.addCache = [] ∧ s'.removeCache = [] ∧ s'.opts = s.opts ∧
      ∀ d, known'.get d = if d = doc.docId then some doc else (absOf s known).vis d := by
  obtain ⟨s', known', h1, h2, h3, h4, _⟩ := step_spec hso hi (.add doc true) hok (fun _ => by rw [ha]; exact hsize)
  have hr := step_forced (op := .add doc true) rfl h1
  refine ⟨s', known', h1, h2, addCache_of_pend (refresh_pend (op := .add doc true) rfl h3), hr, h4, fun d => ?_⟩
  rw [← vis_eq_known h2 hr]
  have h3 : AbsCommit true ⟨(absOf s known).vis, fun d x => (absOf s known).pend d x ∨ (x = doc ∧ d = doc.docId)⟩ (absOf s' known') := h3
  have hp : ∀ d x, ¬ (absOf s known).pend d x := by intro d x hx; have := hx.1; rw [ha] at this; cases this
  rcases h3 d with ⟨e, _, hn⟩ | ⟨e, _⟩ | ⟨v, hv, e, _⟩
  · rw [e, if_neg]
    rintro rfl
    exact hn rfl doc (Or.inr ⟨rfl, rfl⟩)
  · cases e
  · rcases hv with hv | ⟨rfl, hd⟩
    · exact absurd hv (hp _ _)
    · rw [e, if_pos hd]

theorem flush_forced {so : Sorter} (hso : SortOk so) {s : Indexer} {known : GoMap DocIndex} (hi : Inv s known) (ha : s.addCache = []) :
    ∃ s' known', s.step so (.flush true) = some s' ∧ Inv s' known' ∧ s'.addCache = [] ∧ s'.removeCache = [] ∧ s'.opts = s.opts ∧
      ∀ d, known'.get d = (absOf s known).vis d := by
  obtain ⟨s', known', h1, h2, h3, h4, _⟩ := step_spec hso hi (.flush true) trivial (fun h => by obtain ⟨_, _, h⟩ := h; cases h)
  have hr := step_forced (op := .flush true) rfl h1
  refine ⟨s', known', h1, h2, addCache_of_pend (refresh_pend (op := .flush true) rfl h3), hr, h4, fun d => ?_⟩
  rw [← vis_eq_known h2 hr]
  have h3 : AbsCommit true (absOf s known) (absOf s' known') := h3
  rcases h3 d with ⟨e, _⟩ | ⟨e, _⟩ | ⟨v, hv, _⟩
  · exact e
  · cases e
  · have := hv.1; rw [ha] at this; cases this

theorem remove_any {so : Sorter} (hso : SortOk so) {s : Indexer} {known : GoMap DocIndex} (hi : Inv s known) (ha : s.addCache = [])
    (id : Str) (f : Bool) :
    ∃ s' known', s.step so (.remove id f) = some s' ∧ Inv s' known' ∧ s'.addCache = [] ∧ s'.opts = s.opts ∧
      ∀ d, (absOf s' known').vis d = if d = id ∧ id ≠ str "0" then none else (absOf s known).vis d := by
  obtain ⟨s', known', h1, h2, h3, h4, _⟩ := step_spec hso hi (.remove id f) trivial (fun h => by obtain ⟨_, _, h⟩ := h; cases h)
  have h3 : (∀ d, (absOf s' known').vis d = if d = id ∧ id ≠ str "0" then none else (absOf s known).vis d) ∧
    ∀ d x, (absOf s' known').pend d x ↔ (absOf s known).pend d x := h3
  refine ⟨s', known', h1, h2, addCache_of_pend (known := known') (fun d x hx => ?_), h4, h3.1⟩
  have := ((h3.2 d x).1 hx).1
  rw [ha] at this; cases this

theorem hasDoc_false {s : Indexer} {known : GoMap DocIndex} (hi : Inv s known) (hr : s.removeCache = []) {d : Str}
    (h : s.hasDoc d = false) : s.docsState.get d = none ∧ known.get d = none := by
  have hs := inv_state hi hr d
  cases hk : known.get d with
  | none => rw [hk] at hs; exact ⟨by simpa using hs, rfl⟩
  | some x =>
    rw [hk] at hs
    have : s.docsState.get d = some 0 := by simpa using hs
    rw [Indexer.hasDoc, this] at h
    cases h

/-- **C103** Flushing an index that was just refreshed, forced or not, changes nothing at all. -/
theorem C103_flush_again {so : Sorter} (hso : SortOk so) {o : IndexerOpts} {s : Indexer} (h : s.JustRefreshedBy so o) (f : Bool) :
    s.step so (.flush f) = some s := by
  obtain ⟨known, _, ha, hr, _⟩ := refreshed_state hso h
  have hnil : so.docs [] = [] := List.perm_nil.1 (hso.docs_perm [])
  obtain ⟨st, tb, ac, rc, n, tl, tk, op⟩ := s
  simp only at ha hr
  subst ha hr
  simp [Indexer.step, Indexer.addDocToCache, flushAdds, scanCache, Indexer.removeDocToCache, registerRemoval, hnil, Indexer.addDocs,
    addDocsLoop, bind, Option.bind, pure]

/-- **C103** Removing a document the index does not hold changes nothing at all. -/
theorem C103_remove_absent {so : Sorter} (hso : SortOk so) {o : IndexerOpts} {s : Indexer} (h : s.JustRefreshedBy so o) {d : Str}
    (hd : s.hasDoc d = false) (f : Bool) : s.step so (.remove d f) = some s := by
  obtain ⟨known, hi, ha, hr, _⟩ := refreshed_state hso h
  have := (hasDoc_false hi hr hd).1
  simp only [Indexer.step, Indexer.removeDocToCache, registerRemoval, this]
  simp [hr, bind, Option.bind, pure]

/-- **C103** Adding the same document twice (forced) is adding it once: the second call succeeds and no answer tells the difference. -/
theorem C103_add_twice {so : Sorter} (hso : SortOk so) {o : IndexerOpts} {s : Indexer} (h : s.JustRefreshedBy so o)
    (doc : DocIndex) (hok : OpOk (.add doc true)) :
    ∃ s1 s2, s.step so (.add doc true) = some s1 ∧ s1.step so (.add doc true) = some s2 ∧ s1.SameAnswers s2 := by
  obtain ⟨known, hi, ha, hr, ho⟩ := refreshed_state hso h
  have hsize : 0 < s.opts.docCacheSize := by rw [ho]; exact size_pos o
  obtain ⟨s1, k1, a1, a2, a3, a4, a5, a6⟩ := add_forced hso hi ha hsize doc hok
  obtain ⟨s2, k2, b1, b2, b3, b4, b5, b6⟩ := add_forced hso a2 a3 (by rw [a5]; exact hsize) doc hok
  refine ⟨s1, s2, a1, b1, sameAnswers_of a2 b2 a4 b4 b5.symm (fun d => ?_)⟩
  rw [b6, vis_eq_known a2 a4, a6]
  split <;> rfl

/-- **C103** Removing the same document twice and flushing is removing it once and flushing. -/
theorem C103_remove_twice {so : Sorter} (hso : SortOk so) {o : IndexerOpts} {s : Indexer} (h : s.JustRefreshedBy so o)
    (d : Str) (f f' : Bool) :
    ∃ s1 s2, s.run so [.remove d f, .flush true] = some s1 ∧ s.run so [.remove d f, .remove d f', .flush true] = some s2 ∧
      s1.SameAnswers s2 ∧ (d ≠ str "0" → s1.hasDoc d = false) := by
  obtain ⟨known, hi, ha, hr, ho⟩ := refreshed_state hso h
  obtain ⟨t, k, a1, a2, a3, a4, a5⟩ := remove_any hso hi ha d f
  obtain ⟨s1, k1, b1, b2, b3, b4, b5, b6⟩ := flush_forced hso a2 a3
  obtain ⟨t', k', c1, c2, c3, c4, c5⟩ := remove_any hso a2 a3 d f'
  obtain ⟨s2, k2, d1, d2, d3, d4, d5, d6⟩ := flush_forced hso c2 c3
  refine ⟨s1, s2, by simp [Indexer.run, a1, b1], by simp [Indexer.run, a1, c1, d1], sameAnswers_of b2 d2 b4 d4 ?_ (fun x => ?_), fun h0 => ?_⟩
  · rw [b5, d5, c4]
  · rw [b6, d6, c5, a5]; split <;> rfl
  · have hk : k1.get d = none := by rw [b6, a5, if_pos ⟨rfl, h0⟩]
    have := inv_state b2 b4 d
    rw [hk] at this
    simp only [Option.isSome_none, Bool.false_eq_true, if_false] at this
    rw [Indexer.hasDoc, this]

/-- **C103** A document the index does not hold, added and removed again (and flushed), leaves no trace in any answer. -/
theorem C103_undo {so : Sorter} (hso : SortOk so) {o : IndexerOpts} {s : Indexer} (h : s.JustRefreshedBy so o)
    (doc : DocIndex) (hok : OpOk (.add doc true)) (h0 : doc.docId ≠ str "0") (hd : s.hasDoc doc.docId = false) (f : Bool) :
    ∃ s', s.run so [.add doc true, .remove doc.docId f, .flush true] = some s' ∧ s.SameAnswers s' := by
  obtain ⟨known, hi, ha, hr, ho⟩ := refreshed_state hso h
  have hsize : 0 < s.opts.docCacheSize := by rw [ho]; exact size_pos o
  obtain ⟨s1, k1, a1, a2, a3, a4, a5, a6⟩ := add_forced hso hi ha hsize doc hok
  obtain ⟨t, k, b1, b2, b3, b4, b5⟩ := remove_any hso a2 a3 doc.docId f
  obtain ⟨s2, k2, c1, c2, c3, c4, c5, c6⟩ := flush_forced hso b2 b3
  refine ⟨s2, by simp [Indexer.run, a1, b1, c1], sameAnswers_of hi c2 hr c4 (by rw [c5, b4, a5]) (fun d => ?_)⟩
  rw [c6, b5, vis_eq_known a2 a4, a6, vis_eq_known hi hr]
  by_cases e : d = doc.docId
  · subst e
    rw [if_pos ⟨rfl, h0⟩, (hasDoc_false hi hr hd).2]
  · rw [if_neg (fun x => e x.1), if_neg e]

/-! ## The hypotheses can be met: an index after an undisciplined history (a document added twice without a refresh, then removed
and added again), refreshed by a Flush, that holds two documents -/

def messyHistory : List IdxOp :=
  [.add (mkDoc "1" ["a"]) false, .add (mkDoc "1" ["b"]) false, .remove (str "1") false, .add (mkDoc "2" ["b"]) true,
   .remove (str "2") false, .add (mkDoc "2" ["c"]) false]

theorem messy_refreshed : ∃ s : Indexer, s.JustRefreshedBy insSort (smallOpts .freqs 10) ∧ s.hasDoc (str "1") = true ∧
    s.hasDoc (str "2") = true ∧ s.hasDoc (str "3") = false ∧ ¬ Disciplined messyHistory := by
  have hr : ((Indexer.init (smallOpts .freqs 10)).run insSort (messyHistory ++ [.flush true])).isSome = true := by decide +kernel
  obtain ⟨s, hs⟩ := Option.isSome_iff_exists.1 hr
  have key : ∀ d b, ((Indexer.init (smallOpts .freqs 10)).run insSort (messyHistory ++ [.flush true])).map (·.hasDoc d) = some b →
      s.hasDoc d = b := by
    intro d b h
    rw [hs] at h
    simpa using h
  refine ⟨s, ⟨messyHistory, .flush true, ?_, rfl, hs⟩, key _ _ (by decide +kernel), key _ _ (by decide +kernel),
    key _ _ (by decide +kernel), fun h => ?_⟩
  · have : (messyHistory ++ [IdxOp.flush true]).all (fun op => decide (OpOk op)) = true := by decide +kernel
    exact fun x hx => of_decide_eq_true (List.all_eq_true.1 this x hx)
  · have := h.1 [] (.add (mkDoc "1" ["a"]) false) [] (.add (mkDoc "1" ["b"]) false)
      [.remove (str "1") false, .add (mkDoc "2" ["b"]) true, .remove (str "2") false, .add (mkDoc "2" ["c"]) false] rfl
      ⟨mkDoc "1" ["a"], false, rfl, rfl⟩
    simp [IdxOp.refreshes] at this

/-- The new document "3" added and removed leaves no trace in the messy index. -/
example : ∃ s s' : Indexer, s.JustRefreshedBy insSort (smallOpts .freqs 10) ∧ s.hasDoc (str "1") = true ∧
    s.run insSort [.add (mkDoc "3" ["b"]) true, .remove (str "3") false, .flush true] = some s' ∧ s.SameAnswers s' := by
  obtain ⟨s, h1, h2, _, h3, _⟩ := messy_refreshed
  obtain ⟨s', h4, h5⟩ := C103_undo insSort_ok h1 (mkDoc "3" ["b"]) (by decide +kernel) (by decide +kernel) h3 false
  exact ⟨s, s', h1, h2, h4, h5⟩

end Riot
