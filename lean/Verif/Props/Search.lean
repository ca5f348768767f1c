import Verif.Props.Index
import Verif.Proofs.LogicLookup
import Verif.Proofs.Proximity
import Mathlib.Tactic.NormNum
import Mathlib.Tactic.Linarith

/-!
# Properties of searching: C03, C09, C10, C11, C13 (plain requests)
-/

namespace Riot

open Lean Elab Tactic Meta in
/-- Close `a = b` with `Eq.refl a`, leaving the definitional check to the kernel (used to
evaluate concrete histories with an abstract logarithm). -/
elab "kernel_rfl" : tactic => do
  let g ← getMainGoal
  let t ← instantiateMVars (← g.getType)
  let some (_, lhs, _) := t.eq? | throwError "not an equation"
  g.assign (← mkEqRefl lhs)

/-! ## C03 -/

theorem lookupLoop_count (log2 : Rat → Rat) (s : Indexer) (avg : Rat) (row0 : KeywordIndices)
    (tokens : List Str) (docIds : Option (List Str)) :
    ∀ (p : Nat) (rows : List (KeywordIndices × Nat)) (l : List IndexedDoc),
      lookupLoop log2 s avg row0 tokens docIds true p rows ([], l.length) =
        (lookupLoop log2 s avg row0 tokens docIds false p rows (l, l.length)).map
          (fun r => ([], r.1.length)) ∧
      ∀ r, lookupLoop log2 s avg row0 tokens docIds false p rows (l, l.length) = some r →
        r.2 = r.1.length := by
  intro p
  induction p with
  | zero => intro rows l; simp [lookupLoop]
  | succ p ih =>
    intro rows l
    simp only [lookupLoop]
    cases row0.docIds[p]? with
    | none => simp
    | some base =>
      simp only
      split
      · exact ih rows l
      · cases probeRows rows base with
        | none => simp
        | some pr =>
          cases pr with
          | stop => simp
          | miss rows => exact ih rows l
          | hit rows =>
            simp only
            split
            · exact ih rows l
            · cases scoreDoc log2 s avg base (((row0, p) :: rows).take tokens.length)
                (tokens.map List.length) with
              | none => simp
              | some doc =>
                simp only [if_true, Bool.false_eq_true, if_false]
                have := ih rows (l ++ [doc])
                simpa using this

/-- **C03** Whatever the state of the index and whatever the request (plain or logic), a
count-only search returns no documents and the number of documents the same search returns
without the count-only flag; one crashes iff the other does. -/
theorem C03_count_only (log2 : Rat → Rat) (s : Indexer) (tokens labels : List Str)
    (docIds : Option (List Str)) (logic : Option Logic) :
    s.lookup log2 tokens labels docIds true logic =
      (s.lookup log2 tokens labels docIds false logic).map (fun r => ([], r.1.length)) ∧
    ∀ docs n, s.lookup log2 tokens labels docIds false logic = some (docs, n) → n = docs.length := by
  have hint : ∀ kw, s.internalLookup log2 kw tokens docIds true =
      (s.internalLookup log2 kw tokens docIds false).map (fun r => ([], r.1.length)) ∧
      ∀ r, s.internalLookup log2 kw tokens docIds false = some r → r.2 = r.1.length := by
    intro kw
    unfold Indexer.internalLookup
    cases collectRows s.table kw with
    | none => simp
    | some rows =>
      cases rows with
      | nil => simp
      | cons row0 rows => exact lookupLoop_count log2 s _ row0 tokens docIds _ _ []
  have hids : ∀ L : List Str, idsResult L true = ([], (idsResult L false).1.length) ∧
      (idsResult L false).2 = (idsResult L false).1.length := by
    intro L; simp [idsResult]
  have hlog : ∀ kw l, s.logicLookup docIds true kw l =
      (s.logicLookup docIds false kw l).map (fun r => ([], r.1.length)) ∧
      ∀ r, s.logicLookup docIds false kw l = some r → r.2 = r.1.length := by
    intro kw l
    have hb : ∀ o : Option (List Str), (o.bind (fun ids => some (idsResult ids true))) =
        (o.bind (fun ids => some (idsResult ids false))).map (fun r => ([], r.1.length)) ∧
        ∀ r, o.bind (fun ids => some (idsResult ids false)) = some r → r.2 = r.1.length := by
      intro o; cases o with
      | none => simp
      | some L => simp [(hids L).1, (hids L).2]
    unfold Indexer.logicLookup
    simp only
    split
    · simp
    · generalize (if (l.should || decide (l.expr.should.length > 0)) = true then
        foundRows s.table (if l.expr.should.length > 0 then l.expr.should else
          if l.expr.must.length > 0 then l.expr.must else kw) else []) = sh
      by_cases h1 : ((l.should || decide (l.expr.should.length > 0)) && sh.length == 0) = true
      · simp only [if_pos h1]; simp
      · simp only [if_neg h1]
        by_cases h2 : (l.must || decide (l.expr.must.length > 0)) = true
        · simp only [if_pos h2]
          split
          · simp
          · exact hb _
        · simp only [if_neg h2]
          by_cases h3 : (l.should || decide (l.expr.should.length > 0)) = true
          · simp only [if_pos h3]; exact hb _
          · simp only [if_neg h3]; exact hb _
  suffices H : s.lookup log2 tokens labels docIds true logic =
      (s.lookup log2 tokens labels docIds false logic).map (fun r => ([], r.1.length)) ∧
      ∀ r, s.lookup log2 tokens labels docIds false logic = some r → r.2 = r.1.length from
    ⟨H.1, fun docs n h => H.2 _ h⟩
  unfold Indexer.lookup
  split
  · simp
  · cases logic with
    | none => exact hint _
    | some l =>
      simp only
      split
      · exact hlog _ l
      · split
        · exact hlog _ l
        · exact hint _

example : idsOf (runLookup (smallOpts .locs 10) demoHistory [str "b"] [] none
    (some { should := true })) = some [str "1", str "2"] := by decide +kernel

/-! ## C09, C10 -/

/-- A document with explicit locations. -/
def locDoc (id : String) (kws : List (String × List Int)) : DocIndex where
  docId := str id
  tokenLen := 3
  keywords := kws.map (fun k => ⟨str k.1, 1, k.2⟩)

theorem proxCost_nonneg : ∀ (ps : List Int) (ls : List Nat), 0 ≤ proxCost ps ls
  | [], _ => by simp [proxCost]
  | [_], _ => by simp [proxCost]
  | p :: q :: ps, [] => by simp [proxCost]
  | p :: q :: ps, l :: ls => by
    have := proxCost_nonneg (q :: ps) ls
    simp only [proxCost]
    have := abs_nonneg (q - p - l)
    omega

/-- Integers that fit the result field keep their value. -/
theorem int32_small {x : Int} (h1 : -2 ^ 31 ≤ x) (h2 : x < 2 ^ 31) : int32 x = x := by
  unfold int32; omega

/-- **C09** (partial: the reported value is right if it is less than 2^31; see
`C09_refuted_large_locations`) At every moment of every history, for every document returned by a
plain search with tokens on a location index in which every token of the request has a location, the
reported snippet locations choose one location of each token *in that document*, and the
reported proximity is `Sum |P(i+1) - P(i) - L(i)|` at these locations. -/
theorem C09_proximity_attained_partial {so : Sorter} (hso : SortOk so) (o : IndexerOpts)
    (hit : o.indexType = .locs) (h : List IdxOp)
    (hok : ∀ op ∈ h, OpOk op) (s : Indexer) (hr : (Indexer.init o).run so h = some s) :
    ∃ tr, Trace h tr ∧ ∀ i ≤ h.length, ∀ si, (Indexer.init o).run so (h.take i) = some si →
      ∀ log2 tokens labels docIds docs n, tokens ≠ [] →
        si.lookup log2 tokens labels docIds false = some (docs, n) →
        ∀ x ∈ docs, ∃ doc, (tr i).vis x.docId = some doc ∧
          ((∀ t ∈ tokens, doc.startsOf t ≠ []) →
            IsChoice x.tokenSnippetLocs (tokens.map doc.startsOf) ∧
            (proxCost x.tokenSnippetLocs (tokens.map List.length) < 2 ^ 31 →
              x.tokenProximity = proxCost x.tokenSnippetLocs (tokens.map List.length))) := by
  obtain ⟨tr, ht, hall⟩ := prefix_state hso o h hok s hr
  refine ⟨tr, ht, ?_⟩
  intro i hi si hsi log2 tokens labels docIds docs n hne hl x hx
  obtain ⟨known, hopt, hinv, htr⟩ := hall i hi si hsi
  obtain ⟨_, _, _, hdata⟩ := lookup_returns log2 hinv.core tokens labels docIds _ hl
  obtain ⟨doc, e1, e2⟩ := hdata x hx
  refine ⟨doc, by rw [htr]; exact e1, ?_⟩
  intro hst
  have hit' : o.init.indexType = .locs := by unfold IndexerOpts.init; split <;> exact hit
  obtain ⟨v, ps, f1, f2, f3, _⟩ := computeTokenProximity_spec (tokens.map doc.startsOf)
    (tokens.map List.length) (by simpa using hne) (by
      intro l hl'; obtain ⟨t, ht, rfl⟩ := List.mem_map.1 hl'; exact hst t ht) (by simp)
  rw [e2, expectedDoc, hopt]
  simp only [hit', if_pos hst, f1, Option.getD_some]
  refine ⟨f2, fun hb => ?_⟩
  rw [f3] at hb ⊢
  have := proxCost_nonneg ps (tokens.map List.length)
  exact int32_small (by omega) hb

/-- Hypotheses met by a non-trivial case: two locations per token, the smallest sum is attained. -/
example : (runLookup (smallOpts .locs 10) [.add (locDoc "1" [("ab", [0, 8]), ("c", [3, 10])]) true]
      [str "ab", str "c"] []).map (fun r => r.1.map (fun x => (x.tokenProximity, x.tokenSnippetLocs)))
      = some [(0, [8, 10])] ∧ proxCost [8, 10] [2, 1] < 2 ^ 31 := by decide +kernel

/-- **C09 is false for large locations** (the field has 32 bits, core/indexer.go:513): token "ab" at 0, token "c" at
`2 + 2^31`. The distance is 2^31, the search reports -2^31; at `2 + 2^32` it reports 0, as for adjacent tokens. -/
theorem C09_refuted_large_locations :
    (runLookup (smallOpts .locs 10) [.add (locDoc "1" [("ab", [0]), ("c", [2 + 2 ^ 31])]) true]
      [str "ab", str "c"] []).map (fun r => r.1.map (fun x => (x.tokenProximity, x.tokenSnippetLocs)))
      = some [(-2 ^ 31, [0, 2 + 2 ^ 31])] ∧ proxCost [0, 2 + 2 ^ 31] [2, 1] = 2 ^ 31 ∧
    (runLookup (smallOpts .locs 10) [.add (locDoc "1" [("ab", [0]), ("c", [2 + 2 ^ 32])]) true]
      [str "ab", str "c"] []).map (fun r => r.1.map (fun x => (x.tokenProximity, x.tokenSnippetLocs)))
      = some [(0, [0, 2 + 2 ^ 32])] ∧ proxCost [0, 2 + 2 ^ 32] [2, 1] = 2 ^ 32 := by
  refine ⟨by decide +kernel, by decide +kernel, by decide +kernel, by decide +kernel⟩

/-- **C10** (partial: no token of the request starts inside an occurrence of the token before
it; without this hypothesis the claim is false, see `C10_refuted_overlap`). The reported
proximity is minimal over all choices of one location per token. -/
theorem C10_proximity_optimal_partial {so : Sorter} (hso : SortOk so) (o : IndexerOpts)
    (hit : o.indexType = .locs) (h : List IdxOp)
    (hok : ∀ op ∈ h, OpOk op) (s : Indexer) (hr : (Indexer.init o).run so h = some s) :
    ∃ tr, Trace h tr ∧ ∀ i ≤ h.length, ∀ si, (Indexer.init o).run so (h.take i) = some si →
      ∀ log2 tokens labels docIds docs n, tokens ≠ [] →
        si.lookup log2 tokens labels docIds false = some (docs, n) →
        ∀ x ∈ docs, ∃ doc, (tr i).vis x.docId = some doc ∧
          ((∀ t ∈ tokens, doc.startsOf t ≠ []) →
           (∀ t ∈ tokens, (doc.startsOf t).Pairwise (· ≤ ·)) →
           NoOverlap (tokens.map doc.startsOf) (tokens.map List.length) →
            ∀ ps, IsChoice ps (tokens.map doc.startsOf) →
              x.tokenProximity ≤ proxCost ps (tokens.map List.length)) := by
  obtain ⟨tr, ht, hall⟩ := prefix_state hso o h hok s hr
  refine ⟨tr, ht, ?_⟩
  intro i hi si hsi log2 tokens labels docIds docs n hne hl x hx
  obtain ⟨known, hopt, hinv, htr⟩ := hall i hi si hsi
  obtain ⟨_, _, _, hdata⟩ := lookup_returns log2 hinv.core tokens labels docIds _ hl
  obtain ⟨doc, e1, e2⟩ := hdata x hx
  refine ⟨doc, by rw [htr]; exact e1, ?_⟩
  intro hst hasc hov
  have hit' : o.init.indexType = .locs := by unfold IndexerOpts.init; split <;> exact hit
  have hl' : ∀ l ∈ tokens.map doc.startsOf, l ≠ [] := by
    intro l hl'; obtain ⟨t, ht, rfl⟩ := List.mem_map.1 hl'; exact hst t ht
  obtain ⟨v, ps, f1, f2, f3, _⟩ := computeTokenProximity_spec (tokens.map doc.startsOf)
    (tokens.map List.length) (by simpa using hne) hl' (by simp)
  rw [e2, expectedDoc, hopt]
  simp only [hit', if_pos hst, f1, Option.getD_some]
  intro qs hqs
  have := computeTokenProximity_opt _ _ _ _ hl' (by simp) (by
    intro l hl'; obtain ⟨t, ht, rfl⟩ := List.mem_map.1 hl'; exact hasc t ht) hov f1 qs hqs
  have hv : int32 v ≤ v := by
    have := proxCost_nonneg ps (tokens.map List.length)
    rw [f3] at this
    unfold int32; omega
  exact le_trans hv this

/-- Hypotheses met, with several locations per token: the best pair is (8, 10). -/
example : NoOverlap [[0, 8], [3, 10]] [2, 1] ∧
    (runLookup (smallOpts .locs 10) [.add (locDoc "1" [("ab", [0, 8]), ("c", [3, 10])]) true]
      [str "ab", str "c"] []).map (fun r => r.1.map (fun x => (x.tokenProximity, x.tokenSnippetLocs)))
      = some [(0, [8, 10])] := by
  refine ⟨?_, by decide +kernel⟩
  simp [NoOverlap]

/-- **C10 is false in general** (overlapping tokens): token "aaaaaa" at 0, token "b" at 1, 2
and 7. The minimum is 1 (choose 7); the search reports 4. -/
theorem C10_refuted_overlap :
    (runLookup (smallOpts .locs 10)
      [.add (locDoc "1" [("aaaaaa", [0]), ("b", [1, 2, 7])]) true]
      [str "aaaaaa", str "b"] []).map (fun r => r.1.map (·.tokenProximity)) = some [4] ∧
    IsChoice [0, 7] [[0], [1, 2, 7]] ∧ proxCost [0, 7] [6, 1] = 1 := by
  refine ⟨by decide +kernel, ?_, by decide +kernel⟩
  simp [IsChoice]

/-! ## C11 -/

theorem dfOf_enum {known : GoMap DocIndex} {docs : List DocIndex}
    (hok : ∀ d doc, known.get d = some doc → doc.docId = d ∧ doc.Ok)
    (h : Enumerates docs known.get) (k : Str) :
    dfOf known k = docs.countP (fun doc => decide (k ∈ doc.keys)) := by
  have hp := h.perm (enumerates_known hok)
  rw [hp.countP_eq, List.countP_map, dfOf, GoMap.count]
  apply List.countP_congr
  intro x _
  simp

/-- **C11** (partial: right after a call that forces a refresh; in between, pending removals
disturb the statistics, see `C11_refuted_pending_removal`). The BM25 value of every returned
document is the documented formula, with N = number of visible documents, L = their average
token length, df = number of visible documents with the token, D and TF from the visible
version of the document. (Location index: if some token of the request has no location in
the document the code reports 0.) -/
theorem C11_bm25_value_partial {so : Sorter} (hso : SortOk so) (o : IndexerOpts)
    (h : List IdxOp) (op : IdxOp) (hok : ∀ x ∈ h ++ [op], OpOk x) (hop : op.refreshes = true)
    (s : Indexer) (hr : (Indexer.init o).run so (h ++ [op]) = some s) :
    ∃ tr vdocs, Trace (h ++ [op]) tr ∧ Enumerates vdocs (tr (h.length + 1)).vis ∧
      ∀ log2 tokens labels docIds docs n,
        s.lookup log2 tokens labels docIds false = some (docs, n) →
        ∀ x ∈ docs, ∃ doc ∈ vdocs, doc.docId = x.docId ∧
          x.bm25 =
            (if o.indexType = .docIds ∨
                (o.indexType = .locs ∧ ∃ t ∈ tokens, doc.startsOf t = []) then 0
             else bm25Spec log2 o.bm25 vdocs.length
              (((vdocs.map (·.tokenLen)).sum : Rat) / vdocs.length) doc.tokenLen
              (doc.tfOf o.indexType)
              (fun k => vdocs.countP (fun doc => decide (k ∈ doc.keys))) tokens) := by
  obtain ⟨tr, ht, hall⟩ := prefix_state hso o _ hok s hr
  obtain ⟨known, hopt, hinv, htr⟩ := hall _ le_rfl s (by rw [List.take_length]; exact hr)
  rw [List.length_append, List.length_singleton] at htr
  have hstep := hr
  rw [Indexer.run_snoc, Option.bind_eq_some_iff] at hstep
  obtain ⟨s0, _, hstep⟩ := hstep
  have hrm := step_forced hop hstep
  have hvk : (absOf s known).vis = known.get := funext (vis_eq_known hinv hrm)
  obtain ⟨vdocs, henum, hnum⟩ := known_enumerates hinv.core
  refine ⟨tr, vdocs, ht, by rw [htr]; exact henum, ?_⟩
  intro log2 tokens labels docIds docs n hl x hx
  obtain ⟨_, _, _, hdata⟩ := lookup_returns log2 hinv.core tokens labels docIds _ hl
  obtain ⟨doc, e1, e2⟩ := hdata x hx
  have hmem := (henum.2 x.docId doc).1 e1
  refine ⟨doc, hmem.1, hmem.2, ?_⟩
  have hekn : Enumerates vdocs known.get := by rw [← hvk]; exact henum
  have hdf : dfOf known = fun k => vdocs.countP (fun doc => decide (k ∈ doc.keys)) :=
    funext (dfOf_enum hinv.core.ok hekn)
  have htot : s.totalTokenLen = (vdocs.map (·.tokenLen)).sum := by
    have hp := hekn.perm (enumerates_known hinv.core.ok)
    rw [hinv.core.total, GoMap.sumBy, (hp.map _).sum_eq, List.map_map]
    rfl
  have hn : (s.numDocs : Rat) = vdocs.length := by rw [hnum]; simp
  have ho1 : o.init.indexType = o.indexType := by unfold IndexerOpts.init; split <;> rfl
  have ho2 : o.init.bm25 = o.bm25 := by unfold IndexerOpts.init; split <;> rfl
  rw [e2, expectedDoc, hopt, hdf, htot, hn, ho1, ho2]
  cases hit : o.indexType with
  | docIds => simp
  | freqs => simp
  | locs =>
    by_cases hst : ∀ t ∈ tokens, doc.startsOf t ≠ []
    · simp only [if_pos hst]
      rw [if_neg]
      rintro (h | ⟨_, t, h1, h2⟩)
      · simp at h
      · exact hst t h1 h2
    · simp only [if_neg hst]
      push Not at hst
      rw [if_pos (Or.inr ⟨trivial, hst⟩)]

/-- Three documents with "b", one of them removed, refresh forced: `log2` is left abstract. -/
example (log2 : Rat → Rat) :
    (((Indexer.init (smallOpts .freqs 10)).run insSort demoHistory).bind
      (fun s => s.lookup log2 [str "d"] [] none false)).map (fun r => r.1.map (·.bm25)) =
    some [log2 (2 / 1 + 1) * 1 * (2 + 1) / (1 + 2 * (1 - 3/4 + 3/4 * 2 / 2)) + 0] := by kernel_rfl

/-- **C11 is false in general** (pending removal): two visible documents contain "b" and a
third one has just been removed (not flushed). The documented IDF uses N/df = 2/2 and L = 1,
the code uses N/df = 2/3 and L = 3/2. `log2` is only assumed to satisfy two facts that the
real base-2 logarithm satisfies (log2 (5/3) is about 0.737). -/
theorem C11_refuted_pending_removal (log2 : Rat → Rat) (h2 : log2 2 = 1)
    (h53 : log2 (5/3) < 5/6) :
    ∃ h : List IdxOp, (∀ op ∈ h, OpOk op) ∧
      (((Indexer.init (smallOpts .freqs 10)).run insSort h).bind
        (fun s => s.lookup log2 [str "b"] [] none false)).map
          (fun r => r.1.map (fun x => (x.docId, x.bm25))) =
        some [(str "2", log2 (2/3 + 1) * 1 * (2 + 1) / (1 + 2 * (1 - 3/4 + 3/4 * 1 / (3/2))) + 0),
              (str "1", log2 (2/3 + 1) * 1 * (2 + 1) / (1 + 2 * (1 - 3/4 + 3/4 * 1 / (3/2))) + 0)] ∧
      log2 (2/3 + 1) * 1 * (2 + 1) / (1 + 2 * (1 - 3/4 + 3/4 * 1 / (3/2))) + 0 ≠
        bm25Spec log2 (some ⟨2, 3/4⟩) 2 1 1 (fun _ => 1) (fun _ => 2) [str "b"] := by
  refine ⟨[.add (mkDoc "1" ["b"]) false, .add (mkDoc "2" ["b"]) false,
    .add (mkDoc "3" ["b"]) true, .remove (str "3") false], by decide +kernel, by kernel_rfl, ?_⟩
  intro h
  simp only [bm25Spec, List.map_cons, List.map_nil, List.sum_cons, List.sum_nil] at h
  norm_num at h
  rw [h2] at h
  linarith

end Riot
