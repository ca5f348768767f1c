import Verif.Proofs.Lookup

/-! # LogicLookup on the physically indexed documents -/

namespace Riot

/-- Rows of some keys. -/
def RowsOf (it : IndexType) (known : GoMap DocIndex) (ks : List Str) (rows : List KeywordIndices) :
    Prop := List.Forall₂ (RowOk it known) ks rows

theorem RowOk.search {it known k ki} (h : RowOk it known k ki) (d : Str) :
    searchIndex ki.docIds 0 (ki.docIds.length - 1) d = some (rankOf ki.docIds d, decide (d ∈ ki.docIds)) :=
  searchIndex_full h.sorted (by omega) (fun h => absurd h (by omega))

theorem findInMust_spec {it known ks rows} (h : RowsOf it known ks rows) (d : Str) :
    findInMust rows d = some (decide (∀ ki ∈ rows, d ∈ ki.docIds)) := by
  induction h with
  | nil => simp [findInMust]
  | @cons k ki ks rows hr _ ih =>
    simp only [findInMust, hr.search, bind, Option.bind, ih, pure]
    by_cases hd : d ∈ ki.docIds <;> simp [hd]

theorem findInAny_spec {it known ks rows} (h : RowsOf it known ks rows) (d : Str) :
    findInAny rows d = some (decide (∃ ki ∈ rows, d ∈ ki.docIds)) := by
  induction h with
  | nil => simp [findInAny]
  | @cons k ki ks rows hr _ ih =>
    simp only [findInAny, hr.search, bind, Option.bind, ih, pure]
    by_cases hd : d ∈ ki.docIds <;> simp [hd]

theorem findInShould_spec {it known ks rows} (h : RowsOf it known ks rows) (d : Str) :
    findInShould rows d = some (decide (rows = [] ∨ ∃ ki ∈ rows, d ∈ ki.docIds)) := by
  simp only [findInShould, findInAny_spec h, bind, Option.bind, pure]
  by_cases hd : ∃ ki ∈ rows, d ∈ ki.docIds
  · simp [hd]
  · cases rows with
    | nil => simp
    | cons a l => simp only [hd, decide_false, Bool.false_eq_true, if_false, or_false]; simp

theorem rows_all {it known ks rows} (h : RowsOf it known ks rows) (d : Str) :
    (∀ ki ∈ rows, d ∈ ki.docIds) ↔ ∀ k ∈ ks, ∃ doc, known.get d = some doc ∧ k ∈ doc.keys := by
  induction h with
  | nil => simp
  | cons a b ih => simp only [List.forall_mem_cons, a.mem, ih]

theorem rows_any {it known ks rows} (h : RowsOf it known ks rows) (d : Str) :
    (∃ ki ∈ rows, d ∈ ki.docIds) ↔ ∃ k ∈ ks, ∃ doc, known.get d = some doc ∧ k ∈ doc.keys := by
  induction h with
  | nil => simp
  | cons a b ih => simp only [List.exists_mem_cons_iff, a.mem, ih]

theorem foundRows_spec {it : IndexType} {table : GoMap KeywordIndices} {known : GoMap DocIndex}
    (ht : TableOk it table known) :
    ∀ (ks : List Str), ∃ ks', RowsOf it known ks' (foundRows table ks) ∧
      ∀ d doc, known.get d = some doc → ((∃ k ∈ ks', k ∈ doc.keys) ↔ ∃ k ∈ ks, k ∈ doc.keys)
  | [] => ⟨[], .nil, by simp⟩
  | k :: ks => by
    obtain ⟨ks', h1, h2⟩ := foundRows_spec ht ks
    cases hk : table.get k with
    | none =>
      refine ⟨ks', by simpa [foundRows, hk] using h1, ?_⟩
      intro d doc hd
      have := table_none ht hk d doc hd
      simp [h2 d doc hd, this]
    | some ki =>
      refine ⟨k :: ks', ?_, ?_⟩
      · have hr : RowOk it known k ki := by
          have := collectRows_some ht [k] [ki] (by simp [collectRows, hk])
          cases this; assumption
        have : foundRows table (k :: ks) = ki :: foundRows table ks := by simp [foundRows, hk]
        rw [this]; exact .cons hr h1
      · intro d doc hd
        simp only [List.exists_mem_cons_iff, h2 d doc hd]

/-- The loop over the first Must row. -/
theorem mustLoop_spec {it known} {row0 : KeywordIndices} {mustRest should notIn : List KeywordIndices}
    {k0 : Str} {km ks kn : List Str} (hs0 : RowOk it known k0 row0)
    (hm : RowsOf it known km mustRest) (hsh : RowsOf it known ks should)
    (hn : RowsOf it known kn notIn) (docIds : Option (List Str)) :
    ∀ p, p ≤ row0.docIds.length → ∃ L, mustLoop row0 mustRest should notIn docIds p = some L ∧
      L.Sublist (row0.docIds.take p).reverse ∧
      ∀ d, d ∈ L ↔ d ∈ row0.docIds.take p ∧ Allowed docIds d ∧ (∀ ki ∈ mustRest, d ∈ ki.docIds) ∧
        (should = [] ∨ ∃ ki ∈ should, d ∈ ki.docIds) ∧ ¬ ∃ ki ∈ notIn, d ∈ ki.docIds
  | 0, _ => ⟨[], by simp [mustLoop], by simp, by simp⟩
  | p + 1, hp => by
    obtain ⟨L, h1, h2, h3⟩ := mustLoop_spec hs0 hm hsh hn docIds p (by omega)
    have hpl : p < row0.docIds.length := by omega
    have htake : row0.docIds.take (p + 1) = row0.docIds.take p ++ [row0.docIds[p]] :=
      List.take_succ_eq_append_getElem hpl
    simp only [mustLoop, List.getElem?_eq_getElem hpl]
    have hnotin : row0.docIds[p] ∉ L := by
      intro hmem
      have := ((h3 _).1 hmem).1
      obtain ⟨i, hi, he⟩ := List.mem_iff_getElem.1 this
      simp only [List.length_take] at hi
      rw [List.getElem_take] at he
      exact absurd he (ne_of_lt (hs0.sorted.lt (by omega) hpl))
    have hsub : L.Sublist (row0.docIds.take (p + 1)).reverse := by
      rw [htake, List.reverse_append]
      simpa using h2.trans (List.sublist_cons_self _ _)
    by_cases hall : Allowed docIds row0.docIds[p]
    · rw [(allowed_iff docIds _).2 hall]
      simp only [Bool.false_eq_true, if_false, findInMust_spec hm, findInShould_spec hsh,
        findInNotIn, findInAny_spec hn, h1, bind, Option.bind, pure]
      refine ⟨_, rfl, ?_, ?_⟩
      · split
        · rw [htake, List.reverse_append]; simpa using h2
        · exact hsub
      · intro d
        split
        · rename_i hc
          simp only [Bool.and_eq_true, decide_eq_true_eq, Bool.not_eq_true', decide_eq_false_iff_not] at hc
          rw [List.mem_cons, h3, htake]
          simp only [List.mem_append, List.mem_singleton]
          constructor
          · rintro (rfl | ⟨a, b⟩)
            · exact ⟨Or.inr rfl, hall, hc.1.1, hc.1.2, hc.2⟩
            · exact ⟨Or.inl a, b⟩
          · rintro ⟨a | rfl, b⟩
            · exact Or.inr ⟨a, b⟩
            · exact Or.inl rfl
        · rename_i hc
          simp only [Bool.and_eq_true, decide_eq_true_eq, Bool.not_eq_true', decide_eq_false_iff_not] at hc
          rw [h3, htake]
          simp only [List.mem_append, List.mem_singleton]
          constructor
          · rintro ⟨a, b⟩; exact ⟨Or.inl a, b⟩
          · rintro ⟨a | rfl, b⟩
            · exact ⟨a, b⟩
            · exact absurd ⟨⟨b.2.1, b.2.2.1⟩, b.2.2.2⟩ hc
    · have hf : notAllowed docIds row0.docIds[p] = true := by
        cases h : notAllowed docIds row0.docIds[p] with
        | false => exact absurd ((allowed_iff docIds _).1 h) hall
        | true => rfl
      rw [hf]
      simp only [if_true]
      refine ⟨L, h1, hsub, ?_⟩
      intro d
      rw [h3, htake]
      simp only [List.mem_append, List.mem_singleton]
      constructor
      · rintro ⟨a, b⟩; exact ⟨Or.inl a, b⟩
      · rintro ⟨a | rfl, b⟩
        · exact ⟨a, b⟩
        · exact absurd b.1 hall

theorem unionRow_spec {it known kn notIn} (hn : RowsOf it known kn notIn) :
    ∀ (ds acc : List Str), acc.Nodup → ∃ L, unionRow notIn ds acc = some L ∧ L.Nodup ∧
      ∀ d, d ∈ L ↔ d ∈ acc ∨ (d ∈ ds ∧ ¬ ∃ ki ∈ notIn, d ∈ ki.docIds)
  | [], acc, h => ⟨acc, by simp [unionRow], h, by simp⟩
  | x :: ds, acc, h => by
    simp only [unionRow, findInNotIn, findInAny_spec hn, bind, Option.bind]
    by_cases hx : ∃ ki ∈ notIn, x ∈ ki.docIds
    · simp only [hx, decide_true, if_true]
      obtain ⟨L, h1, h2, h3⟩ := unionRow_spec hn ds acc h
      refine ⟨L, h1, h2, ?_⟩
      intro d
      rw [h3]
      by_cases hd : d = x
      · subst hd; simp only [hx, not_true_eq_false, and_false]
      · simp [hd]
    · simp only [hx, decide_false, Bool.false_eq_true, if_false]
      by_cases hc : x ∈ acc
      · simp only [List.contains_iff_mem, hc, if_true]
        obtain ⟨L, h1, h2, h3⟩ := unionRow_spec hn ds acc h
        refine ⟨L, h1, h2, ?_⟩
        intro d
        rw [h3]
        by_cases hd : d = x
        · subst hd; simp [hc]
        · simp [hd]
      · simp only [List.contains_iff_mem, hc, if_false]
        obtain ⟨L, h1, h2, h3⟩ := unionRow_spec hn ds (acc ++ [x]) (by
          rw [List.nodup_append]
          exact ⟨h, by simp, by rintro a ha b hb rfl; simp at hb; subst hb; exact hc ha⟩)
        refine ⟨L, h1, h2, ?_⟩
        intro d
        rw [h3]
        by_cases hd : d = x
        · subst hd; simp only [List.mem_append, or_true, true_or,
            List.mem_cons, true_and, true_iff]; exact Or.inr hx
        · simp [hd]

theorem unionRows_spec {it known kn notIn} (hn : RowsOf it known kn notIn) :
    ∀ (rows : List KeywordIndices) (acc : List Str), acc.Nodup →
      ∃ L, unionRows notIn rows acc = some L ∧ L.Nodup ∧
      ∀ d, d ∈ L ↔ d ∈ acc ∨ ((∃ ki ∈ rows, d ∈ ki.docIds) ∧ ¬ ∃ ki ∈ notIn, d ∈ ki.docIds)
  | [], acc, h => ⟨acc, by simp [unionRows], h, by simp⟩
  | r :: rows, acc, h => by
    obtain ⟨L, h1, h2, h3⟩ := unionRow_spec hn r.docIds acc h
    obtain ⟨L', g1, g2, g3⟩ := unionRows_spec hn rows L h2
    refine ⟨L', by simp only [unionRows, h1, bind, Option.bind, g1], g2, ?_⟩
    intro d
    rw [g3, h3, List.exists_mem_cons_iff]
    tauto

theorem notInRow_spec {it known kn notIn} (hn : RowsOf it known kn notIn) :
    ∀ (ds : List Str), notInRow notIn ds =
      some (ds.filter (fun d => decide (∃ ki ∈ notIn, d ∈ ki.docIds)))
  | [] => by simp [notInRow]
  | x :: ds => by
    simp only [notInRow, findInNotIn, findInAny_spec hn, bind, Option.bind, notInRow_spec hn ds, pure,
      List.filter_cons]

theorem notInRows_spec {it known kn notIn} (hn : RowsOf it known kn notIn) :
    ∀ (rows : List KeywordIndices), (∀ r ∈ rows, r ∈ notIn) →
      notInRows notIn rows = some (rows.flatMap (·.docIds))
  | [], _ => by simp [notInRows]
  | r :: rows, h => by
    simp only [notInRows, notInRow_spec hn, bind, Option.bind,
      notInRows_spec hn rows (fun x hx => h x (by simp [hx])), pure, List.flatMap_cons]
    rw [List.filter_eq_self.2]
    intro d hd
    simp only [decide_eq_true_eq]
    exact ⟨r, h r (by simp), hd⟩

/-- Effective keys: what the code really uses, including the carry-over of an earlier
explicit list to a later flag. -/
def effMust (keywords : List Str) (l : Logic) : Option (List Str) :=
  clauseKeys keywords l.must l.expr.must

/-- See `effMust`. -/
def effShould (keywords : List Str) (l : Logic) : Option (List Str) :=
  clauseKeys (if l.expr.must.length > 0 then l.expr.must else keywords) l.should l.expr.should

/-- See `effMust`. -/
def effNotIn (keywords : List Str) (l : Logic) : Option (List Str) :=
  clauseKeys (if l.expr.should.length > 0 then l.expr.should
    else if l.expr.must.length > 0 then l.expr.must else keywords) l.notIn l.expr.notIn

theorem clauseKeys_eq (kw ex : List Str) (flag : Bool) :
    clauseKeys kw flag ex =
      if (flag || decide (ex.length > 0)) = true then some (if ex.length > 0 then ex else kw) else none := by
  unfold clauseKeys
  cases ex with
  | nil => simp
  | cons a l => simp

/-- Documents of the physical index satisfying clauses. -/
abbrev KMatches (known : GoMap DocIndex) := LogicMatches known.get

/-- LogicLookup with a Must clause. -/
theorem logicLookup_must {s : Indexer} {known : GoMap DocIndex} (hc : Core s known)
    (docIds : Option (List Str)) (countOnly : Bool) (kw : List Str) (l : Logic)
    {M : List Str} (hM : effMust kw l = some M) (hne : M ≠ []) :
    ∃ L, s.logicLookup docIds countOnly kw l = some (idsResult L countOnly) ∧ L.Pairwise (· > ·) ∧
      ∀ d, d ∈ L ↔ Allowed docIds d ∧
        KMatches known (some M) (effShould kw l) (effNotIn kw l) d := by
  have hempty : ∀ r : Option (List IndexedDoc × Nat), r = some ([], 0) →
      (∀ d, ¬ KMatches known (some M) (effShould kw l) (effNotIn kw l) d) →
      ∃ L, r = some (idsResult L countOnly) ∧ L.Pairwise (· > ·) ∧
      ∀ d, d ∈ L ↔ Allowed docIds d ∧
        KMatches known (some M) (effShould kw l) (effNotIn kw l) d := by
    intro r hr hno
    refine ⟨[], ?_, by simp, by simp [hno]⟩
    rw [hr]; cases countOnly <;> simp [idsResult]
  rw [effMust, clauseKeys_eq] at hM
  split at hM
  case isFalse => simp at hM
  rename_i hum
  simp only [Option.some.injEq] at hM
  unfold Indexer.logicLookup
  simp only [hum, if_true, hM]
  cases hcol : collectRows s.table M with
  | none =>
    refine hempty _ rfl ?_
    rintro d ⟨doc, h1, h2, _⟩
    exact collectRows_none hc.table _ hcol d doc h1 (h2 M rfl)
  | some mustTable =>
    have hrows := collectRows_some hc.table _ _ hcol
    simp only
    -- the Should rows
    obtain ⟨ks, hks, hksm⟩ : ∃ ks, RowsOf s.opts.indexType known ks
        (if (l.should || decide (l.expr.should.length > 0)) = true then
          foundRows s.table (if l.expr.should.length > 0 then l.expr.should else M) else []) ∧
        ∀ d doc, known.get d = some doc → ((∃ k ∈ ks, k ∈ doc.keys) ↔
          ∃ S, effShould kw l = some S ∧ ∃ k ∈ S, k ∈ doc.keys) := by
      rw [effShould, hM, clauseKeys_eq]
      split
      · obtain ⟨ks, a, b⟩ := foundRows_spec hc.table (if l.expr.should.length > 0 then l.expr.should else M)
        exact ⟨ks, a, fun d doc hd => by simp [b d doc hd]⟩
      · exact ⟨[], .nil, by simp⟩
    have huse : (l.should || decide (l.expr.should.length > 0)) = true ↔ effShould kw l ≠ none := by
      rw [effShould, clauseKeys_eq]; split <;> simp_all
    obtain ⟨kn, hkn, hknm⟩ : ∃ kn, RowsOf s.opts.indexType known kn
        (if (l.notIn || decide (l.expr.notIn.length > 0)) = true then
          foundRows s.table (if l.expr.notIn.length > 0 then l.expr.notIn else
            if l.expr.should.length > 0 then l.expr.should else M) else []) ∧
        ∀ d doc, known.get d = some doc → ((∃ k ∈ kn, k ∈ doc.keys) ↔
          ∃ S, effNotIn kw l = some S ∧ ∃ k ∈ S, k ∈ doc.keys) := by
      rw [effNotIn, hM, clauseKeys_eq]
      split
      · obtain ⟨ks, a, b⟩ := foundRows_spec hc.table (if l.expr.notIn.length > 0 then l.expr.notIn else
            if l.expr.should.length > 0 then l.expr.should else M)
        exact ⟨ks, a, fun d doc hd => by simp [b d doc hd]⟩
      · exact ⟨[], .nil, by simp⟩
    set shouldRows := (if (l.should || decide (l.expr.should.length > 0)) = true then
          foundRows s.table (if l.expr.should.length > 0 then l.expr.should else M) else []) with hsr
    set notInRowsL := (if (l.notIn || decide (l.expr.notIn.length > 0)) = true then
          foundRows s.table (if l.expr.notIn.length > 0 then l.expr.notIn else
            if l.expr.should.length > 0 then l.expr.should else M) else []) with hnr
    have hshould : ∀ d doc, known.get d = some doc →
        ((shouldRows = [] ∨ ∃ ki ∈ shouldRows, d ∈ ki.docIds) ↔
          (shouldRows = [] ∨ ∃ S, effShould kw l = some S ∧ ∃ k ∈ S, k ∈ doc.keys)) := by
      intro d doc hd
      rw [rows_any hks, ← hksm d doc hd]
      simp [hd]
    have hnotin : ∀ d doc, known.get d = some doc →
        ((∃ ki ∈ notInRowsL, d ∈ ki.docIds) ↔
          ∃ S, effNotIn kw l = some S ∧ ∃ k ∈ S, k ∈ doc.keys) := by
      intro d doc hd
      rw [rows_any hkn, ← hknm d doc hd]
      simp [hd]
    clear_value notInRowsL
    by_cases hexit : ((l.should || decide (l.expr.should.length > 0)) && shouldRows.length == 0) = true
    · rw [if_pos hexit]
      refine hempty _ rfl ?_
      rintro d ⟨doc, h1, _, h3, _⟩
      simp only [Bool.and_eq_true, beq_iff_eq, List.length_eq_zero_iff] at hexit
      obtain ⟨S, hS⟩ := Option.ne_none_iff_exists'.1 (huse.1 hexit.1)
      have : ∃ k ∈ ks, k ∈ doc.keys := (hksm d doc h1).2 ⟨S, hS, h3 S hS⟩
      rw [hexit.2] at hks
      cases hks
      simp at this
    · rw [if_neg hexit]
      cases mustTable with
      | nil => exact absurd (List.forall₂_nil_right_iff.1 hrows) hne
      | cons row0 rest =>
        obtain ⟨k0, km, hk, hr0, hrs⟩ : ∃ k0 km, M = k0 :: km ∧
            RowOk s.opts.indexType known k0 row0 ∧ RowsOf s.opts.indexType known km rest := by
          cases M with
          | nil => cases hrows
          | cons k0 km => cases hrows with | cons a b => exact ⟨k0, km, rfl, a, b⟩
        obtain ⟨L, g1, g2, g3⟩ := mustLoop_spec hr0 hrs hks hkn docIds row0.docIds.length le_rfl
        refine ⟨L, by simp only [g1, bind, Option.bind, pure], ?_, ?_⟩
        · refine List.Pairwise.sublist g2 ?_
          rw [List.take_length, List.pairwise_reverse]
          exact hr0.sorted
        · intro d
          rw [g3, List.take_length, hr0.mem, rows_all hrs]
          have hsnil : shouldRows = [] → effShould kw l = none := by
            intro h
            by_contra hcon
            exact hexit (by simp [huse.2 hcon, h])
          constructor
          · rintro ⟨⟨doc, e1, e2⟩, e3, e4, e5, e6⟩
            refine ⟨e3, doc, e1, ?_, ?_, ?_⟩
            · rintro _ ⟨⟩ k hk'
              rw [hk] at hk'
              rcases List.mem_cons.1 hk' with rfl | hk'
              · exact e2
              · obtain ⟨doc', f1, f2⟩ := e4 k hk'
                rw [e1, Option.some.injEq] at f1
                rwa [f1]
            · intro S hS
              rcases (hshould d doc e1).1 e5 with h | ⟨S', hS', h⟩
              · rw [hsnil h] at hS; simp at hS
              · rw [hS, Option.some.injEq] at hS'; rw [hS']; exact h
            · intro N hN k hk' hmem
              exact e6 ((hnotin d doc e1).2 ⟨N, hN, k, hk', hmem⟩)
          · rintro ⟨e3, doc, e1, e2, e4, e5⟩
            refine ⟨⟨doc, e1, e2 M rfl k0 (by simp [hk])⟩, e3,
              fun k hk' => ⟨doc, e1, e2 M rfl k (by simp [hk, hk'])⟩, ?_, ?_⟩
            · rw [hshould d doc e1]
              cases hS : effShould kw l with
              | none =>
                left
                have : ¬ (l.should || decide (l.expr.should.length > 0)) = true := by
                  rw [huse]; simp [hS]
                rw [hsr, if_neg this]
              | some S => exact Or.inr ⟨S, rfl, e4 S hS⟩
            · rw [hnotin d doc e1]
              rintro ⟨N, hN, k, hk', hmem⟩
              exact e5 N hN k hk' hmem

/-- LogicLookup with a Should clause and no Must clause: `docIds` is not consulted. -/
theorem logicLookup_should {s : Indexer} {known : GoMap DocIndex} (hc : Core s known)
    (docIds : Option (List Str)) (countOnly : Bool) (kw : List Str) (l : Logic)
    {S : List Str} (hM : effMust kw l = none) (hS : effShould kw l = some S) :
    ∃ L, s.logicLookup docIds countOnly kw l = some (idsResult L countOnly) ∧ L.Nodup ∧
      ∀ d, d ∈ L ↔ KMatches known none (some S) (effNotIn kw l) d := by
  rw [effMust, clauseKeys_eq] at hM
  split at hM
  case isTrue => simp at hM
  rename_i hum
  have hm0 : ¬ l.expr.must.length > 0 := by
    intro h; exact hum (by simp [h])
  have hS' := hS
  rw [effShould, clauseKeys_eq] at hS
  split at hS
  case isFalse => simp at hS
  rename_i hus
  simp only [Option.some.injEq] at hS
  unfold Indexer.logicLookup
  simp only [hum, if_false, if_neg hm0, hus, if_true, hS, Bool.false_eq_true]
  obtain ⟨ks, hks, hksm⟩ := foundRows_spec hc.table S
  by_cases hexit : (true && (foundRows s.table S).length == 0) = true
  · rw [if_pos hexit]
    refine ⟨[], by cases countOnly <;> simp [idsResult], by simp, ?_⟩
    intro d
    simp only [List.not_mem_nil, false_iff]
    rintro ⟨doc, h1, _, h3, _⟩
    simp only [Bool.true_and, beq_iff_eq, List.length_eq_zero_iff] at hexit
    have := (hksm d doc h1).2 (h3 S rfl)
    rw [hexit] at hks
    cases hks
    simp at this
  · rw [if_neg hexit]
    obtain ⟨kn, hkn, hknm⟩ : ∃ kn, RowsOf s.opts.indexType known kn
        (if (l.notIn || decide (l.expr.notIn.length > 0)) = true then
          foundRows s.table (if l.expr.notIn.length > 0 then l.expr.notIn else S) else []) ∧
        ∀ d doc, known.get d = some doc → ((∃ k ∈ kn, k ∈ doc.keys) ↔
          ∃ N, effNotIn kw l = some N ∧ ∃ k ∈ N, k ∈ doc.keys) := by
      rw [effNotIn, clauseKeys_eq, if_neg hm0, hS]
      split
      · obtain ⟨ks, a, b⟩ := foundRows_spec hc.table (if l.expr.notIn.length > 0 then l.expr.notIn else S)
        exact ⟨ks, a, fun d doc hd => by simp [b d doc hd]⟩
      · exact ⟨[], .nil, by simp⟩
    set notInRowsL := (if (l.notIn || decide (l.expr.notIn.length > 0)) = true then
          foundRows s.table (if l.expr.notIn.length > 0 then l.expr.notIn else S) else [])
    obtain ⟨L, g1, g2, g3⟩ := unionRows_spec hkn (foundRows s.table S) [] (by simp)
    refine ⟨L, by simp only [unionTable, g1, bind, Option.bind, pure], g2, ?_⟩
    intro d
    rw [g3, rows_any hks, rows_any hkn]
    simp only [List.not_mem_nil, false_or]
    constructor
    · rintro ⟨⟨k, hk, doc, e1, e2⟩, hno⟩
      refine ⟨doc, e1, by simp, ?_, ?_⟩
      · rintro _ ⟨⟩
        exact (hksm d doc e1).1 ⟨k, hk, e2⟩
      · intro N hN k' hk' hmem
        obtain ⟨k2, a, b⟩ := (hknm d doc e1).2 ⟨N, hN, k', hk', hmem⟩
        exact hno ⟨k2, a, doc, e1, b⟩
    · rintro ⟨doc, e1, _, e3, e4⟩
      obtain ⟨k, hk, hmem⟩ := (hksm d doc e1).2 (e3 S rfl)
      refine ⟨⟨k, hk, doc, e1, hmem⟩, ?_⟩
      rintro ⟨k', hk', doc', f1, f2⟩
      rw [e1, Option.some.injEq] at f1
      subst f1
      obtain ⟨N, hN, k2, a, b⟩ := (hknm d doc e1).1 ⟨k', hk', f2⟩
      exact e4 N hN k2 a b

/-- LogicLookup with only a NotIn clause: it returns the documents that DO contain one of
the keys. -/
theorem logicLookup_notIn {s : Indexer} {known : GoMap DocIndex} (hc : Core s known)
    (docIds : Option (List Str)) (countOnly : Bool) (kw : List Str) (l : Logic)
    (hM : effMust kw l = none) (hS : effShould kw l = none) :
    ∃ L, s.logicLookup docIds countOnly kw l = some (idsResult L countOnly) ∧
      ∀ d, d ∈ L ↔ ∃ doc N, known.get d = some doc ∧ effNotIn kw l = some N ∧
        ∃ k ∈ N, k ∈ doc.keys := by
  rw [effMust, clauseKeys_eq] at hM
  split at hM
  case isTrue => simp at hM
  rename_i hum
  have hm0 : ¬ l.expr.must.length > 0 := by
    intro h; exact hum (by simp [h])
  rw [effShould, clauseKeys_eq] at hS
  split at hS
  case isTrue => simp at hS
  rename_i hus
  have hs0 : ¬ l.expr.should.length > 0 := by
    intro h; exact hus (by simp [h])
  unfold Indexer.logicLookup
  have hus' : (l.should || decide (l.expr.should.length > 0)) = false := by simpa using hus
  simp only [hum, if_false, if_neg hm0, if_neg hs0, hus', Bool.false_and, Bool.false_eq_true]
  obtain ⟨kn, hkn, hknm⟩ : ∃ kn, RowsOf s.opts.indexType known kn
      (if (l.notIn || decide (l.expr.notIn.length > 0)) = true then
        foundRows s.table (if l.expr.notIn.length > 0 then l.expr.notIn else kw) else []) ∧
      ∀ d doc, known.get d = some doc → ((∃ k ∈ kn, k ∈ doc.keys) ↔
        ∃ N, effNotIn kw l = some N ∧ ∃ k ∈ N, k ∈ doc.keys) := by
    rw [effNotIn, clauseKeys_eq, if_neg hm0, if_neg hs0]
    split
    · obtain ⟨ks, a, b⟩ := foundRows_spec hc.table (if l.expr.notIn.length > 0 then l.expr.notIn else kw)
      exact ⟨ks, a, fun d doc hd => by simp [b d doc hd]⟩
    · exact ⟨[], .nil, by simp⟩
  set notInRowsL := (if (l.notIn || decide (l.expr.notIn.length > 0)) = true then
        foundRows s.table (if l.expr.notIn.length > 0 then l.expr.notIn else kw) else [])
  refine ⟨notInRowsL.flatMap (·.docIds), ?_, ?_⟩
  · rw [notInRows_spec hkn _ (fun r hr => hr)]; rfl
  · intro d
    rw [List.mem_flatMap]
    rw [rows_any hkn]
    constructor
    · rintro ⟨k, hk, doc, e1, e2⟩
      obtain ⟨N, hN, h⟩ := (hknm d doc e1).1 ⟨k, hk, e2⟩
      exact ⟨doc, N, e1, hN, h⟩
    · rintro ⟨doc, N, e1, hN, h⟩
      obtain ⟨k, hk, hm⟩ := (hknm d doc e1).2 ⟨N, hN, h⟩
      exact ⟨k, hk, doc, e1, hm⟩

end Riot
