import Verif.Proofs.IndexRun
import Verif.Spec.Search
import Verif.Proofs.Proximity

/-! # Plain (AND) lookup -/

namespace Riot

/-- `ki` is the row of key `k`. -/
def RowOk (it : IndexType) (known : GoMap DocIndex) (k : Str) (ki : KeywordIndices) : Prop :=
  ∃ ps, SortedPs ps ∧ ps ≠ [] ∧ (∀ p, p ∈ ps ↔ HasPosting known k p) ∧ ki = mkRow it ps

theorem RowOk.sorted {it known k ki} (h : RowOk it known k ki) : SortedIds ki.docIds := by
  obtain ⟨ps, h1, _, _, rfl⟩ := h; exact h1

theorem RowOk.pos {it known k ki} (h : RowOk it known k ki) : 0 < ki.docIds.length := by
  obtain ⟨ps, _, h2, _, rfl⟩ := h
  simpa [mkRow] using List.length_pos_of_ne_nil h2

theorem RowOk.mem {it known k ki} (h : RowOk it known k ki) (d : Str) :
    d ∈ ki.docIds ↔ ∃ doc, known.get d = some doc ∧ k ∈ doc.keys := by
  obtain ⟨ps, _, _, h3, rfl⟩ := h
  simp only [mkRow, List.mem_map]
  constructor
  · rintro ⟨p, hp, rfl⟩
    obtain ⟨doc, kw, e1, e2, e3, _⟩ := (h3 p).1 hp
    exact ⟨doc, e1, List.mem_map.2 ⟨kw, e2, e3⟩⟩
  · rintro ⟨doc, e1, e2⟩
    obtain ⟨kw, e3, e4⟩ := List.mem_map.1 e2
    exact ⟨⟨d, kw.frequency, kw.starts⟩, (h3 _).2 ⟨doc, kw, e1, e3, e4, rfl, rfl⟩, rfl⟩

theorem find_kw {doc : DocIndex} (hok : doc.Ok) {kw : KeywordIndex} (h : kw ∈ doc.keywords) :
    doc.keywords.find? (fun x => x.text = kw.text) = some kw := by
  unfold DocIndex.Ok at hok
  generalize doc.keywords = l at *
  induction l with
  | nil => simp at h
  | cons a l ih =>
    simp only [List.map_cons, List.nodup_cons] at hok
    rcases List.mem_cons.1 h with rfl | h
    · simp
    · rw [List.find?_cons_of_neg, ih hok.2 h]
      simp only [decide_eq_true_eq]
      intro he
      exact hok.1 (he ▸ List.mem_map.2 ⟨kw, h, rfl⟩)

/-- What a row stores at the position of a document: the data of that document. -/
theorem RowOk.data {it known k ki} (h : RowOk it known k ki)
    (hkn : ∀ d doc, known.get d = some doc → doc.docId = d ∧ doc.Ok)
    {d : Str} {ptr : Nat} (hp : ki.docIds[ptr]? = some d) {doc : DocIndex}
    (hd : known.get d = some doc) :
    (it = .locs → ki.locations[ptr]? = some (doc.startsOf k)) ∧
    (it = .freqs → ki.frequencies[ptr]? = some (doc.freqOf k)) := by
  obtain ⟨ps, _, _, h3, rfl⟩ := h
  simp only [mkRow, List.getElem?_map, Option.map_eq_some_iff] at hp
  obtain ⟨p, hp1, hp2⟩ := hp
  obtain ⟨doc', kw, e1, e2, e3, e4, e5⟩ := (h3 p).1 (List.mem_of_getElem? hp1)
  rw [hp2, hd] at e1
  obtain rfl := Option.some.inj e1
  have hf := find_kw (hkn d doc hd).2 e2
  rw [e3] at hf
  constructor
  · rintro rfl
    simp [mkRow, hp1, DocIndex.startsOf, hf, e5]
  · rintro rfl
    simp [mkRow, hp1, DocIndex.freqOf, hf, e4]

theorem collectRows_some {it : IndexType} {table : GoMap KeywordIndices} {known : GoMap DocIndex}
    (ht : TableOk it table known) :
    ∀ (ks : List Str) (rows : List KeywordIndices), collectRows table ks = some rows →
      List.Forall₂ (RowOk it known) ks rows := by
  intro ks
  induction ks with
  | nil => intro rows h; simp [collectRows] at h; subst h; exact .nil
  | cons k ks ih =>
    intro rows h
    simp only [collectRows] at h
    split at h
    · rename_i ki rest h1 h2
      simp only [Option.some.injEq] at h
      subst h
      refine .cons ?_ (ih _ h2)
      obtain ⟨ps, a, b, c⟩ := ht k
      rw [h1] at c
      split at c
      · simp at c
      · rename_i hne
        exact ⟨ps, a, hne, b, Option.some.inj c⟩
    · simp at h

theorem table_none {it : IndexType} {table : GoMap KeywordIndices} {known : GoMap DocIndex}
    (ht : TableOk it table known) {k : Str} (h : table.get k = none) (d : Str) (doc : DocIndex)
    (hd : known.get d = some doc) : k ∉ doc.keys := by
  intro hk
  obtain ⟨ps, _, b, c⟩ := ht k
  obtain ⟨kw, e3, e4⟩ := List.mem_map.1 hk
  have : (⟨d, kw.frequency, kw.starts⟩ : Posting) ∈ ps :=
    (b _).2 ⟨doc, kw, hd, e3, e4, rfl, rfl⟩
  rw [h] at c
  split at c
  · rename_i hn; rw [hn] at this; simp at this
  · simp at c

theorem collectRows_none {it : IndexType} {table : GoMap KeywordIndices} {known : GoMap DocIndex}
    (ht : TableOk it table known) :
    ∀ (ks : List Str), collectRows table ks = none →
      ∀ d doc, known.get d = some doc → ¬ ∀ k ∈ ks, k ∈ doc.keys := by
  intro ks
  induction ks with
  | nil => intro h; simp [collectRows] at h
  | cons k ks ih =>
    intro h d doc hd hall
    simp only [collectRows] at h
    split at h
    · simp at h
    · rename_i hx
      cases h1 : table.get k with
      | none => exact table_none ht h1 d doc hd (hall k (by simp))
      | some ki =>
        cases h2 : collectRows table ks with
        | none => exact ih h2 d doc hd (fun k' hk' => hall k' (by simp [hk']))
        | some rows => exact hx ki rows h1 h2

/-- Rows with pointers are admissible for all bases `< bound positions`: the part of the row
behind the pointer is larger than every base still to come. -/
def PtrsOk (rows : List (KeywordIndices × Nat)) (bases : List Str) : Prop :=
  ∀ r ∈ rows, SortedIds r.1.docIds ∧ r.2 < r.1.docIds.length ∧
    ∀ b ∈ bases, ∀ j (_ : r.2 < j) (hj : j < r.1.docIds.length), b < r.1.docIds[j]

theorem mem_take_iff {ids : List Str} {ptr : Nat} {b : Str}
    (h : ∀ j (_ : ptr < j) (hj : j < ids.length), b < ids[j]) :
    b ∈ ids.take (ptr + 1) ↔ b ∈ ids := by
  constructor
  · exact List.mem_of_mem_take
  · intro hm
    obtain ⟨i, hi, rfl⟩ := List.mem_iff_getElem.1 hm
    rcases Nat.lt_or_ge ptr i with h' | h'
    · exact absurd (h i h' hi) (lt_irrefl _)
    · rw [List.mem_iff_getElem]
      exact ⟨i, by simp; omega, by simp⟩

theorem probeRows_spec (base : Str) (bases : List Str) (hb : ∀ b ∈ bases, b < base) :
    ∀ (rows : List (KeywordIndices × Nat)), PtrsOk rows (base :: bases) →
      (∃ rows', probeRows rows base = some (.hit rows') ∧ rows'.map (·.1) = rows.map (·.1) ∧
        PtrsOk rows' bases ∧ (∀ r ∈ rows', r.1.docIds[r.2]? = some base) ∧
        (∀ r ∈ rows, base ∈ r.1.docIds)) ∨
      (∃ rows', probeRows rows base = some (.miss rows') ∧ rows'.map (·.1) = rows.map (·.1) ∧
        PtrsOk rows' bases ∧ ∃ r ∈ rows, base ∉ r.1.docIds) ∨
      (probeRows rows base = some .stop ∧ ∃ r ∈ rows, ∀ b ∈ base :: bases, b ∉ r.1.docIds) := by
  intro rows
  induction rows with
  | nil =>
    intro _
    left
    exact ⟨[], rfl, rfl, by simp [PtrsOk], by simp, by simp⟩
  | cons r rows ih =>
    intro hok
    obtain ⟨ki, ptr⟩ := r
    obtain ⟨hs, hptr, hbig⟩ := hok (ki, ptr) (by simp)
    simp only at hs hptr hbig
    have hok' : PtrsOk rows (base :: bases) := fun r hr => hok r (by simp [hr])
    have hok'' : PtrsOk rows bases := fun r hr => by
      obtain ⟨a, b, c⟩ := hok' r hr
      exact ⟨a, b, fun x hx => c x (by simp [hx])⟩
    have hsearch := searchIndex_eq hs (start := 0) (e := ptr) (d := base) (by omega) (by omega)
      hptr (by omega)
    set L := ki.docIds.take (ptr + 1) with hL
    have hsL : SortedIds L := hs.sublist (List.take_sublist _ _)
    have hlenL : L.length = ptr + 1 := by simp [hL]; omega
    have hmemL : ∀ b ∈ base :: bases, (b ∈ L ↔ b ∈ ki.docIds) := fun b hb' =>
      mem_take_iff (fun j h1 h2 => hbig b hb' j h1 h2)
    simp only [probeRows, bind, Option.bind, hsearch]
    by_cases hm : base ∈ L
    · have hrank := getElem_rankOf hsL hm
      have hrl : rankOf L base < ptr + 1 := by
        have := (List.getElem?_eq_some_iff.1 hrank).1; omega
      have hbase : ki.docIds[rankOf L base]? = some base := by
        rw [hL, List.getElem?_take_of_lt hrl] at hrank; exact hrank
      have hbl : rankOf L base < ki.docIds.length := by omega
      rw [List.getElem?_eq_getElem hbl, Option.some.injEq] at hbase
      have hnew : SortedIds ki.docIds ∧ rankOf L base < ki.docIds.length ∧
          ∀ b ∈ bases, ∀ j (_ : rankOf L base < j) (hj : j < ki.docIds.length),
            b < ki.docIds[j] := by
        refine ⟨hs, hbl, ?_⟩
        intro b hb' j h1 h2
        have := hs.lt h1 h2
        rw [hbase] at this
        exact lt_trans (hb b hb') this
      simp only [hm, decide_true, if_true]
      rcases ih hok' with ⟨rows', e1, e2, e3, e4, e5⟩ | ⟨rows', e1, e2, e3, e4⟩ | ⟨e1, e2⟩
      · left
        refine ⟨(ki, rankOf L base) :: rows', by simp only [e1]; rfl, by simp [e2], ?_, ?_, ?_⟩
        · intro r hr
          rcases List.mem_cons.1 hr with rfl | hr
          · exact hnew
          · exact e3 r hr
        · intro r hr
          rcases List.mem_cons.1 hr with rfl | hr
          · simp only; rw [List.getElem?_eq_getElem hbl, hbase]
          · exact e4 r hr
        · intro r hr
          rcases List.mem_cons.1 hr with rfl | hr
          · exact (hmemL base (by simp)).1 hm
          · exact e5 r hr
      · right; left
        refine ⟨(ki, rankOf L base) :: rows', by simp only [e1]; rfl, by simp [e2], ?_, ?_⟩
        · intro r hr
          rcases List.mem_cons.1 hr with rfl | hr
          · exact hnew
          · exact e3 r hr
        · obtain ⟨r, hr, hr2⟩ := e4
          exact ⟨r, by simp [hr], hr2⟩
      · right; right
        refine ⟨by simp only [e1]; rfl, ?_⟩
        obtain ⟨r, hr, hr2⟩ := e2
        exact ⟨r, by simp [hr], hr2⟩
    · simp only [hm, decide_false, Bool.false_eq_true, if_false]
      have hbaseout : base ∉ ki.docIds := fun h => hm ((hmemL base (by simp)).2 h)
      by_cases hp0 : rankOf L base = 0
      · right; right
        rw [if_pos hp0]
        refine ⟨rfl, (ki, ptr), by simp, ?_⟩
        intro b hb' hbm
        have hbL := (hmemL b hb').2 hbm
        obtain ⟨i, hi, hi2⟩ := List.mem_iff_getElem.1 hbL
        have := le_of_rankOf_le hsL (d := base) (i := i) (by omega) hi
        rw [hi2] at this
        rcases List.mem_cons.1 hb' with rfl | hb''
        · exact hm hbL
        · exact absurd (hb b hb'') (not_lt.2 this)
      · right; left
        rw [if_neg hp0]
        refine ⟨(ki, rankOf L base - 1) :: rows, rfl, by simp, ?_, (ki, ptr), by simp, hbaseout⟩
        have hrle := rankOf_le L base
        intro r hr
        rcases List.mem_cons.1 hr with rfl | hr
        · refine ⟨hs, ?_, ?_⟩
          · show rankOf L base - 1 < ki.docIds.length
            omega
          intro b hb' j h1 h2
          simp only at h1 h2 ⊢
          rcases Nat.lt_or_ge ptr j with h' | h'
          · exact hbig b (by simp [hb']) j h' h2
          · have := le_of_rankOf_le hsL (d := base) (i := j) (by omega) (by omega)
            simp only [hL, List.getElem_take] at this
            exact lt_of_lt_of_le (hb b hb') this
        · exact hok'' r hr

/-- Does the base document go into the result? -/
def LoopQ (s : Indexer) (docIds : Option (List Str)) (rows : List KeywordIndices) (d : Str) : Prop :=
  Allowed docIds d ∧ (∀ ki ∈ rows, d ∈ ki.docIds) ∧ s.docsState.get d = some 0

theorem allowed_iff (docIds : Option (List Str)) (d : Str) :
    notAllowed docIds d = false ↔ Allowed docIds d := by
  cases docIds with
  | none => simp [Allowed, notAllowed]
  | some ds => simp [Allowed, notAllowed]

/-- The main loop: the documents of `row0` from the back, exactly those that are allowed,
in all rows, and in state 0. -/
theorem lookupLoop_spec (log2 : Rat → Rat) (s : Indexer) (avg : Rat) (row0 : KeywordIndices)
    (tokens : List Str) (docIds : Option (List Str)) (countOnly : Bool)
    (hs0 : SortedIds row0.docIds) (kis : List KeywordIndices) (score : Str → IndexedDoc)
    (hscore : ∀ base p rows', row0.docIds[p]? = some base → rows'.map (·.1) = kis →
      (∀ r ∈ rows', r.1.docIds[r.2]? = some base) → LoopQ s docIds kis base →
      scoreDoc log2 s avg base (((row0, p) :: rows').take tokens.length)
        (tokens.map List.length) = some (score base)) :
    ∀ (p : Nat) (rows : List (KeywordIndices × Nat)) (acc : List IndexedDoc × Nat),
      p ≤ row0.docIds.length → rows.map (·.1) = kis →
      PtrsOk rows (row0.docIds.take p) →
      ∃ L : List Str, lookupLoop log2 s avg row0 tokens docIds countOnly p rows acc =
          some (if countOnly then acc.1 else acc.1 ++ L.map score, acc.2 + L.length) ∧
        L.Sublist (row0.docIds.take p).reverse ∧
        ∀ d, d ∈ L ↔ d ∈ row0.docIds.take p ∧ LoopQ s docIds kis d := by
  intro p
  induction p with
  | zero =>
    intro rows acc _ _ _
    refine ⟨[], ?_, by simp, by simp⟩
    cases countOnly <;> simp [lookupLoop]
  | succ p ih =>
    intro rows acc hp hmap hptrs
    have hpl : p < row0.docIds.length := by omega
    have htake : row0.docIds.take (p + 1) = row0.docIds.take p ++ [row0.docIds[p]] :=
      List.take_succ_eq_append_getElem hpl
    have hget : row0.docIds[p]? = some row0.docIds[p] := List.getElem?_eq_getElem hpl
    set base := row0.docIds[p] with hbase
    have hlt : ∀ b ∈ row0.docIds.take p, b < base := by
      intro b hb
      obtain ⟨i, hi, rfl⟩ := List.mem_iff_getElem.1 hb
      simp only [List.length_take] at hi
      rw [List.getElem_take]
      exact hs0.lt (by omega) hpl
    have hptrs' : PtrsOk rows (base :: row0.docIds.take p) := by
      intro r hr
      obtain ⟨a, b, c⟩ := hptrs r hr
      exact ⟨a, b, fun x hx => c x (by rw [htake]; simp at hx ⊢; tauto)⟩
    have hptrs'' : PtrsOk rows (row0.docIds.take p) := by
      intro r hr
      obtain ⟨a, b, c⟩ := hptrs r hr
      exact ⟨a, b, fun x hx => c x (by rw [htake]; simp; tauto)⟩
    have hmemrows : ∀ ki, ki ∈ kis ↔ ∃ r ∈ rows, r.1 = ki := by
      intro ki; rw [← hmap]; simp
    -- result when the base document is not taken
    have hskip : ¬ LoopQ s docIds kis base → ∀ rows', rows'.map (·.1) = kis →
        PtrsOk rows' (row0.docIds.take p) →
        ∃ L : List Str, lookupLoop log2 s avg row0 tokens docIds countOnly p rows' acc =
          some (if countOnly then acc.1 else acc.1 ++ L.map score, acc.2 + L.length) ∧
        L.Sublist (row0.docIds.take (p + 1)).reverse ∧
        ∀ d, d ∈ L ↔ d ∈ row0.docIds.take (p + 1) ∧ LoopQ s docIds kis d := by
      intro hnq rows' hm' hp'
      obtain ⟨L, h1, h2, h3⟩ := ih rows' acc (by omega) hm' hp'
      refine ⟨L, h1, ?_, ?_⟩
      · rw [htake, List.reverse_append]
        simpa using h2.trans (List.sublist_cons_self _ _)
      · intro d
        rw [h3, htake]
        simp only [List.mem_append, List.mem_singleton]
        constructor
        · rintro ⟨a, b⟩; exact ⟨Or.inl a, b⟩
        · rintro ⟨a | rfl, b⟩
          · exact ⟨a, b⟩
          · exact absurd b hnq
    rw [lookupLoop]
    simp only [hget]
    by_cases hall : Allowed docIds base
    · rw [(allowed_iff docIds base).2 hall]
      simp only [Bool.false_eq_true, if_false]
      rcases probeRows_spec base (row0.docIds.take p) hlt rows hptrs' with
        ⟨rows', e1, e2, e3, e4, e5⟩ | ⟨rows', e1, e2, e3, r, hr, hr2⟩ | ⟨e1, r, hr, hr2⟩
      · rw [e1]
        simp only
        by_cases hst : s.docsState.get base = some 0
        · rw [if_neg (by simp [hst])]
          have hq : LoopQ s docIds kis base := by
            refine ⟨hall, ?_, hst⟩
            intro ki hki
            obtain ⟨r, hr, rfl⟩ := (hmemrows ki).1 hki
            exact e5 r hr
          rw [hscore base p rows' hget (by rw [e2, hmap]) e4 hq]
          simp only
          obtain ⟨L, h1, h2, h3⟩ := ih rows'
            (if countOnly then acc.1 else acc.1 ++ [score base], acc.2 + 1)
            (by omega) (by rw [e2, hmap]) e3
          refine ⟨base :: L, ?_, ?_, ?_⟩
          · rw [h1]
            cases countOnly
            · simp; omega
            · simp; omega
          · rw [htake, List.reverse_append]
            simpa using h2
          · intro d
            rw [htake]
            simp only [List.mem_cons, h3, List.mem_append, List.not_mem_nil, or_false]
            constructor
            · rintro (rfl | ⟨a, b⟩)
              · exact ⟨Or.inr rfl, hq⟩
              · exact ⟨Or.inl a, b⟩
            · rintro ⟨a | rfl, b⟩
              · exact Or.inr ⟨a, b⟩
              · exact Or.inl rfl
        · rw [if_pos hst]
          exact hskip (fun h => hst h.2.2) rows' (by rw [e2, hmap]) e3
      · rw [e1]
        simp only
        exact hskip (fun h => hr2 (h.2.1 r.1 ((hmemrows _).2 ⟨r, hr, rfl⟩))) rows'
          (by rw [e2, hmap]) e3
      · rw [e1]
        simp only
        refine ⟨[], ?_, by simp, ?_⟩
        · cases countOnly <;> simp
        · intro d
          simp only [List.not_mem_nil, false_iff, not_and]
          intro hd hq
          rw [htake] at hd
          simp only [List.mem_append, List.mem_singleton] at hd
          exact hr2 d (by simp; tauto) (hq.2.1 r.1 ((hmemrows _).2 ⟨r, hr, rfl⟩))
    · have hf : notAllowed docIds base = true := by
        cases h : notAllowed docIds base with
        | false => exact absurd ((allowed_iff docIds base).1 h) hall
        | true => rfl
      rw [if_pos hf]
      exact hskip (fun h => hall h.1) rows hmap hptrs''


/-! ## What is stored for a returned document -/

/-- Rows and pointers of the tokens at a base document. -/
def AtDoc (it : IndexType) (known : GoMap DocIndex) (base : Str) (tokens : List Str)
    (R : List (KeywordIndices × Nat)) : Prop :=
  List.Forall₂ (fun t r => RowOk it known t r.1 ∧ r.1.docIds[r.2]? = some base) tokens R

theorem locsAt_spec {known : GoMap DocIndex} {base : Str} {doc : DocIndex}
    (hkn : ∀ d doc, known.get d = some doc → doc.docId = d ∧ doc.Ok)
    (hd : known.get base = some doc) {tokens : List Str} {R : List (KeywordIndices × Nat)}
    (h : AtDoc .locs known base tokens R) : locsAt R = some (tokens.map doc.startsOf) := by
  induction h with
  | nil => rfl
  | @cons t r ts R hr _ ih =>
    obtain ⟨ki, ptr⟩ := r
    simp only [locsAt, bind, Option.bind, (hr.1.data hkn hr.2 hd).1 rfl, ih, pure, List.map_cons]

/-- Number of known documents with a key. -/
def dfOf (known : GoMap DocIndex) (k : Str) : Nat := known.count (fun doc => doc.keys.contains k)

theorem RowOk.length {it known k ki} (h : RowOk it known k ki) : ki.docIds.length = dfOf known k := by
  rw [dfOf, ← GoMap.length_keysWhere]
  apply List.Perm.length_eq
  rw [List.perm_ext_iff_of_nodup h.sorted.nodup (GoMap.keysWhere_nodup _ _)]
  intro d
  rw [h.mem, GoMap.mem_keysWhere]
  simp

theorem bm25Sum_spec (log2 : Rat → Rat) (o : IndexerOpts) (n d avg : Rat)
    {known : GoMap DocIndex} {base : Str} {doc : DocIndex}
    (hkn : ∀ d doc, known.get d = some doc → doc.docId = d ∧ doc.Ok)
    (hd : known.get base = some doc) (hit : o.indexType ≠ .docIds) {tokens : List Str}
    {R : List (KeywordIndices × Nat)}
    (h : AtDoc o.indexType known base tokens R) :
    bm25Sum log2 o n d avg R =
      some (bm25Spec log2 o.bm25 n avg d (doc.tfOf o.indexType) (dfOf known) tokens) := by
  induction h with
  | nil => rfl
  | @cons t r ts R hr _ ih =>
    obtain ⟨ki, ptr⟩ := r
    obtain ⟨hr1, hr2⟩ := hr
    have hpos := hr1.pos
    have hlen := hr1.length
    have hfreq : rowFrequency o.indexType ki ptr = some (doc.tfOf o.indexType t) := by
      have hdata := hr1.data hkn hr2 hd
      cases hi : o.indexType with
      | docIds => exact absurd hi hit
      | freqs => simpa [DocIndex.tfOf, rowFrequency] using hdata.2 hi
      | locs => simp [DocIndex.tfOf, rowFrequency, hdata.1 hi]
    simp only [bm25Sum, bind, Option.bind]
    rw [ih, hfreq]
    simp only at hpos hlen
    simp only [bm25Spec, List.map_cons, List.sum_cons]
    cases o.bm25 with
    | none => simp [pure]
    | some p =>
      simp only [hlen, pure]
      have hpos' : dfOf known t > 0 := by omega
      simp only [hpos', true_and]
      split <;> simp

theorem scoreDoc_spec (log2 : Rat → Rat) {s : Indexer} {known : GoMap DocIndex} (hc : Core s known)
    (avg : Rat) {base : Str} {doc : DocIndex} (hd : known.get base = some doc)
    {tokens : List Str} {R : List (KeywordIndices × Nat)}
    (ht : s.opts.indexType = .locs → tokens ≠ [])
    (h : AtDoc s.opts.indexType known base tokens R) :
    scoreDoc log2 s avg base R (tokens.map List.length) =
      some (expectedDoc log2 s.opts s.numDocs avg (dfOf known) tokens doc) := by
  obtain ⟨hid, -⟩ := hc.ok base doc hd
  have hlen : (s.docTokenLens.get base).getD 0 = doc.tokenLen := by
    rw [hc.lens, hd]
    simp only [Option.bind_some]
    split
    · rename_i h0; simp [h0]
    · rfl
  unfold scoreDoc expectedDoc
  rw [hlen, hid]
  cases hi : s.opts.indexType with
  | docIds => rfl
  | freqs =>
    have := bm25Sum_spec log2 s.opts s.numDocs doc.tokenLen avg hc.ok hd (by simp [hi]) h
    simp only [this, hi, bind, Option.bind, pure]
  | locs =>
    have hbm := bm25Sum_spec log2 s.opts s.numDocs doc.tokenLen avg hc.ok hd (by simp [hi]) h
    rw [hi] at h hbm
    have hl := locsAt_spec hc.ok hd h
    simp only [hl, hbm, bind, Option.bind, pure, List.length_map]
    have hcount : (tokens.map doc.startsOf).countP (fun l => decide (l.length > 0)) = tokens.length ↔
        ∀ t ∈ tokens, doc.startsOf t ≠ [] := by
      have e : tokens.length = (tokens.map doc.startsOf).length := by simp
      rw [e, List.countP_eq_length]
      simp [List.length_pos_iff]
    by_cases hall : ∀ t ∈ tokens, doc.startsOf t ≠ []
    · rw [if_neg (by rw [Ne, not_not]; exact hcount.2 hall), if_pos hall]
      obtain ⟨v, ps, e1, -⟩ := computeTokenProximity_spec (tokens.map doc.startsOf)
        (tokens.map List.length) (by simpa using ht hi) (by simpa using hall) (by simp)
      simp [e1]
    · rw [if_pos (fun h => hall (hcount.1 h)), if_neg hall]

theorem atDoc_take {it : IndexType} {known : GoMap DocIndex} {base : Str} {ks2 : List Str} :
    ∀ {tokens : List Str} {R : List (KeywordIndices × Nat)},
      List.Forall₂ (RowOk it known) (tokens ++ ks2) (R.map (·.1)) →
      (∀ r ∈ R, r.1.docIds[r.2]? = some base) → AtDoc it known base tokens (R.take tokens.length)
  | [], R, _, _ => by simp [AtDoc]
  | t :: ts, [], h, _ => by simp at h
  | t :: ts, r :: R, h, hp => by
    simp only [List.cons_append, List.map_cons, List.forall₂_cons] at h
    simp only [List.length_cons, List.take_succ_cons]
    exact .cons ⟨h.1, hp r (by simp)⟩ (atDoc_take h.2 (fun r hr => hp r (by simp [hr])))

/-- Plain lookups are exact (the hypothesis excludes the crash of label-only requests on a
location index). -/
theorem lookup_spec (log2 : Rat → Rat) {s : Indexer} {known : GoMap DocIndex} (hc : Core s known)
    (tokens labels : List Str) (docIds : Option (List Str)) (countOnly : Bool)
    (ht : s.opts.indexType = .locs → tokens ≠ []) :
    ∃ L : List Str,
      s.lookup log2 tokens labels docIds countOnly =
        some (if countOnly then [] else L.map (fun d => expectedDoc log2 s.opts s.numDocs
          (s.totalTokenLen / s.numDocs) (dfOf known) tokens ((known.get d).getD ⟨d, 0, []⟩)),
          L.length) ∧
      L.Pairwise (· > ·) ∧
      ∀ d, d ∈ L ↔ Matches (absOf s known).vis docIds (tokens ++ labels) d := by
  have hvis : ∀ d doc, (absOf s known).vis d = some doc ↔
      s.docsState.get d = some 0 ∧ known.get d = some doc := by
    intro d doc
    simp only [absOf]
    split <;> simp_all
  have hempty : ∀ r : Option (List IndexedDoc × Nat), r = some ([], 0) →
      (∀ d, ¬ Matches (absOf s known).vis docIds (tokens ++ labels) d) →
      ∃ L : List Str, r =
        some (if countOnly then [] else L.map (fun d => expectedDoc log2 s.opts s.numDocs
          (s.totalTokenLen / s.numDocs) (dfOf known) tokens ((known.get d).getD ⟨d, 0, []⟩)),
          L.length) ∧
      L.Pairwise (· > ·) ∧
      ∀ d, d ∈ L ↔ Matches (absOf s known).vis docIds (tokens ++ labels) d := by
    intro r hr hno
    refine ⟨[], ?_, by simp, ?_⟩
    · rw [hr]; cases countOnly <;> simp
    · intro d; simp [hno d]
  unfold Indexer.lookup
  by_cases hn : s.numDocs = 0
  · rw [if_pos hn]
    refine hempty _ rfl ?_
    rintro d ⟨_, _, doc, h1, _⟩
    have hst := ((hvis d doc).1 h1).1
    have hcnt := hc.num
    rw [hn] at hcnt
    have : d ∈ s.docsState.keysWhere (· == 0) := by
      rw [GoMap.mem_keysWhere]; exact ⟨0, hst, by simp⟩
    have := List.length_pos_of_mem this
    rw [GoMap.length_keysWhere] at this
    omega
  · rw [if_neg hn]
    simp only [Indexer.internalLookup]
    cases hcol : collectRows s.table (tokens ++ labels) with
    | none =>
      refine hempty _ rfl ?_
      rintro d ⟨_, _, doc, h1, h2⟩
      exact collectRows_none hc.table _ hcol d doc ((hvis d doc).1 h1).2 h2
    | some rows =>
      have hrows := collectRows_some hc.table _ _ hcol
      cases rows with
      | nil =>
        refine hempty _ rfl ?_
        rintro d ⟨h, _⟩
        exact h (List.forall₂_nil_right_iff.1 hrows)
      | cons row0 kis =>
        simp only
        obtain ⟨k0, ks, hk, hr0, hrs⟩ : ∃ k0 ks, tokens ++ labels = k0 :: ks ∧
            RowOk s.opts.indexType known k0 row0 ∧
            List.Forall₂ (RowOk s.opts.indexType known) ks kis := by
          cases hkk : tokens ++ labels with
          | nil => rw [hkk] at hrows; cases hrows
          | cons k0 ks =>
            rw [hkk] at hrows
            cases hrows with
            | cons a b => exact ⟨k0, ks, rfl, a, b⟩
        have hkis : ∀ d, (∀ ki ∈ kis, d ∈ ki.docIds) ↔
            ∀ k ∈ ks, ∃ doc, known.get d = some doc ∧ k ∈ doc.keys := by
          intro d
          clear hk hcol hrows hr0
          induction hrs with
          | nil => simp
          | cons a b ih => simp only [List.forall_mem_cons, a.mem, ih]
        have hsorted : ∀ ki ∈ kis, SortedIds ki.docIds ∧ 0 < ki.docIds.length := by
          clear hk hcol hrows hr0 hkis
          intro ki hki
          induction hrs with
          | nil => simp at hki
          | cons a b ih =>
            rcases List.mem_cons.1 hki with rfl | h
            · exact ⟨a.sorted, a.pos⟩
            · exact ih h
        set score : Str → IndexedDoc := fun d => expectedDoc log2 s.opts s.numDocs
          (s.totalTokenLen / s.numDocs) (dfOf known) tokens ((known.get d).getD ⟨d, 0, []⟩)
        obtain ⟨L, h1, h2, h3⟩ := lookupLoop_spec log2 s (s.totalTokenLen / s.numDocs) row0 tokens
          docIds countOnly hr0.sorted kis score (by
            intro base p rows' hp hm hat hq
            have hst := hq.2.2
            obtain ⟨doc, hdoc⟩ := Option.isSome_iff_exists.1 ((hc.state base).2 (Or.inl hst))
            have : score base = expectedDoc log2 s.opts s.numDocs
                (s.totalTokenLen / s.numDocs) (dfOf known) tokens doc := by
              simp only [score, hdoc, Option.getD_some]
            rw [this]
            apply scoreDoc_spec log2 hc _ hdoc ht
            apply atDoc_take (ks2 := labels)
            · simp only [List.map_cons, hm]
              exact hrows
            · intro r hr
              rcases List.mem_cons.1 hr with rfl | hr
              · exact hp
              · exact hat r hr)
          row0.docIds.length (kis.map (fun ki => (ki, ki.docIds.length - 1))) ([], 0) le_rfl
          (by rw [List.map_map]; exact List.map_id _) (by
            intro r hr
            simp only [List.mem_map] at hr
            obtain ⟨ki, hki, rfl⟩ := hr
            obtain ⟨a, b⟩ := hsorted ki hki
            exact ⟨a, by simp only; omega, fun x hx j h1 h2 => by simp only at h1 h2; omega⟩)
        refine ⟨L, ?_, ?_, ?_⟩
        · rw [h1]; cases countOnly <;> simp
        · refine List.Pairwise.sublist h2 ?_
          rw [List.take_length, List.pairwise_reverse]
          exact hr0.sorted
        · intro d
          rw [h3, List.take_length, hr0.mem, LoopQ, hkis, Matches, hk]
          constructor
          · rintro ⟨⟨doc, e1, e2⟩, e3, e4, e5⟩
            refine ⟨by simp, e3, doc, (hvis d doc).2 ⟨e5, e1⟩, ?_⟩
            intro k hk'
            rcases List.mem_cons.1 hk' with rfl | hk'
            · exact e2
            · obtain ⟨doc', f1, f2⟩ := e4 k hk'
              rw [e1, Option.some.injEq] at f1
              rwa [f1]
          · rintro ⟨_, e3, doc, e1, e2⟩
            obtain ⟨e5, e6⟩ := (hvis d doc).1 e1
            exact ⟨⟨doc, e6, e2 _ (by simp)⟩, e3, fun k hk' => ⟨doc, e6, e2 k (by simp [hk'])⟩, e5⟩

/-- The main loop when no candidate can be scored: a crash exactly if there is a candidate. -/
theorem lookupLoop_crash (log2 : Rat → Rat) (s : Indexer) (avg : Rat) (row0 : KeywordIndices)
    (tokens : List Str) (docIds : Option (List Str)) (countOnly : Bool)
    (hs0 : SortedIds row0.docIds) (kis : List KeywordIndices)
    (hscore : ∀ base p rows', row0.docIds[p]? = some base →
      scoreDoc log2 s avg base (((row0, p) :: rows').take tokens.length)
        (tokens.map List.length) = none) :
    ∀ (p : Nat) (rows : List (KeywordIndices × Nat)) (acc : List IndexedDoc × Nat),
      p ≤ row0.docIds.length → rows.map (·.1) = kis →
      PtrsOk rows (row0.docIds.take p) →
      (lookupLoop log2 s avg row0 tokens docIds countOnly p rows acc = some acc ∧
        ∀ d ∈ row0.docIds.take p, ¬ LoopQ s docIds kis d) ∨
      (lookupLoop log2 s avg row0 tokens docIds countOnly p rows acc = none ∧
        ∃ d ∈ row0.docIds.take p, LoopQ s docIds kis d) := by
  intro p
  induction p with
  | zero => intro rows acc _ _ _; left; simp [lookupLoop]
  | succ p ih =>
    intro rows acc hp hmap hptrs
    have hpl : p < row0.docIds.length := by omega
    have htake : row0.docIds.take (p + 1) = row0.docIds.take p ++ [row0.docIds[p]] :=
      List.take_succ_eq_append_getElem hpl
    have hget : row0.docIds[p]? = some row0.docIds[p] := List.getElem?_eq_getElem hpl
    set base := row0.docIds[p] with hbase
    have hlt : ∀ b ∈ row0.docIds.take p, b < base := by
      intro b hb
      obtain ⟨i, hi, rfl⟩ := List.mem_iff_getElem.1 hb
      simp only [List.length_take] at hi
      rw [List.getElem_take]
      exact hs0.lt (by omega) hpl
    have hptrs' : PtrsOk rows (base :: row0.docIds.take p) := by
      intro r hr
      obtain ⟨a, b, c⟩ := hptrs r hr
      exact ⟨a, b, fun x hx => c x (by rw [htake]; simp at hx ⊢; tauto)⟩
    have hptrs'' : PtrsOk rows (row0.docIds.take p) := by
      intro r hr
      obtain ⟨a, b, c⟩ := hptrs r hr
      exact ⟨a, b, fun x hx => c x (by rw [htake]; simp; tauto)⟩
    have hmemrows : ∀ ki, ki ∈ kis ↔ ∃ r ∈ rows, r.1 = ki := by
      intro ki; rw [← hmap]; simp
    have hskip : ¬ LoopQ s docIds kis base → ∀ rows', rows'.map (·.1) = kis →
        PtrsOk rows' (row0.docIds.take p) →
        (lookupLoop log2 s avg row0 tokens docIds countOnly p rows' acc = some acc ∧
          ∀ d ∈ row0.docIds.take (p + 1), ¬ LoopQ s docIds kis d) ∨
        (lookupLoop log2 s avg row0 tokens docIds countOnly p rows' acc = none ∧
          ∃ d ∈ row0.docIds.take (p + 1), LoopQ s docIds kis d) := by
      intro hnq rows' hm' hp'
      rcases ih rows' acc (by omega) hm' hp' with ⟨h1, h2⟩ | ⟨h1, d, h2, h3⟩
      · left
        refine ⟨h1, ?_⟩
        intro d hd
        rw [htake] at hd
        simp only [List.mem_append, List.mem_singleton] at hd
        rcases hd with hd | rfl
        · exact h2 d hd
        · exact hnq
      · right
        exact ⟨h1, d, by rw [htake]; simp [h2], h3⟩
    rw [lookupLoop]
    simp only [hget]
    by_cases hall : Allowed docIds base
    · rw [(allowed_iff docIds base).2 hall]
      simp only [Bool.false_eq_true, if_false]
      rcases probeRows_spec base (row0.docIds.take p) hlt rows hptrs' with
        ⟨rows', e1, e2, e3, e4, e5⟩ | ⟨rows', e1, e2, e3, r, hr, hr2⟩ | ⟨e1, r, hr, hr2⟩
      · rw [e1]
        simp only
        by_cases hst : s.docsState.get base = some 0
        · rw [if_neg (by simp [hst]), hscore base p rows' hget]
          right
          refine ⟨rfl, base, by rw [htake]; simp, hall, ?_, hst⟩
          intro ki hki
          obtain ⟨r, hr, rfl⟩ := (hmemrows ki).1 hki
          exact e5 r hr
        · rw [if_pos hst]
          exact hskip (fun h => hst h.2.2) rows' (by rw [e2, hmap]) e3
      · rw [e1]
        simp only
        exact hskip (fun h => hr2 (h.2.1 r.1 ((hmemrows _).2 ⟨r, hr, rfl⟩))) rows'
          (by rw [e2, hmap]) e3
      · rw [e1]
        simp only
        left
        refine ⟨trivial, ?_⟩
        intro d hd hq
        rw [htake] at hd
        simp only [List.mem_append, List.mem_singleton] at hd
        exact hr2 d (by simp; tauto) (hq.2.1 r.1 ((hmemrows _).2 ⟨r, hr, rfl⟩))
    · have hf : notAllowed docIds base = true := by
        cases h : notAllowed docIds base with
        | false => exact absurd ((allowed_iff docIds base).1 h) hall
        | true => rfl
      rw [if_pos hf]
      exact hskip (fun h => hall h.1) rows hmap hptrs''

/-- A label-only request on a location index crashes exactly when some document matches. -/
theorem lookup_labels_only (log2 : Rat → Rat) {s : Indexer} {known : GoMap DocIndex}
    (hc : Core s known) (labels : List Str) (docIds : Option (List Str)) (countOnly : Bool)
    (hit : s.opts.indexType = .locs) :
    (s.lookup log2 [] labels docIds countOnly = some ([], 0) ∧
      ∀ d, ¬ Matches (absOf s known).vis docIds labels d) ∨
    (s.lookup log2 [] labels docIds countOnly = none ∧
      ∃ d, Matches (absOf s known).vis docIds labels d) := by
  have hvis : ∀ d doc, (absOf s known).vis d = some doc ↔
      s.docsState.get d = some 0 ∧ known.get d = some doc := by
    intro d doc
    simp only [absOf]
    split <;> simp_all
  unfold Indexer.lookup
  by_cases hn : s.numDocs = 0
  · rw [if_pos hn]
    left
    refine ⟨rfl, ?_⟩
    rintro d ⟨_, _, doc, h1, _⟩
    have hst := ((hvis d doc).1 h1).1
    have hcnt := hc.num
    rw [hn] at hcnt
    have : d ∈ s.docsState.keysWhere (· == 0) := by
      rw [GoMap.mem_keysWhere]; exact ⟨0, hst, by simp⟩
    have := List.length_pos_of_mem this
    rw [GoMap.length_keysWhere] at this
    omega
  · rw [if_neg hn]
    simp only [Indexer.internalLookup, List.nil_append]
    cases hcol : collectRows s.table labels with
    | none =>
      left
      refine ⟨rfl, ?_⟩
      rintro d ⟨_, _, doc, h1, h2⟩
      exact collectRows_none hc.table _ hcol d doc ((hvis d doc).1 h1).2 h2
    | some rows =>
      have hrows := collectRows_some hc.table _ _ hcol
      cases rows with
      | nil =>
        left
        refine ⟨rfl, ?_⟩
        rintro d ⟨h, _⟩
        exact h (List.forall₂_nil_right_iff.1 hrows)
      | cons row0 kis =>
        simp only
        obtain ⟨k0, ks, hk, hr0, hrs⟩ : ∃ k0 ks, labels = k0 :: ks ∧
            RowOk s.opts.indexType known k0 row0 ∧
            List.Forall₂ (RowOk s.opts.indexType known) ks kis := by
          cases labels with
          | nil => cases hrows
          | cons k0 ks => cases hrows with | cons a b => exact ⟨k0, ks, rfl, a, b⟩
        have hkis : ∀ d, (∀ ki ∈ kis, d ∈ ki.docIds) ↔
            ∀ k ∈ ks, ∃ doc, known.get d = some doc ∧ k ∈ doc.keys := by
          intro d
          clear hk hcol hrows hr0
          induction hrs with
          | nil => simp
          | cons a b ih => simp only [List.forall_mem_cons, a.mem, ih]
        have hsorted : ∀ ki ∈ kis, SortedIds ki.docIds ∧ 0 < ki.docIds.length := by
          clear hk hcol hrows hr0 hkis
          intro ki hki
          induction hrs with
          | nil => simp at hki
          | cons a b ih =>
            rcases List.mem_cons.1 hki with rfl | h
            · exact ⟨a.sorted, a.pos⟩
            · exact ih h
        have hQ : ∀ d, (d ∈ row0.docIds ∧ LoopQ s docIds kis d) ↔
            Matches (absOf s known).vis docIds labels d := by
          intro d
          rw [hr0.mem, LoopQ, hkis, Matches, hk]
          constructor
          · rintro ⟨⟨doc, e1, e2⟩, e3, e4, e5⟩
            refine ⟨by simp, e3, doc, (hvis d doc).2 ⟨e5, e1⟩, ?_⟩
            intro k hk'
            rcases List.mem_cons.1 hk' with rfl | hk'
            · exact e2
            · obtain ⟨doc', f1, f2⟩ := e4 k hk'
              rw [e1, Option.some.injEq] at f1
              rwa [f1]
          · rintro ⟨_, e3, doc, e1, e2⟩
            obtain ⟨e5, e6⟩ := (hvis d doc).1 e1
            exact ⟨⟨doc, e6, e2 _ (by simp)⟩, e3, fun k hk' => ⟨doc, e6, e2 k (by simp [hk'])⟩, e5⟩
        rcases lookupLoop_crash log2 s (s.totalTokenLen / s.numDocs) row0 [] docIds countOnly
          hr0.sorted kis (by
            intro base p rows' hp
            simp [scoreDoc, hit, locsAt, computeTokenProximity])
          row0.docIds.length (kis.map (fun ki => (ki, ki.docIds.length - 1))) ([], 0) le_rfl
          (by rw [List.map_map]; exact List.map_id _) (by
            intro r hr
            simp only [List.mem_map] at hr
            obtain ⟨ki, hki, rfl⟩ := hr
            obtain ⟨a, b⟩ := hsorted ki hki
            exact ⟨a, by simp only; omega, fun x hx j h1 h2 => by simp only at h1 h2; omega⟩)
          with ⟨h1, h2⟩ | ⟨h1, d, h2, h3⟩
        · left
          refine ⟨h1, ?_⟩
          intro d hd
          obtain ⟨a, b⟩ := (hQ d).2 hd
          exact h2 d (by rwa [List.take_length]) b
        · right
          rw [List.take_length] at h2
          exact ⟨h1, d, (hQ d).1 ⟨h2, h3⟩⟩

end Riot
