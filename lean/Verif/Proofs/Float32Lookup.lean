import Verif.Proofs.Float32Near

/-!
# Lookup with float32 arithmetic
-/

namespace Riot

variable {q : Rat} {rnd : Rat → Rat}

theorem scoreDocF_near (hq : 1 ≤ q) (hr : RoundsBy q rnd) {ki ka : Nat} {idf : Int → Nat → Rat}
    {log2 : Rat → Rat} {s : Indexer}
    (hidf : ∀ m : Nat, 0 < m → Near q ki (idf s.numDocs m) (log2 (s.numDocs / (m : Rat) + 1)))
    (hpar : ∀ p, s.opts.bm25 = some p → 0 ≤ p.k1 ∧ 0 ≤ p.b ∧ p.b ≤ 1)
    (hlen : ∀ d v, s.docTokenLens.get d = some v → 0 ≤ v)
    {avg avg' : Rat} (havg : Near q ka avg' avg) (base : Str) (rows : List (KeywordIndices × Nat))
    (lens : List Nat) :
    (scoreDoc log2 s avg base rows lens = none ∧ scoreDocF rnd idf s avg' base rows lens = none) ∨
    ∃ y x, scoreDoc log2 s avg base rows lens = some y ∧
      scoreDocF rnd idf s avg' base rows lens = some x ∧ SameButBM25 q (ki + ka + 9 + rows.length) x y := by
  have hd : 0 ≤ (s.docTokenLens.get base).getD 0 := by
    cases h : s.docTokenLens.get base with
    | none => simp
    | some v => exact hlen _ _ h
  have hsum := bm25SumF_near hq hr hidf hpar hd havg rows (ki + ka + 9) 0 0 le_rfl
    ((Near.refl q le_rfl).mono hq (Nat.zero_le _))
  have hzero : SameButBM25 q (ki + ka + 9 + rows.length) ({ docId := base } : IndexedDoc) { docId := base } :=
    ⟨rfl, (Near.refl q le_rfl).mono hq (Nat.zero_le _)⟩
  unfold scoreDoc scoreDocF
  cases s.opts.indexType with
  | docIds => exact .inr ⟨_, _, rfl, rfl, hzero⟩
  | freqs =>
    simp only [bind, pure]
    rcases hsum with ⟨h1, h2⟩ | ⟨v, v', h1, h2, h3⟩
    · rw [h1, h2]; exact .inl ⟨rfl, rfl⟩
    · rw [h1, h2]
      rw [zero_add] at h3
      exact .inr ⟨_, _, rfl, rfl, rfl, h3⟩
  | locs =>
    simp only [bind, pure]
    cases locsAt rows with
    | none => exact .inl ⟨rfl, rfl⟩
    | some locs =>
      simp only [Option.bind_some]
      by_cases hc : List.countP (fun l => decide (l.length > 0)) locs ≠ lens.length
      · rw [if_pos hc, if_pos hc]
        exact .inr ⟨_, _, rfl, rfl, hzero⟩
      · rw [if_neg hc, if_neg hc]
        cases computeTokenProximity locs lens with
        | none => exact .inl ⟨rfl, rfl⟩
        | some ps =>
          simp only [Option.bind_some]
          rcases hsum with ⟨h1, h2⟩ | ⟨v, v', h1, h2, h3⟩
          · rw [h1, h2]; exact .inl ⟨rfl, rfl⟩
          · rw [h1, h2]
            rw [zero_add] at h3
            exact .inr ⟨_, _, rfl, rfl, rfl, h3⟩

theorem sameButBM25_refl (hq : 1 ≤ q) (k : Nat) {x : IndexedDoc} (h : 0 ≤ x.bm25) : SameButBM25 q k x x :=
  ⟨rfl, (Near.refl q h).mono hq (Nat.zero_le _)⟩

theorem lookupLoopF_near (hq : 1 ≤ q) (hr : RoundsBy q rnd) {ki ka : Nat} {idf : Int → Nat → Rat}
    {log2 : Rat → Rat} {s : Indexer}
    (hidf : ∀ m : Nat, 0 < m → Near q ki (idf s.numDocs m) (log2 (s.numDocs / (m : Rat) + 1)))
    (hpar : ∀ p, s.opts.bm25 = some p → 0 ≤ p.k1 ∧ 0 ≤ p.b ∧ p.b ≤ 1)
    (hlen : ∀ d v, s.docTokenLens.get d = some v → 0 ≤ v)
    {avg avg' : Rat} (havg : Near q ka avg' avg) (row0 : KeywordIndices) (tokens : List Str)
    (docIds : Option (List Str)) (countOnly : Bool) :
    ∀ (p : Nat) (rows : List (KeywordIndices × Nat)) (dx dy : List IndexedDoc) (n : Nat),
      List.Forall₂ (SameButBM25 q (ki + ka + 9 + tokens.length)) dx dy →
      SameAnswer q (ki + ka + 9 + tokens.length)
        (lookupLoopF rnd idf s avg' row0 tokens docIds countOnly p rows (dx, n))
        (lookupLoop log2 s avg row0 tokens docIds countOnly p rows (dy, n)) := by
  intro p
  induction p with
  | zero =>
    intro rows dx dy n h
    exact .inr ⟨dx, dy, n, rfl, rfl, h⟩
  | succ p ih =>
    intro rows dx dy n h
    unfold lookupLoop lookupLoopF
    cases row0.docIds[p]? with
    | none => exact .inl ⟨rfl, rfl⟩
    | some base =>
      simp only []
      split
      · exact ih rows dx dy n h
      cases probeRows rows base with
      | none => exact .inl ⟨rfl, rfl⟩
      | some r =>
        cases r with
        | stop => exact .inr ⟨dx, dy, n, rfl, rfl, h⟩
        | miss rows => exact ih rows dx dy n h
        | hit rows =>
          simp only []
          split
          · exact ih rows dx dy n h
          rcases scoreDocF_near hq hr hidf hpar hlen havg base (((row0, p) :: rows).take tokens.length)
            (tokens.map List.length) with ⟨h1, h2⟩ | ⟨y, x, h1, h2, h3⟩
          · rw [h1, h2]; exact .inl ⟨rfl, rfl⟩
          · rw [h1, h2]
            simp only []
            apply ih
            cases countOnly with
            | true => exact h
            | false =>
              refine List.rel_append h (List.Forall₂.cons ?_ .nil)
              refine ⟨h3.1, h3.2.mono hq ?_⟩
              have := List.length_take_le tokens.length ((row0, p) :: rows)
              omega

theorem idsResult_zero (ids : List Str) (countOnly : Bool) :
    ∀ x ∈ (idsResult ids countOnly).1, x.bm25 = 0 := by
  intro x hx
  unfold idsResult at hx
  split at hx
  · simp at hx
  · obtain ⟨d, _, rfl⟩ := List.mem_map.1 hx; rfl

theorem logicLookup_zero {s : Indexer} {docIds : Option (List Str)} {countOnly : Bool} {keywords : List Str}
    {l : Logic} {r : List IndexedDoc × Nat} (h : s.logicLookup docIds countOnly keywords l = some r) :
    ∀ x ∈ r.1, x.bm25 = 0 := by
  have key : ∀ {o : Option (List Str)}, (o.bind fun ids => some (idsResult ids countOnly)) = some r →
      ∀ x ∈ r.1, x.bm25 = 0 := by
    intro o ho
    obtain ⟨ids, _, h2⟩ := Option.bind_eq_some_iff.1 ho
    rw [Option.some.injEq] at h2
    rw [← h2]; exact idsResult_zero ids countOnly
  unfold Indexer.logicLookup at h
  simp only [unionTable, bind, pure] at h
  repeat' split at h
  all_goals first
    | exact key h
    | (simp only [Option.some.injEq] at h; rw [← h]; simp)
    | simp at h

theorem forall₂_same (hq : 1 ≤ q) (k : Nat) {l : List IndexedDoc} (h : ∀ x ∈ l, 0 ≤ x.bm25) :
    List.Forall₂ (SameButBM25 q k) l l := by
  induction l with
  | nil => exact .nil
  | cons a l ih =>
    exact .cons (sameButBM25_refl hq k (h a (by simp))) (ih (fun x hx => h x (by simp [hx])))

/-- A lookup, with any request, on a state with non-negative lengths. -/
theorem lookupF_near (hq : 1 ≤ q) (hr : RoundsBy q rnd) {ki : Nat} {idf : Int → Nat → Rat}
    {log2 : Rat → Rat} {s : Indexer}
    (hidf : ∀ m : Nat, 0 < m → Near q ki (idf s.numDocs m) (log2 (s.numDocs / (m : Rat) + 1)))
    (hpar : ∀ p, s.opts.bm25 = some p → 0 ≤ p.k1 ∧ 0 ≤ p.b ∧ p.b ≤ 1)
    (hlen : ∀ d v, s.docTokenLens.get d = some v → 0 ≤ v) (htot : 0 ≤ s.totalTokenLen) (hn : 0 ≤ s.numDocs)
    (tokens labels : List Str) (docIds : Option (List Str)) (countOnly : Bool) (logic : Option Logic) :
    SameAnswer q (ki + 11 + tokens.length) (s.lookupF rnd idf tokens labels docIds countOnly logic)
      (s.lookup log2 tokens labels docIds countOnly logic) := by
  have hempty : ∀ k, SameAnswer q k (some ([], 0)) (some ([], 0)) := fun k =>
    .inr ⟨[], [], 0, rfl, rfl, .nil⟩
  unfold Indexer.lookup Indexer.lookupF
  by_cases h0 : s.numDocs = 0
  · rw [if_pos h0, if_pos h0]; exact hempty _
  rw [if_neg h0, if_neg h0]
  have hpos : (0 : Rat) < s.numDocs := by exact_mod_cast lt_of_le_of_ne hn (Ne.symm h0)
  have havg : Near q 2 (rnd (s.totalTokenLen / rnd s.numDocs)) (s.totalTokenLen / s.numDocs) := by
    have h1 := hr (s.numDocs : Rat) hpos.le
    exact ((Near.refl q htot).div hq h1 ((h1.pos hq).2 hpos) hpos).rounded hq hr
  have hint : ∀ keywords, SameAnswer q (ki + 11 + tokens.length)
      (s.internalLookupF rnd idf keywords tokens docIds countOnly)
      (s.internalLookup log2 keywords tokens docIds countOnly) := by
    intro keywords
    unfold Indexer.internalLookup Indexer.internalLookupF
    cases collectRows s.table keywords with
    | none => exact hempty _
    | some l =>
      cases l with
      | nil => exact hempty _
      | cons row0 rows =>
        exact lookupLoopF_near hq hr hidf hpar hlen havg row0 tokens docIds countOnly _ _ [] [] 0 .nil
  have hlog : ∀ (keywords : List Str) (l : Logic) (k : Nat),
      SameAnswer q k (s.logicLookup docIds countOnly keywords l) (s.logicLookup docIds countOnly keywords l) := by
    intro keywords l k
    cases h : s.logicLookup docIds countOnly keywords l with
    | none => exact .inl ⟨rfl, rfl⟩
    | some r =>
      exact .inr ⟨r.1, r.1, r.2, rfl, rfl, forall₂_same hq k (fun x hx => by rw [logicLookup_zero h x hx])⟩
  cases logic with
  | none => exact hint _
  | some l =>
    simp only []
    split
    · exact hlog _ _ _
    split
    · exact hlog _ _ _
    · exact hint _

end Riot
