import Verif.Proofs.Float32Run
import Verif.Proofs.Float32Lookup

/-!
# Which documents are found does not depend on the arithmetic
-/

namespace Riot

variable {rnd : Rat → Rat} {idf : Int → Nat → Rat} {log2 : Rat → Rat}

theorem bm25Sum_shape (o : IndexerOpts) (n : Int) (d avg avg' : Rat) :
    ∀ (rows : List (KeywordIndices × Nat)) (acc : Rat),
      (bm25Sum log2 o n d avg rows = none ∧ bm25SumF rnd idf o n d avg' acc rows = none) ∨
      ∃ v v', bm25Sum log2 o n d avg rows = some v ∧ bm25SumF rnd idf o n d avg' acc rows = some v' := by
  intro rows
  induction rows with
  | nil => intro acc; exact .inr ⟨0, acc, rfl, rfl⟩
  | cons r rows ih =>
    obtain ⟨row, ptr⟩ := r
    intro acc
    simp only [bm25Sum, bm25SumF, bind, Option.bind, pure]
    cases rowFrequency o.indexType row ptr with
    | none => exact .inl ⟨rfl, rfl⟩
    | some fr =>
      simp only []
      cases o.bm25 with
      | none =>
        simp only []
        rcases ih acc with ⟨h1, h2⟩ | ⟨v, v', h1, h2⟩
        · rw [h1, h2]; exact .inl ⟨rfl, rfl⟩
        · rw [h1, h2]; exact .inr ⟨_, _, rfl, rfl⟩
      | some p =>
        simp only []
        obtain ⟨acc', he⟩ : ∃ acc', (if row.docIds.length > 0 ∧ fr > 0 ∧ avg' ≠ 0 then
            bm25SumF rnd idf o n d avg' (rnd (acc + bm25TermF rnd (idf n row.docIds.length) fr p.k1 p.b d avg')) rows
            else bm25SumF rnd idf o n d avg' acc rows) = bm25SumF rnd idf o n d avg' acc' rows := by
          by_cases hc' : row.docIds.length > 0 ∧ fr > 0 ∧ avg' ≠ 0
          · exact ⟨_, if_pos hc'⟩
          · exact ⟨_, if_neg hc'⟩
        rw [he]
        rcases ih acc' with ⟨h1, h2⟩ | ⟨v, v', h1, h2⟩
        · rw [h1, h2]; exact .inl ⟨rfl, rfl⟩
        · rw [h1, h2]
          right
          simp only []
          by_cases hc : row.docIds.length > 0 ∧ fr > 0 ∧ avg ≠ 0
          · rw [if_pos hc]; exact ⟨_, _, rfl, rfl⟩
          · rw [if_neg hc]; exact ⟨_, _, rfl, rfl⟩

theorem scoreDoc_shape (s : Indexer) (x : Rat) (avg avg' : Rat) (base : Str)
    (rows : List (KeywordIndices × Nat)) (lens : List Nat) :
    (scoreDoc log2 s avg base rows lens = none ∧
      scoreDocF rnd idf (s.withTotal x) avg' base rows lens = none) ∨
    ∃ y z, scoreDoc log2 s avg base rows lens = some y ∧
      scoreDocF rnd idf (s.withTotal x) avg' base rows lens = some z ∧ z = { y with bm25 := z.bm25 } := by
  have hsum := bm25Sum_shape (rnd := rnd) (idf := idf) (log2 := log2) s.opts s.numDocs
    ((s.docTokenLens.get base).getD 0) avg avg' rows 0
  unfold scoreDoc scoreDocF
  simp only [Indexer.withTotal]
  cases s.opts.indexType with
  | docIds => exact .inr ⟨_, _, rfl, rfl, rfl⟩
  | freqs =>
    simp only [bind, pure]
    rcases hsum with ⟨h1, h2⟩ | ⟨v, v', h1, h2⟩
    · rw [h1, h2]; exact .inl ⟨rfl, rfl⟩
    · rw [h1, h2]; exact .inr ⟨_, _, rfl, rfl, rfl⟩
  | locs =>
    simp only [bind, pure]
    cases locsAt rows with
    | none => exact .inl ⟨rfl, rfl⟩
    | some locs =>
      simp only [Option.bind_some]
      by_cases hc : List.countP (fun l => decide (l.length > 0)) locs ≠ lens.length
      · rw [if_pos hc, if_pos hc]; exact .inr ⟨_, _, rfl, rfl, rfl⟩
      · rw [if_neg hc, if_neg hc]
        cases computeTokenProximity locs lens with
        | none => exact .inl ⟨rfl, rfl⟩
        | some ps =>
          simp only [Option.bind_some]
          rcases hsum with ⟨h1, h2⟩ | ⟨v, v', h1, h2⟩
          · rw [h1, h2]; exact .inl ⟨rfl, rfl⟩
          · rw [h1, h2]; exact .inr ⟨_, _, rfl, rfl, rfl⟩

theorem lookupLoop_shape (s : Indexer) (x : Rat) (avg avg' : Rat) (row0 : KeywordIndices) (tokens : List Str)
    (docIds : Option (List Str)) (countOnly : Bool) :
    ∀ (p : Nat) (rows : List (KeywordIndices × Nat)) (dx dy : List IndexedDoc) (n : Nat),
      List.Forall₂ (fun a b : IndexedDoc => a = { b with bm25 := a.bm25 }) dx dy →
      SameDocs (lookupLoopF rnd idf (s.withTotal x) avg' row0 tokens docIds countOnly p rows (dx, n))
        (lookupLoop log2 s avg row0 tokens docIds countOnly p rows (dy, n)) := by
  intro p
  induction p with
  | zero => intro rows dx dy n h; exact .inr ⟨dx, dy, n, rfl, rfl, h⟩
  | succ p ih =>
    intro rows dx dy n h
    unfold lookupLoop lookupLoopF
    cases row0.docIds[p]? with
    | none => exact .inl ⟨rfl, rfl⟩
    | some base =>
      simp only []
      split
      · exact ih rows dx dy n h
      cases probeRows rows base with
      | none => exact .inl ⟨rfl, rfl⟩
      | some r =>
        cases r with
        | stop => exact .inr ⟨dx, dy, n, rfl, rfl, h⟩
        | miss rows => exact ih rows dx dy n h
        | hit rows =>
          simp only []
          by_cases hc : s.docsState.get base ≠ some 0
          · rw [if_pos hc, if_pos (by exact hc)]
            exact ih rows dx dy n h
          have hc' : ¬ (s.withTotal x).docsState.get base ≠ some 0 := hc
          rw [if_neg hc, if_neg hc']
          rcases scoreDoc_shape (rnd := rnd) (idf := idf) (log2 := log2) s x avg avg' base
            (((row0, p) :: rows).take tokens.length) (tokens.map List.length) with ⟨h1, h2⟩ | ⟨y, z, h1, h2, h3⟩
          · rw [h1, h2]; exact .inl ⟨rfl, rfl⟩
          · rw [h1, h2]
            simp only []
            apply ih
            cases countOnly with
            | true => exact h
            | false => exact List.rel_append h (List.Forall₂.cons h3 .nil)

theorem forall₂_shape (l : List IndexedDoc) :
    List.Forall₂ (fun a b : IndexedDoc => a = { b with bm25 := a.bm25 }) l l := by
  induction l with
  | nil => exact .nil
  | cons a l ih => exact .cons rfl ih

theorem lookup_shape {s t : Indexer} (h : SameBut s t) (tokens labels : List Str)
    (docIds : Option (List Str)) (countOnly : Bool) (logic : Option Logic) :
    SameDocs (t.lookupF rnd idf tokens labels docIds countOnly logic)
      (s.lookup log2 tokens labels docIds countOnly logic) := by
  have hempty : SameDocs (some ([], 0)) (some ([], 0)) := .inr ⟨[], [], 0, rfl, rfl, .nil⟩
  unfold SameBut at h
  rw [h]
  generalize t.totalTokenLen = x
  unfold Indexer.lookup Indexer.lookupF
  by_cases h0 : s.numDocs = 0
  · rw [if_pos h0, if_pos (by exact h0)]; exact hempty
  have h0' : ¬ (s.withTotal x).numDocs = 0 := h0
  rw [if_neg h0, if_neg h0']
  have hint : ∀ keywords, SameDocs
      ((s.withTotal x).internalLookupF rnd idf keywords tokens docIds countOnly)
      (s.internalLookup log2 keywords tokens docIds countOnly) := by
    intro keywords
    unfold Indexer.internalLookup Indexer.internalLookupF
    simp only []
    cases collectRows s.table keywords with
    | none => exact hempty
    | some l =>
      cases l with
      | nil => exact hempty
      | cons row0 rows => exact lookupLoop_shape s x _ _ row0 tokens docIds countOnly _ _ [] [] 0 .nil
  have hlog : ∀ (keywords : List Str) (l : Logic),
      SameDocs ((s.withTotal x).logicLookup docIds countOnly keywords l)
        (s.logicLookup docIds countOnly keywords l) := by
    intro keywords l
    show SameDocs (s.logicLookup docIds countOnly keywords l) (s.logicLookup docIds countOnly keywords l)
    cases h : s.logicLookup docIds countOnly keywords l with
    | none => exact .inl ⟨rfl, rfl⟩
    | some r => exact .inr ⟨r.1, r.1, r.2, rfl, rfl, forall₂_shape _⟩
  cases logic with
  | none => exact hint _
  | some l =>
    simp only []
    split
    · exact hlog _ _
    split
    · exact hlog _ _
    · exact hint _

end Riot
