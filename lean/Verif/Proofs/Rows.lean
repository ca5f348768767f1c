import Verif.Proofs.Search

/-! # Rows of the inverted index as lists of postings -/

namespace Riot

/-- The row with the given postings, for the given index type. -/
def mkRow (it : IndexType) (ps : List Posting) : KeywordIndices where
  docIds := ps.map (·.docId)
  frequencies := if it = .freqs then ps.map (·.frequency) else []
  locations := if it = .locs then ps.map (·.starts) else []

theorem goInsert_eq {α : Type} (l : List α) (p : Nat) (z x : α) (h : p ≤ l.length) :
    goInsert l p z x = some (l.take p ++ x :: l.drop p) := by
  have h1 : (l ++ [z]).length = l.length + 1 := by simp
  simp only [goInsert, goCopyWithin, goSet, bind, Option.bind]
  rw [if_pos (by omega)]
  simp only
  have hm : (List.take (l.length + 1 - (p + 1)) (List.drop p (l ++ [z]))) = l.drop p := by
    rw [List.drop_append_of_le_length h, List.take_append_of_le_length (by simp)]
    rw [List.take_of_length_le (by simp)]
  rw [h1, hm]
  have ht : List.take (p + 1) (l ++ [z]) = l.take p ++ [(l ++ [z])[p]'(by omega)] := by
    rw [List.take_succ_eq_append_getElem (by omega), List.take_append_of_le_length h]
  have hd : List.drop (p + 1 + (l.drop p).length) (l ++ [z]) = [] := by
    rw [List.drop_eq_nil_iff]; simp; omega
  rw [ht, hd, List.append_nil]
  rw [if_pos (by simp; omega)]
  rw [List.append_assoc, List.set_append_right _ _ (by simp [h])]
  simp [h]

theorem insertRow_mkRow (it : IndexType) (ps : List Posting) (p : Nat) (d : Str)
    (kw : KeywordIndex) (h : p ≤ ps.length) :
    insertRow it (mkRow it ps) p d kw =
      some (mkRow it (ps.take p ++ ⟨d, kw.frequency, kw.starts⟩ :: ps.drop p)) := by
  cases it <;>
    simp [insertRow, mkRow, goInsert_eq, h, bind, List.map_take, List.map_drop]

theorem newRow_eq (it : IndexType) (d : Str) (kw : KeywordIndex) :
    newRow it d kw = mkRow it [⟨d, kw.frequency, kw.starts⟩] := by
  cases it <;> simp [newRow, mkRow]

theorem moveRow_mkRow (it : IndexType) (ps : List Posting) (top ptr : Nat)
    (h : ptr < ps.length) (h2 : top < ps.length) :
    moveRow it (mkRow it ps) top ptr = some (mkRow it (ps.set top ps[ptr])) := by
  cases it <;>
    simp [moveRow, mkRow, bind, h, h2, goSet, List.map_set]

theorem cutRow_mkRow (it : IndexType) (ps : List Posting) (top ptr : Nat)
    (h : ptr ≤ ps.length) (h2 : top ≤ ptr) :
    cutRow it (mkRow it ps) top ptr = some (mkRow it (ps.take top ++ ps.drop ptr)) := by
  unfold cutRow
  by_cases hc : top = ptr
  · subst hc; simp
  · have : top ≤ ps.length := by omega
    rw [if_pos hc]
    cases it <;> simp [mkRow, bind, h, this, goCut, List.map_take, List.map_drop]

theorem goSearchLoop_spec (f : Nat → Option Bool) (g : Nat → Bool) (n : Nat)
    (hf : ∀ h, h < n → f h = some (g h)) (hg : ∀ a b, a ≤ b → b < n → g a = true → g b = true) :
    ∀ fuel i j, j - i ≤ fuel → j ≤ n → i ≤ j → (∀ k, k < i → g k = false) →
      (∀ k, j ≤ k → k < n → g k = true) →
      ∃ r, goSearchLoop f fuel i j = some r ∧ i ≤ r ∧ r ≤ j ∧ (∀ k, k < r → g k = false) ∧
        (∀ k, r ≤ k → k < n → g k = true) := by
  intro fuel
  induction fuel with
  | zero =>
    intro i j h1 h2 h3 h4 h5
    exact ⟨i, by simp [goSearchLoop], le_refl _, h3, h4, fun k hk hn => h5 k (by omega) hn⟩
  | succ fuel ih =>
    intro i j h1 h2 h3 h4 h5
    simp only [goSearchLoop]
    by_cases hij : i < j
    · rw [if_pos hij, hf _ (by omega : (i + j) / 2 < n)]
      cases hg2 : g ((i + j) / 2) with
      | false =>
        simp only
        obtain ⟨r, hr, a, b, c, d⟩ := ih ((i + j) / 2 + 1) j (by omega) h2 (by omega) (by
          intro k hk
          by_contra hc
          have := hg k ((i + j) / 2) (by omega) (by omega) (by simpa using hc)
          rw [hg2] at this; simp at this) h5
        exact ⟨r, hr, by omega, b, c, d⟩
      | true =>
        simp only
        obtain ⟨r, hr, a, b, c, d⟩ := ih i ((i + j) / 2) (by omega) (by omega) (by omega) h4 (by
          intro k hk hn
          exact hg _ k hk hn hg2)
        exact ⟨r, hr, a, by omega, c, d⟩
    · rw [if_neg hij]
      exact ⟨i, rfl, le_refl _, h3, h4, fun k hk hn => h5 k (by omega) hn⟩

/-- Go's `sort.Search` returns the least index where a monotone predicate holds. -/
theorem goSearch_spec (f : Nat → Option Bool) (g : Nat → Bool) (n : Nat)
    (hf : ∀ h, h < n → f h = some (g h)) (hg : ∀ a b, a ≤ b → b < n → g a = true → g b = true) :
    ∃ r, goSearch n f = some r ∧ r ≤ n ∧ (∀ k, k < r → g k = false) ∧
      (∀ k, r ≤ k → k < n → g k = true) := by
  obtain ⟨r, h1, _, h3, h4, h5⟩ := goSearchLoop_spec f g n hf hg n 0 n (by omega) (le_refl _)
    (by omega) (by omega) (by intro k a b; omega)
  exact ⟨r, h1, h3, h4, h5⟩

/-- postings in strictly ascending id order -/
abbrev SortedPs (ps : List Posting) : Prop := SortedIds (ps.map (·.docId))

theorem removeLoop_mkRow (it : IndexType) (docs : List Str)
    (hd : docs.Pairwise (· ≤ ·)) (ps : List Posting) (hs : SortedPs ps) :
    ∀ (n : Nat) (qs : List Posting) (top ptr dptr : Nat),
      (docs.length - dptr) + (ps.length - ptr) ≤ n →
      qs.length = ps.length → top ≤ ptr → ptr ≤ ps.length →
      qs.take top = (ps.take ptr).filter (fun p => p.docId ∉ docs) →
      qs.drop ptr = ps.drop ptr →
      (∀ j (hj : j < docs.length), j < dptr → ∀ p ∈ ps.drop ptr, docs[j] < p.docId) →
      ∃ qs' top' ptr', removeLoop it docs (mkRow it qs) top ptr dptr =
          some (mkRow it qs', top', ptr') ∧ top' ≤ ptr' ∧ ptr' ≤ qs'.length ∧
        qs'.take top' ++ qs'.drop ptr' = ps.filter (fun p => p.docId ∉ docs) := by
  intro n
  induction n with
  | zero =>
    intro qs top ptr dptr hn hl htp hpl hfront hback hdocs
    rw [removeLoop, dif_neg (by simp [mkRow]; omega)]
    refine ⟨qs, top, ptr, rfl, htp, by omega, ?_⟩
    rw [hfront, hback]
    have hp : ptr = ps.length := by omega
    subst hp
    simp
  | succ n ih =>
    intro qs top ptr dptr hn hl htp hpl hfront hback hdocs
    rw [removeLoop]
    by_cases hc : dptr < docs.length ∧ ptr < (mkRow it qs).docIds.length
    · rw [dif_pos hc]
      obtain ⟨hc1, hc2⟩ := hc
      have hc2' : ptr < qs.length := by simpa [mkRow] using hc2
      have hc2'' : ptr < ps.length := by omega
      have hget : qs[ptr] = ps[ptr] := by
        have h1 : qs.drop ptr = qs[ptr] :: qs.drop (ptr + 1) := List.drop_eq_getElem_cons hc2'
        have h2 : ps.drop ptr = ps[ptr] :: ps.drop (ptr + 1) := List.drop_eq_getElem_cons hc2''
        rw [hback, h2] at h1
        exact (List.cons.inj h1).1.symm
      have hback' : qs.drop (ptr + 1) = ps.drop (ptr + 1) := by
        rw [← List.drop_drop (l := qs), ← List.drop_drop (l := ps), hback]
      have hid : (mkRow it qs).docIds[ptr] = ps[ptr].docId := by simp [mkRow, hget]
      simp only [hid]
      have htake : ps.take (ptr + 1) = ps.take ptr ++ [ps[ptr]] :=
        List.take_succ_eq_append_getElem hc2''
      have hafter : ∀ p ∈ ps.drop (ptr + 1), ps[ptr].docId < p.docId := by
        intro p hp
        obtain ⟨i, hi, rfl⟩ := List.mem_iff_getElem.1 hp
        simp only [List.length_drop] at hi
        have := hs.lt (i := ptr) (j := ptr + 1 + i) (by omega) (by simp; omega)
        simpa using this
      have hmem : ps[ptr] ∈ ps.drop ptr := by
        rw [List.drop_eq_getElem_cons hc2'']; exact List.mem_cons_self
      have hsub : ∀ p ∈ ps.drop (ptr + 1), p ∈ ps.drop ptr := by
        intro p hp; rw [List.drop_eq_getElem_cons hc2'']; exact List.mem_cons_of_mem _ hp
      by_cases h1 : ps[ptr].docId < docs[dptr]
      · rw [if_pos h1]
        have hnot : ps[ptr].docId ∉ docs := by
          intro hm
          obtain ⟨j, hj, hj2⟩ := List.mem_iff_getElem.1 hm
          rcases Nat.lt_or_ge j dptr with h | h
          · have := hdocs j hj h _ hmem
            rw [hj2] at this; exact lt_irrefl _ this
          · have : docs[dptr] ≤ docs[j] := by
              rcases Nat.lt_or_eq_of_le h with h | h
              · exact (List.pairwise_iff_getElem.1 hd) _ _ _ _ h
              · subst h; exact le_refl _
            rw [hj2] at this
            exact lt_irrefl _ (lt_of_lt_of_le h1 this)
        have hfilter : (ps.take (ptr + 1)).filter (fun p => p.docId ∉ docs) =
            (ps.take ptr).filter (fun p => p.docId ∉ docs) ++ [ps[ptr]] := by
          rw [htake, List.filter_append]; simp [hnot]
        by_cases h2 : top ≠ ptr
        · rw [if_pos h2]
          have hmv := moveRow_mkRow it qs top ptr hc2' (by omega)
          split
          · rename_i heq; rw [hmv] at heq; simp at heq
          · rename_i ki' heq
            rw [hmv, Option.some.injEq] at heq
            subst heq
            apply ih (qs.set top qs[ptr]) (top + 1) (ptr + 1) dptr
            · omega
            · simp [hl]
            · omega
            · omega
            · rw [hfilter, ← hfront, List.take_succ_eq_append_getElem (by simp; omega)]
              rw [List.take_set_of_le (by omega)]
              simp [hget]
            · rw [List.drop_set_of_lt (by omega), hback']
            · intro j hj hjd p hp
              exact hdocs j hj hjd p (hsub p hp)
        · rw [if_neg h2]
          have h2 : top = ptr := by simpa using h2
          apply ih qs (top + 1) (ptr + 1) dptr
          · omega
          · exact hl
          · omega
          · omega
          · rw [hfilter, ← hfront, List.take_succ_eq_append_getElem (by omega)]
            subst h2; rw [hget]
          · exact hback'
          · intro j hj hjd p hp
            exact hdocs j hj hjd p (hsub p hp)
      · rw [if_neg h1]
        by_cases h2 : ps[ptr].docId = docs[dptr]
        · rw [if_pos h2]
          apply ih qs top (ptr + 1) (dptr + 1)
          · omega
          · exact hl
          · omega
          · omega
          · rw [htake, List.filter_append, hfront]
            have : ps[ptr].docId ∈ docs := by rw [h2]; exact List.getElem_mem _
            simp [this]
          · exact hback'
          · intro j hj hjd p hp
            rcases Nat.lt_or_ge j dptr with h | h
            · exact hdocs j hj h p (hsub p hp)
            · have : j = dptr := by omega
              subst this
              rw [← h2]; exact hafter p hp
        · rw [if_neg h2]
          apply ih qs top ptr (dptr + 1) (by omega) hl htp hpl hfront hback
          intro j hj hjd p hp
          rcases Nat.lt_or_ge j dptr with h | h
          · exact hdocs j hj h p hp
          · have : j = dptr := by omega
            subst this
            have hlt : docs[j] < ps[ptr].docId := lt_of_le_of_ne (not_lt.1 h1) (Ne.symm h2)
            rw [List.drop_eq_getElem_cons hc2''] at hp
            rcases List.mem_cons.1 hp with rfl | hp
            · exact hlt
            · exact lt_trans hlt (hafter p hp)
    · rw [dif_neg hc]
      refine ⟨qs, top, ptr, rfl, htp, by omega, ?_⟩
      rw [hfront, hback]
      conv_rhs => rw [← List.take_append_drop ptr ps]
      rw [List.filter_append]
      congr 1
      symm
      rw [List.filter_eq_self]
      intro p hp
      simp only [decide_eq_true_eq]
      intro hm
      obtain ⟨j, hj, hj2⟩ := List.mem_iff_getElem.1 hm
      rcases Nat.lt_or_ge j dptr with h | h
      · have := hdocs j hj h p hp
        rw [hj2] at this; exact lt_irrefl _ this
      · have : ps.drop ptr = [] := by
          have : ¬ ptr < (mkRow it qs).docIds.length := fun h' => hc ⟨by omega, h'⟩
          simp only [mkRow, List.length_map] at this
          rw [List.drop_eq_nil_iff]; omega
        rw [this] at hp; simp at hp

/-- One row of `RemoveDocs`: exactly the postings of the removed documents disappear. -/
theorem removeRow_mkRow (it : IndexType) (docs : List Str) (hd : docs.Pairwise (· ≤ ·))
    (ps : List Posting) (hs : SortedPs ps) (hne : ps ≠ []) :
    removeRow it docs (mkRow it ps) =
      some (if ps.filter (fun p => p.docId ∉ docs) = [] then none
            else some (mkRow it (ps.filter (fun p => p.docId ∉ docs)))) := by
  have h0 : 0 < ps.length := List.length_pos_of_ne_nil hne
  obtain ⟨r, hr, hrn, hr1, hr2⟩ := goSearch_spec (removeStartPred docs (mkRow it ps))
    (fun i => match docs[i]? with | some d => decide (ps[0].docId ≤ d) | none => false)
    docs.length (by
      intro h hh
      unfold removeStartPred
      rw [List.getElem?_eq_getElem hh]
      have : (mkRow it ps).docIds[0]? = some ps[0].docId := by
        simp [mkRow, h0]
      rw [this])
    (by
      intro a b hab hb h
      have ha : a < docs.length := by omega
      simp only [List.getElem?_eq_getElem ha, List.getElem?_eq_getElem hb,
        decide_eq_true_eq] at h ⊢
      refine le_trans h ?_
      rcases Nat.lt_or_eq_of_le hab with h | h
      · exact (List.pairwise_iff_getElem.1 hd) _ _ _ _ h
      · subst h; exact le_refl _)
  obtain ⟨qs', top', ptr', h1, h2, h3, h4⟩ :=
    removeLoop_mkRow it docs hd ps hs _ ps 0 0 r (le_refl _) rfl (le_refl _) (by omega)
      (by simp) rfl (by
        intro j hj hjr p hp
        have := hr1 j hjr
        simp only [List.getElem?_eq_getElem hj, decide_eq_false_iff_not, not_le] at this
        refine lt_of_lt_of_le this ?_
        obtain ⟨i, hi, rfl⟩ := List.mem_iff_getElem.1 (by simpa using hp : p ∈ ps)
        have := hs.le (i := 0) (j := i) (by omega) (by simpa using hi)
        simpa using this)
  simp only [removeRow, bind, Option.bind, hr, h1, cutRow_mkRow it qs' top' ptr' h3 h2, h4]
  simp only [mkRow, List.length_map, List.length_eq_zero_iff, pure]

end Riot
