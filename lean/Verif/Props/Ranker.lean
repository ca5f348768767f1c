import Verif.Proofs.Ranker
import Verif.Spec.Witness

/-!
# The ranker: C20, C21, C22, C23

`Ranker.run idOnly h` is a ranker after the AddDoc/RemoveDoc calls `h`; `gs` is any
implementation of `sort.Sort` (contract `GSortOk`, Spec/Ranker); `o.score` is the scoring
criteria of the request, an arbitrary function.
-/

namespace Riot

/-- An admissible `sort.Sort`: insertion sort. -/
def insGSort : GSort := fun {α} less l => l.insertionSort (fun a b : α => less b a = false)

theorem insGSort_ok : GSortOk insGSort where
  perm := fun less l => List.perm_insertionSort _ l
  sorted := by
    intro α less l hsw
    have key : ∀ (l : List α), StrictWeakOn less l →
        (l.insertionSort (fun a b => less b a = false)).Pairwise (fun a b => less b a = false) := by
      intro l
      induction l with
      | nil => intro _; simp
      | cons x l ih =>
        intro hsw
        have hsw' : StrictWeakOn less l :=
          ⟨fun a ha => hsw.irrefl a (by simp [ha]),
           fun a ha b hb c hc => hsw.trans a (by simp [ha]) b (by simp [hb]) c (by simp [hc]),
           fun a ha b hb c hc => hsw.incomp a (by simp [ha]) b (by simp [hb]) c (by simp [hc])⟩
        have hs := ih hsw'
        rw [List.insertionSort_cons]
        have hmem : ∀ y ∈ l.insertionSort (fun a b => less b a = false), y ∈ x :: l := by
          intro y hy
          rw [(List.perm_insertionSort _ l).mem_iff] at hy
          simp [hy]
        generalize hL : l.insertionSort (fun a b => less b a = false) = L at hs hmem
        clear hL ih hsw'
        induction L with
        | nil => simp
        | cons y ys ihy =>
          rw [List.orderedInsert_cons]
          have hneg : ∀ a ∈ x :: l, ∀ b ∈ x :: l, less a b = true → less b a = false := by
            intro a ha b hb h1
            by_contra h2
            have := hsw.trans a ha b hb a ha h1 (by simpa using h2)
            rw [hsw.irrefl a ha] at this; simp at this
          -- `less b a = false` is transitive on the elements
          have htr : ∀ a ∈ x :: l, ∀ b ∈ x :: l, ∀ c ∈ x :: l, less b a = false →
              less c b = false → less c a = false := by
            intro a ha b hb c hc h1 h2
            by_contra h3
            have h3 : less c a = true := by simpa using h3
            by_cases hab : less a b = true
            · have := hsw.trans c hc a ha b hb h3 hab
              rw [this] at h2; simp at h2
            · by_cases hbc : less b c = true
              · have := hsw.trans b hb c hc a ha hbc h3
                rw [this] at h1; simp at h1
              · have := (hsw.incomp a ha b hb c hc (by simpa using hab) h1 (by simpa using hbc) h2).2
                rw [this] at h3; simp at h3
          rw [List.pairwise_cons] at hs
          split
          · rename_i h
            rw [List.pairwise_cons]
            refine ⟨?_, List.pairwise_cons.2 hs⟩
            intro z hz
            rcases List.mem_cons.1 hz with rfl | hz
            · exact h
            · exact htr x (by simp) y (hmem y (by simp)) z (hmem z (by simp [hz])) h (hs.1 z hz)
          · rename_i h
            rw [List.pairwise_cons]
            refine ⟨?_, ihy hs.2 (fun z hz => hmem z (by simp [hz]))⟩
            intro z hz
            rw [(List.perm_orderedInsert _ x ys).mem_iff] at hz
            rcases List.mem_cons.1 hz with rfl | hz
            · exact hneg _ (hmem y (by simp)) _ (by simp) (by simpa using h)
            · exact hs.1 z hz
    exact key l hsw

/-! ## C23 -/

/-- **C23** (partial: score vectors without NaN). The comparison used for sorting is a strict
weak order on every list of score vectors; and it is the reverse lexicographic order of the
numeric values in which a vector that extends another one comes first. -/
theorem C23_score_order_partial (l : List (List F32)) (hn : ∀ v ∈ l, NoNaN v) :
    StrictWeakOn scoresLess l ∧
    ∀ a ∈ l, ∀ b ∈ l, (scoresLess a b = true ↔ scoreKey b < scoreKey a) := by
  refine ⟨?_, fun a ha b hb => scoresLess_iff (hn a ha) (hn b hb)⟩
  apply strictWeak_of_key _ (fun a => OrderDual.toDual (scoreKey a))
  intro a ha b hb
  rw [OrderDual.toDual_lt_toDual]
  exact scoresLess_iff (hn a ha) (hn b hb)

example : scoresLess [.fin 1, .fin 2] [.fin 1] = true ∧ scoresLess [.pinf] [.fin 3, .fin 4] = true := by
  decide +kernel

/-- **C23 is false with NaN scores** (a scoring function may return them): 1 and NaN are
incomparable, NaN and 2 are incomparable, but 2 comes before 1. -/
theorem C23_refuted_nan : ¬ StrictWeakOn scoresLess [[.fin 1], [.nan], [.fin 2]] := by
  intro h
  have := h.incomp [.fin 1] (by simp) [.nan] (by simp) [.fin 2] (by simp) rfl rfl rfl rfl
  exact absurd this.2 (by decide +kernel)

/-! ## C21 -/

/-- **C21** After any history of AddDoc/RemoveDoc calls, ranking any candidates (no paging)
returns exactly the candidates that are registered and get a score, each with its scores and
locations and the fields, content and attributes the history says, and the right count. -/
theorem C21_rank_exact {F A : Type} {gs : GSort} (hgs : GSortOk gs) (h : List (RankerOp F A))
    (docs : List IndexedDoc) (o : RankOpts F) (ho : o.outputOffset = 0) (hm : o.maxOutputs = 0) :
    ∃ l n, (Ranker.run false h).rank gs docs o false = some (.docs l, n) ∧
      l.Perm (docs.filterMap (expectedScored (rankIdeal h) o.score)) ∧ n = l.length := by
  obtain ⟨hrel, hid⟩ := rank_run_rel (A := A) false h
  refine ⟨_, _, by
    rw [Ranker.rank, hid]
    simp only [Bool.false_eq_true, if_false, Ranker.rankDocs, (rankOutDocs_spec hrel hid o docs).1]
    rw [sortAndCut_page gs o _ _ 0 0 (by simpa using ho) (by simpa using hm)]
    rfl, ?_, ?_⟩
  · simpa [page] using sortScored_perm hgs _ _
  · simpa [page] using (sortScored_perm hgs o.reverseOrder _).length_eq.symm

/-- **C21** The same for an id-only ranker, and count-only calls return no documents and the
same count, for both kinds of ranker. -/
theorem C21_rank_ids_and_counts {F A : Type} {gs : GSort} (hgs : GSortOk gs)
    (h : List (RankerOp F A)) (docs : List IndexedDoc) (o : RankOpts F)
    (ho : o.outputOffset = 0) (hm : o.maxOutputs = 0) :
    (∃ l n, (Ranker.run true h).rank gs docs o false = some (.ids l, n) ∧
      l.Perm ((docs.filterMap (expectedScored (rankIdeal h) o.score)).map (·.scoredID)) ∧
      n = l.length) ∧
    (Ranker.run true h).rank gs docs o true =
      some (.ids [], (docs.filterMap (expectedScored (rankIdeal h) o.score)).length) ∧
    (Ranker.run false h).rank gs docs o true =
      some (.docs [], (docs.filterMap (expectedScored (rankIdeal h) o.score)).length) := by
  obtain ⟨hrel, hid⟩ := rank_run_rel (A := A) true h
  obtain ⟨hrel', hid'⟩ := rank_run_rel (A := A) false h
  refine ⟨⟨_, _, by
    rw [Ranker.rank, hid]
    simp only [if_true, Ranker.rankDocID, (rankOutIDs_spec hrel o docs).1]
    rw [sortAndCut_page gs o _ _ 0 0 (by simpa using ho) (by simpa using hm)]
    rfl, ?_, ?_⟩, ?_, ?_⟩
  · simpa [page] using sortScored_perm hgs _ _
  · have := (sortScored_perm hgs o.reverseOrder
      ((docs.filterMap (expectedScored (rankIdeal h) o.score)).map (·.scoredID))).length_eq
    simpa [page] using this.symm
  · rw [Ranker.rank, hid]
    simp [Ranker.rankDocID, (rankOutIDs_spec hrel o docs).2, sortAndCut]
  · rw [Ranker.rank, hid']
    simp [Ranker.rankDocs, (rankOutDocs_spec hrel' hid' o docs).2, sortAndCut]

/-- Two registered documents (one updated), one removed, one never registered. -/
def demoRanker : List (RankerOp Nat Nat) :=
  [.add (str "1") (some 5) (some (str "old", some (some 1))), .add (str "2") (some 9) none,
   .add (str "3") (some 7) none, .remove (str "3"),
   .add (str "1") (some 6) (some (str "new", none))]

/-- Score: the field. -/
def demoScore : IndexedDoc → Option Nat → List F32 := fun _ f => f.toList.map (fun n => .fin n)

example : (Ranker.run false demoRanker).rank insGSort
    [{ docId := str "1" }, { docId := str "2" }, { docId := str "3" }, { docId := str "4" }]
    { score := demoScore } false =
    some (.docs [{ scoredID := { docId := str "2", scores := [.fin 9] }, fields := some 9 },
      { scoredID := { docId := str "1", scores := [.fin 6] }, content := str "new",
        attri := some 1, fields := some 6 }], 2) := by decide +kernel

/-! ## C20 -/

/-- **C20** (comparable scores, i.e. no NaN, cf. `C23_refuted_nan`; legal offsets). Whatever the history and the candidates, the returned documents are
ordered by their score vectors as requested. -/
theorem C20_rank_order {F A : Type} {gs : GSort} (hgs : GSortOk gs)
    (h : List (RankerOp F A)) (docs : List IndexedDoc) (o : RankOpts F)
    (hnan : ∀ d ∈ docs, ∀ f, NoNaN (o.score d f))
    (ho : 0 ≤ o.outputOffset) (hm : 0 ≤ o.maxOutputs) :
    (∃ l n, (Ranker.run false h).rank gs docs o false = some (.docs l, n) ∧
      Ranked o.reverseOrder l) ∧
    (∃ l n, (Ranker.run true h).rank gs docs o false = some (.ids l, n) ∧
      Ranked o.reverseOrder l) := by
  obtain ⟨off, hoff⟩ := Int.eq_ofNat_of_zero_le ho
  obtain ⟨m, hmm⟩ := Int.eq_ofNat_of_zero_le hm
  have hsub : ∀ {α : Type} [HasScores α] (l : List α), Ranked o.reverseOrder l →
      Ranked o.reverseOrder (page off m l) := by
    intro α _ l hl
    unfold page; split
    · exact List.Pairwise.sublist (List.drop_sublist _ _) hl
    · exact List.Pairwise.sublist ((List.take_sublist _ _).trans (List.drop_sublist _ _)) hl
  have hnn : ∀ x ∈ docs.filterMap (expectedScored (A := A) (rankIdeal h) o.score),
      NoNaN x.scoredID.scores := by
    intro x hx
    obtain ⟨d, hd, he⟩ := List.mem_filterMap.1 hx
    unfold expectedScored at he
    split at he
    · simp at he
    · split at he
      · simp at he
      · simp only [Option.some.injEq] at he
        rw [← he]; exact hnan d hd _
  constructor
  · obtain ⟨hrel, hid⟩ := rank_run_rel (A := A) false h
    refine ⟨_, _, by
      rw [Ranker.rank, hid]
      simp only [Bool.false_eq_true, if_false, Ranker.rankDocs, (rankOutDocs_spec hrel hid o docs).1]
      rw [sortAndCut_page gs o _ _ off m hoff hmm]
      rfl, ?_⟩
    exact hsub _ (sortScored_ranked hgs _ _ (fun a ha => hnn a ha))
  · obtain ⟨hrel, hid⟩ := rank_run_rel (A := A) true h
    refine ⟨_, _, by
      rw [Ranker.rank, hid]
      simp only [if_true, Ranker.rankDocID, (rankOutIDs_spec hrel o docs).1]
      rw [sortAndCut_page gs o _ _ off m hoff hmm]
      rfl, ?_⟩
    refine hsub _ (sortScored_ranked hgs _ _ (fun a ha => ?_))
    obtain ⟨x, hx, rfl⟩ := List.mem_map.1 ha
    exact hnn x hx

example : (Ranker.run true demoRanker).rank insGSort
    [{ docId := str "1" }, { docId := str "2" }] { score := demoScore, reverseOrder := true } false =
    some (.ids [{ docId := str "1", scores := [.fin 6] }, { docId := str "2", scores := [.fin 9] }], 2) := by
  decide +kernel

/-! ## C22 -/

/-- **C22** For an offset and a limit that are not negative, ranking never reads out of range
and returns the page of the complete ranking (the one returned for offset 0 and no limit);
the count is that of the complete ranking. -/
theorem C22_pagination {F A : Type} {gs : GSort} (h : List (RankerOp F A))
    (docs : List IndexedDoc) (o : RankOpts F) (off m : Nat) :
    (∃ l n, (Ranker.run false h).rank gs docs { o with outputOffset := 0, maxOutputs := 0 } false =
        some (.docs l, n) ∧
      (Ranker.run false h).rank gs docs { o with outputOffset := off, maxOutputs := m } false =
        some (.docs (page off m l), n)) ∧
    (∃ l n, (Ranker.run true h).rank gs docs { o with outputOffset := 0, maxOutputs := 0 } false =
        some (.ids l, n) ∧
      (Ranker.run true h).rank gs docs { o with outputOffset := off, maxOutputs := m } false =
        some (.ids (page off m l), n)) := by
  constructor
  · obtain ⟨hrel, hid⟩ := rank_run_rel (A := A) false h
    refine ⟨sortScored gs o.reverseOrder (docs.filterMap (expectedScored (rankIdeal h) o.score)),
      (docs.filterMap (expectedScored (A := A) (rankIdeal h) o.score)).length, ?_, ?_⟩
    rotate_right
    · rw [Ranker.rank, hid]
      simp only [Bool.false_eq_true, if_false, Ranker.rankDocs, (rankOutDocs_spec hrel hid _ docs).1]
      rw [sortAndCut_page gs _ _ _ off m rfl rfl]
      rfl
    · rw [Ranker.rank, hid]
      simp only [Bool.false_eq_true, if_false, Ranker.rankDocs, (rankOutDocs_spec hrel hid _ docs).1]
      rw [sortAndCut_page gs _ _ _ 0 0 rfl rfl]
      simp [page]
  · obtain ⟨hrel, hid⟩ := rank_run_rel (A := A) true h
    refine ⟨sortScored gs o.reverseOrder ((docs.filterMap (expectedScored (rankIdeal h) o.score)).map
      (·.scoredID)), (docs.filterMap (expectedScored (A := A) (rankIdeal h) o.score)).length, ?_, ?_⟩
    rotate_right
    · rw [Ranker.rank, hid]
      simp only [if_true, Ranker.rankDocID, (rankOutIDs_spec hrel _ docs).1]
      rw [sortAndCut_page gs _ _ _ off m rfl rfl]
      rfl
    · rw [Ranker.rank, hid]
      simp only [if_true, Ranker.rankDocID, (rankOutIDs_spec hrel _ docs).1]
      rw [sortAndCut_page gs _ _ _ 0 0 rfl rfl]
      simp [page]

/-- **C22** Consecutive pages tile the ranking: nothing is lost and nothing is repeated. -/
theorem C22_pages_tile {α : Type} (l : List α) (m k : Nat) (hm : m ≠ 0) :
    ((List.range k).map (fun i => page (i * m) m l)).flatten = l.take (k * m) := by
  induction k with
  | zero => simp
  | succ k ih =>
    rw [List.range_succ, List.map_append, List.flatten_append, ih]
    simp only [List.map_cons, List.map_nil, List.flatten_cons, List.flatten_nil, List.append_nil,
      page, if_neg hm]
    rw [Nat.succ_mul, List.take_add]

example : page 2 2 [1, 2, 3, 4, 5] = [3, 4] ∧ page 4 2 [1, 2, 3, 4, 5] = [5] ∧
    page 6 2 [1, 2, 3, 4, 5] = ([] : List Nat) ∧ page 1 0 [1, 2, 3] = [2, 3] := by decide

/-- Outside the precondition: a negative offset crashes. -/
theorem C22_negative_offset_crashes :
    (Ranker.run true demoRanker).rank insGSort [{ docId := str "1" }]
      { score := demoScore, outputOffset := -1 } false = none := by decide +kernel

end Riot
