import Verif.Spec.Ranker
import Mathlib.Data.List.Sort
import Mathlib.Data.List.Induction

namespace Riot

theorem F32.lt_value {a b : F32} (ha : a ≠ .nan) (hb : b ≠ .nan) :
    F32.lt a b = true ↔ a.value < b.value := by
  cases a <;> cases b <;> simp_all [F32.lt, F32.value]
  exact WithBot.coe_lt_coe.2 (WithTop.coe_lt_top _)

theorem F32.value_inj {a b : F32} (ha : a ≠ .nan) (hb : b ≠ .nan) (h : a.value = b.value) :
    a = b := by
  cases a <;> cases b <;> simp_all [F32.value]

theorem scoresLess_iff {a b : List F32} (ha : NoNaN a) (hb : NoNaN b) :
    scoresLess a b = true ↔ scoreKey b < scoreKey a := by
  induction a generalizing b with
  | nil => cases b <;> simp [scoresLess, scoreKey]
  | cons x xs ih =>
    cases b with
    | nil => simp [scoresLess, scoreKey]
    | cons y ys =>
      simp only [NoNaN, List.mem_cons, not_or] at ha hb
      have h1 := F32.lt_value (Ne.symm hb.1) (Ne.symm ha.1)
      have h2 := F32.lt_value (Ne.symm ha.1) (Ne.symm hb.1)
      simp only [scoresLess, scoreKey, List.map_cons, List.cons_lt_cons_iff]
      by_cases hyx : F32.lt y x = true
      · simp [hyx, h1.1 hyx]
      · have hny : ¬ y.value < x.value := fun h => hyx (h1.2 h)
        rw [if_neg hyx]
        by_cases hxy : F32.lt x y = true
        · rw [if_pos hxy]
          have := h2.1 hxy
          simp [hny, this.ne']
        · rw [if_neg hxy]
          have hnx : ¬ x.value < y.value := fun h => hxy (h2.2 h)
          have he : y.value = x.value := le_antisymm (not_lt.1 hnx) (not_lt.1 hny)
          rw [ih ha.2 hb.2]
          simp [he, scoreKey]

theorem scoresLess_false_iff {a b : List F32} (ha : NoNaN a) (hb : NoNaN b) :
    scoresLess a b = false ↔ scoreKey a ≤ scoreKey b := by
  rw [← Bool.not_eq_true, scoresLess_iff ha hb, not_lt]

/-- A relation given by a key into a linear order is a strict weak order. -/
theorem strictWeak_of_key {α K : Type} [LinearOrder K] (less : α → α → Bool) (key : α → K)
    (l : List α) (h : ∀ a ∈ l, ∀ b ∈ l, (less a b = true ↔ key a < key b)) :
    StrictWeakOn less l := by
  have hf : ∀ a ∈ l, ∀ b ∈ l, (less a b = false ↔ key b ≤ key a) := by
    intro a ha b hb
    rw [← Bool.not_eq_true, h a ha b hb, not_lt]
  refine ⟨?_, ?_, ?_⟩
  · intro a ha; rw [hf a ha a ha]
  · intro a ha b hb c hc h1 h2
    rw [h a ha b hb] at h1; rw [h b hb c hc] at h2; rw [h a ha c hc]
    exact lt_trans h1 h2
  · intro a ha b hb c hc h1 h2 h3 h4
    rw [hf a ha b hb] at h1; rw [hf b hb a ha] at h2
    rw [hf b hb c hc] at h3; rw [hf c hc b hb] at h4
    rw [hf a ha c hc, hf c hc a ha]
    exact ⟨le_trans h3 h1, le_trans h2 h4⟩

theorem sortScored_perm {gs : GSort} (hgs : GSortOk gs) {α : Type} [HasScores α] (rev : Bool)
    (l : List α) : (sortScored gs rev l).Perm l := by
  unfold sortScored; split
  · exact hgs.perm _ _
  · exact hgs.perm _ _

theorem sortScored_ranked {gs : GSort} (hgs : GSortOk gs) {α : Type} [HasScores α] (rev : Bool)
    (l : List α) (hn : ∀ a ∈ l, NoNaN (HasScores.scoresOf a)) : Ranked rev (sortScored gs rev l) := by
  have hmem := fun a => (sortScored_perm hgs rev l).mem_iff (a := a)
  unfold sortScored Ranked at *
  cases rev with
  | true =>
    simp only [if_true] at hmem ⊢
    have hsw : StrictWeakOn (fun a b : α => scoredLess b a) l := by
      apply strictWeak_of_key _ (fun a => scoreKey (HasScores.scoresOf a))
      intro a ha b hb
      exact scoresLess_iff (hn b hb) (hn a ha)
    refine (hgs.sorted _ _ hsw).imp_of_mem ?_
    intro a b ha hb h
    exact (scoresLess_false_iff (hn a ((hmem a).1 ha)) (hn b ((hmem b).1 hb))).1 h
  | false =>
    simp only [Bool.false_eq_true, if_false] at hmem ⊢
    have hsw : StrictWeakOn (scoredLess : α → α → Bool) l := by
      apply strictWeak_of_key _ (fun a => OrderDual.toDual (scoreKey (HasScores.scoresOf a)))
      intro a ha b hb
      rw [OrderDual.toDual_lt_toDual]
      exact scoresLess_iff (hn a ha) (hn b hb)
    refine (hgs.sorted _ _ hsw).imp_of_mem ?_
    intro a b ha hb h
    exact (scoresLess_false_iff (hn b ((hmem b).1 hb)) (hn a ((hmem a).1 ha))).1 h

/-! ## What a ranker holds after a history -/

/-- The maps of a ranker against the ideal map. -/
def RankRel {F A : Type} (r : Ranker F A) (m : Str → Option (RankData F A)) : Prop :=
  ∀ d, ((r.docs.get d).isSome ↔ (m d).isSome) ∧
    (r.fields.get d).getD none = ((m d).map (·.fields)).getD none ∧
    (r.idOnly = false → (r.content.get d).getD [] = ((m d).map (·.content)).getD [] ∧
      (r.attri.get d).getD none = ((m d).map (·.attri)).getD none)

theorem RankRel.step {F A : Type} {r : Ranker F A} {m : Str → Option (RankData F A)}
    (h : RankRel r m) (op : RankerOp F A) :
    RankRel (r.step op) (rankIdealStep m op) ∧ (r.step op).idOnly = r.idOnly := by
  cases op with
  | add d f c =>
    constructor
    · intro x
      obtain ⟨h1, h2, h3⟩ := h x
      have hd := (h d).2.2
      cases hid : r.idOnly with
      | true =>
        simp only [Ranker.step, Ranker.addDoc, hid, if_true, rankIdealStep, GoMap.get_set]
        by_cases hx : x = d
        · simp [hx]
        · simp only [if_neg hx]
          exact ⟨h1, h2, by simp⟩
      | false =>
        obtain ⟨hd1, hd2⟩ := hd hid
        obtain ⟨h3, h4⟩ := h3 hid
        rcases c with _ | ⟨c, _ | a⟩
        · simp only [Ranker.step, Ranker.addDoc, hid, rankIdealStep,
            Bool.false_eq_true, if_false]
          simp only [GoMap.get_set]
          by_cases hx : x = d
          · subst hx; simp [h3, h4]
          · simp [if_neg hx, h1, h2, h3, h4]
        · simp only [Ranker.step, Ranker.addDoc, hid, rankIdealStep, GoMap.get_set,
            Bool.false_eq_true, if_false]
          by_cases hx : x = d
          · subst hx; simp [h4]
          · simp [if_neg hx, h1, h2, h3, h4]
        · simp only [Ranker.step, Ranker.addDoc, hid, rankIdealStep, GoMap.get_set,
            Bool.false_eq_true, if_false]
          by_cases hx : x = d
          · subst hx; simp
          · simp [if_neg hx, h1, h2, h3, h4]
    · simp only [Ranker.step, Ranker.addDoc]
      split
      · rfl
      · split <;> rfl
  | remove d =>
    constructor
    · intro x
      obtain ⟨h1, h2, h3⟩ := h x
      cases hid : r.idOnly with
      | true =>
        simp only [Ranker.step, Ranker.removeDoc, hid, if_true, rankIdealStep, GoMap.get_del]
        by_cases hx : x = d
        · simp [hx]
        · simp only [if_neg hx]
          exact ⟨h1, h2, by simp⟩
      | false =>
        obtain ⟨h3, h4⟩ := h3 hid
        simp only [Ranker.step, Ranker.removeDoc, hid, rankIdealStep, GoMap.get_del,
            Bool.false_eq_true, if_false]
        by_cases hx : x = d
        · simp [hx]
        · simp [if_neg hx, h1, h2, h3, h4]
    · simp only [Ranker.step, Ranker.removeDoc]
      split <;> rfl

theorem rank_run_rel {F A : Type} (idOnly : Bool) (h : List (RankerOp F A)) :
    RankRel (Ranker.run idOnly h) (rankIdeal h) ∧ (Ranker.run idOnly h).idOnly = idOnly := by
  induction h using List.reverseRecOn with
  | nil =>
    refine ⟨?_, rfl⟩
    intro d
    simp [Ranker.run, Ranker.init, rankIdeal]
  | append_singleton h op ih =>
    simp only [Ranker.run, rankIdeal, List.foldl_append, List.foldl_cons, List.foldl_nil] at ih ⊢
    obtain ⟨a, b⟩ := ih
    obtain ⟨c, d⟩ := a.step op
    exact ⟨c, d.trans b⟩

/-- `rankOutDocs` in terms of the registered data. -/
theorem rankOutDocs_spec {F A : Type} {r : Ranker F A} {m : Str → Option (RankData F A)}
    (h : RankRel r m) (hid : r.idOnly = false) (o : RankOpts F) (docs : List IndexedDoc) :
    r.rankOutDocs o false docs = (docs.filterMap (expectedScored m o.score),
      (docs.filterMap (expectedScored m o.score)).length) ∧
    r.rankOutDocs o true docs = ([], (docs.filterMap (expectedScored m o.score)).length) := by
  induction docs with
  | nil => simp [Ranker.rankOutDocs]
  | cons d ds ih =>
    obtain ⟨h1, h2, h3⟩ := h d.docId
    obtain ⟨h3, h4⟩ := h3 hid
    simp only [Ranker.rankOutDocs, ih.1, ih.2, List.filterMap_cons, expectedScored]
    cases hm : m d.docId with
    | none =>
      have : ¬ (r.docs.get d.docId).isSome = true := by rw [h1, hm]; simp
      simp [this]
    | some x =>
      have : (r.docs.get d.docId).isSome = true := by rw [h1, hm]; simp
      rw [hm] at h2 h3 h4
      simp only [Option.map_some, Option.getD_some] at h2 h3 h4
      simp only [this, if_true, h2, h3, h4]
      by_cases hs : o.score d x.fields = []
      · simp [hs]
      · have : 0 < (o.score d x.fields).length := List.length_pos_iff.2 hs
        simp [hs, this, mkScoredID]

/-- `rankOutIDs` in terms of the registered data. -/
theorem rankOutIDs_spec {F A : Type} {r : Ranker F A} {m : Str → Option (RankData F A)}
    (h : RankRel r m) (o : RankOpts F) (docs : List IndexedDoc) :
    r.rankOutIDs o false docs = ((docs.filterMap (expectedScored m o.score)).map (·.scoredID),
      (docs.filterMap (expectedScored m o.score)).length) ∧
    r.rankOutIDs o true docs = ([], (docs.filterMap (expectedScored m o.score)).length) := by
  induction docs with
  | nil => simp [Ranker.rankOutIDs]
  | cons d ds ih =>
    obtain ⟨h1, h2, _⟩ := h d.docId
    simp only [Ranker.rankOutIDs, ih.1, ih.2, List.filterMap_cons, expectedScored]
    cases hm : m d.docId with
    | none =>
      have : ¬ (r.docs.get d.docId).isSome = true := by rw [h1, hm]; simp
      simp [this]
    | some x =>
      have : (r.docs.get d.docId).isSome = true := by rw [h1, hm]; simp
      rw [hm] at h2
      simp only [Option.map_some, Option.getD_some] at h2
      simp only [this, if_true, h2]
      by_cases hs : o.score d x.fields = []
      · simp [hs]
      · have : 0 < (o.score d x.fields).length := List.length_pos_iff.2 hs
        simp [hs, this, mkScoredID]

/-- Sorting and cutting, for legal offsets. -/
theorem sortAndCut_page {F : Type} (gs : GSort) {α : Type} [HasScores α] (o : RankOpts F)
    (l : List α) (n off m : Nat) (ho : o.outputOffset = off) (hm : o.maxOutputs = m) :
    sortAndCut gs o false (l, n) = some (page off m (sortScored gs o.reverseOrder l), n) := by
  unfold sortAndCut
  generalize hL : sortScored gs o.reverseOrder l = L
  simp only [Bool.false_eq_true, if_false, maxOutput, ho, hm]
  by_cases h0 : m = 0
  · subst h0
    have : goSub L (min (off : Int) L.length) L.length = some (L.drop off) := by
      unfold goSub
      rw [if_pos (by omega)]
      congr 1
      rw [show (L.length : Int).toNat = L.length by omega, List.take_length]
      by_cases h : off ≤ L.length
      · congr 1; omega
      · rw [List.drop_eq_nil_of_le (by omega : L.length ≤ off), List.drop_eq_nil_of_le]; omega
    simp [this, page]
  · have hne : ((m : Nat) : Int) ≠ 0 := by omega
    have : goSub L (min (off : Int) L.length) (min ((off : Int) + m) L.length) =
        some ((L.drop off).take m) := by
      unfold goSub
      rw [if_pos (by omega)]
      congr 1
      rw [List.take_drop]
      by_cases h : off ≤ L.length
      · rw [show (min (off : Int) L.length).toNat = off by omega]
        congr 1
        by_cases h2 : off + m ≤ L.length
        · congr 1; omega
        · rw [List.take_of_length_le (by omega : L.length ≤ off + m), List.take_of_length_le]
          omega
      · rw [List.drop_eq_nil_of_le, List.drop_eq_nil_of_le] <;> simp <;> omega
    simp [this, page, h0]

end Riot
