import Verif.Spec.EngineSearch
import Verif.Proofs.Ranker
import Verif.Proofs.TopK
import Mathlib.Algebra.BigOperators.Group.List.Basic

namespace Riot

variable {F A α : Type}

/-- The documents an answer carries. -/
def Answer.list (cast : RankOut F A → Option (List α)) (a : Answer F A) : Option (List α) :=
  match a.docs with
  | none => some []
  | some d => cast d

theorem collect_ok (cast : RankOut F A → Option (List α)) (get : Answer F A → List α)
    (events : List (Option (Answer F A))) (acc : Collected α)
    (h : ∀ a, some a ∈ events → a.list cast = some (get a)) :
    collect cast false acc events =
      some { out := acc.out ++ (events.filterMap id).flatMap get
             numDocs := acc.numDocs + ((events.filterMap id).map (·.numDocs)).sum
             timeout := acc.timeout || events.any (·.isNone) } := by
  induction events generalizing acc with
  | nil => simp [collect]
  | cons e es ih =>
    have ih := fun acc => ih acc (fun a ha => h a (List.mem_cons_of_mem _ ha))
    cases e with
    | none => simp [collect, ih]
    | some a =>
      have ha := h a (by simp)
      unfold Answer.list at ha
      unfold collect
      cases hd : a.docs with
      | none =>
        rw [hd] at ha
        simp only [Option.some.injEq] at ha
        simp only [ih]
        simp [← ha, Nat.add_assoc]
      | some d =>
        rw [hd] at ha
        simp only at ha
        simp only [ha, ih]
        simp [Nat.add_assoc]

theorem collect_count (cast : RankOut F A → Option (List α))
    (events : List (Option (Answer F A))) (acc : Collected α) :
    collect cast true acc events =
      some { out := acc.out
             numDocs := acc.numDocs + ((events.filterMap id).map (·.numDocs)).sum
             timeout := acc.timeout || events.any (·.isNone) } := by
  induction events generalizing acc with
  | nil => simp [collect]
  | cons e es ih =>
    cases e with
    | none => simp [collect, ih]
    | some a => simp [collect, ih, Nat.add_assoc]

/-- The engine's cut, for legal offsets. -/
theorem maxRankOutput_page {o : RankOpts F} (L : List α) (off m : Nat)
    (ho : o.outputOffset = off) (hm : o.maxOutputs = m) :
    goSub L (maxRankOutput o L.length).1 (maxRankOutput o L.length).2 = some (page off m L) := by
  unfold maxRankOutput
  by_cases h0 : m = 0
  · subst h0
    simp only [ho, hm]
    unfold goSub page
    simp only [Nat.cast_zero, if_true]
    rw [if_pos (by omega)]
    congr 1
    rw [show (L.length : Int).toNat = L.length by omega, List.take_length]
    by_cases h : off ≤ L.length
    · congr 1; omega
    · rw [List.drop_eq_nil_of_le (by omega : L.length ≤ off), List.drop_eq_nil_of_le]; omega
  · have hne : ((m : Nat) : Int) ≠ 0 := by omega
    simp only [ho, hm, if_neg hne]
    unfold goSub page
    rw [if_pos (by omega), if_neg h0]
    congr 1
    rw [List.take_drop]
    by_cases h : off ≤ L.length
    · rw [show (min (off : Int) L.length).toNat = off by omega]
      congr 1
      by_cases h2 : off + m ≤ L.length
      · congr 1; omega
      · rw [List.take_of_length_le (by omega : L.length ≤ off + m), List.take_of_length_le]
        omega
    · rw [List.drop_eq_nil_of_le, List.drop_eq_nil_of_le] <;> simp <;> omega

theorem topk_ranked [HasScores α] (rev : Bool) (k : Nat) (Ls : List (List α))
    (hL : ∀ l ∈ Ls, Ranked rev l) (S : List α) (hS : Ranked rev S)
    (hp : S.Perm (Ls.flatMap (·.take k))) :
    ∃ R : List α, R.Perm Ls.flatten ∧ Ranked rev R ∧ R.take k = S.take k := by
  unfold Ranked at *
  cases rev with
  | true => exact topk_merge (fun a : α => scoreKey (HasScores.scoresOf a)) k Ls hL S hS hp
  | false =>
    exact topk_merge (fun a : α => OrderDual.toDual (scoreKey (HasScores.scoresOf a))) k Ls hL S hS hp

/-- How many documents a shard may keep. -/
def shardCut (off m : Nat) (l : List α) : List α := if m = 0 then l else l.take (off + m)

/-- The answer of a shard to an ordered search. -/
theorem shardAnswer_ordered {gs : GSort} (log2 : Rat → Rat) (e : SearchOpts F) (r : SearchReq F)
    (tokens : List Str) (v : ShardView F A) (docs : List IndexedDoc) (off m : Nat)
    (hf : v.found log2 tokens r = some docs)
    (hc : r.countDocsOnly = false) (hor : r.orderless = false)
    (ho : (Engine.rankOpts e r).outputOffset = off) (hm : (Engine.rankOpts e r).maxOutputs = m)
    (hgs : GSortOk gs) :
    ∃ a, Engine.shardAnswer log2 gs e r tokens v.index (Ranker.run e.idOnly v.history) = some a ∧
      a.numDocs = (v.scored (Engine.rankOpts e r).score docs).length ∧
      (e.idOnly = false → a.list asDocs = some (shardCut off m (sortScored gs
        (Engine.rankOpts e r).reverseOrder (v.scored (Engine.rankOpts e r).score docs)))) ∧
      (e.idOnly = true → a.list asIDs = some (shardCut off m (sortScored gs
        (Engine.rankOpts e r).reverseOrder
        ((v.scored (Engine.rankOpts e r).score docs).map (·.scoredID))))) := by
  have hnil : ∀ {β : Type} [HasScores β] (rev : Bool), sortScored gs rev ([] : List β) = [] := by
    intro β _ rev
    exact (List.perm_nil.1 (sortScored_perm hgs rev []))
  unfold ShardView.found at hf
  obtain ⟨⟨ds, n⟩, hl, hds⟩ := Option.map_eq_some_iff.1 hf
  simp only at hds; subst hds
  unfold Engine.shardAnswer Engine.indexerLookup
  simp only [hc, hl, Option.bind_eq_bind, Option.bind_some, Bool.false_eq_true, if_false, hor]
  by_cases h0 : ds.length = 0
  · have : ds = [] := List.length_eq_zero_iff.1 h0
    subst this
    refine ⟨{}, by simp, ?_, ?_, ?_⟩
    · simp [ShardView.scored]
    · intro _; simp [Answer.list, ShardView.scored, hnil, shardCut]
    · intro _; simp [Answer.list, ShardView.scored, hnil, shardCut]
  · rw [if_neg h0]
    simp only [Option.pure_def, Option.bind_some, Engine.rankerRank]
    obtain ⟨hrel, hid⟩ := rank_run_rel (A := A) e.idOnly v.history
    have hso : (shardOpts (Engine.rankOpts e r)).outputOffset = ((0 : Nat) : Int) := rfl
    have hsm : (shardOpts (Engine.rankOpts e r)).maxOutputs =
        (((if m = 0 then 0 else off + m : Nat)) : Int) := by
      simp only [shardOpts, hm, ho]
      split <;> rename_i h <;> split <;> omega
    have hcut : ∀ {β : Type} (l : List β), page 0 (if m = 0 then 0 else off + m) l = shardCut off m l := by
      intro β l
      unfold page shardCut
      by_cases h : m = 0
      · simp [h]
      · simp [h]
    have hss : (shardOpts (Engine.rankOpts e r)).score = (Engine.rankOpts e r).score := rfl
    have hsr : (shardOpts (Engine.rankOpts e r)).reverseOrder = (Engine.rankOpts e r).reverseOrder := rfl
    cases hb : e.idOnly with
    | false =>
      rw [hb] at hrel hid
      unfold Ranker.rank
      simp only [hid, Bool.false_eq_true, if_false, Ranker.rankDocs, (rankOutDocs_spec hrel hid _ ds).1]
      rw [sortAndCut_page gs _ _ _ 0 (if m = 0 then 0 else off + m) hso hsm]
      refine ⟨_, rfl, ?_, ?_, ?_⟩
      · rfl
      · intro _; simp only [Answer.list, asDocs, hcut, hss, hsr, ShardView.scored]
      · intro h; simp at h
    | true =>
      rw [hb] at hrel hid
      unfold Ranker.rank
      simp only [hid, if_true, Ranker.rankDocID, (rankOutIDs_spec hrel _ ds).1]
      rw [sortAndCut_page gs _ _ _ 0 (if m = 0 then 0 else off + m) hso hsm]
      refine ⟨_, rfl, ?_, ?_, ?_⟩
      · rfl
      · intro h; simp at h
      · intro _; simp only [Answer.list, asIDs, hcut, hss, hsr, ShardView.scored]


theorem shardCut_eq_take (off m : Nat) (h : m ≠ 0) (l : List α) :
    shardCut off m l = l.take (off + m) := by simp [shardCut, h]

/-- Sorting the concatenated shard answers and cutting gives a page of a global ranking. -/
theorem merge_page [HasScores α] {gs : GSort} (hgs : GSortOk gs) (rev : Bool) (off m : Nat)
    (As : List (List α)) (hn : ∀ l ∈ As, ∀ a ∈ l, NoNaN (HasScores.scoresOf a)) (T : List α)
    (hT : T.Perm (As.flatMap (fun l => shardCut off m (sortScored gs rev l)))) :
    ∃ R : List α, R.Perm As.flatten ∧ Ranked rev R ∧
      page off m (sortScored gs rev T) = page off m R := by
  have hperm : ∀ l : List α, (sortScored gs rev l).Perm l := sortScored_perm hgs rev
  have hflat : (As.map (sortScored gs rev)).flatten.Perm As.flatten := by
    clear hT hn
    induction As with
    | nil => simp
    | cons l As ih => simpa using (hperm l).append ih
  have hTn : ∀ a ∈ T, NoNaN (HasScores.scoresOf a) := by
    intro a ha
    obtain ⟨l, hl, hal⟩ := List.mem_flatMap.1 (hT.mem_iff.1 ha)
    refine hn l hl a ((hperm l).mem_iff.1 ?_)
    unfold shardCut at hal
    split at hal
    · exact hal
    · exact List.mem_of_mem_take hal
  have hS := sortScored_ranked hgs rev T hTn
  by_cases hm : m = 0
  · refine ⟨sortScored gs rev T, ?_, hS, rfl⟩
    refine (hperm T).trans (hT.trans ?_)
    simp only [shardCut, hm, if_true]
    rw [List.flatMap_def]
    exact hflat
  · have hL : ∀ l ∈ As.map (sortScored gs rev), Ranked rev l := by
      intro l hl
      obtain ⟨l', hl', rfl⟩ := List.mem_map.1 hl
      exact sortScored_ranked hgs rev l' (hn l' hl')
    obtain ⟨R, h1, h2, h3⟩ := topk_ranked rev (off + m) (As.map (sortScored gs rev)) hL
      (sortScored gs rev T) hS (by
        refine (hperm T).trans (hT.trans ?_)
        simp only [shardCut_eq_take off m hm]
        rw [List.flatMap_map])
    refine ⟨R, h1.trans hflat, h2, ?_⟩
    simp only [page, if_neg hm]
    rw [List.take_drop, List.take_drop, h3]

theorem mapM_forall2 {α β : Type} (f : α → Option β) (P : α → β → Prop) (l : List α)
    (h : ∀ x ∈ l, ∃ y, f x = some y ∧ P x y) :
    ∃ ys, l.mapM f = some ys ∧ List.Forall₂ P l ys := by
  induction l with
  | nil => exact ⟨[], rfl, .nil⟩
  | cons x l ih =>
    obtain ⟨y, h1, h2⟩ := h x (by simp)
    obtain ⟨ys, h3, h4⟩ := ih (fun z hz => h z (by simp [hz]))
    exact ⟨y :: ys, by simp [List.mapM_cons, h1, h3], .cons h2 h4⟩

theorem forall2_sublist {α β : Type} {P : α → β → Prop} {l : List α} {m m' : List β}
    (h : List.Forall₂ P l m) (hs : m'.Sublist m) : ∃ l', l'.Sublist l ∧ List.Forall₂ P l' m' := by
  induction hs generalizing l with
  | slnil => exact ⟨[], by simp, .nil⟩
  | cons b _ ih =>
    cases h with
    | cons _ h =>
      obtain ⟨l', h1, h2⟩ := ih h
      exact ⟨l', h1.cons _, h2⟩
  | cons_cons b _ ih =>
    cases h with
    | cons hp h =>
      obtain ⟨l', h1, h2⟩ := ih h
      exact ⟨_ :: l', h1.cons_cons _, .cons hp h2⟩

theorem forall2_perm {α β : Type} {P : α → β → Prop} {l : List α} {m m' : List β}
    (h : List.Forall₂ P l m) (hs : m'.Perm m) : ∃ l', l'.Perm l ∧ List.Forall₂ P l' m' := by
  induction hs generalizing l with
  | nil => exact ⟨l, List.Perm.refl _, h⟩
  | cons b _ ih =>
    cases h with
    | cons hp h =>
      obtain ⟨l', h1, h2⟩ := ih h
      exact ⟨_ :: l', h1.cons _, .cons hp h2⟩
  | swap b c l =>
    cases h with
    | cons h1 h =>
      cases h with
      | cons h2 h => exact ⟨_, List.Perm.swap _ _ _, .cons h2 (.cons h1 h)⟩
  | trans _ _ ih1 ih2 =>
    obtain ⟨l1, h1, h2⟩ := ih2 h
    obtain ⟨l2, h3, h4⟩ := ih1 h2
    exact ⟨l2, h3.trans h1, h4⟩

theorem forall2_subperm {α β : Type} {P : α → β → Prop} {l : List α} {m m' : List β}
    (h : List.Forall₂ P l m) (hs : m'.Subperm m) : ∃ l', l'.Subperm l ∧ List.Forall₂ P l' m' := by
  obtain ⟨m1, hp, hsub⟩ := hs
  obtain ⟨l1, h1, h2⟩ := forall2_sublist h hsub
  obtain ⟨l2, h3, h4⟩ := forall2_perm h2 hp.symm
  exact ⟨l2, ⟨l1, h3.symm, h1⟩, h4⟩

/-- What `shardAnswer_ordered` says about an answer. -/
structure OrderedAnswer (gs : GSort) (e : SearchOpts F) (r : SearchReq F) (off m : Nat)
    (docsOf : ShardView F A → List IndexedDoc) (v : ShardView F A) (a : Answer F A) : Prop where
  num : a.numDocs = (v.scored (Engine.rankOpts e r).score (docsOf v)).length
  docs : e.idOnly = false → a.list asDocs = some (shardCut off m (sortScored gs
        (Engine.rankOpts e r).reverseOrder (v.scored (Engine.rankOpts e r).score (docsOf v))))
  ids : e.idOnly = true → a.list asIDs = some (shardCut off m (sortScored gs
        (Engine.rankOpts e r).reverseOrder
        ((v.scored (Engine.rankOpts e r).score (docsOf v)).map (·.scoredID))))

theorem shardAnswers_ordered {gs : GSort} (hgs : GSortOk gs) (log2 : Rat → Rat) (e : SearchOpts F)
    (r : SearchReq F) (tokens : List Str) (views : List (ShardView F A))
    (docsOf : ShardView F A → List IndexedDoc) (off m : Nat)
    (hf : ∀ v ∈ views, v.found log2 tokens r = some (docsOf v))
    (hc : r.countDocsOnly = false) (hor : r.orderless = false)
    (ho : (Engine.rankOpts e r).outputOffset = off) (hm : (Engine.rankOpts e r).maxOutputs = m) :
    ∃ as, shardAnswers log2 gs e r tokens views = some as ∧
      List.Forall₂ (OrderedAnswer gs e r off m docsOf) views as := by
  apply mapM_forall2
  intro v hv
  obtain ⟨a, h1, h2, h3, h4⟩ := shardAnswer_ordered log2 e r tokens v (docsOf v) off m (hf v hv)
    hc hor ho hm hgs
  exact ⟨a, h1, h2, h3, h4⟩

theorem flatMap_of_forall2 {α β γ : Type} {P : α → β → Prop} {l : List α} {m : List β}
    (h : List.Forall₂ P l m) (f : α → List γ) (g : β → List γ)
    (hfg : ∀ a b, P a b → g b = f a) : m.flatMap g = l.flatMap f := by
  induction h with
  | nil => rfl
  | cons hp _ ih => simp [ih, hfg _ _ hp]

theorem sum_of_forall2 {α β : Type} {P : α → β → Prop} {l : List α} {m : List β}
    (h : List.Forall₂ P l m) (f : α → Nat) (g : β → Nat)
    (hfg : ∀ a b, P a b → g b = f a) : (m.map g).sum = (l.map f).sum := by
  induction h with
  | nil => rfl
  | cons hp _ ih => simp [ih, hfg _ _ hp]

theorem length_flatMap_sum {α β : Type} (l : List α) (f : α → List β) :
    (l.flatMap f).length = (l.map (fun a => (f a).length)).sum := by
  simp [List.length_flatMap]

theorem forall2_left {α β : Type} {P : α → β → Prop} {l : List α} {m : List β}
    (h : List.Forall₂ P l m) {b : β} (hb : b ∈ m) : ∃ a ∈ l, P a b := by
  induction h with
  | nil => simp at hb
  | cons hp _ ih =>
    rcases List.mem_cons.1 hb with rfl | hb
    · exact ⟨_, by simp, hp⟩
    · obtain ⟨a, ha, hp⟩ := ih hb
      exact ⟨a, by simp [ha], hp⟩

theorem scored_noNaN {v : ShardView F A} {score : IndexedDoc → Option F → List F32}
    {docs : List IndexedDoc} (hn : ∀ d ∈ docs, ∀ f, NoNaN (score d f)) :
    ∀ x ∈ v.scored score docs, NoNaN x.scoredID.scores := by
  intro x hx
  obtain ⟨d, hd, he⟩ := List.mem_filterMap.1 hx
  unfold expectedScored at he
  split at he
  · simp at he
  · split at he
    · simp at he
    · simp only [Option.some.injEq] at he
      rw [← he]; exact hn d hd _

/-- The answer `a` holds the entries `ent v`, sorted and cut (`OrderedAnswer` with any entries). -/
structure OrderedEntries (gs : GSort) (e : SearchOpts F) (r : SearchReq F) (off m : Nat) {V : Type}
    (ent : V → List (ScoredDoc F A)) (v : V) (a : Answer F A) : Prop where
  num : a.numDocs = (ent v).length
  docs : e.idOnly = false → a.list asDocs = some (shardCut off m (sortScored gs
        (Engine.rankOpts e r).reverseOrder (ent v)))
  ids : e.idOnly = true → a.list asIDs = some (shardCut off m (sortScored gs
        (Engine.rankOpts e r).reverseOrder ((ent v).map (·.scoredID))))

/-- The response computed from the answers of the shards `ws`, in any interleaving with timer
events. -/
theorem respond_entries {V : Type} {gs : GSort} (hgs : GSortOk gs) (e : SearchOpts F)
    (r : SearchReq F) (tokens : List Str) (ws : List V)
    (ent : V → List (ScoredDoc F A)) (off m : Nat) (events : List (Option (Answer F A)))
    (hw : List.Forall₂ (OrderedEntries gs e r off m ent) ws (events.filterMap id))
    (hc : r.countDocsOnly = false) (hor : r.orderless = false)
    (ho : (Engine.rankOpts e r).outputOffset = off) (hm : (Engine.rankOpts e r).maxOutputs = m) :
    ∃ resp, Engine.respond gs e r tokens events = some resp ∧
      resp.timeout = events.any (·.isNone) ∧
      resp.numDocs = (ws.flatMap ent).length ∧
      ((∀ v ∈ ws, ∀ x ∈ ent v, NoNaN x.scoredID.scores) →
      IsPageOf e.idOnly (Engine.rankOpts e r).reverseOrder tokens off m
        (ws.flatMap ent) resp) := by
  have hmem : ∀ a, some a ∈ events → ∃ v ∈ ws, OrderedEntries gs e r off m ent v a := by
    intro a ha
    exact forall2_left hw (List.mem_filterMap.2 ⟨some a, ha, rfl⟩)
  have hnum : ((events.filterMap id).map (·.numDocs)).sum =
      (ws.flatMap ent).length := by
    rw [length_flatMap_sum]
    exact sum_of_forall2 hw _ _ (fun v a h => h.num)
  cases hb : e.idOnly with
  | false =>
    have hcol := collect_ok asDocs (fun a => (a.list asDocs).getD []) events {} (by
      intro a ha
      obtain ⟨v, _, h⟩ := hmem a ha
      rw [h.docs hb]; rfl)
    have hout : (events.filterMap id).flatMap (fun a => (a.list asDocs).getD []) =
        (ws.map ent).flatMap
          (fun l => shardCut off m (sortScored gs (Engine.rankOpts e r).reverseOrder l)) := by
      rw [List.flatMap_map]
      exact flatMap_of_forall2 hw _ _ (fun v a h => by rw [h.docs hb]; rfl)
    unfold Engine.respond
    simp only [hb, Bool.false_eq_true, if_false, hc, hcol, Option.bind_eq_bind, Option.bind_some,
      finishSearch, hor, Bool.not_false, Bool.and_self, if_true]
    rw [maxRankOutput_page _ off m ho hm]
    refine ⟨_, rfl, by simp, (Nat.zero_add _).trans hnum, ?_⟩
    intro hnan
    obtain ⟨R, h1, h2, h3⟩ := merge_page hgs (Engine.rankOpts e r).reverseOrder off m
      (ws.map ent) (by
        intro l hl a ha
        obtain ⟨v, hv, rfl⟩ := List.mem_map.1 hl
        exact hnan v hv a ha) _ (List.Perm.of_eq hout)
    refine ⟨R, by rw [List.flatMap_def]; exact h1, h2, ?_, (Nat.zero_add _).trans hnum, rfl⟩
    simp only [List.nil_append, h3, resultDocs, Bool.false_eq_true, if_false]
  | true =>
    have hcol := collect_ok asIDs (fun a => (a.list asIDs).getD []) events {} (by
      intro a ha
      obtain ⟨v, _, h⟩ := hmem a ha
      rw [h.ids hb]; rfl)
    have hout : (events.filterMap id).flatMap (fun a => (a.list asIDs).getD []) =
        (ws.map (fun v => (ent v).map (·.scoredID))).flatMap
          (fun l => shardCut off m (sortScored gs (Engine.rankOpts e r).reverseOrder l)) := by
      rw [List.flatMap_map]
      exact flatMap_of_forall2 hw _ _ (fun v a h => by rw [h.ids hb]; rfl)
    unfold Engine.respond
    simp only [hb, Bool.false_eq_true, if_false, hc, hcol, Option.bind_eq_bind, Option.bind_some,
      finishSearch, hor, Bool.not_false, Bool.and_self, if_true]
    rw [maxRankOutput_page _ off m ho hm]
    refine ⟨_, rfl, by simp, (Nat.zero_add _).trans hnum, ?_⟩
    intro hnan
    obtain ⟨R, h1, h2, h3⟩ := merge_page hgs (Engine.rankOpts e r).reverseOrder off m
      (ws.map (fun v => (ent v).map (·.scoredID))) (by
        intro l hl a ha
        obtain ⟨v, hv, rfl⟩ := List.mem_map.1 hl
        obtain ⟨x, hx, rfl⟩ := List.mem_map.1 ha
        exact hnan v hv x hx) _ (List.Perm.of_eq hout)
    have h1' : R.Perm ((ws.flatMap ent).map
        (·.scoredID)) := by
      refine h1.trans (List.Perm.of_eq ?_)
      rw [List.map_flatMap, List.flatMap_def]
    obtain ⟨R', hR, hR'⟩ := perm_map_lift _ h1'
    refine ⟨R', hR, ?_, ?_, (Nat.zero_add _).trans hnum, rfl⟩
    · unfold Ranked at h2 ⊢
      rw [← hR', List.pairwise_map] at h2
      exact h2
    · have hpm : page off m R = (page off m R').map (·.scoredID) := by
        rw [← hR']; unfold page; split <;> simp [List.map_take, List.map_drop]
      simp only [List.nil_append, h3, resultDocs, if_true, hpm]

theorem respond_ordered {gs : GSort} (hgs : GSortOk gs) (e : SearchOpts F)
    (r : SearchReq F) (tokens : List Str) (ws : List (ShardView F A))
    (docsOf : ShardView F A → List IndexedDoc) (off m : Nat) (events : List (Option (Answer F A)))
    (hw : List.Forall₂ (OrderedAnswer gs e r off m docsOf) ws (events.filterMap id))
    (hc : r.countDocsOnly = false) (hor : r.orderless = false)
    (ho : (Engine.rankOpts e r).outputOffset = off) (hm : (Engine.rankOpts e r).maxOutputs = m) :
    ∃ resp, Engine.respond gs e r tokens events = some resp ∧
      resp.timeout = events.any (·.isNone) ∧
      resp.numDocs = (ws.flatMap (fun v => v.scored (Engine.rankOpts e r).score (docsOf v))).length ∧
      ((∀ v ∈ ws, ∀ d ∈ docsOf v, ∀ f, NoNaN ((Engine.rankOpts e r).score d f)) →
      IsPageOf e.idOnly (Engine.rankOpts e r).reverseOrder tokens off m
        (ws.flatMap (fun v => v.scored (Engine.rankOpts e r).score (docsOf v))) resp) := by
  obtain ⟨resp, h1, h2, h3, h4⟩ := respond_entries hgs e r tokens ws
    (fun v => v.scored (Engine.rankOpts e r).score (docsOf v)) off m events
    (hw.imp (fun v a h => ⟨h.num, h.docs, h.ids⟩)) hc hor ho hm
  exact ⟨resp, h1, h2, h3, fun hn => h4 (fun v hv => scored_noNaN (hn v hv))⟩

end Riot
