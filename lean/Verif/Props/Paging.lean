import Verif.Spec.Paging
import Verif.Props.History

/-!
# C100: paging through the results

Nothing is indexed or removed while the user pages, so the shards `views` are the same for all pages; the answers of the
shards may arrive in another order for each page.
-/

namespace Riot

variable {F A : Type}

theorem shown_resultDocs {x : SearchResp F A} {b : Bool} {l : List (ScoredDoc F A)} (h : x.docs = some (resultDocs b l)) :
    x.shown = l.map (shownAs b) := by
  unfold SearchResp.shown
  rw [h]
  unfold resultDocs
  cases b
  · have : (shownAs (F := F) (A := A) false) = id := by funext d; simp [shownAs]
    simp [this]
  · simp [List.map_map, Function.comp_def, shownAs]

theorem wantedRank_paged (e : SearchOpts F) (r : SearchReq F) (o : ReqRankOpts F) (off m : Nat) :
    (wantedRank e (r.paged o off m)).score = o.score.getD e.defRankOpts.score ∧
    (wantedRank e (r.paged o off m)).reverseOrder = o.reverseOrder ∧
    (wantedRank e (r.paged o off m)).outputOffset = off ∧ (wantedRank e (r.paged o off m)).maxOutputs = m := by
  simp [wantedRank, SearchReq.paged]

theorem flatMap_pages {α : Type} (R : List α) {m : Nat} (hm : 0 < m) (n : Nat) :
    (List.range n).flatMap (fun k => page (k * m) m R) = R.take (n * m) := by
  induction n with
  | zero => simp
  | succ n ih =>
    rw [List.range_succ, List.flatMap_append, ih]
    simp only [List.flatMap_cons, List.flatMap_nil, List.append_nil, page, if_neg (Nat.pos_iff_ne_zero.1 hm)]
    rw [Nat.succ_mul, List.take_add]

/-- Every complete response is the requested page of a ranking of all entries. -/
theorem complete_isPage {log2 : Rat → Rat} {e : SearchOpts F} {r : SearchReq F} {tokens : List Str}
    {views : List (ShardView F A)} {docsOf : ShardView F A → List IndexedDoc} {o : ReqRankOpts F} {off m : Nat} {x : SearchResp F A}
    (hf : ∀ v ∈ views, v.found log2 tokens r = some (docsOf v))
    (hc : r.countDocsOnly = false) (hor : r.orderless = false)
    (hnan : ∀ v ∈ views, ∀ d ∈ docsOf v, ∀ f, NoNaN (o.score.getD e.defRankOpts.score d f))
    (h : CompleteResponse log2 e (r.paged o off m) tokens views x) :
    x.timeout = false ∧ IsPageOf e.idOnly o.reverseOrder tokens off m
      (views.flatMap (fun v => v.scored (o.score.getD e.defRankOpts.score) (docsOf v))) x := by
  obtain ⟨gs, as, ar, hgs, h1, h2, h3⟩ := h
  obtain ⟨w1, w2, w3, w4⟩ := wantedRank_paged e r o off m
  obtain ⟨as', a1, a2⟩ := C24_search_is_page_of_global_ranking hgs log2 e (r.paged o off m) tokens views docsOf off m hf hc hor
    w3 w4 (by rw [w1]; exact hnan)
  rw [h1] at a1
  obtain rfl := Option.some.inj a1
  obtain ⟨y, y1, y2, y3⟩ := a2 ar h2
  rw [h3] at y1
  obtain rfl := Option.some.inj y1
  rw [w1, w2] at y3
  exact ⟨y2, y3⟩

/-- **C100** (with ties or not) Asked for page after page of the same request, the pages always show together the score
vectors of the whole ranking in order, none repeated or skipped, each page reports the same number of documents, and pages
behind the end are empty. -/
theorem C100_scores {log2 : Rat → Rat} {e : SearchOpts F} {r : SearchReq F} {tokens : List Str}
    {views : List (ShardView F A)} {docsOf : ShardView F A → List IndexedDoc} {o : ReqRankOpts F} {m n : Nat}
    {pages : Nat → SearchResp F A} {whole : SearchResp F A}
    (hf : ∀ v ∈ views, v.found log2 tokens r = some (docsOf v))
    (hc : r.countDocsOnly = false) (hor : r.orderless = false)
    (hnan : ∀ v ∈ views, ∀ d ∈ docsOf v, ∀ f, NoNaN (o.score.getD e.defRankOpts.score d f)) (hm : 0 < m)
    (hw : CompleteResponse log2 e (r.paged o 0 0) tokens views whole)
    (hp : ∀ k, CompleteResponse log2 e (r.paged o (k * m) m) tokens views (pages k)) :
    (∀ k, (pages k).numDocs = whole.numDocs ∧ (pages k).shown.length = min m (whole.numDocs - k * m)) ∧
    (shownPages pages n).map (fun d => scoreKey d.scoredID.scores) =
      (whole.shown.map (fun d => scoreKey d.scoredID.scores)).take (n * m) ∧
    whole.shown.length = whole.numDocs := by
  obtain ⟨_, R, p1, r1, d1, n1, _⟩ := complete_isPage hf hc hor hnan hw
  have hsh : whole.shown = R.map (shownAs e.idOnly) := by
    rw [shown_resultDocs d1]; simp [page]
  have hk : ∀ k, ∃ Q : List (ScoredDoc F A), Q.Perm R ∧ (pages k).shown = (page (k * m) m Q).map (shownAs e.idOnly) ∧
      (pages k).numDocs = whole.numDocs ∧
      Q.map (fun d => scoreKey d.scoredID.scores) = R.map (fun d => scoreKey d.scoredID.scores) := by
    intro k
    obtain ⟨_, Q, p2, r2, d2, n2, _⟩ := complete_isPage hf hc hor hnan (hp k)
    refine ⟨Q, p2.trans p1.symm, shown_resultDocs d2, by rw [n1, n2], ?_⟩
    have key : ∀ Q : List (ScoredDoc F A), Ranked o.reverseOrder Q →
        (Q.map (fun e => scoreKey e.scoredID.scores)).Pairwise (fun a b => if o.reverseOrder = true then a ≤ b else b ≤ a) := by
      intro Q hQ
      rw [List.pairwise_map]
      exact hQ
    refine ((p2.trans p1.symm).map _).eq_of_pairwise ?_ (key Q r2) (key R r1)
    intro a b _ _ hab hba
    cases h : o.reverseOrder <;> simp only [h, Bool.false_eq_true, if_false, if_true] at hab hba
    · exact le_antisymm hba hab
    · exact le_antisymm hab hba
  have hsk : ∀ d : ScoredDoc F A, scoreKey (shownAs e.idOnly d).scoredID.scores = scoreKey d.scoredID.scores := by
    intro d; unfold shownAs; split <;> rfl
  have hpm : ∀ (a : Nat) {β γ : Type} (f : β → γ) (l : List β), (page a m l).map f = page a m (l.map f) := by
    intro a β γ f l; simp [page, Nat.pos_iff_ne_zero.1 hm, List.map_take, List.map_drop]
  refine ⟨fun k => ?_, ?_, by rw [hsh, List.length_map, p1.length_eq, n1]⟩
  · obtain ⟨Q, q1, q2, q3, _⟩ := hk k
    refine ⟨q3, ?_⟩
    rw [q2, n1, ← p1.length_eq, ← q1.length_eq]
    simp [page, Nat.pos_iff_ne_zero.1 hm]
  · unfold shownPages
    rw [List.map_flatMap, hsh, List.map_map]
    have : ∀ k, ((pages k).shown).map (fun d => scoreKey d.scoredID.scores) =
        page (k * m) m (R.map (fun d => scoreKey d.scoredID.scores)) := by
      intro k
      obtain ⟨Q, _, q2, _, q4⟩ := hk k
      rw [q2, List.map_map, ← q4, ← hpm]
      congr 1
      funext d; exact hsk d
    simp only [this, flatMap_pages _ hm]
    congr 1
    exact List.map_congr_left (fun d _ => (hsk d).symm)

/-- **C100** (partial: no two found documents have the same score vector) The pages 0, 1, … of a request show together the
documents of the whole ranking in order: nothing is shown twice, nothing is skipped, and enough pages show everything. -/
theorem C100_pages_partial {log2 : Rat → Rat} {e : SearchOpts F} {r : SearchReq F} {tokens : List Str}
    {views : List (ShardView F A)} {docsOf : ShardView F A → List IndexedDoc} {o : ReqRankOpts F} {m n : Nat}
    {pages : Nat → SearchResp F A} {whole : SearchResp F A}
    (hf : ∀ v ∈ views, v.found log2 tokens r = some (docsOf v))
    (hc : r.countDocsOnly = false) (hor : r.orderless = false)
    (hnan : ∀ v ∈ views, ∀ d ∈ docsOf v, ∀ f, NoNaN (o.score.getD e.defRankOpts.score d f)) (hm : 0 < m)
    (hw : CompleteResponse log2 e (r.paged o 0 0) tokens views whole)
    (hp : ∀ k, CompleteResponse log2 e (r.paged o (k * m) m) tokens views (pages k))
    (hties : (whole.shown.map (fun d => scoreKey d.scoredID.scores)).Nodup) :
    shownPages pages n = whole.shown.take (n * m) ∧ (whole.numDocs ≤ n * m → shownPages pages n = whole.shown) := by
  have hsk : ∀ d : ScoredDoc F A, scoreKey (shownAs e.idOnly d).scoredID.scores = scoreKey d.scoredID.scores := by
    intro d; unfold shownAs; split <;> rfl
  obtain ⟨_, hwp⟩ := complete_isPage hf hc hor hnan hw
  obtain ⟨R, p1, r1, d1, n1, t1⟩ := hwp
  have hsh : whole.shown = R.map (shownAs e.idOnly) := by
    rw [shown_resultDocs d1]; simp [page]
  rw [hsh, List.map_map] at hties
  have hties' : (R.map (fun d => scoreKey d.scoredID.scores)).Nodup := by
    have : R.map ((fun d : ScoredDoc F A => scoreKey d.scoredID.scores) ∘ shownAs e.idOnly) =
        R.map (fun d => scoreKey d.scoredID.scores) := List.map_congr_left (fun d _ => hsk d)
    rwa [this] at hties
  have hk : ∀ k, (pages k).shown = page (k * m) m (R.map (shownAs e.idOnly)) := by
    intro k
    obtain ⟨_, hk⟩ := complete_isPage hf hc hor hnan (hp k)
    have hR : IsPageOf e.idOnly o.reverseOrder tokens (k * m) m R
        { tokens := tokens, timeout := false, numDocs := R.length, docs := some (resultDocs e.idOnly (page (k * m) m R)) } :=
      ⟨R, .refl _, r1, rfl, rfl, rfl⟩
    have := (page_scores p1 hR hk).2.2.2 hties'
    rw [shown_resultDocs this.symm]
    simp [page, Nat.pos_iff_ne_zero.1 hm, List.map_take, List.map_drop]
  have key : shownPages pages n = whole.shown.take (n * m) := by
    unfold shownPages
    simp only [hk, flatMap_pages _ hm, hsh]
  refine ⟨key, fun hn => ?_⟩
  rw [key, List.take_of_length_le]
  rw [hsh, List.length_map, p1.length_eq, ← n1]
  exact hn

/-- Complete responses exist for every page, whatever valid sort is used. -/
theorem complete_exists {gs : GSort} (hgs : GSortOk gs) {log2 : Rat → Rat} {e : SearchOpts F} {r : SearchReq F} {tokens : List Str}
    {views : List (ShardView F A)} {docsOf : ShardView F A → List IndexedDoc} {o : ReqRankOpts F} (off m : Nat)
    (hf : ∀ v ∈ views, v.found log2 tokens r = some (docsOf v))
    (hc : r.countDocsOnly = false) (hor : r.orderless = false)
    (hnan : ∀ v ∈ views, ∀ d ∈ docsOf v, ∀ f, NoNaN (o.score.getD e.defRankOpts.score d f)) :
    ∃ x : SearchResp F A, CompleteResponse log2 e (r.paged o off m) tokens views x := by
  obtain ⟨w1, w2, w3, w4⟩ := wantedRank_paged e r o off m
  obtain ⟨as, a1, a2⟩ := C24_search_is_page_of_global_ranking hgs log2 e (r.paged o off m) tokens views docsOf off m hf hc hor
    w3 w4 (by rw [w1]; exact hnan)
  obtain ⟨x, x1, _⟩ := a2 as (.refl _)
  exact ⟨x, gs, as, as, hgs, a1, .refl _, x1⟩

/-- The hypotheses of both theorems hold for the three shards of `demoShards` (five documents without ties), for every page size. -/
example (m : Nat) (hm : 0 < m) : ∃ (docsOf : ShardView Nat Nat → List IndexedDoc) (pages : Nat → SearchResp Nat Nat)
    (whole : SearchResp Nat Nat),
    (∀ v ∈ demoShards, v.found (fun x => x) [str "b"] (demoReq 0 0) = some (docsOf v)) ∧
    (∀ k, CompleteResponse (fun x => x) demoOpts ((demoReq 0 0).paged {} (k * m) m) [str "b"] demoShards (pages k)) ∧
    CompleteResponse (fun x => x) demoOpts ((demoReq 0 0).paged {} 0 0) [str "b"] demoShards whole ∧
    whole.numDocs = 5 ∧ shownPages pages 5 = whole.shown := by
  let docsOf : ShardView Nat Nat → List IndexedDoc := fun v => (v.found (fun x => x) [str "b"] (demoReq 0 0)).getD []
  have hf : ∀ v ∈ demoShards, v.found (fun x => x) [str "b"] (demoReq 0 0) = some (docsOf v) := by
    intro v hv
    obtain ⟨l, hl⟩ := Option.isSome_iff_exists.1 ((show ∀ v ∈ demoShards, (v.found (fun x => x) [str "b"] (demoReq 0 0)).isSome by
      decide +kernel) v hv)
    show _ = some ((v.found (fun x => x) [str "b"] (demoReq 0 0)).getD [])
    rw [hl]; rfl
  have hnan : ∀ v ∈ demoShards, ∀ d ∈ docsOf v, ∀ f,
      NoNaN ((({} : ReqRankOpts Nat).score).getD demoOpts.defRankOpts.score d f) := by
    intro v _ d _ f
    cases f <;> simp [demoOpts, demoScore, NoNaN]
  choose pages hp using fun k => complete_exists insGSort_ok (e := demoOpts) (r := demoReq 0 0) (o := {}) (k * m) m hf rfl rfl hnan
  obtain ⟨whole, hw⟩ := complete_exists insGSort_ok (e := demoOpts) (r := demoReq 0 0) (o := {}) 0 0 hf rfl rfl hnan
  have hall : ((demoShards.flatMap (fun v => v.scored ((({} : ReqRankOpts Nat).score).getD demoOpts.defRankOpts.score)
      (docsOf v))).map (fun d => scoreKey d.scoredID.scores)).Nodup ∧
      (demoShards.flatMap (fun v => v.scored ((({} : ReqRankOpts Nat).score).getD demoOpts.defRankOpts.score) (docsOf v))).length = 5 := by
    decide +kernel
  obtain ⟨_, R, p1, r1, d1, n1, _⟩ := complete_isPage hf rfl rfl hnan hw
  have hn : whole.numDocs = 5 := by rw [n1]; exact hall.2
  have hties : (whole.shown.map (fun d => scoreKey d.scoredID.scores)).Nodup := by
    rw [shown_resultDocs d1, List.map_map]
    have : (page 0 0 R).map ((fun d : ScoredDoc Nat Nat => scoreKey d.scoredID.scores) ∘ shownAs demoOpts.idOnly) =
        R.map (fun d => scoreKey d.scoredID.scores) := by
      simp only [page, if_true, List.drop_zero]
      exact List.map_congr_left (fun d _ => by simp [shownAs, demoOpts])
    rw [this]
    exact ((p1.map _).nodup_iff).2 hall.1
  refine ⟨docsOf, pages, whole, hf, hp, hw, hn, ?_⟩
  exact (C100_pages_partial hf rfl rfl hnan hm hw hp hties (n := 5)).2 (by rw [hn]; omega)

/-- Two shards with one document each, of equal score. -/
def tiedShards : List (ShardView Nat Nat) := [demoShard [("1", 5)], demoShard [("2", 5)]]

/-- **C100** (refuted in general) With two documents of equal score on two shards, the first and the second page can both
show document 1: document 2 is never shown. -/
theorem C100_refuted_ties : ∃ p₀ p₁ : SearchResp Nat Nat,
    CompleteResponse (fun x => x) demoOpts ((demoReq 0 0).paged {} 0 1) [str "b"] tiedShards p₀ ∧
    CompleteResponse (fun x => x) demoOpts ((demoReq 0 0).paged {} 1 1) [str "b"] tiedShards p₁ ∧
    p₀.shown.map (·.scoredID.docId) = [str "1"] ∧ p₁.shown.map (·.scoredID.docId) = [str "1"] ∧
    p₀.numDocs = 2 ∧ p₁.numDocs = 2 := by
  obtain ⟨as, h1⟩ := Option.isSome_iff_exists.1 (show (shardAnswers (fun x => x) insGSort demoOpts
    ((demoReq 0 0).paged {} 0 1) [str "b"] tiedShards).isSome by decide +kernel)
  obtain ⟨bs, h2⟩ := Option.isSome_iff_exists.1 (show (shardAnswers (fun x => x) insGSort demoOpts
    ((demoReq 0 0).paged {} 1 1) [str "b"] tiedShards).isSome by decide +kernel)
  have g1 : respIds (completeSearch insGSort demoOpts ((demoReq 0 0).paged {} 0 1) [str "b"] as) = some ([str "1"], 2) := by
    have : ((shardAnswers (fun x => x) insGSort demoOpts ((demoReq 0 0).paged {} 0 1) [str "b"] tiedShards).map (fun as =>
      respIds (completeSearch insGSort demoOpts ((demoReq 0 0).paged {} 0 1) [str "b"] as))) = some (some ([str "1"], 2)) := by
      decide +kernel
    rw [h1] at this
    exact Option.some.inj this
  have g2 : respIds (completeSearch insGSort demoOpts ((demoReq 0 0).paged {} 1 1) [str "b"] bs.reverse) = some ([str "1"], 2) := by
    have : ((shardAnswers (fun x => x) insGSort demoOpts ((demoReq 0 0).paged {} 1 1) [str "b"] tiedShards).map (fun as =>
      respIds (completeSearch insGSort demoOpts ((demoReq 0 0).paged {} 1 1) [str "b"] as.reverse))) = some (some ([str "1"], 2)) := by
      decide +kernel
    rw [h2] at this
    exact Option.some.inj this
  have fin : ∀ {y : Option (SearchResp Nat Nat)} {l : List Str} {n : Nat}, respIds y = some (l, n) →
      ∃ x, y = some x ∧ x.shown.map (·.scoredID.docId) = l ∧ x.numDocs = n := by
    intro y l n h
    cases y with
    | none => simp [respIds] at h
    | some x =>
      refine ⟨x, rfl, ?_⟩
      unfold respIds at h
      simp only [Option.bind_some, Option.map_eq_some_iff] at h
      obtain ⟨q, hq, hq2⟩ := h
      obtain ⟨dd, hd, hd2⟩ := Option.bind_eq_some_iff.1 hq
      unfold SearchResp.shown
      rw [hd]
      cases dd with
      | docs l => simp [asIDs] at hd2
      | ids l =>
        simp only [asIDs, Option.some.injEq] at hd2
        subst hd2
        simp only [Prod.mk.injEq] at hq2
        refine ⟨?_, hq2.2⟩
        simp only [List.map_map]
        exact hq2.1
  obtain ⟨x, x1, x2, x3⟩ := fin g1
  obtain ⟨y, y1, y2, y3⟩ := fin g2
  exact ⟨x, y, ⟨insGSort, as, as, insGSort_ok, h1, .refl _, x1⟩, ⟨insGSort, bs, bs.reverse, insGSort_ok, h2, bs.reverse_perm, y1⟩,
    x2, y2, x3, y3⟩

end Riot
