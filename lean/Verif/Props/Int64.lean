import Verif.Model.Int64
import Verif.Props.EngineSearch

/-!
# Large offsets, limits and time-outs: C97

Go's `int` has 64 bits and wraps around; the theorems on searches (C24 to C27 and everything
built on them) compute with unbounded integers. Here: up to which values the two agree, and
what happens beyond.
-/

namespace Riot

variable {F A : Type}

/-- The answers of the shards of an engine to a search, in 64-bit arithmetic. -/
def shardAnswers64 (log2 : Rat → Rat) (gs : GSort) (e : SearchOpts F) (r : SearchReq F)
    (tokens : List Str) (views : List (ShardView F A)) : Option (List (Answer F A)) :=
  views.mapM (fun v =>
    Engine.shardAnswer64 log2 gs e r tokens v.index (Ranker.run e.idOnly v.history))

/-- The response of a search in which the answers arrive in the order `arrived`, in 64-bit
arithmetic. -/
def completeSearch64 (gs : GSort) (e : SearchOpts F) (r : SearchReq F)
    (tokens : List Str) (arrived : List (Answer F A)) : Option (SearchResp F A) :=
  Engine.respond64 gs e r tokens (arrived.map some)

theorem int64_id {x : Int} (h1 : -2 ^ 63 ≤ x) (h2 : x < 2 ^ 63) : int64 x = x := by
  unfold int64; omega

theorem int64_over {x : Int} (h1 : 2 ^ 63 ≤ x) (h2 : x < 2 ^ 64) : int64 x = x - 2 ^ 64 := by
  unfold int64; omega

theorem sortAndCut64_eq {α : Type} [HasScores α] (gs : GSort) (o : RankOpts F) (c : Bool)
    (out : List α × Nat) (h0 : 0 ≤ o.outputOffset) (h1 : 0 ≤ o.maxOutputs)
    (h2 : o.outputOffset + o.maxOutputs < 2 ^ 63) :
    sortAndCut64 gs o c out = sortAndCut gs o c out := by
  unfold sortAndCut64 sortAndCut maxOutput64 maxOutput
  rw [int64_id (by omega) h2]

theorem rankerRank64_eq (gs : GSort) (rk : Ranker F A) (docs : List IndexedDoc) (o : RankOpts F)
    (h0 : 0 ≤ o.outputOffset) (h1 : 0 ≤ o.maxOutputs) (h2 : o.outputOffset + o.maxOutputs < 2 ^ 63) :
    Engine.rankerRank64 gs rk docs o = Engine.rankerRank gs rk docs o := by
  have hs : shardOpts64 o = shardOpts o := by
    unfold shardOpts64 shardOpts; rw [int64_id (by omega) (by omega)]
  have a : 0 ≤ (shardOpts o).maxOutputs := by unfold shardOpts; dsimp only; split <;> omega
  have b : (shardOpts o).outputOffset + (shardOpts o).maxOutputs < 2 ^ 63 := by
    unfold shardOpts; dsimp only; split <;> omega
  unfold Engine.rankerRank64 Engine.rankerRank Ranker.rank64 Ranker.rank Ranker.rankDocID
    Ranker.rankDocs
  rw [hs, sortAndCut64_eq gs (shardOpts o) false _ le_rfl a b,
    sortAndCut64_eq gs (shardOpts o) false _ le_rfl a b]

theorem shardAnswers64_eq (log2 : Rat → Rat) (gs : GSort) (e : SearchOpts F) (r : SearchReq F)
    (tokens : List Str) (views : List (ShardView F A)) (h0 : 0 ≤ (wantedRank e r).outputOffset)
    (h1 : 0 ≤ (wantedRank e r).maxOutputs)
    (h2 : (wantedRank e r).outputOffset + (wantedRank e r).maxOutputs < 2 ^ 63) :
    shardAnswers64 log2 gs e r tokens views = shardAnswers log2 gs e r tokens views := by
  have (v : ShardView F A) : Engine.shardAnswer64 log2 gs e r tokens v.index
      (Ranker.run e.idOnly v.history) =
      Engine.shardAnswer log2 gs e r tokens v.index (Ranker.run e.idOnly v.history) := by
    unfold Engine.shardAnswer64 Engine.shardAnswer
    simp only [rankOpts_eq, rankerRank64_eq gs _ _ (wantedRank e r) h0 h1 h2]
    rfl
  unfold shardAnswers64 shardAnswers
  simp only [this]

theorem respond64_eq (gs : GSort) (e : SearchOpts F) (r : SearchReq F) (tokens : List Str)
    (events : List (Option (Answer F A))) (h0 : 0 ≤ (wantedRank e r).outputOffset)
    (h1 : 0 ≤ (wantedRank e r).maxOutputs)
    (h2 : (wantedRank e r).outputOffset + (wantedRank e r).maxOutputs < 2 ^ 63) :
    Engine.respond64 gs e r tokens events = Engine.respond gs e r tokens events := by
  have hf {α : Type} [HasScores α] (wrap : List α → RankOut F A) (c : Collected α) :
      finishSearch64 gs wrap r (wantedRank e r) tokens c =
        finishSearch gs wrap r (wantedRank e r) tokens c := by
    have hm (n : Nat) : maxRankOutput64 (wantedRank e r) (n : Int) =
        maxRankOutput (wantedRank e r) (n : Int) := by
      unfold maxRankOutput64 maxRankOutput
      rw [int64_id (by omega) (by omega)]
    unfold finishSearch64 finishSearch
    simp only [hm]
  unfold Engine.respond64 Engine.respond
  simp only [rankOpts_eq, hf]

/-- **C97** (partial: offset + limit below 2^63) In 64-bit arithmetic too, a search returns the
requested page of a ranking of all found, registered and scored documents of all shards, in
whatever order they answer. -/
theorem C97_page_partial {gs : GSort} (hgs : GSortOk gs) (log2 : Rat → Rat)
    (e : SearchOpts F) (r : SearchReq F) (tokens : List Str) (views : List (ShardView F A))
    (docsOf : ShardView F A → List IndexedDoc) (off m : Nat)
    (hf : ∀ v ∈ views, v.found log2 tokens r = some (docsOf v))
    (hc : r.countDocsOnly = false) (hor : r.orderless = false)
    (ho : (wantedRank e r).outputOffset = off) (hm : (wantedRank e r).maxOutputs = m)
    (hlim : off + m < 2 ^ 63)
    (hnan : ∀ v ∈ views, ∀ d ∈ docsOf v, ∀ f, NoNaN ((wantedRank e r).score d f)) :
    ∃ answers, shardAnswers64 log2 gs e r tokens views = some answers ∧
      ∀ arrived, arrived.Perm answers →
        ∃ resp, completeSearch64 gs e r tokens arrived = some resp ∧ resp.timeout = false ∧
          IsPageOf e.idOnly (wantedRank e r).reverseOrder tokens off m
            (views.flatMap (fun v => v.scored (wantedRank e r).score (docsOf v))) resp := by
  have a : 0 ≤ (wantedRank e r).outputOffset := by omega
  have b : 0 ≤ (wantedRank e r).maxOutputs := by omega
  have c : (wantedRank e r).outputOffset + (wantedRank e r).maxOutputs < 2 ^ 63 := by omega
  obtain ⟨as, h1, h2⟩ := C24_search_is_page_of_global_ranking hgs log2 e r tokens views docsOf off m
    hf hc hor ho hm hnan
  refine ⟨as, by rw [shardAnswers64_eq log2 gs e r tokens views a b c, h1], fun arrived hp => ?_⟩
  unfold completeSearch64
  rw [respond64_eq gs e r tokens _ a b c]
  exact h2 arrived hp

/-- **C97** What happens beyond: for all `int` offsets and limits that are not negative, a shard
whose index finds documents for an ordered search crashes exactly if a limit is given and
offset + limit is 2^63 or more, whatever documents and scores there are. -/
theorem C97_crash_iff {gs : GSort} (log2 : Rat → Rat) (e : SearchOpts F) (r : SearchReq F)
    (tokens : List Str) (v : ShardView F A) (docs : List IndexedDoc) (off m : Nat)
    (hf : v.found log2 tokens r = some docs) (hdocs : docs ≠ [])
    (hc : r.countDocsOnly = false) (hor : r.orderless = false)
    (ho : (wantedRank e r).outputOffset = off) (hm : (wantedRank e r).maxOutputs = m)
    (hoff : off < 2 ^ 63) (hmax : m < 2 ^ 63) :
    Engine.shardAnswer64 log2 gs e r tokens v.index (Ranker.run e.idOnly v.history) = none ↔
      m ≠ 0 ∧ 2 ^ 63 ≤ off + m := by
  unfold ShardView.found at hf
  obtain ⟨⟨ds, n⟩, hl, hds⟩ := Option.map_eq_some_iff.1 hf
  simp only at hds; subst hds
  have h0 : ds.length ≠ 0 := fun h => hdocs (List.length_eq_zero_iff.1 h)
  have key : Engine.shardAnswer64 log2 gs e r tokens v.index (Ranker.run e.idOnly v.history) =
      Engine.rankerRank64 gs (Ranker.run e.idOnly v.history) ds (wantedRank e r) := by
    unfold Engine.shardAnswer64 Engine.indexerLookup
    simp [hc, hl, hor, hdocs, rankOpts_eq]
  rw [key]
  have cut {α : Type} [HasScores α] (out : List α × Nat) :
      sortAndCut64 gs (shardOpts64 (wantedRank e r)) false out = none ↔
        m ≠ 0 ∧ 2 ^ 63 ≤ off + m := by
    unfold sortAndCut64
    simp only [Bool.false_eq_true, if_false, Option.map_eq_none_iff]
    unfold maxOutput64 shardOpts64 goSub
    dsimp only
    rw [ho, hm]
    by_cases h1 : (m : Int) ≠ 0
    · rw [if_pos h1]
      by_cases h2 : 2 ^ 63 ≤ off + m
      · have h3 : (m : Int) + off - 2 ^ 64 ≠ 0 := by omega
        rw [int64_over (x := (m : Int) + off) (by omega) (by omega), if_pos h3,
          int64_id (by omega) (by omega), if_neg (by dsimp only; omega)]
        simp only [true_iff]
        exact ⟨by omega, h2⟩
      · have h3 : (m : Int) + off ≠ 0 := by omega
        rw [int64_id (x := (m : Int) + off) (by omega) (by omega), if_pos h3,
          int64_id (by omega) (by omega), if_pos (by dsimp only; omega)]
        simp only [reduceCtorEq, false_iff]
        omega
    · rw [if_neg h1, if_neg h1, if_pos (by dsimp only; omega)]
      simp only [reduceCtorEq, false_iff]
      omega
  unfold Engine.rankerRank64 Ranker.rank64
  split <;> simp only [Option.map_eq_none_iff, cut]

/-- **C97** The deadline of a search with a time-out of `t` milliseconds is that many
milliseconds away exactly for time-outs up to 9223372036854 (292 years). -/
theorem C97_timeout_partial (t : Int) (h0 : 0 < t) (h1 : t < 2 ^ 63) :
    timeoutNanos t = 1000000 * t ↔ t ≤ 9223372036854 := by
  unfold timeoutNanos int64; omega

/-- **C97** refuted for time-outs: the largest `int`, meant as "as long as it takes", gives a
deadline in the past; the timer fires at once. -/
theorem C97_refuted_long_timeout : timeoutNanos (2 ^ 63 - 1) < 0 := by
  unfold timeoutNanos int64; omega

/-- Non-vacuity of `C97_page_partial`: a page far from the start with a large limit is computed
(two shards, four documents). -/
example : ((shardAnswers64 (fun x => x) insGSort demoOpts (demoReq 1 (2 ^ 63 - 2)) [str "b"] demoShards).bind
      (fun as => completeSearch64 insGSort demoOpts (demoReq 1 (2 ^ 63 - 2)) [str "b"] as)).isSome := by
  decide +kernel

/-- **C97** refuted for limits: the page from offset 1 with the largest `int` as limit, meant as
"everything from the second document on", crashes; offset 0 with the same limit does not. -/
theorem C97_refuted_large_limit :
    (shardAnswers64 (fun x => x) insGSort demoOpts (demoReq 1 (2 ^ 63 - 1)) [str "b"]
      demoShards).isNone ∧
    ((shardAnswers64 (fun x => x) insGSort demoOpts (demoReq 0 (2 ^ 63 - 1)) [str "b"] demoShards).bind
      (fun as => completeSearch64 insGSort demoOpts (demoReq 0 (2 ^ 63 - 1)) [str "b"] as)).isSome := by
  decide +kernel

end Riot
