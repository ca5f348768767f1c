import Verif.Spec.Net
import Verif.Props.EngineSearch

/-!
# The network front ends: C50, C58, C59, C60
-/

namespace Riot.Net

open Riot

variable {F : Type}

theorem textLess_false {a b : Text} : textLess b a = false ↔ NotAfter a b := by
  unfold textLess NotAfter
  by_cases h : b.ts = a.ts
  · simp [h]
  · have h' : a.ts ≠ b.ts := fun x => h x.symm
    simp only [h, if_false, h', false_and, or_false, decide_eq_false_iff_not]
    omega

theorem textLess_true {a b : Text} : textLess a b = true ↔ b.ts < a.ts ∨ (a.ts = b.ts ∧ b.id < a.id) := by
  unfold textLess
  by_cases h : a.ts = b.ts
  · simp [h]
  · simp [h]

theorem textLess_weak (l : List Text) : StrictWeakOn textLess l where
  irrefl := fun a _ => textLess_false.2 (Or.inr ⟨rfl, le_refl _⟩)
  trans := by
    intro a _ b _ c _ h1 h2
    rw [textLess_true] at h1 h2 ⊢
    rcases h1 with h1 | ⟨h1, h1'⟩ <;> rcases h2 with h2 | ⟨h2, h2'⟩
    · exact Or.inl (by omega)
    · exact Or.inl (by omega)
    · exact Or.inl (by omega)
    · exact Or.inr ⟨by omega, lt_trans h2' h1'⟩
  incomp := by
    intro a _ b _ c _ h1 h2 h3 h4
    rw [textLess_false] at h1 h2 h3 h4 ⊢
    rw [textLess_false]
    have e1 : a.ts = b.ts ∧ a.id = b.id := by
      rcases h1 with h1 | ⟨h1, h1'⟩ <;> rcases h2 with h2 | ⟨h2, h2'⟩
      · omega
      · omega
      · omega
      · exact ⟨h2, le_antisymm h1' h2'⟩
    have e2 : b.ts = c.ts ∧ b.id = c.id := by
      rcases h3 with h3 | ⟨h3, h3'⟩ <;> rcases h4 with h4 | ⟨h4, h4'⟩
      · omega
      · omega
      · omega
      · exact ⟨h4, le_antisymm h3' h4'⟩
    refine ⟨Or.inr ⟨by omega, ?_⟩, Or.inr ⟨by omega, ?_⟩⟩
    · rw [e1.2, e2.2]
    · rw [e1.2, e2.2]

theorem sort_newestFirst {gs : GSort} (hgs : GSortOk gs) (l : List Text) :
    NewestFirst (gs textLess l) :=
  (hgs.sorted textLess l (textLess_weak l)).imp (fun h => textLess_false.1 h)

/-! ## C50 -/

theorem merge_eq {gs : GSort} (max : Int) (answers : List (List Text)) (h1 : answers.length ≠ 1) :
    merge gs max answers =
      if ((gs textLess answers.flatten).length : Int) > max then
        goSub (gs textLess answers.flatten) 0 (max - 1) else some (gs textLess answers.flatten) := by
  match answers, h1 with
  | [], _ => rfl
  | _ :: _ :: _, _ => rfl

/-- **C50 (partial)** The merge of the answers of any number of servers other than one, for
every limit of at least one: it does not crash; the result is a prefix of the ordered union of
the answers; the whole of it if it fits, otherwise **one document less** than the limit. Missing
for the full claim: the limit itself (see the refutations). -/
theorem C50_merged_answer_partial {gs : GSort} (hgs : GSortOk gs) (max : Nat) (hmax : 1 ≤ max)
    (answers : List (List Text)) (h1 : answers.length ≠ 1) :
    ∃ R : List Text, R.Perm answers.flatten ∧ NewestFirst R ∧
      (R.length ≤ max → merge gs max answers = some R) ∧
      (max < R.length → merge gs max answers = some (R.take (max - 1))) := by
  refine ⟨gs textLess answers.flatten, hgs.perm _ _, sort_newestFirst hgs _, ?_, ?_⟩
  · intro hl
    rw [merge_eq _ _ h1, if_neg (by omega)]
  · intro hl
    rw [merge_eq _ _ h1, if_pos (by omega)]
    unfold goSub
    rw [if_pos (by omega)]
    simp only [Int.toNat_zero, List.drop_zero]
    congr 2
    omega

/-- **C50** If all documents together fit into the limit, the merged answer is the ideal one. -/
theorem C50_all_documents_when_they_fit {gs : GSort} (hgs : GSortOk gs) (max : Nat) (hmax : 1 ≤ max)
    (answers : List (List Text)) (h1 : answers.length ≠ 1) (hfit : answers.flatten.length ≤ max) :
    ∃ out, merge gs max answers = some out ∧ IdealMerge max answers out ∧
      out.length = answers.flatten.length := by
  obtain ⟨R, hp, hn, h2, -⟩ := C50_merged_answer_partial hgs max hmax answers h1
  have hl := hp.length_eq
  exact ⟨R, h2 (by omega), ⟨R, hp, hn, (List.take_of_length_le (by omega)).symm⟩, hl⟩

/-- **C50** A single answer is passed on unchanged. -/
theorem C50_single_answer_unchanged (gs : GSort) (max : Int) (a : List Text) :
    merge gs max [a] = some a := rfl

/-- **C50** Whatever the servers answer, every merged document was sent by a server, none is
shown more often than it was sent, and there are never more than the limit — provided no server
sends more than the limit (C59) and the limit is at least one. -/
theorem C50_merged_answer_is_bounded {gs : GSort} (hgs : GSortOk gs) (max : Nat) (hmax : 1 ≤ max)
    (answers : List (List Text)) (hs : ∀ a ∈ answers, a.length ≤ max ∧ NewestFirst a) :
    ∃ out, merge gs max answers = some out ∧ out.Subperm answers.flatten ∧ NewestFirst out ∧
      out.length ≤ max := by
  by_cases h1 : answers.length = 1
  · obtain ⟨a, rfl⟩ := List.length_eq_one_iff.1 h1
    have := hs a (by simp)
    exact ⟨a, rfl, by simpa using List.Subperm.refl a, this.2, this.1⟩
  · obtain ⟨R, hp, hn, h2, h3⟩ := C50_merged_answer_partial hgs max hmax answers h1
    by_cases hl : R.length ≤ max
    · exact ⟨R, h2 hl, hp.subperm, hn, hl⟩
    · refine ⟨_, h3 (by omega), ?_, hn.sublist (List.take_sublist _ _), by simp⟩
      exact (List.take_sublist _ _).subperm.trans hp.subperm

/-- **C50 is refuted** Whenever the servers have more documents than the limit, the merged
answer is one document short of the limit. -/
theorem C50_refuted_one_document_short {gs : GSort} (hgs : GSortOk gs) (max : Nat) (hmax : 1 ≤ max)
    (answers : List (List Text)) (h1 : answers.length ≠ 1) (hmore : max < answers.flatten.length) :
    ∃ out, merge gs max answers = some out ∧ out.length = max - 1 ∧ ¬ IdealMerge max answers out := by
  obtain ⟨R, hp, hn, -, h3⟩ := C50_merged_answer_partial hgs max hmax answers h1
  have hl := hp.length_eq
  refine ⟨_, h3 (by omega), by simp; omega, ?_⟩
  rintro ⟨R', hp', -, he⟩
  have hl' := hp'.length_eq
  have := congrArg List.length he
  simp only [List.length_take] at this
  omega

/-- **C50 is refuted** Without a limit in the request and in the configuration (both 0), the
merge crashes as soon as there is a document. A negative limit crashes it in every case. -/
theorem C50_refuted_crash {gs : GSort} (hgs : GSortOk gs) (conf : Conf) (max : Int)
    (answers : List (List Text)) (h1 : answers.length ≠ 1)
    (h : (max = 0 ∧ conf.maxOutputs = 0 ∧ answers.flatten ≠ []) ∨ max < 0) :
    dist gs conf max answers = none := by
  have hl : (gs textLess answers.flatten).length = answers.flatten.length := (hgs.perm _ _).length_eq
  unfold dist
  rcases h with ⟨rfl, h2, h3⟩ | h
  · simp only [if_true, h2]
    rw [merge_eq _ _ h1, hl, if_pos (by have := List.length_pos_iff.2 h3; omega)]
    unfold goSub; rw [if_neg (by omega)]
  · rw [if_neg (by omega), merge_eq _ _ h1, if_pos (by omega)]
    unfold goSub; rw [if_neg (by omega)]

/-- Two servers, three documents. -/
def demoTexts : List (List Text) :=
  [[{ id := str "a", ts := 5 }, { id := str "b", ts := 3 }], [{ id := str "c", ts := 5 }]]

example : merge insGSort 3 demoTexts =
    some [{ id := str "c", ts := 5 }, { id := str "a", ts := 5 }, { id := str "b", ts := 3 }] := by
  decide +kernel

example : merge insGSort 2 demoTexts = some [{ id := str "c", ts := 5 }] := by decide +kernel

example : dist insGSort {} 0 demoTexts = none := by decide +kernel

/-- The hypotheses of `C50_merged_answer_is_bounded` hold. -/
example : ∀ a ∈ demoTexts, a.length ≤ 3 ∧ NewestFirst a := by
  intro a ha
  simp only [demoTexts, List.mem_cons, List.not_mem_nil, or_false] at ha
  rcases ha with rfl | rfl
  · refine ⟨by decide, ?_⟩
    simp [NewestFirst, NotAfter]
  · refine ⟨by decide, ?_⟩
    simp [NewestFirst]

/-! ## C59: one server -/

theorem toText_shows {d : ScoredDoc F AttriVal} {t : Text} : toText d = some t ↔ Shows d t := by
  unfold toText Shows
  constructor
  · intro h
    split at h
    · rename_i time ts he
      cases h
      exact ⟨rfl, rfl, he⟩
    · cases h
  · rintro ⟨h1, h2, h3⟩
    rw [h3]
    cases t
    simp_all

theorem mapM_some_iff {α β : Type} {f : α → Option β} {l : List α} {r : List β} :
    l.mapM f = some r ↔ List.Forall₂ (fun a b => f a = some b) l r := by
  induction l generalizing r with
  | nil => cases r <;> simp [List.mapM_nil, pure]
  | cons a l ih =>
    rw [List.mapM_cons]
    cases h : f a with
    | none => cases r <;> simp [h]
    | some b =>
      cases r with
      | nil => cases h2 : l.mapM f <;> simp
      | cons c r =>
        cases h2 : l.mapM f with
        | none =>
          simp only [Option.bind_eq_bind, Option.bind_some, Option.bind_none, reduceCtorEq,
            List.forall₂_cons, false_iff, not_and]
          intro _ h3
          rw [← ih, h2] at h3
          cases h3
        | some r' =>
          rw [List.forall₂_cons, ← ih, h2]
          simp [h, pure]

theorem mapM_exists {α β : Type} {f : α → Option β} {l : List α} (h : ∀ a ∈ l, ∃ b, f a = some b) :
    ∃ r, l.mapM f = some r := by
  induction l with
  | nil => exact ⟨[], rfl⟩
  | cons a l ih =>
    obtain ⟨b, hb⟩ := h a (by simp)
    obtain ⟨r, hr⟩ := ih (fun x hx => h x (by simp [hx]))
    exact ⟨b :: r, by rw [List.mapM_cons, hb, hr]; rfl⟩

theorem forall2_right {α β : Type} {R : α → β → Prop} {l : List α} {r : List β}
    (h : List.Forall₂ R l r) {a : α} (ha : a ∈ l) : ∃ b ∈ r, R a b := by
  induction h with
  | nil => cases ha
  | cons h1 _ ih =>
    rcases List.mem_cons.1 ha with rfl | ha
    · exact ⟨_, by simp, h1⟩
    · obtain ⟨b, hb, hr⟩ := ih ha
      exact ⟨b, by simp [hb], hr⟩

/-- **C59** A search through the HTTP or gRPC server with a limit of at least one: for any
shards, contents and arrival order of the shards, if the found documents carry a `types.Attri`,
the server does not crash and shows exactly the documents of the engine's page, newest first. -/
theorem C59_server_shows_page {gs : GSort} (hgs : GSortOk gs) (log2 : Rat → Rat)
    (e : SearchOpts F) (env : TextEnv) (conf : Conf) (query : Str) (docIds : Option (List Str))
    (logic : Logic) (offset max : Int) (views : List (ShardView F AttriVal))
    (docsOf : ShardView F AttriVal → List IndexedDoc) (off m : Nat) (hm : 1 ≤ m)
    (hask : Asks conf offset max off m) (hid : e.idOnly = false)
    (hf : ∀ v ∈ views, v.found log2 (Engine.tokens env e (comReq query off m docIds logic))
      (comReq (F := F) query off m docIds logic) = some (docsOf v))
    (hnan : ∀ v ∈ views, ∀ d ∈ docsOf v, ∀ f, NoNaN (e.defRankOpts.score d f))
    (hattri : ∀ v ∈ views, ∀ d ∈ v.scored e.defRankOpts.score (docsOf v), ∃ t, Shows d t) :
    ∃ answers, shardAnswers log2 gs e (comReq query off m docIds logic)
        (Engine.tokens env e (comReq query off m docIds logic)) views = some answers ∧
      ∀ search : SearchReq F → Option (SearchResp F AttriVal),
        (∃ arrived, arrived.Perm answers ∧ search (comReq query off m docIds logic) =
          completeSearch gs e (comReq query off m docIds logic)
            (Engine.tokens env e (comReq query off m docIds logic)) arrived) →
        ∃ (out : List Text) (R : List (ScoredDoc F AttriVal)) (texts : List Text),
          serverSearch gs conf search query offset max docIds logic = some out ∧
          R.Perm (views.flatMap (fun v => v.scored e.defRankOpts.score (docsOf v))) ∧
          Ranked false R ∧ List.Forall₂ Shows (page off m R) texts ∧
          out.Perm texts ∧ NewestFirst out ∧ out.length ≤ m := by
  have hlim : limits conf offset max = ((off : Int), (m : Int)) := by
    unfold limits
    rcases hask with ⟨h1, h2, h3⟩ | ⟨h1, h2, h3⟩
    · rw [if_neg h1, h2, h3]
    · rw [if_pos h1, h2, h3]
  obtain ⟨answers, ha, hA⟩ := C24_search_is_page_of_global_ranking hgs log2 e
    (comReq query off m docIds logic) (Engine.tokens env e (comReq query off m docIds logic))
    views docsOf off m hf rfl rfl rfl rfl hnan
  refine ⟨answers, ha, ?_⟩
  rintro search ⟨arrived, hp, hs⟩
  obtain ⟨resp, hr, -, R, hR1, hR2, hR3, -, -⟩ := hA arrived hp
  rw [hr] at hs
  have hsc : (wantedRank e (comReq (F := F) query off m docIds logic)).score =
      e.defRankOpts.score := rfl
  rw [hsc] at hR1
  have hmem : ∀ d ∈ page off m R, ∃ t, toText d = some t := by
    intro d hd
    have hdR : d ∈ R := by
      unfold page at hd
      rw [if_neg (by omega)] at hd
      exact List.mem_of_mem_drop (List.mem_of_mem_take hd)
    obtain ⟨v, hv, hdv⟩ := List.mem_flatMap.1 (hR1.mem_iff.1 hdR)
    obtain ⟨t, ht⟩ := hattri v hv d hdv
    exact ⟨t, toText_shows.2 ht⟩
  obtain ⟨texts, ht⟩ := mapM_exists hmem
  have hF : List.Forall₂ Shows (page off m R) texts :=
    (mapM_some_iff.1 ht).imp (fun _ _ h => toText_shows.1 h)
  have hlen : texts.length ≤ m := by
    rw [← hF.length_eq]
    unfold page
    rw [if_neg (by omega)]
    simp
  have hl2 : (gs textLess texts).length = texts.length := (hgs.perm _ _).length_eq
  refine ⟨gs textLess texts, R, texts, ?_, hR1, hR2, hF, hgs.perm _ _, sort_newestFirst hgs _, by omega⟩
  unfold serverSearch
  simp only [hlim]
  rw [hs]
  unfold serverAnswer Engine.searchDoc
  simp only [hR3, resultDocs, hid, Bool.false_eq_true, if_false, asDocs, Option.bind_eq_bind,
    Option.bind_some, Option.pure_def]
  rw [ht, Option.bind_some]
  have hl3 : ¬ ((gs textLess texts).length : Int) > m := by omega
  exact if_neg hl3

/-- **C59 is refuted** If neither the request nor the configuration sets a limit (0 means "no
limit" for the engine), the server answers every search with nothing, whatever the engine finds. -/
theorem C59_refuted_no_limit_shows_nothing (gs : GSort) (conf : Conf)
    (hc : conf.maxOutputs = 0) (search : SearchReq F → Option (SearchResp F AttriVal)) (query : Str)
    (offset : Int) (docIds : Option (List Str)) (logic : Logic) (resp : SearchResp F AttriVal)
    (docs : List (ScoredDoc F AttriVal))
    (hs : search (comReq query conf.outputOffset 0 docIds logic) = some resp) (hd : resp.docs = some (.docs docs))
    (hattri : ∀ d ∈ docs, ∃ t, Shows d t) :
    serverSearch gs conf search query offset 0 docIds logic = some [] := by
  obtain ⟨texts, ht⟩ := mapM_exists (f := toText) (l := docs) (fun d hd => by
    obtain ⟨t, h⟩ := hattri d hd; exact ⟨t, toText_shows.2 h⟩)
  unfold serverSearch limits serverAnswer sortCut Engine.searchDoc
  simp only [if_true, hc, hs, hd, asDocs, Option.bind_eq_bind, Option.bind_some, Option.pure_def, ht]
  split
  · rename_i hl
    unfold goSub
    simp
  · rename_i hl
    have : gs textLess texts = [] := by
      rw [← List.length_eq_zero_iff]; omega
    rw [this]

/-- **C59 is refuted** A found document without a `types.Attri` (indexed through the engine's
API with another attribute or none) crashes every search whose page contains it. -/
theorem C59_refuted_foreign_attribute (gs : GSort) (max : Int) (resp : SearchResp F AttriVal)
    (docs : List (ScoredDoc F AttriVal)) (hd : resp.docs = some (.docs docs))
    (d : ScoredDoc F AttriVal) (hin : d ∈ docs) (hno : ∀ t, ¬ Shows d t) :
    serverAnswer gs max (some resp) = none := by
  have : docs.mapM toText = none := by
    cases h : docs.mapM toText with
    | none => rfl
    | some r =>
      obtain ⟨b, -, hb⟩ := forall2_right (mapM_some_iff.1 h) hin
      exact absurd (toText_shows.1 hb) (hno b)
  unfold serverAnswer Engine.searchDoc
  simp [hd, asDocs, this]

/-- A shard with documents under the key "b": id, score, time stamp. -/
def netShard (ids : List (String × Nat × Int)) : ShardView Nat AttriVal where
  index := ((Indexer.init (smallOpts .docIds 10)).run insSort
    (ids.map (fun x => .add (mkDoc x.1 ["b"]) true))).getD (Indexer.init (smallOpts .docIds 10))
  history := ids.map (fun x => .add (str x.1) (some x.2.1) (some ([], some (some (.attri [] x.2.2)))))

def netOpts : SearchOpts Nat := { notUseGse := true, defRankOpts := { score := demoScore } }

/-- The engine of a server: every search sees these shards, which answer in order. -/
def netEngine (views : List (ShardView Nat AttriVal)) (r : SearchReq Nat) :
    Option (SearchResp Nat AttriVal) :=
  (shardAnswers (fun x => x) insGSort netOpts r [str "b"] views).bind
    (completeSearch insGSort netOpts r [str "b"])

def netServer (views : List (ShardView Nat AttriVal)) (offset max : Int) : Option (List Text) :=
  serverSearch insGSort {} (netEngine views) (str "b") offset max none {}

/-- The best two documents (scores 9 and 5), newest first. -/
example : (netServer [netShard [("1", 5, 70), ("2", 9, 20), ("3", 1, 99)]] 0 2).map (·.map (·.id)) =
    some [str "1", str "2"] := by decide +kernel

/-- The hypotheses of `C59_server_shows_page` hold for this server. -/
example : ∀ v ∈ [netShard [("1", 5, 70), ("2", 9, 20), ("3", 1, 99)]],
    (v.found (fun x => x) [str "b"] (comReq (str "b") 0 2 none {})).isSome = true ∧
    ∀ d ∈ v.scored demoScore ((v.found (fun x => x) [str "b"] (comReq (str "b") 0 2 none {})).getD []),
      (toText d).isSome = true := by decide +kernel

/-- No limit anywhere: nothing is shown although three documents match. -/
example : netServer [netShard [("1", 5, 70), ("2", 9, 20), ("3", 1, 99)]] 0 0 = some [] := by
  decide +kernel

/-- A distributed search of two servers: every server gets the same offset and limit. -/
def netDist (servers : List (List (ShardView Nat AttriVal))) (offset max : Int) : Option (List Text) :=
  (servers.mapM (fun v => netServer v offset max)).bind (dist insGSort {} max)

/-- **C50 is refuted** Paging through a distributed search loses documents: the offset is
applied by every server. Of two matching documents on two servers the first page of one document
shows the wrong number (limit 1: nothing), and the page from position 1 on shows nothing. -/
theorem C50_refuted_paging :
    (netDist [[netShard [("1", 5, 70)]], [netShard [("2", 9, 20)]]] 0 10).map List.length = some 2 ∧
    (netDist [[netShard [("1", 5, 70)]], [netShard [("2", 9, 20)]]] 0 1).map List.length = some 0 ∧
    (netDist [[netShard [("1", 5, 70)]], [netShard [("2", 9, 20)]]] 1 10).map List.length = some 0 := by
  decide +kernel

/-! ## C58 -/

theorem run_append {answers : Nat → List (List Text)} {n : Nat} (as bs : List CollAct) (s : Coll) :
    s.run answers n (as ++ bs) = (s.run answers n as).bind (fun s' => s'.run answers n bs) := by
  induction as generalizing s with
  | nil => rfl
  | cons a as ih =>
    simp only [List.cons_append, Coll.run]
    cases h : s.step answers n a with
    | none => rfl
    | some s' => simp [ih]

/-- The answers at some positions, each at most once. -/
def Picks (ans : List (List Text)) (done : Nat → Prop) (data : List (List Text)) : Prop :=
  ∃ idx : List Nat, idx.Nodup ∧ (∀ i ∈ idx, done i ∧ i < ans.length) ∧
    data = idx.filterMap (fun i => ans[i]?)

/-- Invariant of the only request. -/
structure OneInv (ans : List (List Text)) (s : Coll) : Prop where
  others : ∀ x i, x ≠ 0 → s.posts x i = .idle
  before : s.reqs 0 = .idle → s.data = [] ∧ ∀ i, s.posts 0 i = .idle
  started : s.reqs 0 ≠ .idle → ∀ i < ans.length, s.posts 0 i ≠ .idle
  range : ∀ i, s.posts 0 i ≠ .idle → i < ans.length
  data : Picks ans (fun i => s.posts 0 i = .done) s.data
  loaded : ∀ i seen, s.posts 0 i = .loaded seen → Picks ans (fun j => s.posts 0 j = .done) seen
  some_done : (∃ i, s.posts 0 i = .done) → s.data ≠ []
  woken : s.reqs 0 = .woken → ∀ i < ans.length, s.posts 0 i = .done
  answered : ∀ d, s.reqs 0 = .answered d → d = s.data ∧ ∀ i < ans.length, s.posts 0 i = .done

theorem Picks.mono {ans : List (List Text)} {p q : Nat → Prop} {data : List (List Text)}
    (h : Picks ans p data) (hpq : ∀ i, p i → q i) : Picks ans q data := by
  obtain ⟨idx, h1, h2, h3⟩ := h
  exact ⟨idx, h1, fun i hi => ⟨hpq i (h2 i hi).1, (h2 i hi).2⟩, h3⟩

theorem Picks.add {ans : List (List Text)} {p q : Nat → Prop} {data : List (List Text)} {i : Nat}
    {a : List Text} (h : Picks ans p data) (hpq : ∀ j, p j → q j) (hi : ¬ p i) (hq : q i)
    (ha : ans[i]? = some a) : Picks ans q (data ++ [a]) := by
  obtain ⟨idx, h1, h2, h3⟩ := h
  refine ⟨idx ++ [i], ?_, ?_, ?_⟩
  · rw [List.nodup_append]
    refine ⟨h1, by simp, ?_⟩
    intro x hx y hy
    simp only [List.mem_singleton] at hy
    rintro rfl
    subst hy
    exact hi (h2 x hx).1
  · intro j hj
    rcases List.mem_append.1 hj with hj | hj
    · exact ⟨hpq j (h2 j hj).1, (h2 j hj).2⟩
    · simp only [List.mem_singleton] at hj
      subst hj
      exact ⟨hq, (List.getElem?_eq_some_iff.1 ha).1⟩
  · simp [h3, ha]

theorem oneInv_init (ans : List (List Text)) : OneInv ans {} where
  others := fun _ _ _ => rfl
  before := fun _ => ⟨rfl, fun _ => rfl⟩
  started := fun h => absurd rfl h
  range := fun _ h => absurd rfl h
  data := ⟨[], by simp, by simp, rfl⟩
  loaded := fun _ _ h => by cases h
  some_done := fun ⟨_, h⟩ => by cases h
  woken := fun h => by cases h
  answered := fun _ h => by cases h

theorem oneInv_step {answers : Nat → List (List Text)} {s s' : Coll} {a : CollAct}
    (hinv : OneInv (answers 0) s) (h : s.step answers 1 a = some s') : OneInv (answers 0) s' := by
  cases a with
  | start r =>
    simp only [Coll.step] at h
    split at h
    · rename_i hg
      obtain ⟨hr, hlt⟩ := hg
      have : r = 0 := by omega
      subst this
      cases h
      have hb := hinv.before hr
      refine ⟨?_, ?_, ?_, ?_, ⟨[], by simp, by simp, rfl⟩, ?_, ?_, ?_, ?_⟩
      · intro x i hx; simp [hx, hinv.others x i hx]
      · intro hh; simp at hh
      · intro _ i hi; simp [hi]
      · intro i hh
        by_contra hi
        simp [hi] at hh
      · intro i seen hh
        simp only [if_true] at hh
        split at hh <;> cases hh
      · rintro ⟨i, hh⟩
        simp only [if_true] at hh
        split at hh <;> cases hh
      · intro hh; simp at hh
      · intro d hh; simp at hh
    · cases h
  | load r i =>
    simp only [Coll.step] at h
    split at h
    · rename_i hg
      cases h
      have hr : r = 0 := by
        by_contra hne
        rw [hinv.others r i hne] at hg; cases hg
      subst hr
      have hkeep : ∀ j, s.posts 0 j = .done →
          (if True ∧ j = i then Post.loaded s.data else s.posts 0 j) = .done := by
        intro j hj
        have : j ≠ i := by rintro rfl; rw [hg] at hj; cases hj
        simp [this, hj]
      have hback : ∀ j, (if True ∧ j = i then Post.loaded s.data else s.posts 0 j) = .done →
          s.posts 0 j = .done := by
        intro j hj
        split at hj
        · cases hj
        · exact hj
      have hil : i < (answers 0).length := hinv.range i (by rw [hg]; exact fun h => by cases h)
      refine ⟨?_, ?_, ?_, ?_, ?_, ?_, ?_, ?_, ?_⟩
      · intro x j hx; simp [hx, hinv.others x j hx]
      · intro hh
        have := (hinv.before hh).2 i
        rw [hg] at this; cases this
      · intro hh j hj
        have := hinv.started hh j hj
        simp only [true_and]
        split
        · exact fun h => by cases h
        · exact this
      · intro j hh
        simp only [true_and] at hh
        split at hh
        · rename_i he; subst he; exact hil
        · exact hinv.range j hh
      · exact hinv.data.mono (fun j hj => by simpa using hkeep j hj)
      · intro j seen hh
        simp only [true_and] at hh
        split at hh
        · cases hh
          exact hinv.data.mono (fun j hj => by simpa using hkeep j hj)
        · exact (hinv.loaded j seen hh).mono (fun j hj => by simpa using hkeep j hj)
      · rintro ⟨j, hj⟩
        exact hinv.some_done ⟨j, hback j (by simpa using hj)⟩
      · intro hh j hj
        have h1 := hinv.woken hh i hil
        rw [hg] at h1; cases h1
      · intro d hh
        have h1 := (hinv.answered d hh).2 i hil
        rw [hg] at h1; cases h1
    · cases h
  | store r i =>
    simp only [Coll.step] at h
    split at h
    · rename_i seen a hg ha
      cases h
      have hr : r = 0 := by
        by_contra hne
        rw [hinv.others r i hne] at hg; cases hg
      subst hr
      have hkeep : ∀ j, s.posts 0 j = .done →
          (if True ∧ j = i then Post.done else s.posts 0 j) = .done := by
        intro j hj
        split
        · rfl
        · exact hj
      have hil : i < (answers 0).length := hinv.range i (by rw [hg]; exact fun h => by cases h)
      refine ⟨?_, ?_, ?_, ?_, ?_, ?_, ?_, ?_, ?_⟩
      · intro x j hx; simp [hx, hinv.others x j hx]
      · intro hh
        have := (hinv.before hh).2 i
        rw [hg] at this; cases this
      · intro hh j hj
        have := hinv.started hh j hj
        simp only [true_and]
        split
        · exact fun h => by cases h
        · exact this
      · intro j hh
        simp only [true_and] at hh
        split at hh
        · rename_i he; subst he; exact hil
        · exact hinv.range j hh
      · exact (hinv.loaded i seen hg).add (fun j hj => by simpa using hkeep j hj)
          (by rw [hg]; exact fun h => by cases h) (by simp) ha
      · intro j seen' hh
        simp only [true_and] at hh
        split at hh
        · cases hh
        · exact (hinv.loaded j seen' hh).mono (fun j hj => by simpa using hkeep j hj)
      · intro _; simp
      · intro hh j hj
        have h1 := hinv.woken hh i hil
        rw [hg] at h1; cases h1
      · intro d hh
        have h1 := (hinv.answered d hh).2 i hil
        rw [hg] at h1; cases h1
    · cases h
  | wake r =>
    simp only [Coll.step] at h
    split at h
    · rename_i hg
      obtain ⟨hr, hall⟩ := hg
      cases h
      refine ⟨hinv.others, ?_, ?_, hinv.range, hinv.data, hinv.loaded, hinv.some_done, ?_, ?_⟩
      · intro hh
        simp only at hh
        split at hh
        · cases hh
        · exact hinv.before hh
      · intro hh
        simp only at hh
        split at hh
        · rename_i he; subst he
          exact hinv.started (by rw [hr]; exact fun h => by cases h)
        · exact hinv.started hh
      · intro hh i hi
        simp only at hh
        split at hh
        · rename_i he; subst he
          rcases hall 0 (by omega) i hi with h1 | h1
          · exact absurd h1 (hinv.started (by rw [hr]; exact fun h => by cases h) i hi)
          · exact h1
        · exact hinv.woken hh i hi
      · intro d hh
        simp only at hh
        split at hh
        · cases hh
        · exact hinv.answered d hh
    · cases h
  | finish r =>
    simp only [Coll.step] at h
    split at h
    · rename_i hr
      cases h
      refine ⟨hinv.others, ?_, ?_, hinv.range, hinv.data, hinv.loaded, hinv.some_done, ?_, ?_⟩
      · intro hh
        simp only at hh
        split at hh
        · cases hh
        · exact hinv.before hh
      · intro hh
        simp only at hh
        split at hh
        · rename_i he; subst he
          exact hinv.started (by rw [hr]; exact fun h => by cases h)
        · exact hinv.started hh
      · intro hh i hi
        simp only at hh
        split at hh
        · cases hh
        · exact hinv.woken hh i hi
      · intro d hh
        simp only at hh
        split at hh
        · rename_i he; subst he
          cases hh
          exact ⟨rfl, hinv.woken hr⟩
        · exact hinv.answered d hh
    · cases h

theorem oneInv_run {answers : Nat → List (List Text)} (as : List CollAct) : ∀ {s s' : Coll},
    OneInv (answers 0) s → s.run answers 1 as = some s' → OneInv (answers 0) s' := by
  induction as with
  | nil => intro s s' h hr; cases hr; exact h
  | cons a as ih =>
    intro s s' h hr
    simp only [Coll.run, Option.bind_eq_some_iff] at hr
    obtain ⟨t, h1, h2⟩ := hr
    exact ih (oneInv_step h h1) h2

theorem picks_subperm {ans : List (List Text)} {p : Nat → Prop} {data : List (List Text)}
    (h : Picks ans p data) : data.Subperm ans := by
  obtain ⟨idx, h1, h2, rfl⟩ := h
  have hsub : idx.Subperm (List.range ans.length) :=
    h1.subperm (fun i hi => List.mem_range.2 (h2 i hi).2)
  have hr : (List.range ans.length).filterMap (fun i => ans[i]?) = ans := by
    clear h2 hsub h1
    induction ans using List.reverseRecOn with
    | nil => rfl
    | append_singleton l a ih =>
      rw [List.length_append, List.length_singleton, List.range_succ, List.filterMap_append]
      have h1 : (List.range l.length).filterMap (fun i => (l ++ [a])[i]?) =
          (List.range l.length).filterMap (fun i => l[i]?) := by
        apply List.filterMap_congr
        intro i hi
        exact List.getElem?_append_left (List.mem_range.1 hi)
      rw [h1, ih]
      simp
  obtain ⟨l, hl1, hl2⟩ := hsub
  have h3 := hl2.filterMap (fun i => ans[i]?)
  rw [hr] at h3
  exact ⟨l.filterMap (fun i => ans[i]?), hl1.filterMap _, h3⟩

/-- **C58 (partial)** One distributed request at a time, every schedule of its goroutines: what
it merges are answers of its servers, none twice, and at least one if a server answered. Missing
for the full claim: all answers, and several requests at a time (see the refutations). -/
theorem C58_one_request_partial (answers : Nat → List (List Text)) (as : List CollAct) (s : Coll)
    (h : Coll.run answers 1 {} as = some s) (data : List (List Text)) (hd : s.reqs 0 = .answered data) :
    data.Subperm (answers 0) ∧ (answers 0 ≠ [] → data ≠ []) := by
  have hinv := oneInv_run as (oneInv_init (answers 0)) h
  obtain ⟨rfl, hall⟩ := hinv.answered data hd
  refine ⟨picks_subperm hinv.data, ?_⟩
  intro hne
  have hl : 0 < (answers 0).length := List.length_pos_iff.2 hne
  exact hinv.some_done ⟨0, hall 0 hl⟩

/-- No goroutine is inside its `append` and the shared slice holds exactly the answers of the
goroutines that are done. -/
structure Exact (ans : List (List Text)) (s : Coll) : Prop where
  calm : ∀ r i seen, s.posts r i ≠ .loaded seen
  exact : ∃ idx : List Nat, idx.Nodup ∧ (∀ i, i ∈ idx ↔ s.posts 0 i = .done) ∧
    s.data = idx.filterMap (fun i => ans[i]?)

theorem exact_append {answers : Nat → List (List Text)} {s s1 s2 : Coll} {r i : Nat}
    (hinv : OneInv (answers 0) s) (he : Exact (answers 0) s)
    (h1 : s.step answers 1 (.load r i) = some s1) (h2 : s1.step answers 1 (.store r i) = some s2) :
    Exact (answers 0) s2 := by
  simp only [Coll.step] at h1
  split at h1
  · rename_i hg
    cases h1
    simp only [Coll.step, and_self, if_true] at h2
    split at h2
    · rename_i seen a hs ha
      cases hs
      cases h2
      have hr : r = 0 := by
        by_contra hne
        rw [hinv.others r i hne] at hg; cases hg
      subst hr
      constructor
      · intro x j seen
        simp only
        split
        · exact fun h => by cases h
        · exact he.calm x j seen
      · obtain ⟨idx, hn, hm, hd⟩ := he.exact
        have hni : i ∉ idx := by
          intro hi
          rw [hm, hg] at hi; cases hi
        refine ⟨idx ++ [i], ?_, ?_, ?_⟩
        · rw [List.nodup_append]
          refine ⟨hn, by simp, ?_⟩
          intro x hx y hy
          simp only [List.mem_singleton] at hy
          rintro rfl
          subst hy
          exact hni hx
        · intro j
          simp only [List.mem_append, List.mem_singleton, hm, true_and]
          by_cases hji : j = i
          · simp [hji]
          · simp [hji]
        · simp [hd, ha]
    · cases h2
  · cases h1

theorem exact_other {answers : Nat → List (List Text)} {s s' : Coll} {a : CollAct}
    (he : Exact (answers 0) s) (ha : ∀ r i, a ≠ .load r i)
    (h : s.step answers 1 a = some s') : Exact (answers 0) s' := by
  cases a with
  | load r i => exact absurd rfl (ha r i)
  | store r i =>
    simp only [Coll.step] at h
    split at h
    · rename_i hg _; exact absurd hg (he.calm r i _)
    · cases h
  | start r =>
    simp only [Coll.step] at h
    split at h
    · rename_i hg
      cases h
      have : r = 0 := by omega
      subst this
      constructor
      · intro x i seen
        simp only
        split
        · split <;> exact fun h => by cases h
        · exact he.calm x i seen
      · refine ⟨[], by simp, ?_, rfl⟩
        intro i
        simp only [List.not_mem_nil, if_true, false_iff]
        split <;> exact fun h => by cases h
    · cases h
  | wake r =>
    simp only [Coll.step] at h
    split at h
    · cases h; exact ⟨he.calm, he.exact⟩
    · cases h
  | finish r =>
    simp only [Coll.step] at h
    split at h
    · cases h; exact ⟨he.calm, he.exact⟩
    · cases h

theorem exact_run {answers : Nat → List (List Text)} : ∀ (n : Nat) (as : List CollAct), as.length ≤ n →
    ∀ {s s' : Coll}, OneInv (answers 0) s → Exact (answers 0) s → Serial as →
    s.run answers 1 as = some s' → (∃ r i seen, s'.posts r i = .loaded seen) ∨ Exact (answers 0) s' := by
  intro n
  induction n with
  | zero =>
    intro as hl s s' _ he _ hr
    have : as = [] := List.length_eq_zero_iff.1 (by omega)
    subst this
    cases hr
    exact Or.inr he
  | succ n ih =>
    intro as hl s s' hinv he hser hr
    cases as with
    | nil => cases hr; exact Or.inr he
    | cons a as =>
      simp only [Coll.run, Option.bind_eq_some_iff] at hr
      obtain ⟨s1, h1, h2⟩ := hr
      have hinv1 := oneInv_step hinv h1
      by_cases hload : ∃ r i, a = .load r i
      · obtain ⟨r, i, rfl⟩ := hload
        rcases hser [] r i as rfl with rfl | hh
        · cases h2
          simp only [Coll.step] at h1
          split at h1
          · cases h1
            exact Or.inl ⟨r, i, s.data, by simp⟩
          · cases h1
        · cases as with
          | nil => simp at hh
          | cons b as =>
            simp only [List.head?_cons, Option.some.injEq] at hh
            subst hh
            simp only [Coll.run, Option.bind_eq_some_iff] at h2
            obtain ⟨s2, h3, h4⟩ := h2
            refine ih as (by simp at hl; omega) (oneInv_step hinv1 h3) (exact_append hinv he h1 h3) ?_ h4
            intro pre r' i' rest hp
            exact hser (.load r i :: .store r i :: pre) r' i' rest (by rw [hp]; rfl)
      · refine ih as (by simp at hl; omega) hinv1
          (exact_other he (fun r i h => hload ⟨r, i, h⟩) h1) ?_ h2
        intro pre r i rest hp
        exact hser (a :: pre) r i rest (by rw [hp]; rfl)

/-- **C58** One distributed request whose goroutines do not append at the same time merges
exactly the answers of its servers, each once, in some order. -/
theorem C58_serial_appends_complete (answers : Nat → List (List Text)) (as : List CollAct) (s : Coll)
    (hser : Serial as) (h : Coll.run answers 1 {} as = some s) (data : List (List Text))
    (hd : s.reqs 0 = .answered data) : data.Perm (answers 0) := by
  have hinv := oneInv_run as (oneInv_init (answers 0)) h
  obtain ⟨rfl, hall⟩ := hinv.answered data hd
  have he : Exact (answers 0) {} :=
    ⟨fun _ _ _ => by simp, ⟨[], by simp, fun _ => by simp, rfl⟩⟩
  rcases exact_run as.length as (le_refl _) (oneInv_init (answers 0)) he hser h with ⟨r, i, seen, hl⟩ | he
  · have hr : r = 0 := by
      by_contra hne
      rw [hinv.others r i hne] at hl; cases hl
    subst hr
    have := hall i (hinv.range i (by rw [hl]; exact fun h => by cases h))
    rw [hl] at this; cases this
  · obtain ⟨idx, hn, hm, hdat⟩ := he.exact
    have hsub := picks_subperm hinv.data
    refine hsub.perm_of_length_le ?_
    have hp : idx.Perm (List.range (answers 0).length) := by
      refine (List.perm_ext_iff_of_nodup hn List.nodup_range).2 ?_
      intro i
      rw [hm, List.mem_range]
      exact ⟨fun h => hinv.range i (by rw [h]; exact fun h => by cases h), hall i⟩
    rw [hdat, (hp.filterMap _).length_eq]
    have : ∀ n ≤ (answers 0).length,
        ((List.range n).filterMap (fun i => (answers 0)[i]?)).length = n := by
      intro n
      induction n with
      | zero => intro _; rfl
      | succ n ih =>
        intro hn
        rw [List.range_succ, List.filterMap_append, List.length_append, ih (by omega)]
        simp [List.getElem?_eq_getElem (show n < (answers 0).length by omega)]
    rw [this _ (le_refl _)]

/-- The answers of two servers to two requests. -/
def demoAnswers : Nat → List (List Text)
  | 0 => [[{ id := str "a0", ts := 1 }], [{ id := str "b0", ts := 2 }]]
  | _ => [[{ id := str "a1", ts := 3 }], [{ id := str "b1", ts := 4 }]]

/-- What a request merged. -/
def merged (s : Option Coll) (r : Nat) : Option (List (List Str)) :=
  s.bind (fun s => match s.reqs r with
    | .answered d => some (d.map (·.map (·.id)))
    | _ => none)

/-- A check for `Serial`. -/
def serialCheck : List CollAct → Bool
  | [] => true
  | .load r i :: rest => (rest.isEmpty || rest.head? == some (.store r i)) && serialCheck rest
  | _ :: rest => serialCheck rest

theorem serialCheck_ok (as : List CollAct) (h : serialCheck as = true) : Serial as := by
  induction as with
  | nil => intro pre r i rest hp; simp at hp
  | cons a as ih =>
    have has : serialCheck as = true := by
      cases a <;> simp_all [serialCheck]
    intro pre r i rest hp
    cases pre with
    | nil =>
      simp only [List.nil_append, List.cons.injEq] at hp
      obtain ⟨rfl, rfl⟩ := hp
      simp only [serialCheck, Bool.and_eq_true, Bool.or_eq_true, List.isEmpty_iff, beq_iff_eq] at h
      exact h.1
    | cons b pre =>
      simp only [List.cons_append, List.cons.injEq] at hp
      exact ih has pre r i rest hp.2

/-- A schedule that meets the hypotheses of `C58_serial_appends_complete`. -/
example : Serial [.start 0, .load 0 1, .store 0 1, .load 0 0, .store 0 0, .wake 0, .finish 0] :=
  serialCheck_ok _ (by decide)

example : merged (Coll.run demoAnswers 1 {}
    [.start 0, .load 0 1, .store 0 1, .load 0 0, .store 0 0, .wake 0, .finish 0]) 0 =
    some [[str "b0"], [str "a0"]] := by decide +kernel

/-- **C58 is refuted** Two goroutines append at the same time: the answer of one server is
missing although both servers answered. -/
theorem C58_refuted_lost_answer :
    merged (Coll.run demoAnswers 1 {}
      [.start 0, .load 0 0, .load 0 1, .store 0 0, .store 0 1, .wake 0, .finish 0]) 0 =
      some [[str "b0"]] := by decide +kernel

/-- **C58 is refuted** Two requests at a time: the first one is answered with the documents
found for the second one, and with none of its own. -/
theorem C58_refuted_foreign_documents :
    merged (Coll.run demoAnswers 2 {}
      [.start 0, .load 0 0, .store 0 0, .load 0 1, .store 0 1, .wake 0,
       .start 1, .load 1 0, .store 1 0, .load 1 1, .store 1 1, .finish 0, .wake 1, .finish 1]) 0 =
      some [[str "a1"], [str "b1"]] := by decide +kernel

/-! ## C60 -/

/-- **C60 is refuted** Deleting a document through gRPC ends the server process, whatever was
called before. -/
theorem C60_refuted_grpc_delete_exits (cs : List GrpcCall) (id : Str) :
    Engines.calls {} (cs ++ [.delete id]) = none := by
  have key : ∀ (cs : List GrpcCall) (s : Engines), s.grpc = false →
      s.calls (cs ++ [.delete id]) = none := by
    intro cs
    induction cs with
    | nil => intro s h; simp [Engines.calls, Engines.call, h]
    | cons c cs ih =>
      intro s h
      simp only [List.cons_append, Engines.calls]
      cases hc : s.call c with
      | none => rfl
      | some s' =>
        rw [Option.bind_some]
        apply ih
        cases c <;> simp only [Engines.call] at hc <;> split at hc <;> cases hc <;> simp_all
  exact key cs {} rfl

/-- **C60** Without a delete, a server that initialised its engine first serves every sequence of
index and search calls. -/
theorem C60_grpc_index_and_search_served (cs : List GrpcCall)
    (h : ∀ c ∈ cs, ∃ x, c = .docInx x ∨ c = .search x) :
    Engines.calls {} (.initEngine :: cs) ≠ none := by
  have key : ∀ cs : List GrpcCall, (∀ c ∈ cs, ∃ x, c = .docInx x ∨ c = .search x) →
      Engines.calls { com := true } cs = some { com := true } := by
    intro cs
    induction cs with
    | nil => intro _; rfl
    | cons c cs ih =>
      intro h
      obtain ⟨x, hx⟩ := h c (by simp)
      rcases hx with rfl | rfl <;>
      · simp only [Engines.calls, Engines.call, if_true, Option.bind_some]
        exact ih (fun c hc => h c (by simp [hc]))
  simp only [Engines.calls, Engines.call, Bool.false_eq_true, if_false, Option.bind_some]
  rw [key cs h]
  simp

example : Engines.calls {} [.initEngine, .docInx (str "a"), .search (str "q")] = some { com := true } := by
  decide +kernel

end Riot.Net
