import Verif.Props.FullText
import Verif.Props.Requests

/-!
# C102: a document is found by its own text
-/

namespace Riot

variable {D F A : Type}

/-- The segmentation modes and texts for which a document has the words of its own text, taken as a query:
* without a segmenter, modes 0 and 4 (split at spaces): words separated by single spaces;
* without a segmenter, mode 6 (all pieces of the text): words separated by single spaces, the text being cut into non-empty
  pieces such that a space is a piece of its own (UTF-8);
* with a segmenter, modes 0 and 1: at least one word of the query segmentation is no stop token, and each one that is no stop token is a
  segment of the document segmentation (the code uses the functions `Cut` or `CutSearch` for queries and `ModeSegment` for documents). -/
def OwnWords (env : TextEnv) (e : TextOpts) (content : Str) : Prop :=
  (e.notUseGse = true ∧ (e.using_ = 0 ∨ e.using_ = 4) ∧ [] ∉ splitSpace (env.lower content)) ∨
  (e.notUseGse = true ∧ e.using_ = 6 ∧ [] ∉ splitSpace (env.lower content) ∧
    (env.explode (env.lower content)).flatten = env.lower content ∧
    ∀ p ∈ env.explode (env.lower content), p ≠ [] ∧ ((32 : Fin 256) ∈ p → p = [32])) ∨
  (e.notUseGse = false ∧ (e.using_ = 0 ∨ e.using_ = 1) ∧
    (∃ t ∈ env.cut e.gseMode e.hmm (env.lower content), ¬ IsStopLine env t) ∧
    ∀ t ∈ env.cut e.gseMode e.hmm (env.lower content), ¬ IsStopLine env t → t ∈ segmentTexts env e content)

/-! ## Words are pieces of the text -/

theorem joinSpace_snoc (l : List Str) (w : Str) (hl : l ≠ []) : joinSpace (l ++ [w]) = joinSpace l ++ 32 :: w := by
  induction l with
  | nil => exact absurd rfl hl
  | cons a l ih =>
    cases l with
    | nil => simp [joinSpace]
    | cons b l =>
      have := ih (by simp)
      simp only [List.cons_append, joinSpace] at this ⊢
      rw [this]
      simp

theorem joinSpace_append (l l' : List Str) (hl : l ≠ []) (hl' : l' ≠ []) :
    joinSpace (l ++ l') = joinSpace l ++ 32 :: joinSpace l' := by
  induction l with
  | nil => exact absurd rfl hl
  | cons a l ih =>
    cases l with
    | nil =>
      obtain ⟨b, l', rfl⟩ := List.exists_cons_of_ne_nil hl'
      simp [joinSpace]
    | cons b l =>
      have := ih (by simp)
      simp only [List.cons_append, joinSpace] at this ⊢
      rw [this]
      simp

/-- Where a word stands in a text. -/
theorem mem_splitSpace {s w : Str} (h : w ∈ splitSpace s) :
    (32 : Fin 256) ∉ w ∧ ∃ a b, s = a ++ w ++ b ∧ (a = [] ∨ ∃ a', a = a' ++ [32]) ∧ (b = [] ∨ ∃ b', b = 32 :: b') := by
  obtain ⟨j1, j2⟩ := join_splitSpace s
  refine ⟨j2 w h, ?_⟩
  obtain ⟨l1, l2, e⟩ := List.append_of_mem h
  rw [e] at j1
  by_cases h1 : l1 = []
  · by_cases h2 : l2 = []
    · subst h1 h2
      exact ⟨[], [], by rw [← j1]; simp [joinSpace], .inl rfl, .inl rfl⟩
    · subst h1
      obtain ⟨b, l2, rfl⟩ := List.exists_cons_of_ne_nil h2
      exact ⟨[], 32 :: joinSpace (b :: l2), by rw [← j1]; simp only [List.nil_append, joinSpace], .inl rfl, .inr ⟨_, rfl⟩⟩
  · rw [joinSpace_append _ _ h1 (by simp)] at j1
    by_cases h2 : l2 = []
    · subst h2
      exact ⟨joinSpace l1 ++ [32], [], by rw [← j1]; simp [joinSpace], .inr ⟨_, rfl⟩, .inl rfl⟩
    · obtain ⟨b, l2, rfl⟩ := List.exists_cons_of_ne_nil h2
      exact ⟨joinSpace l1 ++ [32], 32 :: joinSpace (b :: l2), by rw [← j1]; simp only [joinSpace, List.append_assoc, List.cons_append, List.nil_append],
        .inr ⟨_, rfl⟩, .inr ⟨_, rfl⟩⟩

/-- A text whose spaces are pieces of their own is cut before and after every space. -/
theorem cut_at_space {ps : List Str} (hp : ∀ p ∈ ps, p ≠ [] ∧ ((32 : Fin 256) ∈ p → p = [32])) {x y : Str}
    (h : ps.flatten = x ++ 32 :: y) : ∃ px py, ps = px ++ [32] :: py ∧ px.flatten = x ∧ py.flatten = y := by
  induction ps generalizing x with
  | nil => simp at h
  | cons p ps ih =>
    rw [List.flatten_cons] at h
    by_cases hs : (32 : Fin 256) ∈ p
    · have := (hp p (by simp)).2 hs
      subst this
      cases x with
      | nil =>
        simp only [List.nil_append, List.cons_append, List.cons.injEq, true_and] at h
        exact ⟨[], ps, rfl, rfl, h⟩
      | cons c x =>
        simp only [List.nil_append, List.cons_append, List.cons.injEq] at h
        obtain ⟨px, py, e1, e2, e3⟩ := ih (fun q hq => hp q (by simp [hq])) h.2
        exact ⟨[32] :: px, py, by rw [e1]; rfl, by rw [List.flatten_cons, e2, ← h.1]; rfl, e3⟩
    · rw [List.append_eq_append_iff] at h
      rcases h with ⟨x', e1, e2⟩ | ⟨z, e1, e2⟩
      · subst e1
        obtain ⟨px, py, f1, f2, f3⟩ := ih (fun q hq => hp q (by simp [hq])) e2
        exact ⟨p :: px, py, by rw [f1]; rfl, by rw [List.flatten_cons, f2], f3⟩
      · cases z with
        | nil =>
          simp only [List.append_nil] at e1
          simp only [List.nil_append] at e2
          obtain ⟨px, py, f1, f2, f3⟩ := ih (x := []) (fun q hq => hp q (by simp [hq])) e2.symm
          exact ⟨p :: px, py, by rw [f1]; rfl, by rw [List.flatten_cons, f2, List.append_nil, e1], f3⟩
        | cons c z =>
          simp only [List.cons_append, List.cons.injEq] at e2
          rw [e1, ← e2.1] at hs
          exact absurd (by simp) hs

/-- Mode 6: every word is a token. -/
theorem word_mem_six {ps : List Str} {s w : Str} (hf : ps.flatten = s)
    (hp : ∀ p ∈ ps, p ≠ [] ∧ ((32 : Fin 256) ∈ p → p = [32])) (hw : w ∈ splitSpace s) (hne : w ≠ []) :
    w ∈ splitTokens true ps := by
  obtain ⟨_, a, b, e, ha, hb⟩ := mem_splitSpace hw
  have htail : ∀ {qs : List Str}, (∀ p ∈ qs, p ≠ [] ∧ ((32 : Fin 256) ∈ p → p = [32])) → qs.flatten = w ++ b →
      ∃ qw qb, qs = qw ++ qb ∧ qw.flatten = w ∧ qw ≠ [] := by
    intro qs hq hfl
    rcases hb with rfl | ⟨b', rfl⟩
    · refine ⟨qs, [], by simp, by simpa using hfl, ?_⟩
      rintro rfl
      simp at hfl
      exact hne hfl
    · obtain ⟨px, py, f1, f2, _⟩ := cut_at_space hq hfl
      refine ⟨px, _, f1, f2, ?_⟩
      rintro rfl
      exact hne (by simpa using f2.symm)
  have hget : ∀ {n : Nat}, n < ps.length → ps.getD n [] ≠ [] := by
    intro n hn
    rw [List.getD_eq_getElem?_getD, List.getElem?_eq_getElem hn, Option.getD_some]
    exact (hp _ (List.getElem_mem hn)).1
  unfold splitTokens
  rw [List.mem_flatMap]
  rcases ha with rfl | ⟨a', rfl⟩
  · obtain ⟨qw, qb, f1, f2, f3⟩ := htail hp (by rw [hf, e]; simp)
    have hl : 0 < qw.length := List.length_pos_iff.2 f3
    have hlt : qw.length - 1 < ps.length := by rw [f1, List.length_append]; omega
    refine ⟨qw.length - 1, List.mem_range.2 hlt, ?_⟩
    rw [if_neg (hget hlt)]
    have : ps.take (qw.length - 1 + 1) = qw := by
      rw [Nat.sub_add_cancel hl, f1, List.take_left]
    rw [this, f2]
    simp
  · obtain ⟨pa, py, g1, g2, g3⟩ := cut_at_space (x := a') (y := w ++ b) hp (by rw [hf, e]; simp)
    obtain ⟨qw, qb, f1, f2, f3⟩ := htail (fun p hpy => hp p (by rw [g1]; simp [hpy])) g3
    have hl : 0 < qw.length := List.length_pos_iff.2 f3
    have hlt : pa.length < ps.length := by rw [g1, List.length_append]; simp
    refine ⟨pa.length, List.mem_range.2 hlt, ?_⟩
    rw [if_neg (hget hlt)]
    simp only [List.mem_cons]
    right; right
    rw [if_pos trivial]
    refine List.mem_map.2 ⟨qw.length - 1, List.mem_range.2 ?_, ?_⟩
    · rw [g1, f1]; simp only [List.length_append, List.length_cons]; omega
    · have hd : ps.drop (pa.length + 1) = qw ++ qb := by
        rw [g1, List.drop_append, f1]; simp
      rw [hd, Nat.sub_add_cancel hl, List.take_left, f2]

/-! ## The theorems -/

/-- **C102** (partial: texts and modes of `OwnWords`) The words of a document's own text, taken as a query, are not empty and
all are search keys of the document. -/
theorem C102_own_words_partial (env : TextEnv) (e : SearchOpts F) (t : DocText) (hc : t.content ≠ [])
    (how : OwnWords env e.toTextOpts t.content) (r : SearchReq F) (hr : r.text = t.content) (htok : r.tokens = []) :
    Engine.tokens env e r ≠ [] ∧ ∀ w ∈ Engine.tokens env e r, TextHasKey env e.toTextOpts t w := by
  have ht : Engine.tokens env e r =
      (if e.notUseGse then splitSpace (env.lower t.content) else segmentText env e.toTextOpts (env.lower t.content)) := by
    unfold Engine.tokens
    rw [if_pos (by rw [hr]; exact hc), htok, hr, List.append_nil]
  rw [ht]
  rcases how with ⟨h1, h2, h3⟩ | ⟨h1, h2, h3, h4, h5⟩ | ⟨h1, h2, h3, h4⟩
  · rw [if_pos h1]
    refine ⟨splitSpace_ne_nil _, fun w hw => ⟨by simp [h1], .inl (.inr (.inr (.inl ⟨hc, ?_, ?_⟩)))⟩⟩
    · rcases h2 with h2 | h2
      · exact .inl ⟨h2, h1⟩
      · right; rw [h2]; decide
    · unfold splitOf
      simp only [if_pos h2]
      exact mem_splitTokens _ _ _ hw (fun h0 => h3 (h0 ▸ hw))
  · rw [if_pos h1]
    refine ⟨splitSpace_ne_nil _, fun w hw => ⟨by simp [h1], .inl (.inr (.inr (.inl ⟨hc, ?_, ?_⟩)))⟩⟩
    · right; rw [h2]; decide
    · unfold splitOf
      have : ¬ (e.using_ = 0 ∨ e.using_ = 4) := by rw [h2]; decide
      simp only [if_neg this, h2, decide_true]
      exact word_mem_six h4 h5 hw (fun h0 => h3 (h0 ▸ hw))
  · have hfilt : ∀ w, w ∈ segmentText env e.toTextOpts (env.lower t.content) ↔
        w ∈ env.cut e.gseMode e.hmm (env.lower t.content) ∧ ¬ IsStopLine env w := by
      intro w
      unfold segmentText
      rw [List.mem_filter, Bool.not_eq_true', ← Bool.not_eq_true, isStop_iff]
      simp [h1]
    have hn : e.notUseGse ≠ true := by rw [h1]; decide
    rw [if_neg hn]
    refine ⟨?_, fun w hw => ?_⟩
    · obtain ⟨w, w1, w2⟩ := h3
      exact List.ne_nil_of_mem ((hfilt w).2 ⟨w1, w2⟩)
    · obtain ⟨w1, w2⟩ := (hfilt w).1 hw
      refine ⟨fun hx => w2 hx.2, .inl (.inl ⟨hc, ?_, h4 w w1 w2⟩)⟩
      rcases h2 with h2 | h2
      · exact .inl ⟨h2, h1⟩
      · exact .inr h2

variable {c : PipeCfg D} in
/-- **C102** (partial: texts and modes of `OwnWords`; an engine used as in C84) A search for the text of a document, made after
its last version was indexed and flushed, has the document in the ranking of which it shows the requested page, if the shard of the document
answered (always if no time-out expired): with offset and limit 0 the document is shown. -/
theorem C102_engine_partial {E : EngCfg D F A} {textOf : D → DocText} (htext : FromTexts c E textOf)
    (hso : SortOk E.so) (hgs : GSortOk E.gs) {o : IndexerOpts} {db : Fin c.stores → List (Str × D)}
    (hs : GentleStart c o db)
    {as : List (EAct c.toPipeSize D F)} {st : Full c F A} (h : (Full.start c o db).run E as = some st)
    (hg : (Full.start c o db).Gentle E o db as) {k b : Nat} {r : SearchReq F} (hb : Began as k b r)
    (hret : st.Returned k) (hquiet : (Full.after E (Full.start c o db) as b).fine.pipe.Quiet)
    (hround : ∀ d, d ≠ str "0" → ∃ l, Rounds db d (Full.after E (Full.start c o db) as b).fine.pipe l)
    (hre : ∀ d f x g l1 l2, (Full.after E (Full.start c o db) as b).fine.pipe.given db = l1 ++ Call.remove d f :: l2 →
      Call.index d x g ∉ l2)
    (hno : ∀ t i (a : Call D), b ≤ t → as[t]? ≠ some (.pipe (.call i a)))
    (hc : r.countDocsOnly = false) (hor : r.orderless = false) (hlogic : r.logic = {}) (hids : r.docIds = none)
    (hoff : (wantedRank E.opts r).outputOffset = 0) (hmax : (wantedRank E.opts r).maxOutputs = 0)
    (hsc : ∀ d f, (wantedRank E.opts r).score d f ≠ [] ∧ NoNaN ((wantedRank E.opts r).score d f))
    {d : Str} {x : D} {s : Fin c.shards} (hd0 : d ≠ str "0")
    (hlatest : LatestOn c s ((Full.after E (Full.start c o db) as b).fine.pipe.given db) d x)
    (hcont : (textOf x).content ≠ []) (how : OwnWords E.text E.opts.toTextOpts (textOf x).content)
    (hq : r.text = (textOf x).content) (hrt : r.tokens = []) (hrl : r.labels = []) :
    ∃ resp, st.response E k = some resp ∧ (resp.timeout = false →
      ∃ l : List (ScoredDoc F A), resp.docs = some (resultDocs E.opts.idOnly l) ∧ d ∈ l.map (·.scoredID.docId)) := by
  obtain ⟨w1, w2⟩ := C102_own_words_partial E.text E.opts (textOf x) hcont how r hq hrt
  obtain ⟨lists, resp, g1, g2, g3, ⟨R, p1, _, p3, _, _⟩, g5⟩ := C84_text_search_exact htext hso hgs hs h hg hb hret
    hquiet hround hre hno hc hor hlogic (fun _ => w1) (off := 0) (m := 0) (by exact_mod_cast hoff) (by exact_mod_cast hmax) hsc
  refine ⟨resp, g2, fun hto => ⟨R, by rw [p3]; simp [page], ?_⟩⟩
  obtain ⟨p, hp, rfl⟩ := List.mem_map.1 (g3 hto s)
  obtain ⟨_, _, n, avg, df, _, h2⟩ := g5 p hp
  have hmem := (h2 d hd0).1.2 ⟨by rw [hrl, List.append_nil]; exact w1, by rw [hids]; simp [Allowed], x, hlatest, fun w hw => by
    rw [hrl, List.append_nil] at hw; exact w2 w hw⟩
  rw [(p1.map _).mem_iff, List.map_flatMap, List.mem_flatMap]
  exact ⟨p, hp, hmem⟩

/-! ## Examples -/

/-- The three kinds of `OwnWords` occur. -/
example : OwnWords demoEnv { notUseGse := true } (str "big red car") ∧
    OwnWords demoEnv { notUseGse := true, using_ := 6 } (str "big red car") ∧
    OwnWords demoEnv {} (str "the red car") := by
  refine ⟨.inl ⟨rfl, .inl rfl, by decide +kernel⟩,
    .inr (.inl ⟨rfl, rfl, by decide +kernel, by decide +kernel, by decide +kernel⟩),
    .inr (.inr ⟨rfl, .inl rfl, ⟨str "red", by decide +kernel, ?_⟩, ?_⟩)⟩
  · unfold IsStopLine; decide +kernel
  · intro t ht _
    show t ∈ ((splitSpace (str "the red car")).map (fun w => (w, (0 : Int)))).map (·.1)
    have ht' : t ∈ splitSpace (str "the red car") := ht
    rw [List.map_map]
    simpa using ht'

/-- The engine of C84: the document Y is found by its text "big red car". -/
example : ∃ st, textStart.run (demoEng true) (reqRun { text := str "big red car" }) = some st ∧
    respFound (st.response (demoEng true) 0) = some (1, some [str "Y"]) := by
  obtain ⟨st, b, f, i, _, h1, _, _, _, _, _, _, _, _, _, _, h2⟩ :=
    req_hyps (r := { text := str "big red car" }) (want := some (1, some [str "Y"])) (by decide +kernel)
  exact ⟨st, h1, h2⟩

/-! ## Where it fails -/

/-- **C102** (refuted in general) Texts that are not found by themselves, because a query word is no key of the document:
with two spaces between words (mode 0 without a segmenter), cut into characters (mode 5), a text of stop tokens only (no query word remains), and,
in mode 0 with a segmenter, a text for which `Cut` gives a word that `ModeSegment` does not give. -/
theorem C102_refuted :
    (∃ w ∈ Engine.tokens demoEnv ({ notUseGse := true, defRankOpts := { score := demoScore } } : SearchOpts Nat)
        { text := str "red  car" }, ¬ TextHasKey demoEnv { notUseGse := true } { content := str "red  car" } w) ∧
    (∃ w ∈ Engine.tokens demoEnv ({ notUseGse := true, using_ := 5, defRankOpts := { score := demoScore } } : SearchOpts Nat)
        { text := str "red car" }, ¬ TextHasKey demoEnv { notUseGse := true, using_ := 5 } { content := str "red car" } w) ∧
    Engine.tokens demoEnv ({ defRankOpts := { score := demoScore } } : SearchOpts Nat) { text := str "the the" } = [] ∧
    (∃ env : TextEnv, ∃ w ∈ Engine.tokens env ({ defRankOpts := { score := demoScore } } : SearchOpts Nat)
        { text := str "redcar" }, ¬ TextHasKey env {} { content := str "redcar" } w) := by
  have nokey : ∀ (e : TextOpts) (t : DocText) (w : Str), ¬ IsKeyOf demoEnv e t w → ¬ TextHasKey demoEnv e t w := by
    intro e t w hn hk
    apply hn
    rw [IsKeyOf, documentKeys_isSome, ← Bool.not_eq_true, isStop_iff]
    exact hk
  refine ⟨⟨[], by decide +kernel, nokey _ _ _ (by unfold IsKeyOf; decide +kernel)⟩,
    ⟨str "car", by decide +kernel, nokey _ _ _ (by unfold IsKeyOf; decide +kernel)⟩, by decide +kernel,
    ⟨{ demoEnv with cut := fun _ _ _ => [str "red", str "car"] }, str "car", by decide +kernel, ?_⟩⟩
  intro hk
  have : IsKeyOf { demoEnv with cut := fun _ _ _ => [str "red", str "car"] } {} { content := str "redcar" } (str "car") := by
    rw [IsKeyOf, documentKeys_isSome, ← Bool.not_eq_true, isStop_iff]
    exact hk
  exact absurd this (by unfold IsKeyOf; decide +kernel)

end Riot
