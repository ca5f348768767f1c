import Verif.Props.FullGentle
import Verif.Props.EndToEnd
import Verif.Spec.FullText

/-!
# From texts to answers: C84
-/

namespace Riot

variable {D F A : Type} {c : PipeCfg D}

theorem FromTexts.docOk {E : EngCfg D F A} {textOf : D → DocText} (h : FromTexts c E textOf) : c.DocOk :=
  fun id x => (h id x).id

theorem FromTexts.keysOk {E : EngCfg D F A} {textOf : D → DocText} (h : FromTexts c E textOf) : c.KeysOk :=
  fun id x => (C39_keys_once_and_frequency _ _ _ _ _ (h id x)).1

/-- What the calls leave on a shard, in terms of the calls. -/
theorem ideal_latest (hdoc : c.DocOk) (s : Fin c.shards) (d : Str) (h0 : d ≠ str "0") (L : List (Call D))
    (doc : DocIndex) :
    ideal (L.flatMap (c.callOps s)) d = some doc ↔ ∃ x, LatestOn c s L d x ∧ doc = c.docOf d x := by
  induction L using List.reverseRecOn generalizing doc with
  | nil =>
    constructor
    · intro h; simp [ideal] at h
    · rintro ⟨x, ⟨l1, g, l2, h, _⟩, _⟩; simp at h
  | append_singleton L a ih =>
    have hsnoc : ∀ x l1 g l2, L ++ [a] = l1 ++ Call.index d x g :: l2 →
        (l2 = [] ∧ L = l1 ∧ a = Call.index d x g) ∨ ∃ l3, l2 = l3 ++ [a] ∧ L = l1 ++ Call.index d x g :: l3 := by
      intro x l1 g l2 h
      rcases List.eq_nil_or_concat l2 with rfl | ⟨l3, b, rfl⟩
      · left
        have := List.append_inj' h rfl
        exact ⟨rfl, this.1, by simpa using this.2⟩
      · right
        rw [List.concat_eq_append] at h ⊢
        have h' : L ++ [a] = (l1 ++ Call.index d x g :: l3) ++ [b] := by rw [h]; simp
        have := List.append_inj' h' rfl
        have e : a = b := by simpa using this.2
        exact ⟨l3, by rw [e], this.1⟩
    -- a call that changes nothing about `d` on this shard
    have skip : (∀ m : Str → Option DocIndex, (c.callOps s a).foldl idealStep m d = m d) →
        (∀ x g, a = Call.index d x g → c.route d x ≠ s) → (∀ f, a ≠ Call.remove d f) →
        (ideal ((L ++ [a]).flatMap (c.callOps s)) d = some doc ↔
          ∃ x, LatestOn c s (L ++ [a]) d x ∧ doc = c.docOf d x) := by
      intro h1 h2 h3
      have e : ideal ((L ++ [a]).flatMap (c.callOps s)) d = ideal (L.flatMap (c.callOps s)) d := by
        rw [List.flatMap_append]
        simp only [ideal, List.foldl_append, List.flatMap_cons, List.flatMap_nil, List.append_nil]
        exact h1 _
      rw [e, ih]
      constructor
      · rintro ⟨x, ⟨l1, g, l2, e1, e2, e3, e4⟩, e5⟩
        refine ⟨x, ⟨l1, g, l2 ++ [a], by rw [e1]; simp, e2, ?_, ?_⟩, e5⟩
        · intro f hm
          rcases List.mem_append.1 hm with hm | hm
          · exact e3 f hm
          · exact h3 f (List.mem_singleton.1 hm).symm
        · intro y h hm
          rcases List.mem_append.1 hm with hm | hm
          · exact e4 y h hm
          · exact h2 y h (List.mem_singleton.1 hm).symm
      · rintro ⟨x, ⟨l1, g, l2, e1, e2, e3, e4⟩, e5⟩
        rcases hsnoc x l1 g l2 e1 with ⟨_, _, ha⟩ | ⟨l3, rfl, hL⟩
        · exact absurd e2 (h2 x g ha)
        · exact ⟨x, ⟨l1, g, l3, hL, e2, fun f hm => e3 f (List.mem_append_left _ hm),
            fun y h hm => e4 y h (List.mem_append_left _ hm)⟩, e5⟩
    cases a with
    | flush => exact skip (fun m => by simp [PipeCfg.callOps, idealStep]) (by simp) (by simp)
    | remove id f =>
      by_cases hd : d = id
      · subst hd
        have e : ideal ((L ++ [Call.remove d f]).flatMap (c.callOps s)) d = none := by
          rw [List.flatMap_append]
          simp [ideal, List.foldl_append, PipeCfg.callOps, idealStep]
        rw [e]
        constructor
        · intro h; simp at h
        · rintro ⟨x, ⟨l1, g, l2, e1, e2, e3, e4⟩, _⟩
          rcases hsnoc x l1 g l2 e1 with ⟨_, _, ha⟩ | ⟨l3, rfl, _⟩
          · simp at ha
          · exact absurd (by simp) (e3 f)
      · exact skip (fun m => by simp [PipeCfg.callOps, idealStep, hd]) (by simp)
          (fun f' he => hd (by cases he; rfl))
    | index id x g =>
      by_cases hd : d = id
      · subst hd
        by_cases hrt : c.route d x = s
        · have e : ideal ((L ++ [Call.index d x g]).flatMap (c.callOps s)) d = some (c.docOf d x) := by
            rw [List.flatMap_append]
            simp [ideal, List.foldl_append, PipeCfg.callOps, idealStep, h0, hrt, hdoc d x]
          rw [e]
          constructor
          · intro h
            exact ⟨x, ⟨L, g, [], rfl, hrt, by simp, by simp⟩, (Option.some.inj h).symm⟩
          · rintro ⟨y, ⟨l1, g', l2, e1, e2, e3, e4⟩, e5⟩
            rcases hsnoc y l1 g' l2 e1 with ⟨_, _, ha⟩ | ⟨l3, rfl, _⟩
            · cases ha; rw [e5]
            · exact absurd hrt (e4 x g (by simp))
        · refine skip (fun m => ?_) (fun y g' he => by cases he; exact hrt) (by simp)
          simp only [PipeCfg.callOps, if_neg h0, if_neg hrt]
          split <;> simp [idealStep]
      · refine skip (fun m => ?_) (fun y g' he => absurd (by cases he; rfl) hd) (by simp)
        simp only [PipeCfg.callOps]
        split
        · split <;> simp [idealStep]
        · split
          · simp [idealStep, hdoc id x, hd]
          · split <;> simp [idealStep]

/-- **C84** From texts to answers, through the whole engine. An engine was used gently, the calls about
each document were separated by Flushes, no document was indexed again after its removal, and all work was done when
the request was made; no call is made until it returns. Then the response is the requested page of a ranking of one list
per answering shard (all shards unless a time-out expired), and each list consists of exactly the
documents that are not excluded by the request and whose last text given to that shard (if not removed since) has
all the words of the query text, all the tokens and all the labels of the request among its search keys. An entry has the
scores and the locations of that text and shows the data of a version given to that shard. -/
theorem C84_text_search_exact {E : EngCfg D F A} {textOf : D → DocText} (htext : FromTexts c E textOf)
    (hso : SortOk E.so) (hgs : GSortOk E.gs) {o : IndexerOpts} {db : Fin c.stores → List (Str × D)}
    (hs : GentleStart c o db)
    {as : List (EAct c.toPipeSize D F)} {st : Full c F A} (h : (Full.start c o db).run E as = some st)
    (hg : (Full.start c o db).Gentle E o db as) {k b : Nat} {r : SearchReq F} (hb : Began as k b r)
    (hret : st.Returned k) (hquiet : (Full.after E (Full.start c o db) as b).fine.pipe.Quiet)
    (hround : ∀ d, d ≠ str "0" → ∃ l, Rounds db d (Full.after E (Full.start c o db) as b).fine.pipe l)
    (hre : ∀ d f x g l1 l2, (Full.after E (Full.start c o db) as b).fine.pipe.given db = l1 ++ Call.remove d f :: l2 →
      Call.index d x g ∉ l2)
    (hno : ∀ t i (a : Call D), b ≤ t → as[t]? ≠ some (.pipe (.call i a)))
    (hc : r.countDocsOnly = false) (hor : r.orderless = false)
    (hlogic : r.logic = {}) (htok : o.indexType = .locs → E.tokens r ≠ []) {off m : Nat}
    (ho : (wantedRank E.opts r).outputOffset = off) (hm : (wantedRank E.opts r).maxOutputs = m)
    (hsc : ∀ d f, (wantedRank E.opts r).score d f ≠ [] ∧ NoNaN ((wantedRank E.opts r).score d f)) :
    ∃ (lists : List (Fin c.shards × List (ScoredDoc F A))) (resp : SearchResp F A),
      (lists.map (·.1)).Nodup ∧ st.response E k = some resp ∧
      (resp.timeout = false → ∀ s, s ∈ lists.map (·.1)) ∧
      IsPageOf E.opts.idOnly (wantedRank E.opts r).reverseOrder (Engine.tokens E.text E.opts r) off m
        (lists.flatMap (·.2)) resp ∧
      ∀ p ∈ lists, ((p.2).map (·.scoredID.docId)).Nodup ∧ str "0" ∉ (p.2).map (·.scoredID.docId) ∧ ∃ n avg df,
        StatsDuring E (Full.start c o db) as b p.1 n avg df ∧ ∀ d, d ≠ str "0" →
        (d ∈ (p.2).map (·.scoredID.docId) ↔
          Engine.tokens E.text E.opts r ++ r.labels ≠ [] ∧ Allowed r.docIds d ∧
          ∃ x, LatestOn c p.1 ((Full.after E (Full.start c o db) as b).fine.pipe.given db) d x ∧
            ∀ w ∈ Engine.tokens E.text E.opts r ++ r.labels,
              TextHasKey E.text E.opts.toTextOpts (textOf x) w) ∧
        ∀ e ∈ p.2, e.scoredID.docId = d →
          ShowsVersion c E ((Full.after E (Full.start c o db) as b).fine.pipe.given db) p.1 e ∧
          ∃ x, LatestOn c p.1 ((Full.after E (Full.start c o db) as b).fine.pipe.given db) d x ∧
            ScoredAs E r (expectedDoc E.log2 o.init n avg df (Engine.tokens E.text E.opts r) (c.docOf d x)) e := by
  obtain ⟨lists, resp, g1, g2, g3, g4, g5⟩ := C76_quiet_search_exact htext.docOk htext.keysOk hso hgs hs h hg hb hret
    hquiet hround hre hno hc hor hlogic htok ho hm hsc
  refine ⟨lists, resp, g1, g2, g3, g4, fun p hp => ?_⟩
  obtain ⟨h1, hz, n, avg, df, hst, h2⟩ := g5 p hp
  refine ⟨h1, hz, n, avg, df, hst, fun d h0 => ?_⟩
  obtain ⟨h3, h4⟩ := h2 d h0
  refine ⟨?_, ?_⟩
  rotate_left
  · intro e he hd
    obtain ⟨h5, doc, h6, h7⟩ := h4 e he hd
    obtain ⟨x, hx, rfl⟩ := (ideal_latest htext.docOk p.1 d h0 _ doc).1 h6
    exact ⟨h5, x, hx, h7⟩
  rw [h3]
  have hkeys : ∀ x w, w ∈ (c.docOf d x).keys ↔ TextHasKey E.text E.opts.toTextOpts (textOf x) w :=
    fun x w => C41_keys_exact _ _ _ _ _ (htext d x) w
  constructor
  · rintro ⟨a1, a2, doc, a3, a4⟩
    obtain ⟨x, hx, rfl⟩ := (ideal_latest htext.docOk p.1 d h0 _ doc).1 a3
    exact ⟨a1, a2, x, hx, fun w hw => (hkeys x w).1 (a4 w hw)⟩
  · rintro ⟨a1, a2, x, hx, a4⟩
    exact ⟨a1, a2, _, (ideal_latest htext.docOk p.1 d h0 _ _).2 ⟨x, hx, rfl⟩, fun w hw => (hkeys x w).2 (a4 w hw)⟩

/-- The keys of a text without a segmenter (Using = 0, no pinyin), in terms of its words: every word is a key;
every key is a word, a token, a label, or what is left of a beginning of the text when the spaces are taken
out. -/
theorem C84_keys_are_words (env : TextEnv) (e : TextOpts) (hu : e.notUseGse = true) (h0 : e.using_ = 0)
    (hp : e.pinYin = false) (t : DocText) (w : Str) :
    ((t.content ≠ [] ∧ w ∈ wordsOf env t.content) ∨ w ∈ t.tokens.map (·.text) ∨ w ∈ t.labels → TextHasKey env e t w) ∧
    (TextHasKey env e t w → (w ∈ wordsOf env t.content ∨
        ∃ n, w = ((splitSpace (env.lower t.content)).take (n + 1)).flatten) ∨
      w ∈ t.tokens.map (·.text) ∨ w ∈ t.labels) := by
  constructor
  · intro h
    refine ⟨by simp [hu], ?_⟩
    rcases h with ⟨hc, h⟩ | h | h
    · left; right; right; left
      simp only [wordsOf, List.mem_filter, decide_eq_true_eq] at h
      refine ⟨hc, Or.inl ⟨h0, hu⟩, ?_⟩
      simp only [splitOf, h0]
      exact mem_splitTokens _ _ _ h.1 h.2
    · left; right; right; right
      exact ⟨Or.inl (by omega), h⟩
    · right; right; exact h
  · rintro ⟨_, h | ⟨h, _⟩ | h⟩
    · rcases h with ⟨_, h, _⟩ | ⟨_, h, _⟩ | ⟨_, _, h⟩ | ⟨_, h⟩
      · simp [h0, hu] at h
      · omega
      · left
        simp only [splitOf, h0, true_or, if_true, splitTokens, List.mem_flatMap, List.mem_range] at h
        obtain ⟨i, hi, h⟩ := h
        split at h
        · simp at h
        · rename_i hne
          simp only [List.mem_cons] at h
          rcases h with rfl | rfl | h
          · left
            simp only [wordsOf, List.mem_filter, decide_eq_true_eq]
            refine ⟨?_, hne⟩
            rw [List.getD_eq_getElem?_getD, List.getElem?_eq_getElem hi, Option.getD_some]
            exact List.getElem_mem hi
          · right; exact ⟨i, rfl⟩
          · simp at h
      · right; left; exact h
    · simp [hp] at h
    · right; right; exact h

/-- **C84** ... in terms of words. On an engine without a segmenter (Using = 0), used as above, a query that consists
of words with single spaces between them (in lower case) gives a page of a ranking of lists, one per
answering shard, such that: every allowed document whose last text on the shard contains all these words is in
the shard's list; and every document in the list has a last text on the shard in which each of the words
is a word, a token, a label, or what is left of a beginning of the content when its spaces are taken out. -/
theorem C84_word_search {E : EngCfg D F A} {textOf : D → DocText} (htext : FromTexts c E textOf)
    (hu : E.opts.notUseGse = true) (h0 : E.opts.using_ = 0) (hpy : E.opts.pinYin = false)
    (hso : SortOk E.so) (hgs : GSortOk E.gs) {o : IndexerOpts} {db : Fin c.stores → List (Str × D)}
    (hs : GentleStart c o db)
    {as : List (EAct c.toPipeSize D F)} {st : Full c F A} (h : (Full.start c o db).run E as = some st)
    (hg : (Full.start c o db).Gentle E o db as) {k b : Nat} {r : SearchReq F} (hb : Began as k b r)
    (hret : st.Returned k) (hquiet : (Full.after E (Full.start c o db) as b).fine.pipe.Quiet)
    (hround : ∀ d, d ≠ str "0" → ∃ l, Rounds db d (Full.after E (Full.start c o db) as b).fine.pipe l)
    (hre : ∀ d f x g l1 l2, (Full.after E (Full.start c o db) as b).fine.pipe.given db = l1 ++ Call.remove d f :: l2 →
      Call.index d x g ∉ l2)
    (hno : ∀ t i (a : Call D), b ≤ t → as[t]? ≠ some (.pipe (.call i a)))
    (hc : r.countDocsOnly = false) (hor : r.orderless = false) (hlogic : r.logic = {})
    (ws : List Str) (hne : ws ≠ []) (hsp : ∀ w ∈ ws, (32 : Fin 256) ∉ w) (ht : r.text ≠ [])
    (hj : E.text.lower r.text = joinSpace ws) (hrt : r.tokens = []) (hrl : r.labels = []) {off m : Nat}
    (ho : (wantedRank E.opts r).outputOffset = off) (hm : (wantedRank E.opts r).maxOutputs = m)
    (hsc : ∀ d f, (wantedRank E.opts r).score d f ≠ [] ∧ NoNaN ((wantedRank E.opts r).score d f)) :
    ∃ (lists : List (Fin c.shards × List (ScoredDoc F A))) (resp : SearchResp F A),
      (lists.map (·.1)).Nodup ∧ st.response E k = some resp ∧
      (resp.timeout = false → ∀ s, s ∈ lists.map (·.1)) ∧
      IsPageOf E.opts.idOnly (wantedRank E.opts r).reverseOrder ws off m (lists.flatMap (·.2)) resp ∧
      ∀ p ∈ lists, ((p.2).map (·.scoredID.docId)).Nodup ∧
        (∀ e ∈ p.2, e.scoredID.docId ≠ str "0" ∧
          ShowsVersion c E ((Full.after E (Full.start c o db) as b).fine.pipe.given db) p.1 e) ∧ ∀ d, d ≠ str "0" →
        (∀ x, LatestOn c p.1 ((Full.after E (Full.start c o db) as b).fine.pipe.given db) d x → Allowed r.docIds d →
          (textOf x).content ≠ [] → (∀ w ∈ ws, w ∈ wordsOf E.text (textOf x).content) →
          d ∈ (p.2).map (·.scoredID.docId)) ∧
        (d ∈ (p.2).map (·.scoredID.docId) → Allowed r.docIds d ∧
          ∃ x, LatestOn c p.1 ((Full.after E (Full.start c o db) as b).fine.pipe.given db) d x ∧
            ∀ w ∈ ws, (w ∈ wordsOf E.text (textOf x).content ∨
                ∃ n, w = ((splitSpace (E.text.lower (textOf x).content)).take (n + 1)).flatten) ∨
              w ∈ (textOf x).tokens.map (·.text) ∨ w ∈ (textOf x).labels) := by
  have htok : Engine.tokens E.text E.opts r = ws := by
    rw [C40_query_tokens E.text E.opts hu r ht ws hne hsp hj, hrt, List.append_nil]
  obtain ⟨lists, resp, g1, g2, g3, g4, g5⟩ := C84_text_search_exact htext hso hgs hs h hg hb hret
    hquiet hround hre hno hc hor hlogic (fun _ => by unfold EngCfg.tokens; rw [htok]; exact hne) ho hm hsc
  rw [htok] at g4 g5
  rw [hrl, List.append_nil] at g5
  refine ⟨lists, resp, g1, g2, g3, g4, fun p hp => ?_⟩
  obtain ⟨h1, hz, n, avg, df, _, h2⟩ := g5 p hp
  have hz' : ∀ e ∈ p.2, e.scoredID.docId ≠ str "0" := fun e he h0' => hz (List.mem_map.2 ⟨e, he, h0'⟩)
  refine ⟨h1, fun e he => ⟨hz' e he, ((h2 _ (hz' e he)).2 e he rfl).1⟩, fun d hd => ⟨?_, ?_⟩⟩
  · intro x hx ha hcne hw
    exact (h2 d hd).1.2 ⟨hne, ha, x, hx, fun w hw' =>
      (C84_keys_are_words E.text E.opts.toTextOpts hu h0 hpy _ w).1 (Or.inl ⟨hcne, hw w hw'⟩)⟩
  · intro hmem
    obtain ⟨_, ha, x, hx, hk⟩ := (h2 d hd).1.1 hmem
    exact ⟨ha, x, hx, fun w hw => (C84_keys_are_words E.text E.opts.toTextOpts hu h0 hpy _ w).2 (hk w hw)⟩

/-! ## An example -/

/-- Three texts. -/
def demoTexts : Nat → DocText
  | 4 => { content := str "red house" }
  | 2 => { content := str "big red car", labels := [str "l"] }
  | _ => { content := str "house of red" }

/-- Two shards; the documents are made from texts, by the engine's options. -/
def textEngine : PipeCfg Nat :=
  { demoPipe 2 2 1 (by decide) (by decide) false with
    docOf := fun id n => docOf demoEnv (demoEng true).opts.toTextOpts id (demoTexts n) }

def textStart : Full textEngine Nat Nat := Full.start textEngine (smallOpts .docIds 10) (fun _ => [])
def textUser : Fin textEngine.clients := ⟨0, by decide⟩

/-- A search for two words. -/
def searchWords : SearchReq Nat := { text := str "red house" }

def textLoad : List (EAct textEngine.toPipeSize Nat Nat) := textStart.script (demoEng true)
  [.inr (engineCands _),
   .inl (.pipe (.call textUser (.index (str "X") 4 false))), .inr (engineCands _),
   .inl (.pipe (.call textUser (.index (str "Y") 2 false))), .inr (engineCands _),
   .inl (.pipe (.call textUser (.index (str "Z") 3 false))), .inr (engineCands _)]
def textLoaded : Full textEngine Nat Nat := (textStart.run (demoEng true) textLoad).getD textStart
def textTail : List (EAct textEngine.toPipeSize Nat Nat) :=
  ((textLoaded.step (demoEng true) (.pipe (.call textUser .flush))).getD textLoaded).greedy (demoEng true) (engineCands _) 300
def textFlush : List (EAct textEngine.toPipeSize Nat Nat) := .pipe (.call textUser .flush) :: textTail
def textFlushed : Full textEngine Nat Nat := (textLoaded.run (demoEng true) textFlush).getD textLoaded
def textSearch : List (EAct textEngine.toPipeSize Nat Nat) :=
  .start searchWords :: ((textFlushed.step (demoEng true) (.start searchWords)).getD textFlushed).greedy (demoEng true)
    (searchCands _ 1) 300

/-- Three texts are indexed and flushed; then a search. -/
def textRun : List (EAct textEngine.toPipeSize Nat Nat) := textLoad ++ textFlush ++ textSearch

/-- The hypotheses of the C84 theorems about the engine and the schedule hold, and the response lists the two
documents that contain both words. -/
example : ∃ st b, FromTexts textEngine (demoEng true) demoTexts ∧ textStart.run (demoEng true) textRun = some st ∧
    textStart.Gentle (demoEng true) (smallOpts .docIds 10) (fun _ => []) textRun ∧
    GentleStart textEngine (smallOpts .docIds 10) (fun _ => []) ∧
    Began textRun 0 b searchWords ∧ st.Returned 0 ∧ (Full.after (demoEng true) textStart textRun b).fine.pipe.Quiet ∧
    (∀ d, d ≠ str "0" → ∃ l, Rounds (fun _ => []) d (Full.after (demoEng true) textStart textRun b).fine.pipe l) ∧
    (∀ d f x g l1 l2, (Full.after (demoEng true) textStart textRun b).fine.pipe.given (fun _ => []) =
      l1 ++ Call.remove d f :: l2 → Call.index d x g ∉ l2) ∧
    (∀ t i (a : Call Nat), b ≤ t → textRun[t]? ≠ some (.pipe (.call i a))) ∧
    demoEnv.lower searchWords.text = joinSpace [str "red", str "house"] ∧
    respIds (st.response (demoEng true) 0) = some ([str "X", str "Z"], 2) := by
  have h : (textStart.gentleRun (demoEng true) (smallOpts .docIds 10) (fun _ => []) textRun).any (fun st =>
    decide (0 < st.searches.length) && decide ((st.got 0).length = textEngine.shards) &&
    decide (respIds (st.response (demoEng true) 0) = some ([str "X", str "Z"], 2))) = true := by
    decide +kernel
  have hb : ((textLoad ++ textFlush).filter EAct.isStart).length = 0 := by decide +kernel
  have hl : (textStart.run (demoEng true) textLoad).isSome = true := by decide +kernel
  have hf : (textLoaded.run (demoEng true) textFlush).isSome = true := by decide +kernel
  have hidle : (decide (∀ i, textLoaded.fine.pipe.prog (.client i) = [])) = true := by decide +kernel
  have hcl1 : (textEngine.recovered (fun _ => [])).map (fun x => Call.index x.1 x.2 false) ++
      textLoaded.fine.pipe.calls.map (·.2) = [.index (str "X") 4 false, .index (str "Y") 2 false, .index (str "Z") 3 false] := by
    decide +kernel
  have hcl2 : (textFlushed.fine.pipe.given (fun _ => [])).all (fun a => a.indexed.isSome || a.isFlush) = true := by
    decide +kernel
  have hxy : str "X" ≠ str "Y" ∧ str "X" ≠ str "Z" ∧ str "Y" ≠ str "Z" := by decide +kernel
  have htail : textTail.all (fun a => a.call?.isNone) = true := by decide +kernel
  have hdone : textFlushed.fine.pipe.prog (.client textUser) = [] := by decide +kernel
  have hq : textFlushed.fine.pipe.quietB = true := by decide +kernel
  have hno : textSearch.all (fun a => a.call?.isNone) = true := by decide +kernel
  have rl : textStart.run (demoEng true) textLoad = some textLoaded := by
    obtain ⟨x, hx⟩ := Option.isSome_iff_exists.1 hl
    rw [textLoaded, hx, Option.getD_some]
  have rf : textLoaded.run (demoEng true) textFlush = some textFlushed := by
    obtain ⟨x, hx⟩ := Option.isSome_iff_exists.1 hf
    rw [textFlushed, hx, Option.getD_some]
  have hst : textSearch[0]? = some (.start searchWords) := by rw [textSearch]; rfl
  obtain ⟨b, k1, k2, k3, k4, k5, k6⟩ := late_hyps (E := demoEng true) (tail := textTail) (rest := textSearch)
    (fun _ _ => rfl) rl rf (of_decide_eq_true hidle) htail hdone (quiet_of_B hq) hcl1 hxy hcl2 hb hst hno
    (as := textRun) rfl
  obtain ⟨st, h1, h2⟩ := (Option.any_eq_true _ _).1 h
  simp only [Bool.and_eq_true, decide_eq_true_eq] at h2
  obtain ⟨g1, g2⟩ := full_gentleRun_spec _ h1
  refine ⟨st, b, fun id x => docOf_isDocIndexOf _ _ _ _, g1, g2, ?_, k1, ⟨h2.1.1, h2.1.2⟩, k2, k3, k4, k5,
    by decide +kernel, h2.2⟩
  intro s
  have : textEngine.recovered (fun _ => []) = [] := by decide +kernel
  rw [this]; simp only [List.map_nil, List.countP_nil]; decide +kernel

end Riot
