import Verif.Proofs.Segment
import Verif.Props.Logic
import Verif.Spec.EngineSearch
import Verif.Model.EngineSearch

/-!
# From text to search keys: C37, C38, C39, C40, C41, C42

`IsDocIndexOf env e id d doc` says that `doc` is what the engine sends to the index for the
document data `d` (in any iteration order of its map). Lower-casing, the dictionary segmenter,
pinyin and the stop token file (`env`) are arbitrary.
-/

namespace Riot

/-! ## Small lemmas -/

theorem isStop_iff (env : TextEnv) (e : TextOpts) (t : Str) :
    isStop env e t = true ↔ e.notUseGse = false ∧ IsStopLine env t := by
  simp [isStop, IsStopLine]

theorem mem_keywords {env : TextEnv} {e : TextOpts} {id : Str} {d : DocText} {doc : DocIndex}
    (h : IsDocIndexOf env e id d doc) (kw : KeywordIndex) :
    kw ∈ doc.keywords ↔ kw.frequency = (kw.starts.length : Rat) ∧
      (documentKeys env e d).1.get kw.text = some kw.starts := by
  rw [h.keywords.mem_iff]
  simp only [List.mem_map, GoMap.get_eq_some_iff]
  constructor
  · rintro ⟨⟨k, v⟩, hm, rfl⟩
    exact ⟨rfl, hm⟩
  · rintro ⟨hf, hm⟩
    refine ⟨_, hm, ?_⟩
    rcases kw with ⟨t, f, s⟩
    simp only at hf
    simp [hf]

theorem mem_docKeys {env : TextEnv} {e : TextOpts} {id : Str} {d : DocText} {doc : DocIndex}
    (h : IsDocIndexOf env e id d doc) (k : Str) :
    k ∈ doc.keywords.map (·.text) ↔ IsKeyOf env e d k := by
  rw [IsKeyOf, Option.isSome_iff_exists]
  simp only [List.mem_map]
  constructor
  · rintro ⟨kw, hkw, rfl⟩
    exact ⟨_, ((mem_keywords h kw).1 hkw).2⟩
  · rintro ⟨v, hv⟩
    exact ⟨⟨k, v.length, v⟩, (mem_keywords h _).2 ⟨rfl, hv⟩, rfl⟩

/-! ## C37 -/

/-- **C37** No key of an indexed document is a stop token. -/
theorem C37_no_stop_token_is_key (env : TextEnv) (e : TextOpts) (he : e.notUseGse = false)
    (id : Str) (d : DocText) (doc : DocIndex) (h : IsDocIndexOf env e id d doc) :
    ∀ kw ∈ doc.keywords, ¬ IsStopLine env kw.text := by
  intro kw hkw hs
  have := (documentKeys_isSome env e d kw.text).1
    ((mem_docKeys h kw.text).1 (List.mem_map_of_mem hkw))
  have hst := (isStop_iff env e kw.text).2 ⟨he, hs⟩
  rw [hst] at this
  exact absurd this.1 (by simp)

/-- **C37** The tokens of a query text contain no stop token either (tokens passed explicitly in
the request are not filtered). -/
theorem C37_no_stop_token_in_query {F : Type} (env : TextEnv) (e : SearchOpts F)
    (he : e.notUseGse = false) (r : SearchReq F) (hr : r.tokens = []) :
    ∀ t ∈ Engine.tokens env e r, ¬ IsStopLine env t := by
  intro t ht hs
  have hst := (isStop_iff env e.toTextOpts t).2 ⟨he, hs⟩
  unfold Engine.tokens at ht
  rw [hr] at ht
  split at ht
  · simp [he, segmentText, hst] at ht
  · simp at ht

/-! ## C38 -/

/-- **C38** Every label that is not a stop token is a key. -/
theorem C38_label_is_key (env : TextEnv) (e : TextOpts) (id : Str) (d : DocText) (doc : DocIndex)
    (h : IsDocIndexOf env e id d doc) (l : Str) (hl : l ∈ d.labels)
    (hs : e.notUseGse = true ∨ ¬ IsStopLine env l) : l ∈ doc.keywords.map (·.text) := by
  rw [mem_docKeys h, IsKeyOf, documentKeys_isSome]
  refine ⟨?_, Or.inr (Or.inr hl)⟩
  cases hst : isStop env e l with
  | false => rfl
  | true =>
    obtain ⟨h1, h2⟩ := (isStop_iff env e l).1 hst
    rcases hs with hs | hs
    · rw [h1] at hs; simp at hs
    · exact absurd h2 hs

/-- **C38** Labels change nothing else: compared with the same document without labels, every
keyword is kept with its frequency and locations, and the only new ones are labels, with no
location and frequency 0. -/
theorem C38_labels_keep_locations (env : TextEnv) (e : TextOpts) (id : Str) (d : DocText)
    (doc doc' : DocIndex) (h : IsDocIndexOf env e id d doc)
    (h' : IsDocIndexOf env e id { d with labels := [] } doc') :
    doc.tokenLen = doc'.tokenLen ∧ (∀ kw ∈ doc'.keywords, kw ∈ doc.keywords) ∧
    ∀ kw ∈ doc.keywords, kw ∈ doc'.keywords ∨
      (kw.text ∈ d.labels ∧ kw.text ∉ doc'.keywords.map (·.text) ∧ kw.starts = [] ∧ kw.frequency = 0) := by
  have hmk : makeTokensMap env e { d with labels := [] } = makeTokensMap env e d := rfl
  have hg : ∀ k, (documentKeys env e { d with labels := [] }).1.get k =
      (makeTokensMap env e d).1.get k := by
    intro k
    simp [documentKeys, addLabels_get, hmk]
  have hg2 : ∀ k, (documentKeys env e d).1.get k = ((makeTokensMap env e d).1.get k).or
      (if isStop env e k = false ∧ k ∈ d.labels then some [] else none) := by
    intro k; simp [documentKeys, addLabels_get]
  refine ⟨by rw [h.tokenLen, h'.tokenLen]; rfl, ?_, ?_⟩
  · intro kw hkw
    rw [mem_keywords h'] at hkw
    rw [mem_keywords h, hg2]
    rw [hg] at hkw
    exact ⟨hkw.1, by rw [hkw.2]; rfl⟩
  · intro kw hkw
    rw [mem_keywords h, hg2] at hkw
    cases hm : (makeTokensMap env e d).1.get kw.text with
    | some v =>
      left
      rw [mem_keywords h', hg, hm]
      rw [hm] at hkw
      exact hkw
    | none =>
      right
      rw [hm] at hkw
      obtain ⟨hf, hv⟩ := hkw
      rw [Option.none_or] at hv
      split at hv
      · rename_i hc
        have hst : kw.starts = [] := (Option.some.inj hv).symm
        refine ⟨hc.2, ?_, hst, by rw [hf, hst]; simp⟩
        rw [mem_docKeys h', IsKeyOf, hg, hm]; simp
      · simp at hv

/-! ## C39 -/

/-- **C39** Every key is registered once and its frequency is the number of its locations. -/
theorem C39_keys_once_and_frequency (env : TextEnv) (e : TextOpts) (id : Str) (d : DocText)
    (doc : DocIndex) (h : IsDocIndexOf env e id d doc) :
    (doc.keywords.map (·.text)).Nodup ∧
    ∀ kw ∈ doc.keywords, kw.frequency = (kw.starts.length : Rat) := by
  constructor
  · have := (h.keywords.map (·.text)).nodup_iff.2
    apply this
    rw [List.map_map]
    exact (documentKeys env e d).1.nodup
  · intro kw hkw
    exact ((mem_keywords h kw).1 hkw).1

/-- Every document the engine sends comes from some document data. -/
def FromEngine (env : TextEnv) (e : TextOpts) (h : List IdxOp) : Prop :=
  ∀ doc f, IdxOp.add doc f ∈ h → ∃ id d, IsDocIndexOf env e id d doc

/-- The index histories of an engine satisfy the well-formedness condition of the index
theorems (C01 and following). -/
theorem C39_engine_histories_wellformed (env : TextEnv) (e : TextOpts) (h : List IdxOp)
    (hh : FromEngine env e h) : ∀ op ∈ h, OpOk op := by
  intro op hop
  cases op with
  | add doc f =>
    obtain ⟨id, d, hd⟩ := hh doc f hop
    exact (C39_keys_once_and_frequency env e id d doc hd).1
  | remove => trivial
  | flush => trivial

/-! ## C42 -/

/-- **C42** Exact result of the split: with `kept` the list of tokens that are not stop tokens,
the reported count is its length, the keys are its elements, and the locations of a key are
its positions in `kept`. -/
theorem C42_split_exact (env : TextEnv) (e : TextOpts) (pieces : List Str) (kept : List Str)
    (hk : kept = (splitTokens (decide (e.using_ = 6)) pieces).filter
      (fun t => !isStop env e t)) :
    (forSplitData env e pieces).2 = kept.length ∧
    ∀ k, (forSplitData env e pieces).1.get k =
      if k ∈ kept then some (positions k kept) else none := by
  subst hk; exact forSplitData_spec env e pieces

/-- **C42** Locations are strictly ascending, between 1 and the reported count, at least one per
key, and every number up to the count is the location of exactly one key. -/
theorem C42_split_locations (env : TextEnv) (e : TextOpts) (pieces : List Str) :
    (∀ k locs, (forSplitData env e pieces).1.get k = some locs →
      locs ≠ [] ∧ locs.Pairwise (· < ·) ∧
      ∀ p ∈ locs, 1 ≤ p ∧ p ≤ (forSplitData env e pieces).2) ∧
    ∀ p : Int, 1 ≤ p → p ≤ (forSplitData env e pieces).2 →
      ∃! k, ∃ locs, (forSplitData env e pieces).1.get k = some locs ∧ p ∈ locs := by
  obtain ⟨h1, h2⟩ := forSplitData_spec env e pieces
  generalize (splitTokens (decide (e.using_ = 6)) pieces).filter (fun t => !isStop env e t) = kept at h1 h2
  rw [h1]
  constructor
  · intro k locs hk
    rw [h2] at hk
    split at hk
    · rename_i hm
      rw [← Option.some.inj hk]
      exact ⟨positions_ne_nil k kept hm, positions_pairwise k kept, positions_range k kept⟩
    · simp at hk
  · intro p hp1 hp2
    obtain ⟨i, hi⟩ : ∃ i : Nat, p = (i : Int) + 1 := ⟨(p - 1).toNat, by omega⟩
    have hlt : i < kept.length := by omega
    refine ⟨kept[i], ⟨positions kept[i] kept, ?_, ?_⟩, ?_⟩
    · rw [h2, if_pos (List.getElem_mem hlt)]
    · rw [mem_positions]; exact ⟨i, by simp, hi⟩
    · rintro k ⟨locs, hk, hpl⟩
      rw [h2] at hk
      split at hk
      · rw [← Option.some.inj hk, mem_positions] at hpl
        obtain ⟨j, hj, hpj⟩ := hpl
        have : j = i := by omega
        subst this
        rw [List.getElem?_eq_getElem hlt] at hj
        exact (Option.some.inj hj).symm
      · simp at hk

/-- **C42** for a whole document in a split mode: a key that is not one of the user's tokens and
comes from the split has exactly its positions as locations, and the document length counts
the split tokens and the user's tokens. -/
theorem C42_document_locations (env : TextEnv) (e : TextOpts) (hu : e.notUseGse = true) (h0 : e.using_ = 0)
    (hp : e.pinYin = false) (id : Str) (d : DocText) (hc : d.content ≠ []) (doc : DocIndex)
    (h : IsDocIndexOf env e id d doc) :
    let all := splitTokens false (splitSpace (env.lower d.content))
    doc.tokenLen = all.length + d.tokens.length ∧
    ∀ kw ∈ doc.keywords, kw.text ∉ d.tokens.map (·.text) →
      kw.starts = positions kw.text all ∧ kw.starts.Pairwise (· < ·) ∧
      ∀ p ∈ kw.starts, 1 ≤ p ∧ p ≤ all.length := by
  intro all
  obtain ⟨h1, h2⟩ := forSplitData_spec env e (splitSpace (env.lower d.content))
  have hkept : (splitTokens (decide (e.using_ = 6)) (splitSpace (env.lower d.content))).filter
      (fun t => !isStop env e t) = all := by
    simp [h0, isStop_of_notUse env e hu, all]
  rw [hkept] at h1
  simp only [hkept] at h2
  constructor
  · rw [h.tokenLen]
    simp [documentKeys, makeTokensMap, hu, h0, hp, hc, defaultTokens, h1]
  · intro kw hkw hnt
    have hk := ((mem_keywords h kw).1 hkw).2
    simp only [documentKeys, addLabels_get] at hk
    have hmt : (makeTokensMap env e d).1.get kw.text =
        (forSplitData env e (splitSpace (env.lower d.content))).1.get kw.text := by
      simp [makeTokensMap, hu, h0, hp, hc, addTokens_get_other _ _ _ _ hnt, defaultTokens_get]
    have hst : kw.starts = positions kw.text all := by
      rw [hmt, h2] at hk
      split at hk
      · exact (Option.some.inj hk).symm
      · rename_i hm
        have hnil : positions kw.text all = [] := by
          rw [List.eq_nil_iff_forall_not_mem]
          intro p hp
          obtain ⟨i, hi, _⟩ := (mem_positions _ _ p).1 hp
          exact hm (List.mem_of_getElem? hi)
        rw [hnil]
        simp only [Option.none_or] at hk
        split at hk
        · exact (Option.some.inj hk).symm
        · simp at hk
    exact ⟨hst, hst ▸ positions_pairwise _ _, hst ▸ positions_range _ _⟩

/-! ## C41 -/

/-- **C41** The exact set of keys in every mode: not a stop token, and from the content or
tokens as `actualKeys` lists, or pinyin (if enabled), or a label. -/
theorem C41_keys_exact (env : TextEnv) (e : TextOpts) (id : Str) (d : DocText) (doc : DocIndex)
    (h : IsDocIndexOf env e id d doc) (k : Str) :
    k ∈ doc.keywords.map (·.text) ↔
      ¬ (e.notUseGse = false ∧ IsStopLine env k) ∧
        (actualKeys env e d k ∨ (e.pinYin = true ∧ k ∈ pinyinOf env e d.content) ∨ k ∈ d.labels) := by
  rw [mem_docKeys h, IsKeyOf, documentKeys_isSome, ← isStop_iff, Bool.not_eq_true]

theorem mem_splitTokens (pieces : List Str) (six : Bool) (w : Str) (hw : w ∈ pieces) (hne : w ≠ []) :
    w ∈ splitTokens six pieces := by
  obtain ⟨i, hi, rfl⟩ := List.mem_iff_getElem.1 hw
  simp only [splitTokens, List.mem_flatMap, List.mem_range]
  refine ⟨i, hi, ?_⟩
  simp [List.getElem?_eq_getElem hi, hne]

/-- **C41 (part)** Modes 0 (with segmenter), 1, 2, and empty content in mode 3 follow the
documented rule exactly. Missing: modes 3 and 4 with content, see `C41_documented_subset` and
`C41_refuted_spaces`. -/
theorem C41_documented_modes_partial (env : TextEnv) (e : TextOpts) (d : DocText) (k : Str)
    (hm : (e.using_ = 0 ∧ e.notUseGse = false ∧ d.content ≠ []) ∨ e.using_ = 1 ∨ e.using_ = 2 ∨
      (e.using_ = 3 ∧ d.content = [])) :
    actualKeys env e d k ↔ documentedKeys env e d k := by
  unfold actualKeys documentedKeys
  rcases hm with ⟨h0, h1, h2⟩ | h1 | h1 | ⟨h1, h2⟩
  · simp [h0, h1, h2]
  · by_cases hc : d.content = [] <;> simp [h1, hc]
  · by_cases hc : d.content = [] <;> simp [h1, hc]
  · simp [h1, h2]

/-- **C41** In every mode the documented keys are keys. -/
theorem C41_documented_subset (env : TextEnv) (e : TextOpts) (d : DocText) (k : Str)
    (h : documentedKeys env e d k) : actualKeys env e d k := by
  unfold documentedKeys at h
  unfold actualKeys
  rcases h with ⟨h0, hc, hn, h | h⟩ | ⟨h1, hc, h⟩ | ⟨h1, h⟩ | ⟨h1, hc, h | ⟨h, hk⟩⟩ | ⟨h1, hc, h⟩
  · simp [h0, hc, hn, h]
  · simp only [h0]; right; right; right; exact ⟨by simp, h⟩
  · simp [h1, hc, h]
  · right; right; right
    refine ⟨?_, h⟩
    rcases h1 with h1 | ⟨_, h1⟩
    · left; omega
    · exact Or.inr h1
  · simp [h1, hc, h]
  · right; right; left
    refine ⟨hc, Or.inr ⟨by omega, by omega, by omega⟩, ?_⟩
    simp only [splitOf, h1]
    exact mem_splitTokens _ _ _ h hk
  · right; right; left
    refine ⟨hc, Or.inr ⟨by omega, by omega, by omega⟩, ?_⟩
    simp only [wordsOf, List.mem_filter, decide_eq_true_eq] at h
    simp only [splitOf, h1]
    exact mem_splitTokens _ _ _ h.1 h.2

/-- An environment for examples: no upper case, no dictionary, stop token "the". -/
def demoEnv : TextEnv where
  lower := id
  explode := fun s => s.map (fun b => [b])
  cut := fun _ _ s => splitSpace s
  modeSegment := fun _ s => (splitSpace s).map (fun w => (w, 0))
  lazyConvert := fun _ => []
  phrasePinyin := fun _ => []
  stopLines := [str "the", []]

/-- **C41** The rule "by spaces" (Using = 4) is not exact: `helloworld` becomes a key of the
content `hello world`, and the token `x` of the document becomes a key although only the
content should count. -/
theorem C41_refuted_spaces :
    let e : TextOpts := { using_ := 4 }
    let d : DocText := { content := str "hello world", tokens := [⟨str "x", [1]⟩] }
    IsKeyOf demoEnv e d (str "helloworld") ∧ IsKeyOf demoEnv e d (str "x") ∧
      ¬ documentedKeys demoEnv e d (str "helloworld") ∧ ¬ documentedKeys demoEnv e d (str "x") := by
  refine ⟨by unfold IsKeyOf; decide +kernel, by unfold IsKeyOf; decide +kernel, ?_, ?_⟩
  all_goals
    simp only [documentedKeys, wordsOf]
    decide +kernel

/-! ## C40 -/

/-- The query text made of words, separated by single spaces. -/
def joinSpace : List Str → Str
  | [] => []
  | [w] => w
  | w :: v :: ws => w ++ 32 :: joinSpace (v :: ws)

theorem splitSpace_ne_nil (s : Str) : splitSpace s ≠ [] := by
  cases s with
  | nil => simp [splitSpace]
  | cons c cs =>
    simp only [splitSpace]
    split
    · simp
    · split <;> simp

theorem splitSpace_append (w : Str) (hw : (32 : Fin 256) ∉ w) (s : Str) :
    splitSpace (w ++ 32 :: s) = w :: splitSpace s := by
  induction w with
  | nil => simp [splitSpace]
  | cons c w ih =>
    simp only [List.mem_cons, not_or] at hw
    simp [splitSpace, Ne.symm hw.1, ih hw.2]

theorem splitSpace_word (w : Str) (hw : (32 : Fin 256) ∉ w) : splitSpace w = [w] := by
  induction w with
  | nil => rfl
  | cons c w ih =>
    simp only [List.mem_cons, not_or] at hw
    simp [splitSpace, Ne.symm hw.1, ih hw.2]

/-- Splitting undoes joining. -/
theorem splitSpace_join (ws : List Str) (hne : ws ≠ []) (hs : ∀ w ∈ ws, (32 : Fin 256) ∉ w) :
    splitSpace (joinSpace ws) = ws := by
  match ws with
  | [] => exact absurd rfl hne
  | [w] => exact splitSpace_word w (hs w (by simp))
  | w :: v :: ws =>
    rw [joinSpace, splitSpace_append w (hs w (by simp)),
      splitSpace_join (v :: ws) (by simp) (fun x hx => hs x (by simp [hx]))]

/-- Joining undoes splitting, and the parts contain no space. -/
theorem join_splitSpace (s : Str) :
    joinSpace (splitSpace s) = s ∧ ∀ w ∈ splitSpace s, (32 : Fin 256) ∉ w := by
  induction s with
  | nil => simp [splitSpace, joinSpace]
  | cons c cs ih =>
    have hne := splitSpace_ne_nil cs
    simp only [splitSpace]
    by_cases hc : c = 32
    · rw [if_pos hc]
      refine ⟨?_, ?_⟩
      · cases hsp : splitSpace cs with
        | nil => exact absurd hsp hne
        | cons w ws =>
          rw [joinSpace, List.nil_append, ← hsp, ih.1, hc]
      · intro w hw
        rcases List.mem_cons.1 hw with rfl | hw
        · simp
        · exact ih.2 w hw
    · rw [if_neg hc]
      cases hsp : splitSpace cs with
      | nil => exact absurd hsp hne
      | cons w ws =>
        simp only
        rw [hsp] at ih
        refine ⟨?_, ?_⟩
        · cases ws with
          | nil => simpa [joinSpace] using ih.1
          | cons v ws => simpa [joinSpace] using ih.1
        · intro x hx
          rcases List.mem_cons.1 hx with rfl | hx
          · simp only [List.mem_cons, not_or]
            exact ⟨Ne.symm hc, ih.2 w (by simp)⟩
          · exact ih.2 x (by simp [hx])

/-- **C40** Without a segmenter, every word of the content is a key. -/
theorem C40_words_are_keys (env : TextEnv) (e : TextOpts) (hu : e.notUseGse = true) (h0 : e.using_ = 0)
    (id : Str) (d : DocText) (hc : d.content ≠ []) (doc : DocIndex) (h : IsDocIndexOf env e id d doc) :
    ∀ w ∈ wordsOf env d.content, w ∈ doc.keywords.map (·.text) := by
  intro w hw
  simp only [wordsOf, List.mem_filter, decide_eq_true_eq] at hw
  rw [C41_keys_exact env e id d doc h]
  refine ⟨by simp [hu], Or.inl ?_⟩
  unfold actualKeys
  right; right; left
  refine ⟨hc, Or.inl ⟨h0, hu⟩, ?_⟩
  simp only [splitOf, h0]
  exact mem_splitTokens _ _ _ hw.1 hw.2

/-- **C40** Without a segmenter, a query text that is (in lower case) made of words separated by
single spaces has exactly those words as tokens. -/
theorem C40_query_tokens {F : Type} (env : TextEnv) (e : SearchOpts F) (hu : e.notUseGse = true)
    (r : SearchReq F) (ht : r.text ≠ []) (ws : List Str) (hne : ws ≠ [])
    (hs : ∀ w ∈ ws, (32 : Fin 256) ∉ w) (hj : env.lower r.text = joinSpace ws) :
    Engine.tokens env e r = ws ++ r.tokens := by
  simp [Engine.tokens, ht, hu, hj, splitSpace_join ws hne hs]

/-- **C40** End to end for one shard: after a refresh, a text query made of words of an indexed
document (single spaces) and of its labels does not crash and finds the document. -/
theorem C40_search_finds_words {F A : Type} (env : TextEnv) (e : SearchOpts F)
    (hu : e.notUseGse = true) (h0 : e.using_ = 0) {so : Sorter} (hso : SortOk so) (o : IndexerOpts)
    (h : List IdxOp) (op : IdxOp) (hop : op.refreshes = true)
    (hh : FromEngine env e.toTextOpts (h ++ [op])) (v : ShardView F A)
    (hr : (Indexer.init o).run so (h ++ [op]) = some v.index)
    (id : Str) (hd : DocDisciplined id (h ++ [op])) (doc : DocIndex)
    (hi : ideal (h ++ [op]) id = some doc) (d : DocText) (hc : d.content ≠ [])
    (hdoc : IsDocIndexOf env e.toTextOpts id d doc)
    (log2 : Rat → Rat) (r : SearchReq F) (ht : r.text ≠ []) (hrt : r.tokens = [])
    (hlg : r.logic = {}) (hri : r.docIds = none)
    (ws : List Str) (hne : ws ≠ []) (hws : ∀ w ∈ ws, w ∈ wordsOf env d.content)
    (hj : env.lower r.text = joinSpace ws) (hlab : ∀ l ∈ r.labels, l ∈ d.labels) :
    ∃ docs, v.found log2 (Engine.tokens env e r) r = some docs ∧ id ∈ docs.map (·.docId) := by
  have hok := C39_engine_histories_wellformed env e.toTextOpts _ hh
  have hsp : ∀ w ∈ ws, (32 : Fin 256) ∉ w := by
    intro w hw
    have := hws w hw
    simp only [wordsOf, List.mem_filter] at this
    exact (join_splitSpace _).2 w this.1
  have htok : Engine.tokens env e r = ws := by
    rw [C40_query_tokens env e hu r ht ws hne hsp hj, hrt, List.append_nil]
  obtain ⟨tr, htr, hall⟩ := prefix_state hso o _ hok v.index hr
  obtain ⟨known, _, hinv, _⟩ := hall _ le_rfl v.index (by rw [List.take_length]; exact hr)
  obtain ⟨L, hl, _, _⟩ := lookup_spec log2 hinv.core ws r.labels none false (fun _ => hne)
  have hf : v.found log2 (Engine.tokens env e r) r =
      (v.index.lookup log2 ws r.labels none false).map (·.1) := by
    simp [ShardView.found, htok, hlg, hri, Indexer.lookup]
  rw [hf, hl]
  refine ⟨_, rfl, ?_⟩
  rw [C01_and_search_exact_ideal hso o h op hok hop v.index hr log2 ws r.labels _ _ hl id hd]
  refine ⟨by simp [hne], doc, hi, ?_, ?_⟩
  · intro k hk
    exact C40_words_are_keys env e.toTextOpts hu h0 id d hc doc hdoc k (hws k hk)
  · intro k hk
    exact C38_label_is_key env e.toTextOpts id d doc hdoc k (hlab k hk) (Or.inl hu)

/-- The document the index gets, with the keywords in one particular order. -/
def docOf (env : TextEnv) (e : TextOpts) (id : Str) (d : DocText) : DocIndex where
  docId := id
  tokenLen := ((documentKeys env e d).2 : Rat)
  keywords := (documentKeys env e d).1.entries.map
    (fun x => { text := x.1, frequency := (x.2.length : Rat), starts := x.2 })

theorem docOf_isDocIndexOf (env : TextEnv) (e : TextOpts) (id : Str) (d : DocText) :
    IsDocIndexOf env e id d (docOf env e id d) := ⟨rfl, rfl, .rfl⟩

/-- A history in which no id is used twice is disciplined. -/
theorem disciplined_of_nodup (h : List IdxOp) (hn : (h.filterMap IdxOp.id?).Nodup) (d : Str)
    (hd : d ≠ str "0") : DocDisciplined d h := by
  refine ⟨hd, ?_⟩
  rintro h1 doc f h2 b h3 rfl hdoc hb
  exfalso
  rw [List.append_assoc, List.filterMap_append, List.cons_append,
    List.filterMap_cons_some (f := IdxOp.id?) (b := d) (by simp [IdxOp.id?, hdoc]),
    List.nodup_append] at hn
  have := (List.nodup_cons.1 hn.2.1).1
  apply this
  rw [List.mem_filterMap]
  exact ⟨b, by simp, hb⟩

/-- The hypotheses of `C40_search_finds_words` can be met: two documents, one of them with a
repeated word and a label, found by the query "big cat" with label "pet". -/
example : ∃ docs,
    (ShardView.found (A := Nat) (fun x => x)
      { index := (((Indexer.init { indexType := .locs, docCacheSize := 10, bm25 := none }).run insSort
          [.add (docOf demoEnv { notUseGse := true } (str "1")
              { content := str "the big big cat", labels := [str "pet"] }) false,
           .add (docOf demoEnv { notUseGse := true } (str "2") { content := str "big dog" }) true]).getD
            (Indexer.init { indexType := .locs, docCacheSize := 10, bm25 := none })),
        history := [] }
      (Engine.tokens demoEnv { notUseGse := true, defRankOpts := { score := fun _ _ => [] } }
        ({ text := str "big cat", labels := [str "pet"] } : SearchReq Nat))
      ({ text := str "big cat", labels := [str "pet"] } : SearchReq Nat)) = some docs ∧
    str "1" ∈ docs.map (·.docId) := by
  refine C40_search_finds_words demoEnv
    { notUseGse := true, defRankOpts := { score := fun _ _ => [] } } rfl rfl (so := insSort) insSort_ok
    { indexType := .locs, docCacheSize := 10, bm25 := none }
    [.add (docOf demoEnv { notUseGse := true } (str "1")
      { content := str "the big big cat", labels := [str "pet"] }) false]
    (.add (docOf demoEnv { notUseGse := true } (str "2") { content := str "big dog" }) true) rfl
    ?_ _ ?_ (str "1") (disciplined_of_nodup _ (by decide +kernel) _ (by decide +kernel))
    (docOf demoEnv { notUseGse := true } (str "1")
      { content := str "the big big cat", labels := [str "pet"] }) (by decide +kernel)
    { content := str "the big big cat", labels := [str "pet"] } (by decide +kernel)
    (docOf_isDocIndexOf _ _ _ _) _ _ (by decide +kernel) rfl rfl rfl [str "big", str "cat"] (by simp)
    (by decide +kernel) (by decide +kernel) (by decide +kernel)
  · intro doc f hm
    simp only [List.mem_append, List.mem_singleton, IdxOp.add.injEq] at hm
    rcases hm with ⟨rfl, _⟩ | ⟨rfl, _⟩
    · exact ⟨_, _, docOf_isDocIndexOf _ _ _ _⟩
    · exact ⟨_, _, docOf_isDocIndexOf _ _ _ _⟩
  · rw [Option.eq_some_iff_get_eq]
    exact ⟨by decide +kernel, by kernel_rfl⟩

/-! ## C67 -/

/-- **C67** Exact postings of a document in every segmentation mode: the length of the document, and
for every key its frequency and its locations (pinyin index, locations given by the user, byte
offsets of the segments or positions in the split; none for a mere label). -/
theorem C67_postings_exact (env : TextEnv) (e : TextOpts) (id : Str) (d : DocText) (doc : DocIndex)
    (h : IsDocIndexOf env e id d doc) :
    doc.docId = id ∧ doc.tokenLen = lengthOf env e d ∧
    ∀ kw ∈ doc.keywords, kw.starts = locsOf env e d kw.text ∧ kw.frequency = (locsOf env e d kw.text).length := by
  obtain ⟨h1, h2⟩ := documentKeys_exact env e d
  refine ⟨h.id, by rw [h.tokenLen, h1], fun kw hkw => ?_⟩
  obtain ⟨hf, hg⟩ := (mem_keywords h kw).1 hkw
  have := h2 _ _ hg
  rw [← this]
  exact ⟨rfl, hf⟩

/-- A document with tokens, labels and pinyin: the user's tokens win over the split, pinyin wins over
both, and a label that is no other key has no location. -/
example : let e : TextOpts := { notUseGse := true, using_ := 0, pinYin := true, usePhrase := true }
    let env : TextEnv := { demoEnv with phrasePinyin := fun _ => [str "x", str "big", str "x"] }
    let d : DocText := { content := str "the big big", tokens := [⟨str "the", [7]⟩, ⟨str "w", []⟩], labels := [str "l", str "w"] }
    (docOf env e (str "1") d).keywords.map (fun k => (k.text, k.starts)) =
      [(str "l", []), (str "x", [2]), (str "big", [1]), (str "w", []), (str "the", [7]), (str "thebig", [4]),
       (str "thebigbig", [6])] ∧
    (docOf env e (str "1") d).tokenLen = 11 := by decide +kernel

/-- A content with a repeated word: keys, frequencies and locations (C39, C42); the stop token
"the" of the file is ignored without a segmenter and dropped with one (C37). -/
example : (docOf demoEnv { notUseGse := true } (str "1") { content := str "the big big" }).keywords.map
      (fun k => (k.text, k.starts)) =
    [(str "the", [1, 2]), (str "thebig", [4]), (str "big", [3, 5]), (str "thebigbig", [6])] ∧
  (docOf demoEnv { using_ := 4 } (str "1") { content := str "the big big" }).keywords.map
      (fun k => (k.text, k.starts)) =
    [(str "thebig", [2]), (str "big", [1, 3]), (str "thebigbig", [4])] := by decide +kernel

/-- **C40** The restriction to single spaces matters: a text with a leading, trailing or double
space has the empty token, and an AND search for it finds no document unless the empty string is a
key. -/
theorem C40_extra_space_finds_nothing {so : Sorter} (hso : SortOk so) (o : IndexerOpts)
    (h : List IdxOp) (op : IdxOp) (hok : ∀ x ∈ h ++ [op], OpOk x) (hop : op.refreshes = true)
    (s : Indexer) (hr : (Indexer.init o).run so (h ++ [op]) = some s) (log2 : Rat → Rat)
    {F : Type} (env : TextEnv) (e : SearchOpts F) (hu : e.notUseGse = true) (r : SearchReq F)
    (a b : Str) (ht : r.text ≠ [])
    (hl : env.lower r.text = 32 :: a ∨ env.lower r.text = a ++ [32] ∨ env.lower r.text = a ++ 32 :: 32 :: b)
    (docs : List IndexedDoc) (n : Nat)
    (hlk : s.lookup log2 (Engine.tokens env e r) r.labels none false = some (docs, n))
    (d : Str) (hd : DocDisciplined d (h ++ [op]))
    (hk : ∀ doc, ideal (h ++ [op]) d = some doc → [] ∉ doc.keywords.map (·.text)) :
    d ∉ docs.map (·.docId) := by
  have hgen : ∀ (x y : Str), splitSpace (x ++ 32 :: y) =
      splitSpace x ++ splitSpace y := by
    intro x y
    induction x with
    | nil => simp [splitSpace]
    | cons c x ih =>
      by_cases hc : c = 32
      · simp [splitSpace, hc, ih]
      · have := splitSpace_ne_nil x
        cases hx : splitSpace x with
        | nil => exact absurd hx this
        | cons w ws => simp [splitSpace, hc, ih, hx]
  have hmem : [] ∈ splitSpace (env.lower r.text) := by
    rcases hl with hl | hl | hl <;> rw [hl]
    · simp [splitSpace]
    · rw [hgen]; simp [splitSpace]
    · rw [hgen]; simp [splitSpace]
  intro hin
  rw [C01_and_search_exact_ideal hso o h op hok hop s hr log2 _ _ _ _ hlk d hd] at hin
  obtain ⟨_, doc, h1, h2, _⟩ := hin
  refine hk doc h1 (h2 [] ?_)
  simp [Engine.tokens, ht, hu, hmem]

end Riot
