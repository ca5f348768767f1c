import Verif.Props.Segment

/-!
# C93: pinyin keys

The pinyin library is a parameter: `env.lazyConvert text` are the syllables of a text.
-/

namespace Riot

/-- The pinyin of the first `n` syllables of a text, without spaces. -/
def pinyinStart (env : TextEnv) (text : Str) (n : Nat) : Str := ((env.lazyConvert text).take n).flatten

/-- The first letters of the first `n` syllables. -/
def initialsStart (env : TextEnv) (text : Str) (n : Nat) : Str :=
  (((env.lazyConvert text).take n).map (fun s => s.take 1)).flatten

/-- The words a text should be found by when pinyin is on: every beginning of its pinyin and of its initials, every character, every
beginning of the text. -/
def PinyinWord (env : TextEnv) (text w : Str) : Prop :=
  (∃ n, 1 ≤ n ∧ n ≤ (env.lazyConvert text).length ∧ (w = pinyinStart env text n ∨
    w = initialsStart env text n ∧ (env.lazyConvert text).getD (n - 1) [] ≠ [])) ∨
  (w ∈ env.explode text ∧ w ≠ []) ∨
  ∃ n, 1 ≤ n ∧ n ≤ (env.explode text).length ∧ w = ((env.explode text).take n).flatten

theorem mem_pinyinTokens (env : TextEnv) (e : TextOpts) (text w : Str) :
    w ∈ pinyinTokens env e text ↔ PinyinWord env text w ∨ (e.notUseGse = false ∧ w ∈ env.cut e.gseMode e.hmm text) := by
  have hchars : (w ∈ (List.range (env.explode text).length).flatMap fun i =>
      (if (env.explode text).getD i [] = [] then [] else [(env.explode text).getD i []]) ++ [((env.explode text).take (i + 1)).flatten]) ↔
      (w ∈ env.explode text ∧ w ≠ []) ∨ ∃ n, 1 ≤ n ∧ n ≤ (env.explode text).length ∧ w = ((env.explode text).take n).flatten := by
    rw [List.mem_flatMap]
    constructor
    · rintro ⟨i, hi, hw⟩
      rw [List.mem_range] at hi
      rw [List.mem_append, List.mem_singleton] at hw
      rcases hw with hw | hw
      · left
        split at hw
        · simp at hw
        · rename_i hne
          rw [List.mem_singleton] at hw
          have hg : (env.explode text).getD i [] = (env.explode text)[i] := by simp [List.getD, List.getElem?_eq_getElem hi]
          exact ⟨by rw [hw, hg]; exact List.getElem_mem hi, by rw [hw]; exact hne⟩
      · exact Or.inr ⟨i + 1, by omega, by omega, hw⟩
    · rintro (⟨hw, hne⟩ | ⟨n, h1, h2, hw⟩)
      · obtain ⟨i, hi, rfl⟩ := List.mem_iff_getElem.1 hw
        refine ⟨i, List.mem_range.2 hi, List.mem_append_left _ ?_⟩
        have hg : (env.explode text).getD i [] = (env.explode text)[i] := by simp [List.getD, List.getElem?_eq_getElem hi]
        rw [hg, if_neg hne]
        simp
      · refine ⟨n - 1, List.mem_range.2 (by omega), List.mem_append_right _ ?_⟩
        rw [List.mem_singleton, hw, Nat.sub_add_cancel h1]
  have hsyll : (w ∈ (List.range (env.lazyConvert text).length).flatMap fun i =>
      ((env.lazyConvert text).take (i + 1)).flatten ::
        if (env.lazyConvert text).getD i [] = [] then []
        else [(((env.lazyConvert text).take (i + 1)).map (fun s => s.take 1)).flatten]) ↔
      ∃ n, 1 ≤ n ∧ n ≤ (env.lazyConvert text).length ∧ (w = pinyinStart env text n ∨
        w = initialsStart env text n ∧ (env.lazyConvert text).getD (n - 1) [] ≠ []) := by
    rw [List.mem_flatMap]
    constructor
    · rintro ⟨i, hi, hw⟩
      rw [List.mem_range] at hi
      refine ⟨i + 1, by omega, by omega, ?_⟩
      rcases List.mem_cons.1 hw with hw | hw
      · exact Or.inl hw
      · split at hw
        · simp at hw
        · rename_i hne
          exact Or.inr ⟨List.mem_singleton.1 hw, hne⟩
    · rintro ⟨n, h1, h2, hw⟩
      refine ⟨n - 1, List.mem_range.2 (by omega), ?_⟩
      rw [Nat.sub_add_cancel h1]
      rcases hw with hw | ⟨hw, hne⟩
      · exact List.mem_cons.2 (Or.inl hw)
      · refine List.mem_cons_of_mem _ ?_
        rw [if_neg hne, List.mem_singleton]
        exact hw
  unfold pinyinTokens PinyinWord
  rw [List.mem_append, List.mem_append, hchars, hsyll]
  have aux : ∀ x s t : Prop, ((x ∨ t) ∨ s) ↔ ((s ∨ x) ∨ t) := by intro x s t; tauto
  have hcut : (w ∈ if e.notUseGse = true then [] else env.cut e.gseMode e.hmm text) ↔
      e.notUseGse = false ∧ w ∈ env.cut e.gseMode e.hmm text := by
    cases e.notUseGse <;> simp
  rw [hcut]
  exact aux _ _ _

/-- **C93** Turning PinYin on (without UsePhrase) adds exactly these keys, unless they are stop tokens: the pinyin words of the content, and
the words of the segmenter if it is used. No key disappears. -/
theorem C93_keys_added (env : TextEnv) (e : TextOpts) (hph : e.usePhrase = false) (id : Str) (d : DocText) (doc doc' : DocIndex)
    (h : IsDocIndexOf env { e with pinYin := false } id d doc) (h' : IsDocIndexOf env { e with pinYin := true } id d doc') (k : Str) :
    k ∈ doc'.keywords.map (·.text) ↔ k ∈ doc.keywords.map (·.text) ∨
      (¬ (e.notUseGse = false ∧ IsStopLine env k) ∧
        (PinyinWord env d.content k ∨ (e.notUseGse = false ∧ k ∈ env.cut e.gseMode e.hmm d.content))) := by
  rw [C41_keys_exact env _ id d doc h, C41_keys_exact env _ id d doc' h']
  have hp : k ∈ pinyinOf env { e with pinYin := true } d.content ↔
      (PinyinWord env d.content k ∨ (e.notUseGse = false ∧ k ∈ env.cut e.gseMode e.hmm d.content)) ∧
      ¬ (e.notUseGse = false ∧ IsStopLine env k) := by
    unfold pinyinOf
    simp only [hph, Bool.false_eq_true, if_false, List.mem_filter, decide_eq_true_eq]
    rw [mem_pinyinTokens]
    refine and_congr_right fun _ => ?_
    unfold IsStopLine
    cases e.notUseGse <;> simp
  have ha : actualKeys env { e with pinYin := true } d k ↔ actualKeys env { e with pinYin := false } d k := Iff.rfl
  rw [ha]
  simp only [true_and, hp, Bool.false_eq_true, false_and, false_or]
  tauto

/-- **C93** End to end for one shard: after a refresh, a query made of pinyin words of the content of an indexed document (and of its
labels), none of them a stop token, finds the document; the words are given as tokens, or, without a segmenter, as a text (in
lower case and without spaces inside of a word). -/
theorem C93_search_by_pinyin {F A : Type} (env : TextEnv) (e : SearchOpts F) (hpy : e.pinYin = true) (hph : e.usePhrase = false)
    {so : Sorter} (hso : SortOk so) (o : IndexerOpts) (h : List IdxOp) (op : IdxOp) (hop : op.refreshes = true)
    (hh : FromEngine env e.toTextOpts (h ++ [op])) (v : ShardView F A)
    (hr : (Indexer.init o).run so (h ++ [op]) = some v.index)
    (id : Str) (hd : DocDisciplined id (h ++ [op])) (doc : DocIndex)
    (hi : ideal (h ++ [op]) id = some doc) (d : DocText) (hdoc : IsDocIndexOf env e.toTextOpts id d doc)
    (log2 : Rat → Rat) (r : SearchReq F) (ws : List Str) (hne : ws ≠ [])
    (hq : r.text = [] ∧ r.tokens = ws ∨
      e.notUseGse = true ∧ r.text ≠ [] ∧ r.tokens = [] ∧ env.lower r.text = joinSpace ws ∧ ∀ w ∈ ws, (32 : Fin 256) ∉ w)
    (hlg : r.logic = {}) (hri : r.docIds = none)
    (hws : ∀ w ∈ ws, PinyinWord env d.content w) (hlab : ∀ l ∈ r.labels, l ∈ d.labels)
    (hst : e.notUseGse = false → ∀ w ∈ ws ++ r.labels, ¬ IsStopLine env w) :
    ∃ docs, v.found log2 (Engine.tokens env e r) r = some docs ∧ id ∈ docs.map (·.docId) := by
  have hok := C39_engine_histories_wellformed env e.toTextOpts _ hh
  have htok : Engine.tokens env e r = ws := by
    rcases hq with ⟨h1, h2⟩ | ⟨h1, h2, h3, h4, h5⟩
    · simp [Engine.tokens, h1, h2]
    · rw [C40_query_tokens env e h1 r h2 ws hne h5 h4, h3, List.append_nil]
  obtain ⟨tr, htr, hall⟩ := prefix_state hso o _ hok v.index hr
  obtain ⟨known, _, hinv, _⟩ := hall _ le_rfl v.index (by rw [List.take_length]; exact hr)
  obtain ⟨L, hl, _, _⟩ := lookup_spec log2 hinv.core ws r.labels none false (fun _ => hne)
  have hf : v.found log2 (Engine.tokens env e r) r =
      (v.index.lookup log2 ws r.labels none false).map (·.1) := by
    simp [ShardView.found, htok, hlg, hri, Indexer.lookup]
  rw [hf, hl]
  refine ⟨_, rfl, ?_⟩
  rw [C01_and_search_exact_ideal hso o h op hok hop v.index hr log2 ws r.labels _ _ hl id hd]
  refine ⟨by simp [hne], doc, hi, ?_, ?_⟩
  · intro k hk
    show k ∈ doc.keywords.map (·.text)
    have hdoc' : IsDocIndexOf env { e.toTextOpts with pinYin := true } id d doc := by
      have : ({ e.toTextOpts with pinYin := true } : TextOpts) = e.toTextOpts := by rw [← hpy]
      rw [this]; exact hdoc
    rw [C93_keys_added env e.toTextOpts hph id d (docOf env { e.toTextOpts with pinYin := false } id d) doc
      (docOf_isDocIndexOf _ _ _ _) hdoc']
    exact Or.inr ⟨fun hx => hst hx.1 k (List.mem_append_left _ hk) hx.2, Or.inl (hws k hk)⟩
  · intro k hk
    refine C38_label_is_key env e.toTextOpts id d doc hdoc k (hlab k hk) ?_
    cases hn : e.notUseGse with
    | true => exact Or.inl rfl
    | false => exact Or.inr (hst hn k (List.mem_append_right _ hk))

/-- **C93 is refuted** for word counts: a key of the content that is also a pinyin key (in particular the characters and the beginnings of
the content, and the words of the segmenter) has frequency 1, however often it occurs in the content, and its location is its
place among the pinyin keys. -/
theorem C93_refuted_frequency (env : TextEnv) (e : TextOpts) (hpy : e.pinYin = true) (id : Str) (d : DocText) (doc : DocIndex)
    (h : IsDocIndexOf env e id d doc) (kw : KeywordIndex) (hkw : kw ∈ doc.keywords) (hk : kw.text ∈ pinyinOf env e d.content) :
    kw.frequency = 1 ∧ ∃ i : Nat, (pinyinOf env e d.content)[i]? = some kw.text ∧ kw.starts = [(i : Int)] := by
  obtain ⟨_, _, hx⟩ := C67_postings_exact env e id d doc h
  obtain ⟨h1, h2⟩ := hx kw hkw
  have hlast : ∃ i : Nat, lastIndex kw.text (pinyinOf env e d.content) = some i ∧
      (pinyinOf env e d.content)[i]? = some kw.text := by
    obtain ⟨i, hi, he⟩ := List.mem_iff_getElem.1 hk
    have hne : (List.range (pinyinOf env e d.content).length).filter
        (fun i => (pinyinOf env e d.content)[i]? = some kw.text) ≠ [] := by
      intro hnil
      have : i ∈ (List.range (pinyinOf env e d.content).length).filter
          (fun i => (pinyinOf env e d.content)[i]? = some kw.text) := by
        simp [hi, he]
      rw [hnil] at this
      simp at this
    refine ⟨_, List.getLast?_eq_some_getLast hne, ?_⟩
    have := List.getLast_mem hne
    simpa using (List.mem_filter.1 this).2
  obtain ⟨i, hi, hg⟩ := hlast
  have hl : locsOf env e d kw.text = [(i : Int)] := by simp [locsOf, hpy, hi]
  rw [h2, h1, hl]
  exact ⟨by simp, i, hg, rfl⟩

/-! ## Examples -/

/-- A text with the syllables of 中国 (in an encoding of one byte per character). -/
def pinyinEnv : TextEnv := { demoEnv with lazyConvert := fun s => if s = str "Zz" then [str "zhong", str "guo"] else [] }

def pinyinOpts : SearchOpts Nat := { notUseGse := true, pinYin := true, defRankOpts := { score := fun _ _ => [] } }

/-- The hypotheses of `C93_search_by_pinyin` are met by the query "zhongguo zg". -/
example : ∃ docs,
    (ShardView.found (A := Nat) (fun x => x)
      { index := (((Indexer.init { indexType := .locs, docCacheSize := 10, bm25 := none }).run insSort
          [.add (docOf pinyinEnv pinyinOpts.toTextOpts (str "1") { content := str "Zz" }) false,
           .add (docOf pinyinEnv pinyinOpts.toTextOpts (str "2") { content := str "big dog" }) true]).getD
            (Indexer.init { indexType := .locs, docCacheSize := 10, bm25 := none })),
        history := [] }
      (Engine.tokens pinyinEnv pinyinOpts ({ text := str "zhongguo zg" } : SearchReq Nat))
      ({ text := str "zhongguo zg" } : SearchReq Nat)) = some docs ∧
    str "1" ∈ docs.map (·.docId) := by
  refine C93_search_by_pinyin pinyinEnv pinyinOpts rfl rfl (so := insSort) insSort_ok
    { indexType := .locs, docCacheSize := 10, bm25 := none }
    [.add (docOf pinyinEnv pinyinOpts.toTextOpts (str "1") { content := str "Zz" }) false]
    (.add (docOf pinyinEnv pinyinOpts.toTextOpts (str "2") { content := str "big dog" }) true) rfl
    ?_ _ ?_ (str "1") (disciplined_of_nodup _ (by decide +kernel) _ (by decide +kernel))
    (docOf pinyinEnv pinyinOpts.toTextOpts (str "1") { content := str "Zz" }) (by decide +kernel)
    { content := str "Zz" } (docOf_isDocIndexOf _ _ _ _) _ _ [str "zhongguo", str "zg"] (by simp)
    (Or.inr ⟨rfl, by decide +kernel, rfl, by decide +kernel, by decide +kernel⟩) rfl rfl ?_ (by simp)
    (fun hx => by simp [pinyinOpts] at hx)
  · intro doc f hm
    simp only [List.mem_append, List.mem_singleton, IdxOp.add.injEq] at hm
    rcases hm with ⟨rfl, _⟩ | ⟨rfl, _⟩
    · exact ⟨_, _, docOf_isDocIndexOf _ _ _ _⟩
    · exact ⟨_, _, docOf_isDocIndexOf _ _ _ _⟩
  · rw [Option.eq_some_iff_get_eq]
    exact ⟨by decide +kernel, by kernel_rfl⟩
  · intro w hw
    have hlen : (pinyinEnv.lazyConvert (str "Zz")).length = 2 := by decide +kernel
    simp only [List.mem_cons, List.not_mem_nil, or_false] at hw
    rcases hw with rfl | rfl
    · exact Or.inl ⟨2, by omega, by show 2 ≤ (pinyinEnv.lazyConvert (str "Zz")).length; omega, Or.inl (by decide +kernel)⟩
    · exact Or.inl ⟨2, by omega, by show 2 ≤ (pinyinEnv.lazyConvert (str "Zz")).length; omega,
        Or.inr ⟨by decide +kernel, by decide +kernel⟩⟩

/-- **C93 is refuted** for the pinyin of a part that is not a beginning: "guo" does not find 中国 ("Zz" in the encoding of the example), and
turning PinYin on changes the locations and the frequency of the word `big`. -/
theorem C93_refuted_inner_pinyin :
    str "guo" ∉ (docOf pinyinEnv pinyinOpts.toTextOpts (str "1") { content := str "Zz" }).keywords.map (·.text) ∧
    ((docOf pinyinEnv { notUseGse := true } (str "1") { content := str "big big" }).keywords.filter
      (fun k => k.text = str "big")).map (fun k => (k.starts, k.frequency)) = [([1, 2, 3], 3)] ∧
    ((docOf pinyinEnv pinyinOpts.toTextOpts (str "1") { content := str "big big" }).keywords.filter
      (fun k => k.text = str "big")).map (fun k => (k.starts, k.frequency)) = [([5], 1)] := by
  decide +kernel

end Riot
