import Verif.Spec.Segment
import Verif.Spec.Index
import Verif.Model.EngineSearch

/-!
# Facts about the search keys of a document
-/

namespace Riot

/-! ## The split loop -/

/-- All concatenations of a non-empty prefix of `ws`, after `acc`. -/
def prefixCats (acc : Str) : List Str → List Str
  | [] => []
  | w :: ws => (acc ++ w) :: prefixCats (acc ++ w) ws

/-- The tokens in the order the loop handles them. -/
def emit (six : Bool) (acc : Str) : List Str → List Str
  | [] => []
  | w :: ws =>
    if w ≠ [] then
      w :: (acc ++ w) :: (if six then prefixCats [] ws else []) ++ emit six (acc ++ w) ws
    else emit six acc ws

theorem combos_eq (stop : Str → Bool) (ws : List Str) (acc : Str) (st : TMap × Nat) :
    combos stop acc st ws = (prefixCats acc ws).foldl (addLoc stop) st := by
  induction ws generalizing acc st with
  | nil => rfl
  | cons w ws ih => simp [combos, prefixCats, ih]

theorem splitLoop_eq (stop : Str → Bool) (six : Bool) (ws : List Str) (acc : Str) (st : TMap × Nat) :
    splitLoop stop six acc st ws = (emit six acc ws).foldl (addLoc stop) st := by
  induction ws generalizing acc st with
  | nil => rfl
  | cons w ws ih =>
    simp only [splitLoop, emit]
    by_cases hw : w = []
    · simp [hw, ih]
    · cases six <;> simp [hw, ih, combos_eq]

theorem prefixCats_eq (ws : List Str) (acc : Str) :
    prefixCats acc ws =
      (List.range ws.length).map (fun j => acc ++ (ws.take (j + 1)).flatten) := by
  induction ws generalizing acc with
  | nil => rfl
  | cons w ws ih =>
    simp only [prefixCats, ih, List.length_cons, List.range_succ_eq_map, List.map_cons,
      List.map_map]
    simp [Function.comp_def]

theorem emit_eq (six : Bool) (ws : List Str) (acc : Str) :
    emit six acc ws = (List.range ws.length).flatMap fun i =>
      if ws.getD i [] = [] then []
      else ws.getD i [] :: (acc ++ (ws.take (i + 1)).flatten) ::
        if six then
          (List.range (ws.length - (i + 1))).map
            (fun j => ((ws.drop (i + 1)).take (j + 1)).flatten)
        else [] := by
  induction ws generalizing acc with
  | nil => rfl
  | cons w ws ih =>
    simp only [emit, List.length_cons, List.range_succ_eq_map, List.flatMap_cons, List.flatMap_map]
    by_cases hw : w = []
    · simp [hw, ih]
    · simp only [ne_eq, hw, not_false_eq_true, if_true, ih, prefixCats_eq]
      simp [hw]

theorem emit_nil_eq (six : Bool) (ws : List Str) : emit six [] ws = splitTokens six ws := by
  rw [emit_eq]; rfl

/-! ## Positions -/

theorem positions_append (k x : Str) (l : List Str) :
    positions k (l ++ [x]) = positions k l ++ if x = k then [(l.length : Int) + 1] else [] := by
  unfold positions
  rw [List.length_append, List.length_singleton, List.range_succ, List.filterMap_append]
  congr 1
  · apply List.filterMap_congr
    intro i hi
    rw [List.getElem?_append_left (by simpa using hi)]
  · by_cases h : x = k <;> simp [h]

theorem mem_positions (k : Str) (l : List Str) (p : Int) :
    p ∈ positions k l ↔ ∃ i : Nat, l[i]? = some k ∧ p = (i : Int) + 1 := by
  simp only [positions, List.mem_filterMap, List.mem_range]
  constructor
  · rintro ⟨i, _, h⟩
    by_cases h' : l[i]? = some k
    · exact ⟨i, h', by simpa [h'] using h.symm⟩
    · simp [h'] at h
  · rintro ⟨i, h, rfl⟩
    refine ⟨i, ?_, by simp [h]⟩
    exact (List.getElem?_eq_some_iff.1 h).1

theorem positions_pairwise (k : Str) (l : List Str) : (positions k l).Pairwise (· < ·) := by
  unfold positions
  rw [List.pairwise_filterMap]
  refine List.Pairwise.imp ?_ (List.pairwise_lt_range (n := l.length))
  intro a b hab x hx y hy
  by_cases h1 : l[a]? = some k <;> by_cases h2 : l[b]? = some k <;> simp [h1, h2] at hx hy
  omega

theorem positions_range (k : Str) (l : List Str) (p : Int) (h : p ∈ positions k l) :
    1 ≤ p ∧ p ≤ l.length := by
  obtain ⟨i, hi, rfl⟩ := (mem_positions k l p).1 h
  have := (List.getElem?_eq_some_iff.1 hi).1
  omega

theorem positions_ne_nil (k : Str) (l : List Str) (h : k ∈ l) : positions k l ≠ [] := by
  obtain ⟨i, hi⟩ := List.mem_iff_getElem?.1 h
  intro hn
  have := (mem_positions k l _).2 ⟨i, hi, rfl⟩
  rw [hn] at this; simp at this

/-! ## The map of the split loop -/

theorem addLoc_foldl (stop : Str → Bool) (L done : List Str) (st : TMap × Nat)
    (hn : st.2 = done.length)
    (hg : ∀ k, st.1.get k = if k ∈ done then some (positions k done) else none) :
    (L.foldl (addLoc stop) st).2 = (done ++ L.filter (fun t => !stop t)).length ∧
    ∀ k, (L.foldl (addLoc stop) st).1.get k =
      if k ∈ done ++ L.filter (fun t => !stop t) then
        some (positions k (done ++ L.filter (fun t => !stop t))) else none := by
  induction L generalizing done st with
  | nil => simpa using ⟨hn, hg⟩
  | cons x L ih =>
    rw [List.foldl_cons]
    by_cases hs : stop x
    · have h1 : addLoc stop st x = st := by simp [addLoc, hs]
      rw [h1]
      simpa [hs] using ih done st hn hg
    · have hf : (x :: L).filter (fun t => !stop t) = [x] ++ L.filter (fun t => !stop t) := by simp [hs]
      rw [hf, ← List.append_assoc]
      refine ih (done ++ [x]) (addLoc stop st x) (by simp [addLoc, hs, hn]) ?_
      intro k
      simp only [addLoc, hs, Bool.false_eq_true, if_false, GoMap.get_set, positions_append, hg,
        List.mem_append, List.mem_singleton]
      by_cases hk : k = x
      · subst hk
        by_cases hm : k ∈ done
        · simp [hm, hn]
        · have : positions k done = [] := by
            rw [List.eq_nil_iff_forall_not_mem]
            intro p hp
            obtain ⟨i, hi, _⟩ := (mem_positions k done p).1 hp
            exact hm (List.mem_of_getElem? hi)
          simp [hm, hn, this]
      · simp [hk, Ne.symm hk]

theorem forSplitData_spec (env : TextEnv) (e : TextOpts) (pieces : List Str) :
    let kept := (splitTokens (decide (e.using_ = 6)) pieces).filter (fun t => !isStop env e t)
    (forSplitData env e pieces).2 = kept.length ∧
    ∀ k, (forSplitData env e pieces).1.get k =
      if k ∈ kept then some (positions k kept) else none := by
  intro kept
  unfold forSplitData
  rw [splitLoop_eq, emit_nil_eq]
  have := addLoc_foldl (isStop env e) (splitTokens (decide (e.using_ = 6)) pieces) [] (.empty, 0)
    rfl (by simp)
  simpa only [List.nil_append] using this

/-! ## Keys of the other loops -/

theorem mergeInto_get (m : TMap) (l : List (Str × List Int)) (hl : (l.map Prod.fst).Nodup) (k : Str) :
    (mergeInto m l).get k = ((l.find? (fun x => x.1 = k)).map (·.2)).or (m.get k) := by
  induction l generalizing m with
  | nil => simp [mergeInto]
  | cons x l ih =>
    obtain ⟨a, b⟩ := x
    rw [List.map_cons, List.nodup_cons] at hl
    rw [mergeInto, ih _ hl.2, GoMap.get_set]
    by_cases h : a = k
    · subst h
      have : l.find? (fun x => x.1 = a) = none := by
        rw [List.find?_eq_none]
        intro y hy hya
        exact hl.1 (List.mem_map.2 ⟨y, hy, by simpa using hya⟩)
      simp [this]
    · simp [h, Ne.symm h]

theorem mergeInto_entries (m n : TMap) (k : Str) :
    (mergeInto m n.entries).get k = (n.get k).or (m.get k) := by
  rw [mergeInto_get _ _ n.nodup]; rfl

theorem addSegments_isSome (stop : Str → Bool) (l : List (Str × Int)) (m : TMap) (k : Str) :
    ((addSegments stop m l).get k).isSome ↔
      (m.get k).isSome ∨ stop k = false ∧ k ∈ l.map (·.1) := by
  induction l generalizing m with
  | nil => simp [addSegments]
  | cons x l ih =>
    obtain ⟨t, p⟩ := x
    rw [addSegments, ih]
    by_cases hs : stop t
    · simp only [hs, if_true, List.map_cons, List.mem_cons]
      have : k = t → stop k = true := by rintro rfl; exact hs
      by_cases hk : stop k <;> simp [hk] at this ⊢
      simp [this]
    · simp only [hs, Bool.false_eq_true, if_false, GoMap.get_set, List.map_cons, List.mem_cons]
      by_cases h : k = t
      · subst h; simp [hs]
      · simp [h]

theorem addTokens_isSome (stop : Str → Bool) (l : List TokenData) (m : TMap) (k : Str) :
    ((addTokens stop m l).get k).isSome ↔
      (m.get k).isSome ∨ stop k = false ∧ k ∈ l.map (·.text) := by
  induction l generalizing m with
  | nil => simp [addTokens]
  | cons x l ih =>
    rw [addTokens, ih]
    by_cases hs : stop x.text
    · simp only [hs, if_true, List.map_cons, List.mem_cons]
      have : k = x.text → stop k = true := by rintro rfl; exact hs
      by_cases hk : stop k <;> simp [hk] at this ⊢
      simp [this]
    · simp only [hs, Bool.false_eq_true, if_false, GoMap.get_set, List.map_cons, List.mem_cons]
      by_cases h : k = x.text
      · subst h; simp [hs]
      · simp [h]

theorem addTokens_get_other (stop : Str → Bool) (l : List TokenData) (m : TMap) (k : Str)
    (hk : k ∉ l.map (·.text)) : (addTokens stop m l).get k = m.get k := by
  induction l generalizing m with
  | nil => rfl
  | cons x l ih =>
    simp only [List.map_cons, List.mem_cons, not_or] at hk
    rw [addTokens, ih _ hk.2]
    split
    · rfl
    · rw [GoMap.get_set, if_neg hk.1]

theorem addPinyin_isSome (stop : Str → Bool) (l : List Str) (m : TMap) (i : Nat) (k : Str) :
    ((addPinyin stop m i l).get k).isSome ↔
      (m.get k).isSome ∨ stop k = false ∧ k ∈ l := by
  induction l generalizing m i with
  | nil => simp [addPinyin]
  | cons t l ih =>
    rw [addPinyin, ih]
    by_cases hs : stop t
    · simp only [hs, if_true, List.mem_cons]
      have : k = t → stop k = true := by rintro rfl; exact hs
      by_cases hk : stop k <;> simp [hk] at this ⊢
      simp [this]
    · simp only [hs, Bool.false_eq_true, if_false, GoMap.get_set, List.mem_cons]
      by_cases h : k = t
      · subst h; simp [hs]
      · simp [h]

theorem isStop_of_notUse (env : TextEnv) (e : TextOpts) (h : e.notUseGse = true) (t : Str) :
    isStop env e t = false := by simp [isStop, h]

theorem addLabels_get (env : TextEnv) (e : TextOpts) (ls : List Str) (m : TMap) (k : Str) :
    (addLabels env e m ls).get k =
      (m.get k).or (if isStop env e k = false ∧ k ∈ ls then some [] else none) := by
  induction ls generalizing m with
  | nil => simp [addLabels]
  | cons l ls ih =>
    rw [addLabels]
    simp only [ih]
    have hstep : (if e.notUseGse then (if (m.get l).isSome then m else m.set l [])
        else if isStop env e l then m else (if (m.get l).isSome then m else m.set l []) : TMap) =
        (if isStop env e l then m else (if (m.get l).isSome then m else m.set l [])) := by
      by_cases hn : e.notUseGse
      · rw [if_pos hn, isStop_of_notUse env e hn]; simp
      · rw [if_neg hn]
    rw [hstep]
    by_cases hs : isStop env e l
    · simp only [hs, if_true, List.mem_cons]
      have : k = l → isStop env e k = true := by rintro rfl; exact hs
      by_cases hk : isStop env e k <;> simp [hk] at this ⊢
      simp [this]
    · simp only [hs, Bool.false_eq_true, if_false, List.mem_cons]
      by_cases hm : (m.get l).isSome
      · rw [if_pos hm]
        by_cases h : k = l
        · subst h
          obtain ⟨v, hv⟩ := Option.isSome_iff_exists.1 hm
          simp [hv]
        · simp [h]
      · rw [if_neg hm, GoMap.get_set]
        by_cases h : k = l
        · subst h
          have hm' : m.get k = none := by simpa using hm
          simp [hm', hs]
        · simp [h]

/-! ## The whole document -/

theorem isSome_or {α : Type} (a b : Option α) : (a.or b).isSome ↔ a.isSome ∨ b.isSome := by
  cases a <;> simp

theorem forSplit_isSome (env : TextEnv) (e : TextOpts) (pieces : List Str) (k : Str) :
    ((forSplitData env e pieces).1.get k).isSome ↔
      isStop env e k = false ∧ k ∈ splitTokens (decide (e.using_ = 6)) pieces := by
  rw [(forSplitData_spec env e pieces).2 k]
  split
  · rename_i h
    simp only [List.mem_filter, Bool.not_eq_true'] at h
    simp [h.1, h.2]
  · rename_i h
    simp only [List.mem_filter, Bool.not_eq_true', not_and] at h
    simp only [Option.isSome_none, Bool.false_eq_true, false_iff, not_and]
    intro h1 h2
    exact h h2 h1

theorem defaultTokens_get (env : TextEnv) (e : TextOpts) (content : Str) (k : Str) :
    (defaultTokens env e content).1.get k = (forSplitData env e (splitSpace content)).1.get k := by
  simp [defaultTokens, mergeInto_entries]

theorem isStop_keep (env : TextEnv) (e : TextOpts) (t : Str) :
    (!isStop env e t) = decide (e.notUseGse = true ∨ ¬ (t ∈ env.stopLines ∧ t ≠ [])) := by
  cases h : e.notUseGse <;> simp [isStop, h, List.mem_filter]

theorem pinyinChars_eq (stop : Str → Bool) (l : List Str) (acc : Str) :
    pinyinChars stop acc l = ((List.range l.length).flatMap fun i =>
      (if l.getD i [] = [] then [] else [l.getD i []]) ++ [acc ++ (l.take (i + 1)).flatten]).filter (fun t => !stop t) := by
  induction l generalizing acc with
  | nil => rfl
  | cons w l ih =>
    have hacc : (if w ≠ [] then acc ++ w else acc) = acc ++ w := by
      by_cases hw : w = [] <;> simp [hw]
    simp only [pinyinChars, hacc, ih, List.length_cons, List.range_succ_eq_map, List.flatMap_cons, List.flatMap_map,
      List.filter_append]
    congr 1
    · by_cases hw : w = []
      · cases hs : stop (acc ++ w) <;> simp [hw, hs] <;> simp_all
      · cases hs : stop (acc ++ w) <;> cases hs' : stop w <;> simp [hw, hs, hs']
    · simp [List.append_assoc]

theorem pinyinSyllables_eq (stop : Str → Bool) (l : List Str) (full short : Str) :
    pinyinSyllables stop full short l = ((List.range l.length).flatMap fun i =>
      (full ++ (l.take (i + 1)).flatten) ::
        if l.getD i [] = [] then [] else [short ++ ((l.take (i + 1)).map (fun s => s.take 1)).flatten]).filter (fun t => !stop t) := by
  induction l generalizing full short with
  | nil => rfl
  | cons p l ih =>
    have hshort : (if p ≠ [] then short ++ p.take 1 else short) = short ++ p.take 1 := by
      by_cases hw : p = [] <;> simp [hw]
    simp only [pinyinSyllables, hshort, ih, List.length_cons, List.range_succ_eq_map, List.flatMap_cons, List.flatMap_map,
      List.filter_append]
    congr 1
    · by_cases hw : p = []
      · cases hs : stop (full ++ p) <;> simp [hw, hs] <;> simp_all
      · cases hs : stop (full ++ p) <;> cases hs' : stop (short ++ p.take 1) <;> simp [hw, hs, hs']
    · simp [List.append_assoc]

/-- The code of `PinYin` gives the pinyin keys of the specification. -/
theorem pinYin_eq (env : TextEnv) (e : TextOpts) (text : Str) : pinYin env e text = pinyinOf env e text := by
  unfold pinYin pinyinOf
  by_cases hu : e.usePhrase = true
  · simp [hu]
  · have hk : (fun t => !isStop env e t) = (fun t => decide (e.notUseGse = true ∨ ¬ (t ∈ env.stopLines ∧ t ≠ []))) :=
      funext (isStop_keep env e)
    simp only [if_neg hu]
    rw [← hk]
    unfold pinyinTokens segmentText
    rw [pinyinChars_eq, pinyinSyllables_eq]
    simp only [List.filter_append, List.nil_append]
    congr 2
    by_cases hn : e.notUseGse = true
    · simp [hn]
    · simp [hn]

theorem makeTokensMap_isSome (env : TextEnv) (e : TextOpts) (d : DocText) (k : Str) :
    ((makeTokensMap env e d).1.get k).isSome ↔
      isStop env e k = false ∧
        (actualKeys env e d k ∨ e.pinYin = true ∧ k ∈ pinyinOf env e d.content) := by
  have key : (((if ¬ (e.notUseGse = true ∧ e.using_ = 0) then segmenterData env e d
      else
        (addTokens (isStop env e) (if d.content ≠ [] then defaultTokens env e (env.lower d.content)
            else ((.empty, 0) : TMap × Nat)).1 d.tokens,
          (if d.content ≠ [] then defaultTokens env e (env.lower d.content)
            else ((.empty, 0) : TMap × Nat)).2 + d.tokens.length) : TMap × Nat).1.get k).isSome ↔
      isStop env e k = false ∧ actualKeys env e d k) := by
    unfold actualKeys splitOf segmentTexts
    by_cases hN : e.notUseGse = true ∧ e.using_ = 0
    · rw [if_neg (by simpa using hN)]
      obtain ⟨h1, h2⟩ := hN
      by_cases hc : d.content = [] <;>
        simp [hc, addTokens_isSome, defaultTokens_get, forSplit_isSome, h1, h2, and_or_left]
    · rw [if_pos hN]
      unfold segmenterData
      by_cases hc : d.content = []
      · by_cases h2 : e.using_ = 2 ∨ ((e.using_ = 1 ∨ e.using_ = 3))
        · simp [hc, h2, addTokens_isSome]
        · simp [hc, h2, addTokens_isSome, splitData]
      · by_cases h0 : e.using_ = 0
        · have hn : e.notUseGse = false := by
            cases hh : e.notUseGse with
            | false => rfl
            | true => exact absurd ⟨hh, h0⟩ hN
          simp [hc, h0, addTokens_isSome, addSegments_isSome, hn, and_or_left]
        · by_cases h1 : e.using_ = 1
          · simp [hc, h1, addSegments_isSome]
          · by_cases h2 : e.using_ = 2
            · simp [hc, h2, addTokens_isSome]
            · by_cases h3 : e.using_ = 3
              · simp [hc, h3, splitData, addTokens_isSome, mergeInto_entries,
                  forSplit_isSome, addSegments_isSome, and_or_left]
                tauto
              · by_cases h4 : e.using_ = 4
                · simp [hc, h4, splitData, addTokens_isSome, defaultTokens_get, forSplit_isSome,
                    and_or_left]
                · simp [hc, h0, h1, h2, h3, h4, splitData, addTokens_isSome, mergeInto_entries,
                    forSplit_isSome, and_or_left]
  unfold makeTokensMap
  by_cases hp : e.pinYin
  · simp only [hp, if_true, addPinyin_isSome]
    rw [and_or_left]
    exact or_congr key (by simp [pinYin_eq])
  · simp only [hp, Bool.false_eq_true, if_false, false_and, or_false]
    exact key

theorem documentKeys_isSome (env : TextEnv) (e : TextOpts) (d : DocText) (k : Str) :
    ((documentKeys env e d).1.get k).isSome ↔
      isStop env e k = false ∧
        (actualKeys env e d k ∨ (e.pinYin = true ∧ k ∈ pinyinOf env e d.content) ∨ k ∈ d.labels) := by
  simp only [documentKeys, addLabels_get, isSome_or, makeTokensMap_isSome]
  constructor
  · rintro (⟨h1, h2⟩ | h)
    · exact ⟨h1, by tauto⟩
    · split at h
      · rename_i h'; exact ⟨h'.1, Or.inr (Or.inr h'.2)⟩
      · simp at h
  · rintro ⟨h1, h2 | h2 | h2⟩
    · exact Or.inl ⟨h1, Or.inl h2⟩
    · exact Or.inl ⟨h1, Or.inr h2⟩
    · exact Or.inr (by simp [h1, h2])

/-! ## Exact locations -/

theorem addSegments_get (stop : Str → Bool) (l : List (Str × Int)) (m : TMap) (k : Str) (hk : stop k = false) :
    (addSegments stop m l).get k =
      if k ∈ l.map (·.1) then some ((m.get k).getD [] ++ segStarts k l) else m.get k := by
  induction l generalizing m with
  | nil => simp [addSegments]
  | cons x l ih =>
    obtain ⟨t, p⟩ := x
    rw [addSegments, ih]
    by_cases h : t = k
    · subst h
      simp only [hk, Bool.false_eq_true, if_false, GoMap.get_set, if_true, List.map_cons, List.mem_cons, true_or,
        Option.getD_some]
      split
      · simp [segStarts]
      · rename_i hm
        have : segStarts t l = [] := by
          unfold segStarts
          rw [List.map_eq_nil_iff, List.filter_eq_nil_iff]
          intro y hy hyt
          exact hm (List.mem_map.2 ⟨y, hy, by simpa using hyt⟩)
        have h2 : segStarts t ((t, p) :: l) = p :: segStarts t l := by simp [segStarts]
        rw [h2, this]
    · have h2 : segStarts k ((t, p) :: l) = segStarts k l := by simp [segStarts, h]
      have h3 : (if stop t then m else m.set t ((m.get t).getD [] ++ [p])).get k = m.get k := by
        split
        · rfl
        · rw [GoMap.get_set, if_neg (Ne.symm h)]
      simp only [h3, h2, List.map_cons, List.mem_cons, Ne.symm h, false_or]

theorem addTokens_get (stop : Str → Bool) (l : List TokenData) (m : TMap) (k : Str) (hk : stop k = false) :
    (addTokens stop m l).get k = (tokenLocs k l).or (m.get k) := by
  induction l generalizing m with
  | nil => simp [addTokens, tokenLocs]
  | cons x l ih =>
    rw [addTokens, ih]
    by_cases h : x.text = k
    · subst h
      simp only [hk, Bool.false_eq_true, if_false, GoMap.get_set, if_true]
      have : tokenLocs x.text (x :: l) = (tokenLocs x.text l).or (some x.locations) := by
        unfold tokenLocs
        simp only [decide_true, List.filter_cons_of_pos, List.getLast?_cons]
        cases (l.filter (fun t => decide (t.text = x.text))).getLast? <;> rfl
      rw [this]
      cases tokenLocs x.text l <;> rfl
    · have h2 : tokenLocs k (x :: l) = tokenLocs k l := by simp [tokenLocs, h]
      have h3 : (if stop x.text then m else m.set x.text x.locations).get k = m.get k := by
        split
        · rfl
        · rw [GoMap.get_set, if_neg (Ne.symm h)]
      rw [h3, h2]

/-- The last index of `k` in a list whose first element has index `i`. -/
def lastIndexFrom (i : Nat) (k : Str) : List Str → Option Nat
  | [] => none
  | x :: l => (lastIndexFrom (i + 1) k l).or (if x = k then some i else none)

theorem addPinyin_get (stop : Str → Bool) (l : List Str) (m : TMap) (i : Nat) (k : Str) (hk : stop k = false) :
    (addPinyin stop m i l).get k = ((lastIndexFrom i k l).map (fun j => [(j : Int)])).or (m.get k) := by
  induction l generalizing m i with
  | nil => simp [addPinyin, lastIndexFrom]
  | cons x l ih =>
    rw [addPinyin, ih, lastIndexFrom]
    by_cases h : x = k
    · subst h
      simp only [hk, Bool.false_eq_true, if_false, GoMap.get_set, if_true]
      cases lastIndexFrom (i + 1) x l <;> rfl
    · have h3 : (if stop x then m else m.set x [(i : Int)]).get k = m.get k := by
        split
        · rfl
        · rw [GoMap.get_set, if_neg (Ne.symm h)]
      rw [h3]
      simp [h]

theorem lastIndexFrom_eq (k : Str) (l : List Str) : ∀ i, lastIndexFrom i k l = (lastIndex k l).map (· + i) := by
  induction l with
  | nil => intro i; simp [lastIndexFrom, lastIndex]
  | cons x l ih =>
    intro i
    have h1 : lastIndex k (x :: l) = ((lastIndex k l).map (· + 1)).or (if x = k then some 0 else none) := by
      unfold lastIndex
      rw [List.length_cons, List.range_succ_eq_map, List.filter_cons, List.filter_map, ]
      have h2 : (fun i => decide ((x :: l)[i]? = some k)) ∘ Nat.succ = fun i => decide (l[i]? = some k) := by
        funext i; simp
      rw [h2]
      simp only [List.getElem?_cons_zero, Option.some.injEq]
      generalize (List.range l.length).filter (fun i => decide (l[i]? = some k)) = r
      by_cases hx : x = k
      · simp only [hx, decide_true, if_true, List.getLast?_cons, List.getLast?_map]
        cases r.getLast? <;> rfl
      · simp only [hx, decide_false, Bool.false_eq_true, if_false, List.getLast?_map]
        cases r.getLast? <;> rfl
    rw [lastIndexFrom, ih, h1]
    by_cases hx : x = k
    · simp only [hx, if_true]
      cases lastIndex k l <;> simp; omega
    · simp only [hx, if_false]
      cases lastIndex k l <;> simp; omega

theorem keptOf_eq (env : TextEnv) (e : TextOpts) (content : Str) :
    keptOf env e content = (splitTokens (decide (e.using_ = 6))
      (if e.using_ = 0 ∨ e.using_ = 4 then splitSpace (env.lower content)
        else env.explode (env.lower content))).filter (fun t => !isStop env e t) := by
  unfold keptOf splitOf
  apply List.filter_congr
  intro t _
  simp [isStop]

theorem segStarts_of_not_mem {k : Str} {l : List (Str × Int)} (h : k ∉ l.map (·.1)) : segStarts k l = [] := by
  unfold segStarts
  rw [List.map_eq_nil_iff, List.filter_eq_nil_iff]
  intro y hy hyt
  exact h (List.mem_map.2 ⟨y, hy, by simpa using hyt⟩)

/-- `contentLocs`, knowing whether the content has the key. -/
def contentOpt (env : TextEnv) (e : TextOpts) (content k : Str) : Option (List Int) :=
  if content = [] then none
  else if BySegments e then
    if k ∈ (env.modeSegment e.gseMode content).map (·.1) then some (segStarts k (env.modeSegment e.gseMode content))
    else none
  else if BySplit e then
    if k ∈ keptOf env e content then some (positions k (keptOf env e content))
    else if e.using_ = 3 ∧ k ∈ (env.modeSegment e.gseMode (env.lower content)).map (·.1) then
      some (segStarts k (env.modeSegment e.gseMode (env.lower content)))
    else none
  else none

theorem contentOpt_getD (env : TextEnv) (e : TextOpts) (content k : Str) :
    (contentOpt env e content k).getD [] = contentLocs env e content k := by
  unfold contentOpt contentLocs
  by_cases hc : content = []
  · simp [hc]
  · simp only [hc, if_false]
    by_cases h1 : BySegments e
    · simp only [h1, if_true]
      split
      · rfl
      · rename_i h; rw [segStarts_of_not_mem h]; rfl
    · simp only [h1, if_false]
      by_cases h2 : BySplit e
      · simp only [h2, if_true]
        split
        · rfl
        · by_cases h3 : e.using_ = 3
          · simp only [h3, true_and, if_true]
            split
            · rfl
            · rename_i h; rw [segStarts_of_not_mem h]; rfl
          · simp [h3]
      · simp [h2]

/-- The map before pinyin and labels. -/
def baseMap (env : TextEnv) (e : TextOpts) (d : DocText) : TMap × Nat :=
  if ¬ (e.notUseGse = true ∧ e.using_ = 0) then segmenterData env e d
  else
    (addTokens (isStop env e) (if d.content ≠ [] then defaultTokens env e (env.lower d.content)
        else ((.empty, 0) : TMap × Nat)).1 d.tokens,
      (if d.content ≠ [] then defaultTokens env e (env.lower d.content)
        else ((.empty, 0) : TMap × Nat)).2 + d.tokens.length)

theorem baseMap_get (env : TextEnv) (e : TextOpts) (d : DocText) (k : Str) (hk : isStop env e k = false) :
    (baseMap env e d).1.get k =
      (if UsesTokens e d then tokenLocs k d.tokens else none).or (contentOpt env e d.content k) := by
  have hsp := fun pieces => (forSplitData_spec env e pieces).2 k
  unfold baseMap contentOpt UsesTokens BySegments BySplit
  rw [keptOf_eq]
  by_cases hN : e.notUseGse = true ∧ e.using_ = 0
  · obtain ⟨h1, h2⟩ := hN
    by_cases hc : d.content = [] <;>
      simp [hc, addTokens_get _ _ _ _ hk, defaultTokens_get, hsp, h1, h2]
  · rw [if_pos hN]
    unfold segmenterData
    by_cases hc : d.content = []
    · by_cases h2 : e.using_ = 2 ∨ ((e.using_ = 1 ∨ e.using_ = 3))
      · simp [hc, h2, addTokens_get _ _ _ _ hk]
      · simp [hc, h2, addTokens_get _ _ _ _ hk, splitData]
    · by_cases h0 : e.using_ = 0
      · have hn : e.notUseGse = false := by
          cases hh : e.notUseGse with
          | false => rfl
          | true => exact absurd ⟨hh, h0⟩ hN
        simp [hc, h0, addTokens_get _ _ _ _ hk, addSegments_get _ _ _ _ hk, hn]
      · by_cases h1 : e.using_ = 1
        · simp [hc, h1, addSegments_get _ _ _ _ hk]
        · by_cases h2 : e.using_ = 2
          · simp [hc, h2, addTokens_get _ _ _ _ hk]
          · by_cases h3 : e.using_ = 3
            · simp [hc, h3, splitData, addTokens_get _ _ _ _ hk, mergeInto_entries,
                hsp, addSegments_get _ _ _ _ hk]
              congr 1
              split
              · simp
              · rw [Option.none_or]
                by_cases hm : k ∈ (env.modeSegment e.gseMode (env.lower d.content)).map (·.1)
                · rw [if_pos hm, if_pos ⟨h3, hm⟩]
                · rw [if_neg hm, if_neg (fun h => hm h.2)]
            · by_cases h4 : e.using_ = 4
              · simp [hc, h4, splitData, addTokens_get _ _ _ _ hk, defaultTokens_get, hsp]
              · simp [hc, h0, h1, h2, h3, h4, splitData, addTokens_get _ _ _ _ hk, mergeInto_entries, hsp]

theorem baseMap_count (env : TextEnv) (e : TextOpts) (d : DocText) :
    (baseMap env e d).2 =
      (if d.content = [] then 0
       else (if BySegments e then (env.modeSegment e.gseMode d.content).length else 0) +
         (if e.using_ = 3 then (env.modeSegment e.gseMode (env.lower d.content)).length else 0) +
         (if BySplit e then (keptOf env e d.content).length else 0)) +
      (if UsesTokens e d then d.tokens.length else 0) := by
  have hsp := fun pieces => (forSplitData_spec env e pieces).1
  unfold baseMap UsesTokens BySegments BySplit
  rw [keptOf_eq]
  by_cases hN : e.notUseGse = true ∧ e.using_ = 0
  · obtain ⟨h1, h2⟩ := hN
    by_cases hc : d.content = [] <;> simp [hc, defaultTokens, hsp, h1, h2]
  · rw [if_pos hN]
    unfold segmenterData
    by_cases hc : d.content = []
    · by_cases h2 : e.using_ = 2 ∨ ((e.using_ = 1 ∨ e.using_ = 3))
      · simp [hc, h2]
      · simp [hc, h2, splitData]
    · by_cases h0 : e.using_ = 0
      · have hn : e.notUseGse = false := by
          cases hh : e.notUseGse with
          | false => rfl
          | true => exact absurd ⟨hh, h0⟩ hN
        simp [hc, h0, hn]
      · by_cases h1 : e.using_ = 1
        · simp [hc, h1]
        · by_cases h2 : e.using_ = 2
          · simp [hc, h2]
          · by_cases h3 : e.using_ = 3
            · simp [hc, h3, splitData, hsp]
            · by_cases h4 : e.using_ = 4
              · simp [hc, h4, splitData, defaultTokens, hsp]
              · simp [hc, h0, h1, h2, h3, h4, splitData, hsp]

/-- Locations and length of a document's keys. -/
theorem documentKeys_exact (env : TextEnv) (e : TextOpts) (d : DocText) :
    (documentKeys env e d).2 = lengthOf env e d ∧
    ∀ k locs, (documentKeys env e d).1.get k = some locs → locs = locsOf env e d k := by
  have hb : makeTokensMap env e d = if e.pinYin then
      (addPinyin (isStop env e) (baseMap env e d).1 0 (pinyinOf env e d.content),
        (baseMap env e d).2 + (pinyinOf env e d.content).length) else baseMap env e d := by
    rw [← pinYin_eq]; rfl
  constructor
  · show (makeTokensMap env e d).2 = _
    rw [hb]
    unfold lengthOf
    rw [← baseMap_count]
    split <;> simp
  · intro k locs h
    have hk : isStop env e k = false := ((documentKeys_isSome env e d k).1 (by rw [h]; rfl)).1
    simp only [documentKeys, addLabels_get, hk, true_and] at h
    have hm : (makeTokensMap env e d).1.get k =
        ((if e.pinYin then (lastIndex k (pinyinOf env e d.content)).map (fun i => [(i : Int)]) else none).or
          (if UsesTokens e d then tokenLocs k d.tokens else none)).or (contentOpt env e d.content k) := by
      rw [hb]
      by_cases hp : e.pinYin
      · simp only [hp, if_true, addPinyin_get _ _ _ _ _ hk, lastIndexFrom_eq, baseMap_get env e d k hk]
        cases lastIndex k (pinyinOf env e d.content) <;> simp
      · simp only [hp, Bool.false_eq_true, if_false, baseMap_get env e d k hk, Option.none_or]
    rw [hm] at h
    unfold locsOf
    rw [← contentOpt_getD]
    generalize ((if e.pinYin then (lastIndex k (pinyinOf env e d.content)).map (fun i => [(i : Int)]) else none).or
          (if UsesTokens e d then tokenLocs k d.tokens else none)) = x at h ⊢
    cases x with
    | some v => simpa using h.symm
    | none =>
      simp only [Option.none_or, Option.getD_none] at h ⊢
      cases hco : contentOpt env e d.content k with
      | some v => rw [hco] at h; simpa using h.symm
      | none =>
        rw [hco] at h
        simp only [Option.none_or] at h
        split at h
        · simpa using h.symm
        · simp at h

end Riot
