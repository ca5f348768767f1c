import Verif.Model.Misc
import Verif.Props.Backends
import Verif.Props.Segment

/-!
# C68 stop token file, C69 all stored documents, C70 document registry, C71 memory figures, C72 heartbeat
-/

namespace Riot

/-! ## C68 -/

/-- The content of a file with these lines, each ended by a newline, and a rest without newline. -/
def fileOf (lines : List Str) (rest : Str) : Str := (lines.map (· ++ [10])).flatten ++ rest

/-- A line of fewer than 65536 bytes. -/
def ShortLine (l : Str) : Prop := (10 : Fin 256) ∉ l ∧ l.length < 65536

/-- `l`, as a line of a file, holds the word `t`: it is `t`, or `t` and a carriage return. -/
def LineHolds (l t : Str) : Prop := l = t ++ [13] ∨ (l = t ∧ ∀ u, t ≠ u ++ [13])

theorem dropCR_iff (l t : Str) : dropCR l = t ↔ LineHolds l t := by
  unfold dropCR LineHolds
  rcases List.eq_nil_or_concat l with rfl | ⟨u, x, rfl⟩
  · simp only [List.getLast?_nil, reduceCtorEq, if_false]
    constructor
    · rintro rfl; exact Or.inr ⟨rfl, fun u h => by simp at h⟩
    · rintro (h | ⟨h, _⟩)
      · simp at h
      · exact h
  · simp only [List.concat_eq_append, List.getLast?_append, List.getLast?_singleton, Option.some_or, Option.some.injEq,
      List.dropLast_concat]
    by_cases hx : x = 13
    · subst hx
      simp only [if_true]
      constructor
      · rintro rfl; exact Or.inl rfl
      · rintro (h | ⟨h, h'⟩)
        · exact List.append_cancel_right h
        · exact absurd h.symm (h' u)
    · simp only [hx, if_false]
      constructor
      · rintro rfl
        refine Or.inr ⟨rfl, fun v h => hx ?_⟩
        have := congrArg List.getLast? h
        simpa using this
      · rintro (h | ⟨h, _⟩)
        · have := congrArg List.getLast? h
          simp at this; exact absurd this hx
        · exact h

theorem scan_line (l : Str) : ∀ (acc rest : Str), (10 : Fin 256) ∉ l → acc.length + l.length < 65536 →
    scanLines acc (l ++ rest) = scanLines (acc ++ l) rest := by
  induction l with
  | nil => intro acc rest _ _; simp
  | cons c l ih =>
    intro acc rest h hl
    simp only [List.mem_cons, not_or] at h
    simp only [List.length_cons] at hl
    rw [List.cons_append, scanLines, if_neg (Ne.symm h.1), if_neg (by omega), ih _ _ h.2 (by simp; omega)]
    simp

theorem scan_file (lines : List Str) (rest : Str) (h : ∀ l ∈ lines, ShortLine l) :
    scanLines [] (fileOf lines rest) = lines.map dropCR ++ scanLines [] rest := by
  induction lines with
  | nil => rfl
  | cons l lines ih =>
    have hl := h l List.mem_cons_self
    have : fileOf (l :: lines) rest = l ++ (10 :: fileOf lines rest) := by simp [fileOf]
    rw [this, scan_line l [] _ hl.1 (by simpa using hl.2), List.nil_append, scanLines, if_pos rfl,
      ih (fun x hx => h x (List.mem_cons_of_mem _ hx))]
    rfl

theorem scan_rest {rest : Str} (h : ShortLine rest) : scanLines [] rest = if rest = [] then [] else [dropCR rest] := by
  have := scan_line rest [] [] h.1 (by simpa using h.2)
  simp only [List.append_nil, List.nil_append] at this
  rw [this, scanLines]

/-- Every file has lines. -/
theorem file_has_lines (file : Str) : ∃ (lines : List Str) (rest : Str), file = fileOf lines rest ∧
    (∀ l ∈ lines, (10 : Fin 256) ∉ l) ∧ (10 : Fin 256) ∉ rest := by
  induction file with
  | nil => exact ⟨[], [], rfl, by simp, by simp⟩
  | cons c file ih =>
    obtain ⟨lines, rest, rfl, h1, h2⟩ := ih
    by_cases hc : c = 10
    · subst hc
      exact ⟨[] :: lines, rest, by simp [fileOf], by simpa using h1, h2⟩
    · cases lines with
      | nil => exact ⟨[], c :: rest, by simp [fileOf], by simp, by simp [Ne.symm hc, h2]⟩
      | cons l lines =>
        refine ⟨(c :: l) :: lines, rest, by simp [fileOf], ?_, h2⟩
        intro x hx
        rcases List.mem_cons.1 hx with rfl | hx
        · simp only [List.mem_cons, not_or]; exact ⟨Ne.symm hc, h1 l List.mem_cons_self⟩
        · exact h1 x (List.mem_cons_of_mem _ hx)

/-- **C68** (partial: files all of whose lines have fewer than 65536 bytes) A word is a stop token
exactly if it is not empty and is one of the lines of the file, with or without a final newline,
with Unix or Windows line ends. Missing: files with longer lines (`C68_refuted_long_line`). -/
theorem C68_stop_file_partial (lines : List Str) (rest : Str) (h : ∀ l ∈ lines, ShortLine l) (hr : ShortLine rest)
    (t : Str) : isStopToken (fileOf lines rest) t = true ↔ t ≠ [] ∧ ∃ l ∈ rest :: lines, LineHolds l t := by
  unfold isStopToken
  rw [scan_file lines rest h, scan_rest hr]
  simp only [decide_eq_true_eq, List.mem_filter, List.mem_append, List.mem_map]
  have hrest : t ≠ [] → (t ∈ (if rest = [] then [] else [dropCR rest]) ↔ LineHolds rest t) := by
    intro ht
    by_cases hr0 : rest = []
    · subst hr0
      simp only [if_true, List.not_mem_nil, false_iff]
      rintro (h | ⟨h, _⟩)
      · simp at h
      · exact ht h.symm
    · simp only [hr0, if_false, List.mem_singleton]
      rw [eq_comm, dropCR_iff]
  constructor
  · rintro ⟨h1, h2⟩
    refine ⟨h2, ?_⟩
    rcases h1 with ⟨l, hl, hlt⟩ | h1
    · exact ⟨l, List.mem_cons_of_mem _ hl, (dropCR_iff l t).1 hlt⟩
    · exact ⟨rest, List.mem_cons_self, (hrest h2).1 h1⟩
  · rintro ⟨h2, l, hl, hlt⟩
    refine ⟨?_, h2⟩
    rcases List.mem_cons.1 hl with rfl | hl
    · exact Or.inr ((hrest h2).2 hlt)
    · exact Or.inl ⟨l, hl, (dropCR_iff l t).2 hlt⟩

/-- **C68** (partial, as above) What the file does: with segmentation on, in an engine whose stop word
file has the lines `lines` and `rest`, a non-empty word of the file is not a keyword of any document
and not a token of any query text, and no other keyword of a document is suppressed: a word that is
on no line is a keyword exactly if the content, the tokens, the pinyin or the labels of the document
give it. Missing: files with longer lines. -/
theorem C68_stop_words_not_keys_partial {F : Type} (env : TextEnv) (e : SearchOpts F) (he : e.notUseGse = false)
    (lines : List Str) (rest : Str) (h : ∀ l ∈ lines, ShortLine l) (hr : ShortLine rest)
    (henv : env.stopLines = scanLines [] (fileOf lines rest)) :
    (∀ (t : Str), t ≠ [] → (∃ l ∈ rest :: lines, LineHolds l t) →
      (∀ (id : Str) (d : DocText) (doc : DocIndex), IsDocIndexOf env e.toTextOpts id d doc →
        t ∉ doc.keywords.map (·.text)) ∧
      (∀ (r : SearchReq F), r.tokens = [] → t ∉ Engine.tokens env e r)) ∧
    (∀ (t : Str), (¬ ∃ l ∈ rest :: lines, LineHolds l t) →
      ∀ (id : Str) (d : DocText) (doc : DocIndex), IsDocIndexOf env e.toTextOpts id d doc →
        (t ∈ doc.keywords.map (·.text) ↔
          actualKeys env e.toTextOpts d t ∨ (e.pinYin = true ∧ t ∈ pinyinOf env e.toTextOpts d.content) ∨ t ∈ d.labels)) := by
  have key : ∀ (t : Str), IsStopLine env t ↔ t ≠ [] ∧ ∃ l ∈ rest :: lines, LineHolds l t := by
    intro t
    rw [← C68_stop_file_partial lines rest h hr t, isStopToken, decide_eq_true_eq, List.mem_filter, ← henv]
    simp [IsStopLine, and_comm]
  refine ⟨fun t ht hl => ⟨fun id d doc hd hm => ?_, fun r hr0 hm => ?_⟩, fun t hl id d doc hd => ?_⟩
  · obtain ⟨kw, hkw, rfl⟩ := List.mem_map.1 hm
    exact C37_no_stop_token_is_key env e.toTextOpts he id d doc hd kw hkw ((key _).2 ⟨ht, hl⟩)
  · exact C37_no_stop_token_in_query env e he r hr0 t hm ((key _).2 ⟨ht, hl⟩)
  · rw [C41_keys_exact env e.toTextOpts id d doc hd t]
    constructor
    · exact fun hh => hh.2
    · exact fun hh => ⟨fun hs => hl ((key t).1 hs.2).2, hh⟩

/-- A file with two words: of `the big house` only `big` and `house` become keywords, of the query
`of the house` only `house` becomes a token. -/
example :
    let env : TextEnv := { demoEnv with stopLines := scanLines [] (fileOf [str "the\r", str "\r"] (str "of")) }
    let e : SearchOpts Unit := { defRankOpts := { score := fun _ _ => [] } }
    e.notUseGse = false ∧
    (docOf env e.toTextOpts (str "1") { content := str "the big house" }).keywords.map (·.text) =
      [str "house", str "big"] ∧
    Engine.tokens env e { text := str "of the house" } = [str "house"] ∧
    IsDocIndexOf env e.toTextOpts (str "1") { content := str "the big house" }
      (docOf env e.toTextOpts (str "1") { content := str "the big house" }) ∧
    LineHolds (str "the\r") (str "the") := by
  refine ⟨rfl, by decide +kernel, by decide +kernel, docOf_isDocIndexOf _ _ _ _, Or.inl (by decide +kernel)⟩

/-- A file with two words, Windows line ends and an empty line. -/
example : isStopToken (str "the\r\n\r\nof") (str "the") = true ∧ isStopToken (str "the\r\n\r\nof") (str "of") = true ∧
    isStopToken (str "the\r\n\r\nof") [] = false ∧
    str "the\r\n\r\nof" = fileOf [str "the\r", str "\r"] (str "of") ∧
    ShortLine (str "the\r") ∧ ShortLine (str "of") := by
  refine ⟨by decide +kernel, by decide +kernel, by decide +kernel, by decide +kernel, ?_, ?_⟩ <;>
    (unfold ShortLine; decide +kernel)

/-- **C68 is false of the code**: a line of 65536 bytes or more silently ends the reading of the file:
whatever words follow it are not stop tokens. -/
theorem C68_refuted_long_line (lines : List Str) (long rest : Str) (h : ∀ l ∈ lines, ShortLine l)
    (hl : (10 : Fin 256) ∉ long) (hlong : 65536 ≤ long.length) (t : Str) :
    isStopToken (fileOf lines (long ++ rest)) t = isStopToken (fileOf lines []) t := by
  have key : ∀ (l acc rest : Str), (10 : Fin 256) ∉ l → acc.length < 65536 → 65536 ≤ acc.length + l.length →
      scanLines acc (l ++ rest) = [] := by
    intro l
    induction l with
    | nil => intro acc rest _ h1 h2; simp at h2; omega
    | cons c l ih =>
      intro acc rest h1 h2 h3
      simp only [List.mem_cons, not_or] at h1
      simp only [List.length_cons] at h3
      rw [List.cons_append, scanLines, if_neg (Ne.symm h1.1)]
      split
      · rfl
      · exact ih _ _ h1.2 (by simp; omega) (by simp; omega)
  unfold isStopToken
  rw [scan_file _ _ h, scan_file _ _ h, key long [] rest hl (by simp) (by simpa using hlong)]
  rfl

/-- Such a file: the word after the long line is lost. -/
example : isStopToken (fileOf [] (List.replicate 65536 97 ++ 10 :: str "the")) (str "the") = false := by
  rw [C68_refuted_long_line [] (List.replicate 65536 97) (10 :: str "the") (by simp)
    (by rw [List.mem_replicate]; decide) (by rw [List.length_replicate])]
  decide +kernel

/-! ## C69 -/

open Store in
theorem readAllIds_eq (dbs : List Db) : ∀ acc, readAllIds dbs acc = acc ++ dbs.flatMap (fun m => (seen m).map (·.1)) := by
  have hv : ∀ (l : List (Str × Str)) (acc : List Str),
      visit (E := Unit) (fun s k _ => (s ++ [k], none)) l acc = (acc ++ l.map (·.1), none) := by
    intro l
    induction l with
    | nil => intro acc; simp [visit]
    | cons x l ih => intro acc; obtain ⟨k, v⟩ := x; simp [visit, ih]
  induction dbs with
  | nil => intro acc; simp [readAllIds]
  | cons m dbs ih =>
    intro acc
    rw [readAllIds, ih]
    simp [forEach, hv, seen_eq]

open Store in
theorem readAllDocs_eq {D : Type} (dec : Str → Option D) (zero : D) (dbs : List Db) : ∀ acc,
    readAllDocs dec zero dbs acc = (acc.1 ++ dbs.flatMap (fun m => (seen m).map (·.1)),
      acc.2 ++ dbs.flatMap (fun m => (seen m).map (fun x => (dec x.2).getD zero))) := by
  have hv : ∀ (l : List (Str × Str)) (acc : List Str × List D),
      visit (E := Unit) (fun s k v => ((s.1 ++ [k], s.2 ++ [(dec v).getD zero]), none)) l acc =
        ((acc.1 ++ l.map (·.1), acc.2 ++ l.map (fun x => (dec x.2).getD zero)), none) := by
    intro l
    induction l with
    | nil => intro acc; simp [visit]
    | cons x l ih => intro acc; obtain ⟨k, v⟩ := x; simp [visit, ih]
  induction dbs with
  | nil => intro acc; simp [readAllDocs]
  | cons m dbs ih =>
    intro acc
    rw [readAllDocs, ih]
    simp [forEach, hv, seen_eq]

/-- **C69** `GetDBAllDocs` returns as many documents as ids, the ids of `GetDBAllIds` in the same
order; id and document at the same place belong together: the document is the one last stored under
the id in one of the databases, and every stored document is returned. -/
theorem C69_all_docs {D : Type} (b : Store.Lib) (enc : D → Str) (dec : Str → Option D) (zero : D)
    (hdec : ∀ x, dec (enc x) = some x) (hist : List (List Store.Op))
    (henc : ∀ ops ∈ hist, ∀ k v, Store.Op.set k v ∈ ops → ∃ x, v = enc x)
    (ids : List Str) (docs : List D)
    (h : readAllDocs dec zero (hist.map (Store.after b)) ([], []) = (ids, docs)) :
    ids = readAllIds (hist.map (Store.after b)) [] ∧ docs.length = ids.length ∧
    ∀ id x, (id, x) ∈ ids.zip docs ↔ ∃ ops ∈ hist, Store.Stored (Store.ok b ops) id (enc x) := by
  rw [readAllDocs_eq] at h
  simp only [List.nil_append, Prod.mk.injEq] at h
  obtain ⟨h1, h2⟩ := h
  have hz : ∀ (dbs : List Store.Db),
      (dbs.flatMap (fun m => (Store.seen m).map (·.1))).zip
        (dbs.flatMap (fun m => (Store.seen m).map (fun x => (dec x.2).getD zero))) =
      dbs.flatMap (fun m => (Store.seen m).map (fun x => (x.1, (dec x.2).getD zero))) := by
    intro dbs
    induction dbs with
    | nil => rfl
    | cons m dbs ih =>
      simp only [List.flatMap_cons]
      rw [List.zip_append (by simp), ih]
      congr 1
      rw [List.zip_map']
  have hacc : ∀ (ops : List Store.Op) (k v : Str), Store.Stored (Store.ok b ops) k v → Store.Op.set k v ∈ ops := by
    intro ops k v ⟨bef, aft, he, _⟩
    have hm : Store.Op.set k v ∈ Store.ok b ops := by rw [he]; simp
    have hsub : ∀ (ops : List Store.Op) (es : List (Option Store.DbErr)) (x : Store.Op),
        x ∈ Store.accepted ops es → x ∈ ops := by
      intro ops
      induction ops with
      | nil => intro es x hx; simp [Store.accepted] at hx
      | cons o ops ih =>
        intro es x hx
        cases es with
        | nil => simp [Store.accepted] at hx
        | cons e es =>
          rw [Store.accepted_cons] at hx
          split at hx
          · rcases List.mem_cons.1 hx with rfl | hx
            · exact List.mem_cons_self
            · exact List.mem_cons_of_mem _ (ih es x hx)
          · exact List.mem_cons_of_mem _ (ih es x hx)
    exact hsub _ _ _ hm
  refine ⟨?_, ?_, ?_⟩
  · rw [readAllIds_eq, ← h1]; rfl
  · rw [← h1, ← h2, List.length_flatMap, List.length_flatMap]
    congr 1
    apply List.map_congr_left
    intro m _
    simp
  · intro id x
    rw [← h1, ← h2, hz]
    simp only [List.mem_flatMap, List.mem_map, exists_exists_and_eq_and, Prod.mk.injEq]
    constructor
    · rintro ⟨ops, hops, ⟨k, v⟩, hm, rfl, hx⟩
      have hs := ((Store.C45_forEach_exact b ops).1 k v).1 hm
      obtain ⟨y, rfl⟩ := henc ops hops k v (hacc ops k v hs)
      rw [hdec] at hx
      simp only [Option.getD_some] at hx
      subst hx
      exact ⟨ops, hops, hs⟩
    · rintro ⟨ops, hops, hs⟩
      exact ⟨ops, hops, (id, enc x), ((Store.C45_forEach_exact b ops).1 _ _).2 hs, rfl, by rw [hdec]; rfl⟩

/-- Two databases, an overwritten and a deleted document. -/
example : (readAllDocs some [] ([[.set (str "b") (str "x"), .set (str "a") (str "1"), .set (str "a") (str "2")],
      [.set (str "c") (str "y"), .set (str "d") (str "z"), .delete (str "c")]].map (Store.after Store.leveldb)) ([], [])) =
    ([str "a", str "b", str "d"], [str "2", str "x", str "z"]) := by decide +kernel

/-! ## C70 -/

variable {V : Type}

theorem lookup_map_if (g : InfoGroup V) (s s' : Int) (f : InfoShard V → InfoShard V) :
    List.lookup s' (g.map (fun x => if x.1 = s then (x.1, f x.2) else x)) =
      if s' = s then (g.lookup s').map f else g.lookup s' := by
  induction g with
  | nil => simp
  | cons x g ih =>
    obtain ⟨a, b⟩ := x
    simp only [List.map_cons]
    by_cases ha : a = s
    · subst ha
      by_cases hs : s' = a
      · subst hs; simp
      · have hb : (s' == a) = false := by simpa using hs
        simp only [if_true, List.lookup_cons, hb, ih, hs, if_false]
    · by_cases hs : s' = a
      · subst hs; simp [ha]
      · have hb : (s' == a) = false := by simpa using hs
        simp only [ha, if_false, List.lookup_cons, hb, ih]

theorem find_addShard (g : InfoGroup V) (s s' : Int) :
    (g.addShard s).find s' = (g.find s').or (if s' = s then some {} else none) := by
  unfold InfoGroup.addShard InfoGroup.find
  split
  · rename_i x hx
    by_cases h : s' = s
    · subst h; rw [hx]; rfl
    · simp [h]
  · rw [List.lookup_append]
    by_cases h : s' = s
    · subst h; simp
    · have hb : (s' == s) = false := by simpa using h
      simp [List.lookup_cons, hb, h]

theorem find_add (g : InfoGroup V) (s s' : Int) (id : Str) (v : V) :
    (g.add s id v).find s' = if s' = s then
      some { infos := ((g.find s').getD {}).infos.set id v, num := ((g.find s').getD {}).num + 1 } else g.find s' := by
  unfold InfoGroup.add
  have h1 := lookup_map_if (g.addShard s) s s' (fun x => { infos := x.infos.set id v, num := x.num + 1 })
  have h2 := find_addShard g s s'
  unfold InfoGroup.find at h1 h2 ⊢
  rw [h1, h2]
  by_cases h : s' = s
  · subst h
    simp only [if_true]
    cases List.lookup s' g <;> rfl
  · simp [h]

/-- The ids given to the `AddDocInfo` calls for a shard, in order. -/
def addedTo (s : Int) (l : List (InfoCall V)) : List Str := l.filterMap (addedId s)
where
  addedId (s : Int) : InfoCall V → Option Str
    | .add s' id _ => if s' = s then some id else none
    | .addShard _ => none

/-- The documents of a shard after a history: what was added last under each id, and how often. -/
theorem run_find (l : List (InfoCall V)) : ∀ (g : InfoGroup V) (s : Int),
    (((g.run l).find s).getD {}).num = ((g.find s).getD {}).num + (addedTo s l).length ∧
    ∀ id, ((((g.run l).find s).getD {}).infos.get id).isSome ↔
      (((g.find s).getD {}).infos.get id).isSome ∨ ∃ v, InfoCall.add s id v ∈ l := by
  induction l with
  | nil => intro g s; simp [InfoGroup.run, addedTo]
  | cons c l ih =>
    intro g s
    cases c with
    | addShard s' =>
      obtain ⟨h1, h2⟩ := ih (g.addShard s') s
      have hf : ((g.addShard s').find s).getD {} = (g.find s).getD {} := by
        rw [find_addShard]
        cases g.find s with
        | some x => rfl
        | none => by_cases h : s = s' <;> simp [h]
      rw [hf] at h1 h2
      refine ⟨by rw [InfoGroup.run, h1]; rfl, fun id => ?_⟩
      rw [InfoGroup.run, h2]
      simp
    | add s' id' v =>
      obtain ⟨h1, h2⟩ := ih (g.add s' id' v) s
      rw [find_add] at h1 h2
      by_cases h : s = s'
      · subst h
        simp only [if_true, Option.getD_some] at h1 h2
        refine ⟨?_, fun id => ?_⟩
        · rw [InfoGroup.run, h1]; simp [addedTo, addedTo.addedId]; omega
        · rw [InfoGroup.run, h2, GoMap.get_set]
          by_cases hid : id = id'
          · subst hid; simp
          · simp [hid]
      · simp only [h, if_false] at h1 h2
        refine ⟨?_, fun id => ?_⟩
        · rw [InfoGroup.run, h1]
          simp [Ne.symm h, addedTo, addedTo.addedId]
        · rw [InfoGroup.run, h2]
          simp [h]

theorem lookup_isSome_of_mem {g : InfoGroup V} {s : Int} {x : InfoShard V} (h : (s, x) ∈ g) :
    ∃ y, g.lookup s = some y := by
  induction g with
  | nil => simp at h
  | cons z g ih =>
    obtain ⟨a, b⟩ := z
    by_cases ha : s = a
    · subst ha; exact ⟨b, by simp⟩
    · have hb : (s == a) = false := by simpa using ha
      simp only [List.lookup_cons, hb]
      rcases List.mem_cons.1 h with h | h
      · exact absurd (Prod.mk.inj h).1 ha
      · exact ih h

theorem nodup_addShard {g : InfoGroup V} (h : (g.map (·.1)).Nodup) (s : Int) : ((g.addShard s).map (·.1)).Nodup := by
  unfold InfoGroup.addShard
  split
  · exact h
  · rename_i hn
    rw [List.map_append, List.nodup_append]
    refine ⟨h, by simp, ?_⟩
    intro a ha b hb
    simp only [List.map_cons, List.map_nil, List.mem_singleton] at hb
    subst hb
    rintro rfl
    obtain ⟨⟨s, x⟩, hx, rfl⟩ := List.mem_map.1 ha
    obtain ⟨y, hy⟩ := lookup_isSome_of_mem hx
    unfold InfoGroup.find at hn
    rw [hy] at hn; cases hn

theorem nodup_run (l : List (InfoCall V)) : ∀ {g : InfoGroup V}, (g.map (·.1)).Nodup → ((g.run l).map (·.1)).Nodup := by
  induction l with
  | nil => intro g h; exact h
  | cons c l ih =>
    intro g h
    cases c with
    | addShard s => exact ih (nodup_addShard h s)
    | add s id v =>
      refine ih ?_
      unfold InfoGroup.add
      rw [List.map_map]
      have : ((fun x : Int × InfoShard V => x.1) ∘ fun x =>
          if x.1 = s then (x.1, { infos := x.2.infos.set id v, num := x.2.num + 1 }) else x) = fun x => x.1 := by
        funext x; simp only [Function.comp]; split <;> rfl
      rw [this]
      exact nodup_addShard h s

theorem lookup_of_mem {g : InfoGroup V} (hn : (g.map (·.1)).Nodup) {s : Int} {x : InfoShard V} (h : (s, x) ∈ g) :
    g.lookup s = some x := by
  induction g with
  | nil => simp at h
  | cons z g ih =>
    obtain ⟨a, b⟩ := z
    rw [List.map_cons, List.nodup_cons] at hn
    rcases List.mem_cons.1 h with h0 | h1
    · obtain ⟨rfl, rfl⟩ := Prod.mk.inj h0; simp
    · have : s ≠ a := by
        rintro rfl; exact hn.1 (List.mem_map.2 ⟨_, h1, rfl⟩)
      have hb : (s == a) = false := by simpa using this
      simp only [List.lookup_cons, hb]
      exact ih hn.2 h1

/-- **C70** In every order of calls, `IsDocExist` is true exactly of the ids that were added with
`AddDocInfo` to some shard. -/
theorem C70_exist_exact (l : List (InfoCall V)) (id : Str) :
    (InfoGroup.run [] l).isDocExist id = true ↔ ∃ s v, InfoCall.add s id v ∈ l := by
  have hn := nodup_run l (g := ([] : InfoGroup V)) (by simp)
  unfold InfoGroup.isDocExist
  rw [List.any_eq_true]
  constructor
  · rintro ⟨⟨s, x⟩, hx, hi⟩
    have h2 := (run_find l [] s).2 id
    unfold InfoGroup.find at h2
    rw [lookup_of_mem hn hx] at h2
    obtain h | ⟨v, hv⟩ := h2.1 hi
    · simp [GoMap.get_empty] at h
    · exact ⟨s, v, hv⟩
  · rintro ⟨s, v, hv⟩
    have h2 := ((run_find l [] s).2 id).2 (Or.inr ⟨v, hv⟩)
    unfold InfoGroup.find at h2
    cases hl : List.lookup s (InfoGroup.run ([] : InfoGroup V) l) with
    | none => rw [hl] at h2; simp [GoMap.get_empty] at h2
    | some x =>
      rw [hl] at h2
      obtain ⟨a, ha, hax⟩ : ∃ a, (a, x) ∈ InfoGroup.run ([] : InfoGroup V) l ∧ True := by
        rw [List.lookup_eq_some_iff] at hl
        obtain ⟨l1, l2, he, _⟩ := hl
        exact ⟨s, by rw [he]; simp, trivial⟩
      exact ⟨(a, x), ha, h2⟩

/-- **C70** (partial) The counter of a shard is the number of `AddDocInfo` calls for it; it is the number
of its documents if no document is added twice. Missing: documents added again
(`C70_refuted_count`). -/
theorem C70_count_partial (l : List (InfoCall V)) (s : Int) :
    (((InfoGroup.run [] l).find s).getD {}).num = (addedTo s l).length ∧
    ((addedTo s l).Nodup → ∃ ids : List Str, ids.Nodup ∧ ids.length = (((InfoGroup.run [] l).find s).getD {}).num ∧
      ∀ id, id ∈ ids ↔ ((((InfoGroup.run [] l).find s).getD {}).infos.get id).isSome = true) := by
  have hnum : (((InfoGroup.run [] l).find s).getD {}).num = (addedTo s l).length := by
    rw [(run_find l [] s).1]; simp [InfoGroup.find]
  refine ⟨hnum, fun hn => ⟨addedTo s l, hn, hnum.symm, fun id => ?_⟩⟩
  rw [(run_find l [] s).2]
  simp only [InfoGroup.find, List.lookup_nil, Option.getD_none, GoMap.get_empty, Option.isSome_none, Bool.false_eq_true,
    false_or, addedTo, List.mem_filterMap]
  constructor
  · rintro ⟨c, hc, h⟩
    cases c with
    | addShard s' => simp [addedTo.addedId] at h
    | add s' id' v =>
      simp only [addedTo.addedId] at h
      split at h
      · rename_i hs; subst hs; cases h; exact ⟨v, hc⟩
      · cases h
  · rintro ⟨v, hv⟩
    exact ⟨_, hv, by simp [addedTo.addedId]⟩

example : addedTo 1 [InfoCall.add 1 (str "a") (), .addShard 2, .add 2 (str "a") (), .add 1 (str "b") ()] =
    [str "a", str "b"] := by decide +kernel

/-- **C70 is false of the code**: a document that is added twice counts twice. -/
theorem C70_refuted_count (id : Str) (v w : V) :
    (((InfoGroup.run [] [.add 0 id v, .add 0 id w]).find 0).getD {}).num = 2 ∧
    ∀ id', (((((InfoGroup.run [] [InfoCall.add 0 id v, .add 0 id w]).find 0).getD {}).infos.get id').isSome ↔ id' = id) := by
  refine ⟨?_, fun id' => ?_⟩
  · rw [(C70_count_partial _ _).1]; rfl
  · rw [(run_find _ [] 0).2]
    simp only [InfoGroup.find, List.lookup_nil, Option.getD_none, GoMap.get_empty, Option.isSome_none, Bool.false_eq_true,
      List.mem_cons, InfoCall.add.injEq, true_and, List.not_mem_nil, or_false, false_or]
    exact ⟨fun ⟨_, h⟩ => h.elim And.left And.left, fun h => ⟨v, Or.inl ⟨h, rfl⟩⟩⟩

/-! ## C71 -/

/-- **C71** (partial: usage has not dropped below that at the start) `UsedMem`/`UsedDisk` report the
increase since the start. Missing: usage below that at the start (`C71_refuted_underflow`). -/
theorem C71_used_partial (start now : UInt64) (h : start ≤ now) : (usedSince start now).toNat = now.toNat - start.toNat :=
  UInt64.toNat_sub_of_le _ _ h

/-- **C71 is false of the code**: if usage is `d > 0` bytes below that at the start, they report
18446744073709551616 - `d` bytes. -/
theorem C71_refuted_underflow (start now : UInt64) (h : now < start) :
    (usedSince start now).toNat = 2 ^ 64 - (start.toNat - now.toNat) := by
  have h1 : now.toNat < start.toNat := h
  have h2 := start.toNat_lt
  unfold usedSince
  rw [UInt64.toNat_sub]
  omega

/-- **C71** The conversions are exact (rounded down). -/
theorem C71_units (x : UInt64) : (toKB x).toNat = x.toNat / 2 ^ 10 ∧ (toMB x).toNat = x.toNat / 2 ^ 20 ∧
    (toGB x).toNat = x.toNat / 2 ^ 30 := by
  have h : (1024 : UInt64).toNat = 1024 := rfl
  refine ⟨?_, ?_, ?_⟩
  · simp [toKB, UInt64.toNat_div]
  · simp [toMB, UInt64.toNat_div, Nat.div_div_eq_div_mul]
  · simp [toGB, UInt64.toNat_div, Nat.div_div_eq_div_mul]

example : (usedSince 100 150).toNat = 50 ∧ (usedSince 100 99).toNat = 18446744073709551615 := by decide +kernel

/-! ## C72 -/

theorem heart_inv (l : List Beat) : ∀ s : HeartState, s.rpc ≤ 3 → (s.run l).rpc ≤ 3 := by
  induction l with
  | nil => intro s h; exact h
  | cons b l ih =>
    intro s h
    refine ih _ ?_
    cases b with
    | ok => simp only [HeartState.step]; rw [if_neg (by omega)]; exact h
    | fail => simp only [HeartState.step]; split <;> simp; omega
    | kill => simp [HeartState.step]

theorem heart_mono (l : List Beat) : ∀ s : HeartState, s.restarts ≤ (s.run l).restarts := by
  induction l with
  | nil => intro s; exact le_rfl
  | cons b l ih =>
    intro s
    refine le_trans ?_ (ih (s.step b))
    cases b with
    | ok => simp only [HeartState.step]; split <;> simp
    | fail => simp only [HeartState.step]; split <;> simp
    | kill => simp [HeartState.step]

/-- Without kills, `k` failures from counter `n` lead to `(n + k) / 4` restarts, whatever successes are in
between. -/
theorem heart_count (l : List Beat) (hk : Beat.kill ∉ l) : ∀ s : HeartState, s.rpc ≤ 3 →
    (s.run l).restarts = s.restarts + (s.rpc + l.count .fail) / 4 ∧ (s.run l).rpc = (s.rpc + l.count .fail) % 4 := by
  induction l with
  | nil => intro s h; simp [HeartState.run]; omega
  | cons b l ih =>
    intro s h
    simp only [List.mem_cons, not_or] at hk
    cases b with
    | kill => exact absurd rfl hk.1
    | ok =>
      have hs : s.step .ok = s := by simp only [HeartState.step]; rw [if_neg (by omega)]
      have := ih hk.2 s h
      simp only [HeartState.run, List.foldl_cons, hs] at this ⊢
      rw [List.count_cons_of_ne (by decide)]
      exact this
    | fail =>
      simp only [HeartState.run, List.foldl_cons]
      rw [List.count_cons_self]
      by_cases h3 : s.rpc = 3
      · have hs : s.step .fail = { rpc := 0, restarts := s.restarts + 1 } := by simp [HeartState.step, h3]
        have := ih hk.2 { rpc := 0, restarts := s.restarts + 1 } (by simp)
        rw [hs]
        simp only [HeartState.run] at this
        rw [this.1, this.2]
        constructor <;> omega
      · have hs : s.step .fail = { s with rpc := s.rpc + 1 } := by
          simp only [HeartState.step]; rw [if_neg (by omega)]
        have := ih hk.2 { s with rpc := s.rpc + 1 } (by simp; omega)
        rw [hs]
        simp only [HeartState.run] at this
        rw [this.1, this.2]
        constructor <;> omega

/-- **C72** (partial) After any history, four failures in a row make the heartbeat restart the server
at least once; and it never restarts it without four failures since the last restart, kill or start.
Missing: the four failures need not be in a row (`C72_refuted_isolated_failures`). -/
theorem C72_heartbeat_partial (h : List Beat) :
    (HeartState.run {} h).restarts < (HeartState.run {} (h ++ [.fail, .fail, .fail, .fail])).restarts ∧
    ∀ l : List Beat, Beat.kill ∉ l →
      ((HeartState.run {} (h ++ .kill :: l)).restarts ≤ (HeartState.run {} h).restarts ↔ l.count .fail < 4) := by
  have hr := heart_inv h {} (by simp)
  constructor
  · have := heart_count [.fail, .fail, .fail, .fail] (by decide) (HeartState.run {} h) hr
    have e : HeartState.run {} (h ++ [.fail, .fail, .fail, .fail]) =
        (HeartState.run {} h).run [.fail, .fail, .fail, .fail] := by simp [HeartState.run]
    rw [e, this.1]
    have : [Beat.fail, .fail, .fail, .fail].count .fail = 4 := rfl
    rw [this]; omega
  · intro l hl
    have := heart_count l hl ((HeartState.run {} h).step .kill) (by simp [HeartState.step])
    have e : HeartState.run {} (h ++ .kill :: l) = ((HeartState.run {} h).step .kill).run l := by
      simp [HeartState.run]
    rw [e, this.1]
    simp only [HeartState.step, Nat.zero_add]
    omega

/-- **C72 is false of the code**: failures are never forgotten: a server that fails one heartbeat, then
answers any number of them, and so on four times, is restarted while healthy. -/
theorem C72_refuted_isolated_failures (n : Nat) :
    (HeartState.run {} ((List.replicate 4 (.fail :: List.replicate n Beat.ok)).flatten)).restarts = 1 := by
  have hk : Beat.kill ∉ (List.replicate 4 (.fail :: List.replicate n Beat.ok)).flatten := by
    intro h
    obtain ⟨l, hl, hm⟩ := List.mem_flatten.1 h
    rw [List.mem_replicate] at hl
    rw [hl.2] at hm
    rcases List.mem_cons.1 hm with hm | hm
    · cases hm
    · rw [List.mem_replicate] at hm; cases hm.2
  rw [(heart_count _ hk {} (by simp)).1]
  have hc : (Beat.fail :: List.replicate n Beat.ok).count .fail = 1 := by
    rw [List.count_cons_self, List.count_replicate]; simp
  simp only [List.count_flatten, List.map_replicate, hc]
  decide

end Riot
