import Verif.Spec.Examples
import Verif.Props.Criteria
import Mathlib.Data.Nat.Digits.Defs
import Mathlib.Algebra.Order.Field.Basic
import Mathlib.Algebra.Order.Field.Rat

/-!
# C106, C107: the example programs
-/

namespace Riot

/-! ## Reading the data file -/

theorem splitBars_ne (s : Str) : splitBars s ≠ [] := by
  unfold splitBars
  split
  · simp
  · split
    · simp
    · split <;> simp
  all_goals simp

/-- The pieces of a line, joined again, are the line. -/
theorem join_split (s : Str) : joinBars (splitBars s) = s := by
  have cons : ∀ (a : Fin 256) (w : Str) (ws : List Str), joinBars ((a :: w) :: ws) = a :: joinBars (w :: ws) := by
    intro a w ws; cases ws <;> rfl
  have nil : ∀ (ws : List Str), ws ≠ [] → joinBars ([] :: ws) = [124, 124, 124, 124] ++ joinBars ws := by
    intro ws h; cases ws with
    | nil => exact absurd rfl h
    | cons w ws => rfl
  fun_induction splitBars s with
  | case1 => rfl
  | case2 a b c d s h ih =>
    obtain ⟨rfl, rfl, rfl, rfl⟩ := h
    rw [nil _ (splitBars_ne s), ih]; rfl
  | case3 a b c d s h heq ih => exact absurd heq (splitBars_ne _)
  | case4 a b c d s h w ws heq ih => rw [cons, ← heq, ih]
  | case5 | case6 | case7 => rfl

theorem splitBars_word (w : Str) (hw : (124 : Fin 256) ∉ w) : splitBars w = [w] := by
  fun_induction splitBars w with
  | case1 => rfl
  | case2 a b c d s h ih => obtain ⟨rfl, _⟩ := h; simp at hw
  | case3 a b c d s h heq ih => exact absurd heq (splitBars_ne _)
  | case4 a b c d s h w ws heq ih =>
    have := ih (fun hm => hw (List.mem_cons_of_mem _ hm))
    rw [heq] at this
    simp only [List.cons.injEq] at this
    rw [this.1, this.2]
  | case5 | case6 | case7 => rfl

theorem splitBars_sep (s : Str) : splitBars ([124, 124, 124, 124] ++ s) = [] :: splitBars s := by
  show splitBars (124 :: 124 :: 124 :: 124 :: s) = _
  conv_lhs => unfold splitBars
  simp

theorem splitBars_cons {a : Fin 256} (ha : a ≠ 124) (s : Str) {w : Str} {ws : List Str} (h : splitBars s = w :: ws) :
    splitBars (a :: s) = (a :: w) :: ws := by
  match s with
  | b :: c :: d :: s =>
    conv_lhs => unfold splitBars
    rw [if_neg (fun hh => ha hh.1), h]
  | [b, c] => have : splitBars [b, c] = [[b, c]] := rfl
              rw [this] at h; cases h; rfl
  | [b] => have : splitBars [b] = [[b]] := rfl
           rw [this] at h; cases h; rfl
  | [] => have : splitBars [] = [[]] := rfl
          rw [this] at h; cases h; rfl

/-- Fields without the character `|`, joined by `||||`, are found again. -/
theorem split_join (fs : List Str) (hne : fs ≠ []) (hb : ∀ f ∈ fs, (124 : Fin 256) ∉ f) : splitBars (joinBars fs) = fs := by
  induction fs with
  | nil => exact absurd rfl hne
  | cons f fs ih =>
    cases fs with
    | nil => exact splitBars_word f (hb f (by simp))
    | cons g gs =>
      have ih := ih (by simp) (fun x hx => hb x (by simp [hx]))
      have hf := hb f (by simp)
      show splitBars (f ++ [124, 124, 124, 124] ++ joinBars (g :: gs)) = _
      clear hb hne
      induction f with
      | nil => rw [List.nil_append, splitBars_sep, ih]
      | cons a f ih2 =>
        exact splitBars_cons (fun h => hf (by simp [h])) _ (ih2 (fun h => hf (by simp [h])))

theorem parseLoop_digits (m : Nat) : ∀ (ds : List Nat) (n : Nat), (∀ d ∈ ds, d < 10) → n ≤ m →
    parseLoop m n (ds.map (fun k => Fin.ofNat 256 (48 + k))) = min (ds.foldl (fun n d => n * 10 + d) n) m := by
  intro ds
  induction ds with
  | nil => intro n _ h; simp [parseLoop, h]
  | cons d ds ih =>
    intro n hd h
    have h10 : d < 10 := hd d (by simp)
    have hv : (Fin.ofNat 256 (48 + d)).val = 48 + d := by
      simp only [Fin.ofNat]; exact Nat.mod_eq_of_lt (by omega)
    have hmono : ∀ (ds : List Nat) (n : Nat), n ≤ ds.foldl (fun n d => n * 10 + d) n := by
      intro ds
      induction ds with
      | nil => intro n; simp
      | cons d ds ih => intro n; simp only [List.foldl_cons]; exact le_trans (by omega) (ih _)
    rw [List.map_cons, parseLoop, hv, if_pos (by omega), List.foldl_cons]
    have e : n * 10 + (48 + d - 48) = n * 10 + d := by omega
    rw [e]
    split
    · have := hmono ds (n * 10 + d); omega
    · exact ih _ (fun x hx => hd x (by simp [hx])) (by omega)

theorem itoa_digits (n : Nat) : itoa n = (if n = 0 then [0] else (Nat.digits 10 n).reverse).map (fun k => Fin.ofNat 256 (48 + k)) := by
  induction n using itoa.induct with
  | case1 n h =>
    rw [itoa, if_pos h]
    by_cases h0 : n = 0
    · subst h0; simp
    · rw [if_neg h0, Nat.digits_of_lt 10 n h0 h]; simp
  | case2 n h ih =>
    rw [itoa, if_neg h, ih, if_neg (by omega), if_neg (by omega), Nat.digits_def' (by decide) (by omega : 0 < n)]
    simp

/-- A number written in decimal is read as this number, or the largest possible one. -/
theorem parse_itoa (bits n : Nat) : parseUint bits (itoa n) = min n (2 ^ bits - 1) := by
  unfold parseUint
  rw [itoa_digits]
  by_cases h : n = 0
  · subst h
    simp [parseLoop]
  · rw [if_neg h, parseLoop_digits _ _ _ (fun d hd => Nat.digits_lt_base (by decide) (List.mem_reverse.1 hd)) (Nat.zero_le _)]
    congr 1
    rw [List.foldl_reverse]
    conv_rhs => rw [← Nat.ofDigits_digits 10 n]
    rw [Nat.ofDigits_eq_foldr]
    congr 1
    funext a b
    simp; omega

theorem itoa_inj {a b : Nat} (h : itoa a = itoa b) : a = b := by
  have h1 := parse_itoa (a + b) a
  have h2 := parse_itoa (a + b) b
  have hp : a + b < 2 ^ (a + b) := Nat.lt_two_pow_self
  rw [h, h2] at h1
  omega

/-- **C106** A line with ten fields without the character `|`, in which the numbers are written in decimal and fit in 64 bits, is read as the
post it says. -/
theorem C106_line (f0 f2 f3 f5 f6 f7 f8 f9 : Str) (ts reposts : Nat) (hts : ts < 2 ^ 64) (hr : reposts < 2 ^ 64)
    (hb : ∀ f ∈ [f0, f2, f3, f5, f6, f7, f8, f9], (124 : Fin 256) ∉ f) :
    codelabPost (joinBars [f0, itoa ts, f2, f3, itoa reposts, f5, f6, f7, f8, f9]) =
      some { id := f0, timestamp := ts, userName := f3, reposts := reposts, text := f9 } := by
  have hd : ∀ n, (124 : Fin 256) ∉ itoa n := by
    intro n hm
    rw [itoa_digits] at hm
    · obtain ⟨k, hk, he⟩ := List.mem_map.1 hm
      have : k < 10 := by
        split at hk
        · simp only [List.mem_singleton] at hk; omega
        · exact Nat.digits_lt_base (b := 10) (by decide) (List.mem_reverse.1 hk)
      have hv : (Fin.ofNat 256 (48 + k)).val = 48 + k := by
        simp only [Fin.ofNat]; exact Nat.mod_eq_of_lt (by omega)
      rw [he] at hv
      have h124 : ((124 : Fin 256)).val = 124 := rfl
      omega
  have hs : splitBars (joinBars [f0, itoa ts, f2, f3, itoa reposts, f5, f6, f7, f8, f9]) =
      [f0, itoa ts, f2, f3, itoa reposts, f5, f6, f7, f8, f9] := by
    refine split_join _ (by simp) ?_
    intro f hf
    simp only [List.mem_cons, List.not_mem_nil, or_false] at hf hb
    rcases hf with rfl | rfl | rfl | rfl | rfl | rfl | rfl | rfl | rfl | rfl
    all_goals first | exact hd _ | exact hb _ (by simp)
  unfold codelabPost
  rw [hs]
  simp only [List.length_cons, List.length_nil, List.getD_cons_zero, List.getD_cons_succ, parse_itoa]
  rw [Nat.min_eq_left (by omega), Nat.min_eq_left (by omega)]
  simp

/-- **C106** A line with another number of fields is skipped. -/
theorem C106_skips (fields : List Str) (hb : ∀ f ∈ fields, (124 : Fin 256) ∉ f) (hn : fields ≠ []) (hl : fields.length ≠ 10) :
    codelabPost (joinBars fields) = none := by
  unfold codelabPost
  rw [split_join _ hn hb]
  simp [hl]

/-- `C106_skips` applies to a line with eleven fields. -/
example : codelabPost (joinBars (List.replicate 11 (str "7"))) = none :=
  C106_skips _ (fun f hf => by rw [List.eq_of_mem_replicate hf]; decide +kernel) (by simp) (by simp)

/-- **C106** The server keeps for every id the post of the last line about it. -/
theorem C106_load (lines : List Str) (id : Str) (w : Weibo) :
    (codelabLoad lines).get id = some w ↔ SaidLast lines id w := by
  unfold codelabLoad SaidLast
  induction lines using List.reverseRecOn with
  | nil => simp [GoMap.get, GoMap.empty]
  | append_singleton lines line ih =>
    rw [List.foldl_append, List.foldl_cons, List.foldl_nil]
    cases hp : codelabPost line with
    | none =>
      simp only
      rw [ih]
      constructor
      · rintro ⟨l1, x, l2, rfl, h2, h3, h4⟩
        refine ⟨l1, x, l2 ++ [line], by simp, h2, h3, fun y hy w' hw' => ?_⟩
        rcases List.mem_append.1 hy with hy | hy
        · exact h4 y hy w' hw'
        · simp only [List.mem_singleton] at hy
          subst hy; rw [hp] at hw'; simp at hw'
      · rintro ⟨l1, x, l2, h1, h2, h3, h4⟩
        rcases List.eq_nil_or_concat l2 with rfl | ⟨l2', y, rfl⟩
        · have := List.append_inj' h1 rfl
          simp only [List.cons.injEq, and_true] at this
          rw [← this.2, hp] at h2; simp at h2
        · have h1' : lines ++ [line] = (l1 ++ x :: l2') ++ [y] := by rw [h1]; simp
          obtain ⟨e1, _⟩ := List.append_inj' h1' rfl
          exact ⟨l1, x, l2', e1, h2, h3, fun z hz => h4 z (by simp [hz])⟩
    | some v =>
      simp only
      by_cases hid : v.id = id
      · rw [← hid, GoMap.get_set_self]
        constructor
        · intro he
          simp only [Option.some.injEq] at he
          subst he
          exact ⟨lines, line, [], rfl, hp, rfl, by simp⟩
        · rintro ⟨l1, x, l2, h1, h2, h3, h4⟩
          rcases List.eq_nil_or_concat l2 with rfl | ⟨l2', y, rfl⟩
          · have := List.append_inj' h1 rfl
            simp only [List.cons.injEq, and_true] at this
            rw [← this.2, hp] at h2; exact h2
          · have h1' : lines ++ [line] = (l1 ++ x :: l2') ++ [y] := by rw [h1]; simp
            obtain ⟨_, e2⟩ := List.append_inj' h1' rfl
            simp only [List.cons.injEq, and_true] at e2
            subst e2
            exact absurd rfl (h4 line (by simp) v hp)
      · rw [GoMap.get_set, if_neg (Ne.symm hid), ih]
        constructor
        · rintro ⟨l1, x, l2, rfl, h2, h3, h4⟩
          refine ⟨l1, x, l2 ++ [line], by simp, h2, h3, fun y hy w' hw' => ?_⟩
          rcases List.mem_append.1 hy with hy | hy
          · exact h4 y hy w' hw'
          · simp only [List.mem_singleton] at hy
            subst hy; rw [hp] at hw'
            simp only [Option.some.injEq] at hw'
            subst hw'; exact hid
        · rintro ⟨l1, x, l2, h1, h2, h3, h4⟩
          rcases List.eq_nil_or_concat l2 with rfl | ⟨l2', y, rfl⟩
          · have := List.append_inj' h1 rfl
            simp only [List.cons.injEq, and_true] at this
            rw [← this.2, hp] at h2
            simp only [Option.some.injEq] at h2
            subst h2; exact absurd h3 hid
          · have h1' : lines ++ [line] = (l1 ++ x :: l2') ++ [y] := by rw [h1]; simp
            obtain ⟨e1, _⟩ := List.append_inj' h1' rfl
            exact ⟨l1, x, l2', e1, h2, h3, fun z hz => h4 z (by simp [hz])⟩

/-! ## The ranking -/

section
variable {D F A : Type} {c : PipeCfg D} {E : EngCfg D F A} {textOf : D → DocText} {o : IndexerOpts} {db : Fin c.stores → List (Str × D)}
  {as : List (EAct c.toPipeSize D F)} {st : Full c F A}

theorem asked_withWords (E : EngCfg D F A) (textOf : D → DocText) (r : SearchReq F) (hl : r.logic = {}) (hd : r.docIds = none)
    (hlab : r.labels = []) (docs : List (Str × D)) :
    askedFor E textOf r (docs.filter (fun y => y.1 ≠ str "0")) = withWords E textOf (Engine.tokens E.text E.opts r) docs := by
  classical
  unfold askedFor withWords
  rw [List.filter_filter]
  refine List.filter_congr (fun y _ => ?_)
  rw [Bool.eq_iff_iff]
  simp only [Bool.and_eq_true, decide_eq_true_eq, hl, hd, hlab, List.append_nil, Satisfies, mustOf, if_true, Option.some.injEq,
    clauseKeys, Allowed]
  constructor
  · rintro ⟨⟨_, h, _⟩, h0⟩; exact ⟨h0, h _ rfl⟩
  · rintro ⟨h0, h⟩
    exact ⟨⟨by simp, fun ks hk => hk ▸ h, by simp, by simp⟩, h0⟩

theorem filterMap_ite {α β : Type} (p : α → Prop) [DecidablePred p] (e : α → β) (l : List α) :
    l.filterMap (fun y => if p y then none else some (e y)) = (l.filter (fun y => ¬ p y)).map e := by
  induction l with
  | nil => rfl
  | cons a l ih =>
    rw [List.filterMap_cons, List.filter_cons]
    by_cases h : p a <;> simp [h, ih]

/-- The result shown for the document `y`, found as `doc`. -/
def entryShown (E : EngCfg D F A) (r : SearchReq F) (doc : IndexedDoc) (y : Str × D) : ScoredDoc F A :=
  { scoredID := { docId := doc.docId, scores := (wantedRank E.opts r).score doc (E.info.fields y.2),
                  tokenSnippetLocs := doc.tokenSnippetLocs, tokenLocs := doc.tokenLocs }
    content := (E.knows y.2).content, attri := (E.knows y.2).attri, fields := E.info.fields y.2 }

/-- A plain text request without a time-out over a collection, on an engine that keeps contents: the results are those of the first
documents of a ranking of the documents with all words of the query. -/
theorem whole_ranking (htext : FromTexts c E textOf) (hso : SortOk E.so) (hgs : GSortOk E.gs)
    (hs : GentleStart c o db) (h : (Full.start c o db).run E as = some st)
    (hg : (Full.start c o db).Gentle E o db as) {k b f : Nat} {r : SearchReq F} (hb : Began as k b r)
    (hret : st.Returned k) (hquiet : (Full.after E (Full.start c o db) as b).fine.pipe.Quiet)
    (hround : ∀ d, d ≠ str "0" → ∃ l, Rounds db d (Full.after E (Full.start c o db) as b).fine.pipe l)
    {i : Fin c.clients} (hfl : as[f]? = some (.pipe (.call i .flush))) (hfb : f < b)
    (hlast : ∀ t j (a : Call D), f < t → as[t]? ≠ some (.pipe (.call j a)))
    (hc : r.countDocsOnly = false) (hor : r.orderless = false) (hto : r.timeout ≤ 0)
    (hlogic : r.logic = {}) (hdi : r.docIds = none) (hlab : r.labels = []) (htok : Engine.tokens E.text E.opts r ≠ [])
    {docs : List (Str × D)} (hgiven : GivenOnce ((Full.after E (Full.start c o db) as b).fine.pipe.given db) docs) {m : Nat}
    (ho : (wantedRank E.opts r).outputOffset = 0) (hm : (wantedRank E.opts r).maxOutputs = m) (hm0 : m ≠ 0)
    (hrev : (wantedRank E.opts r).reverseOrder = false) (hid : E.opts.idOnly = false)
    (hnan : ∀ d f, NoNaN ((wantedRank E.opts r).score d f)) :
    ∃ (n avg : Fin c.shards → Rat) (df : Fin c.shards → Str → Nat) (found : Str × D → IndexedDoc) (R : List (Str × D)) (resp : SearchResp F A),
      (∀ s, TextStats E.text E.opts.toTextOpts textOf (onShard c s docs) (n s) (avg s) (df s)) ∧
      (∀ y, found y = expectedDoc E.log2 o.init (n (c.route y.1 y.2)) (avg (c.route y.1 y.2)) (df (c.route y.1 y.2))
        (Engine.tokens E.text E.opts r) (c.docOf y.1 y.2)) ∧
      R.Perm ((withWords E textOf (Engine.tokens E.text E.opts r) docs).filter
        (fun y => (wantedRank E.opts r).score (found y) (E.info.fields y.2) ≠ [])) ∧
      R.Pairwise (fun a b => scoreKey ((wantedRank E.opts r).score (found b) (E.info.fields b.2)) ≤
        scoreKey ((wantedRank E.opts r).score (found a) (E.info.fields a.2))) ∧
      st.response E k = some resp ∧ resp.timeout = false ∧ resp.numDocs = R.length ∧
      resp.docs = some (.docs ((R.take m).map (fun y => entryShown E r (found y) y))) ∧ (∀ y, (found y).docId = y.1) := by
  obtain ⟨n, avg, df, resp, h1, h2, h3, h4⟩ := C105_whole htext hso hgs hs h hg hb hret hquiet hround hfl hfb hlast hc hor hto hlogic
    (by simp [htok]) (fun _ => htok) hgiven.remains (off := 0) (by rw [ho]; rfl) hm hnan
  rw [asked_withWords E textOf r hlogic hdi hlab, hrev, hid] at h4
  let found : Str × D → IndexedDoc := fun y => expectedDoc E.log2 o.init (n (c.route y.1 y.2)) (avg (c.route y.1 y.2))
    (df (c.route y.1 y.2)) (Engine.tokens E.text E.opts r) (c.docOf y.1 y.2)
  have he : ∀ l : List (Str × D), l.filterMap (fun y => E.resultFor r (found y) y.2) =
      (l.filter (fun y => ¬ (wantedRank E.opts r).score (found y) (E.info.fields y.2) = [])).map (fun y => entryShown E r (found y) y) := by
    intro l
    rw [← filterMap_ite]
    rfl
  rw [he] at h4
  obtain ⟨R', p1, p2, p3, p4, _⟩ := h4
  generalize hM : (withWords E textOf (Engine.tokens E.text E.opts r) docs).filter
    (fun y => ¬ (wantedRank E.opts r).score (found y) (E.info.fields y.2) = []) = M at p1 p4
  have hf2 : List.Forall₂ (fun y e => e = entryShown E r (found y) y) M (M.map (fun y => entryShown E r (found y) y)) := by
    rw [List.forall₂_map_right_iff]
    exact List.forall₂_same.2 (fun _ _ => rfl)
  obtain ⟨R, q1, q2⟩ := forall2_perm hf2 p1
  have hR : R' = R.map (fun y => entryShown E r (found y) y) := by
    clear p1 p2 p3 p4 q1 hf2 hM
    induction q2 with
    | nil => rfl
    | cons hh _ ih => rw [List.map_cons, hh, ih]
  subst hR
  refine ⟨n, avg, df, found, R, resp, h1, fun _ => rfl, ?_, ?_, h2, h3, ?_, ?_, ?_⟩
  · exact q1.trans (List.Perm.of_eq hM.symm)
  · have := List.pairwise_map.1 p2
    exact this
  · rw [p4, List.length_map, q1.length_eq]
  · rw [p3]
    simp [resultDocs, page, hm0, List.map_take]
  · intro y
    show (expectedDoc _ _ _ _ _ _ _).docId = _
    rw [expectedDoc_docId]
    exact htext.docOk y.1 y.2

end

theorem codelab_order {x y : IndexedDoc} {a b : Weibo} (h : scoreKey (codelabScore y (some b.fields)) ≤ scoreKey (codelabScore x (some a.fields))) :
    ¬ BetterPost y b x a := by
  intro hb
  refine absurd h (not_le.2 ?_)
  simp only [codelabScore, Weibo.fields, scoreKey, List.map_cons, List.map_nil, F32.value]
  have key : ∀ p q : Int, max p 2 < max q 2 → (if q > 2 then 1 / (q : Rat) else 1) < (if p > 2 then 1 / (p : Rat) else 1) := by
    intro p q hpq
    have hq : q > 2 := by omega
    rw [if_pos hq]
    have hq' : (2 : Rat) < q := by exact_mod_cast hq
    split
    · rename_i hp
      have hp' : (2 : Rat) < p := by exact_mod_cast hp
      have : (p : Rat) < q := by
        have : p < q := by omega
        exact_mod_cast this
      exact one_div_lt_one_div_of_lt (by linarith) this
    · rw [div_lt_one (by linarith)]; linarith
  have keq : ∀ p q : Int, max p 2 = max q 2 → (if p > 2 then 1 / (p : Rat) else 1) = (if q > 2 then 1 / (q : Rat) else 1) := by
    intro p q hpq
    by_cases hp : p > 2
    · have : p = q := by omega
      rw [this]
    · rw [if_neg hp, if_neg (by omega)]
  rcases hb with hb | ⟨e1, hb | ⟨e2, hb⟩⟩
  · refine List.Lex.rel ?_
    have := key _ _ hb
    exact_mod_cast this
  · rw [keq _ _ e1]
    refine List.Lex.cons (List.Lex.rel ?_)
    have : ((a.timestamp / (86400 * 3) : Nat) : Rat) < ((b.timestamp / (86400 * 3) : Nat) : Rat) := by exact_mod_cast hb
    exact_mod_cast this
  · rw [keq _ _ e1]
    have e2' : b.timestamp / (86400 * 3) = a.timestamp / (86400 * 3) := e2
    rw [e2']
    refine List.Lex.cons (List.Lex.cons (List.Lex.rel ?_))
    have : x.bm25 * (1 + (a.reposts : Rat) / 10000) < y.bm25 * (1 + (b.reposts : Rat) / 10000) := by
      have h1 : ∀ (z r : Rat), z * (1 + r / 10000) = z * (10000 + r) / 10000 := by intro z r; ring
      rw [h1, h1]
      exact div_lt_div_of_pos_right hb (by norm_num)
    exact_mod_cast this

theorem codelab_noNaN (d : IndexedDoc) (f : Option CodelabFields) : NoNaN (codelabScore d f) := by
  unfold codelabScore NoNaN
  split <;> simp

section
variable {A : Type} {c : PipeCfg Weibo} {E : EngCfg Weibo CodelabFields A} {o : IndexerOpts} {db : Fin c.stores → List (Str × Weibo)}
  {as : List (EAct c.toPipeSize Weibo CodelabFields)} {st : Full c CodelabFields A}

/-- **C106** The search server of examples/codelab. The posts of the data file were indexed, in any order, then Flush was called, and all work is
done. A query is answered with the first hundred posts of a ranking of all posts whose texts have all words of the query, the better ones first: closer
words, newer, more relevant and more often reposted. The post with the id "0" is never shown. (`n`, `avg` and `df` are the statistics of the
texts on the shards.) -/
theorem C106_page (hE : CodelabEngine E) (htext : FromTexts c E (fun w => { content := w.text })) (hso : SortOk E.so) (hgs : GSortOk E.gs)
    (hs : GentleStart c o db) (h : (Full.start c o db).run E as = some st)
    (hg : (Full.start c o db).Gentle E o db as) {k b f : Nat} {query : Str} (hb : Began as k b (codelabReq query))
    (hret : st.Returned k) (hquiet : (Full.after E (Full.start c o db) as b).fine.pipe.Quiet)
    (hround : ∀ d, d ≠ str "0" → ∃ l, Rounds db d (Full.after E (Full.start c o db) as b).fine.pipe l)
    {i : Fin c.clients} (hfl : as[f]? = some (.pipe (.call i .flush))) (hfb : f < b)
    (hlast : ∀ t j (a : Call Weibo), f < t → as[t]? ≠ some (.pipe (.call j a)))
    (htok : Engine.tokens E.text E.opts (codelabReq query) ≠ []) {lines : List Str} {docs : List (Str × Weibo)}
    (hdocs : docs.Perm (codelabLoad lines).entries)
    (hgiven : GivenOnce ((Full.after E (Full.start c o db) as b).fine.pipe.given db) docs) :
    ∃ (n avg : Fin c.shards → Rat) (df : Fin c.shards → Str → Nat) (found : Str × Weibo → IndexedDoc) (R : List (Str × Weibo)),
      (∀ s, TextStats E.text E.opts.toTextOpts (fun w => { content := w.text }) (onShard c s docs) (n s) (avg s) (df s)) ∧
      (∀ y, found y = expectedDoc E.log2 o.init (n (c.route y.1 y.2)) (avg (c.route y.1 y.2)) (df (c.route y.1 y.2))
        (Engine.tokens E.text E.opts (codelabReq query)) (c.docOf y.1 y.2)) ∧
      R.Perm (withWords E (fun w => { content := w.text }) (Engine.tokens E.text E.opts (codelabReq query)) docs) ∧
      R.Pairwise (fun a b => ¬ BetterPost (found b) b.2 (found a) a.2) ∧
      codelabPage (codelabLoad lines) (st.response E k) = some ((R.take 100).map (·.2)) := by
  have hw : (wantedRank E.opts (codelabReq query)).score = codelabScore ∧ (wantedRank E.opts (codelabReq query)).outputOffset = 0 ∧
      (wantedRank E.opts (codelabReq query)).maxOutputs = (100 : Nat) ∧ (wantedRank E.opts (codelabReq query)).reverseOrder = false := by
    simp [wantedRank, codelabReq]
  obtain ⟨w1, w2, w3, w4⟩ := hw
  obtain ⟨n, avg, df, found, R, resp, h1, h2, h3, h4, h5, _, _, h8, h9⟩ := whole_ranking htext hso hgs hs h hg hb hret hquiet hround hfl hfb
    hlast rfl rfl (le_refl _) rfl rfl rfl htok hgiven w2 w3 (by decide) w4 hE.contents (by rw [w1]; exact codelab_noNaN)
  rw [w1] at h3 h4
  have hall : (withWords E (fun w : Weibo => { content := w.text }) (Engine.tokens E.text E.opts (codelabReq query)) docs).filter
      (fun y => codelabScore (found y) (E.info.fields y.2) ≠ []) =
      withWords E (fun w => { content := w.text }) (Engine.tokens E.text E.opts (codelabReq query)) docs := by
    rw [List.filter_eq_self]
    intro y _
    rw [hE.fields]
    simp [codelabScore, Weibo.fields]
  rw [hall] at h3
  refine ⟨n, avg, df, found, R, h1, h2, h3, h4.imp (fun {a b} hab => ?_), ?_⟩
  · rw [hE.fields, hE.fields] at hab
    exact codelab_order hab
  · unfold codelabPage Engine.searchDoc
    rw [h5]
    simp only [Option.bind_eq_bind, Option.bind_some, h8, asDocs, Option.map_some, List.map_map, Option.pure_def, Option.some.injEq]
    refine List.map_congr_left (fun y hy => ?_)
    have hy1 : y ∈ withWords E (fun w : Weibo => { content := w.text }) (Engine.tokens E.text E.opts (codelabReq query)) docs :=
      h3.mem_iff.1 (List.mem_of_mem_take hy)
    have hy2 : y ∈ docs := (List.mem_filter.1 hy1).1
    have hy3 : (codelabLoad lines).get y.1 = some y.2 := (GoMap.get_eq_some_iff _ _ _).2 (hdocs.mem_iff.1 hy2)
    simp only [Function.comp_apply, entryShown, h9, hy3, Option.getD_some, EngCfg.knows, hE.contents, Bool.false_eq_true, if_false, hE.content]

end

/-! ## C107 -/

theorem tweetDocs_get {lines : List Str} {y : Str × Tweet} (h : y ∈ tweetDocs lines) :
    ∃ n, y.1 = itoa n ∧ n < (lines.filterMap tweetOf).length ∧ (lines.filterMap tweetOf)[n]? = some y.2 := by
  obtain ⟨⟨t, n⟩, hx, rfl⟩ := List.mem_map.1 h
  have hg := List.mk_mem_zipIdx_iff_getElem?.1 hx
  exact ⟨n, rfl, (List.getElem?_eq_some_iff.1 hg).1, hg⟩

theorem tweet_order {x y : IndexedDoc} {a b : Tweet} (hx : x.tokenProximity ≤ 150) (hy : y.tokenProximity ≤ 150)
    (h : scoreKey (tweetScore y (some b.fields)) ≤ scoreKey (tweetScore x (some a.fields))) : ¬ BetterTweet y b x a := by
  intro hb
  refine absurd h (not_le.2 ?_)
  simp only [tweetScore, Tweet.fields, scoreKey, if_neg (not_lt.2 hx), if_neg (not_lt.2 hy), List.map_cons, List.map_nil, F32.value]
  rcases hb with hb | ⟨e1, hb | ⟨e2, hb | ⟨e3, hb⟩⟩⟩
  · refine List.Lex.rel ?_
    have : ((a.timestamp / 86400 : Nat) : Rat) < ((b.timestamp / 86400 : Nat) : Rat) := by exact_mod_cast hb
    exact_mod_cast this
  · rw [e1]
    refine List.Lex.cons (List.Lex.rel ?_)
    have : ((truncInt x.bm25 : Int) : Rat) < ((truncInt y.bm25 : Int) : Rat) := by exact_mod_cast hb
    exact_mod_cast this
  · rw [e1, e2]
    refine List.Lex.cons (List.Lex.cons (List.Lex.rel ?_))
    have : (a.reposts : Rat) < (b.reposts : Rat) := by exact_mod_cast hb
    exact_mod_cast this
  · rw [e1, e2, e3]
    refine List.Lex.cons (List.Lex.cons (List.Lex.cons (List.Lex.rel ?_)))
    have : (a.text.length : Rat) < (b.text.length : Rat) := by exact_mod_cast hb
    exact_mod_cast this

theorem tweet_noNaN (d : IndexedDoc) (f : Option TweetFields) : NoNaN (tweetScore d f) := by
  unfold tweetScore NoNaN
  split
  · simp
  · split <;> simp

section
variable {A : Type} {c : PipeCfg Tweet} {E : EngCfg Tweet TweetFields A} {o : IndexerOpts} {db : Fin c.stores → List (Str × Tweet)}
  {as : List (EAct c.toPipeSize Tweet TweetFields)} {st : Full c TweetFields A}

/-- **C107** A line is read as the post it says: with ten fields without the character `|`, the time (field 1), the number of reposts (field 4) and the
text (field 9); it is skipped if it has another number of fields or no text. -/
theorem C107_line (fields : List Str) (hb : ∀ f ∈ fields, (124 : Fin 256) ∉ f) (hn : fields ≠ []) (t : Tweet) :
    tweetOf (joinBars fields) = some t ↔ ∃ f0 f1 f2 f3 f4 f5 f6 f7 f8, fields = [f0, f1, f2, f3, f4, f5, f6, f7, f8, t.text] ∧ t.text ≠ [] ∧
      t.timestamp = parseUint 32 f1 ∧ t.reposts = parseUint 32 f4 := by
  unfold tweetOf
  rw [split_join _ hn hb]
  constructor
  · intro h
    by_cases hl : fields.length = 10
    · match fields, hl with
      | [f0, f1, f2, f3, f4, f5, f6, f7, f8, f9], _ =>
        simp only [List.length_cons, List.length_nil, List.getD_cons_zero, List.getD_cons_succ] at h
        rw [if_neg (by simp)] at h
        split at h
        · simp at h
        · rename_i h9
          cases h
          exact ⟨f0, f1, f2, f3, f4, f5, f6, f7, f8, rfl, h9, rfl, rfl⟩
    · simp [hl] at h
  · rintro ⟨f0, f1, f2, f3, f4, f5, f6, f7, f8, rfl, h9, h1, h4⟩
    simp only [List.length_cons, List.length_nil, List.getD_cons_zero, List.getD_cons_succ]
    rw [if_neg (by simp), if_neg h9, ← h1, ← h4]

/-- A line of `C107_line` that is a post. -/
example : tweetOf (joinBars [str "1", str "1000", [], str "u", str "12", [], [], [], [], str "red"]) = some ⟨1000, 12, str "red"⟩ := by decide +kernel

/-- **C107** (partial) The search program of examples/weibo. The posts of the data file were indexed under their numbers, then Flush was
called, and all work is done. The query is answered with the texts of the first hundred posts of a ranking of all posts, except the one with
number 0, whose texts have all words of the query, not too far from each other; the better ones first: by the day, then the rounded relevance,
the number of reposts and the length. Missing: the post with number 0 is never shown (`C107_refuted_first`). -/
theorem C107_page_partial (hE : TweetEngine E) (htext : FromTexts c E (fun t => { content := t.text })) (hso : SortOk E.so) (hgs : GSortOk E.gs)
    (hs : GentleStart c o db) (h : (Full.start c o db).run E as = some st)
    (hg : (Full.start c o db).Gentle E o db as) {k b f : Nat} {query : Str} (hb : Began as k b { text := query })
    (hret : st.Returned k) (hquiet : (Full.after E (Full.start c o db) as b).fine.pipe.Quiet)
    (hround : ∀ d, d ≠ str "0" → ∃ l, Rounds db d (Full.after E (Full.start c o db) as b).fine.pipe l)
    {i : Fin c.clients} (hfl : as[f]? = some (.pipe (.call i .flush))) (hfb : f < b)
    (hlast : ∀ t j (a : Call Tweet), f < t → as[t]? ≠ some (.pipe (.call j a)))
    (htok : Engine.tokens E.text E.opts { text := query } ≠ []) {lines : List Str} (hlen : (lines.filterMap tweetOf).length < 2 ^ 63)
    (hgiven : GivenOnce ((Full.after E (Full.start c o db) as b).fine.pipe.given db) (tweetDocs lines)) :
    ∃ (n avg : Fin c.shards → Rat) (df : Fin c.shards → Str → Nat) (found : Str × Tweet → IndexedDoc) (R : List (Str × Tweet)),
      (∀ s, TextStats E.text E.opts.toTextOpts (fun t => { content := t.text }) (onShard c s (tweetDocs lines)) (n s) (avg s) (df s)) ∧
      (∀ y, found y = expectedDoc E.log2 o.init (n (c.route y.1 y.2)) (avg (c.route y.1 y.2)) (df (c.route y.1 y.2))
        (Engine.tokens E.text E.opts { text := query }) (c.docOf y.1 y.2)) ∧
      R.Perm ((withWords E (fun t => { content := t.text }) (Engine.tokens E.text E.opts { text := query }) (tweetDocs lines)).filter
        (fun y => (found y).tokenProximity ≤ 150)) ∧
      R.Pairwise (fun a b => ¬ BetterTweet (found b) b.2 (found a) a.2) ∧
      tweetPage ((lines.filterMap tweetOf).map (·.text)) (st.response E k) = some ((R.take 100).map (·.2.text)) := by
  have hw : wantedRank E.opts { text := query } = { score := tweetScore, outputOffset := 0, maxOutputs := 100 } := by
    simp [wantedRank, hE.rank]
  obtain ⟨n, avg, df, found, R, resp, h1, h2, h3, h4, h5, _, _, h8, h9⟩ := whole_ranking (m := 100) htext hso hgs hs h hg hb hret hquiet hround
    hfl hfb hlast rfl rfl (le_refl _) rfl rfl rfl htok hgiven (by rw [hw]) (by rw [hw]; rfl) (by decide) (by rw [hw]) hE.contents
    (by rw [hw]; exact tweet_noNaN)
  rw [hw] at h3 h4
  have hall : (withWords E (fun t : Tweet => { content := t.text }) (Engine.tokens E.text E.opts { text := query }) (tweetDocs lines)).filter
      (fun y => tweetScore (found y) (E.info.fields y.2) ≠ []) =
      (withWords E (fun t => { content := t.text }) (Engine.tokens E.text E.opts { text := query }) (tweetDocs lines)).filter
        (fun y => (found y).tokenProximity ≤ 150) := by
    refine List.filter_congr (fun y _ => ?_)
    rw [hE.fields]
    by_cases hp : (found y).tokenProximity > 150
    · simp [tweetScore, hp]
    · simp [tweetScore, Tweet.fields, hp, not_lt.1 hp]
  rw [hall] at h3
  refine ⟨n, avg, df, found, R, h1, h2, h3, ?_, ?_⟩
  · refine h4.imp_of_mem (fun {a b} ha hb' hab => ?_)
    have hpa := (List.mem_filter.1 (h3.mem_iff.1 ha)).2
    have hpb := (List.mem_filter.1 (h3.mem_iff.1 hb')).2
    rw [hE.fields, hE.fields] at hab
    exact tweet_order (of_decide_eq_true hpa) (of_decide_eq_true hpb) hab
  · unfold tweetPage Engine.searchDoc
    rw [h5]
    simp only [Option.bind_eq_bind, Option.bind_some, h8, asDocs, Option.pure_def]
    rw [List.mapM_map]
    have key : ∀ l : List (Str × Tweet), (∀ y ∈ l, y ∈ tweetDocs lines) →
        l.mapM ((fun doc : ScoredDoc TweetFields A => ((lines.filterMap tweetOf).map (·.text))[atoi doc.scoredID.docId]?) ∘
          (fun y => entryShown E { text := query } (found y) y)) = some (l.map (·.2.text)) := by
      intro l hl
      induction l with
      | nil => rfl
      | cons y l ih =>
        rw [List.mapM_cons, ih (fun z hz => hl z (by simp [hz]))]
        obtain ⟨m, e1, e2, e3⟩ := tweetDocs_get (hl y (by simp))
        have e4 : atoi y.1 = m := by
          rw [e1, atoi, parse_itoa]; omega
        simp [entryShown, h9, e4, e3]
    refine key _ (fun y hy => ?_)
    have hy1 := (List.mem_filter.1 (h3.mem_iff.1 (List.mem_of_mem_take hy))).1
    exact (List.mem_filter.1 hy1).1

end

/-! ## C108 -/

theorem pinyinLoop_eq (py : Str → List Str) (lines : List Str) : ∀ (done : List Str),
    pinyinLoop py (done.flatMap py) (2 * done.length + 1) lines =
      (lines.zipIdx done.length).flatMap (fun x => lineDocs (((done ++ lines).take (x.2 + 1)).flatMap py) x.2 x.1) := by
  induction lines with
  | nil => intro done; rfl
  | cons line lines ih =>
    intro done
    have h := ih (done ++ [line])
    rw [pinyinLoop, List.zipIdx_cons, List.flatMap_cons]
    simp only [List.length_append, List.length_cons, List.length_nil, Nat.zero_add] at h
    have e1 : (done ++ line :: lines).take (done.length + 1) = done ++ [line] := by
      rw [List.take_append, List.take_of_length_le (by omega), Nat.add_sub_cancel_left]; rfl
    have e2 : done.flatMap py ++ py line = (done ++ [line]).flatMap py := by simp
    have e3 : 2 * done.length + 1 + 2 = 2 * (done.length + 1) + 1 := by omega
    simp only [e1, e2, e3, h, lineDocs, List.cons_append, List.nil_append, List.append_assoc]

/-- **C108** (partial) The documents the pinyin example indexes: two for every line, with the pinyin tokens of the line and of all lines before it.
Missing: they should have the tokens of the line only (`C108_refuted`). -/
theorem C108_docs_partial (py : Str → List Str) (lines : List Str) :
    pinyinDocs py lines = lines.zipIdx.flatMap (fun x => lineDocs ((lines.take (x.2 + 1)).flatMap py) x.2 x.1) := by
  have := pinyinLoop_eq py lines []
  simpa [pinyinDocs] using this

section
variable {F A : Type} {c : PipeCfg PinyinDoc} {E : EngCfg PinyinDoc F A} {o : IndexerOpts} {db : Fin c.stores → List (Str × PinyinDoc)}
  {as : List (EAct c.toPipeSize PinyinDoc F)} {st : Full c F A}

/-- **C108** (partial) The pinyin tokens of a line are keys of both documents of this line, except for stop tokens. -/
theorem C108_own_tokens_partial (hE : PinyinEngine E) (py : Str → List Str) (lines : List Str) {k : Nat} {line : Str} (hk : lines[k]? = some line)
    {t : Str} (ht : t ∈ py line) (hstop : ¬ IsStopLine E.text t) :
    ∃ a b, (itoa (2 * k + 1), a) ∈ withWords E PinyinDoc.text [t] (pinyinDocs py lines) ∧ a.fields = some line ∧
      (itoa (2 * k + 2), b) ∈ withWords E PinyinDoc.text [t] (pinyinDocs py lines) ∧ b.content = line := by
  have hmem : t ∈ (lines.take (k + 1)).flatMap py := by
    refine List.mem_flatMap.2 ⟨line, ?_, ht⟩
    exact List.mem_of_getElem? (i := k) (by rw [List.getElem?_take_of_lt (Nat.lt_succ_self k)]; exact hk)
  have hkey : ∀ d : PinyinDoc, t ∈ d.tokens → TextHasKey E.text E.opts.toTextOpts d.text t := by
    intro d hd
    refine ⟨fun h => hstop h.2, Or.inl (Or.inr (Or.inr (Or.inr ⟨Or.inl (by rw [hE.mode]; decide), ?_⟩)))⟩
    simpa [PinyinDoc.text] using hd
  have hne : ∀ n, itoa (n + 1) ≠ str "0" := by
    intro n h
    have h0 : itoa 0 = str "0" := by rw [itoa]; decide +kernel
    exact absurd (itoa_inj (h.trans h0.symm)) (by omega)
  have hz : (line, k) ∈ lines.zipIdx := List.mk_mem_zipIdx_iff_getElem?.2 hk
  refine ⟨{ tokens := (lines.take (k + 1)).flatMap py, fields := some line }, { content := line, tokens := (lines.take (k + 1)).flatMap py }, ?_, rfl, ?_, rfl⟩
  · refine List.mem_filter.2 ⟨?_, ?_⟩
    · rw [C108_docs_partial]
      exact List.mem_flatMap.2 ⟨_, hz, by simp [lineDocs]⟩
    · classical
      rw [decide_eq_true_iff]
      refine ⟨hne _, fun w hw => ?_⟩
      rw [List.mem_singleton.1 hw]
      exact hkey _ hmem
  · refine List.mem_filter.2 ⟨?_, ?_⟩
    · rw [C108_docs_partial]
      exact List.mem_flatMap.2 ⟨_, hz, by simp [lineDocs]⟩
    · classical
      rw [decide_eq_true_iff]
      refine ⟨hne _, fun w hw => ?_⟩
      rw [List.mem_singleton.1 hw]
      exact hkey _ hmem

/-- **C108** (partial) The search server of examples/pinyin_weibo. The documents for all lines were indexed, then Flush was called, and all work is
done. A query is answered with the contents of (at most a hundred of) the documents that have all its words as keys, most relevant first. Missing: half of the
documents have no content and are shown as empty posts, and a document has the tokens of all earlier lines (`C108_refuted`). -/
theorem C108_page_partial (hE : PinyinEngine E) (htext : FromTexts c E PinyinDoc.text) (hso : SortOk E.so) (hgs : GSortOk E.gs)
    (hs : GentleStart c o db) (h : (Full.start c o db).run E as = some st)
    (hg : (Full.start c o db).Gentle E o db as) {k b f : Nat} {query : Str} (hb : Began as k b (pinyinReq query))
    (hret : st.Returned k) (hquiet : (Full.after E (Full.start c o db) as b).fine.pipe.Quiet)
    (hround : ∀ d, d ≠ str "0" → ∃ l, Rounds db d (Full.after E (Full.start c o db) as b).fine.pipe l)
    {i : Fin c.clients} (hfl : as[f]? = some (.pipe (.call i .flush))) (hfb : f < b)
    (hlast : ∀ t j (a : Call PinyinDoc), f < t → as[t]? ≠ some (.pipe (.call j a)))
    (htok : Engine.tokens E.text E.opts (pinyinReq query : SearchReq F) ≠ []) {py : Str → List Str} {lines : List Str}
    (hgiven : GivenOnce ((Full.after E (Full.start c o db) as b).fine.pipe.given db) (pinyinDocs py lines)) :
    ∃ (n avg : Fin c.shards → Rat) (df : Fin c.shards → Str → Nat) (found : Str × PinyinDoc → IndexedDoc) (R : List (Str × PinyinDoc)),
      (∀ s, TextStats E.text E.opts.toTextOpts PinyinDoc.text (onShard c s (pinyinDocs py lines)) (n s) (avg s) (df s)) ∧
      (∀ y, found y = expectedDoc E.log2 o.init (n (c.route y.1 y.2)) (avg (c.route y.1 y.2)) (df (c.route y.1 y.2))
        (Engine.tokens E.text E.opts (pinyinReq query : SearchReq F)) (c.docOf y.1 y.2)) ∧
      R.Perm (withWords E PinyinDoc.text (Engine.tokens E.text E.opts (pinyinReq query : SearchReq F)) (pinyinDocs py lines)) ∧
      R.Pairwise (fun a b => (found b).bm25 ≤ (found a).bm25) ∧
      pinyinPage (st.response E k) = some ((R.take 100).map (fun y => { text := y.2.content })) := by
  have hw : wantedRank E.opts (pinyinReq query : SearchReq F) = { score := rankByBM25, outputOffset := 0, maxOutputs := 100 } := by
    simp [wantedRank, pinyinReq, hE.score]
  have hnan : ∀ (d : IndexedDoc) (f : Option F), NoNaN (rankByBM25 d f) := by intro d f; simp [rankByBM25, NoNaN]
  obtain ⟨n, avg, df, found, R, resp, h1, h2, h3, h4, h5, _, _, h8, h9⟩ := whole_ranking (m := 100) htext hso hgs hs h hg hb hret hquiet hround
    hfl hfb hlast rfl rfl (le_refl _) rfl rfl rfl htok hgiven (by rw [hw]) (by rw [hw]; rfl) (by decide) (by rw [hw]) hE.contents
    (by rw [hw]; exact hnan)
  rw [hw] at h3 h4
  rw [List.filter_eq_self.2 (by intro y _; simp [rankByBM25])] at h3
  refine ⟨n, avg, df, found, R, h1, h2, h3, h4.imp (fun {a b} hab => ?_), ?_⟩
  · by_contra hlt
    refine absurd hab (not_le.2 ?_)
    simp only [rankByBM25, scoreKey, List.map_cons, List.map_nil, F32.value]
    refine List.Lex.rel ?_
    exact_mod_cast not_le.1 hlt
  · unfold pinyinPage Engine.searchDoc
    rw [h5]
    simp only [Option.bind_eq_bind, Option.bind_some, h8, asDocs, Option.map_some, List.map_map, Option.pure_def, Option.some.injEq]
    refine List.map_congr_left (fun y _ => ?_)
    simp only [Function.comp_apply, entryShown, EngCfg.knows, hE.contents, Bool.false_eq_true, if_false, hE.content]

end

end Riot
