import Verif.Spec.HttpForm
import Verif.Props.Int64
import Verif.Props.Net

/-!
# C116, C117: the parameters of an HTTP search

C116: the numbers in a form are read as decimal numbers; the distributed search asks every server for the page it was
asked for. C117: which numbers crash the server.
-/

namespace Riot.Net

open Riot

variable {F A : Type}

theorem Decimal.ne_nil {ds : Str} {n : Nat} (h : Decimal ds n) : ds ≠ [] := by cases h <;> simp

theorem Decimal.first_digit {ds : Str} {n : Nat} (h : Decimal ds n) :
    ∃ (b : Fin 256) (t : Str), ds = b :: t ∧ 48 ≤ b.val ∧ b.val ≤ 57 := by
  induction h with
  | digit b hb => exact ⟨b, [], rfl, hb⟩
  | more b hb t ih =>
    obtain ⟨c, r, rfl, hc⟩ := ih
    exact ⟨c, r ++ [b], rfl, hc⟩

/-- The value of the digits, as long as it fits. -/
theorem parseDigits_spec (ds : Str) : ∀ acc : Nat, acc < 2 ^ 64 → (∀ b ∈ ds, 48 ≤ b.val ∧ b.val ≤ 57) →
    parseDigits acc ds = some (min (ds.foldl (fun a c => 10 * a + (c.val - 48)) acc) (2 ^ 64 - 1)) := by
  induction ds with
  | nil => intro acc h _; simp only [parseDigits, List.foldl_nil]; congr 1; omega
  | cons b ds ih =>
    intro acc h hd
    have hb := hd b (by simp)
    rw [parseDigits, if_pos hb, List.foldl_cons]
    have mono : ∀ (l : Str) (a : Nat), a ≤ l.foldl (fun a c => 10 * a + (c.val - 48)) a := by
      intro l
      induction l with
      | nil => intro a; exact le_refl _
      | cons c l ih => intro a; rw [List.foldl_cons]; exact le_trans (by omega) (ih _)
    by_cases hbig : 2 ^ 64 ≤ 10 * acc + (b.val - 48)
    · rw [if_pos hbig]
      have := mono ds (10 * acc + (b.val - 48))
      congr 1; omega
    · rw [if_neg hbig, ih _ (by omega) (fun c hc => hd c (by simp [hc]))]

theorem Decimal.foldl {ds : Str} {n : Nat} (h : Decimal ds n) :
    ds.foldl (fun a c => 10 * a + (c.val - 48)) 0 = n ∧ ∀ b ∈ ds, 48 ≤ b.val ∧ b.val ≤ 57 := by
  induction h with
  | digit b hb => exact ⟨by simp, by simpa using hb⟩
  | more b hb t ih =>
    refine ⟨by rw [List.foldl_append, ih.1]; rfl, fun c hc => ?_⟩
    rcases List.mem_append.1 hc with hc | hc
    · exact ih.2 c hc
    · rw [List.mem_singleton.1 hc]; exact hb

theorem Decimal.parse {ds : Str} {n : Nat} (h : Decimal ds n) : parseDigits 0 ds = some (min n (2 ^ 64 - 1)) := by
  rw [parseDigits_spec ds 0 (by omega) h.foldl.2, h.foldl.1]

/-- A number in decimal notation is read as the nearest `int`. -/
theorem atoi_numeral {s : Str} {z : Int} (h : Numeral s z) : atoi s = nearest64 z := by
  unfold nearest64
  cases h with
  | @plain ds n h =>
    obtain ⟨b, t, rfl, hb⟩ := h.first_digit
    have h45 : b ≠ 45 := by rintro rfl; revert hb; decide
    have h43 : b ≠ 43 := by rintro rfl; revert hb; decide
    rw [atoi, if_neg h45, if_neg h43, h.parse]
    simp only [Option.getD_some]
    omega
  | @plus ds n h =>
    rw [atoi, if_neg (by decide), if_pos rfl, if_neg h.ne_nil, h.parse]
    simp only [Option.getD_some]
    omega
  | @minus ds n h =>
    rw [atoi, if_pos rfl, if_neg h.ne_nil, h.parse]
    simp only [Option.getD_some]
    omega

theorem decimal_itoa (n : Nat) : Decimal (itoa n) n := by
  induction n using Nat.strongRecOn with
  | _ n ih =>
    have val (k : Nat) (hk : k < 10) : (Fin.ofNat 256 (48 + k)).val = 48 + k := by
      simp only [Fin.ofNat]; omega
    rw [itoa]
    by_cases h : n < 10
    · rw [if_pos h]
      have := Decimal.digit (Fin.ofNat 256 (48 + n)) (by rw [val n h]; omega)
      rw [val n h] at this
      simpa using this
    · rw [if_neg h]
      have := Decimal.more (Fin.ofNat 256 (48 + n % 10)) (by rw [val _ (by omega)]; omega) (ih (n / 10) (by omega))
      rw [val _ (by omega)] at this
      have e : 10 * (n / 10) + (48 + n % 10 - 48) = n := by omega
      rwa [e] at this

theorem numeral_itoaInt (z : Int) : Numeral (itoaInt z) z := by
  unfold itoaInt
  by_cases h : z < 0
  · rw [if_pos h]
    have := Numeral.minus (decimal_itoa z.natAbs)
    have e : - (z.natAbs : Int) = z := by omega
    rwa [e] at this
  · rw [if_neg h]
    have := Numeral.plain (decimal_itoa z.natAbs)
    have e : (z.natAbs : Int) = z := by omega
    rwa [e] at this

/-- **C116** A search over HTTP whose form has an offset and a limit in decimal notation is the search for its query with
these numbers (the nearest `int` if a number is too large; other values of the same names are ignored). -/
theorem C116_form_is_search (gs : GSort) (conf : Conf) (search : SearchReq F → Option (SearchResp F AttriVal)) (f : Form)
    (query off max : Str) (o m : Int) (more more' more'' : List Str) (hq : f (str "query") = query :: more)
    (ho : f (str "outputOffset") = off :: more') (hm : f (str "maxOutputs") = max :: more'') (ho' : Numeral off o)
    (hm' : Numeral max m) :
    httpSearch gs conf search f = serverSearch gs conf search query (nearest64 o) (nearest64 m) none {} := by
  unfold httpSearch Form.first
  simp only [hq, ho, hm, List.head?_cons, Option.getD_some, reduceCtorEq, if_false, atoi_numeral ho', atoi_numeral hm']

/-- **C116** Without a limit in the form, the offset and the limit of the configuration are used, and the offset of the
form is ignored. -/
theorem C116_no_limit (gs : GSort) (conf : Conf) (search : SearchReq F → Option (SearchResp F AttriVal)) (f : Form)
    (query : Str) (more : List Str) (hq : f (str "query") = query :: more)
    (hm : f (str "maxOutputs") = [] ∨ ∃ (s : Str) (more : List Str), f (str "maxOutputs") = s :: more ∧ atoi s = 0) :
    httpSearch gs conf search f = serverSearch gs conf search query conf.outputOffset conf.maxOutputs none {} := by
  have e : (if f (str "maxOutputs") = [] then 0 else atoi (f.first (str "maxOutputs"))) = (0 : Int) := by
    rcases hm with h | ⟨s, more, h, h0⟩
    · rw [if_pos h]
    · simp [Form.first, h, h0]
  unfold httpSearch
  rw [e]
  unfold Form.first serverSearch limits
  simp only [hq, List.head?_cons, Option.getD_some, if_true]
  by_cases hc : conf.maxOutputs = 0 <;> simp [hc]

/-- **C116** Without an offset in the form, the page begins with the best document. -/
theorem C116_no_offset (gs : GSort) (conf : Conf) (search : SearchReq F → Option (SearchResp F AttriVal)) (f : Form)
    (query max : Str) (m : Int) (more more' : List Str) (hq : f (str "query") = query :: more)
    (ho : f (str "outputOffset") = []) (hm : f (str "maxOutputs") = max :: more') (hm' : Numeral max m) :
    httpSearch gs conf search f = serverSearch gs conf search query 0 (nearest64 m) none {} := by
  unfold httpSearch Form.first
  simp only [hq, ho, hm, List.head?_cons, Option.getD_some, reduceCtorEq, if_false, if_true, atoi_numeral hm']

/-- **C116** The distributed search asks every server for the query and the page that it was asked for; without a limit,
for the page of its own configuration (if that has none either, each server uses its own). -/
theorem C116_distributed (gs : GSort) (conf conf' : Conf) (search : SearchReq F → Option (SearchResp F AttriVal)) (q : Form)
    (query off max : Str) (o m : Int) (hq : q (str "query") = [query]) (ho : q (str "outputOffset") = [off])
    (hm : q (str "maxOutputs") = [max]) (ho' : Numeral off o) (hm' : Numeral max m)
    (hc : - 2 ^ 63 ≤ conf.outputOffset ∧ conf.outputOffset < 2 ^ 63)
    (hc' : - 2 ^ 63 ≤ conf.maxOutputs ∧ conf.maxOutputs < 2 ^ 63) :
    httpSearch gs conf' search (distForm conf q) =
      serverSearch gs conf' search query (limits conf (nearest64 o) (nearest64 m)).1
        (limits conf (nearest64 o) (nearest64 m)).2 none {} := by
  have n1 : str "query" ≠ str "userid" := by decide +kernel
  have n2 : str "outputOffset" ≠ str "userid" ∧ str "outputOffset" ≠ str "query" := by decide +kernel
  have n3 : str "maxOutputs" ≠ str "userid" ∧ str "maxOutputs" ≠ str "query" ∧ str "maxOutputs" ≠ str "outputOffset" := by
    decide +kernel
  have e1 : distForm conf q (str "query") = [query] := by
    simp [distForm, n1, Form.first, hq]
  have near (z : Int) (h : - 2 ^ 63 ≤ z ∧ z < 2 ^ 63) : nearest64 z = z := by unfold nearest64; omega
  unfold limits
  by_cases h0 : nearest64 m = 0
  · have e2 : distForm conf q (str "outputOffset") = [itoaInt conf.outputOffset] := by
      simp [distForm, n2, Form.first, hm, atoi_numeral hm', h0]
    have e3 : distForm conf q (str "maxOutputs") = [itoaInt conf.maxOutputs] := by
      simp [distForm, n3, Form.first, hm, atoi_numeral hm', h0]
    rw [if_pos h0, C116_form_is_search gs conf' search _ query _ _ _ _ [] [] [] e1 e2 e3 (numeral_itoaInt _) (numeral_itoaInt _),
      near _ hc, near _ hc']
  · have e2 : distForm conf q (str "outputOffset") = [off] := by
      simp [distForm, n2, Form.first, hm, ho, atoi_numeral hm', h0]
    have e3 : distForm conf q (str "maxOutputs") = [max] := by
      simp [distForm, n3, Form.first, hm, atoi_numeral hm', h0]
    rw [if_neg h0, C116_form_is_search gs conf' search _ query _ _ _ _ [] [] [] e1 e2 e3 ho' hm']

/-! ## Examples for C116 -/

theorem numeral_minus_one : Numeral (str "-1") (-1) := by
  have e : str "-1" = 45 :: [49] := by decide +kernel
  have h : Decimal [49] 1 := Decimal.digit 49 (by decide)
  rw [e]
  exact Numeral.minus h

theorem numeral_seventeen : Numeral (str "17") 17 := by
  have e : str "17" = [49] ++ [55] := by decide +kernel
  have h : Decimal ([49] ++ [55]) 17 := Decimal.more 55 (by decide) (Decimal.digit 49 (by decide))
  rw [e]
  exact Numeral.plain h

/-- A form with a query, an offset and a limit. -/
def demoForm (off max : String) : Form := fun name =>
  if name = str "query" then [str "b"]
  else if name = str "outputOffset" then [str off, str "7"]
  else if name = str "maxOutputs" then [str max]
  else []

/-- The hypotheses of `C116_form_is_search` are met. -/
example : demoForm "17" "-1" (str "query") = str "b" :: [] ∧
    demoForm "17" "-1" (str "outputOffset") = str "17" :: [str "7"] ∧
    demoForm "17" "-1" (str "maxOutputs") = str "-1" :: [] ∧ Numeral (str "17") 17 ∧ Numeral (str "-1") (-1) :=
  ⟨by decide +kernel, by decide +kernel, by decide +kernel, numeral_seventeen, numeral_minus_one⟩

/-- The hypotheses of `C116_no_offset` are met. -/
example : ∃ f : Form, f (str "query") = str "b" :: [] ∧ f (str "outputOffset") = [] ∧ f (str "maxOutputs") = str "17" :: [] ∧
    Numeral (str "17") 17 :=
  ⟨fun name => if name = str "query" then [str "b"] else if name = str "maxOutputs" then [str "17"] else [],
    by decide +kernel, by decide +kernel, by decide +kernel, numeral_seventeen⟩

/-- What is no number is 0, except that a number which is already too large is not read to its end. -/
example : [atoi (str "12"), atoi (str "+12"), atoi (str "-12"), atoi (str "1x"), atoi (str "-"), atoi (str ""),
      atoi (str "99999999999999999999x"), atoi (str "-9223372036854775809")] =
    [12, 12, -12, 0, 0, 0, 2 ^ 63 - 1, - 2 ^ 63] := by decide +kernel

/-! ## C117: which numbers crash a server -/

/-- **C117 is refuted** No engine answers an ordered search with a negative offset or a negative limit: whatever has been
found, and even if nothing has been found, cutting the page panics. -/
theorem C117_refuted_negative {A : Type} (gs : GSort) (e : SearchOpts F) (r : SearchReq F) (tokens : List Str)
    (events : List (Option (Answer F A))) (hc : r.countDocsOnly = false) (hor : r.orderless = false)
    (ho : - 2 ^ 63 ≤ (wantedRank e r).outputOffset ∧ (wantedRank e r).outputOffset < 2 ^ 63)
    (hm : - 2 ^ 63 ≤ (wantedRank e r).maxOutputs ∧ (wantedRank e r).maxOutputs < 2 ^ 63)
    (hneg : (wantedRank e r).outputOffset < 0 ∨ (wantedRank e r).maxOutputs < 0) :
    Engine.respond64 gs e r tokens events = none := by
  have cut {α : Type} (l : List α) : goSub l (maxRankOutput64 (wantedRank e r) l.length).1
      (maxRankOutput64 (wantedRank e r) l.length).2 = none := by
    unfold goSub maxRankOutput64
    rw [if_neg]
    by_cases h0 : (wantedRank e r).maxOutputs = 0
    · rw [if_pos h0]; dsimp only; omega
    · rw [if_neg h0]; dsimp only
      by_cases hn : (wantedRank e r).outputOffset < 0
      · omega
      · rw [int64_id (by omega) (by omega)]; omega
  have fin {α : Type} [HasScores α] (wrap : List α → RankOut F A) (c : Collected α) :
      finishSearch64 gs wrap r (wantedRank e r) tokens c = none := by
    unfold finishSearch64
    simp only [hc, hor, Bool.false_eq_true, if_false, cut, Option.map_none]
  unfold Engine.respond64
  simp only [rankOpts_eq, fin, Option.bind_eq_bind, Option.bind_fun_none, ite_self]

/-- **C117 is refuted** over HTTP: whatever the engine holds and whenever its shards answer, a form with a negative limit,
or with a limit and a negative offset, makes the request panic. -/
theorem C117_refuted_form (gs : GSort) (conf : Conf) (e : SearchOpts F)
    (search : SearchReq F → Option (SearchResp F AttriVal))
    (hs : ∀ r : SearchReq F, search r = none ∨ ∃ (tokens : List Str) (events : List (Option (Answer F AttriVal))),
      search r = Engine.respond64 gs e r tokens events)
    (f : Form) (query off max : Str) (o m : Int) (more more' more'' : List Str)
    (hq : f (str "query") = query :: more) (ho : f (str "outputOffset") = off :: more')
    (hm : f (str "maxOutputs") = max :: more'') (ho' : Numeral off o) (hm' : Numeral max m)
    (hneg : m < 0 ∨ (m ≠ 0 ∧ o < 0)) :
    httpSearch gs conf search f = none := by
  rw [C116_form_is_search gs conf search f query off max o m more more' more'' hq ho hm ho' hm']
  have hm0 : nearest64 m ≠ 0 := by unfold nearest64; omega
  have ro : - 2 ^ 63 ≤ nearest64 o ∧ nearest64 o < 2 ^ 63 := by unfold nearest64; omega
  have rm : - 2 ^ 63 ≤ nearest64 m ∧ nearest64 m < 2 ^ 63 := by unfold nearest64; omega
  have hn : nearest64 o < 0 ∨ nearest64 m < 0 := by unfold nearest64; omega
  have none_ : search (comReq query (nearest64 o) (nearest64 m) none {}) = none := by
    rcases hs (comReq query (nearest64 o) (nearest64 m) none {}) with h | ⟨tokens, events, h⟩
    · exact h
    · rw [h, C117_refuted_negative gs e (comReq query (nearest64 o) (nearest64 m) none {}) tokens events rfl rfl ro rm hn]
  unfold serverSearch limits
  rw [if_neg hm0]
  unfold serverAnswer Engine.searchDoc
  simp only [none_, Option.bind_eq_bind, Option.bind_none]

/-- **C117** Worse, exactly when: a shard that finds something for an ordered search panics in its own goroutine, which
ends the process, exactly if a limit is given and the sum of offset and limit, as a 64-bit number, is negative. -/
theorem C117_shard_crash_iff {A : Type} {gs : GSort} (log2 : Rat → Rat) (e : SearchOpts F) (r : SearchReq F)
    (tokens : List Str) (v : ShardView F A) (docs : List IndexedDoc) (off m : Int)
    (hf : v.found log2 tokens r = some docs) (hdocs : docs ≠ [])
    (hc : r.countDocsOnly = false) (hor : r.orderless = false)
    (ho : (wantedRank e r).outputOffset = off) (hm : (wantedRank e r).maxOutputs = m)
    (hoff : - 2 ^ 63 ≤ off ∧ off < 2 ^ 63) (hmax : - 2 ^ 63 ≤ m ∧ m < 2 ^ 63) :
    Engine.shardAnswer64 log2 gs e r tokens v.index (Ranker.run e.idOnly v.history) = none ↔
      m ≠ 0 ∧ ((- 2 ^ 63 ≤ off + m ∧ off + m < 0) ∨ 2 ^ 63 ≤ off + m) := by
  unfold ShardView.found at hf
  obtain ⟨⟨ds, n⟩, hl, hds⟩ := Option.map_eq_some_iff.1 hf
  simp only at hds; subst hds
  have key : Engine.shardAnswer64 log2 gs e r tokens v.index (Ranker.run e.idOnly v.history) =
      Engine.rankerRank64 gs (Ranker.run e.idOnly v.history) ds (wantedRank e r) := by
    unfold Engine.shardAnswer64 Engine.indexerLookup
    have h0 : ds.length ≠ 0 := fun h => hdocs (List.length_eq_zero_iff.1 h)
    simp [hc, hl, hor, hdocs, rankOpts_eq]
  rw [key]
  have cut {α : Type} [HasScores α] (out : List α × Nat) :
      sortAndCut64 gs (shardOpts64 (wantedRank e r)) false out = none ↔
        m ≠ 0 ∧ ((- 2 ^ 63 ≤ off + m ∧ off + m < 0) ∨ 2 ^ 63 ≤ off + m) := by
    unfold sortAndCut64
    simp only [Bool.false_eq_true, if_false, Option.map_eq_none_iff]
    unfold maxOutput64 shardOpts64 goSub
    dsimp only
    rw [ho, hm]
    by_cases h1 : m ≠ 0
    · rw [if_pos h1]
      have hw : - 2 ^ 63 ≤ int64 (m + off) ∧ int64 (m + off) < 2 ^ 63 := by unfold int64; omega
      have hs : int64 (m + off) < 0 ↔ (- 2 ^ 63 ≤ off + m ∧ off + m < 0) ∨ 2 ^ 63 ≤ off + m := by
        unfold int64; omega
      rw [int64_id (x := 0 + int64 (m + off)) (by omega) (by omega)]
      by_cases h2 : int64 (m + off) < 0
      · have h3 : int64 (m + off) ≠ 0 := by omega
        rw [if_pos h3, if_neg (by dsimp only; omega)]
        simp only [true_iff]
        exact ⟨h1, hs.1 h2⟩
      · by_cases h3 : int64 (m + off) = 0
        · rw [if_neg (not_not.2 h3), if_pos (by dsimp only; omega)]
          simp only [reduceCtorEq, false_iff]
          exact fun h => h2 (hs.2 h.2)
        · rw [if_pos h3, if_pos (by dsimp only; omega)]
          simp only [reduceCtorEq, false_iff]
          exact fun h => h2 (hs.2 h.2)
    · rw [if_neg h1, if_neg h1, if_pos (by dsimp only; omega)]
      simp only [reduceCtorEq, false_iff]
      exact fun h => h1 h.1
  unfold Engine.rankerRank64 Ranker.rank64
  split <;> simp only [Option.map_eq_none_iff, cut]

/-- **C117** (partial: a positive limit, an offset that is not negative, together below 2^63; no found document without
`types.Attri`) Such a search over HTTP is answered, in 64-bit arithmetic, with its page. -/
theorem C117_answered_partial {gs : GSort} (hgs : GSortOk gs) (log2 : Rat → Rat) (e : SearchOpts F) (env : TextEnv)
    (conf : Conf) (f : Form) (query offT maxT : Str) (off m : Nat) (more more' more'' : List Str)
    (hq : f (str "query") = query :: more) (ho : f (str "outputOffset") = offT :: more')
    (hm : f (str "maxOutputs") = maxT :: more'') (ho' : Numeral offT off) (hm' : Numeral maxT m)
    (hm1 : 1 ≤ m) (hlim : off + m < 2 ^ 63) (views : List (ShardView F AttriVal))
    (docsOf : ShardView F AttriVal → List IndexedDoc) (hid : e.idOnly = false)
    (hf : ∀ v ∈ views, v.found log2 (Engine.tokens env e (comReq query off m none {}))
      (comReq (F := F) query off m none {}) = some (docsOf v))
    (hnan : ∀ v ∈ views, ∀ d ∈ docsOf v, ∀ f, NoNaN (e.defRankOpts.score d f))
    (hattri : ∀ v ∈ views, ∀ d ∈ v.scored e.defRankOpts.score (docsOf v), ∃ t, Shows d t) :
    ∃ answers, shardAnswers64 log2 gs e (comReq query off m none {})
        (Engine.tokens env e (comReq query off m none {})) views = some answers ∧
      ∀ search : SearchReq F → Option (SearchResp F AttriVal),
        (∃ arrived, arrived.Perm answers ∧ search (comReq query off m none {}) =
          completeSearch64 gs e (comReq query off m none {})
            (Engine.tokens env e (comReq query off m none {})) arrived) →
        ∃ (out : List Text) (R : List (ScoredDoc F AttriVal)) (texts : List Text),
          httpSearch gs conf search f = some out ∧
          R.Perm (views.flatMap (fun v => v.scored e.defRankOpts.score (docsOf v))) ∧
          Ranked false R ∧ List.Forall₂ Shows (page off m R) texts ∧
          out.Perm texts ∧ NewestFirst out ∧ out.length ≤ m := by
  have a : 0 ≤ (wantedRank e (comReq (F := F) query off m none {})).outputOffset := by
    show (0 : Int) ≤ (off : Int); omega
  have b : 0 ≤ (wantedRank e (comReq (F := F) query off m none {})).maxOutputs := by
    show (0 : Int) ≤ (m : Int); omega
  have c : (wantedRank e (comReq (F := F) query off m none {})).outputOffset +
      (wantedRank e (comReq (F := F) query off m none {})).maxOutputs < 2 ^ 63 := by
    show (off : Int) + (m : Int) < 2 ^ 63; omega
  obtain ⟨answers, h1, h2⟩ := C59_server_shows_page hgs log2 e env conf query none {} (off : Int) (m : Int) views docsOf
    off m hm1 (Or.inl ⟨by omega, rfl, rfl⟩) hid hf hnan hattri
  refine ⟨answers, by rw [shardAnswers64_eq log2 gs e _ _ views a b c, h1], ?_⟩
  rintro search ⟨arrived, hp, hs⟩
  obtain ⟨out, R, texts, h3, hrest⟩ := h2 search ⟨arrived, hp, by
    rw [hs]; unfold completeSearch64 completeSearch; rw [respond64_eq gs e _ _ _ a b c]⟩
  refine ⟨out, R, texts, ?_, hrest⟩
  have near (n : Nat) (h : n < 2 ^ 63) : nearest64 (n : Int) = n := by unfold nearest64; omega
  rw [C116_form_is_search gs conf search f query offT maxT off m more more' more'' hq ho hm ho' hm',
    near off (by omega), near m (by omega), h3]

/-- The engine of `netServer` in 64-bit arithmetic. -/
def netEngine64 (views : List (ShardView Nat AttriVal)) (r : SearchReq Nat) : Option (SearchResp Nat AttriVal) :=
  (shardAnswers64 (fun x => x) insGSort netOpts r [str "b"] views).bind
    (completeSearch64 insGSort netOpts r [str "b"])

/-- It is an engine in the sense of `C117_refuted_form`. -/
example (views : List (ShardView Nat AttriVal)) (r : SearchReq Nat) : netEngine64 views r = none ∨
    ∃ (tokens : List Str) (events : List (Option (Answer Nat AttriVal))),
      netEngine64 views r = Engine.respond64 insGSort netOpts r tokens events := by
  unfold netEngine64
  cases shardAnswers64 (fun x => x) insGSort netOpts r [str "b"] views with
  | none => exact Or.inl rfl
  | some as => exact Or.inr ⟨[str "b"], as.map some, rfl⟩

/-- A server with three matching documents: a page of two from the second best on; a negative limit, a negative offset;
a server without documents. -/
example : (httpSearch insGSort {} (netEngine64 [netShard [("1", 5, 70), ("2", 9, 20), ("3", 1, 99)]])
      (demoForm "1" "2")).map (·.map (·.id)) = some [str "3", str "1"] ∧
    httpSearch insGSort {} (netEngine64 [netShard [("1", 5, 70), ("2", 9, 20), ("3", 1, 99)]])
      (demoForm "0" "-1") = none ∧
    httpSearch insGSort {} (netEngine64 [netShard [("1", 5, 70), ("2", 9, 20), ("3", 1, 99)]])
      (demoForm "-1" "2") = none ∧
    httpSearch insGSort {} (netEngine64 [netShard []]) (demoForm "0" "-1") = none := by
  decide +kernel

/-- Limit −1 crashes the shard itself; offset −1 with limit 2 only the request. -/
example :
    (shardAnswers64 (fun x => x) insGSort netOpts (comReq (str "b") 0 (-1) none {}) [str "b"]
      [netShard [("1", 5, 70)]]).isNone ∧
    (shardAnswers64 (fun x => x) insGSort netOpts (comReq (str "b") (-1) 2 none {}) [str "b"]
      [netShard [("1", 5, 70)]]).isSome := by
  decide +kernel

end Riot.Net
