import Verif.Props.Json
import Verif.Props.Criteria
import Verif.Props.ShardingRun

/-!
# From the documents indexed to the client of the HTTP server: C119
-/

namespace Riot.Json

open Riot Riot.Net

variable {D F : Type} {c : PipeCfg D}

/-- All that JSON carries of the documents of a collection can be carried: ids, contents and attributes in UTF-8, an
attribute of the type `types.Attri`, a 64-bit time stamp. -/
def CanShow (E : EngCfg D F JAttri) (docs : List (Str × D)) : Prop :=
  ∀ y ∈ docs, Utf8 y.1 ∧ Utf8 (E.info.content y.2) ∧ ∃ (title author time : Str) (ts : Int),
    E.info.attri y.2 = some (.attri title author time ts) ∧ Utf8 title ∧ Utf8 author ∧ Utf8 time ∧ Int64Range ts

/-- The number in a field of the form; a missing field counts as 0. -/
def FormNumber (f : Form) (name : Str) (z : Int) : Prop :=
  (f name = [] ∧ z = 0) ∨ ∃ (text : Str) (more : List Str), f name = text :: more ∧ Numeral text z

/-- The form asks for the page `off`, `m` of the query. -/
def FormAsks (conf : Conf) (f : Form) (query : Str) (off m : Nat) : Prop :=
  ∃ (o l : Int) (more : List Str), f (str "query") = query :: more ∧ FormNumber f (str "outputOffset") o ∧
    FormNumber f (str "maxOutputs") l ∧ Asks conf (nearest64 o) (nearest64 l) off m

theorem formNumber_read {f : Form} {name : Str} {z : Int} (h : FormNumber f name z) :
    (if f name = [] then 0 else Net.atoi (f.first name)) = nearest64 z := by
  rcases h with ⟨h, rfl⟩ | ⟨text, more, h, hn⟩
  · rw [if_pos h]; decide
  · unfold Form.first
    simp only [h, reduceCtorEq, if_false, List.head?_cons, Option.getD_some, atoi_numeral hn]

theorem page_sub {α : Type} (off m : Nat) (l : List α) : (page off m l).Sublist l := by
  unfold page
  split_ifs
  · exact List.drop_sublist _ _
  · exact (List.take_sublist _ _).trans (List.drop_sublist _ _)

theorem forall2_left {α β : Type} {R : α → β → Prop} {l : List α} {r : List β} (h : List.Forall₂ R l r) {b : β}
    (hb : b ∈ r) : ∃ a ∈ l, R a b := by
  induction h with
  | nil => cases hb
  | cons h1 _ ih =>
    rcases List.mem_cons.1 hb with rfl | hb
    · exact ⟨_, by simp, h1⟩
    · obtain ⟨a, ha, hr⟩ := ih hb
      exact ⟨a, by simp [ha], hr⟩

/-- **C119** A collection was indexed and flushed on a running engine (any shards, workers, schedule). A form is posted to
its HTTP server; then the body of the answer, decoded as JSON, gives the client the requested page of the ranking of exactly
the documents whose texts satisfy the query — ids, contents, attributes and scores — newest first, with their number. -/
theorem C119_http_client {E : EngCfg D F JAttri} {textOf : D → DocText} {o : IndexerOpts} {db : Fin c.stores → List (Str × D)}
    {as : List (EAct c.toPipeSize D F)} {st : Full c F JAttri} {k : Nat} {docs : List (Str × D)}
    {conf : Conf} {f : Form} {query : Str} {off m : Nat} {fl : FloatFmt F32} {gs : GSort} {now : Int} (zero : F32)
    (hC : SearchedCollection c E textOf o db as st k (comReq query off m none {}) docs)
    (hform : FormAsks conf f query off m) (hm : 1 ≤ m) (hm' : m < 2 ^ 63) (hid : E.opts.idOnly = false)
    (hkw : Engine.tokens E.text E.opts (comReq query off m none {}) ≠ [])
    (htok : o.indexType = .locs → E.tokens (comReq query off m none {}) ≠ [])
    (hshow : CanShow E docs) (hgs : GSortOk gs) (hfl : FloatOk fl) (hnow : Int64Range now)
    (hfin : ∀ y ∈ docs, ∀ d, ∀ x ∈ E.opts.defRankOpts.score d (E.info.fields y.2), fl.fmt x ≠ none)
    (hnan : ∀ d x, NoNaN (E.opts.defRankOpts.score d x)) :
    ∃ (n avg : Fin c.shards → Rat) (df : Fin c.shards → Str → Nat) (resp : SearchResp F JAttri)
      (R : List (ScoredDoc F JAttri)) (texts out : List (JText F32)) (b : Str),
      (∀ s, TextStats E.text E.opts.toTextOpts textOf (onShard c s docs) (n s) (avg s) (df s)) ∧
      R.Perm ((askedFor E textOf (comReq query off m none {}) (docs.filter (fun y => y.1 ≠ str "0"))).filterMap (fun y =>
        E.resultFor (comReq query off m none {}) (expectedDoc E.log2 o.init (n (c.route y.1 y.2)) (avg (c.route y.1 y.2))
          (df (c.route y.1 y.2)) (Engine.tokens E.text E.opts (comReq query off m none {})) (c.docOf y.1 y.2)) y.2)) ∧
      Ranked false R ∧ List.Forall₂ ShowsDoc (page off m R) texts ∧ out.Perm texts ∧ NewestFirst (out.map JText.asText) ∧
      st.response E k = some resp ∧
      (∀ search : SearchReq F → Option (SearchResp F JAttri), search (comReq query off m none {}) = some resp →
        httpBody fl gs conf search now f = some b) ∧
      ((unmarshal fl zero b).docs).getD [] = out ∧ (unmarshal fl zero b).len = out.length ∧
      (unmarshal fl zero b).timestamp = now := by
  obtain ⟨bb, ff, i, s1, s2, s3, s4, s5, s6, s7⟩ := hC.searched
  obtain ⟨n, avg, df, resp, g1, g2, -, R, h1, h2, h3, -, -⟩ := C105_whole hC.texts hC.sorts hC.gsorts hC.fits hC.runs hC.gentle
    s1 hC.returned s2 s3 s4 s5 s6 rfl rfl (le_refl _) rfl (by simpa [comReq] using hkw) htok s7 (off := off) (m := m) rfl rfl hnan
  have hrev : (wantedRank E.opts (comReq (F := F) query off m none {})).reverseOrder = false := rfl
  rw [hrev] at h2
  have hres : ∀ d ∈ R, ∃ t : JText F32, ShowsDoc d t ∧ t.Plain ∧ Int64Range t.ts ∧ ∀ x ∈ t.score.getD [], fl.fmt x ≠ none := by
    intro d hd
    obtain ⟨y, hy, hdy⟩ := List.mem_filterMap.1 (h1.mem_iff.1 hd)
    have hyd : y ∈ docs := List.mem_of_mem_filter (List.mem_of_mem_filter hy)
    obtain ⟨u1, u2, title, author, time, ts, u3, u4, u5, u6, u7⟩ := hshow y hyd
    unfold EngCfg.resultFor at hdy
    split_ifs at hdy with hsc
    cases hdy
    have hidd : (expectedDoc E.log2 o.init (n (c.route y.1 y.2)) (avg (c.route y.1 y.2)) (df (c.route y.1 y.2))
        (Engine.tokens E.text E.opts (comReq (F := F) query off m none {})) (c.docOf y.1 y.2)).docId = y.1 := by
      rw [expectedDoc_docId]; exact hC.texts.docOk y.1 y.2
    refine ⟨{ id := y.1, content := E.info.content y.2, score := some _, title := title, author := author, time := time, ts := ts },
      ⟨hidd.symm, ?_, rfl, ?_⟩, ⟨u1, u2, u4, u5, u6⟩, u7, ?_⟩
    · simp [EngCfg.knows, hid]
    · simp [EngCfg.knows, hid, u3]
    · intro x hx
      exact hfin y hyd _ x hx
  have : Inhabited (JText F32) := ⟨{}⟩
  choose! g hg using hres
  have hF : List.Forall₂ ShowsDoc (page off m R) ((page off m R).map g) := by
    rw [List.forall₂_map_right_iff, List.forall₂_same]
    exact fun d hd => (hg d ((page_sub off m R).subset hd)).1
  have hlen : (page off m R).length ≤ m := by
    unfold page
    rw [if_neg (by omega)]
    simp
  have hS : Sound fl ((page off m R).map g) := by
    have hmem : ∀ t ∈ (page off m R).map g, ∃ d ∈ R, g d = t := fun t ht => by
      obtain ⟨d, hd, e⟩ := List.mem_map.1 ht
      exact ⟨d, (page_sub off m R).subset hd, e⟩
    refine ⟨?_, ?_, ?_, ?_⟩
    · intro t ht
      obtain ⟨d, hd, rfl⟩ := hmem t ht
      exact (hg d hd).2.2.2
    · intro t ht
      obtain ⟨d, hd, rfl⟩ := hmem t ht
      exact (hg d hd).2.1
    · intro t ht
      obtain ⟨d, hd, rfl⟩ := hmem t ht
      exact (hg d hd).2.2.1
    · rw [List.length_map]; unfold Int64Range; omega
  obtain ⟨b, out, q1, q2, q3, q4, q5, q6⟩ := C118_search_body hgs hfl zero now hnow m (page off m R) _ hF hS
  have hol : out.length ≤ m := by rw [q2.length_eq, List.length_map]; exact hlen
  rw [List.take_of_length_le hol] at q4
  refine ⟨n, avg, df, resp, R, _, out, b, g1, h1, h2, hF, q2, q3, g2, ?_, q4, by rw [q5, q4], q6⟩
  intro search hs
  obtain ⟨oz, lz, more, f1, f2, f3, f6⟩ := hform
  have hlim : limits conf (nearest64 oz) (nearest64 lz) = ((off : Int), (m : Int)) := by
    unfold limits
    rcases f6 with ⟨h1, h2, h3⟩ | ⟨h1, h2, h3⟩
    · rw [if_neg h1, h2, h3]
    · rw [if_pos h1, h2, h3]
  have hq : f.first (str "query") = query := by simp [Form.first, f1]
  unfold httpBody
  simp only [formNumber_read f2, formNumber_read f3, hq, hlim]
  rw [hs]
  unfold Engine.searchDoc
  simp only [h3, resultDocs, hid, Bool.false_eq_true, if_false, asDocs, Option.bind_eq_bind, Option.bind_some, Option.pure_def]
  exact q1

/-! ## Example -/

/-- An engine whose documents carry attributes: two shards, scored by their number. -/
def httpEng : EngCfg Nat Nat JAttri where
  so := insSort
  gs := insGSort
  log2 := fun x => x
  text := demoEnv
  opts := { notUseGse := true, defRankOpts := { score := fun _ f => [.fin (f.getD 0)] } }
  info := { fields := fun d => some d, content := fun n => (demoTexts n).content,
            attri := fun n => some (.attri (str "t") (str "a") (str "now") (100 - n)) }
  lookupThreads := 2
  rankThreads := 2

/-- `query=red&outputOffset=0&maxOutputs=2` -/
def redForm : Form := fun name =>
  if name = str "query" then [str "red"] else if name = str "outputOffset" then [str "0"]
  else if name = str "maxOutputs" then [str "2"] else []

theorem redForm_asks : FormAsks {} redForm (str "red") 0 2 := by
  have e1 : str "0" = itoaInt 0 := by decide +kernel
  have e2 : str "2" = itoaInt 2 := by decide +kernel
  refine ⟨0, 2, [], by decide +kernel, Or.inr ⟨str "0", [], by decide +kernel, ?_⟩,
    Or.inr ⟨str "2", [], by decide +kernel, ?_⟩, ?_⟩
  · rw [e1]; exact numeral_itoaInt 0
  · rw [e2]; exact numeral_itoaInt 2
  · left; decide +kernel

/-- The same without an offset. -/
example : FormAsks {} (fun name => if name = str "query" then [str "red"] else if name = str "maxOutputs" then [str "2"]
    else []) (str "red") 0 2 := by
  have e2 : str "2" = itoaInt 2 := by decide +kernel
  refine ⟨0, 2, [], by decide +kernel, Or.inl ⟨by decide +kernel, rfl⟩, Or.inr ⟨str "2", [], by decide +kernel, ?_⟩, ?_⟩
  · rw [e2]; exact numeral_itoaInt 2
  · left; decide +kernel

/-- The documents of the page of a response. -/
def pageIds (r : Option (SearchResp Nat JAttri)) : Option (List Str) :=
  (Engine.searchDoc r).map fun x => x.2.map (·.scoredID.docId)

/-- The hypotheses of `C119_http_client` hold: three documents on two shards; the page of the two best documents is shown,
"Z" (time stamp 97) before "X" (96). -/
example : ∃ st, SearchedCollection textEngine httpEng demoTexts (smallOpts .docIds 10) (fun _ => [])
      (collRun textEngine httpEng (smallOpts .docIds 10) textUser [(str "X", 4), (str "Y", 2), (str "Z", 3)]
        (comReq (str "red") (0 : Nat) (2 : Nat) none {}))
      st 0 (comReq (str "red") (0 : Nat) (2 : Nat) none {}) [(str "X", 4), (str "Y", 2), (str "Z", 3)] ∧
    CanShow httpEng [(str "X", 4), (str "Y", 2), (str "Z", 3)] ∧
    (∀ y ∈ [(str "X", 4), (str "Y", 2), (str "Z", 3)], ∀ d,
      ∀ x ∈ httpEng.opts.defRankOpts.score d (httpEng.info.fields y.2), demoFl.fmt x ≠ none) ∧
    (∀ d x, NoNaN (httpEng.opts.defRankOpts.score d x)) ∧
    pageIds (st.response httpEng 0) = some [str "X", str "Z"] ∧
    (httpBody demoFl insGSort {} (fun _ => st.response httpEng 0) 5 redForm).map (fun b =>
      ((unmarshal demoFl .nan b).docs.getD []).map (fun t => (t.id, t.content, t.ts))) =
        some [(str "Z", str "house of red", 97), (str "X", str "red house", 96)] := by
  obtain ⟨st, h1, h2⟩ := coll_searched (c := textEngine) (E := httpEng) (textOf := demoTexts) (o := smallOpts .docIds 10)
    (i := textUser) (docs := [(str "X", 4), (str "Y", 2), (str "Z", 3)]) (r := comReq (str "red") (0 : Nat) (2 : Nat) none {})
    (want := fun r => decide (pageIds r = some [str "X", str "Z"]) &&
      decide ((httpBody demoFl insGSort {} (fun _ => r) 5 redForm).map (fun b =>
        ((unmarshal demoFl .nan b).docs.getD []).map (fun t => (t.id, t.content, t.ts))) =
          some [(str "Z", str "house of red", 97), (str "X", str "red house", 96)]))
    (fun id x => docOf_isDocIndexOf _ _ _ _) insSort_ok insGSort_ok (by decide +kernel)
  rw [Bool.and_eq_true] at h2
  refine ⟨st, h1, ?_, ?_, ?_, of_decide_eq_true h2.1, of_decide_eq_true h2.2⟩
  · intro y hy
    simp only [List.mem_cons, List.not_mem_nil, or_false] at hy
    rcases hy with rfl | rfl | rfl
    · exact ⟨small_utf8 (by decide +kernel), small_utf8 (by decide +kernel), str "t", str "a", str "now", 96, by decide +kernel,
        small_utf8 (by decide +kernel), small_utf8 (by decide +kernel), small_utf8 (by decide +kernel), by unfold Int64Range; decide⟩
    · exact ⟨small_utf8 (by decide +kernel), small_utf8 (by decide +kernel), str "t", str "a", str "now", 98, by decide +kernel,
        small_utf8 (by decide +kernel), small_utf8 (by decide +kernel), small_utf8 (by decide +kernel), by unfold Int64Range; decide⟩
    · exact ⟨small_utf8 (by decide +kernel), small_utf8 (by decide +kernel), str "t", str "a", str "now", 97, by decide +kernel,
        small_utf8 (by decide +kernel), small_utf8 (by decide +kernel), small_utf8 (by decide +kernel), by unfold Int64Range; decide⟩
  · intro y hy d x hx
    have hx' : x = .fin ((y.2 : Nat) : Rat) := by simpa [httpEng] using hx
    subst hx'
    simp only [List.mem_cons, List.not_mem_nil, or_false] at hy
    rcases hy with rfl | rfl | rfl <;> decide +kernel
  · intro d x
    simp [NoNaN, httpEng]

end Riot.Json
