import Verif.Props.Collection
import Verif.Props.Examples

/-!
# C105-C108: concrete collections

Small engines with two shards, on which the hypotheses of the theorems of Props/Criteria and Props/Examples hold.
-/

namespace Riot

/-- An engine with two shards; the shard of a document depends on the last byte of its id. -/
def smallEngine {D : Type} (doc : Str → D → DocIndex) (empty : D) : PipeCfg D where
  clients := 1
  gse := 1
  shards := 2
  stores := 1
  segCap := 2
  idxCap := 2
  rankCap := 2
  useStore := false
  docOf := doc
  route id _ := ⟨(id.getLast?.getD 0).val % 2, Nat.mod_lt _ (by decide)⟩
  storeRoute _ := ⟨0, by decide⟩
  encodes _ := true
  emptyData := empty

theorem small_docOk {D : Type} (env : TextEnv) (e : TextOpts) (textOf : D → DocText) (empty : D) :
    (smallEngine (fun id x => docOf env e id (textOf x)) empty).DocOk := fun _ _ => rfl

/-! ## C105 -/

/-- Only documents whose number is at least 3. -/
def largeOnly : SearchReq Nat :=
  { text := str "red", rankOpts := some { score := some (fun _ f => if 3 ≤ f.getD 0 then [.fin (f.getD 0)] else []), outputOffset := 0, maxOutputs := 10 } }

/-- Three documents have the word; the criteria drop one, and the response has and counts the other two. The hypotheses of the C105 theorems
hold of this schedule. -/
example : ∃ st b f, (Full.start textEngine (smallOpts .docIds 10) (fun _ => [])).run (demoEng true)
      (collRun textEngine (demoEng true) (smallOpts .docIds 10) textUser [(str "X", 4), (str "Y", 2), (str "Z", 3)] largeOnly) = some st ∧
    FromTexts textEngine (demoEng true) demoTexts ∧
    Began (collRun textEngine (demoEng true) (smallOpts .docIds 10) textUser [(str "X", 4), (str "Y", 2), (str "Z", 3)] largeOnly) 0 b largeOnly ∧
    st.Returned 0 ∧ f < b ∧
    GivenOnce ((Full.after (demoEng true) (Full.start textEngine (smallOpts .docIds 10) (fun _ => []))
      (collRun textEngine (demoEng true) (smallOpts .docIds 10) textUser [(str "X", 4), (str "Y", 2), (str "Z", 3)] largeOnly) b).fine.pipe.given
      (fun _ => [])) [(str "X", 4), (str "Y", 2), (str "Z", 3)] ∧
    respIds (st.response (demoEng true) 0) = some ([str "X", str "Z"], 2) := by
  have hc : collCheck textEngine (demoEng true) (smallOpts .docIds 10) textUser [(str "X", 4), (str "Y", 2), (str "Z", 3)] largeOnly
      (fun r => decide (respIds r = some ([str "X", str "Z"], 2))) = true := by decide +kernel
  obtain ⟨st, b, f, h1, h2, h3, h4, h5, h6, h7, h8, h9, h10, h11, h12⟩ := coll_hyps (fun _ _ => rfl) hc
  exact ⟨st, b, f, h1, fun id x => docOf_isDocIndexOf _ _ _ _, h4, h5, h9, h11, of_decide_eq_true h12⟩

/-! ## C106 -/

/-- Two posts with "red", one without, and a line that is not a post. -/
def postLines : List Str :=
  [str "7||||1000000||||u||||ann||||5||||||||||||||||||||red car", str "9||||1000000||||u||||bob||||90||||||||||||||||||||red house",
   str "8||||1000000||||u||||bob||||90||||||||||||||||||||big house", str "no post"]

def codelabEng : EngCfg Weibo CodelabFields Nat where
  so := insSort
  gs := insGSort
  log2 := fun x => x
  text := demoEnv
  opts := { notUseGse := true, defRankOpts := { score := rankByBM25 } }
  info := { fields := fun w => some w.fields, content := fun w => w.text, attri := fun _ => none }
  lookupThreads := 2
  rankThreads := 2

def codelabPipe : PipeCfg Weibo :=
  smallEngine (fun id w => docOf demoEnv codelabEng.opts.toTextOpts id { content := w.text }) {}

def codelabRun : List (EAct codelabPipe.toPipeSize Weibo CodelabFields) :=
  collRun codelabPipe codelabEng (smallOpts .locs 10) ⟨0, by decide⟩ (codelabLoad postLines).entries (codelabReq (str "red"))

/-- The hypotheses of `C106_page` hold; the query "red" shows the two posts, the one with more reposts first. -/
example : CodelabEngine codelabEng ∧ FromTexts codelabPipe codelabEng (fun w => { content := w.text }) ∧
    Engine.tokens codelabEng.text codelabEng.opts (codelabReq (str "red")) ≠ [] ∧
    ∃ st b f, (Full.start codelabPipe (smallOpts .locs 10) (fun _ => [])).run codelabEng codelabRun = some st ∧
    (Full.start codelabPipe (smallOpts .locs 10) (fun _ => [])).Gentle codelabEng (smallOpts .locs 10) (fun _ => []) codelabRun ∧
    GentleStart codelabPipe (smallOpts .locs 10) (fun _ => []) ∧ Began codelabRun 0 b (codelabReq (str "red")) ∧ st.Returned 0 ∧ f < b ∧
    GivenOnce ((Full.after codelabEng (Full.start codelabPipe (smallOpts .locs 10) (fun _ => [])) codelabRun b).fine.pipe.given (fun _ => []))
      (codelabLoad postLines).entries ∧
    codelabPage (codelabLoad postLines) (st.response codelabEng 0) =
      some [⟨str "9", 1000000, str "bob", 90, str "red house"⟩, ⟨str "7", 1000000, str "ann", 5, str "red car"⟩] := by
  have hc : collCheck codelabPipe codelabEng (smallOpts .locs 10) ⟨0, by decide⟩ (codelabLoad postLines).entries (codelabReq (str "red"))
      (fun r => decide (codelabPage (codelabLoad postLines) r =
        some [⟨str "9", 1000000, str "bob", 90, str "red house"⟩, ⟨str "7", 1000000, str "ann", 5, str "red car"⟩])) = true := by
    decide +kernel
  obtain ⟨st, b, f, h1, h2, h3, h4, h5, h6, h7, h8, h9, h10, h11, h12⟩ := coll_hyps (fun _ _ => rfl) hc
  exact ⟨⟨rfl, fun _ => rfl, fun _ => rfl⟩, fun id x => docOf_isDocIndexOf _ _ _ _, by decide +kernel,
    st, b, f, h1, h2, h3, h4, h5, h9, h11, of_decide_eq_true h12⟩

/-! ## C107 -/

def tweetEng : EngCfg Tweet TweetFields Nat where
  so := insSort
  gs := insGSort
  log2 := fun x => x
  text := demoEnv
  opts := { notUseGse := true, defRankOpts := { score := tweetScore, outputOffset := 0, maxOutputs := 100 } }
  info := { fields := fun t => some t.fields, content := fun t => t.text, attri := fun _ => none }
  lookupThreads := 2
  rankThreads := 2

def tweetPipe : PipeCfg Tweet :=
  smallEngine (fun id t => docOf demoEnv tweetEng.opts.toTextOpts id { content := t.text }) ⟨0, 0, []⟩

/-- Three posts with the word "red"; the third is older. -/
def tweetLines : List Str :=
  [str "7||||1000000||||u||||ann||||5||||||||||||||||||||red car", str "9||||100||||u||||bob||||90||||||||||||||||||||red",
   str "8||||1000000||||u||||bob||||90||||||||||||||||||||red house", str "no post"]

def tweetRun : List (EAct tweetPipe.toPipeSize Tweet TweetFields) :=
  collRun tweetPipe tweetEng (smallOpts .locs 10) ⟨0, by decide⟩ (tweetDocs tweetLines) { text := str "red" }

/-- **C107 is false for the first post**: the hypotheses of `C107_page_partial` hold, all three posts of the file have the word "red", but the query
"red" shows the second and the third only. -/
theorem C107_refuted_first : TweetEngine tweetEng ∧ FromTexts tweetPipe tweetEng (fun t => { content := t.text }) ∧
    Engine.tokens tweetEng.text tweetEng.opts { text := str "red" } = [str "red"] ∧
    ((tweetLines.filterMap tweetOf).map (·.text)) = [str "red car", str "red", str "red house"] ∧
    ∃ st b f, (Full.start tweetPipe (smallOpts .locs 10) (fun _ => [])).run tweetEng tweetRun = some st ∧
    (Full.start tweetPipe (smallOpts .locs 10) (fun _ => [])).Gentle tweetEng (smallOpts .locs 10) (fun _ => []) tweetRun ∧
    GentleStart tweetPipe (smallOpts .locs 10) (fun _ => []) ∧ Began tweetRun 0 b { text := str "red" } ∧ st.Returned 0 ∧
    (Full.after tweetEng (Full.start tweetPipe (smallOpts .locs 10) (fun _ => [])) tweetRun b).fine.pipe.Quiet ∧
    (∀ d, d ≠ str "0" → ∃ l, Rounds (fun _ => []) d
      (Full.after tweetEng (Full.start tweetPipe (smallOpts .locs 10) (fun _ => [])) tweetRun b).fine.pipe l) ∧
    tweetRun[f]? = some (.pipe (.call ⟨0, by decide⟩ .flush)) ∧ f < b ∧
    (∀ t j (a : Call Tweet), f < t → tweetRun[t]? ≠ some (.pipe (.call j a))) ∧
    GivenOnce ((Full.after tweetEng (Full.start tweetPipe (smallOpts .locs 10) (fun _ => [])) tweetRun b).fine.pipe.given (fun _ => []))
      (tweetDocs tweetLines) ∧
    tweetPage ((tweetLines.filterMap tweetOf).map (·.text)) (st.response tweetEng 0) = some [str "red house", str "red"] := by
  have hc : collCheck tweetPipe tweetEng (smallOpts .locs 10) ⟨0, by decide⟩ (tweetDocs tweetLines) { text := str "red" }
      (fun r => decide (tweetPage ((tweetLines.filterMap tweetOf).map (·.text)) r = some [str "red house", str "red"])) = true := by
    decide +kernel
  obtain ⟨st, b, f, h1, h2, h3, h4, h5, h6, h7, h8, h9, h10, h11, h12⟩ := coll_hyps (fun _ _ => rfl) hc
  exact ⟨⟨rfl, fun _ => rfl, fun _ => rfl, rfl⟩, fun id x => docOf_isDocIndexOf _ _ _ _, by decide +kernel, by decide +kernel,
    st, b, f, h1, h2, h3, h4, h5, h6, h7, h8, h9, h10, h11, of_decide_eq_true h12⟩

/-! ## C108 -/

def pinyinEng : EngCfg PinyinDoc Nat Nat where
  so := insSort
  gs := insGSort
  log2 := fun x => x
  text := demoEnv
  opts := { using_ := 3, defRankOpts := { score := rankByBM25 } }
  info := { fields := fun _ => none, content := fun d => d.content, attri := fun _ => none }
  lookupThreads := 2
  rankThreads := 2

def pinyinPipe : PipeCfg PinyinDoc :=
  smallEngine (fun id d => docOf demoEnv pinyinEng.opts.toTextOpts id d.text) {}

/-- The pinyin of two characters, which are letters here. -/
def demoPinyin (line : Str) : List Str := if line = str "A" then [str "hong"] else if line = str "B" then [str "lan"] else []

def pinyinRun : List (EAct pinyinPipe.toPipeSize PinyinDoc Nat) :=
  collRun pinyinPipe pinyinEng (smallOpts .docIds 10) ⟨0, by decide⟩ (pinyinDocs demoPinyin [str "A", str "B"]) (pinyinReq (str "hong"))

/-- **C108 is false**: the hypotheses of `C108_page_partial` hold, "hong" is the pinyin of the first of two lines and not of the second, but the query
"hong" shows both lines, and two empty posts. -/
theorem C108_refuted : PinyinEngine pinyinEng ∧ FromTexts pinyinPipe pinyinEng PinyinDoc.text ∧
    Engine.tokens pinyinEng.text pinyinEng.opts (pinyinReq (str "hong") : SearchReq Nat) = [str "hong"] ∧
    str "hong" ∈ demoPinyin (str "A") ∧ str "hong" ∉ demoPinyin (str "B") ∧
    ∃ st b f, (Full.start pinyinPipe (smallOpts .docIds 10) (fun _ => [])).run pinyinEng pinyinRun = some st ∧
    (Full.start pinyinPipe (smallOpts .docIds 10) (fun _ => [])).Gentle pinyinEng (smallOpts .docIds 10) (fun _ => []) pinyinRun ∧
    GentleStart pinyinPipe (smallOpts .docIds 10) (fun _ => []) ∧ Began pinyinRun 0 b (pinyinReq (str "hong")) ∧ st.Returned 0 ∧
    (Full.after pinyinEng (Full.start pinyinPipe (smallOpts .docIds 10) (fun _ => [])) pinyinRun b).fine.pipe.Quiet ∧
    (∀ d, d ≠ str "0" → ∃ l, Rounds (fun _ => []) d
      (Full.after pinyinEng (Full.start pinyinPipe (smallOpts .docIds 10) (fun _ => [])) pinyinRun b).fine.pipe l) ∧
    pinyinRun[f]? = some (.pipe (.call ⟨0, by decide⟩ .flush)) ∧ f < b ∧
    (∀ t j (a : Call PinyinDoc), f < t → pinyinRun[t]? ≠ some (.pipe (.call j a))) ∧
    GivenOnce ((Full.after pinyinEng (Full.start pinyinPipe (smallOpts .docIds 10) (fun _ => [])) pinyinRun b).fine.pipe.given (fun _ => []))
      (pinyinDocs demoPinyin [str "A", str "B"]) ∧
    ∃ page, pinyinPage (st.response pinyinEng 0) = some page ∧ (page.map (·.text)).Perm [str "A", str "B", [], []] := by
  have hc : collCheck pinyinPipe pinyinEng (smallOpts .docIds 10) ⟨0, by decide⟩ (pinyinDocs demoPinyin [str "A", str "B"]) (pinyinReq (str "hong"))
      (fun r => (pinyinPage r).any (fun page => decide ((page.map (·.text)).Perm [str "A", str "B", [], []]))) = true := by
    decide +kernel
  obtain ⟨st, b, f, h1, h2, h3, h4, h5, h6, h7, h8, h9, h10, h11, h12⟩ := coll_hyps (fun _ _ => rfl) hc
  obtain ⟨page, p1, p2⟩ := (Option.any_eq_true _ _).1 h12
  exact ⟨⟨rfl, fun _ => rfl, rfl, rfl⟩, fun id x => docOf_isDocIndexOf _ _ _ _, by decide +kernel, by decide +kernel, by decide +kernel,
    st, b, f, h1, h2, h3, h4, h5, h6, h7, h8, h9, h10, h11, page, p1, of_decide_eq_true p2⟩

end Riot
