import Verif.Spec.Programs
import Verif.Props.ShardingRun
import Verif.Props.ExamplesDemo

/-!
# C124: two example programs
-/

namespace Riot

variable {F A : Type} {c : PipeCfg Str} {E : EngCfg Str F A} {o : IndexerOpts} {db : Fin c.stores → List (Str × Str)}
  {as : List (EAct c.toPipeSize Str F)} {st : Full c F A} {k : Nat} {r : SearchReq F} {docs : List (Str × Str)}

theorem programKeys (hE : ProgramEngine E) {s : Str} (hs : PlainASCII s) (k : Str) :
    TextHasKey E.text E.opts.toTextOpts (contentOnly s) k ↔ k ∈ keysOfASCII s := by
  have hl := hE.lower s hs.2
  have hsp : splitOf E.text E.opts.toTextOpts s = keysOfASCII s := by
    unfold splitOf keysOfASCII
    rw [hl]
    rcases hE.using_ with h | h <;> simp [h]
  unfold TextHasKey actualKeys contentOnly
  simp only [hE.noGse, hE.noPinYin, hsp]
  have hne := hs.1
  rcases hE.using_ with h | h <;> simp [h, hne]

theorem programTokens (hE : ProgramEngine E) (ht : PlainASCII r.text) (h0 : r.tokens = []) :
    Engine.tokens E.text E.opts r = splitSpace (r.text.map lowerByte) := by
  unfold Engine.tokens
  rw [if_pos ht.1, hE.lower _ ht.2, hE.noGse, h0]
  simp

theorem asked_words (hE : ProgramEngine E) (hd : ∀ y ∈ docs, PlainASCII y.2) (hid : r.docIds = none) (hlab : r.labels = []) :
    askedFor E contentOnly r (docs.filter (fun y => y.1 ≠ str "0")) = askedWords (Engine.tokens E.text E.opts r) r.logic docs := by
  classical
  unfold askedFor askedWords
  rw [List.filter_filter]
  refine List.filter_congr (fun y hy => ?_)
  rw [Bool.eq_iff_iff]
  have hk := programKeys hE (hd y hy)
  simp only [Bool.and_eq_true, decide_eq_true_eq, hid, hlab, List.append_nil, Satisfies, Allowed, hk]
  generalize mustOf (Engine.tokens E.text E.opts r) r.logic = m
  generalize clauseKeys (Engine.tokens E.text E.opts r) r.logic.should r.logic.expr.should = s
  generalize clauseKeys (Engine.tokens E.text E.opts r) r.logic.notIn r.logic.expr.notIn = n
  cases m <;> cases s <;> cases n <;> simp <;> tauto

/-- **C124** A request without a time-out, on an engine of the programs' kind that was given the documents `docs` (ASCII texts, in any order,
from any number of clients) and flushed: under every schedule the response has the ids of exactly the documents that satisfy the request
(each once, in some order), says how many there are, and repeats the words of the query. -/
theorem C124_response (hE : ProgramEngine E) (hs : SearchedCollection c E contentOnly o db as st k r docs)
    (hd : ∀ y ∈ docs, PlainASCII y.2) (ht : PlainASCII r.text) (h0 : r.tokens = []) (hlab : r.labels = []) (hid : r.docIds = none)
    (hc : r.countDocsOnly = false) (hor : r.orderless = false) (hto : r.timeout ≤ 0)
    (hl : r.logic = {} ∨ r.logic.Asks (splitSpace (r.text.map lowerByte)))
    (hr : r.rankOpts = none ∨ ∃ m : Nat, docs.length ≤ m ∧ r.rankOpts = some { outputOffset := 0, maxOutputs := m }) :
    ∃ l : List ScoredID, st.response E k =
        some { tokens := splitSpace (r.text.map lowerByte), docs := some (.ids l), timeout := false, numDocs := l.length } ∧
      (l.map (·.docId)).Perm ((askedWords (splitSpace (r.text.map lowerByte)) r.logic docs).map (·.1)) := by
  have htok := programTokens hE ht h0
  have hne : splitSpace (r.text.map lowerByte) ≠ [] := splitSpace_ne_nil _
  have hask := asked_words (r := r) hE hd hid hlab
  rw [htok] at hask
  obtain ⟨m, ho, hm, hrev, hsc, hlen⟩ : ∃ m : Nat, (wantedRank E.opts r).outputOffset = (0 : Nat) ∧ (wantedRank E.opts r).maxOutputs = m ∧
      (wantedRank E.opts r).reverseOrder = false ∧ (wantedRank E.opts r).score = rankByBM25 ∧ (m = 0 ∨ docs.length ≤ m) := by
    rcases hr with hr | ⟨m, hm, hr⟩
    · exact ⟨0, by simp [wantedRank, hr, hE.rank], by simp [wantedRank, hr, hE.rank], by simp [wantedRank, hr, hE.rank],
        by simp [wantedRank, hr, hE.rank], .inl rfl⟩
    · exact ⟨m, by simp [wantedRank, hr], by simp [wantedRank, hr], by simp [wantedRank, hr], by simp [wantedRank, hr, hE.rank], .inr hm⟩
  have hnan : ∀ d f, NoNaN ((wantedRank E.opts r).score d f) := by
    intro d f; rw [hsc]; simp [NoNaN, rankByBM25]
  -- from the page to the response
  have fin : ∀ (doc : Str × Str → IndexedDoc) (resp : SearchResp F A), (∀ y, (doc y).docId = y.1) → st.response E k = some resp →
      resp.timeout = false →
      IsPageOf E.opts.idOnly (wantedRank E.opts r).reverseOrder (Engine.tokens E.text E.opts r) 0 m
        ((askedFor E contentOnly r (docs.filter (fun y => y.1 ≠ str "0"))).filterMap (fun y => E.resultFor r (doc y) y.2)) resp →
      ∃ l : List ScoredID, st.response E k =
          some { tokens := splitSpace (r.text.map lowerByte), docs := some (.ids l), timeout := false, numDocs := l.length } ∧
        (l.map (·.docId)).Perm ((askedWords (splitSpace (r.text.map lowerByte)) r.logic docs).map (·.1)) := by
    rintro doc ⟨tk, tmo, nd, ds⟩ hdoc e1 e2 ⟨R, p1, _, p3, p4, p5⟩
    rw [hask] at p1 p4
    have hmap : ∀ L : List (Str × Str), L.filterMap (fun y => E.resultFor r (doc y) y.2) = L.map (fun y => entryShown E r (doc y) y) := by
      intro L
      rw [← List.filterMap_eq_map]
      refine List.filterMap_congr (fun y _ => ?_)
      unfold EngCfg.resultFor
      rw [hsc, if_neg (by simp [rankByBM25])]
      unfold entryShown
      rw [hsc]
      rfl
    rw [hmap] at p1 p4
    have hRlen : R.length ≤ docs.length := by
      rw [p1.length_eq, List.length_map]; exact List.length_filter_le _ _
    have hpage : page 0 m R = R := by
      unfold page
      rcases hlen with h | h
      · rw [if_pos h]; rfl
      · split
        · rfl
        · rw [List.drop_zero, List.take_of_length_le (by omega)]
    simp only at e2 p3 p4 p5
    rw [hpage, hE.idOnly] at p3
    subst e2 p5 p3
    refine ⟨R.map (·.scoredID), ?_, ?_⟩
    · rw [e1, htok, p4, ← p1.length_eq, List.length_map]
      simp only [resultDocs, if_true]
    · refine ((p1.map (·.scoredID)).map (·.docId)).trans ?_
      rw [List.map_map, List.map_map]
      refine List.Perm.of_eq (List.map_congr_left (fun y _ => ?_))
      exact hdoc y
  rcases eq_or_ne r.logic {} with h | h
  · obtain ⟨b, f, i, h1, h2, h3, h4, h5, h6, h7⟩ := hs.searched
    obtain ⟨n, avg, df, resp, _, e1, e2, e3⟩ := C105_whole hs.texts hs.sorts hs.gsorts hs.fits hs.runs hs.gentle h1 hs.returned h2 h3 h4 h5 h6
      hc hor hto h (by rw [htok]; simp [hne]) (fun _ => by show Engine.tokens E.text E.opts r ≠ []; rw [htok]; exact hne) h7 ho hm hnan
    exact fin _ resp (fun y => (expectedDoc_docId _ _ _ _ _ _ _).trans (hs.texts y.1 y.2).id) e1 e2 e3
  · obtain ⟨resp, e1, e2, e3⟩ := C105_whole_logic hs hc hor hto h
      (by rw [htok, hlab, List.append_nil]; exact hl.resolve_left h) ho hm hnan
    exact fin (fun y => { docId := y.1 }) resp (fun _ => rfl) e1 e2 e3

/-- **C124** examples/simple finds the document "3", and only this one, under every schedule. -/
theorem C124_simple (hE : ProgramEngine E) (hs : SearchedCollection c E contentOnly o db as st k simpleReq simpleDocs) :
    ∃ x : ScoredID, x.docId = str "3" ∧
      st.response E k = some { tokens := [str "google", str "testing"], docs := some (.ids [x]), timeout := false, numDocs := 1 } := by
  have e0 : splitSpace ((simpleReq (F := F)).text.map lowerByte) = [str "google", str "testing"] := by
    show splitSpace ((str "google testing").map lowerByte) = _; decide +kernel
  obtain ⟨l, h1, h2⟩ := C124_response hE hs (by decide +kernel) (show PlainASCII (str "google testing") by decide +kernel) rfl rfl rfl rfl rfl
    (le_refl (0 : Int)) (.inl rfl) (.inl rfl)
  rw [e0] at h1 h2
  have e1 : (askedWords [str "google", str "testing"] {} simpleDocs).map (·.1) = [str "3"] := by decide +kernel
  have h3 : (l.map (·.docId)).Perm [str "3"] := e1 ▸ h2
  obtain ⟨x, rfl, hx⟩ : ∃ x, l = [x] ∧ x.docId = str "3" := by
    have := List.perm_singleton.1 h3
    cases l with
    | nil => simp at this
    | cons x t => cases t with
      | nil => exact ⟨x, rfl, by simpa using this⟩
      | cons _ _ => simp at this
  exact ⟨x, hx, h1⟩

/-- **C124** examples/logic `logic1` finds the documents "1", "3" and "4", in some order: all but the one with "accidentally". -/
theorem C124_logic (hE : ProgramEngine E) (hs : SearchedCollection c E contentOnly o db as st k logicReq logicDocs) :
    ∃ l : List ScoredID, (l.map (·.docId)).Perm [str "1", str "3", str "4"] ∧
      st.response E k = some { tokens := [str "google", str "testing"], docs := some (.ids l), timeout := false, numDocs := 3 } := by
  have e0 : splitSpace ((logicReq (F := F)).text.map lowerByte) = [str "google", str "testing"] := by
    show splitSpace ((str "google testing").map lowerByte) = _; decide +kernel
  have ha : (logicReq (F := F)).logic.Asks (splitSpace ((logicReq (F := F)).text.map lowerByte)) := by
    refine ⟨⟨fun _ _ => rfl, fun h => absurd h Bool.false_ne_true⟩, .inr ⟨?_, ?_⟩⟩
    · show mustOf _ { should := true, expr := { notIn := [str "accidentally"] } } = none
      unfold mustOf
      rw [if_neg (by decide)]
      rfl
    · intro h
      simp [logicReq, clauseKeys] at h
  obtain ⟨l, h1, h2⟩ := C124_response hE hs (by decide +kernel) (show PlainASCII (str "google testing") by decide +kernel) rfl rfl rfl rfl rfl
    (le_refl (0 : Int)) (.inr ha) (.inr ⟨100, by decide, rfl⟩)
  rw [e0] at h1 h2
  have e1 : (askedWords [str "google", str "testing"] { should := true, expr := { notIn := [str "accidentally"] } } logicDocs).map (·.1) =
      [str "1", str "3", str "4"] := by decide +kernel
  have h3 : (l.map (·.docId)).Perm [str "1", str "3", str "4"] := e1 ▸ h2
  have h4 : l.length = 3 := by simpa using h3.length_eq
  rw [h4] at h1
  exact ⟨l, h3, h1⟩

/-! ## The programs run -/

/-- `strings.ToLower` on ASCII. -/
def programEnv : TextEnv := { demoEnv with lower := fun s => s.map lowerByte }

def programEng (u : Int) : EngCfg Str Nat Nat where
  so := insSort
  gs := insGSort
  log2 := fun x => x
  text := programEnv
  opts := { notUseGse := true, using_ := u, idOnly := true, defRankOpts := { score := rankByBM25 } }
  info := { fields := fun _ => none, content := fun s => s, attri := fun _ => none }
  lookupThreads := 2
  rankThreads := 2

def programPipe (u : Int) : PipeCfg Str :=
  smallEngine (fun id s => docOf programEnv (programEng u).opts.toTextOpts id (contentOnly s)) []

theorem programEng_ok {u : Int} (h : u = 4 ∨ u = 0) : ProgramEngine (programEng u) :=
  ⟨rfl, h, rfl, rfl, rfl, fun _ _ => rfl⟩

/-- The hypotheses of `C124_simple` hold of a run of the program on an engine with two shards. -/
example : ∃ st, ProgramEngine (programEng 4) ∧
    SearchedCollection (programPipe 4) (programEng 4) contentOnly (smallOpts .freqs 10) (fun _ => [])
      (collRun (programPipe 4) (programEng 4) (smallOpts .freqs 10) ⟨0, by decide⟩ simpleDocs simpleReq) st 0 simpleReq simpleDocs ∧
    respIds (st.response (programEng 4) 0) = some ([str "3"], 1) := by
  obtain ⟨st, h1, h2⟩ := coll_searched (c := programPipe 4) (E := programEng 4) (textOf := contentOnly) (o := smallOpts .freqs 10) (i := ⟨0, by decide⟩)
    (docs := simpleDocs) (r := simpleReq) (want := fun r => decide (respIds r = some ([str "3"], 1)))
    (fun id x => docOf_isDocIndexOf _ _ _ _) insSort_ok insGSort_ok (by decide +kernel)
  exact ⟨st, programEng_ok (.inl rfl), h1, of_decide_eq_true h2⟩

/-- The hypotheses of `C124_logic` hold of a run of the program on an engine with two shards. -/
example : ∃ st, ProgramEngine (programEng 0) ∧
    SearchedCollection (programPipe 0) (programEng 0) contentOnly (smallOpts .freqs 10) (fun _ => [])
      (collRun (programPipe 0) (programEng 0) (smallOpts .freqs 10) ⟨0, by decide⟩ logicDocs logicReq) st 0 logicReq logicDocs ∧
    respIds (st.response (programEng 0) 0) = some ([str "4", str "1", str "3"], 3) := by
  obtain ⟨st, h1, h2⟩ := coll_searched (c := programPipe 0) (E := programEng 0) (textOf := contentOnly) (o := smallOpts .freqs 10) (i := ⟨0, by decide⟩)
    (docs := logicDocs) (r := logicReq) (want := fun r => decide (respIds r = some ([str "4", str "1", str "3"], 3)))
    (fun id x => docOf_isDocIndexOf _ _ _ _) insSort_ok insGSort_ok (by decide +kernel)
  exact ⟨st, programEng_ok (.inr rfl), h1, of_decide_eq_true h2⟩

end Riot
