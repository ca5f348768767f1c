import Verif.Spec.PinyinProgram
import Verif.Props.Programs
import Verif.Props.Pinyin

/-!
# C128: the whole response of a search by words; examples/pinyin
-/

namespace Riot

variable {D F A : Type}

section
variable {c : PipeCfg D} {E : EngCfg D F A} {textOf : D → DocText} {o : IndexerOpts} {db : Fin c.stores → List (Str × D)}
  {as : List (EAct c.toPipeSize D F)} {st : Full c F A} {k : Nat} {r : SearchReq F} {docs : List (Str × D)}

/-- **C128** A collection was indexed and flushed, and a text was searched without time-out, labels, a restriction, logic or a limit below the
size of the collection, with a scoring that accepts every document: under every schedule the response shows exactly the documents (other
than "0") whose texts have all words of the query as search keys, each once, and NumDocs is their number. -/
theorem C128_whole_response (hs : SearchedCollection c E textOf o db as st k r docs)
    (htok : Engine.tokens E.text E.opts r ≠ []) (hlab : r.labels = []) (hid : r.docIds = none) (hlogic : r.logic = {})
    (hc : r.countDocsOnly = false) (hor : r.orderless = false) (hto : r.timeout ≤ 0)
    (hpage : WholePage r E.opts docs.length)
    (hsc : ∀ d f, (wantedRank E.opts r).score d f ≠ [] ∧ NoNaN ((wantedRank E.opts r).score d f)) :
    ∃ found : List (ScoredDoc F A), st.response E k =
        some { tokens := Engine.tokens E.text E.opts r, docs := some (resultDocs E.opts.idOnly found), timeout := false, numDocs := found.length } ∧
      (found.map (·.scoredID.docId)).Nodup ∧
      ∀ d, d ∈ found.map (·.scoredID.docId) ↔ d ≠ str "0" ∧
        ∃ x, (d, x) ∈ docs ∧ ∀ w ∈ Engine.tokens E.text E.opts r, TextHasKey E.text E.opts.toTextOpts (textOf x) w := by
  classical
  obtain ⟨b, f, i, h1, h2, h3, h4, h5, h6, h7⟩ := hs.searched
  obtain ⟨m, hm⟩ : ∃ m : Nat, (wantedRank E.opts r).maxOutputs = m :=
    ⟨(wantedRank E.opts r).maxOutputs.toNat, by have := hpage.2; omega⟩
  obtain ⟨n, avg, df, ⟨tk, tmo, nd, ds⟩, _, e1, e2, R, p1, _, p3, p4, p5⟩ := C105_whole hs.texts hs.sorts hs.gsorts hs.fits hs.runs hs.gentle h1 hs.returned
    h2 h3 h4 h5 h6 hc hor hto hlogic (by simp [htok]) (fun _ => htok) h7 (off := 0) hpage.1 hm (fun d f => (hsc d f).2)
  simp only at e2 p3 p4 p5
  have hmap : ∀ (L : List (Str × D)) (doc : Str × D → IndexedDoc), L.filterMap (fun y => E.resultFor r (doc y) y.2) = L.map (fun y => entryShown E r (doc y) y) := by
    intro L doc
    rw [← List.filterMap_eq_map]
    refine List.filterMap_congr (fun y _ => ?_)
    unfold EngCfg.resultFor
    rw [if_neg (by have := (hsc (doc y) (E.info.fields y.2)).1; simpa using this)]
    rfl
  rw [hmap] at p1 p4
  have hRlen : R.length ≤ docs.length := by
    rw [p1.length_eq, List.length_map]
    exact (List.length_filter_le _ _).trans (List.length_filter_le _ _)
  have hp : page 0 m R = R := by
    unfold page
    split
    · rfl
    · rename_i h0
      have := hpage.2
      rw [hm] at this
      rw [List.drop_zero, List.take_of_length_le (by omega)]
  rw [hp] at p3
  subst e2 p5 p3
  have hids : (R.map (·.scoredID.docId)).Perm ((askedFor E textOf r (docs.filter (fun y => y.1 ≠ str "0"))).map (·.1)) := by
    refine (p1.map (·.scoredID.docId)).trans ?_
    rw [List.map_map]
    refine List.Perm.of_eq (List.map_congr_left (fun y _ => ?_))
    exact (expectedDoc_docId _ _ _ _ _ _ _).trans (hs.texts y.1 y.2).id
  refine ⟨R, ?_, ?_, ?_⟩
  · rw [e1, p4, ← p1.length_eq]
  · rw [hids.nodup_iff]
    exact (h7.distinct.sublist ((List.filter_sublist.trans List.filter_sublist).map _))
  · intro d
    rw [hids.mem_iff]
    have hmust : mustOf (Engine.tokens E.text E.opts r) {} = some (Engine.tokens E.text E.opts r) := by simp [mustOf]
    have hsat : ∀ y : Str × D, Satisfies (Engine.tokens E.text E.opts r) {} none y.1 (TextHasKey E.text E.opts.toTextOpts (textOf y.2)) ↔
        ∀ w ∈ Engine.tokens E.text E.opts r, TextHasKey E.text E.opts.toTextOpts (textOf y.2) w := by
      intro y
      unfold Satisfies
      rw [hmust]
      simp [Allowed, clauseKeys]
    unfold askedFor
    rw [hid, hlab, hlogic, List.append_nil]
    simp only [List.mem_map, List.mem_filter, decide_eq_true_eq, hsat]
    constructor
    · rintro ⟨y, ⟨⟨g1, g2⟩, g3⟩, rfl⟩
      exact ⟨g2, y.2, g1, g3⟩
    · rintro ⟨g2, x, g1, g3⟩
      exact ⟨(d, x), ⟨⟨g1, g2⟩, g3⟩, rfl⟩
end

/-! ## examples/pinyin -/

section
variable {c : PipeCfg Str} {E : EngCfg Str F A} {o : IndexerOpts} {db : Fin c.stores → List (Str × Str)}
  {as : List (EAct c.toPipeSize Str F)} {st : Full c F A} {k : Nat}

theorem zl_chinese (hE : ZlEngine E) : TextHasKey E.text E.opts.toTextOpts (contentOnly (str "在路上, in the way")) (str "zl") := by
  refine ⟨fun h => hE.noStop h.2, Or.inr (Or.inl ⟨hE.pinYin, ?_⟩)⟩
  unfold pinyinOf
  rw [if_neg (by rw [hE.noPhrase]; simp)]
  refine List.mem_filter.2 ⟨?_, ?_⟩
  · unfold pinyinTokens
    refine List.mem_append_right _ ?_
    rw [show (contentOnly (str "在路上, in the way")).content = str "在路上, in the way" from rfl, hE.chinese]
    decide +kernel
  · have := hE.noStop
    unfold IsStopLine at this
    exact decide_eq_true (Or.inr this)

theorem zl_english (hE : ZlEngine E) : ¬ TextHasKey E.text E.opts.toTextOpts (contentOnly (str "In the way.")) (str "zl") := by
  rintro ⟨_, h | h | h⟩
  · unfold actualKeys contentOnly at h
    simp [hE.using_, hE.gse] at h
    exact hE.noWord h.2
  · have h := h.2
    unfold pinyinOf at h
    rw [if_neg (by rw [hE.noPhrase]; simp)] at h
    have h := (List.mem_filter.1 h).1
    unfold pinyinTokens at h
    rw [show (contentOnly (str "In the way.")).content = str "In the way." from rfl, hE.english, hE.bytes] at h
    simp only [List.mem_append] at h
    rcases h with (h | h) | h
    · revert h; decide +kernel
    · rw [if_neg (by rw [hE.gse]; simp)] at h
      exact hE.noCut h
    · simp at h
  · simp [contentOnly] at h

/-- **C128** examples/pinyin: under every schedule the search for "zl" finds the documents "10" and "11", with the text 在路上, each once,
and not "12". -/
theorem C128_pinyin (hE : ZlEngine E) (hs : SearchedCollection c E contentOnly o db as st k zlReq zlDocs) :
    ∃ found : List (ScoredDoc F A), (found.map (·.scoredID.docId)).Perm [str "10", str "11"] ∧
      st.response E k = some { tokens := [str "zl"], docs := some (resultDocs E.opts.idOnly found), timeout := false, numDocs := 2 } := by
  have hw : (wantedRank E.opts (zlReq (F := F))).score = rankByBM25 := by simp [wantedRank, zlReq, hE.score]
  obtain ⟨found, h1, h2, h3⟩ := C128_whole_response hs (by rw [hE.query]; simp) rfl rfl rfl rfl rfl (le_refl (0 : Int))
    ⟨by simp [wantedRank, zlReq], Or.inr (by simp [wantedRank, zlReq, zlDocs])⟩ (by intro d f; rw [hw]; simp [rankByBM25, NoNaN])
  rw [hE.query] at h1 h3
  have hp : (found.map (·.scoredID.docId)).Perm [str "10", str "11"] := by
    refine (List.perm_ext_iff_of_nodup h2 (by decide +kernel)).2 (fun d => ?_)
    rw [h3]
    constructor
    · rintro ⟨_, x, hm, hall⟩
      simp only [zlDocs, List.mem_cons, List.not_mem_nil, or_false, Prod.mk.injEq] at hm
      rcases hm with ⟨rfl, rfl⟩ | ⟨rfl, rfl⟩ | ⟨rfl, rfl⟩
      · simp
      · simp
      · exact absurd (hall _ (by simp)) (zl_english hE)
    · intro hd
      simp only [List.mem_cons, List.not_mem_nil, or_false] at hd
      rcases hd with rfl | rfl
      · exact ⟨by decide +kernel, str "在路上, in the way", by simp [zlDocs], fun w hw' => by rw [List.mem_singleton.1 hw']; exact zl_chinese hE⟩
      · exact ⟨by decide +kernel, str "在路上, in the way", by simp [zlDocs], fun w hw' => by rw [List.mem_singleton.1 hw']; exact zl_chinese hE⟩
  have hl : found.length = 2 := by simpa using hp.length_eq
  rw [hl] at h1
  exact ⟨found, hp, h1⟩
end

/-! ## The program runs -/

/-- Libraries as the program expects them. -/
def zlEnv : TextEnv :=
  { demoEnv with
    lower := fun s => s.map lowerByte
    lazyConvert := fun s => if s = str "在路上, in the way" then [str "zai", str "lu", str "shang"] else []
    explode := fun s => s.map (fun b => [b]) }

def zlEng : EngCfg Str Nat Nat where
  so := insSort
  gs := insGSort
  log2 := fun x => x
  text := zlEnv
  opts := { pinYin := true, idOnly := true, defRankOpts := { score := rankByBM25 } }
  info := { fields := fun _ => none, content := fun s => s, attri := fun _ => none }
  lookupThreads := 2
  rankThreads := 2

def zlPipe : PipeCfg Str :=
  smallEngine (fun id s => docOf zlEnv zlEng.opts.toTextOpts id (contentOnly s)) []

theorem zlEng_ok : ZlEngine zlEng where
  pinYin := rfl
  noPhrase := rfl
  using_ := rfl
  gse := rfl
  score := rfl
  query := by decide +kernel
  noStop := by unfold IsStopLine; decide +kernel
  chinese := by decide +kernel
  english := by decide +kernel
  bytes := rfl
  noWord := by decide +kernel
  noCut := by decide +kernel

/-- The hypotheses of `C128_pinyin` hold of a run of the program on an engine with two shards. -/
example : ∃ st, ZlEngine zlEng ∧ SearchedCollection zlPipe zlEng contentOnly (smallOpts .docIds 10) (fun _ => [])
      (collRun zlPipe zlEng (smallOpts .docIds 10) ⟨0, by decide⟩ zlDocs zlReq) st 0 zlReq zlDocs ∧
    respIds (st.response zlEng 0) = some ([str "10", str "11"], 2) := by
  obtain ⟨st, h1, h2⟩ := coll_searched (c := zlPipe) (E := zlEng) (textOf := contentOnly) (o := smallOpts .docIds 10) (i := ⟨0, by decide⟩)
    (docs := zlDocs) (r := zlReq) (want := fun r => decide (respIds r = some ([str "10", str "11"], 2)))
    (fun id x => docOf_isDocIndexOf _ _ _ _) insSort_ok insGSort_ok (by decide +kernel)
  exact ⟨st, zlEng_ok, h1, of_decide_eq_true h2⟩

end Riot
