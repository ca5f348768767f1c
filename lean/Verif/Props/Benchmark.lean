import Verif.Spec.Benchmark
import Verif.Props.Programs
import Verif.Props.Gone

/-!
# C126: examples/benchmark
-/

namespace Riot

variable {F A : Type} {c : PipeCfg Str} {E : EngCfg Str F A} {o : IndexerOpts} {db : Fin c.stores → List (Str × Str)}
  {as : List (EAct c.toPipeSize Str F)} {st : Full c F A} {k : Nat} {query : Str}

/-! ## The calls of the program -/

/-- **C126** The calls of the program leave exactly the copies with a number above `deletes`. (`rand.Perm` gives every number below its
argument once.) -/
theorem C126_calls {perm : List Nat} (repeats : Nat) (file : List Str) (deletes : Nat) (hp : perm.Nodup) :
    Remains (benchCalls perm repeats file deletes) (benchKept perm repeats (file.filterMap benchText) deletes) := by
  generalize ht : file.filterMap benchText = texts
  have hcalls : benchCalls perm repeats file deletes = (benchIndexed perm repeats texts).map (fun x => Call.index x.1 x.2 false) ++ [.flush] ++
      (benchRemoved deletes).map (fun id => Call.remove id false) ++ [.flush] := by rw [← ht]; rfl
  rw [hcalls]
  clear hcalls ht
  generalize hz : (List.replicate repeats texts).flatten.zip perm = z
  have hzn : (z.map (·.2)).Nodup := by
    have hs : ∀ (a : List Str) (b : List Nat), ((a.zip b).map (·.2)).Sublist b := by
      intro a
      induction a with
      | nil => intro b; simp
      | cons x a ih => intro b; cases b with
        | nil => simp
        | cons y b => exact (ih b).cons_cons y
    rw [← hz]
    exact hp.sublist (hs _ _)
  have hinj : ∀ {a b : Str × Nat}, a ∈ z → b ∈ z → a.2 = b.2 → a = b := fun ha hb h => List.inj_on_of_nodup_map hzn ha hb h
  have hI : benchIndexed perm repeats texts = z.map (fun x => (itoa (x.2 + 1), x.1)) := by rw [← hz]; rfl
  have hK : benchKept perm repeats texts deletes = (z.filter (fun x => decide (deletes ≤ x.2))).map (fun x => (itoa (x.2 + 1), x.1)) := by
    rw [← hz]; rfl
  rw [hI, hK]
  have hrem : ∀ d f, Call.remove d f ∈ (z.map (fun x => (itoa (x.2 + 1), x.1))).map (fun x : Str × Str => Call.index x.1 x.2 false) ++ [.flush] ++
      (benchRemoved deletes).map (fun id => Call.remove id false) ++ [.flush] ↔ f = false ∧ ∃ i < deletes, d = itoa (i + 1) := by
    intro d f
    simp [benchRemoved]
    constructor
    · rintro ⟨i, h1, h2, h3⟩; exact ⟨h3, i, h1, h2.symm⟩
    · rintro ⟨h3, i, h1, h2⟩; exact ⟨i, h1, h2.symm, h3⟩
  have hidx : ∀ d x g, Call.index d x g ∈ (z.map (fun x => (itoa (x.2 + 1), x.1))).map (fun x : Str × Str => Call.index x.1 x.2 false) ++ [.flush] ++
      (benchRemoved deletes).map (fun id => Call.remove id false) ++ [.flush] ↔ g = false ∧ ∃ n, (x, n) ∈ z ∧ d = itoa (n + 1) := by
    intro d x g
    simp
    constructor
    · rintro ⟨n, h1, h2, h4⟩; exact ⟨h4, n, h1, h2.symm⟩
    · rintro ⟨h4, n, h1, h2⟩; exact ⟨n, h1, h2.symm, h4⟩
  have hmem : ∀ d x, (d, x) ∈ (z.filter (fun x => decide (deletes ≤ x.2))).map (fun x => (itoa (x.2 + 1), x.1)) ↔
      ∃ n, (x, n) ∈ z ∧ deletes ≤ n ∧ d = itoa (n + 1) := by
    intro d x
    simp
    constructor
    · rintro ⟨n, ⟨h1, h2⟩, h3⟩; exact ⟨n, h1, h2, h3.symm⟩
    · rintro ⟨n, h1, h2, h3⟩; exact ⟨n, ⟨h1, h2⟩, h3.symm⟩
  refine ⟨?_, ?_, ?_, ?_⟩
  · rw [List.map_map]
    refine List.Nodup.map_on ?_ ((List.Nodup.of_map _ hzn).filter _)
    intro a ha b hb h
    have := itoa_inj h
    exact hinj (List.mem_of_mem_filter ha) (List.mem_of_mem_filter hb) (by omega)
  · intro d x h
    obtain ⟨n, h1, _, h3⟩ := (hmem d x).1 h
    exact ⟨false, (hidx _ _ _).2 ⟨rfl, n, h1, h3⟩⟩
  · intro d x h
    obtain ⟨n, h1, h2, h3⟩ := (hmem d x).1 h
    refine ⟨fun f hf => ?_, fun y g hy => ?_⟩
    · obtain ⟨_, i, hi, he⟩ := (hrem _ _).1 hf
      have := itoa_inj (h3.symm.trans he)
      omega
    · obtain ⟨_, n', hn', he⟩ := (hidx _ _ _).1 hy
      have := itoa_inj (h3.symm.trans he)
      have e := hinj h1 hn' (by omega)
      exact (Prod.ext_iff.1 e).1.symm
  · intro d x g h
    obtain ⟨_, n, h1, h3⟩ := (hidx _ _ _).1 h
    by_cases hn : deletes ≤ n
    · exact .inl ((hmem _ _).2 ⟨n, h1, hn, h3⟩)
    · right
      obtain ⟨l1, l2, hl⟩ := List.append_of_mem (show d ∈ benchRemoved deletes from
        List.mem_map.2 ⟨n, List.mem_range.2 (by omega), h3.symm⟩)
      refine ⟨(z.map (fun x => (itoa (x.2 + 1), x.1))).map (fun x : Str × Str => Call.index x.1 x.2 false) ++ [.flush] ++
        l1.map (fun id => Call.remove id false), false, l2.map (fun id => Call.remove id false) ++ [.flush], ?_, ?_⟩
      · rw [hl]; simp
      · intro y g hy
        simp at hy

/-- **C126** A line with ten fields is the text in its last field, if there is one; other lines are skipped. -/
theorem C126_file (fields : List Str) (hne : fields ≠ []) (hb : ∀ f ∈ fields, (124 : Fin 256) ∉ f) (text : Str) :
    benchText (joinBars fields) = some text ↔ fields.length = 10 ∧ fields.getLast? = some text ∧ text ≠ [] := by
  unfold benchText
  rw [split_join fields hne hb]
  simp only
  by_cases h : fields.length = 10
  · rw [if_neg (by omega)]
    have e : fields.getLast? = fields[9]? := by rw [List.getLast?_eq_getElem?, h]
    have e2 : fields.getD 9 [] = fields[9]'(by omega) := by simp [List.getD, h]
    rw [e, e2, List.getElem?_eq_getElem (by omega)]
    by_cases h9 : fields[9]'(by omega) = []
    · simp [h9, h]
    · simp [h9, h]
      rintro rfl; exact h9
  · rw [if_pos h]
    simp [h]

/-! ## A search -/

theorem BenchRun.collection {perm : List Nat} {repeats deletes : Nat} {file : List Str} (hp : perm.Nodup)
    (h : BenchRun c E o db as st k query (benchCalls perm repeats file deletes)) :
    SearchedCollection c E contentOnly o db as st k (benchReq query) (benchKept perm repeats (file.filterMap benchText) deletes) := by
  obtain ⟨b, f, i, h1, h2, h3, h4, h5, h6, h7⟩ := h.searched
  exact ⟨h.texts, h.sorts, h.gsorts, h.fits, h.runs, h.gentle, h.returned, b, f, i, h1, h2, h3, h4, h5, h6, h7 ▸ C126_calls repeats file deletes hp⟩

theorem bench_asked {docs : List (Str × Str)} (hd : ∀ y ∈ docs, y.1 ≠ str "0") :
    (askedFor E contentOnly (benchReq query) (docs.filter (fun y => y.1 ≠ str "0"))).length = benchMatches E query docs := by
  classical
  have e : docs.filter (fun y => y.1 ≠ str "0") = docs := List.filter_eq_self.2 (fun y hy => by simp [hd y hy])
  rw [e]
  unfold askedFor benchMatches
  rw [List.countP_eq_length_filter]
  congr 1
  refine List.filter_congr (fun y _ => ?_)
  rw [decide_eq_decide]
  simp [Satisfies, Allowed, benchReq, mustOf, clauseKeys]

theorem kept_ne {perm : List Nat} {repeats deletes : Nat} {texts : List Str} :
    ∀ y ∈ benchKept perm repeats texts deletes, y.1 ≠ str "0" := by
  intro y hy
  obtain ⟨x, _, rfl⟩ := List.mem_map.1 hy
  intro h
  have : itoa (x.2 + 1) = itoa 0 := h.trans (by decide +kernel)
  have := itoa_inj this
  omega

theorem bench_page {docs : List (Str × Str)} (hr : E.opts.defRankOpts = { score := rankByBM25, outputOffset := 0, maxOutputs := 100 })
    (hs : SearchedCollection c E contentOnly o db as st k (benchReq query) docs) (hd : ∀ y ∈ docs, y.1 ≠ str "0")
    (hq : Engine.tokens E.text E.opts (benchReq query) ≠ []) :
    ∃ (R : List (ScoredDoc F A)) (resp : SearchResp F A), st.response E k = some resp ∧ resp.docs = some (resultDocs E.opts.idOnly (page 0 100 R)) ∧
      R.length = benchMatches E query docs ∧ resp.numDocs = R.length := by
  obtain ⟨b, f, i, h1, h2, h3, h4, h5, h6, h7⟩ := hs.searched
  have hw : wantedRank E.opts (benchReq query) = { score := rankByBM25, outputOffset := 0, maxOutputs := 100 } := by
    simp [wantedRank, benchReq, hr]
  obtain ⟨n, avg, df, resp, _, e1, _, R, p1, _, p3, p4, _⟩ := C105_whole hs.texts hs.sorts hs.gsorts hs.fits hs.runs hs.gentle h1 hs.returned h2 h3 h4 h5 h6
    rfl rfl (le_refl (0 : Int)) rfl (by simp [hq]) (fun _ => hq) h7 (off := 0) (m := 100) (by rw [hw]; rfl) (by rw [hw]; rfl)
    (by intro d g; rw [hw]; simp [NoNaN, rankByBM25])
  refine ⟨R, resp, e1, p3, ?_, by rw [p4, p1.length_eq]⟩
  rw [p1.length_eq, ← bench_asked (E := E) (query := query) hd, List.length_filterMap_eq_countP, List.countP_eq_length]
  intro y _
  unfold EngCfg.resultFor
  rw [hw, if_neg (by simp [rankByBM25])]
  rfl

theorem page_length {α : Type} (l : List α) : (page 0 100 l).length = min 100 l.length := by
  simp [page]

/-- **C126** What a search of the program returns (`SearchID`): the first 100 documents that are left and have all words of the query, or all
of them if there are fewer; NumDocs says how many there are. -/
theorem C126_search (hE : BenchEngine E) {perm : List Nat} {repeats deletes : Nat} {file : List Str} (hp : perm.Nodup)
    (h : BenchRun c E o db as st k query (benchCalls perm repeats file deletes))
    (hq : Engine.tokens E.text E.opts (benchReq query) ≠ []) :
    ∃ (x : SearchResp F A) (found : List ScoredID), Engine.searchID (st.response E k) = some (x, found) ∧
      found.length = min 100 (benchMatches E query (benchKept perm repeats (file.filterMap benchText) deletes)) ∧
      x.numDocs = benchMatches E query (benchKept perm repeats (file.filterMap benchText) deletes) := by
  obtain ⟨R, resp, e1, e2, e3, e4⟩ := bench_page hE.rank (h.collection hp) kept_ne hq
  rw [hE.idOnly] at e2
  refine ⟨resp, (page 0 100 R).map (·.scoredID), ?_, ?_, e4.trans e3⟩
  · rw [e1]
    simp [Engine.searchID, e2, resultDocs, asIDs]
  · rw [List.length_map, page_length, e3]

/-- **C126 refuted** With `-idonly=false` the program crashes in its first search: `SearchID` panics (it wants ids, and gets documents). -/
theorem C126_refuted_idonly (hid : E.opts.idOnly = false)
    (hr : E.opts.defRankOpts = { score := rankByBM25, outputOffset := 0, maxOutputs := 100 })
    {perm : List Nat} {repeats deletes : Nat} {file : List Str} (hp : perm.Nodup)
    (h : BenchRun c E o db as st k query (benchCalls perm repeats file deletes))
    (hq : Engine.tokens E.text E.opts (benchReq query) ≠ []) : Engine.searchID (st.response E k) = none := by
  obtain ⟨R, resp, e1, e2, _, _⟩ := bench_page hr (h.collection hp) kept_ne hq
  rw [hid] at e2
  rw [e1]
  simp [Engine.searchID, e2, resultDocs, asIDs]

/-! ## What is printed -/

theorem record_inv (f : Str → Nat) : ∀ (acts : List BenchAct) (s s' : BenchRecord), s.run acts = some s' →
    (∀ q docs, BenchAct.look q docs ∈ acts → docs.length = f q) →
    (∀ q n, s.count.get q = some n → n = f q) → (∀ y ∈ s.pending, y.2 = f y.1) →
    (∀ q n, s'.count.get q = some n → n = f q) ∧
    (∀ q, ((s'.count.get q).isSome = true ∨ q ∈ s'.pending.map (·.1)) ↔
      ((s.count.get q).isSome = true ∨ q ∈ s.pending.map (·.1) ∨ ∃ docs, BenchAct.look q docs ∈ acts)) := by
  intro acts
  induction acts with
  | nil =>
    intro s s' h _ h1 h2
    cases h
    exact ⟨h1, fun q => by simp⟩
  | cons a acts ih =>
    intro s s' h hl h1 h2
    obtain ⟨t, ht, hr⟩ := Option.bind_eq_some_iff.1 h
    have hl' : ∀ q docs, BenchAct.look q docs ∈ acts → docs.length = f q := fun q docs hm => hl q docs (List.mem_cons_of_mem _ hm)
    cases a with
    | look q docs =>
      have hq := hl q docs List.mem_cons_self
      cases hg : s.count.get q with
      | some n =>
        simp only [BenchRecord.step, hg, Option.some.injEq] at ht
        subst ht
        obtain ⟨g1, g2⟩ := ih _ _ hr hl' h1 h2
        refine ⟨g1, fun p => (g2 p).trans ?_⟩
        by_cases hp : p = q
        · subst hp; simp [hg]
        · simp [hp]
      | none =>
        simp only [BenchRecord.step, hg, Option.some.injEq] at ht
        subst ht
        obtain ⟨g1, g2⟩ := ih _ _ hr hl' h1 (by
          intro y hy
          rcases List.mem_append.1 hy with h' | h'
          · exact h2 y h'
          · rw [List.mem_singleton] at h'; subst h'; exact hq)
        refine ⟨g1, fun p => (g2 p).trans ?_⟩
        by_cases hp : p = q
        · subst hp; simp
        · simp [hp]
    | write n =>
      cases hg : s.pending[n]? with
      | none => simp [BenchRecord.step, hg] at ht
      | some y =>
        obtain ⟨q, m⟩ := y
        simp only [BenchRecord.step, hg, Option.some.injEq] at ht
        subst ht
        have hm : (q, m) ∈ s.pending := List.mem_of_getElem? hg
        have hqm : m = f q := h2 _ hm
        obtain ⟨g1, g2⟩ := ih _ _ hr hl' (by
          intro p k hk
          simp only [GoMap.get_set] at hk
          split at hk
          · rename_i e; subst e; cases hk; exact hqm
          · exact h1 p k hk) (fun y hy => h2 y (List.mem_of_mem_eraseIdx hy))
        refine ⟨g1, fun p => (g2 p).trans ?_⟩
        by_cases hp : p = q
        · subst hp
          have : p ∈ s.pending.map (·.1) := List.mem_map.2 ⟨_, hm, rfl⟩
          simp [GoMap.get_set, this]
        · have e : p ∈ (s.pending.eraseIdx n).map (·.1) ↔ p ∈ s.pending.map (·.1) := by
            constructor
            · intro h'
              obtain ⟨y, hy, rfl⟩ := List.mem_map.1 h'
              exact List.mem_map.2 ⟨y, List.mem_of_mem_eraseIdx hy, rfl⟩
            · intro h'
              obtain ⟨y, hy, rfl⟩ := List.mem_map.1 h'
              refine List.mem_map.2 ⟨y, ?_, rfl⟩
              obtain ⟨j, hj⟩ := List.mem_iff_getElem?.1 hy
              refine List.mem_eraseIdx_iff_getElem?.2 ⟨j, ?_, hj⟩
              rintro rfl
              rw [hg] at hj
              cases hj
              exact hp rfl
          simp only [GoMap.get_set, hp, if_false, e, List.mem_cons, reduceCtorEq, false_or]

/-- **C126** Under every interleaving of the searching goroutines: if all searches for a query return equally many documents, this number is printed for
the query in the end; and a number is printed exactly for the queries searched for. -/
theorem C126_record (f : Str → Nat) {acts : List BenchAct} {s : BenchRecord} (h : ({} : BenchRecord).run acts = some s)
    (hf : ∀ q docs, BenchAct.look q docs ∈ acts → docs.length = f q) (hdone : s.pending = []) (q : Str) :
    ((∃ docs, BenchAct.look q docs ∈ acts) → s.count.get q = some (f q)) ∧
    ((∀ docs, BenchAct.look q docs ∉ acts) → s.count.get q = none) := by
  obtain ⟨g1, g2⟩ := record_inv f acts _ _ h hf (by intro q n hn; simp [GoMap.get_empty] at hn) (by intro y hy; cases hy)
  have g := g2 q
  rw [hdone] at g
  simp [GoMap.get_empty] at g
  refine ⟨fun hx => ?_, fun hx => ?_⟩
  · obtain ⟨n, hn⟩ := Option.isSome_iff_exists.1 (g.2 hx)
    rw [hn, g1 q n hn]
  · cases hn : s.count.get q with
    | none => rfl
    | some n =>
      rw [hn] at g
      obtain ⟨docs, hd⟩ := g.1 rfl
      exact absurd hd (hx docs)

/-- **C126** The numbers printed by the program. The searches of its goroutines are searches of runs of the program on an engine of its kind, in
any interleaving: for every query it printed the smaller of 100 and the number of documents left with all words of the query. -/
theorem C126_printed_partial (hE : BenchEngine E) {perm : List Nat} {repeats deletes : Nat} {file : List Str} (hp : perm.Nodup)
    {acts : List BenchAct} {s : BenchRecord} (h : ({} : BenchRecord).run acts = some s) (hdone : s.pending = [])
    (hsearch : ∀ q found, BenchAct.look q found ∈ acts → Engine.tokens E.text E.opts (benchReq q) ≠ [] ∧
      ∃ k x, BenchRun c E o db as st k q (benchCalls perm repeats file deletes) ∧ Engine.searchID (st.response E k) = some (x, found))
    {q : Str} {found : List ScoredID} (hq : BenchAct.look q found ∈ acts) :
    s.count.get q = some (min 100 (benchMatches E q (benchKept perm repeats (file.filterMap benchText) deletes))) := by
  refine (C126_record (fun q => min 100 (benchMatches E q (benchKept perm repeats (file.filterMap benchText) deletes))) h ?_ hdone q).1 ⟨_, hq⟩
  intro q' docs hm
  obtain ⟨h1, k, x, h2, h3⟩ := hsearch q' docs hm
  obtain ⟨x', found', e1, e2, _⟩ := C126_search hE hp h2 h1
  rw [h3] at e1
  cases e1
  exact e2

/-- **C126** So the message "found in all" is right exactly up to 100 documents: beyond, 100 is printed. -/
theorem C126_refuted_beyond_100 (hE : BenchEngine E) {perm : List Nat} {repeats deletes : Nat} {file : List Str} (hp : perm.Nodup)
    (h : BenchRun c E o db as st k query (benchCalls perm repeats file deletes))
    (hq : Engine.tokens E.text E.opts (benchReq query) ≠ [])
    (hmany : 100 < benchMatches E query (benchKept perm repeats (file.filterMap benchText) deletes)) :
    ∃ (x : SearchResp F A) (found : List ScoredID), Engine.searchID (st.response E k) = some (x, found) ∧ found.length = 100 ∧
      found.length < x.numDocs := by
  obtain ⟨x, found, e1, e2, e3⟩ := C126_search hE hp h hq
  have h100 : found.length = 100 := by rw [e2]; omega
  exact ⟨x, found, e1, h100, by omega⟩

/-! ## The program runs -/

def benchEng (idOnly : Bool) : EngCfg Str Nat Nat :=
  { programEng 4 with opts := { notUseGse := true, using_ := 4, idOnly := idOnly, defRankOpts := { score := rankByBM25, outputOffset := 0, maxOutputs := 100 } } }

def benchPipe (idOnly : Bool) : PipeCfg Str :=
  smallEngine (fun id s => docOf programEnv (benchEng idOnly).opts.toTextOpts id (contentOnly s)) []

def benchUser (idOnly : Bool) : Fin (benchPipe idOnly).clients := ⟨0, by cases idOnly <;> decide⟩

/-- A file with three posts, and a line that is none. -/
def benchFile : List Str :=
  [str "1||||2||||3||||4||||5||||6||||7||||8||||9||||red fox", str "no post", str "1||||2||||3||||4||||5||||6||||7||||8||||9||||red hen",
   str "1||||2||||3||||4||||5||||6||||7||||8||||9||||red dog", str "1||||2||||3||||4||||5||||6||||7||||8||||9||||"]

theorem bench_runs (idOnly : Bool) (want : Option (SearchResp Nat Nat) → Bool)
    (hc : goneCheck (benchPipe idOnly) (benchEng idOnly) (smallOpts .docIds 10) (benchUser idOnly) [(str "2", str "red fox"), (str "3", str "red hen")]
      [(str "1", str "red dog")] (benchReq (str "red")) want = true) :
    ∃ as st, BenchRun (benchPipe idOnly) (benchEng idOnly) (smallOpts .docIds 10) (fun _ => []) as st 0 (str "red")
      (benchCalls [1, 2, 0] 1 benchFile 1) ∧ want (st.response (benchEng idOnly) 0) = true := by
  have ht : FromTexts (benchPipe idOnly) (benchEng idOnly) contentOnly := fun id x => docOf_isDocIndexOf _ _ _ _
  obtain ⟨st, ⟨_, h1, h2, h3, h4, h5⟩, hw⟩ := gone_steps (textOf := contentOnly) ht hc
  refine ⟨_, st, ⟨ht, insSort_ok, insGSort_ok, h1, h2, h3, h4, ?_⟩, hw⟩
  have e : goneCalls [(str "2", str "red fox"), (str "3", str "red hen")] [(str "1", str "red dog")] = benchCalls [1, 2, 0] 1 benchFile 1 := by
    have e1 : benchFile.filterMap benchText = [str "red fox", str "red hen", str "red dog"] := by decide +kernel
    have e2 : benchIndexed [1, 2, 0] 1 [str "red fox", str "red hen", str "red dog"] =
      [(str "2", str "red fox"), (str "3", str "red hen"), (str "1", str "red dog")] := by decide +kernel
    have e3 : benchRemoved 1 = [str "1"] := by decide +kernel
    unfold benchCalls
    rw [e1, e2, e3]
    rfl
  rw [← e]
  exact h5

/-- The hypotheses of `C126_search` hold of a run of the program: three posts are indexed as "2", "3" and "1", "1" is removed, and two are found. -/
example : ∃ as st, BenchEngine (benchEng true) ∧ BenchRun (benchPipe true) (benchEng true) (smallOpts .docIds 10) (fun _ => []) as st 0 (str "red")
      (benchCalls [1, 2, 0] 1 benchFile 1) ∧ respIds (st.response (benchEng true) 0) = some ([str "2", str "3"], 2) ∧
    Engine.tokens (benchEng true).text (benchEng true).opts (benchReq (str "red")) ≠ [] := by
  obtain ⟨as, st, h1, h2⟩ := bench_runs true (fun r => decide (respIds r = some ([str "2", str "3"], 2))) (by decide +kernel)
  exact ⟨as, st, ⟨rfl, rfl⟩, h1, of_decide_eq_true h2, by decide +kernel⟩

/-- ... and of `C126_refuted_idonly`, with `-idonly=false`. -/
example : ∃ as st, (benchEng false).opts.idOnly = false ∧ BenchRun (benchPipe false) (benchEng false) (smallOpts .docIds 10) (fun _ => []) as st 0 (str "red")
      (benchCalls [1, 2, 0] 1 benchFile 1) ∧ Engine.searchID (st.response (benchEng false) 0) = none := by
  obtain ⟨as, st, h1, _⟩ := bench_runs false (fun _ => true) (by decide +kernel)
  exact ⟨as, st, rfl, h1, C126_refuted_idonly rfl rfl (by decide) h1 (by decide +kernel)⟩

/-- Two goroutines both see that "red" has no number yet, and both write it. -/
example : (({} : BenchRecord).run [.look (str "red") [{ docId := str "2", scores := [] }], .look (str "red") [{ docId := str "2", scores := [] }], .write 1,
    .look (str "red") [{ docId := str "2", scores := [] }], .write 0]).any (fun s => decide (s.pending = []) && decide (s.count.get (str "red") = some 1)) = true := by
  decide +kernel

end Riot
