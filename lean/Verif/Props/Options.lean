import Verif.Model.Options
import Verif.Spec.EngineSearch
import Verif.Spec.Pipeline
import Verif.Props.Search

/-!
# C65: options of an engine; C66: the default order of results
-/

namespace Riot

variable {F : Type}

/-! ## C65 -/

/-- No count or buffer length is negative. -/
structure EngineOpts.Legal (o : EngineOpts F) : Prop where
  gse : 0 ≤ o.numGseThreads
  shards : 0 ≤ o.numShards
  idxBuf : 0 ≤ o.indexerBufLen
  idx : 0 ≤ o.numIndexerThreads
  rankBuf : 0 ≤ o.rankerBufLen
  rank : 0 ≤ o.numRankerThreads
  stores : 0 ≤ o.storeShards

/-- The user's number, or the default if the user set none. -/
def orDefault (v : Int) (d : Nat) : Nat := if v = 0 then d else v.toNat

theorem orDefault_pos {v : Int} {d : Nat} (hv : 0 ≤ v) (hd : 1 ≤ d) : 1 ≤ orDefault v d := by
  unfold orDefault
  split <;> omega

/-- What `Init` does to each field. -/
theorem init_fields (cpu : Nat) (o : EngineOpts F) :
    (o.init cpu).numGseThreads = (if o.numGseThreads = 0 then (cpu : Int) else o.numGseThreads) ∧
    (o.init cpu).numShards = (if o.numShards = 0 then 8 else o.numShards) ∧
    (o.init cpu).indexerBufLen = (if o.indexerBufLen = 0 then (cpu : Int) else o.indexerBufLen) ∧
    (o.init cpu).numIndexerThreads = (if o.numIndexerThreads = 0 then (cpu : Int) else o.numIndexerThreads) ∧
    (o.init cpu).rankerBufLen = (if o.rankerBufLen = 0 then (cpu : Int) else o.rankerBufLen) ∧
    (o.init cpu).numRankerThreads = (if o.numRankerThreads = 0 then (cpu : Int) else o.numRankerThreads) ∧
    (o.init cpu).storeShards = (if o.storeShards = 0 then 8 else o.storeShards) := by
  exact ⟨rfl, rfl, rfl, rfl, rfl, rfl, rfl⟩

/-- What `Init` does to the rest. -/
theorem init_rest (cpu : Nat) (o : EngineOpts F) :
    (o.init cpu).useStore = o.useStore ∧ (o.init cpu).idOnly = o.idOnly ∧ (o.init cpu).toTextOpts = o.toTextOpts ∧
    (o.init cpu).gseDict = o.gseDict ∧ (o.init cpu).storeFolder = o.storeFolder ∧
    (o.init cpu).indexerOpts = some
      { o.indexerOpts.getD defaultIndexerOpts with
        bm25 := some (((o.indexerOpts.getD defaultIndexerOpts).bm25).getD defaultBM25) } ∧
    (o.init cpu).defRankOpts = some
      { o.defRankOpts.getD defaultRankOpts with
        score := some (((o.defRankOpts.getD defaultRankOpts).score).getD rankByBM25) } := by
  refine ⟨rfl, rfl, rfl, rfl, rfl, ?_, ?_⟩
  · show some (initIndexerOpts o.indexerOpts) = _
    unfold initIndexerOpts
    simp only
    cases (o.indexerOpts.getD defaultIndexerOpts).bm25 <;> rfl
  · show some (initRankOpts o.defRankOpts) = _
    unfold initRankOpts
    simp only
    cases (o.defRankOpts.getD defaultRankOpts).score <;> rfl

theorem initDef_fields (loaded : Bool) (o : EngineOpts F) :
    (o.initDef loaded).numGseThreads = o.numGseThreads ∧ (o.initDef loaded).numShards = o.numShards ∧
    (o.initDef loaded).indexerBufLen = o.indexerBufLen ∧ (o.initDef loaded).numIndexerThreads = o.numIndexerThreads ∧
    (o.initDef loaded).rankerBufLen = o.rankerBufLen ∧ (o.initDef loaded).numRankerThreads = o.numRankerThreads ∧
    (o.initDef loaded).storeShards = o.storeShards ∧ (o.initDef loaded).useStore = o.useStore ∧
    (o.initDef loaded).idOnly = o.idOnly ∧ (o.initDef loaded).toTextOpts = o.toTextOpts ∧
    (o.initDef loaded).indexerOpts = o.indexerOpts ∧ (o.initDef loaded).defRankOpts = o.defRankOpts := by
  unfold EngineOpts.initDef
  refine ⟨?_, ?_, ?_, ?_, ?_, ?_, ?_, ?_, ?_, ?_, ?_, ?_⟩ <;> simp only <;> (repeat' split) <;> rfl

/-- What `CheckMem` leaves. -/
theorem checkMem_fields (m : Str) (o : EngineOpts F) :
    (o.checkMem m).numGseThreads = o.numGseThreads ∧ (o.checkMem m).numShards = o.numShards ∧
    (o.checkMem m).indexerBufLen = o.indexerBufLen ∧ (o.checkMem m).numIndexerThreads = o.numIndexerThreads ∧
    (o.checkMem m).rankerBufLen = o.rankerBufLen ∧ (o.checkMem m).numRankerThreads = o.numRankerThreads ∧
    (o.checkMem m).storeShards = o.storeShards ∧
    (o.checkMem m).idOnly = o.idOnly ∧ (o.checkMem m).toTextOpts = o.toTextOpts ∧
    (o.checkMem m).indexerOpts = o.indexerOpts ∧ (o.checkMem m).defRankOpts = o.defRankOpts ∧
    (o.checkMem m).gseDict = o.gseDict ∧ (o.checkMem m).stopTokenFile = o.stopTokenFile ∧
    (o.checkMem m).storeEngine = o.storeEngine := by
  unfold EngineOpts.checkMem
  refine ⟨?_, ?_, ?_, ?_, ?_, ?_, ?_, ?_, ?_, ?_, ?_, ?_, ?_, ?_⟩ <;> (repeat' split) <;> rfl

/-- **C65** Initialising an engine with options that are not negative does not panic, starts at
least one worker of every kind for every shard, and gives every channel a buffer: every number the
user set is used, every other one has its default (8 shards, 8 databases, one worker and one
buffer place per processor). An index type, BM25 parameters and scoring criteria the user set are
used, otherwise they are the frequency index, (2, 0.75) and BM25; the options for texts are used as set. A
store folder, a dictionary and a stop token file that were set are used, otherwise the folder is "./riot-index" and
the dictionary "zh". -/
theorem C65_options {cpu clients : Nat} (hcpu : 1 ≤ cpu) (loaded : Bool) (usedMem : Str) {o : EngineOpts F} (ho : o.Legal) :
    ∃ res, o.engine cpu clients loaded usedMem = some res ∧
      res.size.Ok ∧ 1 ≤ res.lookups ∧ 1 ≤ res.ranks ∧ (o.useStore = true → 1 ≤ res.size.stores) ∧
      res.size.gse = orDefault o.numGseThreads cpu ∧ res.size.shards = orDefault o.numShards 8 ∧
      res.size.segCap = orDefault o.numGseThreads cpu ∧ res.size.idxCap = orDefault o.indexerBufLen cpu ∧
      res.size.rankCap = orDefault o.rankerBufLen cpu ∧
      (o.useStore = true → res.size.stores = orDefault o.storeShards 8 ∧ res.size.useStore = true ∧
        res.folder = some (if o.storeFolder = [] then str "./riot-index" else o.storeFolder)) ∧
      res.lookups = orDefault o.numIndexerThreads cpu ∧ res.ranks = orDefault o.numRankerThreads cpu ∧
      res.index.indexType = (o.indexerOpts.map (·.indexType)).getD .freqs ∧
      res.index.docCacheSize = (o.indexerOpts.map (·.docCacheSize)).getD 0 ∧
      res.index.bm25 = some ((o.indexerOpts.bind (·.bm25)).getD ⟨2, 3/4⟩) ∧
      res.search.defRankOpts.score = ((o.defRankOpts.bind (·.score)).getD (fun d _ => [.fin d.bm25])) ∧
      res.search.defRankOpts.reverseOrder = (o.defRankOpts.map (·.reverseOrder)).getD false ∧
      res.search.defRankOpts.outputOffset = (o.defRankOpts.map (·.outputOffset)).getD 0 ∧
      res.search.defRankOpts.maxOutputs = (o.defRankOpts.map (·.maxOutputs)).getD 0 ∧
      res.search.idOnly = o.idOnly ∧ res.search.toTextOpts = o.toTextOpts ∧
      (o.notUseGse = false → res.stopFile = some o.stopTokenFile ∧
        (loaded = false → res.dict = some (if o.gseDict = [] then str "zh" else o.gseDict))) := by
  obtain ⟨d1, d2, d3, d4, d5, d6, d7, d8, d9, d10, d11, d12⟩ := initDef_fields loaded o
  obtain ⟨i1, i2, i3, i4, i5, i6, i7⟩ := init_fields cpu (o.initDef loaded)
  obtain ⟨r1, r2, r3, r4, r5, r6, r7⟩ := init_rest cpu (o.initDef loaded)
  obtain ⟨m1, m2, m3, m4, m5, m6, m7, m8, m9, m10, m11, m12, m13, _⟩ :=
    checkMem_fields usedMem ((o.initDef loaded).init cpu)
  have d13 : ((o.initDef loaded).init cpu).stopTokenFile = o.stopTokenFile := by
    show (o.initDef loaded).stopTokenFile = _
    unfold EngineOpts.initDef; simp only; (repeat' split) <;> rfl
  have d14 : (o.initDef loaded).notUseGse = o.notUseGse := congrArg TextOpts.notUseGse d10
  have d15 : o.notUseGse = false → loaded = false →
      (o.initDef loaded).gseDict = if o.gseDict = [] then str "zh" else o.gseDict := by
    intro h1 h2
    unfold EngineOpts.initDef
    by_cases h3 : o.gseDict = []
    · simp only [h1, h2, h3, and_self, if_true]; split <;> rfl
    · simp only [h3, false_and, if_false]; split <;> rfl
  have d16 : o.useStore = true →
      (o.initDef loaded).storeFolder = if o.storeFolder = [] then str "./riot-index" else o.storeFolder := by
    intro h1
    unfold EngineOpts.initDef
    simp only
    split <;> simp only [h1, true_and] <;> split <;> simp_all
  have mk : ∀ {v d : Int} {n : Nat}, 0 ≤ v → d = n → goMake (if v = 0 then d else v) = some (orDefault v n) := by
    intro v d n hv hd
    unfold goMake orDefault
    subst hd
    by_cases h0 : v = 0
    · simp [h0]
    · simp only [h0, if_false]
      rw [if_neg (by omega)]
  have tn : ∀ {v d : Int} {n : Nat}, d = n → (if v = 0 then d else v).toNat = orDefault v n := by
    intro v d n hd
    unfold orDefault
    subst hd
    split <;> simp
  have hpos : (if o.numShards = 0 then 8 else o.numShards) > 0 := by
    have := ho.shards; split <;> omega
  have mkS : goMake (if o.numShards = 0 then 8 else o.numShards) = some (orDefault o.numShards 8) :=
    mk ho.shards rfl
  obtain ⟨us, hus⟩ : ∃ us, us = (((o.initDef loaded).init cpu).checkMem usedMem).useStore := ⟨_, rfl⟩
  obtain ⟨fo, hfo⟩ : ∃ fo, fo = (((o.initDef loaded).init cpu).checkMem usedMem).storeFolder := ⟨_, rfl⟩
  have huse : o.useStore = true → us = true ∧ fo = if o.storeFolder = [] then str "./riot-index" else o.storeFolder := by
    intro h
    have h' : ((o.initDef loaded).init cpu).useStore = true := by rw [r1, d8, h]
    have e : ((o.initDef loaded).init cpu).checkMem usedMem = (o.initDef loaded).init cpu := by
      unfold EngineOpts.checkMem; rw [if_pos h']
    rw [hus, hfo, e, h', r5, d16 h]
    exact ⟨rfl, rfl⟩
  have hst : goMake (if us then (if o.storeShards = 0 then 8 else o.storeShards) else 0) =
      some (if us then orDefault o.storeShards 8 else 0) := by
    split
    · exact mk ho.stores rfl
    · rfl
  have key : o.engine cpu clients loaded usedMem = some
      { size := { clients := clients, gse := orDefault o.numGseThreads cpu, shards := orDefault o.numShards 8,
                  stores := if us then orDefault o.storeShards 8 else 0,
                  segCap := orDefault o.numGseThreads cpu, idxCap := orDefault o.indexerBufLen cpu,
                  rankCap := orDefault o.rankerBufLen cpu, useStore := us },
        lookups := orDefault o.numIndexerThreads cpu, ranks := orDefault o.numRankerThreads cpu,
        dict := if o.notUseGse || loaded then none else some (o.initDef loaded).gseDict,
        stopFile := if o.notUseGse then none else some o.stopTokenFile,
        folder := if us then some fo else none,
        index := { o.indexerOpts.getD defaultIndexerOpts with
          bm25 := some (((o.indexerOpts.getD defaultIndexerOpts).bm25).getD defaultBM25) },
        search := {
          toTextOpts := o.toTextOpts
          idOnly := o.idOnly
          defRankOpts := {
            score := ((o.defRankOpts.getD defaultRankOpts).score).getD rankByBM25
            reverseOrder := (o.defRankOpts.getD defaultRankOpts).reverseOrder
            outputOffset := (o.defRankOpts.getD defaultRankOpts).outputOffset
            maxOutputs := (o.defRankOpts.getD defaultRankOpts).maxOutputs } } } := by
    unfold EngineOpts.engine EngineOpts.resources EngineOpts.searchOpts
    have hno : (((o.initDef loaded).init cpu).checkMem usedMem).notUseGse = o.notUseGse :=
      congrArg TextOpts.notUseGse (m9.trans (r3.trans d10))
    rw [hno, ← hus, ← hfo]
    simp only [m1, m2, m3, m4, m5, m6, m7, m8, m9, m10, m11, m12, m13, d13, r4, r6, r7, r2, r3, i1, i2, i3, i4, i5, i6, i7, d1, d2, d3, d4, d5, d6, d7, d8, d9, d10,
      d11, d12, bind, Option.bind_some, mk ho.gse (n := cpu) rfl, mkS,
      mk ho.idxBuf (n := cpu) rfl, mk ho.rankBuf (n := cpu) rfl, hst, tn (n := cpu) rfl, pure, if_pos hpos]
  refine ⟨_, key, ?_⟩
  · refine ⟨⟨orDefault_pos ho.gse hcpu, orDefault_pos ho.shards (by omega), orDefault_pos ho.gse hcpu,
      orDefault_pos ho.idxBuf hcpu, orDefault_pos ho.rankBuf hcpu⟩, orDefault_pos ho.idx hcpu,
      orDefault_pos ho.rank hcpu, ?_, rfl, rfl, rfl, rfl, rfl, ?_, rfl, rfl, ?_, ?_, ?_, ?_, ?_, ?_, ?_, rfl, rfl, ?_⟩
    · intro h; rw [if_pos (huse h).1]; exact orDefault_pos ho.stores (by omega)
    · intro h
      obtain ⟨h1, h2⟩ := huse h
      rw [if_pos h1, if_pos h1, h2]; exact ⟨rfl, h1, rfl⟩
    · cases o.indexerOpts <;> rfl
    · cases o.indexerOpts <;> rfl
    · cases o.indexerOpts with
      | none => rfl
      | some ix => rfl
    · cases o.defRankOpts with
      | none => rfl
      | some ro => rfl
    · cases o.defRankOpts <;> rfl
    · cases o.defRankOpts <;> rfl
    · cases o.defRankOpts <;> rfl
    · intro h
      refine ⟨?_, fun hl => ?_⟩
      · show (if o.notUseGse = true then none else some o.stopTokenFile) = _
        rw [h]; rfl
      · show (if (o.notUseGse || loaded) = true then none else some (o.initDef loaded).gseDict) = _
        rw [d15 h hl, h, hl]; rfl

/-- **C65** A dictionary is only loaded, and a stop token file only read, by an engine that uses the
segmenter; a segmenter given with `WithGse` keeps its dictionary. -/
theorem C65_no_dictionary (cpu clients : Nat) (loaded : Bool) (usedMem : Str) (o : EngineOpts F)
    (res : EngineRes F) (h : o.engine cpu clients loaded usedMem = some res) :
    (o.notUseGse = true ∨ loaded = true → res.dict = none) ∧ (o.notUseGse = true → res.stopFile = none) := by
  obtain ⟨-, -, -, -, -, -, -, -, -, d10, -, -⟩ := initDef_fields loaded o
  obtain ⟨-, -, r3, -, -, -, -⟩ := init_rest cpu (o.initDef loaded)
  obtain ⟨-, -, -, -, -, -, -, -, m9, -, -, -, -, -⟩ := checkMem_fields usedMem ((o.initDef loaded).init cpu)
  have hno : (((o.initDef loaded).init cpu).checkMem usedMem).notUseGse = o.notUseGse :=
    congrArg TextOpts.notUseGse (m9.trans (r3.trans d10))
  unfold EngineOpts.engine EngineOpts.resources at h
  simp only [bind, Option.bind_eq_some_iff, pure, Option.some.injEq, hno] at h
  obtain ⟨_, -, _, -, _, -, _, -, _, -, _, -, _, -, rfl⟩ := h
  constructor
  · rintro (h | h) <;> simp [h]
  · intro h; simp [h]

/-- **C65** `Init` is idempotent. -/
theorem C65_init_idempotent {cpu : Nat} (hcpu : 1 ≤ cpu) (o : EngineOpts F) :
    (o.init cpu).init cpu = o.init cpu := by
  obtain ⟨i1, i2, i3, i4, i5, i6, i7⟩ := init_fields cpu (o.init cpu)
  obtain ⟨j1, j2, j3, j4, j5, j6, j7⟩ := init_fields cpu o
  obtain ⟨r1, r2, r3, r4, r5, r6, r7⟩ := init_rest cpu (o.init cpu)
  obtain ⟨s1, s2, s3, s4, s5, s6, s7⟩ := init_rest cpu o
  have hne : ∀ {v d : Int}, d ≠ 0 → (if (if v = 0 then d else v) = 0 then d else (if v = 0 then d else v)) =
      if v = 0 then d else v := by
    intro v d hd
    by_cases h0 : v = 0
    · simp [h0]
    · simp [h0]
  have hc : (cpu : Int) ≠ 0 := by omega
  rw [j1, hne hc, ← j1] at i1
  rw [j2, hne (by omega), ← j2] at i2
  rw [j3, hne hc, ← j3] at i3
  rw [j4, hne hc, ← j4] at i4
  rw [j5, hne hc, ← j5] at i5
  rw [j6, hne hc, ← j6] at i6
  rw [j7, hne (by omega), ← j7] at i7
  have r6' : ((o.init cpu).init cpu).indexerOpts = (o.init cpu).indexerOpts := by
    rw [r6, s6]; rfl
  have r7' : ((o.init cpu).init cpu).defRankOpts = (o.init cpu).defRankOpts := by
    rw [r7, s7]; rfl
  have r8' : ((o.init cpu).init cpu).stopTokenFile = (o.init cpu).stopTokenFile := rfl
  have r9' : ((o.init cpu).init cpu).storeEngine = (o.init cpu).storeEngine := rfl
  generalize (o.init cpu).init cpu = a at *
  generalize o.init cpu = b at *
  have r8 : a.stopTokenFile = b.stopTokenFile := r8'
  have r9 : a.storeEngine = b.storeEngine := r9'
  obtain ⟨a1, a2, a3, a4, a5, a6, a7, a8, a9, a10, a11, a12, a13, a14, a15, a16⟩ := a
  obtain ⟨b1, b2, b3, b4, b5, b6, b7, b8, b9, b10, b11, b12, b13, b14, b15, b16⟩ := b
  simp only at i1 i2 i3 i4 i5 i6 i7 r1 r2 r3 r4 r5 r6' r7' r8 r9
  subst i1 i2 i3 i4 i5 i6 i7 r1 r2 r3 r4 r5 r6' r7' r8 r9
  rfl

/-- A user who sets two things. -/
example : EngineOpts.Legal ({ numShards := 3, useStore := true } : EngineOpts Nat) :=
  ⟨by decide, by decide, by decide, by decide, by decide, by decide, by decide⟩

/-- Outside the precondition: a negative number of shards panics, and a negative number of lookup
workers leaves every search request without a worker. -/
theorem C65_negative_options :
    (({ numShards := -1 } : EngineOpts Nat).engine 4 1 false []).isNone ∧
    (({ numIndexerThreads := -1 } : EngineOpts Nat).engine 4 1 false []).any (fun r => decide (r.lookups = 0)) = true := by
  constructor <;> decide +kernel

/-! ## C66 -/

/-- The criteria used for a request without criteria. -/
theorem rankOpts_default {e : SearchOpts F} {r : SearchReq F} (hr : ∀ o, r.rankOpts = some o → o.score = none) :
    (Engine.rankOpts e r).score = e.defRankOpts.score := by
  unfold Engine.rankOpts
  split
  · rfl
  · rename_i o ho
    simp [hr o ho]

/-- **C66** (partial: plain searches, an index that was just refreshed, an engine that was not made
by `New`) If neither the engine's options nor the request set scoring criteria, and the options
leave the index type and the parameters to their defaults, a document is scored with exactly the
documented BM25 value with parameters 2 and 0.75. Missing: searches with logic
(`C66_refuted_logic`), engines made by `New` (`C66_refuted_new_engine`). -/
theorem C66_default_score_partial {cpu clients : Nat} (hcpu : 1 ≤ cpu) (loaded : Bool) (usedMem : Str) {o : EngineOpts F}
    (ho : o.Legal) (hix : o.indexerOpts = none) (hro : ∀ x, o.defRankOpts = some x → x.score = none) :
    ∃ res, o.engine cpu clients loaded usedMem = some res ∧
      ∀ (so : Sorter) (_ : SortOk so) (h : List IdxOp) (op : IdxOp) (_ : ∀ x ∈ h ++ [op], OpOk x)
        (_ : op.refreshes = true) (s : Indexer), (Indexer.init res.index).run so (h ++ [op]) = some s →
      ∃ tr vdocs, Trace (h ++ [op]) tr ∧ Enumerates vdocs (tr (h.length + 1)).vis ∧
        ∀ log2 tokens labels docIds docs n, s.lookup log2 tokens labels docIds false = some (docs, n) →
        ∀ x ∈ docs, ∃ doc ∈ vdocs, doc.docId = x.docId ∧
          ∀ (r : SearchReq F) (_ : ∀ y, r.rankOpts = some y → y.score = none) (f : Option F),
            (wantedRank res.search r).score x f =
              [.fin (bm25Spec log2 (some ⟨2, 3/4⟩) vdocs.length
                (((vdocs.map (·.tokenLen)).sum : Rat) / vdocs.length) doc.tokenLen (doc.tfOf .freqs)
                (fun k => vdocs.countP (fun doc => decide (k ∈ doc.keys))) tokens)] := by
  simp only [← rankOpts_eq] at *
  obtain ⟨res, h1, h2⟩ := C65_options (clients := clients) hcpu loaded usedMem ho
  refine ⟨res, h1, ?_⟩
  obtain ⟨_, _, _, _, _, _, _, _, _, _, _, _, e1, _, e2, e3, _⟩ := h2
  rw [hix] at e1 e2
  simp only [Option.map_none, Option.getD_none, Option.bind_none] at e1 e2
  have e3' : res.search.defRankOpts.score = fun d _ => [.fin d.bm25] := by
    rw [e3]
    cases hd : o.defRankOpts with
    | none => rfl
    | some x => simp [hro x hd]
  intro so hso h op hok hop s hs
  obtain ⟨tr, vdocs, g1, g2, g3⟩ := C11_bm25_value_partial hso res.index h op hok hop s hs
  refine ⟨tr, vdocs, g1, g2, fun log2 tokens labels docIds docs n hl x hx => ?_⟩
  obtain ⟨doc, k1, k2, k3⟩ := g3 log2 tokens labels docIds docs n hl x hx
  refine ⟨doc, k1, k2, fun r hr f => ?_⟩
  rw [rankOpts_default hr, e3']
  simp only [e1, e2] at k3
  simp only [k3]
  simp

/-- The hypotheses hold of default options. -/
example : EngineOpts.Legal ({} : EngineOpts Nat) ∧ ({} : EngineOpts Nat).indexerOpts = none :=
  ⟨⟨by decide, by decide, by decide, by decide, by decide, by decide, by decide⟩, rfl⟩

/-- A lookup with logic returns documents without a BM25 value. -/
theorem logicLookup_bm25 {s : Indexer} {docIds : Option (List Str)} {co : Bool} {ks : List Str} {l : Logic}
    {r : List IndexedDoc × Nat} (h : s.logicLookup docIds co ks l = some r) : ∀ x ∈ r.1, x.bm25 = 0 := by
  have hids : ∀ (ids : List Str) (co : Bool), ∀ x ∈ (idsResult ids co).1, x.bm25 = 0 := by
    intro ids co x hx
    unfold idsResult at hx
    split at hx
    · simp at hx
    · obtain ⟨d, _, rfl⟩ := List.mem_map.1 hx; rfl
  unfold Indexer.logicLookup at h
  simp only at h
  repeat' split at h
  all_goals first
    | (simp only [Option.some.injEq] at h; subst h; simp; done)
    | (simp at h; done)
    | (simp only [bind, pure, Option.bind_eq_some_iff, Option.some.injEq] at h
       obtain ⟨ids, _, rfl⟩ := h
       exact hids _ _)
    | (unfold unionTable at h
       simp only [bind, pure, Option.bind_eq_some_iff, Option.some.injEq] at h
       obtain ⟨ids, _, rfl⟩ := h
       exact hids _ _)
    | skip

theorem lookupLoop_bm25 {log2 : Rat → Rat} {s : Indexer} (hs : s.opts.indexType = .docIds) {avg : Rat}
    {row0 : KeywordIndices} {tokens : List Str} {docIds : Option (List Str)} {co : Bool} (p : Nat) :
    ∀ (rows : List (KeywordIndices × Nat)) (acc res : List IndexedDoc × Nat),
    lookupLoop log2 s avg row0 tokens docIds co p rows acc = some res → (∀ x ∈ acc.1, x.bm25 = 0) →
    ∀ x ∈ res.1, x.bm25 = 0 := by
  induction p with
  | zero => intro rows acc res h ha; simp only [lookupLoop, Option.some.injEq] at h; subst h; exact ha
  | succ p ih =>
    intro rows acc res h ha
    rw [lookupLoop] at h
    split at h
    · simp at h
    · split at h
      · exact ih _ _ _ h ha
      · split at h
        · simp at h
        · simp only [Option.some.injEq] at h; subst h; exact ha
        · exact ih _ _ _ h ha
        · split at h
          · exact ih _ _ _ h ha
          · split at h
            · simp at h
            · rename_i doc hdoc
              refine ih _ _ _ h ?_
              intro x hx
              simp only at hx
              split at hx
              · exact ha x hx
              · rcases List.mem_append.1 hx with hx | hx
                · exact ha x hx
                · simp only [List.mem_singleton] at hx
                  subst hx
                  unfold scoreDoc at hdoc
                  rw [hs] at hdoc
                  simp only [pure, Option.some.injEq] at hdoc
                  rw [← hdoc]

/-- An index of document ids finds documents with BM25 value 0. -/
theorem docIds_bm25_zero {so : Sorter} (hso : SortOk so) {o : IndexerOpts} (hdoc : o.indexType = .docIds)
    {h : List IdxOp} (hok : ∀ x ∈ h, OpOk x) {s : Indexer} (hr : (Indexer.init o).run so h = some s)
    {log2 : Rat → Rat} {tokens labels : List Str} {docIds : Option (List Str)} {co : Bool} {logic : Option Logic}
    {docs : List IndexedDoc} {n : Nat} (hlk : s.lookup log2 tokens labels docIds co logic = some (docs, n)) :
    ∀ x ∈ docs, x.bm25 = 0 := by
  intro x hx
  obtain ⟨tr, _, hall⟩ := prefix_state hso o h hok s hr
  obtain ⟨_, hopt, _⟩ := hall _ le_rfl s (by rw [List.take_length]; exact hr)
  have ht : s.opts.indexType = .docIds := by
    rw [hopt]
    have : o.init.indexType = o.indexType := by unfold IndexerOpts.init; split <;> rfl
    rw [this, hdoc]
  have hint : ∀ ks res', s.internalLookup log2 ks tokens docIds co = some res' → ∀ x ∈ res'.1, x.bm25 = 0 := by
    intro ks res' hi
    unfold Indexer.internalLookup at hi
    split at hi
    · simp only [Option.some.injEq] at hi; subst hi; simp
    · simp only [Option.some.injEq] at hi; subst hi; simp
    · exact lookupLoop_bm25 ht _ _ _ _ hi (by simp)
  unfold Indexer.lookup at hlk
  split at hlk
  · simp only [Option.some.injEq, Prod.mk.injEq] at hlk; rw [← hlk.1] at hx; simp at hx
  · simp only at hlk
    split at hlk
    · exact hint _ _ hlk x hx
    · split at hlk
      · exact logicLookup_bm25 hlk x hx
      · split at hlk
        · exact logicLookup_bm25 hlk x hx
        · exact hint _ _ hlk x hx

/-- **C66 is false of engines made by `New`**: in every state of their index, whatever was indexed,
whatever is searched, every document a search finds has the same score vector `[0]`: the results
are in no particular order. -/
theorem C66_refuted_new_engine {cpu clients : Nat} (hcpu : 1 ≤ cpu) (loaded : Bool) (usedMem : Str) (dict : Str) (path : Option Str)
    (shards : Option Int) (hs : ∀ n, shards = some n → 0 ≤ n) :
    ∃ res, (newEngineOpts (F := F) dict path shards).engine cpu clients loaded usedMem = some res ∧
      ∀ (so : Sorter) (_ : SortOk so) (h : List IdxOp) (_ : ∀ x ∈ h, OpOk x) (s : Indexer),
        (Indexer.init res.index).run so h = some s →
        ∀ log2 tokens labels docIds co logic docs n, s.lookup log2 tokens labels docIds co logic = some (docs, n) →
        ∀ x ∈ docs, ∀ (r : SearchReq F) (_ : ∀ y, r.rankOpts = some y → y.score = none) (f : Option F),
            (wantedRank res.search r).score x f = [.fin 0] := by
  simp only [← rankOpts_eq] at *
  have hl : (newEngineOpts (F := F) dict path shards).Legal := by
    have : 0 ≤ shards.getD 10 := by
      cases shards with
      | none => simp
      | some n => exact hs n rfl
    exact ⟨le_refl _, this, le_refl _, le_refl _, le_refl _, le_refl _, this⟩
  obtain ⟨res, h1, h2⟩ := C65_options (clients := clients) hcpu loaded usedMem hl
  refine ⟨res, h1, ?_⟩
  obtain ⟨_, _, _, _, _, _, _, _, _, _, _, _, e1, _, _, e3, _⟩ := h2
  intro so hso h hok s hr log2 tokens labels docIds co logic docs n hlk x hx r hr' f
  rw [rankOpts_default hr', e3]
  show [F32.fin x.bm25] = _
  rw [docIds_bm25_zero hso e1 hok hr hlk x hx]

/-- **C66 is false of searches with logic**: whatever the engine, a document found by a lookup with
Must/Should/NotIn flags is scored `[0]` by the default criteria. -/
theorem C66_refuted_logic {log2 : Rat → Rat} {s : Indexer} {tokens labels : List Str} {docIds : Option (List Str)}
    {co : Bool} {l : Logic} {docs : List IndexedDoc} {n : Nat} (hk : tokens ++ labels ≠ [])
    (hl : (l.must || l.should || l.notIn) = true)
    (h : s.lookup log2 tokens labels docIds co (some l) = some (docs, n)) :
    ∀ x ∈ docs, ∀ f : Option F, rankByBM25 x f = [.fin 0] := by
  intro x hx f
  show [F32.fin x.bm25] = _
  unfold Indexer.lookup at h
  split at h
  · simp only [Option.some.injEq, Prod.mk.injEq] at h; rw [← h.1] at hx; simp at hx
  · simp only at h
    rw [if_pos ⟨List.length_pos_iff.2 hk, hl⟩] at h
    rw [logicLookup_bm25 h x hx]

/-- Such a search that finds something, on an index whose plain search gives the same documents
different scores. -/
example : ∃ docs : List IndexedDoc,
    (((Indexer.init (smallOpts .freqs 10)).run insSort [.add (mkDoc "1" ["a"]) false,
      .add (mkDoc "2" ["a", "b"]) true]).bind (fun s => s.lookup (fun x => x) [str "a"] [] none false
        (some { must := true }))) = some (docs, 2) ∧ docs.map (·.bm25) = [0, 0] ∧
    ((((Indexer.init (smallOpts .freqs 10)).run insSort [.add (mkDoc "1" ["a"]) false,
      .add (mkDoc "2" ["a", "b"]) true]).bind (fun s => s.lookup (fun x => x) [str "a"] [] none false)).any
        (fun r => decide (r.1.map (·.bm25) ≠ [0, 0]))) = true := by
  refine ⟨[{ docId := str "2" }, { docId := str "1" }], ?_, rfl, by decide +kernel⟩
  decide +kernel

end Riot
