import Verif.Spec.Races
import Verif.Props.Programs
import Verif.Props.Gone

/-!
# C127: calls about one document that race do not affect the others; examples/store
-/

namespace Riot

section
variable {D F A : Type} {c : PipeCfg D}

/-- **C127** An engine was used gently, all work was done when the request was made, and no call is made until it returns. The calls about some
documents may have raced. The response is the requested page of a ranking of one list per answering shard, all of them without a time-out;
every entry shows a version of its document that was given to that shard; and each document whose own calls were separated by Flushes (and
that was not indexed again after a removal) is in the list of a shard exactly if its last text there has all words, tokens and labels of the request. -/
theorem C127_undisturbed {E : EngCfg D F A} {textOf : D → DocText} (htext : FromTexts c E textOf)
    (hso : SortOk E.so) (hgs : GSortOk E.gs) {o : IndexerOpts} {db : Fin c.stores → List (Str × D)}
    (hs : GentleStart c o db)
    {as : List (EAct c.toPipeSize D F)} {st : Full c F A} (h : (Full.start c o db).run E as = some st)
    (hg : (Full.start c o db).Gentle E o db as) {k b : Nat} {r : SearchReq F} (hb : Began as k b r)
    (hret : st.Returned k) (hquiet : (Full.after E (Full.start c o db) as b).fine.pipe.Quiet)
    (hno : ∀ t i (a : Call D), b ≤ t → as[t]? ≠ some (.pipe (.call i a)))
    (hc : r.countDocsOnly = false) (hor : r.orderless = false)
    (hlogic : r.logic = {}) (htok : o.indexType = .locs → E.tokens r ≠ []) {off m : Nat}
    (ho : (wantedRank E.opts r).outputOffset = off) (hm : (wantedRank E.opts r).maxOutputs = m)
    (hsc : ∀ d f, (wantedRank E.opts r).score d f ≠ [] ∧ NoNaN ((wantedRank E.opts r).score d f)) :
    ∃ (lists : List (Fin c.shards × List (ScoredDoc F A))) (resp : SearchResp F A),
      (lists.map (·.1)).Nodup ∧ st.response E k = some resp ∧
      (resp.timeout = false → ∀ s, s ∈ lists.map (·.1)) ∧
      IsPageOf E.opts.idOnly (wantedRank E.opts r).reverseOrder (Engine.tokens E.text E.opts r) off m
        (lists.flatMap (·.2)) resp ∧
      ∀ p ∈ lists, ((p.2).map (·.scoredID.docId)).Nodup ∧
        (∀ e ∈ p.2, e.scoredID.docId ≠ str "0" ∧ ShowsVersion c E (st.fine.pipe.given db) p.1 e) ∧
        ∀ d, d ≠ str "0" → OwnCallsApart db (Full.after E (Full.start c o db) as b).fine.pipe d →
          (d ∈ (p.2).map (·.scoredID.docId) ↔
            Engine.tokens E.text E.opts r ++ r.labels ≠ [] ∧ Allowed r.docIds d ∧
            ∃ x, LatestOn c p.1 ((Full.after E (Full.start c o db) as b).fine.pipe.given db) d x ∧
              ∀ w ∈ Engine.tokens E.text E.opts r ++ r.labels, TextHasKey E.text E.opts.toTextOpts (textOf x) w) := by
  have hcl := full_gentle_noClash htext.keysOk hso hs h hg
  obtain ⟨parts, resp, g1, g2, g3, g4, g5⟩ := C74_untouched_document_found_partial htext.docOk htext.keysOk hso hgs h hcl hb hret.2 hc hor
    hlogic htok ho hm hsc
  refine ⟨parts.map (fun p => (p.shard, p.entries E (Full.start c o db) as r)), resp, ?_, g2, ?_, ?_, ?_⟩
  · rw [List.map_map]; exact g1
  · rw [List.map_map]; exact g3
  · rw [List.flatMap_map]; exact g4
  · intro p hp
    obtain ⟨q, hq, rfl⟩ := List.mem_map.1 hp
    obtain ⟨e1, ez, n, avg, df, hst, e2⟩ := g5 q hq
    refine ⟨e1, ez, fun d h0 hap => ?_⟩
    obtain ⟨l, hl⟩ := hap.rounds
    have h3 := (e2 d l h0 hl (fun s => ((rank_quiet (hl.inv htext.docOk h0).1 hquiet s).filter _).symm)
      (fun t i a hbt ht => absurd ht (hno t i a hbt)) hap.noReturn).1
    rw [h3]
    have hkeys : ∀ x w, w ∈ (c.docOf d x).keys ↔ TextHasKey E.text E.opts.toTextOpts (textOf x) w :=
      fun x w => C41_keys_exact _ _ _ _ _ (htext d x) w
    constructor
    · rintro ⟨a1, a2, doc, a3, a4⟩
      obtain ⟨x, hx, rfl⟩ := (ideal_latest htext.docOk q.shard d h0 _ doc).1 a3
      exact ⟨a1, a2, x, hx, fun w hw => (hkeys x w).1 (a4 w hw)⟩
    · rintro ⟨a1, a2, x, hx, a4⟩
      exact ⟨a1, a2, _, (ideal_latest htext.docOk q.shard d h0 _ _).2 ⟨x, hx, rfl⟩, fun w hw => (hkeys x w).2 (a4 w hw)⟩
end

/-! ## examples/store -/

variable {F A : Type} {c : PipeCfg Str} {E : EngCfg Str F A} {o : IndexerOpts} {db : Fin c.stores → List (Str × Str)}
  {as : List (EAct c.toPipeSize Str F)} {st : Full c F A} {k : Nat}

theorem store_given {d x : Str} {g : Bool} (h : Call.index d x g ∈ storeCalls) : (d, x) ∈ storeDocs := by
  simp only [storeCalls, List.mem_append, List.mem_map, List.mem_cons, reduceCtorEq, List.not_mem_nil, or_self, or_false] at h
  obtain ⟨⟨d', x'⟩, h1, h2⟩ := h
  cases h2
  exact h1

theorem store_ids : (storeDocs.map (·.1)).Nodup := by decide +kernel

theorem store_latest {d : Str} (h5 : d ≠ str "5") (s : Fin c.shards) (x : Str) :
    LatestOn c s storeCalls d x ↔ (d, x) ∈ storeDocs ∧ c.route d x = s := by
  constructor
  · rintro ⟨l1, g, l2, e1, e2, _, _⟩
    exact ⟨store_given (g := g) (by rw [e1]; simp), e2⟩
  · rintro ⟨h1, h2⟩
    obtain ⟨a, b, hab⟩ := List.append_of_mem h1
    refine ⟨a.map (fun x => Call.index x.1 x.2 false), false, b.map (fun x => Call.index x.1 x.2 false) ++ [.remove (str "5") false, .flush, .flush], ?_, h2, ?_, ?_⟩
    · simp [storeCalls, hab]
    · intro f hf
      simp at hf
      exact h5 hf.1
    · intro y g hy
      simp at hy
      have hn := store_ids
      rw [hab] at hn
      simp [List.nodup_append] at hn
      exact absurd hy.1 (hn.2.1.1 y)

/-- **C127** (partial: nothing is said about the presence of "5") The search of examples/store: under every schedule the response has all
documents found, of "1", "2", "3" and "5" each at most once; "1", "2" and "3" are among them exactly if their text has all words of the query; NumDocs is
their number. -/
theorem C127_store_partial (h : StoreRun c E o db as st k) (hq : Engine.tokens E.text E.opts (storeReq (F := F)) ≠ []) :
    ∃ (found : List (ScoredDoc F A)) (resp : SearchResp F A), st.response E k = some resp ∧ resp.docs = some (resultDocs E.opts.idOnly found) ∧
      resp.numDocs = found.length ∧ resp.timeout = false ∧ (found.map (·.scoredID.docId)).Nodup ∧
      (∀ d ∈ found.map (·.scoredID.docId), d ∈ storeDocs.map (·.1)) ∧
      ∀ d x, (d, x) ∈ storeDocs → d ≠ str "5" → (d ∈ found.map (·.scoredID.docId) ↔
        ∀ w ∈ Engine.tokens E.text E.opts (storeReq (F := F)), TextHasKey E.text E.opts.toTextOpts (contentOnly x) w) := by
  obtain ⟨b, h1, h2, h3, h4, h5, h6⟩ := h.searched
  have hw : (wantedRank E.opts (storeReq (F := F))).score = rankByBM25 := by simp [wantedRank, storeReq, h.score]
  obtain ⟨lists, resp, g1, g2, g3, g4, g5⟩ := C127_undisturbed h.texts h.sorts h.gsorts h.fits h.runs h.gentle h1 h.returned h2 h4 rfl rfl rfl
    (fun _ => hq) (off := 0) (m := 100) (by simp [wantedRank, storeReq]) (by simp [wantedRank, storeReq])
    (by intro d f; rw [hw]; simp [rankByBM25, NoNaN])
  have ht := C73_no_timeout h.runs h1 (le_refl (0 : Int)) g2
  obtain ⟨R, p1, _, p3, p4, _⟩ := g4
  rw [h6] at g5
  rw [h5] at g5
  -- an entry is of a document of the program, on its shard
  have hent : ∀ p ∈ lists, ∀ e ∈ p.2, ∃ y, (e.scoredID.docId, y) ∈ storeDocs ∧ c.route e.scoredID.docId y = p.1 := by
    intro p hp e he
    obtain ⟨_, y, g, k1, k2, _⟩ := (g5 p hp).2.1 e he
    exact ⟨y, store_given k1, k2⟩
  have hsub : ∀ d ∈ R.map (·.scoredID.docId), d ∈ storeDocs.map (·.1) := by
    intro d hd
    obtain ⟨e, he, rfl⟩ := List.mem_map.1 hd
    obtain ⟨p, hp, he'⟩ := List.mem_flatMap.1 (p1.mem_iff.1 he)
    obtain ⟨y, k1, _⟩ := hent p hp e he'
    exact List.mem_map.2 ⟨_, k1, rfl⟩
  have hnd : (R.map (·.scoredID.docId)).Nodup := by
    rw [(p1.map _).nodup_iff, List.map_flatMap, List.nodup_flatMap]
    refine ⟨fun p hp => (g5 p hp).1, ?_⟩
    have : List.Pairwise (fun p q : Fin c.shards × List (ScoredDoc F A) => p.1 ≠ q.1) lists := by
      rw [List.Nodup, List.pairwise_map] at g1; exact g1
    refine this.imp_of_mem (fun {p q} hp hq' hne => ?_)
    intro d hd1 hd2
    obtain ⟨e, he, rfl⟩ := List.mem_map.1 hd1
    obtain ⟨e', he', e0⟩ := List.mem_map.1 hd2
    obtain ⟨y, k1, k2⟩ := hent p hp e he
    obtain ⟨y', k1', k2'⟩ := hent q hq' e' he'
    rw [e0] at k1' k2'
    have := List.inj_on_of_nodup_map store_ids k1 k1' rfl
    cases this
    exact hne (k2.symm.trans k2')
  have hlen : R.length ≤ 4 := by
    have := (List.subperm_of_subset hnd hsub).length_le
    simpa [storeDocs] using this
  have hpage : page 0 100 R = R := by
    simp [page, List.take_of_length_le (show R.length ≤ 100 by omega)]
  rw [hpage] at p3
  refine ⟨R, resp, g2, p3, by rw [p4, p1.length_eq], ht, hnd, hsub, fun d x hd h5' => ?_⟩
  have h0 : d ≠ str "0" := by
    rintro rfl
    exact absurd (List.mem_map.2 ⟨_, hd, rfl⟩ : str "0" ∈ storeDocs.map (·.1)) (by decide +kernel)
  have hap : OwnCallsApart db (Full.after E (Full.start c o db) as b).fine.pipe d := by
    refine ⟨h3 d h0 h5', fun f y g l1 l2 he hm => ?_⟩
    rw [h5] at he
    have : Call.remove d f ∈ storeCalls := by rw [he]; simp
    simp [storeCalls] at this
    exact h5' this.1
  constructor
  · intro hm w hwt
    obtain ⟨e, he, rfl⟩ := List.mem_map.1 hm
    obtain ⟨p, hp, he'⟩ := List.mem_flatMap.1 (p1.mem_iff.1 he)
    obtain ⟨_, _, y, hy, hall⟩ := ((g5 p hp).2.2 _ h0 hap).1 (List.mem_map.2 ⟨e, he', rfl⟩)
    have hy' := ((store_latest h5' p.1 y).1 hy).1
    have := List.inj_on_of_nodup_map store_ids hy' hd rfl
    cases this
    exact hall w (by simp [hwt])
  · intro hall
    obtain ⟨p, hp, hps⟩ := List.mem_map.1 (g3 ht (c.route d x))
    have := ((g5 p hp).2.2 d h0 hap).2 ⟨by simp [hq], by simp [Allowed, storeReq], x, (store_latest h5' p.1 x).2 ⟨hd, hps.symm⟩, fun w hw' =>
      hall w (by simpa [storeReq] using hw')⟩
    obtain ⟨e, he, e0⟩ := List.mem_map.1 this
    exact List.mem_map.2 ⟨e, p1.mem_iff.2 (List.mem_flatMap.2 ⟨p, hp, he⟩), e0⟩

/-! ## The schedule of examples/store that shows "5" -/

/-- Every action except those of the segmenter. -/
def raceCands : List (EAct (programPipe 4).toPipeSize Str Nat) :=
  (engineCands (programPipe 4).toPipeSize).filter (fun a => !(match a with | .pipe (.run (.seg _)) | .pipe (.recv (.seg _)) => true | _ => false))

def raceUser : Fin (programPipe 4).clients := ⟨0, by decide⟩
def raceOpts : IndexerOpts := smallOpts .freqs 10
def raceStart : Full (programPipe 4) Nat Nat := Full.start (programPipe 4) raceOpts (fun _ => [])
/-- The four documents are indexed, each after the work for those before; "5" is removed before the segmenter has taken it; Flush. -/
def raceLoad : List (EAct (programPipe 4).toPipeSize Str Nat) := raceStart.script (programEng 4)
  (.inr (engineCands _) :: (storeDocs.take 3).flatMap (fun x => [.inl (.pipe (.call raceUser (.index x.1 x.2 false))), .inr (engineCands _)]) ++
    [.inl (.pipe (.call raceUser (.index (str "5") ((storeDocs.getLast?.map (·.2)).getD []) false))), .inr raceCands,
     .inl (.pipe (.call raceUser (.remove (str "5") false))), .inr raceCands, .inr (engineCands _),
     .inl (.pipe (.call raceUser .flush)), .inr (engineCands _)])
def raceS1 : Full (programPipe 4) Nat Nat := (raceStart.run (programEng 4) raceLoad).getD raceStart
/-- The Flush of Close. -/
def raceTail : List (EAct (programPipe 4).toPipeSize Str Nat) :=
  ((raceS1.step (programEng 4) (.pipe (.call raceUser .flush))).getD raceS1).greedy (programEng 4) (engineCands _) 300
def raceFlush : List (EAct (programPipe 4).toPipeSize Str Nat) := .pipe (.call raceUser .flush) :: raceTail
def raceS2 : Full (programPipe 4) Nat Nat := (raceS1.run (programEng 4) raceFlush).getD raceStart
def raceSearch : List (EAct (programPipe 4).toPipeSize Str Nat) :=
  .start storeReq :: ((raceS2.step (programEng 4) (.start storeReq)).getD raceStart).greedy (programEng 4) (searchCands _ 1) 300
def raceRun : List (EAct (programPipe 4).toPipeSize Str Nat) := raceLoad ++ raceFlush ++ raceSearch

def raceCheck : Bool :=
  (raceStart.gentleRun (programEng 4) raceOpts (fun _ => []) raceRun).any (fun st =>
    decide (0 < st.searches.length) && decide ((st.got 0).length = (programPipe 4).shards) &&
      decide (st.fine.pipe.given (fun _ => []) = storeCalls) && decide (respIds (st.response (programEng 4) 0) = some ([str "5", str "3"], 2))) &&
  (raceStart.run (programEng 4) raceLoad).isSome &&
  (raceS1.run (programEng 4) raceFlush).isSome &&
  (raceS1.fine.pipe.prog (.client raceUser)).isEmpty &&
  decide (raceS1.fine.pipe.calls.map (·.2) = storeDocs.map (fun x => Call.index x.1 x.2 false) ++ [.remove (str "5") false, .flush]) &&
  raceTail.all (fun a => a.call?.isNone) &&
  (raceS2.fine.pipe.prog (.client raceUser)).isEmpty &&
  raceS2.fine.pipe.quietB &&
  decide (raceS2.fine.pipe.given (fun _ => []) = storeCalls) &&
  decide (((raceLoad ++ raceFlush).filter EAct.isStart).length = 0) &&
  raceSearch.all (fun a => a.call?.isNone)

theorem race_check : raceCheck = true := by decide +kernel

/-- **C127**, the full claim is refuted: under that schedule the response of examples/store has "5", although the program removed it before its
Flush. (The hypotheses of `C127_store_partial` hold: `StoreRun`.) -/
theorem C127_refuted_store : ∃ as st, StoreRun (programPipe 4) (programEng 4) raceOpts (fun _ => []) as st 0 ∧
    Engine.tokens (programEng 4).text (programEng 4).opts (storeReq (F := Nat)) ≠ [] ∧
    respIds (st.response (programEng 4) 0) = some ([str "5", str "3"], 2) := by
  have hc := race_check
  unfold raceCheck at hc
  simp only [Bool.and_eq_true, decide_eq_true_eq] at hc
  obtain ⟨⟨⟨⟨⟨⟨⟨⟨⟨⟨h, hl⟩, hf⟩, hidle⟩, hcl⟩, htail⟩, hdone⟩, hq⟩, hgiven⟩, hb⟩, hno⟩ := hc
  have ht : FromTexts (programPipe 4) (programEng 4) contentOnly := fun id x => docOf_isDocIndexOf _ _ _ _
  have r1 : raceStart.run (programEng 4) raceLoad = some raceS1 := run_getD hl
  have r2 : raceS1.run (programEng 4) raceFlush = some raceS2 := run_getD hf
  have rpre : raceStart.run (programEng 4) (raceLoad ++ raceFlush) = some raceS2 := by
    rw [full_run_append, r1, Option.bind_some, r2]
  have hrec : (programPipe 4).recovered (fun _ => []) = [] := by decide +kernel
  obtain ⟨st, h1, h2⟩ := (Option.any_eq_true _ _).1 h
  simp only [Bool.and_eq_true, decide_eq_true_eq] at h2
  obtain ⟨g1, g2⟩ := full_gentleRun_spec _ h1
  have hafter : Full.after (programEng 4) raceStart raceRun (raceLoad ++ raceFlush).length = raceS2 := by
    unfold Full.after raceRun
    rw [List.take_left, rpre]; rfl
  have hidle' : raceS1.fine.pipe.ClientsIdle := by
    intro j
    have : j = raceUser := Fin.ext (by have := j.isLt; simp only [programPipe, smallEngine] at this; simp only [raceUser]; omega)
    rw [this]
    simpa using hidle
  have hround : ∀ d, d ≠ str "5" → ∃ l, Rounds (fun _ => []) d raceS2.fine.pipe l := by
    intro d h5
    obtain ⟨bs, g, _⟩ := after_pipe r1 (Nat.zero_le raceLoad.length)
    have e1 : Full.after (programEng 4) raceStart raceLoad raceLoad.length = raceS1 := by
      unfold Full.after; rw [List.take_length, r1]; rfl
    rw [e1] at g
    refine ⟨_, Rounds.first (db := fun _ => []) (d := d) bs raceUser _ _ g (full_flush (E := programEng 4) hidle' htail r2 (by simpa using hdone)) ?_⟩
    rw [hrec, hcl]
    have : (storeDocs.map (·.1)).Nodup := store_ids
    have h' := one_about (l := storeDocs.map (fun x => Call.index x.1 x.2 false)) (d := d) this (by simp [Call.about, Function.comp_def])
    rw [List.map_nil, List.nil_append, List.filter_append]
    have hr : List.filter (Call.about d) [(Call.remove (str "5") false : Call Str), .flush] = [] := by simp [Call.about, Ne.symm h5]
    rw [hr, List.append_nil]
    exact h'
  refine ⟨raceRun, st, ⟨ht, insSort_ok, insGSort_ok, ?_, rfl, g1, g2, ⟨h2.1.1.1, h2.1.1.2⟩, (raceLoad ++ raceFlush).length, ⟨?_, ?_⟩, ?_, ?_, ?_, ?_, h2.1.2⟩,
    by decide +kernel, h2.2⟩
  · intro s
    rw [hrec]
    simp only [List.map_nil, List.countP_nil]
    exact size_pos raceOpts
  · unfold raceRun
    rw [List.getElem?_append_right (Nat.le_refl _), Nat.sub_self]
    rw [raceSearch]; rfl
  · unfold raceRun
    rw [List.take_left]; exact hb
  · exact hafter ▸ quiet_of_B hq
  · exact fun d _ h5 => hafter ▸ hround d h5
  · intro t j a ht' he
    unfold raceRun at he
    rw [List.getElem?_append_right ht'] at he
    have := List.all_eq_true.1 hno _ (List.mem_of_getElem? he)
    simp [EAct.call?] at this
  · exact hafter ▸ hgiven

end Riot
