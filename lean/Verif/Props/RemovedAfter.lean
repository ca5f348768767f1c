import Verif.Props.Updated

/-!
# C131: a removal after a Flush is final, however earlier calls raced
-/

namespace Riot

/-- If nothing of `d` waits and then `d` is removed and not added, then it is not visible and nothing of it waits. -/
theorem Trace.removed {L N : List IdxOp} {tr : Nat → AbsIndex} (ht : Trace (L ++ N) tr) {d : Str} (hd0 : d ≠ str "0")
    (h0 : ∀ x, ¬ (tr L.length).pend d x) (hno : ∀ x g, IdxOp.add x g ∈ N → x.docId ≠ d) :
    (∀ x, ¬ (tr (L ++ N).length).pend d x) ∧ ((∃ f, IdxOp.remove d f ∈ N) → (tr (L ++ N).length).vis d = none) := by
  induction N using List.reverseRecOn with
  | nil => rw [List.append_nil]; exact ⟨h0, by rintro ⟨f, hf⟩; simp at hf⟩
  | append_singleton N op ih =>
    rw [← List.append_assoc] at ht ⊢
    obtain ⟨ht', hstep⟩ := ht.init
    obtain ⟨i1, i2⟩ := ih ht' (fun x g hm => hno x g (by simp [hm]))
    rw [List.length_append (as := L ++ N), List.length_singleton]
    have hcommit : ∀ (f : Bool) (a b : AbsIndex), AbsCommit f a b → (∀ x, ¬ a.pend d x) → (∀ x, ¬ b.pend d x) ∧ b.vis d = a.vis d := by
      intro f a b hc k
      rcases hc d with ⟨e1, e2, _⟩ | ⟨_, ⟨y, hy⟩, _, _⟩ | ⟨v, hv, _, _⟩
      · exact ⟨fun x hx => k x ((e2 x).1 hx), e1⟩
      · exact absurd hy (k y)
      · exact absurd hv (k v)
    cases op with
    | add doc f =>
      simp only [AbsStep] at hstep
      obtain ⟨e1, e2⟩ := hcommit _ _ _ hstep (by
        rintro x (hx | ⟨_, hx⟩)
        · exact i1 x hx
        · exact hno doc f (by simp) hx.symm)
      refine ⟨e1, ?_⟩
      rintro ⟨f', hf'⟩
      rw [e2]
      exact i2 ⟨f', by simpa using hf'⟩
    | flush f =>
      simp only [AbsStep] at hstep
      obtain ⟨e1, e2⟩ := hcommit _ _ _ hstep i1
      refine ⟨e1, ?_⟩
      rintro ⟨f', hf'⟩
      rw [e2]
      exact i2 ⟨f', by simpa using hf'⟩
    | remove id f =>
      simp only [AbsStep] at hstep
      refine ⟨fun x hx => i1 x ((hstep.2 d x).1 hx), ?_⟩
      rintro ⟨f', hf'⟩
      rw [hstep.1 d]
      split
      · rfl
      · rename_i hne
        refine i2 ⟨f', ?_⟩
        simp only [List.mem_append, List.mem_singleton, IdxOp.remove.injEq] at hf'
        rcases hf' with hf' | ⟨rfl, _⟩
        · exact hf'
        · exact absurd ⟨rfl, hd0⟩ hne

variable {D F A : Type} {c : PipeCfg D}

/-- A shard does not show a document that was removed, and not indexed, since an earlier Flush. -/
theorem vis_removed (hdoc : c.DocOk) {db : Fin c.stores → List (Str × D)} {p0 : Pipe c} {st : Fine c} {s : Fin c.shards} {tr : Nat → AbsIndex}
    {vis : Str → Option DocIndex} (htr : Trace (st.pipe.idxLog s) tr) (hv : st.SeesNow s (tr (st.pipe.idxLog s).length) vis) {d : Str}
    (h0 : d ≠ str "0") (hfl0 : CallsFlushed db p0 d) (hfl : CallsFlushed db st.pipe d) {bs : List (Act c.toPipeSize D)}
    (hrun : p0.run bs = some st.pipe) {news : List (Call D)} (hnews : st.pipe.given db = p0.given db ++ news)
    (hrem : ∃ f, Call.remove d f ∈ news) (hno : ∀ x g, Call.index d x g ∉ news) : vis d = none := by
  obtain ⟨_, hinv0⟩ := hfl0.inv hdoc h0
  obtain ⟨hp0, hset0⟩ := hinv0 s
  obtain ⟨hreach, hinv⟩ := hfl.inv hdoc h0
  obtain ⟨hp, hset⟩ := hinv s
  have hu := untouched_of_perm hreach s hp
  have hpn := hset.no_pend htr
  have hvd : vis d = (tr (st.pipe.idxLog s).length).vis d := by
    rcases hv d with e | ⟨_, ⟨hr, f, hf⟩ | ⟨hr, ⟨op, ho, hid⟩ | ⟨x, hx⟩⟩⟩
    · exact e
    · exact absurd hf (hu.1 hr f)
    · exact absurd hid (hu.2 (by intro e; rw [e] at hr; simp [AddPC.refreshing] at hr) op ho)
    · exact absurd hx (hpn x)
  obtain ⟨N, hN⟩ := run_idxLog bs p0 st.pipe hrun s
  have hiss : st.pipe.issued db s = p0.issued db s ++ news.flatMap (c.callOps s) := by
    have e1 : st.pipe.issued db s = (st.pipe.given db).flatMap (c.callOps s) := issued_eq db st.pipe s
    have e2 : p0.issued db s = (p0.given db).flatMap (c.callOps s) := issued_eq db p0 s
    rw [e1, e2, hnews, List.flatMap_append]
  have hNp : (docOps d (news.flatMap (c.callOps s))).Perm (docOps d N) := by
    rw [← hN, hiss, docOps_append, docOps_append] at hp
    exact (List.perm_append_left_iff _).1 ((hp0.symm.append_right _).trans hp)
  have hmem : ∀ op : IdxOp, op.id? = some d → (op ∈ N ↔ op ∈ news.flatMap (c.callOps s)) := by
    intro op hid
    have := hNp.mem_iff (a := op)
    rw [mem_docOps, mem_docOps] at this
    simp only [hid, and_true] at this
    exact this.symm
  have hpre : Trace (p0.idxLog s) tr := by
    have := htr.take (p0.idxLog s).length
    rwa [← hN, List.take_left] at this
  have htr' : Trace (p0.idxLog s ++ N) tr := by rw [hN]; exact htr
  obtain ⟨_, k3⟩ := htr'.removed h0 (hset0.no_pend hpre) (by
    intro x g hm hid
    obtain ⟨a, ha, hm⟩ := List.mem_flatMap.1 ((hmem (.add x g) (by simp [IdxOp.id?, hid])).1 hm)
    cases a with
    | index id z f =>
      simp only [PipeCfg.callOps] at hm
      split at hm
      · split at hm <;> simp at hm
      · split at hm
        · simp only [List.mem_singleton, IdxOp.add.injEq] at hm
          obtain ⟨rfl, rfl⟩ := hm
          have : id = d := by rw [← hid]; exact (hdoc id z).symm
          subst this
          exact hno _ _ ha
        · split at hm <;> simp at hm
    | remove id f => simp [PipeCfg.callOps] at hm
    | flush => simp [PipeCfg.callOps] at hm)
  rw [hN] at k3
  obtain ⟨f, hf⟩ := hrem
  rw [hvd]
  exact k3 ⟨f, (hmem _ rfl).2 (List.mem_flatMap.2 ⟨_, hf, by simp [PipeCfg.callOps]⟩)⟩

/-- What the index finds of a document that was removed: nothing. -/
theorem found_removed (hdoc : c.DocOk) (hk : c.KeysOk) {E : EngCfg D F A} (hso : SortOk E.so) {o : IndexerOpts}
    {db : Fin c.stores → List (Str × D)} {as : List (EAct c.toPipeSize D F)} {st : Full c F A}
    (h : (Full.start c o db).run E as = some st) (hcl : (Full.start c o db).NoClash E as) {b0 b t : Nat} (hbt : b ≤ t)
    (ht : t < as.length) {r : SearchReq F} (hlogic : r.logic = {}) (htok : o.indexType = .locs → E.tokens r ≠ [])
    (s : Fin c.shards) {docs : List IndexedDoc} (hf : (Full.after E (Full.start c o db) as t).found E s r = some docs)
    {d : Str} (h0 : d ≠ str "0") {news : List (Call D)} (hd : RemovedBetween E (Full.start c o db) db as b0 b d news) (hno : NobodyCalls as b d) :
    d ∉ docs.map (·.docId) := by
  obtain ⟨fs, g1, g2⟩ := full_run_fine _ (after_run h (t := t)) (after_noClash hcl (Nat.le_of_lt ht))
  have hal := after_alive h ht s
  obtain ⟨tr, htr, vis, hv, hall⟩ := C62_search_during_calls_partial hk hso g1 g2 s hal E.log2
  obtain ⟨docs', f1, f2, f3, _⟩ := hall (E.tokens r) r.labels r.docIds htok
  unfold Full.found at hf
  rw [hlogic, lookup_no_logic, f1] at hf
  simp only [Option.map_some, Option.some.injEq] at hf
  subst hf
  obtain ⟨cs, hcs, hcall⟩ := after_pipe h hbt
  have hnew : ∀ a ∈ (cs.flatMap Act.called).map (·.2), a.about d = false := by
    intro a ha
    obtain ⟨x, hx, rfl⟩ := List.mem_map.1 ha
    obtain ⟨v, hv', hav⟩ := hcall x hx
    exact hno v x.1 x.2 hv' hav
  have hgiven : (Full.after E (Full.start c o db) as t).fine.pipe.given db =
      (Full.after E (Full.start c o db) as b0).fine.pipe.given db ++ (news ++ (cs.flatMap Act.called).map (·.2)) := by
    rw [← List.append_assoc, ← hd.calls]
    unfold Pipe.given
    rw [run_calls _ _ _ hcs, List.map_append, List.append_assoc]
  obtain ⟨bs, hbs, _⟩ := after_pipe h (hd.order.trans hbt)
  have hvis := vis_removed hdoc htr hv h0 hd.before (flushed_after h hbt hno hd.after) hbs hgiven
    (by obtain ⟨f, hf⟩ := hd.removed; exact ⟨f, by simp [hf]⟩) (by
      intro x g hm
      rcases List.mem_append.1 hm with hm | hm
      · exact hd.noIndex x g hm
      · have := hnew _ hm
        simp [Call.about] at this)
  rw [f3 d]
  unfold Matches
  rw [hvis]
  simp

/-- **C131** (partial: on no shard does a refresh overlap a removal, as in every gently used engine, C76) A document was removed after a Flush and not indexed since, and another Flush has completed; no call about
it is made until a search returns. Then the search does not show it, whatever races between its calls there were before the first of the two Flushes, and
whatever happens to other documents meanwhile. -/
theorem C131_removed_partial {E : EngCfg D F A} {textOf : D → DocText} (htext : FromTexts c E textOf)
    (hso : SortOk E.so) (hgs : GSortOk E.gs) {o : IndexerOpts} {db : Fin c.stores → List (Str × D)}
    {as : List (EAct c.toPipeSize D F)} {st : Full c F A} (h : (Full.start c o db).run E as = some st)
    (hcl : (Full.start c o db).NoClash E as) {k b : Nat} {r : SearchReq F} (hb : Began as k b r) (hret : st.Returned k)
    (hc : r.countDocsOnly = false) (hor : r.orderless = false) (hlogic : r.logic = {}) (htok : o.indexType = .locs → E.tokens r ≠ []) {off m : Nat}
    (ho : (wantedRank E.opts r).outputOffset = off) (hm : (wantedRank E.opts r).maxOutputs = m)
    (hsc : ∀ d f, NoNaN ((wantedRank E.opts r).score d f)) :
    ∃ (found : List (ScoredDoc F A)) (resp : SearchResp F A), st.response E k = some resp ∧
      IsPageOf E.opts.idOnly (wantedRank E.opts r).reverseOrder (Engine.tokens E.text E.opts r) off m found resp ∧
      ∀ d b0 news, d ≠ str "0" → RemovedBetween E (Full.start c o db) db as b0 b d news → NobodyCalls as b d →
        d ∉ found.map (·.scoredID.docId) := by
  obtain ⟨parts, resp, g1, g2, g3, g4, g5⟩ := C73_search_during_everything hgs h hb hret.2 hc hor ho hm hsc
  refine ⟨_, resp, g3, g5, fun d b0 news h0 hd hno hmem => ?_⟩
  obtain ⟨e, he, rfl⟩ := List.mem_map.1 hmem
  obtain ⟨q, hq, he⟩ := List.mem_flatMap.1 he
  have hok := g2 q hq
  obtain ⟨hlo, hhi⟩ := hok.during
  refine found_removed htext.docOk htext.keysOk hso h hcl (Nat.le_of_lt hlo) hhi hlogic htok q.shard hok.found h0 hd hno ?_
  exact (entries_sublist (E := E) (st0 := Full.start c o db) (as := as) (r := r) (s := q.shard) q.docs q.reads).subset (List.mem_map.2 ⟨e, he, rfl⟩)

/-- The hypotheses of `C131_removed_partial` hold: the two Index calls of "1" raced and an old version is served (`C129_refuted_last_version`); after a removal
and a Flush the search for "google testing" does not find it. -/
example : ∃ as st b0 b, raceStart.run (programEng 4) as = some st ∧ raceStart.NoClash (programEng 4) as ∧ Began as 0 b storeReq ∧
    st.Returned 0 ∧ RemovedBetween (programEng 4) raceStart (fun _ => []) as b0 b (str "1") [.remove (str "1") false, .flush] ∧ NobodyCalls as b (str "1") ∧
    (Full.after (programEng 4) raceStart as b0).fine.pipe.given (fun _ => []) = repCalls (str "google testing") (str "google cards") ∧
    respIds (st.response (programEng 4) 0) = some ([], 0) := by
  obtain ⟨as, st, b0, b, hs, h1, h1', h2, h2', ⟨k1, k2, k3, k4⟩, _, h3, h4, h5⟩ :=
    fix_spec (x := str "google testing") (y := str "google cards") (a := .remove (str "1") false) (ids := []) (by decide +kernel)
  exact ⟨as, st, b0, b, h1, race_noClash hs h1 h1', h2, h2', ⟨k1, k2, k3, k4, by simp, by simp⟩, h3, h4, h5⟩

end Riot
