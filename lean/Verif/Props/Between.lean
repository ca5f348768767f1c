import Verif.Proofs.Between
import Verif.Props.FullGentle

/-!
# C88: searches between two Flushes
-/

namespace Riot

open Function (update)

variable {D F A : Type} {c : PipeCfg D}

theorem quiet_pending {st : Pipe c} (hq : st.Quiet) (μ : Meas c) : μ.pending st = 0 :=
  pending_zero_of _ (fun t => by rw [hq.1 t]; rfl) hq.2.1 hq.2.2

theorem issued_run {db : Fin c.stores → List (Str × D)} {x y : Pipe c} {bs : List (Act c.toPipeSize D)}
    (h : x.run bs = some y) (s : Fin c.shards) :
    y.issued db s = x.issued db s ++ (bs.flatMap Act.called).flatMap (fun z => c.callOps s z.2) := by
  unfold Pipe.issued
  rw [run_calls _ _ _ h, List.flatMap_append, List.append_assoc]

/-- Index calls of a kind that no call leads to are neither executed nor waiting. -/
theorem since_quiet {db : Fin c.stores → List (Str × D)} {x y : Pipe c} (hx : Reach db x) (hq : x.Quiet)
    {bs : List (Act c.toPipeSize D)} (h : x.run bs = some y) (s : Fin c.shards) (p : IdxOp → Bool)
    (hp : ∀ z ∈ bs.flatMap Act.called, (c.callOps s z.2).countP p = 0) :
    (μIdx c s p).pending y = 0 ∧ ∀ h2, y.idxLog s = x.idxLog s ++ h2 → ∀ op ∈ h2, p op = false := by
  obtain ⟨as, ha⟩ := hx
  have c1 := idx_conserve s p db as x ha
  have c2 := idx_conserve s p db (as ++ bs) y (by rw [pipe_run_append, ha]; exact h)
  rw [quiet_pending hq] at c1
  have hz : ((bs.flatMap Act.called).flatMap (fun z => c.callOps s z.2)).countP p = 0 := by
    rw [List.countP_flatMap, List.sum_eq_zero]
    intro n hn
    obtain ⟨z, hz, rfl⟩ := List.mem_map.1 hn
    exact hp z hz
  rw [issued_run h, List.countP_append, hz] at c2
  obtain ⟨h2, e⟩ := run_idxLog bs x y h s
  rw [← e, List.countP_append] at c2
  refine ⟨by omega, fun h2' e' op hop => ?_⟩
  rw [← e] at e'
  have e' := List.append_cancel_left e'
  subst e'
  cases hpo : p op with
  | false => rfl
  | true =>
    have := List.countP_pos_iff.2 ⟨op, hop, hpo⟩
    omega

/-- Index calls that calls lead to have been executed when all work is done. -/
theorem done_quiet {db : Fin c.stores → List (Str × D)} {x y : Pipe c} (hx : Reach db x) (hq : y.Quiet)
    {bs : List (Act c.toPipeSize D)} (h : x.run bs = some y) (s : Fin c.shards) (p : IdxOp → Bool)
    {z : Fin c.clients × Call D} (hz : z ∈ bs.flatMap Act.called) (hp : 0 < (c.callOps s z.2).countP p)
    {h2 : List IdxOp} (he : y.idxLog s = x.idxLog s ++ h2) : ∃ op ∈ h2, p op = true := by
  obtain ⟨as, ha⟩ := hx
  have c1 := idx_conserve s p db as x ha
  have c2 := idx_conserve s p db (as ++ bs) y (by rw [pipe_run_append, ha]; exact h)
  rw [quiet_pending hq, issued_run h, List.countP_append, he, List.countP_append] at c2
  have hpos : 0 < ((bs.flatMap Act.called).flatMap (fun z => c.callOps s z.2)).countP p := by
    obtain ⟨op, h1, h2⟩ := List.countP_pos_iff.1 hp
    exact List.countP_pos_iff.2 ⟨op, List.mem_flatMap.2 ⟨z, hz, h1⟩, h2⟩
  exact List.countP_pos_iff.1 (show 0 < h2.countP p by omega)

/-- A call of the schedule is one of the calls between two moments around it. -/
theorem called_between {E : EngCfg D F A} {st0 st : Full c F A} {as : List (EAct c.toPipeSize D F)}
    (h : st0.run E as = some st) {t u v : Nat} (htv : t ≤ v) (hvu : v < u) {i : Fin c.clients} {a : Call D}
    (hv : as[v]? = some (.pipe (.call i a))) {bs : List (Act c.toPipeSize D)}
    (hbs : (Full.after E st0 as t).fine.pipe.run bs = some (Full.after E st0 as u).fine.pipe) :
    (i, a) ∈ bs.flatMap Act.called := by
  obtain ⟨b1, r1, _⟩ := after_pipe h htv
  obtain ⟨b2, r2, _⟩ := after_pipe h (show v + 1 ≤ u from hvu)
  have hstep : (Full.after E st0 as (v + 1)).fine.pipe.calls = (Full.after E st0 as v).fine.pipe.calls ++ [(i, a)] := by
    have h1 := after_run h (t := v + 1)
    rw [List.take_add_one, hv] at h1
    obtain ⟨w, h2, h3⟩ := full_run_snoc h1
    rw [after_run h] at h2
    cases h2
    unfold Full.step at h3
    split at h3
    · simp at h3
    · simp only [EAct.fine?] at h3
      obtain ⟨f, h4, e⟩ := Option.map_eq_some_iff.1 h3
      rw [← e]
      show f.pipe.calls = _
      obtain ⟨_, hs⟩ := fine_step h4
      clear h4
      cases hs with
      | pipe a p h0 hp he =>
        subst he
        rw [step_calls _ _ _ hp]; rfl
  have e1 := run_calls _ _ _ hbs
  rw [run_calls _ _ _ r2, hstep, run_calls _ _ _ r1, List.append_assoc, List.append_assoc] at e1
  have := List.append_cancel_left e1
  rw [← this]
  simp

def IdxOp.removesId (d : Str) : IdxOp → Bool
  | .remove id _ => id = d
  | _ => false

/-- What the index finds between two Flushes, at any moment. -/
theorem found_between (hdoc : c.DocOk) (hk : c.KeysOk) {E : EngCfg D F A} (hso : SortOk E.so) {o : IndexerOpts}
    {db : Fin c.stores → List (Str × D)} (hs : GentleStart c o db) {as : List (EAct c.toPipeSize D F)} {st : Full c F A}
    (h : (Full.start c o db).run E as = some st) (hg : (Full.start c o db).Gentle E o db as) {f t : Nat} (hft : f ≤ t)
    (ht : t < as.length) (hq : (Full.after E (Full.start c o db) as f).fine.pipe.Quiet)
    (hno : ∀ v i, f ≤ v → as[v]? ≠ some (.pipe (.call i .flush)))
    {r : SearchReq F} (hlogic : r.logic = {}) (htok : o.indexType = .locs → E.tokens r ≠ [])
    (s : Fin c.shards) {docs : List IndexedDoc}
    (hf : (Full.after E (Full.start c o db) as t).found E s r = some docs) :
    (docs.map (·.docId)).Nodup ∧ ∃ n avg df,
      (Full.after E (Full.start c o db) as t).fine.Stats s n avg df ∧ ∀ d l, d ≠ str "0" →
      Rounds db d (Full.after E (Full.start c o db) as f).fine.pipe l →
      (d ∈ docs.map (·.docId) →
        Matches (ideal (((Full.after E (Full.start c o db) as f).fine.pipe.given db).flatMap (c.callOps s)))
          r.docIds (E.tokens r ++ r.labels) d) ∧
      ((∀ v i g, f ≤ v → as[v]? ≠ some (.pipe (.call i (.remove d g)))) →
        Matches (ideal (((Full.after E (Full.start c o db) as f).fine.pipe.given db).flatMap (c.callOps s)))
          r.docIds (E.tokens r ++ r.labels) d → d ∈ docs.map (·.docId)) ∧
      (∀ v i g q, f ≤ v → v < q → q ≤ t → as[v]? = some (.pipe (.call i (.remove d g))) →
        (Full.after E (Full.start c o db) as q).fine.pipe.Quiet → d ∉ docs.map (·.docId)) ∧
      ∀ x ∈ docs, x.docId = d → ∃ doc,
        ideal (((Full.after E (Full.start c o db) as f).fine.pipe.given db).flatMap (c.callOps s)) d = some doc ∧
        x = expectedDoc E.log2 o.init n avg df (E.tokens r) doc := by
  have hgt : (Full.start c o db).Gentle E o db (as.take t) := by
    rw [← List.take_append_drop t as] at hg
    exact full_gentle_take hg
  obtain ⟨fs, g1, g2⟩ := full_run_gentle _ (after_run h (t := t)) hgt
  have hI := ginv_run hk hso fs (ginv_start hs) g2 g1
  have hcl := full_gentle_noClash hk hso hs h hg
  obtain ⟨fs', g1', g2'⟩ := full_run_fine _ (after_run h (t := t)) (after_noClash hcl (Nat.le_of_lt ht))
  have hal := after_alive h ht s
  obtain ⟨tr, htr, hfo, vis, hv, hall⟩ := search_during_calls hk hso g1' g2' s hal E.log2
  obtain ⟨docs', f1, f2, f3, n, avg, df, hst, f4⟩ := hall (E.tokens r) r.labels r.docIds htok
  unfold Full.found at hf
  rw [hlogic, lookup_no_logic, f1] at hf
  simp only [Option.map_some, Option.some.injEq] at hf
  subst hf
  refine ⟨f2.imp (fun h => ne_of_gt h), n, avg, df, hst, fun d l h0 hr => ?_⟩
  -- what happened since the moment `f`
  obtain ⟨hreach, hinv⟩ := hr.inv hdoc h0
  obtain ⟨i1, _, i3, i4⟩ := hinv s
  obtain ⟨bs, hbs, hcall⟩ := after_pipe h hft
  have hgc : ∀ z ∈ bs.flatMap Act.called, z.2.isFlush = false ∧ ∀ x y, z.2 ≠ .index x y true := by
    intro z hz
    obtain ⟨v, hv1, hv2⟩ := hcall z hz
    refine ⟨?_, fun x y e => ?_⟩
    · cases hz2 : z.2 with
      | flush => rw [hz2] at hv2; exact absurd hv2 (hno v _ hv1)
      | _ => rfl
    · rw [e] at hv2
      have := (hg v _ _ hv2).1
      simp at this
  obtain ⟨h2, hlog⟩ := run_idxLog bs _ _ hbs s
  obtain ⟨p0, hforce⟩ := since_quiet hreach hq hbs s IdxOp.force (fun z hz => by
    obtain ⟨q1, q2⟩ := hgc z hz
    obtain ⟨v, hv1, hv2⟩ := hcall z hz
    have := (gentle_ops (hg v _ _ hv2) s).1
    rw [this, q1]; rfl)
  have hcalm : ∀ x ∈ h2, x.refreshes = false := by
    intro x hx
    have := hforce h2 hlog.symm x hx
    cases x <;> simp_all [IdxOp.force, IdxOp.refreshes]
  have hfits := hI.gentle.fits s
  have hok := log_ok hk hI.finv.reach s
  rw [← hlog] at htr hfo hfits hok
  obtain ⟨v1, v2, v3⟩ := vis_calm hso _ h2 htr hfo hfits hok hcalm h0
  rw [hlog] at v1 v2 v3
  -- what was visible at the moment `f`
  have hbase : (tr ((Full.after E (Full.start c o db) as f).fine.pipe.idxLog s).length).vis d =
      ideal (((Full.after E (Full.start c o db) as f).fine.pipe.given db).flatMap (c.callOps s)) d := by
    have hp := i4.no_pend htr.prefix
    rw [← (htr.prefix.doc_ideal i3).2 hp |>.symm, ideal_docOps, i1, ← ideal_docOps, hr.given, ideal_given hdoc]
  rw [hbase] at v1 v2
  -- and what is visible now
  have hnow : vis d = none ∨ vis d =
      (tr ((Full.after E (Full.start c o db) as t).fine.pipe.idxLog s).length).vis d := by
    rcases hv d with e | ⟨e, _⟩
    · exact .inr e
    · exact .inl e
  have hle : vis d = none ∨ vis d =
      ideal (((Full.after E (Full.start c o db) as f).fine.pipe.given db).flatMap (c.callOps s)) d := by
    rcases hnow with e | e
    · exact .inl e
    · rw [e]; exact v1
  refine ⟨fun hd => ?_, fun hnr hm => ?_, fun v i g q hfv hvq hqt hrem hqq hd => ?_, ?_⟩
  · rw [f3 d] at hd
    rcases hle with e | e
    · simp only [Matches, e] at hd; obtain ⟨_, _, doc, hd, _⟩ := hd; simp at hd
    · simp only [Matches, e] at hd; exact hd
  · rw [f3 d]
    -- no removal is waiting or was executed
    obtain ⟨p1, p2⟩ := since_quiet hreach hq hbs s (IdxOp.removesId d) (fun z hz => by
      obtain ⟨v, hv1, hv2⟩ := hcall z hz
      cases hz2 : z.2 with
      | remove id g =>
        rw [hz2] at hv2
        have hne : id ≠ d := by rintro rfl; exact hnr v _ g hv1 hv2
        simp [PipeCfg.callOps, IdxOp.removesId, hne]
      | index id y g =>
        simp only [PipeCfg.callOps]
        split
        · split <;> simp [IdxOp.removesId]
        · split
          · simp [IdxOp.removesId]
          · split <;> simp [IdxOp.removesId]
      | flush => simp [PipeCfg.callOps, IdxOp.removesId])
    have hvd : vis d = ideal (((Full.after E (Full.start c o db) as f).fine.pipe.given db).flatMap (c.callOps s)) d := by
      rw [← v2 (fun g hg => by have := p2 h2 hlog.symm _ hg; simp [IdxOp.removesId] at this)]
      rcases hv d with e | ⟨_, ⟨hr1, g, hr2⟩ | ⟨hr1, _⟩⟩
      · exact e
      · exfalso
        obtain ⟨s', l', hp⟩ := nextIdx_some hr2
        obtain ⟨rfl, _⟩ := idx_rem_prog hI.finv.reach hp
        have := prog_pend hp (p := IdxOp.removesId d) (by simp [IdxOp.removesId])
        omega
      · exfalso
        obtain ⟨op, l', hp, hfo'⟩ := hI.late s (by
          cases hx : ((Full.after E (Full.start c o db) as t).fine.shard s).add <;>
            simp_all [AddPC.late, AddPC.refreshing])
        have := prog_pend hp hfo'
        omega
    simp only [Matches, hvd]
    exact hm
  · -- the removal was executed
    obtain ⟨b1, r1, _⟩ := after_pipe h (show f ≤ q by omega)
    obtain ⟨b2, r2, _⟩ := after_pipe h hqt
    have hz := called_between h hfv hvq hrem r1
    obtain ⟨h3, e3⟩ := run_idxLog b1 _ _ r1 s
    obtain ⟨h4, e4⟩ := run_idxLog b2 _ _ r2 s
    obtain ⟨op, o1, o2⟩ := done_quiet hreach hqq r1 s (IdxOp.removesId d) hz (by
      simp [PipeCfg.callOps, IdxOp.removesId]) e3.symm
    have e5 : h2 = h3 ++ h4 := by
      rw [← e3, ← hlog, List.append_assoc] at e4
      exact (List.append_cancel_left e4).symm
    have hnone := by
      cases op with
      | remove id g =>
        simp only [IdxOp.removesId, decide_eq_true_eq] at o2
        subst o2
        exact v3 g (by rw [e5]; exact List.mem_append.2 (.inl o1))
      | _ => simp [IdxOp.removesId] at o2
    rw [f3 d] at hd
    have : vis d = none := by
      rcases hnow with e | e
      · exact e
      · rw [e]; exact hnone
    simp only [Matches, this] at hd
    obtain ⟨_, _, doc, hd, _⟩ := hd
    simp at hd
  · rintro x hx rfl
    obtain ⟨doc, e1, e2⟩ := f4 x hx
    refine ⟨doc, ?_, e2⟩
    rcases hle with e | e
    · rw [e] at e1; simp at e1
    · rw [← e]; exact e1

/-- The entries of a part when what is registered may change. -/
theorem entries_moving {E : EngCfg D F A} {st0 : Full c F A} {as : List (EAct c.toPipeSize D F)} {r : SearchReq F}
    (hsc : ∀ d f, (wantedRank E.opts r).score d f ≠ []) {s : Fin c.shards} {d : Str} :
    ∀ (docs : List IndexedDoc) (ts : List Nat), ts.length = docs.length →
      ((∀ t ∈ ts, ((Full.after E st0 as t).registered E s d).isSome = true) → d ∈ docs.map (·.docId) →
        d ∈ (entriesDuring E st0 as s r docs ts).map (·.scoredID.docId)) ∧
      ∀ e ∈ entriesDuring E st0 as s r docs ts, ∃ t ∈ ts, ∃ x, (Full.after E st0 as t).registered E s e.scoredID.docId = some x ∧
        e.fields = x.fields ∧ e.content = x.content ∧ e.attri = x.attri ∧
        ∃ doc ∈ docs, doc.docId = e.scoredID.docId ∧ ScoredAs E r doc e := by
  intro docs
  induction docs with
  | nil => intro ts _; simp [entriesDuring]
  | cons a docs ih =>
    intro ts hl
    cases ts with
    | nil => simp at hl
    | cons t ts =>
      obtain ⟨i1, i2⟩ := ih ts (by simpa using hl)
      unfold entriesDuring at i1 i2 ⊢
      rw [List.zip_cons_cons, List.filterMap_cons]
      unfold expectedScored at i1 i2 ⊢
      simp only at i1 i2 ⊢
      have old : ∀ e : ScoredDoc F A, (∃ u ∈ ts, ∃ x, (Full.after E st0 as u).registered E s e.scoredID.docId = some x ∧
          e.fields = x.fields ∧ e.content = x.content ∧ e.attri = x.attri ∧
          ∃ doc ∈ docs, doc.docId = e.scoredID.docId ∧ ScoredAs E r doc e) →
          ∃ u ∈ t :: ts, ∃ x, (Full.after E st0 as u).registered E s e.scoredID.docId = some x ∧
          e.fields = x.fields ∧ e.content = x.content ∧ e.attri = x.attri ∧
          ∃ doc ∈ a :: docs, doc.docId = e.scoredID.docId ∧ ScoredAs E r doc e := by
        rintro e ⟨u, hu, x, j1, j2, j3, j4, doc, j5, j6⟩
        exact ⟨u, by simp [hu], x, j1, j2, j3, j4, doc, by simp [j5], j6⟩
      cases hx : (Full.after E st0 as t).registered E s a.docId with
      | none =>
        simp only
        refine ⟨fun hreg hd => ?_, fun e he => old e (i2 e he)⟩
        refine i1 (fun u hu => hreg u (by simp [hu])) ?_
        rw [List.map_cons, List.mem_cons] at hd
        rcases hd with rfl | hd
        · have := hreg t (by simp)
          rw [hx] at this; simp at this
        · exact hd
      | some x =>
        simp only [if_neg (hsc a x.fields), List.map_cons, List.mem_cons]
        refine ⟨fun hreg hd => ?_, ?_⟩
        · rcases hd with rfl | hd
          · exact .inl rfl
          · exact .inr (i1 (fun u hu => hreg u (.inr hu)) hd)
        · rintro e (rfl | he)
          · exact ⟨t, .inl rfl, x, hx, rfl, rfl, rfl, a, .inl rfl, rfl, rfl, rfl, rfl⟩
          · simpa only [List.mem_cons] using old e (i2 e he)

/-- A document that is on a shard at a moment at which all work is done, never having been indexed again after a
removal, stays registered there as long as nobody removes it. -/
theorem registered_since (hdoc : c.DocOk) {E : EngCfg D F A} {o : IndexerOpts} {db : Fin c.stores → List (Str × D)}
    {as : List (EAct c.toPipeSize D F)} {st : Full c F A} (h : (Full.start c o db).run E as = some st) {f t : Nat}
    (hft : f ≤ t) (hreach : Reach db (Full.after E (Full.start c o db) as f).fine.pipe)
    (hq : (Full.after E (Full.start c o db) as f).fine.pipe.Quiet) {d : Str} (h0 : d ≠ str "0")
    (hre : ∀ g x g' l1 l2, (Full.after E (Full.start c o db) as f).fine.pipe.given db = l1 ++ Call.remove d g :: l2 →
      Call.index d x g' ∉ l2)
    (hnr : ∀ v i g, f ≤ v → as[v]? ≠ some (.pipe (.call i (.remove d g)))) (s : Fin c.shards) {doc : DocIndex}
    (hi : ideal (((Full.after E (Full.start c o db) as f).fine.pipe.given db).flatMap (c.callOps s)) d = some doc) :
    ((Full.after E (Full.start c o db) as t).registered E s d).isSome = true := by
  obtain ⟨L1, x, g, L2, e1, e2, _, e4⟩ := ideal_from_index hdoc s d _ doc hi
  have hnof : ∀ f', Call.remove d f' ∉ (Full.after E (Full.start c o db) as f).fine.pipe.given db := by
    intro f' hm
    rw [e1] at hm
    rcases List.mem_append.1 hm with hm | hm
    · obtain ⟨A1, A2, hA⟩ := List.append_of_mem hm
      exact hre f' x g A1 (A2 ++ Call.index d x g :: L2) (by rw [e1, hA]; simp) (by simp)
    · simp only [List.mem_cons, reduceCtorEq, false_or] at hm
      exact e4 f' hm
  obtain ⟨bs, hbs, hcall⟩ := after_pipe h hft
  have hgiv : (Full.after E (Full.start c o db) as t).fine.pipe.given db =
      (Full.after E (Full.start c o db) as f).fine.pipe.given db ++ (bs.flatMap Act.called).map (·.2) := by
    unfold Pipe.given
    rw [run_calls _ _ _ hbs, List.map_append, List.append_assoc]
  have hno : ∀ f', Call.remove d f' ∉ (Full.after E (Full.start c o db) as t).fine.pipe.given db := by
    intro f' hm
    rw [hgiv] at hm
    rcases List.mem_append.1 hm with hm | hm
    · exact hnof f' hm
    · obtain ⟨z, hz, e⟩ := List.mem_map.1 hm
      obtain ⟨v, hv1, hv2⟩ := hcall z hz
      rw [e] at hv2
      exact hnr v _ _ hv1 hv2
  have hreach' : Reach db (Full.after E (Full.start c o db) as t).fine.pipe := by
    obtain ⟨bs0, hb0⟩ := hreach
    exact ⟨bs0 ++ bs, by rw [pipe_run_append, hb0]; exact hbs⟩
  unfold Full.registered
  rw [rankIdeal_isSome (rankHistory_no_remove hreach' hno E.info E.opts.idOnly s)]
  have hm : RankEv.add d x ∈ ((Full.after E (Full.start c o db) as f).fine.pipe.given db).flatMap (c.callRank s) :=
    mem_callRank_add.2 ⟨h0, e2, g, by rw [e1]; simp⟩
  have hm2 := (rank_quiet hreach hq s).mem_iff.2 hm
  obtain ⟨l2, hl2⟩ := run_rankLog bs _ _ hbs s
  exact ⟨_, _, List.mem_map.2 ⟨_, by rw [← hl2]; exact List.mem_append.2 (.inl hm2), rfl⟩⟩

/-- **C88** Use an engine gently and take a moment `f` at which all its work is done. Until the next call of Flush,
whatever is indexed or removed meanwhile, by whomever, a plain search works on the index as it was at `f`, for each
document whose calls before `f` were separated by Flushes (and which was not indexed again after a removal):

* it is found only if its version as of `f` matches;
* if nobody removes it, it is found if its version as of `f` matches: what Index calls say meanwhile, also about this
  document, has no influence;
* if it was removed and that removal has been executed when the search begins, it is not found: removals need no Flush;
* its entry has the locations (and the BM25 and proximity seen by the scoring criteria) of the version as of `f`, but
  shows, and gives to the scoring criteria, the fields of some version that was given before the search ended. (`n`, `avg` and `df` are the shard's statistics at the moment of the search.) -/
theorem C88_between_flushes (hdoc : c.DocOk) (hk : c.KeysOk) {E : EngCfg D F A} (hso : SortOk E.so)
    (hgs : GSortOk E.gs) {o : IndexerOpts} {db : Fin c.stores → List (Str × D)} (hs : GentleStart c o db)
    {as : List (EAct c.toPipeSize D F)} {st : Full c F A} (h : (Full.start c o db).run E as = some st)
    (hg : (Full.start c o db).Gentle E o db as) {f : Nat}
    (hquiet : (Full.after E (Full.start c o db) as f).fine.pipe.Quiet)
    (hno : ∀ t i, f ≤ t → as[t]? ≠ some (.pipe (.call i .flush)))
    {k b : Nat} {r : SearchReq F} (hb : Began as k b r) (hfb : f ≤ b)
    (hret : st.Returned k) (hc : r.countDocsOnly = false) (hor : r.orderless = false)
    (hlogic : r.logic = {}) (htok : o.indexType = .locs → E.tokens r ≠ []) {off m : Nat}
    (ho : (wantedRank E.opts r).outputOffset = off) (hm : (wantedRank E.opts r).maxOutputs = m)
    (hsc : ∀ d f, (wantedRank E.opts r).score d f ≠ [] ∧ NoNaN ((wantedRank E.opts r).score d f)) :
    ∃ (lists : List (Fin c.shards × List (ScoredDoc F A))) (resp : SearchResp F A),
      (lists.map (·.1)).Nodup ∧ st.response E k = some resp ∧
      (resp.timeout = false → ∀ s, s ∈ lists.map (·.1)) ∧
      IsPageOf E.opts.idOnly (wantedRank E.opts r).reverseOrder (E.tokens r) off m (lists.flatMap (·.2)) resp ∧
      ∀ p ∈ lists, ((p.2).map (·.scoredID.docId)).Nodup ∧ ∃ n avg df,
        StatsDuring E (Full.start c o db) as b p.1 n avg df ∧ ∀ d l, d ≠ str "0" →
        Rounds db d (Full.after E (Full.start c o db) as f).fine.pipe l →
        (∀ g x g' l1 l2, (Full.after E (Full.start c o db) as f).fine.pipe.given db = l1 ++ Call.remove d g :: l2 →
          Call.index d x g' ∉ l2) →
        (d ∈ (p.2).map (·.scoredID.docId) →
          Matches (ideal (((Full.after E (Full.start c o db) as f).fine.pipe.given db).flatMap (c.callOps p.1)))
            r.docIds (E.tokens r ++ r.labels) d) ∧
        ((∀ t i g, f ≤ t → as[t]? ≠ some (.pipe (.call i (.remove d g)))) →
          Matches (ideal (((Full.after E (Full.start c o db) as f).fine.pipe.given db).flatMap (c.callOps p.1)))
            r.docIds (E.tokens r ++ r.labels) d → d ∈ (p.2).map (·.scoredID.docId)) ∧
        (∀ t i g q, f ≤ t → t < q → q ≤ b → as[t]? = some (.pipe (.call i (.remove d g))) →
          (Full.after E (Full.start c o db) as q).fine.pipe.Quiet → d ∉ (p.2).map (·.scoredID.docId)) ∧
        ∀ e ∈ p.2, e.scoredID.docId = d → ShowsVersion c E (st.fine.pipe.given db) p.1 e ∧
          ∃ doc, ideal (((Full.after E (Full.start c o db) as f).fine.pipe.given db).flatMap (c.callOps p.1)) d =
              some doc ∧ ScoredAs E r (expectedDoc E.log2 o.init n avg df (E.tokens r) doc) e := by
  obtain ⟨parts, resp, g1, g2, g3, g4, g5⟩ := C73_search_during_everything hgs h hb hret.2 hc hor ho hm
    (fun d f => (hsc d f).2)
  refine ⟨parts.map (fun p => (p.shard, p.entries E (Full.start c o db) as r)), resp, ?_, g3, ?_, ?_, ?_⟩
  · rw [List.map_map]; exact g1
  · rw [List.map_map]; exact g4
  · rw [List.flatMap_map]; exact g5
  · intro p' hp'
    obtain ⟨p, hp, rfl⟩ := List.mem_map.1 hp'
    have hok := g2 p hp
    obtain ⟨hlo, hhi⟩ := hok.during
    obtain ⟨hl, _, hts⟩ := hok.reads
    obtain ⟨f1, n, avg, df, hst, f2⟩ := found_between hdoc hk hso hs h hg (show f ≤ p.look by omega) hhi hquiet hno hlogic htok
      p.shard hok.found
    have hsub := entries_sublist (E := E) (st0 := Full.start c o db) (as := as) (r := r) (s := p.shard) p.docs p.reads
    refine ⟨f1.sublist hsub, n, avg, df, ⟨p.look, hlo, hhi, hst⟩, fun d l h0 hr hre => ?_⟩
    obtain ⟨q1, q2, q3, q4⟩ := f2 d l h0 hr
    have hreach := (hr.inv hdoc h0).1
    obtain ⟨m1, m2⟩ := entries_moving (E := E) (st0 := Full.start c o db) (as := as) (r := r)
      (fun d f => (hsc d f).1) (s := p.shard) (d := d) p.docs p.reads hl
    refine ⟨fun hd => q1 (hsub.subset hd), fun hnr hM => ?_, fun t i g q a1 a2 a3 a4 a5 hd => ?_, fun e he hd => ?_⟩
    · refine m1 (fun u hu => ?_) (q2 hnr hM)
      obtain ⟨_, _, doc, hi, _⟩ := id hM
      exact registered_since hdoc h (by have := (hts u hu).1; omega) hreach hquiet h0 hre hnr p.shard hi
    · exact q3 t i g q a1 a2 (by omega) a4 a5 (hsub.subset hd)
    · obtain ⟨u, hu, x, j1, j2, j3, j4, doc, j5, j6, j7⟩ := m2 e he
      refine ⟨?_, ?_⟩
      · obtain ⟨y, k1, k2, k3⟩ := rankIdeal_version E.info E.opts.idOnly _ j1
        obtain ⟨bs, hbs, _⟩ := after_pipe h (Nat.zero_le u)
        have hru : Reach db (Full.after E (Full.start c o db) as u).fine.pipe := by
          obtain ⟨bs, hbs, _⟩ := after_pipe h (Nat.zero_le u)
          exact ⟨bs, by simpa [Full.after, Full.run, Full.start, Fine.start] using hbs⟩
        obtain ⟨_, k4, g, k5⟩ := mem_callRank_add.1 (rank_mem hru p.shard k1)
        obtain ⟨bs2, hbs2, _⟩ := after_pipe h (show u ≤ as.length by have := (hts u hu).2; omega)
        have hst : Full.after E (Full.start c o db) as as.length = st := after_length h
        rw [hst] at hbs2
        have hin : Call.index e.scoredID.docId y g ∈ st.fine.pipe.given db := by
          unfold Pipe.given at k5 ⊢
          rw [run_calls _ _ _ hbs2, List.map_append, ← List.append_assoc]
          exact List.mem_append.2 (.inl k5)
        exact ⟨y, g, hin, k4, by rw [j2, k2], fun hid => by rw [j3, j4]; exact k3 hid⟩
      · obtain ⟨doc', k1, rfl⟩ := q4 doc j5 (by rw [j6]; exact hd)
        exact ⟨doc', k1, j7⟩

/-! ## An example -/

/-- "X" is indexed again with another content, "W" is new, "Y" is removed. -/
def betweenCalls : List (EAct pairEngine.toPipeSize Nat Nat) := flushState.script (demoEng true)
  [.inl (.pipe (.call userA (.index (str "X") 0 false))), .inr (engineCands _),
   .inl (.pipe (.call userA (.index (str "W") 5 false))), .inr (engineCands _),
   .inl (.pipe (.call userA (.remove (str "Y") false))), .inr (engineCands _)]

def betweenState : Full pairEngine Nat Nat := (flushState.run (demoEng true) betweenCalls).getD flushState

/-- A search then. -/
def betweenSearch : List (EAct pairEngine.toPipeSize Nat Nat) :=
  .start searchK :: ((betweenState.step (demoEng true) (.start searchK)).getD betweenState).greedy (demoEng true)
    (searchCands _ 1) 300

/-- "X", "Y" and "Z" are indexed and flushed; then those calls, then the search. -/
def betweenRun : List (EAct pairEngine.toPipeSize Nat Nat) := loadRun ++ flushRun ++ (betweenCalls ++ betweenSearch)

/-- The hypotheses of `C88_between_flushes` hold of that schedule. "X" and "Z" are found, the former ranked by its new
content; "Y" and "W" are not. -/
example : ∃ st f b, pairStart.run (demoEng true) betweenRun = some st ∧
    pairStart.Gentle (demoEng true) (smallOpts .docIds 10) (fun _ => []) betweenRun ∧
    (Full.after (demoEng true) pairStart betweenRun f).fine.pipe.Quiet ∧
    (∀ t i, f ≤ t → betweenRun[t]? ≠ some (.pipe (.call i .flush))) ∧
    Began betweenRun 0 b searchK ∧ f ≤ b ∧ st.Returned 0 ∧
    (∃ l, Rounds (fun _ => []) (str "X") (Full.after (demoEng true) pairStart betweenRun f).fine.pipe l) ∧
    (Full.after (demoEng true) pairStart betweenRun b).fine.pipe.Quiet ∧
    (∃ t i, f ≤ t ∧ t < b ∧ betweenRun[t]? = some (.pipe (.call i (.remove (str "Y") false)))) ∧
    respIds (st.response (demoEng true) 0) = some ([str "Z", str "X"], 2) := by
  have h : (pairStart.gentleRun (demoEng true) (smallOpts .docIds 10) (fun _ => []) betweenRun).any (fun st =>
    decide (0 < st.searches.length) && decide ((st.got 0).length = pairEngine.shards) &&
    decide (respIds (st.response (demoEng true) 0) = some ([str "Z", str "X"], 2))) = true := by
    decide +kernel
  have hb : ((loadRun ++ flushRun ++ betweenCalls).filter EAct.isStart).length = 0 := by decide +kernel
  have hl : (pairStart.run (demoEng true) loadRun).isSome = true := by decide +kernel
  have hf : (loadState.run (demoEng true) flushRun).isSome = true := by decide +kernel
  have hbt : (flushState.run (demoEng true) betweenCalls).isSome = true := by decide +kernel
  have hidle : (decide (∀ i, loadState.fine.pipe.prog (.client i) = [])) = true := by decide +kernel
  have htail : flushTail.all (fun a => a.call?.isNone) = true := by decide +kernel
  have hdone : flushState.fine.pipe.prog (.client userA) = [] := by decide +kernel
  have hq : flushState.fine.pipe.quietB = true := by decide +kernel
  have hq2 : betweenState.fine.pipe.quietB = true := by decide +kernel
  have hcalls : (((pairEngine.recovered (fun _ => [])).map (fun x => Call.index x.1 x.2 false) ++
      loadState.fine.pipe.calls.map (·.2)).filter (Call.about (str "X"))).length ≤ 1 := by decide +kernel
  have hno : (betweenCalls ++ betweenSearch).all (fun a => !(a.call?.any Call.isFlush)) = true := by decide +kernel
  have hrm : betweenCalls.any (fun a => decide (a.call? = some (.remove (str "Y") false))) = true := by decide +kernel
  have rl : pairStart.run (demoEng true) loadRun = some loadState := by
    obtain ⟨x, hx⟩ := Option.isSome_iff_exists.1 hl
    rw [loadState, hx, Option.getD_some]
  have rf : loadState.run (demoEng true) flushRun = some flushState := by
    obtain ⟨x, hx⟩ := Option.isSome_iff_exists.1 hf
    rw [flushState, hx, Option.getD_some]
  have rb : flushState.run (demoEng true) betweenCalls = some betweenState := by
    obtain ⟨x, hx⟩ := Option.isSome_iff_exists.1 hbt
    rw [betweenState, hx, Option.getD_some]
  have af : Full.after (demoEng true) pairStart betweenRun (loadRun ++ flushRun).length = flushState := by
    unfold Full.after
    rw [betweenRun, List.take_left, full_run_append, rl, Option.bind_some, rf]; rfl
  have ab : Full.after (demoEng true) pairStart betweenRun (loadRun ++ flushRun ++ betweenCalls).length =
      betweenState := by
    unfold Full.after
    rw [betweenRun, ← List.append_assoc, List.take_left, full_run_append, full_run_append, rl, Option.bind_some, rf,
      Option.bind_some, rb]; rfl
  have hst : betweenSearch[0]? = some (.start searchK) := by rw [betweenSearch]; rfl
  obtain ⟨k1, _⟩ := after_first_round (E := demoEng true) (d := str "X") (tail := flushTail) (rest := [])
    (fun _ _ => rfl) (by decide +kernel) rl rf (of_decide_eq_true hidle) htail hdone hcalls (quiet_of_B hq) rfl rfl
  obtain ⟨st, h1, h2⟩ := (Option.any_eq_true _ _).1 h
  simp only [Bool.and_eq_true, decide_eq_true_eq] at h2
  obtain ⟨g1, g2⟩ := full_gentleRun_spec _ h1
  refine ⟨st, (loadRun ++ flushRun).length, (loadRun ++ flushRun ++ betweenCalls).length, g1, g2, ?_, ?_, ⟨?_, ?_⟩, ?_,
    ⟨h2.1.1, h2.1.2⟩, ?_, ?_, ?_, h2.2⟩
  · rw [af]; exact quiet_of_B hq
  · intro t i hft e
    rw [betweenRun, List.getElem?_append_right hft] at e
    have := List.all_eq_true.1 hno _ (List.mem_of_getElem? e)
    simp [EAct.call?, Call.isFlush] at this
  · rw [betweenRun, ← List.append_assoc, List.getElem?_append_right (Nat.le_refl _), Nat.sub_self]; exact hst
  · rw [betweenRun, ← List.append_assoc, List.take_left]; exact hb
  · rw [List.length_append (bs := betweenCalls)]; omega
  · rw [af]
    have : Full.after (demoEng true) pairStart (loadRun ++ flushRun ++ []) (loadRun ++ flushRun).length = flushState := by
      unfold Full.after
      rw [List.take_left, full_run_append, rl, Option.bind_some, rf]; rfl
    obtain ⟨l, hl⟩ := k1
    exact ⟨l, by rw [← this]; exact hl⟩
  · rw [ab]; exact quiet_of_B hq2
  · obtain ⟨a, ha, he⟩ := List.any_eq_true.1 hrm
    simp only [decide_eq_true_eq] at he
    obtain ⟨n, hn⟩ := List.getElem?_of_mem ha
    have hlt := (List.getElem?_eq_some_iff.1 hn).1
    refine ⟨(loadRun ++ flushRun).length + n, ?_⟩
    cases a with
    | pipe x =>
      cases x with
      | call i y =>
        simp only [EAct.call?, Option.some.injEq] at he
        subst he
        refine ⟨i, by omega, by rw [List.length_append (bs := betweenCalls)]; omega, ?_⟩
        rw [betweenRun, List.getElem?_append_right (by omega), Nat.add_sub_cancel_left,
          List.getElem?_append_left hlt]
        exact hn
      | _ => simp [EAct.call?] at he
    | _ => simp [EAct.call?] at he

end Riot
