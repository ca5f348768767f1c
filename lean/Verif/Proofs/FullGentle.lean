import Verif.Proofs.FullLive
import Verif.Props.FullQuiet

/-!
# Gently used engines survive
-/

namespace Riot

open Function (update)

variable {D F A : Type} {c : PipeCfg D}

theorem full_gentle_take {E : EngCfg D F A} {o : IndexerOpts} {db : Fin c.stores → List (Str × D)} {st0 : Full c F A}
    {as bs : List (EAct c.toPipeSize D F)} (h : st0.Gentle E o db (as ++ bs)) : st0.Gentle E o db as := by
  intro t i a ht
  have hlt := (List.getElem?_eq_some_iff.1 ht).1
  have := h t i a (by rw [List.getElem?_append_left hlt]; exact ht)
  rwa [after_snoc bs (by omega)] at this

/-- The pipeline of a gently used engine is gently used. -/
theorem full_run_gentle {E : EngCfg D F A} {o : IndexerOpts} {db : Fin c.stores → List (Str × D)} {st0 : Full c F A}
    (as : List (EAct c.toPipeSize D F)) : ∀ {st : Full c F A}, st0.run E as = some st → st0.Gentle E o db as →
      ∃ fs, st0.fine.run E.so fs = some st.fine ∧ st0.fine.Gentle E.so o db fs := by
  induction as using List.reverseRecOn with
  | nil =>
    intro st h hg
    simp only [Full.run, Option.some.injEq] at h
    subst h
    exact ⟨[], rfl, fun pre i a post st' he => by simp at he⟩
  | append_singleton as a ih =>
    intro st h hg
    obtain ⟨u, h1, h2⟩ := full_run_snoc h
    obtain ⟨fs, g1, g2⟩ := ih h1 (full_gentle_take hg)
    rcases full_step_fine h2 with e | ⟨b, hb, hx⟩
    · exact ⟨fs, by rw [e]; exact g1, g2⟩
    · refine ⟨fs ++ [b], by rw [fine_run_append, g1]; simp [Fine.run, hb], gentle_append g1 g2 ?_⟩
      intro pre i y post v he hr
      cases pre with
      | cons z pre => simp at he
      | nil =>
        simp only [List.nil_append, List.cons.injEq] at he
        simp only [Fine.run, Option.some.injEq] at hr
        subst hr
        have := hg as.length i y (by rw [List.getElem?_append_right (le_refl _)]; simp [hx _ he.1])
        rwa [after_snoc [a] (le_refl _), after_length h1] at this

/-- A gently used engine never executes a refresh during a removal, its index workers never panic, and its locks
are never crossed. -/
theorem full_gentle {E : EngCfg D F A} {o : IndexerOpts} {db : Fin c.stores → List (Str × D)} (hk : c.KeysOk)
    (hso : SortOk E.so) (hs : GentleStart c o db)
    {as : List (EAct c.toPipeSize D F)} {st : Full c F A} (h : (Full.start c o db).run E as = some st)
    (hg : (Full.start c o db).Gentle E o db as) :
    st.fine.dead = false ∧ (∀ s, ¬ (st.fine.shard s).Clash) ∧ ∀ s, ¬ (st.fine.shard s).crossed := by
  obtain ⟨fs, g1, g2⟩ := full_run_gentle as h hg
  have hI := ginv_run hk hso fs (ginv_start hs) g2 g1
  have hnc := GInv.noClash hI.gentle hI.late hI.rem
  refine ⟨hI.not_dead hk hso, hnc, fun s hx => ?_⟩
  obtain ⟨⟨fuel, i, p, f, id, ha⟩, id', f', hr⟩ := hx
  exact hnc s ⟨by rw [ha]; rfl, by rw [hr]; simp⟩

theorem full_gentle_noClash {E : EngCfg D F A} {o : IndexerOpts} {db : Fin c.stores → List (Str × D)} (hk : c.KeysOk)
    (hso : SortOk E.so) (hs : GentleStart c o db)
    {as : List (EAct c.toPipeSize D F)} {st : Full c F A} (h : (Full.start c o db).run E as = some st)
    (hg : (Full.start c o db).Gentle E o db as) : (Full.start c o db).NoClash E as := by
  intro t _ s
  have hg' : (Full.start c o db).Gentle E o db (as.take t) := by
    rw [← List.take_append_drop t as] at hg
    exact full_gentle_take hg
  exact (full_gentle hk hso hs (after_run h (t := t)) hg').2.1 s

/-- In every state of a run without clashes, a lookup of a safe request returns. -/
theorem lookup_safe {E : EngCfg D F A} {o : IndexerOpts} {db : Fin c.stores → List (Str × D)} (hk : c.KeysOk)
    (hso : SortOk E.so) {fs : List (FAct c.toPipeSize D)} {f : Fine c} (h : (Fine.start c o db).run E.so fs = some f)
    (hc : (Fine.start c o db).NoClash E.so fs) (s : Fin c.shards) (hd : (f.shard s).dead = false) {r : SearchReq F}
    (hr : SafeReq o E r) (countOnly : Bool) :
    (f.shard s).ix.lookup E.log2 (E.tokens r) r.labels r.docIds countOnly (some r.logic) ≠ none := by
  intro hl
  have hV := vinv_run hk hso fs (finv_start E.so o db) (vinv_start E.so o db) hc h
  obtain ⟨base, a, r', kb, known, tr, hS⟩ := hV s hd
  have hopts : (f.shard s).ix.opts.indexType = o.indexType := by
    obtain ⟨e, _⟩ := run_inv hso o _ (log_ok hk (finv_run hso fs (finv_start E.so o db) hc h).reach s) _ hS.rel.log
    rw [hS.rel.rel.opts, e]; unfold IndexerOpts.init; split <;> rfl
  rcases lookup_none_core hS.w.core hl with ⟨a1, a2, ⟨d, a3, _⟩, a4⟩ | ⟨b1, b2, l, b3, b4⟩
  · rw [hopts] at a1
    obtain ⟨c1, c2, c3, c4, c5⟩ := a4 _ rfl
    exact hr.labels ⟨a1, a2, a3, c1, c2, c3, c4, c5⟩
  · cases b3
    exact hr.must ⟨b1, b2, b4⟩

/-- How a worker of the searches panics. -/
theorem full_dead {E : EngCfg D F A} {st st' : Full c F A} {a : EAct c.toPipeSize D F} (h : st.step E a = some st')
    (hd : st'.dead = true) :
    (∃ s k r, st.req k s = .locked ∧ st.searches[k]? = some r ∧
      Engine.indexerLookup (F := F) (A := A) E.log2 E.opts (st.fine.shard s).ix (E.tokens r) r = none) ∨
    ∃ s k call, st.req k s = .ranking call ∧ call.finish E.gs E.opts.idOnly = none := by
  have hal : st.dead = false := (full_step h).1
  by_cases hA : ∃ s k r, st.req k s = .locked ∧ st.searches[k]? = some r ∧
      Engine.indexerLookup (F := F) (A := A) E.log2 E.opts (st.fine.shard s).ix (E.tokens r) r = none
  · exact .inl hA
  by_cases hB : ∃ s k call, st.req k s = .ranking call ∧ call.finish E.gs E.opts.idOnly = none
  · exact .inr hB
  exfalso
  have key : st'.dead = st.dead := by
    unfold Full.step at h
    split at h
    · simp at h
    · cases hf : a.fine? with
      | some b =>
        rw [hf] at h
        obtain ⟨f, h1, rfl⟩ := Option.map_eq_some_iff.1 h
        rfl
      | none =>
        rw [hf] at h
        simp only at h
        cases a <;> simp only [Full.search, EAct.fine?, reduceCtorEq] at h hf
        case start r => split at h <;> simp at h; rw [← h]
        case send k =>
          split at h
          · split at h <;> simp at h; rw [← h]; rfl
          · simp at h
        case take s =>
          split at h
          · split at h <;> simp at h; rw [← h]; rfl
          · simp at h
        case lock s k =>
          split at h
          · obtain ⟨f, h1, rfl⟩ := Option.map_eq_some_iff.1 h
            rfl
          · simp at h
        case look s k =>
          split at h
          · rename_i r hr hk
            split at h
            · rename_i hn; exact absurd ⟨s, k, r, hr, hk, hn⟩ hA
            · obtain ⟨f, h1, rfl⟩ := Option.map_eq_some_iff.1 h
              rfl
          · simp at h
        case reply s k =>
          split at h
          · obtain ⟨f, h1, rfl⟩ := Option.map_eq_some_iff.1 h
            unfold Full.deliver at h1
            split at h1 <;> simp at h1
            rw [← h1]; rfl
          · simp at h
        case forward s k =>
          split at h
          · split at h <;> simp at h; rw [← h]; rfl
          · simp at h
        case takeRank s =>
          split at h
          · split at h
            · split at h <;> simp at h; rw [← h]; rfl
            · simp at h
          · simp at h
        case read s k =>
          split at h
          · split at h <;> simp at h; rw [← h]; rfl
          · simp at h
        case replyRank s k =>
          split at h
          · rename_i call hr
            split at h
            · split at h
              · rename_i hn; exact absurd ⟨s, k, call, hr, hn⟩ hB
              · obtain ⟨f, h1, rfl⟩ := Option.map_eq_some_iff.1 h
                unfold Full.deliver at h1
                split at h1 <;> simp at h1
                rw [← h1]; rfl
            · simp at h
          · simp at h
        case recv k =>
          split at h
          · split at h <;> simp at h; rw [← h]
          · simp at h
        case timer k =>
          split at h
          · split at h <;> simp at h; rw [← h]
          · simp at h
  rw [key, hal] at hd
  simp at hd

/-- The end of a rank call does not panic. -/
theorem finish_isSome {gs : GSort} {idOnly : Bool} {call : RankCall F A} {o : RankOpts F} (h1 : call.opts = shardOpts o)
    (h2 : call.countOnly = false) (h3 : 0 ≤ o.outputOffset) (h4 : 0 ≤ o.maxOutputs) :
    (call.finish gs idOnly).isSome = true := by
  have hm : ∃ m : Nat, (shardOpts o).maxOutputs = m := by
    refine ⟨(shardOpts o).maxOutputs.toNat, ?_⟩
    unfold shardOpts
    simp only
    split <;> omega
  obtain ⟨m, hm⟩ := hm
  have ho : (shardOpts o).outputOffset = (0 : Nat) := rfl
  unfold RankCall.finish
  rw [h1, h2]
  split
  · rw [sortAndCut_page gs (shardOpts o) _ _ 0 m ho hm]; rfl
  · rw [sortAndCut_page gs (shardOpts o) _ _ 0 m ho hm]; rfl

/-- The searches of a run are safe. -/
theorem searches_mem {E : EngCfg D F A} {o : IndexerOpts} {db : Fin c.stores → List (Str × D)}
    {as : List (EAct c.toPipeSize D F)} {st : Full c F A} (h : (Full.start c o db).run E as = some st) {k : Nat}
    {r : SearchReq F} (hk : st.searches[k]? = some r) : EAct.start r ∈ as := by
  obtain ⟨b, hb, _⟩ := (hist_run as h).1.each k r hk
  exact List.mem_of_getElem? hb.1

/-- **A gently used engine with safe searches never panics.** -/
theorem full_gentle_alive {E : EngCfg D F A} {o : IndexerOpts} {db : Fin c.stores → List (Str × D)} (hk : c.KeysOk)
    (hso : SortOk E.so) (hs : GentleStart c o db) (as : List (EAct c.toPipeSize D F)) :
    ∀ {st : Full c F A}, (Full.start c o db).run E as = some st →
      (Full.start c o db).Gentle E o db as → (∀ r, EAct.start r ∈ as → SafeReq o E r) → st.crashed = false := by
  intro st h hg hsafe
  have hf := (full_gentle hk hso hs h hg).1
  suffices st.dead = false by simp [Full.crashed, this, hf]
  induction as using List.reverseRecOn generalizing st with
  | nil => simp only [Full.run, Option.some.injEq] at h; subst h; rfl
  | append_singleton as a ih =>
    obtain ⟨u, h1, h2⟩ := full_run_snoc h
    have hg1 := full_gentle_take hg
    have hsafe1 : ∀ r, EAct.start r ∈ as → SafeReq o E r := fun r hr => hsafe r (by simp [hr])
    have hfu := (full_gentle hk hso hs h1 hg1).1
    by_contra hd
    rcases full_dead h2 (by simpa using hd) with ⟨s, k, r, e1, e2, e3⟩ | ⟨s, k, call, e1, e2⟩
    · have hsr := hsafe1 r (searches_mem h1 e2)
      obtain ⟨fs, g1, g2⟩ := full_run_fine as h1 (full_gentle_noClash hk hso hs h1 hg1)
      have hne := lookup_safe hk hso g1 g2 s (not_dead_iff.1 hfu s) hsr r.countDocsOnly
      obtain ⟨x, hx⟩ := Option.ne_none_iff_exists'.1 hne
      unfold Engine.indexerLookup at e3
      rw [hx] at e3
      simp only [Option.bind_eq_bind, Option.bind_some] at e3
      (repeat' split at e3) <;> simp at e3
    · obtain ⟨p, _⟩ := counts_run as (Proto.start o db) (Counts.start o db) h1
      have hlt := p.lt (k := k) (s := s) (by simp [e1])
      obtain ⟨r, hr⟩ : ∃ r, u.searches[k]? = some r := ⟨_, List.getElem?_eq_getElem hlt⟩
      obtain ⟨b, _, hreq, _⟩ := (hist_run as h1).1.each k r hr
      have := hreq s
      rw [e1] at this
      obtain ⟨t, docs, _, hcall⟩ := this
      have hsr := hsafe1 r (searches_mem h1 hr)
      have := finish_isSome (gs := E.gs) (idOnly := E.opts.idOnly) hcall.opts hcall.cnt
        (by rw [rankOpts_eq]; exact hsr.offset) (by rw [rankOpts_eq]; exact hsr.max)
      rw [e2] at this
      simp at this

/-- The answers of a shard have the form the searcher expects. -/
theorem ans_cast {E : EngCfg D F A} {st0 : Full c F A} {as : List (EAct c.toPipeSize D F)} {b : Nat} {r : SearchReq F}
    {s : Fin c.shards} {a : Answer F A} (h : AnsOk E st0 as b r s a) :
    ∀ d, a.docs = some d → (E.opts.idOnly = true → (asIDs d).isSome = true) ∧ (E.opts.idOnly = false → (asDocs d).isSome = true) := by
  intro d hd
  obtain ⟨t, ⟨_, _, h3⟩ | ⟨docs, call, x, _, _, _, hfin, rfl⟩⟩ := h
  · unfold Engine.indexerLookup at h3
    obtain ⟨x, hx, h3⟩ := Option.bind_eq_some_iff.1 h3
    simp only [Option.bind_eq_bind] at h3
    (repeat' split at h3) <;> simp at h3
    all_goals subst h3
    · simp at hd
    · simp at hd
    · unfold Engine.orderLess at hd
      simp only at hd
      split at hd <;> simp at hd <;> subst hd <;> simp_all [asIDs, asDocs]
  · simp only [Option.some.injEq] at hd
    subst hd
    unfold RankCall.finish at hfin
    split at hfin
    · obtain ⟨y, _, rfl⟩ := Option.map_eq_some_iff.1 hfin
      simp_all [asIDs]
    · obtain ⟨y, _, rfl⟩ := Option.map_eq_some_iff.1 hfin
      simp_all [asDocs]

theorem collect_isSome {α : Type} {cast : RankOut F A → Option (List α)} {countOnly : Bool} :
    ∀ (es : List (Option (Answer F A))) (acc : Collected α),
      (∀ a, some a ∈ es → ∀ d, a.docs = some d → (cast d).isSome = true) → (collect cast countOnly acc es).isSome = true
  | [], acc, _ => rfl
  | none :: es, acc, h => by
    unfold collect
    exact collect_isSome es _ (fun a ha => h a (by simp [ha]))
  | some a :: es, acc, h => by
    unfold collect
    split
    · rename_i d hd
      have := h a (by simp) d hd
      cases hc : cast d with
      | none => rw [hc] at this; simp at this
      | some l => exact collect_isSome es _ (fun a ha => h a (by simp [ha]))
    · exact collect_isSome es _ (fun a ha => h a (by simp [ha]))

theorem finishSearch_isSome {α : Type} [HasScores α] {gs : GSort} {wrap : List α → RankOut F A} {r : SearchReq F}
    {o : RankOpts F} {tokens : List Str} {x : Collected α} (h3 : 0 ≤ o.outputOffset) (h4 : 0 ≤ o.maxOutputs) :
    (finishSearch gs wrap r o tokens x).isSome = true := by
  unfold finishSearch
  simp only
  split
  · rfl
  · split
    · rfl
    · rw [maxRankOutput_page _ o.outputOffset.toNat o.maxOutputs.toNat (by omega) (by omega)]
      rfl

/-- A safe search that has received all outcomes has a response. -/
theorem response_isSome {E : EngCfg D F A} {o : IndexerOpts} {db : Fin c.stores → List (Str × D)}
    {as : List (EAct c.toPipeSize D F)} {st : Full c F A} (h : (Full.start c o db).run E as = some st)
    {k : Nat} (hr : st.Returned k) (hsafe : ∀ r, EAct.start r ∈ as → SafeReq o E r) :
    (st.response E k).isSome = true := by
  obtain ⟨hk, hg⟩ := hr
  obtain ⟨r, hr⟩ : ∃ r, st.searches[k]? = some r := ⟨_, List.getElem?_eq_getElem hk⟩
  obtain ⟨b, _, _, hans⟩ := (hist_run as h).1.each k r hr
  have hsr := hsafe r (searches_mem h hr)
  have hmem : ∀ a, some a ∈ (st.got k).map (Option.map (·.2)) → ∃ s, AnsOk E (Full.start c o db) as b r s a := by
    intro a ha
    obtain ⟨x, hx, e⟩ := List.mem_map.1 ha
    cases x with
    | none => simp at e
    | some x =>
      simp only [Option.map_some, Option.some.injEq] at e
      subst e
      exact ⟨x.1, hans x (List.mem_append_left _ (List.mem_filterMap.2 ⟨some x, hx, rfl⟩))⟩
  have ho := hsr.offset
  have hm := hsr.max
  rw [← rankOpts_eq] at ho hm
  unfold Full.response
  rw [hr]
  simp only [hg, if_true]
  unfold Engine.respond
  split
  · rename_i hid
    have := collect_isSome (cast := asIDs) (countOnly := r.countDocsOnly) ((st.got k).map (Option.map (·.2))) {} (by
      intro a ha d hd
      obtain ⟨s, hs⟩ := hmem a ha
      exact (ans_cast hs d hd).1 hid)
    obtain ⟨x, hx⟩ := Option.isSome_iff_exists.1 this
    rw [hx]
    exact finishSearch_isSome ho hm
  · rename_i hid
    have := collect_isSome (cast := asDocs) (countOnly := r.countDocsOnly) ((st.got k).map (Option.map (·.2))) {} (by
      intro a ha d hd
      obtain ⟨s, hs⟩ := hmem a ha
      exact (ans_cast hs d hd).2 (by simpa using hid))
    obtain ⟨x, hx⟩ := Option.isSome_iff_exists.1 this
    rw [hx]
    exact finishSearch_isSome ho hm

end Riot
