import Verif.Proofs.Full

/-!
# Where the answers of a search come from
-/

namespace Riot

open Function (update)

variable {D F A : Type} {c : PipeCfg D}

/-- The index of shard `s` was searched at moment `t`, during the search that began at `b`. -/
def LookOk (E : EngCfg D F A) (st0 : Full c F A) (as : List (EAct c.toPipeSize D F)) (b : Nat) (r : SearchReq F)
    (s : Fin c.shards) (t : Nat) (out : LookupOut F A) : Prop :=
  b < t ∧ t < as.length ∧
  Engine.indexerLookup E.log2 E.opts ((Full.after E st0 as t).fine.shard s).ix (E.tokens r) r = some out

/-- The progress of a rank call for the documents found at moment `t`. -/
structure CallOk (E : EngCfg D F A) (st0 : Full c F A) (as : List (EAct c.toPipeSize D F)) (r : SearchReq F)
    (s : Fin c.shards) (t : Nat) (docs : List IndexedDoc) (call : RankCall F A) : Prop where
  opts : call.opts = shardOpts (Engine.rankOpts E.opts r)
  cnt : call.countOnly = false
  done : ∃ (d0 : List IndexedDoc) (ts : List Nat), docs = d0 ++ call.todo ∧ ts.length = d0.length ∧
    ts.Pairwise (· < ·) ∧ (∀ u ∈ ts, t < u ∧ u < as.length) ∧
    call.num = (entriesDuring E st0 as s r d0 ts).length ∧
    (E.opts.idOnly = true → call.ids = (entriesDuring E st0 as s r d0 ts).map (·.scoredID)) ∧
    (E.opts.idOnly = false → call.docs = entriesDuring E st0 as s r d0 ts)

/-- What is known about a request on a shard. -/
def ReqOk (E : EngCfg D F A) (st0 : Full c F A) (as : List (EAct c.toPipeSize D F)) (b : Nat) (r : SearchReq F)
    (s : Fin c.shards) : ReqAt F A → Prop
  | .looked out => ∃ t, LookOk E st0 as b r s t out
  | .waiting docs => ∃ t, LookOk E st0 as b r s t (.rank docs)
  | .ranking call => ∃ t docs, LookOk E st0 as b r s t (.rank docs) ∧ CallOk E st0 as r s t docs call
  | _ => True

/-- What is known about an answer of a shard. -/
def AnsOk (E : EngCfg D F A) (st0 : Full c F A) (as : List (EAct c.toPipeSize D F)) (b : Nat) (r : SearchReq F)
    (s : Fin c.shards) (a : Answer F A) : Prop :=
  ∃ t, LookOk E st0 as b r s t (.answer a) ∨
    ∃ docs call x, LookOk E st0 as b r s t (.rank docs) ∧ CallOk E st0 as r s t docs call ∧ call.todo = [] ∧
      call.finish E.gs E.opts.idOnly = some x ∧ a = { docs := some x.1, numDocs := x.2 }

theorem LookOk.more {E : EngCfg D F A} {st0 : Full c F A} {as : List (EAct c.toPipeSize D F)} {b : Nat} {r : SearchReq F}
    {s : Fin c.shards} {t : Nat} {out : LookupOut F A} (h : LookOk E st0 as b r s t out) (x : List (EAct c.toPipeSize D F)) :
    LookOk E st0 (as ++ x) b r s t out := by
  obtain ⟨h1, h2, h3⟩ := h
  refine ⟨h1, by simp; omega, ?_⟩
  rw [after_snoc x (by omega)]; exact h3

theorem entriesDuring_more {E : EngCfg D F A} {st0 : Full c F A} {as : List (EAct c.toPipeSize D F)} {r : SearchReq F}
    {s : Fin c.shards} {docs : List IndexedDoc} {ts : List Nat} (h : ∀ u ∈ ts, u < as.length)
    (x : List (EAct c.toPipeSize D F)) : entriesDuring E st0 (as ++ x) s r docs ts = entriesDuring E st0 as s r docs ts := by
  unfold entriesDuring
  apply List.filterMap_congr
  intro p hp
  have := h _ (List.of_mem_zip (a := p.1) (b := p.2) hp).2
  rw [after_snoc x (by omega)]

theorem CallOk.more {E : EngCfg D F A} {st0 : Full c F A} {as : List (EAct c.toPipeSize D F)} {r : SearchReq F}
    {s : Fin c.shards} {t : Nat} {docs : List IndexedDoc} {call : RankCall F A} (h : CallOk E st0 as r s t docs call)
    (x : List (EAct c.toPipeSize D F)) : CallOk E st0 (as ++ x) r s t docs call := by
  obtain ⟨h1, h2, d0, ts, h3, h4, h5, h6, h7, h8, h9⟩ := h
  have e := entriesDuring_more (E := E) (st0 := st0) (r := r) (s := s) (docs := d0) (fun u hu => (h6 u hu).2) x
  refine ⟨h1, h2, d0, ts, h3, h4, h5, fun u hu => ⟨(h6 u hu).1, ?_⟩, ?_, ?_, ?_⟩
  · have := (h6 u hu).2; simp; omega
  · rw [e]; exact h7
  · rw [e]; exact h8
  · rw [e]; exact h9

theorem ReqOk.more {E : EngCfg D F A} {st0 : Full c F A} {as : List (EAct c.toPipeSize D F)} {b : Nat} {r : SearchReq F}
    {s : Fin c.shards} {q : ReqAt F A} (h : ReqOk E st0 as b r s q) (x : List (EAct c.toPipeSize D F)) :
    ReqOk E st0 (as ++ x) b r s q := by
  cases q with
  | looked out => obtain ⟨t, h⟩ := h; exact ⟨t, h.more x⟩
  | waiting docs => obtain ⟨t, h⟩ := h; exact ⟨t, h.more x⟩
  | ranking call => obtain ⟨t, docs, h1, h2⟩ := h; exact ⟨t, docs, h1.more x, h2.more x⟩
  | _ => trivial

theorem AnsOk.more {E : EngCfg D F A} {st0 : Full c F A} {as : List (EAct c.toPipeSize D F)} {b : Nat} {r : SearchReq F}
    {s : Fin c.shards} {a : Answer F A} (h : AnsOk E st0 as b r s a) (x : List (EAct c.toPipeSize D F)) :
    AnsOk E st0 (as ++ x) b r s a := by
  obtain ⟨t, h | ⟨docs, call, y, h1, h2, h3⟩⟩ := h
  · exact ⟨t, .inl (h.more x)⟩
  · exact ⟨t, .inr ⟨docs, call, y, h1.more x, h2.more x, h3⟩⟩

/-- One document is looked up in the ranker. -/
theorem CallOk.read {E : EngCfg D F A} {st0 st : Full c F A} {as : List (EAct c.toPipeSize D F)} {r : SearchReq F}
    {s : Fin c.shards} {t : Nat} {docs : List IndexedDoc} {call : RankCall F A} (hrun : st0.run E as = some st)
    (h : CallOk E st0 as r s t docs call) (ht : t < as.length) {d : IndexedDoc} {rest : List IndexedDoc}
    (htodo : call.todo = d :: rest) (a : EAct c.toPipeSize D F) :
    CallOk E st0 (as ++ [a]) r s t docs (call.read (st.ranker E s) d rest) := by
  obtain ⟨h1, h2, d0, ts, h3, h4, h5, h6, h7, h8, h9⟩ := h
  have e := entriesDuring_more (E := E) (st0 := st0) (r := r) (s := s) (docs := d0) (fun u hu => (h6 u hu).2) [a]
  have hlast : Full.after E st0 (as ++ [a]) as.length = st := by
    rw [after_snoc [a] (le_refl _), after_length hrun]
  obtain ⟨hrel, hid⟩ := rank_run_rel (F := F) (A := A) E.opts.idOnly
    (st.fine.pipe.rankHistory E.info E.opts.idOnly s)
  have hE : entriesDuring E st0 (as ++ [a]) s r (d0 ++ [d]) (ts ++ [as.length]) =
      entriesDuring E st0 as s r d0 ts ++
        [d].filterMap (expectedScored (st.registered E s) (shardOpts (Engine.rankOpts E.opts r)).score) := by
    rw [← e]
    unfold entriesDuring
    rw [List.zip_append h4.symm, List.filterMap_append, rankOpts_eq]
    simp [List.filterMap_cons, hlast, shardOpts]
  have hM : (ts ++ [as.length]).length = (d0 ++ [d]).length ∧ (ts ++ [as.length]).Pairwise (· < ·) ∧
      ∀ u ∈ ts ++ [as.length], t < u ∧ u < (as ++ [a]).length := by
    refine ⟨by simp [h4], ?_, ?_⟩
    · rw [List.pairwise_append]
      refine ⟨h5, by simp, fun x hx y hy => ?_⟩
      simp only [List.mem_singleton] at hy
      subst hy; exact (h6 x hx).2
    · intro u hu
      rcases List.mem_append.1 hu with hu | hu
      · have := h6 u hu; simp; omega
      · simp only [List.mem_singleton] at hu
        subst hu; simp; exact ht
  have hdocs : docs = (d0 ++ [d]) ++ rest := by rw [h3, htodo]; simp
  unfold RankCall.read Full.ranker
  rw [hid]
  cases hb : E.opts.idOnly with
  | true =>
    rw [hb] at hrel
    obtain ⟨s1, s2⟩ := rankOutIDs_spec hrel (shardOpts (Engine.rankOpts E.opts r)) [d]
    have hreg : rankIdeal (st.fine.pipe.rankHistory E.info true s) = st.registered E s := by
      unfold Full.registered; rw [hb]
    rw [hreg] at s1
    refine ⟨h1, h2, d0 ++ [d], ts ++ [as.length], hdocs, hM.1, hM.2.1, hM.2.2, ?_, ?_, by simp [hb]⟩
    · rw [hE, List.length_append]
      simp only [if_true, h1, h2, h7, s1]
    · intro _
      rw [hE]
      simp only [if_true, h1, h2, h8 hb, s1, List.map_append]
  | false =>
    rw [hb] at hrel hid
    obtain ⟨s1, s2⟩ := rankOutDocs_spec hrel hid (shardOpts (Engine.rankOpts E.opts r)) [d]
    have hreg : rankIdeal (st.fine.pipe.rankHistory E.info false s) = st.registered E s := by
      unfold Full.registered; rw [hb]
    rw [hreg] at s1
    refine ⟨h1, h2, d0 ++ [d], ts ++ [as.length], hdocs, hM.1, hM.2.1, hM.2.2, ?_, by simp [hb], ?_⟩
    · rw [hE, List.length_append]
      simp only [Bool.false_eq_true, if_false, h1, h2, h7, s1]
    · intro _
      rw [hE]
      simp only [Bool.false_eq_true, if_false, h1, h2, h9 hb, s1]

/-! ## The invariant -/

theorem Began.more {as : List (EAct c.toPipeSize D F)} {k b : Nat} {r : SearchReq F} (h : Began as k b r)
    (x : List (EAct c.toPipeSize D F)) : Began (as ++ x) k b r := by
  obtain ⟨h1, h2⟩ := h
  have hb := (List.getElem?_eq_some_iff.1 h1).1
  refine ⟨?_, ?_⟩
  · rw [List.getElem?_append_left hb]; exact h1
  · rw [List.take_append_of_le_length (by omega)]; exact h2

theorem Began.lt {as : List (EAct c.toPipeSize D F)} {k b : Nat} {r : SearchReq F} (h : Began as k b r) :
    b < as.length := (List.getElem?_eq_some_iff.1 h.1).1

/-- Every search in progress or completed. -/
structure Hist (E : EngCfg D F A) (st0 : Full c F A) (as : List (EAct c.toPipeSize D F)) (st : Full c F A) : Prop where
  count : st.searches.length = (as.filter EAct.isStart).length
  each : ∀ k r, st.searches[k]? = some r → ∃ b, Began as k b r ∧
    (∀ s, ReqOk E st0 as b r s (st.req k s)) ∧ ∀ x ∈ st.answers k, AnsOk E st0 as b r x.1 x.2

/-- A step that starts no search. -/
theorem Hist.next {E : EngCfg D F A} {st0 st st' : Full c F A} {as : List (EAct c.toPipeSize D F)}
    {a : EAct c.toPipeSize D F} (h : Hist E st0 as st) (ha : a.isStart = false) (hs : st'.searches = st.searches)
    (hreq : ∀ k r b, Began as k b r → st.searches[k]? = some r → ∀ s, ReqOk E st0 as b r s (st.req k s) →
      st'.req k s = st.req k s ∨ ReqOk E st0 (as ++ [a]) b r s (st'.req k s))
    (hans : ∀ k r b, Began as k b r → st.searches[k]? = some r →
      (∀ s, ReqOk E st0 as b r s (st.req k s)) → ∀ x ∈ st'.answers k, x ∈ st.answers k ∨
        AnsOk E st0 (as ++ [a]) b r x.1 x.2) : Hist E st0 (as ++ [a]) st' := by
  refine ⟨?_, ?_⟩
  · rw [hs, h.count, List.filter_append]; simp [ha]
  · intro k r hk
    rw [hs] at hk
    obtain ⟨b, h1, h2, h3⟩ := h.each k r hk
    refine ⟨b, h1.more [a], fun s => ?_, fun x hx => ?_⟩
    · rcases hreq k r b h1 hk s (h2 s) with e | e
      · rw [e]; exact (h2 s).more [a]
      · exact e
    · rcases hans k r b h1 hk h2 x hx with e | e
      · exact (h3 x e).more [a]
      · exact e

/-- A step that changes neither requests nor answers. -/
theorem Hist.same {E : EngCfg D F A} {st0 st st' : Full c F A} {as : List (EAct c.toPipeSize D F)}
    {a : EAct c.toPipeSize D F} (h : Hist E st0 as st) (ha : a.isStart = false) (hs : st'.searches = st.searches)
    (hreq : st'.req = st.req) (hans : st'.answers = st.answers) : Hist E st0 (as ++ [a]) st' :=
  h.next ha hs (fun k r b _ _ s _ => .inl (by rw [hreq])) (fun k r b _ _ _ x hx => .inl (by rw [← hans]; exact hx))

/-- A step that moves one request. -/
theorem Hist.move {E : EngCfg D F A} {st0 st st' : Full c F A} {as : List (EAct c.toPipeSize D F)}
    {a : EAct c.toPipeSize D F} (h : Hist E st0 as st) (ha : a.isStart = false) (hs : st'.searches = st.searches)
    {k : Nat} {s : Fin c.shards} {x : ReqAt F A} (hreq : st'.req = (st.setReq k s x).req) (hans : st'.answers = st.answers)
    (hx : ∀ r b, Began as k b r → st.searches[k]? = some r → ReqOk E st0 as b r s (st.req k s) →
      ReqOk E st0 (as ++ [a]) b r s x) : Hist E st0 (as ++ [a]) st' := by
  refine h.next ha hs ?_ (fun k r b _ _ _ x hx => .inl (by rw [← hans]; exact hx))
  intro k' r b hb hr s' hok
  rw [hreq, setReq_req]
  split
  · rename_i e; obtain ⟨rfl, rfl⟩ := e; exact .inr (hx r b hb hr hok)
  · exact .inl rfl

/-- A step that delivers an answer. -/
theorem Hist.deliver {E : EngCfg D F A} {st0 st st' st1 : Full c F A} {as : List (EAct c.toPipeSize D F)}
    {a : EAct c.toPipeSize D F} (h : Hist E st0 as st) (ha : a.isStart = false)
    {k : Nat} {s : Fin c.shards} {x : Answer F A} (hd : st.deliver k s x = some st1)
    (hs : st'.searches = st1.searches) (hreq : st'.req = st1.req) (hch : st'.chan = st1.chan) (hg : st'.got = st1.got)
    (hx : ∀ r b, Began as k b r → st.searches[k]? = some r → ReqOk E st0 as b r s (st.req k s) →
      AnsOk E st0 (as ++ [a]) b r s x) : Hist E st0 (as ++ [a]) st' := by
  unfold Full.deliver at hd
  split at hd
  · cases hd
    refine h.next ha hs ?_ ?_
    · intro k' r b hb hr s' hok
      rw [hreq]
      simp only [setReq_req]
      split
      · exact .inr trivial
      · exact .inl rfl
    · intro k' r b hb hr hok y hy
      unfold Full.answers at hy
      rw [hch, hg] at hy
      by_cases hk : k' = k
      · subst hk
        simp only [Function.update_self] at hy
        rw [← List.append_assoc] at hy
        rcases List.mem_append.1 hy with hy | hy
        · exact .inl hy
        · simp only [List.mem_singleton] at hy
          subst hy
          exact .inr (hx r b hb hr (hok s))
      · simp only [update, hk] at hy
        exact .inl hy
  · cases hd

theorem Hist.start (E : EngCfg D F A) (o : IndexerOpts) (db : Fin c.stores → List (Str × D)) :
    Hist E (Full.start c o db) [] (Full.start c o db : Full c F A) :=
  ⟨rfl, fun k r h => by simp [Full.start] at h⟩

theorem Hist.step {E : EngCfg D F A} {st0 st st' : Full c F A} {as : List (EAct c.toPipeSize D F)}
    {a : EAct c.toPipeSize D F} (h : Hist E st0 as st) (hp : Proto st) (hrun : st0.run E as = some st)
    (hst : st.step E a = some st') : Hist E st0 (as ++ [a]) st' := by
  have hlast : Full.after E st0 (as ++ [a]) as.length = st := by
    rw [after_snoc [a] (le_refl _), after_length hrun]
  unfold Full.step at hst
  split at hst
  · cases hst
  rename_i hlive
  split at hst
  · rename_i b hb
    obtain ⟨f, _, rfl⟩ := Option.map_eq_some_iff.1 hst
    refine h.same ?_ rfl rfl rfl
    cases a <;> first | rfl | cases hb
  rename_i ha
  cases a with
  | pipe a => cases ha
  | beginAdd s => cases ha
  | beginRem s => cases ha
  | add s => cases ha
  | rem s => cases ha
  | start r =>
    simp only [Full.search] at hst
    split at hst
    · cases hst
      refine ⟨?_, ?_⟩
      · simp [h.count, List.filter_append]; rfl
      · intro k r' hk
        simp only at hk
        by_cases hkl : k < st.searches.length
        · rw [List.getElem?_append_left hkl] at hk
          obtain ⟨b, h1, h2, h3⟩ := h.each k r' hk
          exact ⟨b, h1.more _, fun s => (h2 s).more _, fun x hx => (h3 x hx).more _⟩
        · have hk2 : k = st.searches.length := by
            have := (List.getElem?_eq_some_iff.1 hk).1
            simp at this; omega
          subst hk2
          simp only [List.getElem?_concat_length, Option.some.injEq] at hk
          subst hk
          refine ⟨as.length, ⟨by simp, ?_⟩, fun s => ?_, fun x hx => ?_⟩
          · rw [List.take_left']
            · exact h.count.symm
            · rfl
          · have : st.req st.searches.length s = .unsent :=
              (hp.unsent _ _).2 (by rw [(hp.fresh _ (le_refl _)).1]; omega)
            simp only [this]; trivial
          · have hn : st.answers st.searches.length = [] := by
              by_contra hne
              obtain ⟨y, hy⟩ := List.exists_mem_of_ne_nil _ hne
              have := ((hp.ans st.searches.length).2 y.1).1 (List.mem_map.2 ⟨y, hy, rfl⟩)
              exact absurd (hp.lt (by rw [this]; simp)) (lt_irrefl _)
            have hx' : x ∈ st.answers st.searches.length := hx
            rw [hn] at hx'; cases hx'
    · cases hst
  | send k =>
    simp only [Full.search] at hst
    split at hst
    · rename_i hk
      split at hst
      · cases hst
        exact h.move (k := k) (s := ⟨st.sent k, hk.2⟩) (x := .queued) rfl rfl rfl rfl (fun _ _ _ _ _ => trivial)
      · cases hst
    · cases hst
  | take s =>
    simp only [Full.search] at hst
    split at hst
    · rename_i k q hq
      split at hst
      · cases hst
        exact h.move (k := k) (s := s) (x := .taken) rfl rfl rfl rfl (fun _ _ _ _ _ => trivial)
      · cases hst
    · cases hst
  | lock s k =>
    simp only [Full.search] at hst
    split at hst
    · obtain ⟨f, _, rfl⟩ := Option.map_eq_some_iff.1 hst
      exact h.move (k := k) (s := s) (x := .locked) rfl rfl rfl rfl (fun _ _ _ _ _ => trivial)
    · cases hst
  | look s k =>
    simp only [Full.search] at hst
    split at hst
    · rename_i r hk hr
      split at hst
      · cases hst; exact h.same rfl rfl rfl rfl
      · rename_i out hout
        obtain ⟨f, _, rfl⟩ := Option.map_eq_some_iff.1 hst
        refine h.move (k := k) (s := s) (x := .looked out) rfl rfl rfl rfl (fun r' b hb hr' _ => ?_)
        rw [hr] at hr'; cases hr'
        exact ⟨as.length, hb.lt, by simp, by rw [hlast]; exact hout⟩
    · cases hst
  | reply s k =>
    simp only [Full.search] at hst
    split at hst
    · rename_i a' hk
      obtain ⟨st1, h1, rfl⟩ := Option.map_eq_some_iff.1 hst
      refine h.deliver rfl h1 rfl rfl rfl rfl (fun r b hb hr hok => ?_)
      rw [hk] at hok
      obtain ⟨t, ht⟩ := hok
      exact ⟨t, .inl (ht.more _)⟩
    · cases hst
  | forward s k =>
    simp only [Full.search] at hst
    split at hst
    · rename_i docs hk
      split at hst
      · cases hst
        refine h.move (k := k) (s := s) (x := .waiting docs) rfl rfl rfl rfl (fun r b hb hr hok => ?_)
        rw [hk] at hok
        obtain ⟨t, ht⟩ := hok
        exact ⟨t, ht.more _⟩
      · cases hst
    · cases hst
  | takeRank s =>
    simp only [Full.search] at hst
    split at hst
    · rename_i k q hq
      split at hst
      · rename_i docs r hk hr
        split at hst
        · cases hst
          refine h.move (k := k) (s := s) rfl rfl rfl rfl (fun r' b hb hr' hok => ?_)
          rw [hr] at hr'; cases hr'
          rw [hk] at hok
          obtain ⟨t, ht⟩ := hok
          exact ⟨t, docs, ht.more _, rfl, rfl, [], [], rfl, rfl, by simp, by simp, by simp [entriesDuring],
            by simp [entriesDuring], by simp [entriesDuring]⟩
        · cases hst
      · cases hst
    · cases hst
  | read s k =>
    simp only [Full.search] at hst
    split at hst
    · rename_i call hk
      split at hst
      · rename_i d rest htodo
        cases hst
        refine h.move (k := k) (s := s) rfl rfl rfl rfl (fun r b hb hr hok => ?_)
        rw [hk] at hok
        obtain ⟨t, docs, ht, hc⟩ := hok
        exact ⟨t, docs, ht.more _, hc.read hrun ht.2.1 htodo _⟩
      · cases hst
    · cases hst
  | replyRank s k =>
    simp only [Full.search] at hst
    split at hst
    · rename_i call hk
      split at hst
      · rename_i htodo
        split at hst
        · cases hst; exact h.same rfl rfl rfl rfl
        · rename_i x hx
          obtain ⟨st1, h1, rfl⟩ := Option.map_eq_some_iff.1 hst
          refine h.deliver rfl h1 rfl rfl rfl rfl (fun r b hb hr hok => ?_)
          rw [hk] at hok
          obtain ⟨t, docs, ht, hc⟩ := hok
          exact ⟨t, .inr ⟨docs, call, x, ht.more _, hc.more _, htodo, hx, rfl⟩⟩
      · cases hst
    · cases hst
  | recv k =>
    simp only [Full.search] at hst
    split at hst
    · rename_i a' q hq
      split at hst
      · cases hst
        refine h.same rfl rfl rfl ?_
        funext k'
        unfold Full.answers
        by_cases hkk : k' = k
        · subst hkk; simp [hq]
        · simp [hkk]
      · cases hst
    · cases hst
  | timer k =>
    simp only [Full.search] at hst
    split at hst
    · split at hst
      · cases hst
        refine h.same rfl rfl rfl ?_
        funext k'
        unfold Full.answers
        by_cases hkk : k' = k
        · subst hkk; simp
        · simp [hkk]
      · cases hst
    · cases hst

theorem hist_run {E : EngCfg D F A} {o : IndexerOpts} {db : Fin c.stores → List (Str × D)}
    (as : List (EAct c.toPipeSize D F)) : ∀ {st : Full c F A}, (Full.start c o db).run E as = some st →
    Hist E (Full.start c o db) as st ∧ Proto st := by
  induction as using List.reverseRecOn with
  | nil => intro st h; cases h; exact ⟨Hist.start E o db, Proto.start o db⟩
  | append_singleton as a ih =>
    intro st h
    obtain ⟨st1, h1, h2⟩ := full_run_snoc h
    obtain ⟨i1, i2⟩ := ih h1
    exact ⟨i1.step i2 h1 h2, i2.step h2⟩

end Riot
