import Verif.Proofs.FineLive
import Verif.Proofs.PipelineRounds

/-!
# An engine to which every document is given once
-/

namespace Riot

open Function (update)

variable {D : Type} {c : PipeCfg D}

def IdxOp.addId : IdxOp → Option Str
  | .add d _ => some d.docId
  | _ => none

theorem issued_given (db : Fin c.stores → List (Str × D)) (st : Pipe c) (s : Fin c.shards) :
    st.issued db s = (st.given db).flatMap (c.callOps s) := by
  unfold Pipe.issued Pipe.given PipeCfg.recoverOps PipeCfg.recovered
  rw [List.flatMap_append, List.flatMap_map]
  congr 1
  · split
    · rw [List.flatMap_assoc]
    · rfl
  · rw [List.flatMap_map]

theorem issued_count_le (hdoc : c.DocOk) (l : List (Call D)) (s : Fin c.shards) (d : Str) :
    ((l.flatMap (c.callOps s)).filterMap IdxOp.addId).count d ≤ (l.filterMap Call.indexed).count d := by
  induction l with
  | nil => simp
  | cons a l ih =>
    rw [List.flatMap_cons, List.filterMap_append, List.count_append]
    have key : ((c.callOps s a).filterMap IdxOp.addId).count d ≤ ([a].filterMap Call.indexed).count d := by
      cases a with
      | index id x f =>
        unfold PipeCfg.callOps
        by_cases h0 : id = str "0"
        · cases f <;> simp [IdxOp.addId, h0, List.filterMap_cons]
        · by_cases h1 : c.route id x = s
          · simp [IdxOp.addId, Call.indexed, h0, h1, hdoc id x, List.filterMap_cons]
          · cases f <;> simp [IdxOp.addId, h0, h1, List.filterMap_cons]
      | remove id f => simp [PipeCfg.callOps, IdxOp.addId, List.filterMap_cons]
      | flush => simp [PipeCfg.callOps, IdxOp.addId, List.filterMap_cons]
    have : (a :: l).filterMap Call.indexed = [a].filterMap Call.indexed ++ l.filterMap Call.indexed := by
      rw [← List.filterMap_append]; rfl
    rw [this, List.count_append]
    omega

/-- The documents shard `s` has been given. -/
def Fine.taken (st : Fine c) (s : Fin c.shards) : List Str :=
  (st.pipe.idxLog s).filterMap IdxOp.addId ++
    match (st.shard s).add with
    | .idle => []
    | _ => ((st.pipe.nextIdx (.idxAdd s)).bind IdxOp.addId).toList

theorem count_filterMap (l : List IdxOp) (d : Str) :
    (l.filterMap IdxOp.addId).count d = l.countP (fun op => IdxOp.addId op = some d) := by
  induction l with
  | nil => rfl
  | cons a l ih =>
    rw [List.filterMap_cons, List.countP_cons]
    cases h : a.addId with
    | none => simp [ih]
    | some x => simp [List.count_cons, ih]

theorem taken_nodup (hdoc : c.DocOk) {db : Fin c.stores → List (Str × D)} {st : Fine c} (hl : Linked db st)
    (hn : ((st.pipe.given db).filterMap Call.indexed).Nodup) (s : Fin c.shards) : (st.taken s).Nodup := by
  rw [List.nodup_iff_count_le_one]
  intro d
  obtain ⟨bs, hb⟩ := hl.reach
  have h1 := idx_conserve s (fun op => decide (IdxOp.addId op = some d)) db bs st.pipe hb
  have h2 := issued_count_le hdoc (st.pipe.given db) s d
  rw [← issued_given, count_filterMap] at h2
  have h3 := List.nodup_iff_count_le_one.1 hn d
  unfold Fine.taken
  rw [List.count_append, count_filterMap]
  have h4 : List.count d (match (st.shard s).add with
    | .idle => []
    | _ => ((st.pipe.nextIdx (.idxAdd s)).bind IdxOp.addId).toList) ≤
      (μIdx c s (fun op => decide (IdxOp.addId op = some d))).pending st.pipe := by
    by_cases hi : (st.shard s).add = .idle
    · rw [hi]; simp
    · obtain ⟨op, l, hp⟩ := hl.add s hi
      have he : st.pipe.nextIdx (.idxAdd s) = some op := by simp [Pipe.nextIdx, hp]
      rw [he]
      have hle : List.count d ((some op).bind IdxOp.addId).toList ≤
          (μIdx c s (fun op => decide (IdxOp.addId op = some d))).pending st.pipe := by
        by_cases hx : op.addId = some d
        · have := prog_pend hp (p := fun op => decide (IdxOp.addId op = some d)) (by simpa using hx)
          simp [hx]; omega
        · cases hy : op.addId with
          | none => simp [hy]
          | some y =>
            have : y ≠ d := fun e => hx (by rw [hy, e])
            simp [hy, this]
      split
      · simp
      · exact hle
  omega

structure FreshInv (db : Fin c.stores → List (Str × D)) (st : Fine c) : Prop where
  linked : Linked db st
  fresh : ∀ s, (st.shard s).dead = false → (st.shard s).Fresh (st.taken s)

theorem fresh_one {so : Sorter} (hso : SortOk so) {x y : CShard} {g : List Str} {a : SAct}
    (h : x.step so a = some y) (hf : x.dead = false → x.Fresh g) (hg : (g ++ addedIds [a]).Nodup)
    (hd : y.dead = false) : y.Fresh (g ++ addedIds [a]) :=
  fresh_run hso [a] g hf hg (by simp [CShard.run, h]) hd

/-- The parts of `taken`. -/
theorem taken_idle {st : Fine c} {s : Fin c.shards} (h : (st.shard s).add = .idle) :
    st.taken s = (st.pipe.idxLog s).filterMap IdxOp.addId := by
  unfold Fine.taken; rw [h]; simp

theorem taken_busy {st : Fine c} {s : Fin c.shards} (h : (st.shard s).add ≠ .idle) {op : IdxOp}
    (hp : st.pipe.nextIdx (.idxAdd s) = some op) :
    st.taken s = (st.pipe.idxLog s).filterMap IdxOp.addId ++ op.addId.toList := by
  unfold Fine.taken
  rw [hp]
  split
  · rename_i e; exact absurd e h
  · rfl

theorem freshInv_step {so : Sorter} (hso : SortOk so) (hdoc : c.DocOk) {db : Fin c.stores → List (Str × D)}
    {st st' : Fine c} (hi : FreshInv db st) {a : FAct c.toPipeSize D} (h : st.step so a = some st')
    (hn : ((st'.pipe.given db).filterMap Call.indexed).Nodup) : FreshInv db st' := by
  have hl' := linked_step hi.linked h
  have hnd := taken_nodup hdoc hl' hn
  refine ⟨hl', ?_⟩
  obtain ⟨hd, hs⟩ := fine_step h
  clear h
  have hds := not_dead_iff.1 hd
  -- a step of one shard
  have one : ∀ (s : Fin c.shards) (x : CShard) (b : SAct), (st.shard s).step so b = some x →
      st'.shard = update st.shard s x → (∀ s' ≠ s, st'.taken s' = st.taken s') →
      st'.taken s = st.taken s ++ addedIds [b] →
      ∀ s', (st'.shard s').dead = false → (st'.shard s').Fresh (st'.taken s') := by
    intro s x b hb he hother hself s' hd'
    by_cases e : s' = s
    · subst e
      have hx : st'.shard s' = x := by rw [he]; simp
      rw [hself]
      rw [hx] at hd' ⊢
      exact fresh_one hso hb (hi.fresh s') (by rw [← hself]; exact hnd s') hd'
    · have hx : st'.shard s' = st.shard s' := by rw [he]; simp [update, e]
      rw [hother s' e]
      rw [hx] at hd' ⊢
      exact hi.fresh s' hd'
  have same : ∀ (st1 st2 : Fine c) (s' : Fin c.shards), st2.pipe = st1.pipe → st2.shard s' = st1.shard s' →
      st2.taken s' = st1.taken s' := by
    intro st1 st2 s' h1 h2; unfold Fine.taken; rw [h1, h2]
  have same2 : ∀ (st1 st2 : Fine c) (s' : Fin c.shards), st2.pipe = st1.pipe →
      ((st2.shard s').add = .idle ↔ (st1.shard s').add = .idle) → st2.taken s' = st1.taken s' := by
    intro st1 st2 s' h1 h2
    unfold Fine.taken
    rw [h1]
    by_cases e : (st1.shard s').add = .idle
    · rw [e, h2.2 e]
    · have e2 : (st2.shard s').add ≠ .idle := fun x => e (h2.1 x)
      congr 1
      generalize (st1.shard s').add = A at e
      generalize (st2.shard s').add = B at e2
      cases A <;> cases B <;> first | rfl | exact absurd rfl e | exact absurd rfl e2
  cases hs with
  | pipe a p h0 h he =>
    subst he
    obtain ⟨k1, k2⟩ := step_keeps h0 h
    intro s hd'
    have ht : ({ st with pipe := p } : Fine c).taken s = st.taken s := by
      by_cases e : (st.shard s).add = .idle
      · rw [taken_idle e, taken_idle (by exact e)]; simp only [k1]
      · obtain ⟨op, l, hp⟩ := hi.linked.add s e
        have hp' := k2 (.idxAdd s) _ _ (by simp) hp ⟨_, _, rfl⟩
        rw [taken_busy e (op := op) (by simp [Pipe.nextIdx, hp]),
          taken_busy (st := { st with pipe := p }) e (op := op) (by simp [Pipe.nextIdx, hp', hp])]
        simp only [k1]
    rw [ht]
    exact hi.fresh s hd'
  | beginAdd s op x hop hn' h he =>
    subst he
    obtain ⟨h1, h2, _⟩ := begin_add_some hop h
    refine one s x _ h rfl (fun s' e => same _ _ s' rfl (by simp [Fine.setShard, update, e])) ?_
    rw [taken_idle h1, taken_busy (st := st.setShard s x) (op := op) (by simpa [Fine.setShard] using h2) hn']
    cases op with
    | add d f => rfl
    | flush f => rfl
    | remove id f => simp [IdxOp.isAdd] at hop
  | beginRem s id f x hn' h he =>
    subst he
    obtain ⟨h1, h2, h3, _⟩ := begin_rem_some h
    refine one s x _ h rfl (fun s' e => same _ _ s' rfl (by simp [Fine.setShard, update, e])) ?_
    have : addedIds [SAct.begin (.remove id f)] = [] := rfl
    rw [this, List.append_nil]
    exact same2 _ _ s rfl (by simp [Fine.setShard, h3])
  | add s x h hb he =>
    subst he
    refine one s x _ h rfl (fun s' e => same _ _ s' rfl (by simp [Fine.setShard, update, e])) ?_
    have : addedIds [SAct.add] = [] := rfl
    rw [this, List.append_nil]
    have e1 := addStep_not_idle (step_add_some h)
    refine same2 _ _ s rfl ?_
    simp only [Fine.setShard, Function.update_self, e1, iff_false]
    intro e; rw [e] at hb; simp [AddPC.busy] at hb
  | addRet s x p h hb hp he =>
    subst he
    have e1 := addStep_not_idle (step_add_some h)
    obtain ⟨op, l, e⟩ := hi.linked.add s e1
    have hpe := step_return e hp
    have hlog : ∀ s' ≠ s, p.idxLog s' = st.pipe.idxLog s' := by
      intro s' hne; rw [hpe]; simp [update, hne]
    refine one s x _ h rfl (fun s' hne => ?_) ?_
    · have hsh : ∀ q : Pipe c, ({ pipe := q, shard := update st.shard s x } : Fine c).shard s' = st.shard s' := by
        intro q; simp [update, hne]
      by_cases e2 : (st.shard s').add = .idle
      · rw [taken_idle e2, taken_idle (by rw [hsh]; exact e2)]
        simp only [hlog s' hne]
      · obtain ⟨op', l', e3⟩ := hi.linked.add s' e2
        rw [taken_busy e2 (op := op') (by simp [Pipe.nextIdx, e3]),
          taken_busy (op := op') (by rw [hsh]; exact e2)
            (by simp only [Pipe.nextIdx]; rw [hpe]; simp only; rw [Function.update_of_ne (by simpa using hne), e3])]
        simp only [hlog s' hne]
    · have : addedIds [SAct.add] = [] := rfl
      rw [this, List.append_nil, taken_busy e1 (op := op) (by simp [Pipe.nextIdx, e]),
        taken_idle (by simpa using hb)]
      rw [hpe]
      simp [List.filterMap_append]
      cases op <;> simp [IdxOp.addId]
  | rem s x h hb he =>
    subst he
    refine one s x _ h rfl (fun s' e => same _ _ s' rfl (by simp [Fine.setShard, update, e])) ?_
    have : addedIds [SAct.rem] = [] := rfl
    rw [this, List.append_nil]
    exact same2 _ _ s rfl (by simp [Fine.setShard, remWorker_add (step_rem_some h)])
  | remRet s x p h hb hp he =>
    subst he
    have h' := step_rem_some h
    obtain ⟨op, l, e⟩ := hi.linked.rem s (remStep_not_none h')
    have hop := (idx_rem_prog hi.linked.reach e).2
    have hpe := step_return e hp
    have ht : ∀ s', ({ pipe := p, shard := update st.shard s x } : Fine c).taken s' = st.taken s' := by
      intro s'
      have hsh : (update st.shard s x s').add = (st.shard s').add := by
        by_cases hne : s' = s
        · subst hne; simp [remWorker_add h']
        · simp [update, hne]
      have hlog : (p.idxLog s').filterMap IdxOp.addId = (st.pipe.idxLog s').filterMap IdxOp.addId := by
        rw [hpe]
        by_cases hne : s' = s
        · subst hne
          simp only [Function.update_self, List.filterMap_append]
          cases op <;> simp_all [IdxOp.addId, IdxOp.isAdd, List.filterMap_cons]
        · simp [update, hne]
      by_cases e2 : (st.shard s').add = .idle
      · rw [taken_idle e2, taken_idle (by rw [← e2]; exact hsh)]
        exact hlog
      · obtain ⟨op', l', e3⟩ := hi.linked.add s' e2
        rw [taken_busy e2 (op := op') (by simp [Pipe.nextIdx, e3]),
          taken_busy (op := op') (by intro e4; exact e2 (hsh.symm.trans e4))
            (by simp only [Pipe.nextIdx]; rw [hpe]; simp only; rw [Function.update_of_ne (by simp), e3])]
        simp only [hlog]
    refine one s x _ h rfl (fun s' _ => ht s') ?_
    have : addedIds [SAct.rem] = [] := rfl
    rw [this, List.append_nil, ht]
  | search s x h he =>
    subst he
    refine one s x _ h rfl (fun s' e => same _ _ s' rfl (by simp [Fine.setShard, update, e])) ?_
    have : addedIds [SAct.search] = [] := rfl
    rw [this, List.append_nil]
    exact same2 _ _ s rfl (by simp [Fine.setShard, (search_some h).1])
  | searched s x h he =>
    subst he
    refine one s x _ h rfl (fun s' e => same _ _ s' rfl (by simp [Fine.setShard, update, e])) ?_
    have : addedIds [SAct.searched] = [] := rfl
    rw [this, List.append_nil]
    exact same2 _ _ s rfl (by simp [Fine.setShard, (searched_some h).1])

theorem given_run {db : Fin c.stores → List (Str × D)} {so : Sorter} {st st' : Fine c}
    {as : List (FAct c.toPipeSize D)} (h : st.run so as = some st') : st.pipe.given db <+: st'.pipe.given db := by
  have := run_calls _ _ _ (fine_run_coarse as st st' h)
  unfold Pipe.given
  rw [this, List.map_append, ← List.append_assoc]
  exact List.prefix_append _ _

theorem freshInv_run {so : Sorter} (hso : SortOk so) (hdoc : c.DocOk) {db : Fin c.stores → List (Str × D)}
    (as : List (FAct c.toPipeSize D)) : ∀ {st st' : Fine c}, FreshInv db st → st.run so as = some st' →
    ((st'.pipe.given db).filterMap Call.indexed).Nodup → FreshInv db st' := by
  induction as with
  | nil => intro st st' hi h _; simp [Fine.run] at h; subst h; exact hi
  | cons a l ih =>
    intro st st' hi h hn
    simp only [Fine.run] at h
    obtain ⟨st1, h1, h2⟩ := Option.bind_eq_some_iff.1 h
    refine ih (freshInv_step hso hdoc hi h1 ?_) h2 hn
    exact ((given_run h2).sublist.filterMap _).nodup hn

theorem freshInv_start (c : PipeCfg D) (o : IndexerOpts) (db : Fin c.stores → List (Str × D)) :
    FreshInv db (Fine.start c o db) where
  linked := linked_start c o db
  fresh := fun _ _ => fresh_init o

/-- An engine to which every document is given at most once never gets crossed locks. -/
theorem fresh_engine {so : Sorter} (hso : SortOk so) (hdoc : c.DocOk) {o : IndexerOpts}
    {db : Fin c.stores → List (Str × D)} {as : List (FAct c.toPipeSize D)} {st : Fine c}
    (h : (Fine.start c o db).run so as = some st) (hn : ((st.pipe.given db).filterMap Call.indexed).Nodup)
    (hd : st.dead = false) (s : Fin c.shards) : ¬ (st.shard s).crossed := by
  have := (freshInv_run hso hdoc as (freshInv_start c o db) h hn).fresh s (not_dead_iff.1 hd s)
  rintro ⟨⟨fuel, i, p, f, id, he⟩, _⟩
  exact this.add fuel i p f id he

/-- An engine whose clients never remove a document never gets crossed locks. -/
theorem noRemoval_engine {so : Sorter} {o : IndexerOpts}
    {db : Fin c.stores → List (Str × D)} {as : List (FAct c.toPipeSize D)} {st : Fine c}
    (h : (Fine.start c o db).run so as = some st)
    (hn : ∀ id f, Call.remove id f ∉ st.pipe.given db) (s : Fin c.shards) : (st.shard s).rem = none := by
  have hl := linked_run as (linked_start c o db) h
  by_contra hr
  obtain ⟨op, l, hp⟩ := hl.rem s hr
  have hop := (idx_rem_prog hl.reach hp).2
  obtain ⟨bs, hb⟩ := hl.reach
  have h1 := idx_conserve s (fun op => !op.isAdd) db bs st.pipe hb
  have h2 := prog_pend hp (p := fun op => !op.isAdd) (by simp [hop])
  have h3 : (st.pipe.issued db s).countP (fun op => !op.isAdd) = 0 := by
    rw [issued_given, List.countP_eq_zero]
    intro x hx
    obtain ⟨a, ha, hx⟩ := List.mem_flatMap.1 hx
    cases a with
    | index id d f =>
      simp only [PipeCfg.callOps] at hx
      split at hx
      · split at hx <;> simp at hx; subst hx; simp [IdxOp.isAdd]
      · split at hx
        · simp at hx; subst hx; simp [IdxOp.isAdd]
        · split at hx <;> simp at hx; subst hx; simp [IdxOp.isAdd]
    | remove id f => exact absurd ha (hn id f)
    | flush => simp [PipeCfg.callOps] at hx; subst hx; simp [IdxOp.isAdd]
  omega

end Riot
