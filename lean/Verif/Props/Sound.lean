import Verif.Proofs.Sound
import Verif.Props.Concurrent

/-!
# C63: whatever the schedule, a search finds only what was given
-/

namespace Riot

open Function (update)

variable {D : Type} {c : PipeCfg D}

/-- Some version of document `d` that was given to the engine contains `k`: it was passed to
Index/IndexDoc, or found in a database at the start, and goes to shard `s`. -/
def Fine.SomeVersionHas (db : Fin c.stores → List (Str × D)) (st : Fine c) (s : Fin c.shards) (k d : Str) : Prop :=
  ∃ (x : D) (f : Bool), Call.index d x f ∈ st.pipe.given db ∧ c.route d x = s ∧ k ∈ (c.docOf d x).keys

theorem someVersionHas_mono {db : Fin c.stores → List (Str × D)} {st st' : Fine c}
    (h : ∀ a ∈ st.pipe.given db, a ∈ st'.pipe.given db) (s : Fin c.shards) :
    ∀ k d, st.SomeVersionHas db s k d → st'.SomeVersionHas db s k d := by
  rintro k d ⟨x, f, h1, h2⟩
  exact ⟨x, f, h _ h1, h2⟩

theorem given_step {db : Fin c.stores → List (Str × D)} {st st' : Pipe c} {a : Act c.toPipeSize D}
    (h : st.step a = some st') : ∀ x ∈ st.given db, x ∈ st'.given db := by
  intro x hx
  unfold Pipe.given at hx ⊢
  rw [step_calls st st' a h, List.map_append, ← List.append_assoc]
  exact List.mem_append_left _ hx

/-- An index call in a program comes from a document that was given. -/
theorem prog_from (hdoc : c.DocOk) {db : Fin c.stores → List (Str × D)} {st : Fine c} (hr : Reach db st.pipe)
    {t : Thread c.toPipeSize} {s : Fin c.shards} {x : DocIndex} {f : Bool} {l : List (Micro c.toPipeSize D)}
    (hp : st.pipe.prog t = .idx s (.add x f) :: l) : DocFrom (st.SomeVersionHas db s) x := by
  have h := run_idx hp
  have hm := mem_issued (hr.step h) s (op := .add x f) (by simp)
  rw [issued_eq, List.mem_flatMap] at hm
  obtain ⟨a, ha, hx⟩ := hm
  cases a with
  | index id y g =>
    simp only [PipeCfg.callOps] at hx
    split at hx
    · split at hx <;> simp at hx
    · split at hx
      · rename_i hroute
        simp only [List.mem_singleton, IdxOp.add.injEq] at hx
        obtain ⟨rfl, rfl⟩ := hx
        intro k hk
        rw [hdoc]
        exact ⟨y, f, ha, hroute, hk⟩
      · split at hx <;> simp at hx
  | remove id f => simp [PipeCfg.callOps] at hx
  | flush => simp [PipeCfg.callOps] at hx

theorem nextIdx_prog {st : Pipe c} {t : Thread c.toPipeSize} {op : IdxOp} (h : st.nextIdx t = some op) :
    ∃ s l, st.prog t = .idx s op :: l := by
  unfold Pipe.nextIdx at h
  split at h
  · rename_i s op' l hp
    simp only [Option.some.injEq] at h
    subst h; exact ⟨s, l, hp⟩
  · simp at h

def FSound (db : Fin c.stores → List (Str × D)) (st : Fine c) : Prop :=
  ∀ s, SoundInv (st.SomeVersionHas db s) (st.shard s)

theorem fsound_step (hdoc : c.DocOk) {so : Sorter} (hso : ∀ l, (so.docs l).Perm l)
    {db : Fin c.stores → List (Str × D)} {st st' : Fine c} {a : FAct c.toPipeSize D} (hl : Linked db st)
    (hI : FSound db st) (h : st.step so a = some st') : FSound db st' := by
  obtain ⟨_, hs⟩ := fine_step h
  have key : ∀ (s : Fin c.shards) (x : SAct) (y : CShard), (st.shard s).step so x = some y →
      (∀ d f, x = .begin (.add d f) → DocFrom (st.SomeVersionHas db s) d) →
      st'.shard = update st.shard s y → (∀ b ∈ st.pipe.given db, b ∈ st'.pipe.given db) → FSound db st' := by
    intro s x y hy hb he hg s'
    rw [he]
    by_cases hs' : s' = s
    · subst hs'
      simp only [Function.update_self]
      exact (step_sound hso (hI s') hb hy).mono (someVersionHas_mono hg s')
    · simp only [update, hs', dite_false]
      exact (hI s').mono (someVersionHas_mono hg s')
  clear h
  cases hs with
  | pipe a p h0 hp he =>
    subst he
    intro s
    exact (hI s).mono (someVersionHas_mono (given_step hp) s)
  | beginAdd s op y hop hn hy he =>
    subst he
    refine key s _ y hy ?_ rfl (fun _ h => h)
    intro d f e
    simp only [SAct.begin.injEq] at e
    subst e
    obtain ⟨s1, l, hp⟩ := nextIdx_prog hn
    have hs : s1 = s := by
      have := idx_thread hl.reach hp
      simpa [eq_comm] using this
    subst hs
    exact prog_from hdoc hl.reach hp
  | beginRem s id f y hn hy he => subst he; exact key s _ y hy (by simp) rfl (fun _ h => h)
  | add s y hy hb he => subst he; exact key s _ y hy (by simp) rfl (fun _ h => h)
  | addRet s y p hy hb hp he => subst he; exact key s _ y hy (by simp) rfl (given_step hp)
  | rem s y hy hb he => subst he; exact key s _ y hy (by simp) rfl (fun _ h => h)
  | remRet s y p hy hb hp he => subst he; exact key s _ y hy (by simp) rfl (given_step hp)
  | search s y hy he => subst he; exact key s _ y hy (by simp) rfl (fun _ h => h)
  | searched s y hy he => subst he; exact key s _ y hy (by simp) rfl (fun _ h => h)

theorem fsound_run (hdoc : c.DocOk) {so : Sorter} (hso : ∀ l, (so.docs l).Perm l)
    {db : Fin c.stores → List (Str × D)} (as : List (FAct c.toPipeSize D)) :
    ∀ {st st' : Fine c}, Linked db st → FSound db st → st.run so as = some st' → FSound db st' := by
  induction as with
  | nil => intro st st' _ hI h; simp only [Fine.run, Option.some.injEq] at h; subst h; exact hI
  | cons a l ih =>
    intro st st' hl hI h
    simp only [Fine.run] at h
    obtain ⟨st1, h1, h2⟩ := Option.bind_eq_some_iff.1 h
    exact ih (linked_step hl h1) (fsound_step hdoc hso hl hI h1) h2

/-- **C63** (every schedule, races included; partial: each word is in some version of the document,
not all in one) At every moment of every run, a plain search of a shard returns a document only if
for each searched token and label some version of the document that was given to the engine
contains it. Missing: that one version contains all of them (`C63_refuted`). -/
theorem C63_no_phantoms_partial (hdoc : c.DocOk) {so : Sorter} (hso : SortOk so) {o : IndexerOpts}
    {db : Fin c.stores → List (Str × D)} {as : List (FAct c.toPipeSize D)} {st : Fine c}
    (h : (Fine.start c o db).run so as = some st) (s : Fin c.shards) (log2 : Rat → Rat)
    (tokens labels : List Str) (docIds : Option (List Str)) (countOnly : Bool) (docs : List IndexedDoc) (n : Nat)
    (hl : (st.shard s).ix.lookup log2 tokens labels docIds countOnly = some (docs, n)) :
    ∀ x ∈ docs, ∀ k ∈ tokens ++ labels, st.SomeVersionHas db s k x.docId := by
  have hI := fsound_run hdoc hso.docs_perm as (linked_start c o db)
    (fun s => soundInv_init o) h
  intro x hx k hk
  obtain ⟨ki, h1, h2⟩ := lookup_listed hl x hx k hk
  exact (hI s).table k ki h1 _ h2

/-- A visible or waiting version was added by a call of the history. -/
theorem Trace.from_history {h : List IdxOp} {tr : Nat → AbsIndex} (ht : Trace h tr) :
    (∀ d x, (tr h.length).pend d x → x.docId = d ∧ ∃ f, IdxOp.add x f ∈ h) ∧
    (∀ d x, (tr h.length).vis d = some x → x.docId = d ∧ ∃ f, IdxOp.add x f ∈ h) := by
  induction h using List.reverseRecOn with
  | nil =>
    rw [List.length_nil, ht.1]
    exact ⟨fun d x hx => hx.elim, fun d x hx => by simp [AbsIndex.empty] at hx⟩
  | append_singleton h op ih =>
    obtain ⟨ht', hstep⟩ := ht.init
    obtain ⟨i1, i2⟩ := ih ht'
    have ext : ∀ {x : DocIndex} {d : Str}, (x.docId = d ∧ ∃ f, IdxOp.add x f ∈ h) →
        (x.docId = d ∧ ∃ f, IdxOp.add x f ∈ h ++ [op]) := by
      rintro x d ⟨e, f, hf⟩
      exact ⟨e, f, List.mem_append_left _ hf⟩
    simp only [List.length_append, List.length_singleton]
    have hcommit : ∀ (f : Bool) (a : AbsIndex), AbsCommit f a (tr (h.length + 1)) →
        (∀ d x, a.pend d x → x.docId = d ∧ ∃ f, IdxOp.add x f ∈ h ++ [op]) →
        (∀ d x, a.vis d = some x → x.docId = d ∧ ∃ f, IdxOp.add x f ∈ h ++ [op]) →
        (∀ d x, (tr (h.length + 1)).pend d x → x.docId = d ∧ ∃ f, IdxOp.add x f ∈ h ++ [op]) ∧
        (∀ d x, (tr (h.length + 1)).vis d = some x → x.docId = d ∧ ∃ f, IdxOp.add x f ∈ h ++ [op]) := by
      intro f a hc p1 p2
      refine ⟨fun d x hx => ?_, fun d x hx => ?_⟩
      · rcases hc d with ⟨_, e2, _⟩ | ⟨_, _, _, e3⟩ | ⟨w, e1, e2, e3⟩
        · exact p1 d x ((e2 x).1 hx)
        · exact p1 d x ((e3 x).1 hx)
        · exact absurd hx (e3 x)
      · rcases hc d with ⟨e1, _, _⟩ | ⟨_, _, e2, _⟩ | ⟨w, e1, e2, _⟩
        · exact p2 d x (by rw [← e1]; exact hx)
        · rw [e2] at hx; simp at hx
        · rw [e2, Option.some.injEq] at hx; subst hx; exact p1 d _ e1
    cases op with
    | add doc f =>
      refine hcommit f _ hstep ?_ (fun d x hx => ext (i2 d x hx))
      rintro d x (hx | ⟨rfl, rfl⟩)
      · exact ext (i1 d x hx)
      · exact ⟨rfl, f, by simp⟩
    | flush f => exact hcommit f _ hstep (fun d x hx => ext (i1 d x hx)) (fun d x hx => ext (i2 d x hx))
    | remove id f =>
      simp only [AbsStep] at hstep
      refine ⟨fun d x hx => ext (i1 d x ((hstep.2 d x).1 hx)), fun d x hx => ?_⟩
      rw [hstep.1] at hx
      split at hx
      · simp at hx
      · exact ext (i2 d x hx)

/-- An executed index call comes from a document that was given. -/
theorem log_from {db : Fin c.stores → List (Str × D)} {st : Pipe c} (hr : Reach db st) {s : Fin c.shards}
    {x : DocIndex} {f : Bool} (hm : IdxOp.add x f ∈ st.idxLog s) :
    ∃ id y, Call.index id y f ∈ st.given db ∧ c.route id y = s ∧ x = c.docOf id y := by
  have := mem_issued hr s hm
  rw [issued_eq, List.mem_flatMap] at this
  obtain ⟨a, ha, hx⟩ := this
  cases a with
  | index id y g =>
    simp only [PipeCfg.callOps] at hx
    split at hx
    · split at hx <;> simp at hx
    · split at hx
      · rename_i hroute
        simp only [List.mem_singleton, IdxOp.add.injEq] at hx
        obtain ⟨rfl, rfl⟩ := hx
        exact ⟨id, y, ha, hroute, rfl⟩
      · split at hx <;> simp at hx
  | remove id f => simp [PipeCfg.callOps] at hx
  | flush => simp [PipeCfg.callOps] at hx

/-- **C63** (partial: on no shard does a refresh overlap a removal) At every moment of such a run a
plain search of a shard returns a document only if one version of it that was given to the engine
contains all searched tokens and labels. Missing: refreshes that overlap a removal, for which it is
false (`C63_refuted`). -/
theorem C63_one_version_partial (hk : c.KeysOk) (hdoc : c.DocOk) {so : Sorter} (hso : SortOk so) {o : IndexerOpts}
    {db : Fin c.stores → List (Str × D)} {as : List (FAct c.toPipeSize D)} {st : Fine c}
    (h : (Fine.start c o db).run so as = some st) (hc : (Fine.start c o db).NoClash so as)
    (s : Fin c.shards) (hd : (st.shard s).dead = false) (log2 : Rat → Rat)
    (tokens labels : List Str) (docIds : Option (List Str)) (ht : o.indexType = .locs → tokens ≠ []) :
    ∃ docs n, (st.shard s).ix.lookup log2 tokens labels docIds false = some (docs, n) ∧
      ∀ x ∈ docs, ∃ y f, Call.index x.docId y f ∈ st.pipe.given db ∧ c.route x.docId y = s ∧
        ∀ k ∈ tokens ++ labels, k ∈ (c.docOf x.docId y).keys := by
  obtain ⟨tr, htr, vis, hv, hall⟩ := C62_search_during_calls_partial hk hso h hc s hd log2
  obtain ⟨docs, h1, _, h2, _⟩ := hall tokens labels docIds ht
  refine ⟨docs, _, h1, fun x hx => ?_⟩
  obtain ⟨_, _, doc, e1, e2⟩ := (h2 x.docId).1 (List.mem_map_of_mem hx)
  have e3 : (tr (st.pipe.idxLog s).length).vis x.docId = some doc := by
    rcases hv x.docId with e | ⟨e, _⟩
    · rw [← e]; exact e1
    · rw [e] at e1; simp at e1
  obtain ⟨e4, f, hf⟩ := htr.from_history.2 _ _ e3
  obtain ⟨id, y, g1, g2, g3⟩ := log_from (linked_run as (linked_start c o db) h).reach hf
  subst g3
  rw [hdoc] at e4
  subst e4
  exact ⟨y, f, g1, g2, e2⟩

/-! ## Words of different versions -/

/-- Index("A", 1), Index("B", 2), Index("X", 3), RemoveDoc("B") without force, wait, then Index("X", 4)
and RemoveDoc("A") at the same time. The remove worker has sorted its slice to `["A", "B"]` when the
update of "X" is entered into the removal cache over "A"; the slice is then `["X", "B"]`, unsorted,
and the merge with the row `["B"]` misses "B", but its state is forgotten. Wait, then
Index("B", 5). -/
def mixedRun : Option (Fine oneShard) :=
  let all := fineCands _ ++ shardCands _
  let st1 := Fine.andThen insSort (some oneStart) (fun st => st.session insSort all
    [(clientA, .index (str "A") 1 true), (clientA, .index (str "B") 2 true), (clientA, .index (str "X") 3 true),
     (clientB, .remove (str "B") false)])
  let st2 := Fine.andThen insSort st1 (fun st => st.session insSort (fineCands _)
    [(clientA, .index (str "X") 4 true), (clientB, .remove (str "A") true)])
  let st3 := Fine.andThen insSort st2 (fun _ => List.replicate 4 (.rem theShard))
  let st4 := Fine.andThen insSort st3 (fun st => st.greedy insSort (fineCands _ ++ [.add theShard]) 300)
  let st5 := Fine.andThen insSort st4 (fun st => st.greedy insSort all 300)
  Fine.andThen insSort st5 (fun st => st.session insSort all [(clientA, .index (str "B") 5 true)])

/-- **C63 is false of the code** for one version: all calls have returned, all work is done, nothing
panicked, and a search for "k2" and "k5" together finds "B", which was first given with the only
word "k2", removed, and given again with the only word "k5". -/
theorem C63_refuted : ∃ (as : List (FAct oneShard.toPipeSize Nat)) (st : Fine oneShard) (docs : List IndexedDoc) (n : Nat),
    oneStart.run insSort as = some st ∧ st.dead = false ∧ st.Done ∧
    st.pipe.calls.map (·.2) = [.index (str "A") 1 true, .index (str "B") 2 true, .index (str "X") 3 true,
      .remove (str "B") false, .index (str "X") 4 true, .remove (str "A") true, .index (str "B") 5 true] ∧
    (st.shard theShard).ix.lookup (fun x => x) [str "k2", str "k5"] [] none false = some (docs, n) ∧
    docs.map (·.docId) = [str "B"] ∧
    ¬ ∃ x f, Call.index (str "B") x f ∈ st.pipe.given (fun _ => []) ∧
      ∀ k ∈ [str "k2", str "k5"], k ∈ (oneShard.docOf (str "B") x).keys := by
  have h : mixedRun.any (fun st => !st.dead && st.doneB && decide (st.pipe.calls.map (·.2) =
      [.index (str "A") 1 true, .index (str "B") 2 true, .index (str "X") 3 true,
      .remove (str "B") false, .index (str "X") 4 true, .remove (str "A") true, .index (str "B") 5 true]) &&
      decide (idsOf ((st.shard theShard).ix.lookup (fun x => x) [str "k2", str "k5"] [] none false) =
        some [str "B"])) = true := by
    decide +kernel
  obtain ⟨st, h1, h⟩ := (Option.any_eq_true _ _).1 h
  simp only [Bool.and_eq_true, Bool.not_eq_true', decide_eq_true_eq] at h
  obtain ⟨⟨⟨e1, e2⟩, e3⟩, e4⟩ := h
  obtain ⟨as, has⟩ : ∃ as, oneStart.run insSort as = some st :=
    andThen_reach (fun _ h => andThen_reach (fun _ h => andThen_reach (fun _ h => andThen_reach
      (fun _ h => andThen_reach (fun _ h => andThen_reach (fun _ h => ⟨[], by rw [← h]; rfl⟩) h) h) h) h) h) h1
  obtain ⟨⟨docs, n⟩, e5, e6⟩ := Option.map_eq_some_iff.1 e4
  refine ⟨as, st, docs, n, has, e1, done_of_B e2, e3, e5, e6, ?_⟩
  rintro ⟨x, f, hx, hk⟩
  have hg : st.pipe.given (fun _ => []) = st.pipe.calls.map (·.2) := by
    unfold Pipe.given PipeCfg.recovered
    simp [oneShard, demoPipe]
  rw [hg, e3] at hx
  simp only [List.mem_cons, Call.index.injEq, reduceCtorEq, List.not_mem_nil, or_false, false_or] at hx
  have h2 := hk (str "k2") (by simp)
  have h5 := hk (str "k5") (by simp)
  have hAB : str "B" ≠ str "A" := by decide +kernel
  have hXB : str "B" ≠ str "X" := by decide +kernel
  have h25 : ¬ (str "k5" ∈ (oneShard.docOf (str "B") 2).keys) := by decide +kernel
  have h52 : ¬ (str "k2" ∈ (oneShard.docOf (str "B") 5).keys) := by decide +kernel
  rcases hx with ⟨h, _⟩ | ⟨_, rfl, _⟩ | ⟨h, _⟩ | ⟨h, _⟩ | ⟨_, rfl, _⟩
  · exact hAB h
  · exact h25 h5
  · exact hXB h
  · exact hXB h
  · exact h52 h2

/-- The hypotheses of `C63_no_phantoms_partial` hold of that run, and its conclusion is about a
document that is returned: "k2" is in the first version, "k5" in the second. -/
example : ∃ (as : List (FAct oneShard.toPipeSize Nat)) (st : Fine oneShard), oneStart.run insSort as = some st ∧
    st.SomeVersionHas (fun _ => []) theShard (str "k2") (str "B") ∧
    st.SomeVersionHas (fun _ => []) theShard (str "k5") (str "B") := by
  obtain ⟨as, st, docs, n, h, _, _, _, hl, hB, _⟩ := C63_refuted
  have hx : ∃ x ∈ docs, x.docId = str "B" := by
    have : str "B" ∈ docs.map (·.docId) := by rw [hB]; simp
    simpa using this
  obtain ⟨x, hx, e⟩ := hx
  have := C63_no_phantoms_partial oneShard_ok.2.1 insSort_ok h theShard _ _ _ _ _ _ _ hl x hx
  rw [e] at this
  exact ⟨as, st, h, this _ (by simp), this _ (by simp)⟩

/-- The hypotheses of `C63_one_version_partial` hold of a run after which "X" is found. -/
example : ∃ (as : List (FAct oneShard.toPipeSize Nat)) (st : Fine oneShard), oneStart.run insSort as = some st ∧
    oneStart.NoClash insSort as ∧ (st.shard theShard).dead = false ∧ oneShard.KeysOk ∧ oneShard.DocOk ∧
    st.findsNow (str "k1") = some [str "X"] := by
  have h : (oneStart.noClashB insSort bothActs && (oneStart.run insSort bothActs).any (fun st =>
      !(st.shard theShard).dead && decide (st.findsNow (str "k1") = some [str "X"]))) = true := by decide +kernel
  rw [Bool.and_eq_true] at h
  obtain ⟨st, h1, h2⟩ := (Option.any_eq_true _ _).1 h.2
  simp only [Bool.and_eq_true, Bool.not_eq_true', decide_eq_true_eq] at h2
  exact ⟨bothActs, st, h1, noClash_of_B _ h.1, h2.1, oneShard_ok.2.2, oneShard_ok.2.1, h2.2⟩

end Riot
