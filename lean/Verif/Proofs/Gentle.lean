import Verif.Props.Pipeline
import Verif.Proofs.FineInv
import Verif.Spec.Gentle

/-!
# Gentle use: refreshes never meet removals
-/

namespace Riot

open Function (update)

variable {D : Type} {c : PipeCfg D}

/-! ## The add cache -/

def IdxOp.adds : IdxOp → Bool
  | .add _ _ => true
  | _ => false

def IdxOp.removesDoc : IdxOp → Bool
  | .remove id _ => id ≠ str "0"
  | _ => false

def IdxOp.remove0 : IdxOp → Bool
  | .remove id _ => id = str "0"
  | _ => false

/-- Adds since the last forced refresh. -/
def addsSince (h : List IdxOp) : Nat :=
  h.foldl (fun n op => if op.refreshes then 0 else n + (if op.adds then 1 else 0)) 0

theorem addsSince_snoc (h : List IdxOp) (op : IdxOp) :
    addsSince (h ++ [op]) = if op.refreshes then 0 else addsSince h + (if op.adds then 1 else 0) := by
  simp [addsSince, List.foldl_append]

/-- What a call does to the add cache when there is room. -/
theorem step_cache {so : Sorter} (hso : SortOk so) {ix ix' : Indexer} {known : GoMap DocIndex} (hi : Inv ix known)
    {op : IdxOp} (hop : OpOk op) (hl : ix.addCache.length + (if op.adds then 1 else 0) < ix.opts.docCacheSize)
    (h : ix.step so op = some ix') :
    ix'.addCache.length ≤ if op.refreshes then 0 else ix.addCache.length + (if op.adds then 1 else 0) := by
  have hforced : ∀ {known' : GoMap DocIndex}, (∀ d x, ¬ (absOf ix' known').pend d x) → ix'.addCache.length ≤ 0 := by
    intro known' hn
    cases hc : ix'.addCache with
    | nil => simp
    | cons x l =>
      exfalso
      exact hn x.docId x ⟨by rw [hc]; simp, rfl⟩
  obtain ⟨known', hi', hs⟩ := step_refines hso hi op hop h
  cases op with
  | remove id f =>
    simp only [Indexer.step] at h
    obtain ⟨x, h1, h2⟩ := Option.map_eq_some_iff.1 h
    subst h2
    have := removeDocToCache_same h1
    simp [IdxOp.refreshes, IdxOp.adds, this.2]
  | flush f =>
    cases f with
    | true => simpa [IdxOp.refreshes] using hforced (fun d x => AbsCommit.forced hs d x)
    | false =>
      simp only [IdxOp.adds, Bool.false_eq_true, if_false, Nat.add_zero] at hl
      simp only [Indexer.step] at h
      rw [addDocToCache_fits so ix none false (by simp)] at h
      rw [if_neg (by simp; omega)] at h
      simp only [Option.some.injEq] at h
      subst h
      simp [IdxOp.refreshes, IdxOp.adds, Indexer.pushAdd]
  | add d f =>
    cases f with
    | true => simpa [IdxOp.refreshes] using hforced (fun d x => AbsCommit.forced hs d x)
    | false =>
      simp only [IdxOp.adds, if_true] at hl
      simp only [Indexer.step] at h
      rw [addDocToCache_fits so ix (some d) false (by intro _; omega)] at h
      rw [if_neg (by simp; omega)] at h
      simp only [Option.some.injEq] at h
      subst h
      simp [IdxOp.refreshes, IdxOp.adds, Indexer.pushAdd]

/-- A log that fits leaves a log that fits. -/
theorem cap_snoc {so : Sorter} (hso : SortOk so) (o : IndexerOpts) {h : List IdxOp} {op : IdxOp}
    (hok : ∀ x ∈ h ++ [op], OpOk x) {ix : Indexer} (hr : (Indexer.init o).run so h = some ix)
    (hc : ix.addCache.length ≤ addsSince h)
    (hroom : addsSince h + (if op.adds then 1 else 0) < o.init.docCacheSize) :
    ∃ ix', (Indexer.init o).run so (h ++ [op]) = some ix' ∧ ix'.addCache.length ≤ addsSince (h ++ [op]) := by
  obtain ⟨ho, known, hi⟩ := run_inv hso o h (fun x hx => hok x (by simp [hx])) ix hr
  obtain ⟨ix', _, h1, _⟩ := step_spec hso hi op (hok op (by simp)) (by
    rintro ⟨d, f, rfl⟩
    rw [ho]; simp only [IdxOp.adds, if_true] at hroom; omega)
  refine ⟨ix', by rw [Indexer.run_snoc, hr]; exact h1, ?_⟩
  rw [addsSince_snoc]
  have := step_cache hso hi (hok op (by simp)) (by rw [ho]; omega) h1
  split
  · simp_all
  · rename_i hf
    simp only [hf] at this
    simp only [Bool.false_eq_true, if_false] at this
    omega

/-! ## Steps and logs -/

/-- A step executes at most one index call of a shard. -/
theorem step_log_one {st st' : Pipe c} {a : Act c.toPipeSize D} (h : st.step a = some st') (s : Fin c.shards) :
    st'.idxLog s = st.idxLog s ∨ (a.isCall = false ∧ ∃ op, st'.idxLog s = st.idxLog s ++ [op]) := by
  cases ha : st.atIdx a with
  | false => left; rw [(step_keeps ha h).1]
  | true =>
    cases a with
    | run t =>
      simp only [Pipe.atIdx] at ha
      obtain ⟨op, hop⟩ := Option.isSome_iff_exists.1 ha
      obtain ⟨s', l, hp⟩ := nextIdx_some hop
      have := step_return hp h
      subst this
      by_cases e : s = s'
      · subst e; right; exact ⟨rfl, op, by simp⟩
      · left; simp [update, e]
    | _ => simp [Pipe.atIdx] at ha

/-- Pending index calls after a step that starts no call. -/
theorem step_pend {st st' : Pipe c} {a : Act c.toPipeSize D} (hc : a.isCall = false) (h : st.step a = some st')
    (s : Fin c.shards) :
    (st'.idxLog s = st.idxLog s ∧ ∀ p, (μIdx c s p).pending st' = (μIdx c s p).pending st) ∨
    ∃ op, st'.idxLog s = st.idxLog s ++ [op] ∧
      ∀ p, (μIdx c s p).pending st' + (if p op then 1 else 0) = (μIdx c s p).pending st := by
  have hcons : ∀ p, (st'.idxLog s).countP p + (μIdx c s p).pending st' =
      (st.idxLog s).countP p + (μIdx c s p).pending st := by
    intro p
    have := (μIdx c s p).conserve_step st st' a h
    have h0 : (μIdx c s p).issue a = 0 := by cases a <;> simp_all [Meas.issue, Act.isCall]
    rw [h0] at this
    exact this
  rcases step_log_one h s with e | ⟨_, op, e⟩
  · left
    refine ⟨e, fun p => ?_⟩
    have := hcons p
    rw [e] at this
    omega
  · right
    refine ⟨op, e, fun p => ?_⟩
    have := hcons p
    rw [e, List.countP_append, List.countP_singleton] at this
    omega

theorem call_pend {st st' : Pipe c} {i : Fin c.clients} {a : Call D} (h : st.step (.call i a) = some st')
    (s : Fin c.shards) : st'.idxLog s = st.idxLog s ∧
    ∀ p, (μIdx c s p).pending st' = (μIdx c s p).pending st + (c.callOps s a).countP p := by
  have e : st'.idxLog s = st.idxLog s := by
    rcases step_log_one h s with e | ⟨e, _⟩
    · exact e
    · simp [Act.isCall] at e
  refine ⟨e, fun p => ?_⟩
  have : (st'.idxLog s).countP p + (μIdx c s p).pending st' =
      (st.idxLog s).countP p + (μIdx c s p).pending st + wsum (μIdx c s p).w2 (c.call a) :=
    (μIdx c s p).conserve_step st st' (.call i a) h
  rw [μIdx_call, e] at this
  omega

theorem prog_pend {st : Pipe c} {t : Thread c.toPipeSize} {s : Fin c.shards} {op : IdxOp}
    {l : List (Micro c.toPipeSize D)} (hp : st.prog t = .idx s op :: l) {p : IdxOp → Bool} (h : p op = true) :
    1 ≤ (μIdx c s p).pending st := by
  have := pending_ge (μIdx c s p) st t
  have hw : (μIdx c s p).w2 (.idx s op : Micro c.toPipeSize D) = 1 := by simp [Meas.w2, μIdx, h]
  rw [hp, wsum_cons, hw] at this
  omega

/-! ## The calls since the last Flush -/

theorem sinceFlush_snoc (l : List (Call D)) (a : Call D) :
    sinceFlush (l ++ [a]) = if a.isFlush then [] else sinceFlush l ++ [a] := by
  unfold sinceFlush
  rw [List.reverse_append]
  simp only [List.reverse_singleton, List.singleton_append, List.takeWhile_cons]
  cases a.isFlush <;> simp

theorem given_call {st st' : Pipe c} {i : Fin c.clients} {a : Call D} (h : st.step (.call i a) = some st')
    (db : Fin c.stores → List (Str × D)) : st'.given db = st.given db ++ [a] := by
  unfold Pipe.given
  rw [step_calls st st' _ h]
  simp [Act.called]

theorem given_other {st st' : Pipe c} {a : Act c.toPipeSize D} (hc : a.isCall = false) (h : st.step a = some st')
    (db : Fin c.stores → List (Str × D)) : st'.given db = st.given db ∧ st'.calls = st.calls := by
  have e : st'.calls = st.calls := by
    rw [step_calls st st' _ h]
    cases a <;> simp_all [Act.called, Act.isCall]
  unfold Pipe.given
  rw [e]
  exact ⟨rfl, rfl⟩

/-! ## The invariant -/

/-- Phases of a gentle run: no Flush in progress; a Flush waits for earlier calls; a Flush
refreshes. -/
inductive Phase (o : IndexerOpts) (db : Fin c.stores → List (Str × D)) (st : Pipe c) : Prop
  | calm (hF : ∀ s, (μIdx c s IdxOp.force).pending st = 0)
      (hA : ∀ s, addsSince (st.idxLog s) + (μIdx c s IdxOp.adds).pending st ≤ st.docsSince db s)
      (hcap : ∀ s, st.docsSince db s < o.init.docCacheSize) : Phase o db st
  | waiting (i : Fin c.clients) (l : List (Fin c.clients × Call D)) (k : Nat) (hl : st.calls = l ++ [(i, .flush)])
      (ho : OnlyFlush i st) (hk : k ≤ 4) (hp : st.prog (.client i) = (c.call .flush).drop k)
      (hF : ∀ s, (μIdx c s IdxOp.force).pending st = 1)
      (hA : ∀ s, addsSince (st.idxLog s) + (μIdx c s IdxOp.adds).pending st < o.init.docCacheSize)
      (hA0 : 1 ≤ k → ∀ s, (μIdx c s IdxOp.adds).pending st = 0)
      (hR : 2 ≤ k → ∀ s, (μIdx c s IdxOp.removesDoc).pending st = 0) : Phase o db st
  | forcing (i : Fin c.clients) (l : List (Fin c.clients × Call D)) (hl : st.calls = l ++ [(i, .flush)])
      (ho : OnlyFlush i st) (hp : st.prog (.client i) = [.await .forced])
      (hF : ∀ s, (μIdx c s IdxOp.force).pending st ≤ 1)
      (hA : ∀ s, (μIdx c s IdxOp.adds).pending st = 0)
      (hR : ∀ s, (μIdx c s IdxOp.removesDoc).pending st = 0)
      (hS : ∀ s, addsSince (st.idxLog s) < o.init.docCacheSize ∧
        ((μIdx c s IdxOp.force).pending st = 0 → addsSince (st.idxLog s) = 0)) : Phase o db st

/-- No call ever finds the cache full, or fills it. -/
def Fits (o : IndexerOpts) (h : List IdxOp) : Prop :=
  ∀ h1 op h2, h = h1 ++ op :: h2 → addsSince h1 + (if op.adds then 1 else 0) < o.init.docCacheSize

theorem Fits.nil (o : IndexerOpts) : Fits o [] := by intro h1 op h2 e; simp at e

theorem Fits.snoc {o : IndexerOpts} {h : List IdxOp} {op : IdxOp} (hf : Fits o h)
    (hr : addsSince h + (if op.adds then 1 else 0) < o.init.docCacheSize) : Fits o (h ++ [op]) := by
  intro h1 x h2 e
  rcases List.eq_nil_or_concat h2 with rfl | ⟨h3, y, rfl⟩
  · obtain ⟨rfl, e2⟩ := List.append_inj' e rfl
    simp only [List.cons.injEq, and_true] at e2
    subst e2; exact hr
  · rw [List.concat_eq_append, ← List.cons_append, ← List.append_assoc] at e
    obtain ⟨rfl, _⟩ := List.append_inj' e rfl
    exact hf h1 x h3 rfl

structure GentleInv (so : Sorter) (o : IndexerOpts) (db : Fin c.stores → List (Str × D)) (st : Pipe c) : Prop where
  reach : Reach db st
  rem0 : ∀ s, (μIdx c s IdxOp.remove0).pending st = 0
  phase : Phase o db st
  cap : ∀ s, ∃ ix, (Indexer.init o).run so (st.idxLog s) = some ix ∧ ix.addCache.length ≤ addsSince (st.idxLog s)
  fits : ∀ s, Fits o (st.idxLog s)

/-- Up to the request for a refresh, that request is pending in the Flush itself. -/
theorem flush_weight (s : Fin c.shards) {k : Nat} (hk : k ≤ 4) :
    wsum (μIdx c s IdxOp.force).w2 ((c.call .flush).drop k) = 1 := by
  have h : wsum (μIdx c s IdxOp.force).w2 (c.internalIndex (str "0") c.emptyData true) = 1 := by
    rw [μIdx_internal]
    simp [PipeCfg.callOps, IdxOp.force]
  have hs : wsum (μIdx c s IdxOp.force).w2 [Micro.send Chan.seg (.seg (str "0") c.emptyData true)] = 1 := by
    have e : c.internalIndex (str "0") c.emptyData true =
        [.tick .forceReqs 1] ++ [Micro.send Chan.seg (.seg (str "0") c.emptyData true)] := by
      simp [PipeCfg.internalIndex]
    rw [e, wsum_append] at h
    have h0 : wsum (μIdx c s IdxOp.force).w2 [(Micro.tick Counter.forceReqs 1 : Micro c.toPipeSize D)] = 0 := by
      simp [wsum, Meas.w2, μIdx]
    omega
  rw [wsum_cons, wsum_nil, Nat.add_zero] at hs
  have ht : ∀ w, (μIdx c s IdxOp.force).w2 (Micro.await w : Micro c.toPipeSize D) = 0 := by
    intro w; simp [Meas.w2, μIdx]
  have htk : (μIdx c s IdxOp.force).w2 (Micro.tick Counter.forceReqs 1 : Micro c.toPipeSize D) = 0 := by
    simp [Meas.w2, μIdx]
  rw [flush_prog]
  match k, hk with
  | 0, _ => simp [wsum_cons, wsum_nil, hs, ht, htk]
  | 1, _ => simp [wsum_cons, wsum_nil, hs, ht, htk]
  | 2, _ => simp [wsum_cons, wsum_nil, hs, ht, htk]
  | 3, _ => simp [wsum_cons, wsum_nil, hs, ht, htk]
  | 4, _ => simp [wsum_cons, wsum_nil, hs, ht, htk]

/-! ## Calls -/

theorem gentle_ops {o : IndexerOpts} {db : Fin c.stores → List (Str × D)} {st : Pipe c} {a : Call D}
    (h : GentleCall o db st a) (s : Fin c.shards) :
    (c.callOps s a).countP IdxOp.force = (if a.isFlush then 1 else 0) ∧
    (c.callOps s a).countP IdxOp.adds = (if c.addsTo s a then 1 else 0) ∧
    (c.callOps s a).countP IdxOp.remove0 = 0 := by
  cases a with
  | index id d f =>
    obtain ⟨rfl, _, _⟩ := h
    simp only [PipeCfg.callOps, Call.isFlush, PipeCfg.addsTo]
    by_cases h0 : id = str "0"
    · simp [h0]
    · by_cases hs : c.route id d = s <;> simp [h0, hs, IdxOp.force, IdxOp.adds, IdxOp.remove0]
  | remove id f =>
    obtain ⟨rfl, h0, _⟩ := h
    simp [PipeCfg.callOps, Call.isFlush, PipeCfg.addsTo, IdxOp.force, IdxOp.adds, IdxOp.remove0, h0]
  | flush => simp [PipeCfg.callOps, Call.isFlush, PipeCfg.addsTo, IdxOp.force, IdxOp.adds, IdxOp.remove0]

theorem docsSince_call {db : Fin c.stores → List (Str × D)} {st st' : Pipe c} {i : Fin c.clients} {a : Call D}
    (h : st.step (.call i a) = some st') (s : Fin c.shards) :
    st'.docsSince db s = if a.isFlush then 0 else st.docsSince db s + (if c.addsTo s a then 1 else 0) := by
  unfold Pipe.docsSince
  rw [given_call h db, sinceFlush_snoc]
  cases a.isFlush with
  | true => simp
  | false =>
    simp only [Bool.false_eq_true, if_false, List.countP_append, List.countP_singleton]

theorem gentle_call {so : Sorter} {o : IndexerOpts} {db : Fin c.stores → List (Str × D)}
    {st st' : Pipe c} {i : Fin c.clients} {a : Call D} (hI : GentleInv so o db st)
    (h : st.step (.call i a) = some st') (hg : GentleCall o db st a) : GentleInv so o db st' := by
  have hlog : ∀ s, st'.idxLog s = st.idxLog s := fun s => (call_pend h s).1
  refine ⟨hI.reach.step h, fun s => ?_, ?_, fun s => ?_, fun s => by rw [hlog s]; exact hI.fits s⟩
  · rw [(call_pend h s).2, hI.rem0 s, (gentle_ops hg s).2.2]
  · -- nobody is flushing
    have hno : ∀ (j : Fin c.clients) (l : List (Fin c.clients × Call D)), st.calls = l ++ [(j, .flush)] →
        st.prog (.client j) = [] := by
      intro j l hl
      cases a with
      | index id d f => exact hg.2.1 j l hl
      | remove id f => exact hg.2.2 j l hl
      | flush => exact hg j
    cases hI.phase with
    | waiting j l k hl ho hk hp =>
      exfalso
      rw [hno j l hl, flush_prog] at hp
      have := congrArg List.length hp
      simp only [List.length_nil, List.length_drop, List.length_cons] at this
      omega
    | forcing j l hl ho hp =>
      rw [hno j l hl] at hp; simp at hp
    | calm hF hA hcap =>
      cases hfl : a.isFlush with
      | false =>
        refine .calm (fun s => ?_) (fun s => ?_) (fun s => ?_)
        · rw [(call_pend h s).2, hF s, (gentle_ops hg s).1, hfl]; simp
        · rw [hlog s, (call_pend h s).2, (gentle_ops hg s).2.1, docsSince_call h s, hfl]
          have := hA s
          simp only [Bool.false_eq_true, if_false]
          omega
        · rw [docsSince_call h s, hfl]
          simp only [Bool.false_eq_true, if_false]
          have := hcap s
          cases ha : c.addsTo s a with
          | false => simpa using this
          | true =>
            cases a with
            | index id d f =>
              simp only [PipeCfg.addsTo, Bool.and_eq_true, decide_eq_true_eq] at ha
              have h2 := hg.2.2
              rw [ha.2] at h2
              simpa using h2
            | remove id f => simp [PipeCfg.addsTo] at ha
            | flush => simp [PipeCfg.addsTo] at ha
      | true =>
        have ha : a = .flush := by cases a <;> simp_all [Call.isFlush]
        subst ha
        have ho := FlushCompletes.onlyFlush (st := st) hg h
        refine .waiting i st.calls 0 (by rw [step_calls st st' _ h]; rfl) ho (by omega) ?_ (fun s => ?_) (fun s => ?_)
          (fun hh => by omega) (fun hh => by omega)
        · rw [(call_inited h).2.2]; simp
        · rw [(call_pend h s).2, hF s, (gentle_ops hg s).1]; rfl
        · rw [hlog s, (call_pend h s).2, (gentle_ops hg s).2.1]
          have h1 := hA s
          have h2 := hcap s
          simp only [PipeCfg.addsTo, Bool.false_eq_true, if_false]
          omega
  · rw [hlog s]; exact hI.cap s

theorem size_pos (o : IndexerOpts) : 0 < o.init.docCacheSize := by
  have := (Inv.init o).rmLen
  simp only [Indexer.init, List.length_nil] at this
  exact this

/-- Room for the next index call. -/
theorem GentleInv.room {so : Sorter} {o : IndexerOpts} {db : Fin c.stores → List (Str × D)} {st : Pipe c}
    (hI : GentleInv so o db st) (s : Fin c.shards) :
    addsSince (st.idxLog s) + (μIdx c s IdxOp.adds).pending st < o.init.docCacheSize := by
  cases hI.phase with
  | calm hF hA hcap => exact lt_of_le_of_lt (hA s) (hcap s)
  | waiting i l k hl ho hk hp hF hA => exact hA s
  | forcing i l hl ho hp hF hA hR hS => rw [hA s]; exact (hS s).1

theorem drop_succ_of {α : Type} {l : List α} {k : Nat} {x : α} {t : List α} (h : l.drop k = x :: t) :
    t = l.drop (k + 1) := by
  rw [← List.tail_drop, h]; rfl

theorem gentle_other (hk : c.KeysOk) {so : Sorter} (hso : SortOk so) {o : IndexerOpts}
    {db : Fin c.stores → List (Str × D)} {st st' : Pipe c} {a : Act c.toPipeSize D} (hI : GentleInv so o db st)
    (hc : a.isCall = false) (h : st.step a = some st') : GentleInv so o db st' := by
  have hreach := hI.reach.step h
  have hgiv := given_other hc h db
  have hdocs : ∀ s, st'.docsSince db s = st.docsSince db s := by
    intro s; unfold Pipe.docsSince; rw [hgiv.1]
  -- kinds of calls with nothing pending
  have hzero : ∀ s p, (μIdx c s p).pending st = 0 → (μIdx c s p).pending st' = 0 := by
    intro s p h0
    rcases step_pend hc h s with ⟨_, e⟩ | ⟨op, _, e⟩
    · rw [e, h0]
    · have := e p; omega
  have hle : ∀ s p, (μIdx c s p).pending st' ≤ (μIdx c s p).pending st := by
    intro s p
    rcases step_pend hc h s with ⟨_, e⟩ | ⟨op, _, e⟩
    · rw [e]
    · have := e p; omega
  -- what the step does to the number of cached adds if no forced call is executed
  have hadds : ∀ s, ((μIdx c s IdxOp.force).pending st' = (μIdx c s IdxOp.force).pending st) →
      addsSince (st'.idxLog s) + (μIdx c s IdxOp.adds).pending st' =
        addsSince (st.idxLog s) + (μIdx c s IdxOp.adds).pending st := by
    intro s hf
    rcases step_pend hc h s with ⟨e1, e2⟩ | ⟨op, e1, e2⟩
    · rw [e1, e2]
    · have h1 := e2 IdxOp.force
      have h2 := e2 IdxOp.adds
      have hnf : op.refreshes = false := by
        cases hop : op.force with
        | true => rw [hop] at h1; simp at h1; omega
        | false => cases op <;> simp_all [IdxOp.force, IdxOp.refreshes]
      rw [e1, addsSince_snoc, hnf]
      simp only [Bool.false_eq_true, if_false]
      omega
  refine ⟨hreach, fun s => hzero s _ (hI.rem0 s), ?_, fun s => ?_, fun s => ?_⟩
  · cases hI.phase with
    | calm hF hA hcap =>
      refine .calm (fun s => hzero s _ (hF s)) (fun s => ?_) (fun s => by rw [hdocs]; exact hcap s)
      rw [hadds s (by rw [hzero s _ (hF s), hF s]), hdocs s]
      exact hA s
    | waiting i l k hl ho hk4 hp hF hA hA0 hR =>
      have ho' := onlyFlush_step hI.reach hc h ho
      have hl' : st'.calls = l ++ [(i, .flush)] := by rw [hgiv.2]; exact hl
      -- if the Flush still has to request the refresh, the request is pending there
      have hone : ∀ k', k' ≤ 4 → st'.prog (.client i) = (c.call .flush).drop k' →
          ∀ s, (μIdx c s IdxOp.force).pending st' = 1 := by
        intro k' hk' hp' s
        have h1 := pending_ge (μIdx c s IdxOp.force) st' (.client i)
        rw [hp', flush_weight s hk'] at h1
        have h2 := hle s IdxOp.force
        rw [hF s] at h2
        omega
      by_cases ha : a = .run (.client i)
      · subst ha
        -- the Flush advances
        have hlogs : ∀ s, st'.idxLog s = st.idxLog s ∧ ∀ p, (μIdx c s p).pending st' = (μIdx c s p).pending st := by
          intro s
          have hn : st.atIdx (.run (.client i)) = false := by
            have hpk := hp
            rw [flush_prog] at hpk
            simp only [Pipe.atIdx, Pipe.nextIdx, hpk]
            match k, hk4 with
            | 0, _ => rfl
            | 1, _ => rfl
            | 2, _ => rfl
            | 3, _ => rfl
            | 4, _ => rfl
          have e := (step_keeps hn h).1
          rcases step_pend hc h s with h1 | ⟨op, h1, _⟩
          · exact h1
          · rw [e] at h1; exact absurd (congrArg List.length h1) (by simp)
        have hp1 : st'.prog (.client i) = (c.call .flush).drop (k + 1) := by
          cases hx : (c.call .flush).drop k with
          | nil => rw [hx] at hp; simp [Pipe.step, hp] at h
          | cons x t =>
            rw [hx] at hp
            rw [(step_run_prog hp h).1]
            simp only [Function.update_self]
            exact drop_succ_of hx
        have hAA : ∀ s, addsSince (st'.idxLog s) + (μIdx c s IdxOp.adds).pending st' < o.init.docCacheSize := by
          intro s; rw [(hlogs s).1, (hlogs s).2]; exact hA s
        have hA1 : ∀ s, (μIdx c s IdxOp.adds).pending st' = 0 := by
          intro s
          rw [(hlogs s).2]
          by_cases h1 : 1 ≤ k
          · exact hA0 h1 s
          · have hk0 : k = 0 := by omega
            subst hk0
            rw [List.drop_zero, flush_prog] at hp
            have hw := (holds_of_await hp h).1
            obtain ⟨bs, hb⟩ := hI.reach
            exact (dom_add s IdxOp.adds (by intro op hop; cases op <;> simp_all [IdxOp.adds])).pending_zero db bs st hb
              (wait_indexed ⟨bs, hb⟩ ho hw)
        have hR1 : 1 ≤ k → ∀ s, (μIdx c s IdxOp.removesDoc).pending st' = 0 := by
          intro h1 s
          rw [(hlogs s).2]
          by_cases h2 : 2 ≤ k
          · exact hR h2 s
          · have hk1 : k = 1 := by omega
            subst hk1
            rw [flush_prog] at hp
            simp only [List.drop_succ_cons, List.drop_zero] at hp
            have hw := (holds_of_await hp h).1
            obtain ⟨bs, hb⟩ := hI.reach
            exact (dom_rem s IdxOp.removesDoc (by
              intro op hop; cases op <;> simp_all [IdxOp.removesDoc])).pending_zero db bs st hb
              (wait_removed ⟨bs, hb⟩ ho hw)
        by_cases hk3 : k + 1 ≤ 4
        · exact .waiting i l (k + 1) hl' ho' hk3 hp1 (hone (k + 1) hk3 hp1) hAA (fun _ => hA1)
            (fun hh => hR1 (by omega))
        · have : k = 4 := by omega
          subst this
          refine .forcing i l hl' ho' (by rw [hp1, flush_prog]; rfl) (fun s => ?_) hA1 (hR1 (by omega)) (fun s => ?_)
          · rw [(hlogs s).2, hF s]
          · refine ⟨by have := hAA s; omega, fun h0 => ?_⟩
            rw [(hlogs s).2, hF s] at h0; simp at h0
      · have hp' : st'.prog (.client i) = (c.call .flush).drop k := by
          rw [step_client st st' a h i (fun b e => by subst e; simp [Act.isCall] at hc) ha]; exact hp
        have hF' := hone k hk4 hp'
        refine .waiting i l k hl' ho' hk4 hp' hF' (fun s => ?_) (fun hh s => hzero s _ (hA0 hh s))
          (fun hh s => hzero s _ (hR hh s))
        rw [hadds s (by rw [hF' s, hF s])]
        exact hA s
    | forcing i l hl ho hp hF hA hR hS =>
      have ho' := onlyFlush_step hI.reach hc h ho
      have hl' : st'.calls = l ++ [(i, .flush)] := by rw [hgiv.2]; exact hl
      by_cases ha : a = .run (.client i)
      · subst ha
        have hw := (holds_of_await hp h).1
        have hlog := (holds_of_await hp h).2.1
        have hF0 : ∀ s, (μIdx c s IdxOp.force).pending st = 0 := by
          intro s
          obtain ⟨bs, hb⟩ := hI.reach
          exact (dom_forced s IdxOp.force (fun op hop => hop)).pending_zero db bs st hb (wait_forced ⟨bs, hb⟩ ho hp hw)
        have hd0 : ∀ s, st.docsSince db s = 0 := by
          intro s
          unfold Pipe.docsSince Pipe.given
          rw [hl, List.map_append, ← List.append_assoc]
          simp only [List.map_cons, List.map_nil]
          rw [sinceFlush_snoc]
          rfl
        refine .calm (fun s => hzero s _ (hF0 s)) (fun s => ?_) (fun s => ?_)
        · rw [hlog, (hS s).2 (hF0 s), hzero s _ (hA s)]; omega
        · rw [hdocs s, hd0 s]; exact size_pos o
      · have hp' : st'.prog (.client i) = [.await .forced] := by
          rw [step_client st st' a h i (fun b e => by subst e; simp [Act.isCall] at hc) ha]; exact hp
        refine .forcing i l hl' ho' hp' (fun s => (hle s _).trans (hF s)) (fun s => hzero s _ (hA s))
          (fun s => hzero s _ (hR s)) (fun s => ?_)
        rcases step_pend hc h s with ⟨e1, e2⟩ | ⟨op, e1, e2⟩
        · rw [e1, e2]; exact hS s
        · have h1 := e2 IdxOp.adds
          have h2 := e2 IdxOp.removesDoc
          have h3 := e2 IdxOp.remove0
          have h4 := e2 IdxOp.force
          rw [hA s] at h1
          rw [hR s] at h2
          rw [hI.rem0 s] at h3
          rw [e1, addsSince_snoc]
          cases op with
          | add d f => simp [IdxOp.adds] at h1
          | remove id f =>
            by_cases h0 : id = str "0"
            · simp [IdxOp.remove0, h0] at h3
            · simp [IdxOp.removesDoc, h0] at h2
          | flush f =>
            cases f with
            | true => simp only [IdxOp.refreshes, if_true, implies_true, and_true]; exact size_pos o
            | false =>
              simp only [IdxOp.force, Bool.false_eq_true, if_false, Nat.add_zero] at h4
              simp only [IdxOp.refreshes, IdxOp.adds, Bool.false_eq_true, if_false, Nat.add_zero, h4]
              exact hS s
  · -- the indexes
    obtain ⟨ix, hix, hlen⟩ := hI.cap s
    rcases step_pend hc h s with ⟨e1, _⟩ | ⟨op, e1, e2⟩
    · rw [e1]; exact ⟨ix, hix, hlen⟩
    · rw [e1]
      have h1 := e2 IdxOp.adds
      have h2 := hI.room s
      refine cap_snoc hso o ?_ hix hlen (by omega)
      rw [← e1]
      exact log_ok hk hreach s
  · rcases step_pend hc h s with ⟨e1, _⟩ | ⟨op, e1, e2⟩
    · rw [e1]; exact hI.fits s
    · rw [e1]
      have h1 := e2 IdxOp.adds
      have h2 := hI.room s
      exact (hI.fits s).snoc (by omega)

theorem gentle_start (c : PipeCfg D) {so : Sorter} {o : IndexerOpts} {db : Fin c.stores → List (Str × D)}
    (hs : GentleStart c o db) : GentleInv so o db (Pipe.start c db) := by
  have hcons : ∀ s p, (μIdx c s p).pending (Pipe.start c db) = (c.recoverOps db s).countP p := by
    intro s p
    have := idx_conserve s p db [] (Pipe.start c db) rfl
    have e1 : (Pipe.start c db).idxLog s = [] := rfl
    have e2 : (Pipe.start c db).issued db s = c.recoverOps db s := by simp [Pipe.issued, Pipe.start]
    rw [e1, e2] at this
    simpa using this
  have hrec : ∀ s, c.recoverOps db s =
      ((c.recovered db).map (fun x => Call.index x.1 x.2 false)).flatMap (c.callOps s) := by
    intro s
    have := issued_eq db (Pipe.start c db) s
    simpa [Pipe.issued, Pipe.start] using this
  have hcount : ∀ s p (n : Call D → Nat), (∀ id d, ((c.callOps s (.index id d false)).countP p = n (.index id d false))) →
      (c.recoverOps db s).countP p =
        (((c.recovered db).map (fun x => Call.index x.1 x.2 false)).map n).sum := by
    intro s p n hn
    rw [hrec s]
    generalize c.recovered db = l
    induction l with
    | nil => rfl
    | cons x l ih =>
      simp only [List.map_cons, List.flatMap_cons, List.countP_append, List.sum_cons, hn]
      rw [ih]
  have hsum0 : ∀ (l : List (Call D)), (l.map (fun _ => 0)).sum = 0 := by
    intro l; induction l <;> simp_all
  refine ⟨⟨[], rfl⟩, fun s => ?_, ?_, fun s => ⟨Indexer.init o, rfl, by simp [Indexer.init]⟩, fun s => Fits.nil o⟩
  · rw [hcons, hcount s _ (fun _ => 0), hsum0]
    intro id d
    simp only [PipeCfg.callOps]
    split
    · simp
    · split <;> simp [IdxOp.remove0]
  · have hd : ∀ s, (Pipe.start c db).docsSince db s =
        ((c.recovered db).map (fun x => Call.index x.1 x.2 false)).countP (c.addsTo s) := by
      intro s
      have e : (Pipe.start c db).given db = (c.recovered db).map (fun x => Call.index x.1 x.2 false) := by
        simp [Pipe.given, Pipe.start]
      unfold Pipe.docsSince
      rw [e]
      congr 1
      have hno : ∀ l : List (Call D), (∀ a ∈ l, a.isFlush = false) → sinceFlush l = l := by
        intro l
        induction l using List.reverseRecOn with
        | nil => intro _; rfl
        | append_singleton l a ih =>
          intro hl
          rw [sinceFlush_snoc, hl a (by simp), ih (fun b hb => hl b (by simp [hb]))]
          simp
      apply hno
      intro a ha
      obtain ⟨x, _, rfl⟩ := List.mem_map.1 ha
      rfl
    refine .calm (fun s => ?_) (fun s => ?_) (fun s => by rw [hd]; exact hs s)
    · rw [hcons, hcount s _ (fun _ => 0), hsum0]
      intro id d
      simp only [PipeCfg.callOps]
      split
      · simp
      · split <;> simp [IdxOp.force]
    · rw [hcons, hd, hcount s _ (fun a => if c.addsTo s a then 1 else 0)]
      · have : ∀ l : List (Call D), (l.map (fun a => if c.addsTo s a = true then 1 else 0)).sum = l.countP (c.addsTo s) := by
          intro l
          induction l with
          | nil => rfl
          | cons a l ih => rw [List.map_cons, List.sum_cons, ih, List.countP_cons]; omega
        rw [this]
        have e1 : (Pipe.start c db).idxLog s = [] := rfl
        rw [e1]
        simp [addsSince]
      · intro id d
        simp only [PipeCfg.callOps, PipeCfg.addsTo]
        by_cases h0 : id = str "0"
        · simp [h0]
        · by_cases hr : c.route id d = s <;> simp [h0, hr, IdxOp.adds]

/-- In a gentle run a forced index call and a removal are never both being executed on a shard. -/
theorem GentleInv.exclusive {so : Sorter} {o : IndexerOpts} {db : Fin c.stores → List (Str × D)} {st : Pipe c}
    (hI : GentleInv so o db st) {s : Fin c.shards} {op op' : IdxOp} {l l' : List (Micro c.toPipeSize D)}
    (h1 : st.prog (.idxAdd s) = .idx s op :: l) (hf : op.force = true)
    (h2 : st.prog (.idxRem s) = .idx s op' :: l') : False := by
  have hrem : op'.isAdd = false := (idx_rem_prog hI.reach h2).2
  have g1 : 1 ≤ (μIdx c s IdxOp.force).pending st := prog_pend h1 hf
  have g2 : 1 ≤ (μIdx c s IdxOp.removesDoc).pending st := by
    refine prog_pend h2 ?_
    cases op' with
    | remove id f =>
      by_cases h0 : id = str "0"
      · have := hI.rem0 s
        have h3 := prog_pend h2 (p := IdxOp.remove0) (by simp [IdxOp.remove0, h0])
        omega
      · simp [IdxOp.removesDoc, h0]
    | _ => simp [IdxOp.isAdd] at hrem
  cases hI.phase with
  | calm hF => have := hF s; omega
  | waiting i l k hl ho hk hp hF =>
    -- both the worker and the Flush have one
    have hw : (μIdx c s IdxOp.force).w2 (.idx s op : Micro c.toPipeSize D) = 1 := by simp [Meas.w2, μIdx, hf]
    have hsum : wsum (μIdx c s IdxOp.force).w2 (st.prog (.client i)) + wsum (μIdx c s IdxOp.force).w2 (st.prog (.idxAdd s)) ≤
        (μIdx c s IdxOp.force).pending st := by
      unfold Meas.pending
      have hne : (Thread.client i : Thread c.toPipeSize) ≠ .idxAdd s := by simp
      have := Finset.sum_le_sum_of_subset (f := fun t => wsum (μIdx c s IdxOp.force).w2 (st.prog t))
        (Finset.subset_univ {(Thread.client i : Thread c.toPipeSize), .idxAdd s})
      rw [Finset.sum_pair hne] at this
      omega
    rw [hp, flush_weight s hk, h1, wsum_cons, hw, hF s] at hsum
    omega
  | forcing i l hl ho hp hF hA hR hS => have := hR s; omega

end Riot
