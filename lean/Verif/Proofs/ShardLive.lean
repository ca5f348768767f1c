import Verif.Proofs.Shard
import Verif.Spec.Shard

/-!
# When the workers of a shard block each other
-/

namespace Riot

/-- Work left in RemoveDocToCache. -/
def RemPC.work : RemPC → Nat
  | .lockCache .. => 5
  | .lockTable .. => 4
  | .check _ => 3
  | .sort _ => 2
  | .remove _ => 1
  | .ret _ => 0

/-- Work left in AddDocToCache, with `n` documents in the cache. -/
def AddPC.work (n : Nat) : AddPC → Nat
  | .idle => 0
  | .put .. => 13 + 2 * n
  | .lockTable _ => 10 + 2 * n
  | .scan fuel _ _ _ => 9 + 2 * fuel
  | .lockCache fuel _ _ _ _ => 10 + 2 * fuel
  | .remove pc _ => 2 + pc.work
  | .lockTable2 _ => 1

/-- Work left on the shard. -/
def CShard.work (st : CShard) : Nat :=
  st.add.work st.ix.addCache.length + (match st.rem with | none => 0 | some pc => pc.work + 1)

theorem push_frame {st st' : CShard} {id : Str} (h : st.push id = some st') :
    st'.ix = st.ix ∧ st'.add = st.add ∧ st'.rem = st.rem ∧ st'.dead = st.dead ∧ st'.readers = st.readers := by
  unfold CShard.push at h
  cases hg : goSet st.arr st.ptr id with
  | none => rw [hg] at h; simp at h
  | some arr => rw [hg] at h; simp at h; subst h; exact ⟨rfl, rfl, rfl, rfl, rfl⟩

theorem register_frame {st st' : CShard} {id : Str} (h : st.register id = some st') :
    st'.ix.addCache = st.ix.addCache ∧ st'.add = st.add ∧ st'.rem = st.rem ∧ st'.readers = st.readers ∧
    ∀ d, st'.ix.docsState.get d = some 0 → st.ix.docsState.get d = some 0 := by
  unfold CShard.register at h
  split at h
  · obtain ⟨st1, h1, h2⟩ := Option.map_eq_some_iff.1 h
    subst h2
    obtain ⟨e1, e2, e3, _, e5⟩ := push_frame h1
    refine ⟨by rw [e1], e2, e3, e5, ?_⟩
    intro d hd
    rw [e1] at hd
    simp only [GoMap.get_set] at hd
    split at hd <;> simp_all
  · simp at h; subst h
    refine ⟨rfl, rfl, rfl, rfl, ?_⟩
    intro d hd
    simp only [GoMap.get_set] at hd
    split at hd <;> simp_all
  · simp at h; subst h; exact ⟨rfl, rfl, rfl, rfl, fun _ h => h⟩

theorem forgetDocs_state (docs : List Str) : ∀ (s : Indexer) (d : Str),
    (forgetDocs docs s).docsState.get d = some 0 → s.docsState.get d = some 0 := by
  induction docs with
  | nil => intro s d h; exact h
  | cons x ds ih =>
    intro s d h
    rw [forgetDocs] at h
    have := ih _ _ h
    simp only [GoMap.get_del] at this
    split at this <;> simp_all

theorem removeDocs_state {s s' : Indexer} {docs : List Str} (h : s.removeDocs docs = some s') (d : Str)
    (hd : s'.docsState.get d = some 0) : s.docsState.get d = some 0 := by
  unfold Indexer.removeDocs at h
  simp only [bind, pure, Option.bind_eq_some_iff] at h
  obtain ⟨t, _, h⟩ := h
  simp only [Option.some.injEq] at h
  subst h
  exact forgetDocs_state docs s d hd

/-- An action inside RemoveDocToCache: what it leaves alone. -/
theorem remStep_frame {so : Sorter} {st st' : CShard} {a b : Bool} {pc pc' : RemPC}
    (h : st.remStep so a b pc = some (st', pc')) :
    st'.ix.addCache = st.ix.addCache ∧ st'.add = st.add ∧ st'.rem = st.rem ∧ st'.readers = st.readers ∧
    pc'.work < pc.work ∧
    ∀ d, st'.ix.docsState.get d = some 0 → st.ix.docsState.get d = some 0 := by
  cases pc with
  | lockCache id f =>
    simp only [CShard.remStep] at h
    split at h
    · simp only [Option.some.injEq, Prod.mk.injEq] at h
      obtain ⟨rfl, rfl⟩ := h
      refine ⟨rfl, rfl, rfl, rfl, ?_, fun _ => fun h => h⟩
      split <;> simp [RemPC.work]
    · simp at h
  | lockTable id f =>
    simp only [CShard.remStep] at h
    split at h
    · simp only [Option.some.injEq, Prod.mk.injEq] at h
      obtain ⟨rfl, rfl⟩ := h
      cases hr : st.register id with
      | none => exact ⟨rfl, rfl, rfl, rfl, by simp [RemPC.work], fun _ => fun h => h⟩
      | some st2 =>
        obtain ⟨e1, e2, e3, e4, e5⟩ := register_frame hr
        exact ⟨e1, e2, e3, e4, by simp [RemPC.work], e5⟩
    · simp at h
  | check f =>
    simp only [CShard.remStep] at h
    split at h <;> (simp only [Option.some.injEq, Prod.mk.injEq] at h; obtain ⟨rfl, rfl⟩ := h;
                    exact ⟨rfl, rfl, rfl, rfl, by simp [RemPC.work], fun _ => fun h => h⟩)
  | sort n =>
    simp only [CShard.remStep, Option.some.injEq, Prod.mk.injEq] at h
    obtain ⟨rfl, rfl⟩ := h
    exact ⟨rfl, rfl, rfl, rfl, by simp [RemPC.work], fun _ => fun h => h⟩
  | remove n =>
    simp only [CShard.remStep] at h
    split at h
    · simp only [Option.some.injEq, Prod.mk.injEq] at h
      obtain ⟨rfl, rfl⟩ := h
      cases hr : st.ix.removeDocs (st.arr.take n) with
      | none => exact ⟨rfl, rfl, rfl, rfl, by simp [RemPC.work], fun _ => fun h => h⟩
      | some ix =>
        have hs := removeDocs_same hr
        exact ⟨hs.2.1, rfl, rfl, rfl, by simp [RemPC.work], fun d hd => removeDocs_state hr d hd⟩
    · simp at h
  | ret b => simp [CShard.remStep] at h

theorem swapCache_perm {cache cache' : List DocIndex} {p i : Nat} {doc : DocIndex}
    (hi : cache[i]? = some doc) (h : swapCache cache p i doc = some cache') : cache'.Perm cache := by
  unfold swapCache at h
  split at h
  · rename_i hne
    cases hp : cache[p]? with
    | none => rw [hp] at h; simp at h
    | some x =>
      rw [hp] at h
      simp only [Option.some.injEq] at h
      subst h
      obtain ⟨hpl, hpe⟩ := List.getElem?_eq_some_iff.1 hp
      obtain ⟨hil, hie⟩ := List.getElem?_eq_some_iff.1 hi
      subst hpe hie
      exact List.set_set_perm hpl hil
  · simp at h; subst h; exact List.Perm.refl _

/-- An action of the add worker: work decreases unless the process panics. -/
theorem addStep_work {so : Sorter} {st st' : CShard} (h : st.addStep so = some st') :
    st'.rem = st.rem ∧ st'.readers = st.readers ∧
    (st'.dead = true ∨ st'.add.work st'.ix.addCache.length < st.add.work st.ix.addCache.length) := by
  unfold CShard.addStep at h
  simp only at h
  split at h
  · simp at h
  · -- put
    rename_i doc f ha
    rw [ha]
    split at h
    · simp only [Option.some.injEq] at h; subst h; exact ⟨rfl, rfl, Or.inl rfl⟩
    · rename_i ix hix
      simp only [Option.some.injEq] at h
      subst h
      refine ⟨rfl, rfl, Or.inr ?_⟩
      have hl : ix.addCache.length ≤ st.ix.addCache.length + 1 := by
        cases doc with
        | none => simp at hix; subst hix; omega
        | some d =>
          simp only at hix
          split at hix
          · simp only [Option.some.injEq] at hix; subst hix; simp
          · simp at hix
      simp only
      split <;> simp only [AddPC.work] <;> omega
  · -- lockTable
    rename_i f ha
    rw [ha]
    split at h
    · simp only [Option.some.injEq] at h; subst h
      exact ⟨rfl, rfl, Or.inr (by simp only [AddPC.work]; omega)⟩
    · simp at h
  · rename_i i p f ha
    rw [ha]
    simp only [Option.some.injEq] at h; subst h
    exact ⟨rfl, rfl, Or.inr (by simp [AddPC.work, RemPC.work])⟩
  · rename_i fuel i p f ha
    rw [ha]
    split at h
    · simp only [Option.some.injEq] at h; subst h; exact ⟨rfl, rfl, Or.inl rfl⟩
    · rename_i doc hdoc
      split at h
      · simp only [Option.some.injEq] at h; subst h
        exact ⟨rfl, rfl, Or.inr (by simp only [AddPC.work]; omega)⟩
      · split at h
        · split at h
          · simp only [Option.some.injEq] at h; subst h; exact ⟨rfl, rfl, Or.inl rfl⟩
          · simp only [Option.some.injEq] at h; subst h
            refine ⟨rfl, rfl, Or.inr ?_⟩
            simp only
            split <;> simp only [AddPC.work] <;> omega
        · simp only [Option.some.injEq] at h; subst h
          exact ⟨rfl, rfl, Or.inr (by simp only [AddPC.work]; omega)⟩
  · rename_i fuel i p f id ha
    rw [ha]
    split at h
    · simp only [Option.some.injEq] at h
      cases hp : st.push id with
      | none => rw [hp] at h; subst h; exact ⟨rfl, rfl, Or.inl rfl⟩
      | some st1 =>
        rw [hp] at h; subst h
        obtain ⟨e1, e2, e3, e4, e5⟩ := push_frame hp
        exact ⟨e3, e5, Or.inr (by simp [AddPC.work, CShard.orDie])⟩
    · simp at h
  · rename_i removed p ha
    rw [ha]
    simp only [Option.some.injEq] at h; subst h
    exact ⟨rfl, rfl, Or.inr (by simp [AddPC.work, RemPC.work])⟩
  · rename_i pc p hne ha
    rw [ha]
    obtain ⟨⟨st1, pc1⟩, h1, h2⟩ := Option.map_eq_some_iff.1 h
    subst h2
    obtain ⟨e1, e2, e3, e4, e5, e6⟩ := remStep_frame h1
    exact ⟨e3, e4, Or.inr (by simp only [AddPC.work]; omega)⟩
  · rename_i docs ha
    rw [ha]
    split at h
    · simp only [Option.some.injEq] at h
      cases hp : st.ix.addDocs docs with
      | none => rw [hp] at h; subst h; exact ⟨rfl, rfl, Or.inl rfl⟩
      | some ix => rw [hp] at h; subst h; exact ⟨rfl, rfl, Or.inr (by simp [AddPC.work, CShard.orDie])⟩
    · simp at h

theorem remWorkerStep_work {so : Sorter} {st st' : CShard} (h : st.remWorkerStep so = some st') :
    st'.add = st.add ∧ st'.ix.addCache = st.ix.addCache ∧ st'.readers = st.readers ∧ st'.work < st.work := by
  unfold CShard.remWorkerStep at h
  split at h
  · simp at h
  · rename_i r hr
    simp only [Option.some.injEq] at h; subst h
    exact ⟨rfl, rfl, rfl, by simp [CShard.work, hr]⟩
  · rename_i pc hne hr
    obtain ⟨⟨st1, pc1⟩, h1, h2⟩ := Option.map_eq_some_iff.1 h
    subst h2
    obtain ⟨e1, e2, e3, e4, e5, e6⟩ := remStep_frame h1
    refine ⟨e2, e1, e4, ?_⟩
    simp only [CShard.work, hr, e1, e2]
    omega

/-- Every worker action decreases the work left, unless it panics. -/
theorem work_lt {so : Sorter} {st st' : CShard} {a : SAct} (ha : a.isWork = true)
    (h : st.step so a = some st') : st'.dead = true ∨ st'.work < st.work := by
  cases a with
  | add =>
    simp only [CShard.step] at h
    split at h
    · simp at h
    · obtain ⟨h1, h2, h3⟩ := addStep_work h
      rcases h3 with h3 | h3
      · exact Or.inl h3
      · right; unfold CShard.work; rw [h1]; omega
  | rem =>
    simp only [CShard.step] at h
    split at h
    · simp at h
    · exact Or.inr (remWorkerStep_work h).2.2.2
  | _ => simp [SAct.isWork] at ha

/-- With no searches running, the add worker is blocked only by a held removeCacheLock. -/
theorem add_blocked {so : Sorter} {st : CShard} (hd : st.dead = false) (hr : st.readers = 0)
    (hb : st.add ≠ .idle) (h : st.step so .add = none) :
    st.rem.any RemPC.holdsCache = true ∧
    ((∃ fuel i p f id, st.add = .lockCache fuel i p f id) ∨
      ∃ id f p, st.add = .remove (.lockCache id f) p) := by
  simp only [CShard.step, hd, Bool.false_eq_true, if_false] at h
  unfold CShard.addStep at h
  simp only at h
  split at h
  · exact absurd (by assumption) hb
  · split at h <;> simp at h
  · simp [hr] at h
  · simp at h
  · split at h
    · simp at h
    · split at h
      · simp at h
      · split at h
        · split at h <;> simp at h
        · simp at h
  · rename_i fuel i p f id ha
    split at h
    · simp at h
    · rename_i hc
      simp only [Bool.not_eq_true, Bool.not_eq_false'] at hc
      exact ⟨hc, Or.inl ⟨_, _, _, _, _, ha⟩⟩
  · simp at h
  · rename_i pc p hne ha
    simp only [Option.map_eq_none_iff] at h
    cases pc with
    | lockCache id f =>
      simp only [CShard.remStep] at h
      split at h
      · simp at h
      · rename_i hc
        simp only [Bool.not_eq_true, Bool.not_eq_false'] at hc
        exact ⟨hc, Or.inr ⟨_, _, _, ha⟩⟩
    | lockTable id f => simp [CShard.remStep, hr] at h
    | check f => simp only [CShard.remStep] at h; split at h <;> simp at h
    | sort n => simp [CShard.remStep] at h
    | remove n => simp [CShard.remStep, hr] at h
    | ret b => exact absurd rfl (hne b)
  · simp [hr] at h

/-- With no searches running, the remove worker is blocked only by a lock the add worker holds. -/
theorem rem_blocked {so : Sorter} {st : CShard} (hd : st.dead = false) (hr : st.readers = 0)
    (hb : st.rem ≠ none) (h : st.step so .rem = none) :
    (∃ pc, st.rem = some pc ∧
      ((∃ id f, pc = .lockCache id f) ∧ st.add.holdsCache = true ∨
       ((∃ id f, pc = .lockTable id f) ∨ ∃ n, pc = .remove n) ∧ st.add.holdsTable = true)) := by
  simp only [CShard.step, hd, Bool.false_eq_true, if_false] at h
  unfold CShard.remWorkerStep at h
  split at h
  · rename_i hn; exact absurd hn hb
  · simp at h
  · rename_i pc hne hx
    refine ⟨pc, hx, ?_⟩
    simp only [Option.map_eq_none_iff] at h
    cases pc with
    | lockCache id f =>
      simp only [CShard.remStep] at h
      split at h
      · simp at h
      · rename_i hc; simp at hc; exact Or.inl ⟨⟨_, _, rfl⟩, hc⟩
    | lockTable id f =>
      simp only [CShard.remStep] at h
      split at h
      · simp at h
      · rename_i hc; simp [hr] at hc; exact Or.inr ⟨Or.inl ⟨_, _, rfl⟩, hc⟩
    | check f => simp only [CShard.remStep] at h; split at h <;> simp at h
    | sort n => simp [CShard.remStep] at h
    | remove n =>
      simp only [CShard.remStep] at h
      split at h
      · simp at h
      · rename_i hc; simp [hr] at hc; exact Or.inr ⟨Or.inr ⟨_, rfl⟩, hc⟩
    | ret b => exact absurd rfl (hne b)

/-- Without searches, no worker of a busy shard can act only when the locks are crossed. -/
theorem blocked_crossed {so : Sorter} {st : CShard} (hd : st.dead = false) (hr : st.readers = 0)
    (hb : st.Busy) (h1 : st.step so .add = none) (h2 : st.step so .rem = none) : st.crossed := by
  by_cases hrn : st.rem = none
  · rcases hb with hb | hb
    · have := (add_blocked hd hr hb h1).1
      rw [hrn] at this; simp at this
    · exact absurd hrn hb
  · obtain ⟨pc, hpc, hcase⟩ := rem_blocked hd hr hrn h2
    by_cases hi : st.add = .idle
    · rw [hi] at hcase
      rcases hcase with ⟨_, h⟩ | ⟨_, h⟩ <;> simp [AddPC.holdsCache, AddPC.holdsTable] at h
    · obtain ⟨hc, hcase2⟩ := add_blocked hd hr hi h1
      rcases hcase2 with ⟨fuel, i, p, f, id, ha⟩ | ⟨id, f, p, ha⟩
      · rw [ha] at hcase
        rcases hcase with ⟨_, h⟩ | ⟨hx, _⟩
        · simp [AddPC.holdsCache] at h
        · rcases hx with ⟨id', f', rfl⟩ | ⟨n, rfl⟩
          · exact ⟨⟨_, _, _, _, _, ha⟩, ⟨_, _, hpc⟩⟩
          · rw [hpc] at hc; simp [RemPC.holdsCache] at hc
      · rw [ha] at hcase
        rcases hcase with ⟨_, h⟩ | ⟨hx, h⟩
        · simp [AddPC.holdsCache, RemPC.holdsCache] at h
        · simp [AddPC.holdsTable] at h

theorem crossed_step {so : Sorter} {st st' : CShard} (hc : st.crossed) {a : SAct}
    (h : st.step so a = some st') : st'.crossed ∧ st'.dead = st.dead := by
  obtain ⟨⟨fuel, i, p, f, id, ha⟩, ⟨id', f', hr⟩⟩ := hc
  cases a with
  | begin op =>
    cases op <;> simp [CShard.step, ha, hr] at h
  | add => simp [CShard.step, CShard.addStep, ha, hr, RemPC.holdsCache] at h
  | rem => simp [CShard.step, CShard.remWorkerStep, CShard.remStep, ha, hr, AddPC.holdsTable] at h
  | search => simp [CShard.step, ha, AddPC.holdsTable] at h
  | searched =>
    simp only [CShard.step] at h
    split at h
    · simp at h
    · simp only [Option.some.injEq] at h; subst h
      exact ⟨⟨⟨fuel, i, p, f, id, ha⟩, ⟨id', f', hr⟩⟩, rfl⟩

theorem crossed_run {so : Sorter} (as : List SAct) : ∀ {st st' : CShard}, st.crossed →
    st.run so as = some st' → st'.crossed := by
  induction as with
  | nil => intro st st' hc h; simp [CShard.run] at h; subst h; exact hc
  | cons a l ih =>
    intro st st' hc h
    simp only [CShard.run] at h
    obtain ⟨st1, h1, h2⟩ := Option.bind_eq_some_iff.1 h
    exact ih (crossed_step hc h1).1 h2

theorem crossed_blocked {so : Sorter} {st : CShard} (hc : st.crossed) :
    st.step so .add = none ∧ st.step so .rem = none ∧ st.step so .search = none ∧
    ∀ op, st.step so (.begin op) = none := by
  obtain ⟨⟨fuel, i, p, f, id, ha⟩, ⟨id', f', hr⟩⟩ := hc
  refine ⟨?_, ?_, ?_, ?_⟩
  · simp [CShard.step, CShard.addStep, ha, hr, RemPC.holdsCache]
  · simp [CShard.step, CShard.remWorkerStep, CShard.remStep, ha, hr, AddPC.holdsTable]
  · simp [CShard.step, ha, AddPC.holdsTable]
  · intro op; cases op <;> simp [CShard.step, ha, hr]

/-- All searches can finish. -/
theorem drain_readers (so : Sorter) : ∀ (n : Nat) (st : CShard), st.dead = false → st.readers = n →
    ∃ as, (∀ a ∈ as, a = .searched) ∧ st.run so as = some { st with readers := 0 } := by
  intro n
  induction n with
  | zero => intro st hd hr; exact ⟨[], by simp, by simp only [CShard.run]; rw [← hr]⟩
  | succ n ih =>
    intro st hd hr
    obtain ⟨as, h1, h2⟩ := ih { st with readers := n } hd rfl
    refine ⟨.searched :: as, by simpa using h1, ?_⟩
    have hs : st.step so .searched = some { st with readers := n } := by
      simp [CShard.step, hd, hr]
    simp only [CShard.run, hs, Option.bind_some]
    exact h2

theorem cshard_run_append (so : Sorter) (a b : List SAct) : ∀ (st : CShard),
    st.run so (a ++ b) = (st.run so a).bind (fun st' => st'.run so b) := by
  induction a with
  | nil => intro st; rfl
  | cons x a ih =>
    intro st
    simp only [List.cons_append, CShard.run]
    cases st.step so x with
    | none => rfl
    | some st' => simp only [Option.bind_some]; exact ih st'

theorem stuck_iff_crossed {so : Sorter} {st : CShard} (hd : st.dead = false) : st.Stuck so ↔ st.crossed := by
  constructor
  · rintro ⟨_, hb, h⟩
    obtain ⟨as, _, h1⟩ := drain_readers so st.readers st hd rfl
    obtain ⟨h2, h3⟩ := h as _ h1
    exact blocked_crossed (st := { st with readers := 0 }) hd rfl hb h2 h3
  · intro hc
    refine ⟨hd, Or.inl ?_, fun as st' h => ?_⟩
    · obtain ⟨⟨fuel, i, p, f, id, ha⟩, _⟩ := hc; rw [ha]; simp
    · have := crossed_blocked (so := so) (crossed_run as hc h)
      exact ⟨this.1, this.2.1⟩

/-! ## Documents that are given once -/

/-- Documents that are on their way into the index. -/
def CShard.pending (st : CShard) : List Str :=
  (match st.add with
    | .put (some d) _ => [d.docId]
    | .lockTable2 docs => docs.map (·.docId)
    | _ => []) ++ st.ix.addCache.map (·.docId)

/-- Every document was given once: none on its way is in the index. -/
structure CShard.Fresh (st : CShard) (given : List Str) : Prop where
  nodup : st.pending.Nodup
  new : ∀ d ∈ st.pending, st.ix.docsState.get d ≠ some 0
  mem : ∀ d ∈ st.pending, d ∈ given
  indexed : ∀ d, st.ix.docsState.get d = some 0 → d ∈ given
  add : ∀ fuel i p f id, st.add ≠ .lockCache fuel i p f id

theorem Fresh.of_perm {st st' : CShard} {g : List Str} (h : st.Fresh g) (hp : st'.pending.Perm st.pending)
    (hs : ∀ d, st'.ix.docsState.get d = some 0 → st.ix.docsState.get d = some 0)
    (ha : ∀ fuel i p f id, st'.add ≠ .lockCache fuel i p f id) : st'.Fresh g :=
  ⟨hp.nodup_iff.2 h.nodup, fun d hd hx => h.new d (hp.mem_iff.1 hd) (hs d hx),
    fun d hd => h.mem d (hp.mem_iff.1 hd), fun d hd => h.indexed d (hs d hd), ha⟩

theorem addOneDoc_state {s s' : Indexer} {p p' : GoMap Nat} {doc : DocIndex}
    (h : addOneDoc s p doc = some (s', p')) (d : Str) (hd : s'.docsState.get d = some 0) :
    s.docsState.get d = some 0 ∨ d = doc.docId := by
  unfold addOneDoc at h
  split at h
  · simp at h; rw [← h.1] at hd; exact Or.inl hd
  · simp only [bind, pure, Option.bind_eq_some_iff] at h
    obtain ⟨x, _, h⟩ := h
    simp only [Option.some.injEq, Prod.mk.injEq] at h
    rw [← h.1] at hd
    simp only [GoMap.get_set] at hd
    split at hd
    · exact Or.inr (by assumption)
    · left
      split at hd <;> exact hd

theorem addDocsLoop_state (docs : List DocIndex) : ∀ (s s' : Indexer) (p : GoMap Nat),
    addDocsLoop docs s p = some s' → ∀ d, s'.docsState.get d = some 0 →
    s.docsState.get d = some 0 ∨ d ∈ docs.map (·.docId) := by
  induction docs with
  | nil => intro s s' p h d hd; simp [addDocsLoop] at h; subst h; exact Or.inl hd
  | cons doc rest ih =>
    intro s s' p h d hd
    cases rest with
    | nil =>
      simp only [addDocsLoop, bind, Option.bind_eq_some_iff] at h
      obtain ⟨⟨s1, p1⟩, h1, h2⟩ := h
      simp only [Option.some.injEq] at h2
      subst h2
      rcases addOneDoc_state h1 d hd with h | h
      · exact Or.inl h
      · right; simp [h]
    | cons next rest =>
      rw [addDocsLoop] at h
      split at h
      · rcases ih s s' p h d hd with h | h
        · exact Or.inl h
        · right; simp only [List.map_cons, List.mem_cons] at h ⊢; tauto
      · simp only [bind, Option.bind_eq_some_iff] at h
        obtain ⟨⟨s1, p1⟩, h1, h2⟩ := h
        rcases ih _ _ _ h2 d hd with h | h
        · rcases addOneDoc_state h1 d h with h | h
          · exact Or.inl h
          · right; simp [h]
        · right; simp only [List.map_cons, List.mem_cons] at h ⊢; tauto

theorem addStep_fresh {so : Sorter} (hso : SortOk so) {st st' : CShard} {g : List Str} (hf : st.Fresh g)
    (h : st.addStep so = some st') (hd' : st'.dead = false) : st'.Fresh g := by
  unfold CShard.addStep at h
  simp only at h
  split at h
  · simp at h
  · -- put
    rename_i doc f ha
    split at h
    · simp only [Option.some.injEq] at h; subst h; simp at hd'
    · rename_i ix hix
      simp only [Option.some.injEq] at h
      subst h
      refine Fresh.of_perm hf ?_ ?_ ?_
      · have hpend : ({ st with ix := ix, add := (if ix.addCache.length ≥ ix.opts.docCacheSize ∨ f = true
            then AddPC.lockTable f else AddPC.idle) } : CShard).pending = ix.addCache.map (·.docId) := by
          unfold CShard.pending; simp only
          split <;> first | rfl | (rename_i hx; split at hx <;> simp at hx)
        rw [hpend]
        unfold CShard.pending
        rw [ha]
        cases doc with
        | none => simp at hix; subst hix; exact List.Perm.refl _
        | some d =>
          simp only at hix
          split at hix
          · simp only [Option.some.injEq] at hix; subst hix
            simp only [List.map_append, List.map_cons, List.map_nil]
            exact List.perm_append_comm
          · simp at hix
      · intro d hd
        cases doc with
        | none => simp at hix; subst hix; exact hd
        | some d =>
          simp only at hix
          split at hix
          · simp only [Option.some.injEq] at hix; subst hix; exact hd
          · simp at hix
      · intro fuel i p f' id; simp only; split <;> simp
  · -- lockTable
    rename_i f ha
    split at h
    · simp only [Option.some.injEq] at h; subst h
      refine Fresh.of_perm hf ?_ (fun _ h => h) (by simp)
      simp only [CShard.pending, ha]; exact List.Perm.refl _
    · simp at h
  · rename_i i p f ha
    simp only [Option.some.injEq] at h; subst h
    refine Fresh.of_perm hf ?_ (fun _ h => h) (by simp)
    simp only [CShard.pending, ha]; exact List.Perm.refl _
  · rename_i fuel i p f ha
    split at h
    · simp only [Option.some.injEq] at h; subst h; simp at hd'
    · rename_i doc hdoc
      have hmem : doc.docId ∈ st.pending := by
        unfold CShard.pending
        rw [ha]
        simp only [List.nil_append]
        exact List.mem_map_of_mem (List.mem_of_getElem? hdoc)
      split at h
      · simp only [Option.some.injEq] at h; subst h
        refine Fresh.of_perm hf ?_ ?_ (by simp)
        · simp only [CShard.pending, ha]; exact List.Perm.refl _
        · intro d hd
          simp only [GoMap.get_set] at hd
          split at hd <;> simp_all
      · rename_i s hs
        split at h
        · split at h
          · simp only [Option.some.injEq] at h; subst h; simp at hd'
          · rename_i cache hcache
            simp only [Option.some.injEq] at h; subst h
            have hs0 : s ≠ 0 := fun h0 => hf.new _ hmem (by rw [hs, h0])
            refine Fresh.of_perm hf ?_ (fun _ h => h) (by simp [hs0])
            simp only [CShard.pending, ha, hs0, if_false, List.nil_append]
            exact (swapCache_perm hdoc hcache).map _
        · simp only [Option.some.injEq] at h; subst h
          refine Fresh.of_perm hf ?_ (fun _ h => h) (by simp)
          simp only [CShard.pending, ha]; exact List.Perm.refl _
  · rename_i fuel i p f id ha
    exact absurd ha (hf.add _ _ _ _ _)
  · rename_i removed p ha
    simp only [Option.some.injEq] at h; subst h
    refine Fresh.of_perm hf ?_ (fun _ h => h) (by simp)
    simp only [CShard.pending, ha, List.nil_append]
    generalize (if removed = true then 0 else p) = q
    rw [← List.map_append]
    refine List.Perm.map _ ?_
    refine (List.Perm.append_right _ (hso.docs_perm _)).trans ?_
    refine List.perm_append_comm.trans ?_
    rw [List.take_append_drop]
  · rename_i pc p hne ha
    obtain ⟨⟨st1, pc1⟩, h1, h2⟩ := Option.map_eq_some_iff.1 h
    subst h2
    obtain ⟨e1, e2, e3, e4, e5, e6⟩ := remStep_frame h1
    refine Fresh.of_perm hf ?_ e6 (by simp)
    simp only [CShard.pending, ha, e1]; exact List.Perm.refl _
  · rename_i docs ha
    split at h
    · simp only [Option.some.injEq] at h
      cases hp : st.ix.addDocs docs with
      | none => rw [hp] at h; subst h; simp [CShard.orDie] at hd'
      | some ix =>
        rw [hp] at h; subst h
        have hsame := addDocs_same hp
        have hpe : st.pending = docs.map (·.docId) ++ st.ix.addCache.map (·.docId) := by
          unfold CShard.pending; rw [ha]
        have hpe' : (st.orDie (Option.map (fun ix => { st with ix := ix, add := AddPC.idle })
            (some ix))).pending = st.ix.addCache.map (·.docId) := by
          simp [CShard.orDie, CShard.pending, hsame.2.1]
        have hnd := hf.nodup
        rw [hpe] at hnd
        refine ⟨?_, ?_, ?_, ?_, by simp [CShard.orDie]⟩
        · rw [hpe']; exact (List.nodup_append.1 hnd).2.1
        · intro d hd hx
          rw [hpe'] at hd
          rcases addDocsLoop_state docs _ _ _ hp d hx with h | h
          · exact hf.new d (by rw [hpe]; simp [hd]) h
          · exact (List.nodup_append.1 hnd).2.2 d h d hd rfl
        · intro d hd
          rw [hpe'] at hd
          exact hf.mem d (by rw [hpe]; exact List.mem_append_right _ hd)
        · intro d hd
          rcases addDocsLoop_state docs _ _ _ hp d hd with h | h
          · exact hf.indexed d h
          · exact hf.mem d (by rw [hpe]; exact List.mem_append_left _ h)
    · simp at h

theorem remWorkerStep_fresh {so : Sorter} {st st' : CShard} {g : List Str} (hf : st.Fresh g)
    (h : st.remWorkerStep so = some st') : st'.Fresh g := by
  unfold CShard.remWorkerStep at h
  split at h
  · simp at h
  · simp only [Option.some.injEq] at h; subst h
    exact ⟨hf.nodup, hf.new, hf.mem, hf.indexed, hf.add⟩
  · obtain ⟨⟨st1, pc1⟩, h1, h2⟩ := Option.map_eq_some_iff.1 h
    subst h2
    obtain ⟨e1, e2, e3, e4, e5, e6⟩ := remStep_frame h1
    refine Fresh.of_perm hf ?_ e6 (by simp only [e2]; exact hf.add)
    simp only [CShard.pending, e1, e2]; exact List.Perm.refl _

theorem fresh_run {so : Sorter} (hso : SortOk so) (as : List SAct) : ∀ {st st' : CShard} (g : List Str),
    (st.dead = false → st.Fresh g) → (g ++ addedIds as).Nodup → st.run so as = some st' →
    st'.dead = false → st'.Fresh (g ++ addedIds as) := by
  induction as with
  | nil =>
    intro st st' g hf _ h hd'
    simp only [CShard.run, Option.some.injEq] at h
    subst h
    simpa [addedIds] using hf hd'
  | cons a l ih =>
    intro st st' g hf hg h hd'
    simp only [CShard.run] at h
    obtain ⟨st1, h1, h2⟩ := Option.bind_eq_some_iff.1 h
    have hd : st.dead = false := by
      cases hx : st.dead with
      | false => rfl
      | true => cases a <;> simp [CShard.step, hx] at h1
    have hf := hf hd
    have key : addedIds (a :: l) = addedIds [a] ++ addedIds l := by
      unfold addedIds; rw [← List.filterMap_append]; rfl
    rw [key, ← List.append_assoc] at hg ⊢
    refine ih (g ++ addedIds [a]) ?_ hg h2 hd'
    intro hd1
    have hmono : ∀ {st : CShard}, st.Fresh g → addedIds [a] = [] → st.Fresh (g ++ addedIds [a]) := by
      intro st h he; rw [he, List.append_nil]; exact h
    cases a with
    | begin op =>
      simp only [CShard.step, hd, Bool.false_eq_true, if_false] at h1
      cases op with
      | add d f =>
        simp only at h1
        split at h1
        · rename_i hi
          simp only [Option.some.injEq] at h1; subst h1
          have he : addedIds [SAct.begin (.add d f)] = [d.docId] := rfl
          have hp0 : st.pending = st.ix.addCache.map (·.docId) := by unfold CShard.pending; rw [hi]; rfl
          have hn : d.docId ∉ g := by
            rw [he] at hg
            exact fun hx => (List.nodup_append.1 (List.nodup_append.1 hg).1).2.2 _ hx _ (by simp) rfl
          rw [he]
          refine ⟨?_, ?_, ?_, ?_, by simp⟩
          · simp only [CShard.pending, List.cons_append, List.nil_append, List.nodup_cons]
            exact ⟨fun hx => hn (hf.mem _ (by rw [hp0]; exact hx)), by rw [← hp0]; exact hf.nodup⟩
          · intro x hx hs
            simp only [CShard.pending, List.cons_append, List.nil_append, List.mem_cons] at hx
            rcases hx with rfl | hx
            · exact hn (hf.indexed _ hs)
            · exact hf.new x (by rw [hp0]; exact hx) hs
          · intro x hx
            simp only [CShard.pending, List.cons_append, List.nil_append, List.mem_cons] at hx
            rcases hx with rfl | hx
            · simp
            · exact List.mem_append_left _ (hf.mem x (by rw [hp0]; exact hx))
          · intro x hx; exact List.mem_append_left _ (hf.indexed x hx)
        · simp at h1
      | flush f =>
        simp only at h1
        split at h1
        · rename_i hi
          simp only [Option.some.injEq] at h1; subst h1
          refine hmono (Fresh.of_perm hf ?_ (fun _ h => h) (by simp)) rfl
          simp only [CShard.pending, hi]; exact List.Perm.refl _
        · simp at h1
      | remove id f =>
        simp only at h1
        split at h1
        · simp only [Option.some.injEq] at h1; subst h1
          exact hmono ⟨hf.nodup, hf.new, hf.mem, hf.indexed, hf.add⟩ rfl
        · simp at h1
    | add =>
      simp only [CShard.step, hd, Bool.false_eq_true, if_false] at h1
      exact hmono (addStep_fresh hso hf h1 hd1) rfl
    | rem =>
      simp only [CShard.step, hd, Bool.false_eq_true, if_false] at h1
      exact hmono (remWorkerStep_fresh hf h1) rfl
    | search =>
      simp only [CShard.step] at h1
      split at h1
      · simp at h1
      · simp only [Option.some.injEq] at h1; subst h1
        exact hmono ⟨hf.nodup, hf.new, hf.mem, hf.indexed, hf.add⟩ rfl
    | searched =>
      simp only [CShard.step] at h1
      split at h1
      · simp at h1
      · simp only [Option.some.injEq] at h1; subst h1
        exact hmono ⟨hf.nodup, hf.new, hf.mem, hf.indexed, hf.add⟩ rfl

theorem fresh_init (o : IndexerOpts) : (CShard.init o).Fresh [] := by
  refine ⟨by simp [CShard.pending, CShard.init, Indexer.init], ?_, ?_, ?_, by simp [CShard.init]⟩
  · simp [CShard.pending, CShard.init, Indexer.init]
  · simp [CShard.pending, CShard.init, Indexer.init]
  · intro d hd; simp [CShard.init, Indexer.init, GoMap.get_empty] at hd

/-! ## Completion -/

/-- Without crossed locks on the way, the workers finish. -/
theorem finish_calls (so : Sorter) : ∀ (n : Nat) (st : CShard), st.work ≤ n → st.readers = 0 →
    st.dead = false →
    (∀ as st', (∀ a ∈ as, a.isWork = true) → st.run so as = some st' → ¬ st'.crossed) →
    ∃ as st', (∀ a ∈ as, a.isWork = true) ∧ st.run so as = some st' ∧
      (st'.dead = true ∨ (st'.add = .idle ∧ st'.rem = none)) := by
  intro n
  induction n with
  | zero =>
    intro st hw hr hd hc
    by_cases hb : st.Busy
    · exfalso
      have hw0 : st.work = 0 := by omega
      apply hc [] st (by simp) rfl
      refine blocked_crossed (so := so) hd hr hb ?_ ?_
      · unfold CShard.work at hw0
        cases ha : st.add <;> rw [ha] at hw0 <;>
          first
          | (simp only [AddPC.work] at hw0; omega)
          | (simp [CShard.step, CShard.addStep, ha])
      · unfold CShard.work at hw0
        cases ha : st.rem <;> rw [ha] at hw0 <;>
          first
          | (simp only at hw0; omega)
          | (simp [CShard.step, CShard.remWorkerStep, ha])
    · refine ⟨[], st, by simp, rfl, Or.inr ?_⟩
      unfold CShard.Busy at hb
      simp only [ne_eq, not_or, not_not] at hb
      exact hb
  | succ n ih =>
    intro st hw hr hd hc
    by_cases hb : st.Busy
    · have hnc := hc [] st (by simp) rfl
      have : ∃ a st1, a.isWork = true ∧ st.step so a = some st1 := by
        by_contra hno
        push Not at hno
        apply hnc
        refine blocked_crossed (so := so) hd hr hb ?_ ?_
        · cases hx : st.step so .add with
          | none => rfl
          | some st1 => exact absurd hx (hno .add st1 rfl)
        · cases hx : st.step so .rem with
          | none => rfl
          | some st1 => exact absurd hx (hno .rem st1 rfl)
      obtain ⟨a, st1, ha, h1⟩ := this
      cases hd1 : st1.dead with
      | true => exact ⟨[a], st1, by simpa using ha, by simp [CShard.run, h1], Or.inl hd1⟩
      | false =>
        have hr1 : st1.readers = 0 := by
          cases a with
          | add =>
            simp only [CShard.step, hd, Bool.false_eq_true, if_false] at h1
            rw [(addStep_work h1).2.1]; exact hr
          | rem =>
            simp only [CShard.step, hd, Bool.false_eq_true, if_false] at h1
            rw [(remWorkerStep_work h1).2.2.1]; exact hr
          | _ => simp [SAct.isWork] at ha
        have hw1 : st1.work ≤ n := by
          rcases work_lt ha h1 with h | h
          · rw [hd1] at h; simp at h
          · omega
        obtain ⟨as, st', g1, g2, g3⟩ := ih st1 hw1 hr1 hd1 (fun as st' hx h => hc (a :: as) st'
          (by intro b hb; rcases List.mem_cons.1 hb with rfl | hb; exacts [ha, hx b hb])
          (by simp [CShard.run, h1, h]))
        exact ⟨a :: as, st', by intro b hb; rcases List.mem_cons.1 hb with rfl | hb; exacts [ha, g1 b hb],
          by simp [CShard.run, h1, g2], g3⟩
    · refine ⟨[], st, by simp, rfl, Or.inr ?_⟩
      unfold CShard.Busy at hb
      simp only [ne_eq, not_or, not_not] at hb
      exact hb

/-- A run of worker actions is no longer than the work (plus one action that panics). -/
theorem work_bound (so : Sorter) (as : List SAct) : ∀ (st st' : CShard), (∀ a ∈ as, a.isWork = true) →
    st.run so as = some st' → as.length ≤ st.work + 1 := by
  induction as with
  | nil => intro st st' _ _; simp
  | cons a l ih =>
    intro st st' hw h
    simp only [CShard.run] at h
    obtain ⟨st1, h1, h2⟩ := Option.bind_eq_some_iff.1 h
    rcases work_lt (hw a (by simp)) h1 with hd | hlt
    · cases l with
      | nil => simp
      | cons b l =>
        exfalso
        simp only [CShard.run] at h2
        obtain ⟨st2, h3, _⟩ := Option.bind_eq_some_iff.1 h2
        cases b <;> simp [CShard.step, hd] at h3
    · have := ih st1 st' (fun b hb => hw b (List.mem_cons_of_mem _ hb)) h2
      simp only [List.length_cons]; omega

end Riot
