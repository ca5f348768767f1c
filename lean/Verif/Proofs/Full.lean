import Verif.Spec.Full
import Verif.Proofs.EngineSearch
import Verif.Proofs.Ranker
import Verif.Props.RankerConc

/-!
# Invariants of the whole engine with searches
-/

namespace Riot

open Function (update)

variable {D F A : Type} {c : PipeCfg D}

/-! ## Runs -/

theorem full_run_append (E : EngCfg D F A) (as bs : List (EAct c.toPipeSize D F)) : ∀ st : Full c F A,
    st.run E (as ++ bs) = (st.run E as).bind (fun st' => st'.run E bs) := by
  induction as with
  | nil => intro st; rfl
  | cons a l ih =>
    intro st
    simp only [List.cons_append, Full.run]
    cases st.step E a with
    | none => rfl
    | some st' => simp [ih]

theorem full_run_snoc {E : EngCfg D F A} {as : List (EAct c.toPipeSize D F)} {a : EAct c.toPipeSize D F}
    {st0 st' : Full c F A} (h : st0.run E (as ++ [a]) = some st') :
    ∃ st, st0.run E as = some st ∧ st.step E a = some st' := by
  rw [full_run_append] at h
  obtain ⟨st, h1, h2⟩ := Option.bind_eq_some_iff.1 h
  refine ⟨st, h1, ?_⟩
  simp only [Full.run] at h2
  obtain ⟨x, h3, h4⟩ := Option.bind_eq_some_iff.1 h2
  cases h4; exact h3

theorem after_snoc {E : EngCfg D F A} {st0 : Full c F A} {as : List (EAct c.toPipeSize D F)} (x : List (EAct c.toPipeSize D F))
    {t : Nat} (h : t ≤ as.length) : Full.after E st0 (as ++ x) t = Full.after E st0 as t := by
  unfold Full.after
  rw [List.take_append_of_le_length h]

theorem after_length {E : EngCfg D F A} {st0 st : Full c F A} {as : List (EAct c.toPipeSize D F)}
    (h : st0.run E as = some st) : Full.after E st0 as as.length = st := by
  unfold Full.after
  rw [List.take_length, h]; rfl

@[simp] theorem setReq_req (st : Full c F A) (k : Nat) (s : Fin c.shards) (x : ReqAt F A) (k' : Nat) (s' : Fin c.shards) :
    (st.setReq k s x).req k' s' = if k' = k ∧ s' = s then x else st.req k' s' := by
  unfold Full.setReq
  simp only [update]
  by_cases hk : k' = k
  · subst hk
    by_cases hs : s' = s
    · subst hs; simp
    · simp [hs]
  · simp [hk]

/-! ## The protocol -/

/-- The answers of the shards to search `k` so far, in order of arrival. -/
def Full.answers (st : Full c F A) (k : Nat) : List (Fin c.shards × Answer F A) := (st.got k).filterMap id ++ st.chan k

/-- Requests are where they are said to be. -/
structure Proto (st : Full c F A) : Prop where
  fresh : ∀ k, st.searches.length ≤ k → st.sent k = 0 ∧ st.got k = []
  unsent : ∀ k s, st.req k s = .unsent ↔ st.sent k ≤ s.val
  lookQ : ∀ s, (st.lookupQ s).Nodup ∧ ∀ k, k ∈ st.lookupQ s ↔ st.req k s = .queued
  rankQ : ∀ s, (st.rankQ s).Nodup ∧ ∀ k, k ∈ st.rankQ s ↔ ∃ docs, st.req k s = .waiting docs
  ans : ∀ k, ((st.answers k).map (·.1)).Nodup ∧ ∀ s, s ∈ (st.answers k).map (·.1) ↔ st.req k s = .answered

theorem Proto.lt {st : Full c F A} (h : Proto st) {k : Nat} {s : Fin c.shards} (hr : st.req k s ≠ .unsent) :
    k < st.searches.length := by
  by_contra hk
  exact hr ((h.unsent k s).2 (by rw [(h.fresh k (by omega)).1]; omega))

theorem Proto.start (o : IndexerOpts) (db : Fin c.stores → List (Str × D)) : Proto (Full.start c o db : Full c F A) := by
  refine ⟨fun k _ => ⟨rfl, rfl⟩, fun k s => ?_, fun s => ⟨by simp [Full.start], fun k => ?_⟩,
    fun s => ⟨by simp [Full.start], fun k => ?_⟩, fun k => ⟨by simp [Full.start, Full.answers], fun s => ?_⟩⟩ <;>
    simp [Full.start, Full.answers]

/-- A step of a request on one shard that touches neither queues nor answers. -/
theorem Proto.move {st st' : Full c F A} (h : Proto st) {k : Nat} {s : Fin c.shards} {x : ReqAt F A}
    (hs : st'.searches = st.searches) (hse : st'.sent = st.sent) (hl : st'.lookupQ = st.lookupQ)
    (hr : st'.rankQ = st.rankQ) (hch : st'.chan = st.chan) (hg : st'.got = st.got)
    (hreq : st'.req = (st.setReq k s x).req)
    (h1 : st.req k s ≠ .unsent) (h2 : st.req k s ≠ .queued) (h3 : ∀ d, st.req k s ≠ .waiting d)
    (h4 : st.req k s ≠ .answered) (g1 : x ≠ .unsent) (g2 : x ≠ .queued) (g3 : ∀ d, x ≠ .waiting d) (g4 : x ≠ .answered) :
    Proto st' := by
  have hreq' : ∀ k' s', st'.req k' s' = if k' = k ∧ s' = s then x else st.req k' s' := by
    intro k' s'; rw [hreq]; simp
  refine ⟨?_, ?_, ?_, ?_, ?_⟩
  · intro k' hk'; rw [hse, hg]; exact h.fresh k' (by rw [← hs]; exact hk')
  · intro k' s'
    rw [hreq', hse, ← h.unsent]
    split
    · rename_i e; obtain ⟨rfl, rfl⟩ := e; simp [g1, h1]
    · rfl
  · intro s'
    rw [hl]
    refine ⟨(h.lookQ s').1, fun k' => ?_⟩
    rw [hreq', (h.lookQ s').2]
    split
    · rename_i e; obtain ⟨rfl, rfl⟩ := e; simp [g2, h2]
    · rfl
  · intro s'
    rw [hr]
    refine ⟨(h.rankQ s').1, fun k' => ?_⟩
    rw [hreq', (h.rankQ s').2]
    split
    · rename_i e; obtain ⟨rfl, rfl⟩ := e; simp [g3, h3]
    · rfl
  · intro k'
    have : st'.answers k' = st.answers k' := by unfold Full.answers; rw [hg, hch]
    rw [this]
    refine ⟨(h.ans k').1, fun s' => ?_⟩
    rw [hreq', (h.ans k').2]
    split
    · rename_i e; obtain ⟨rfl, rfl⟩ := e; simp [g4, h4]
    · rfl

/-- A shard answers. -/
theorem Proto.deliver {st st1 : Full c F A} (h : Proto st) {k : Nat} {s : Fin c.shards} {a : Answer F A}
    (h1 : st.req k s ≠ .unsent) (h2 : st.req k s ≠ .queued) (h3 : ∀ d, st.req k s ≠ .waiting d)
    (h4 : st.req k s ≠ .answered) (hd : st.deliver k s a = some st1) : Proto st1 := by
  unfold Full.deliver at hd
  split at hd
  · cases hd
    have hk := h.lt h1
    refine ⟨?_, ?_, ?_, ?_, ?_⟩
    · exact h.fresh
    · intro k' s'
      simp only [setReq_req]
      rw [show (st.setReq k s .answered).sent = st.sent from rfl, ← h.unsent]
      split
      · rename_i e; obtain ⟨rfl, rfl⟩ := e; simp [h1]
      · rfl
    · intro s'
      refine ⟨(h.lookQ s').1, fun k' => ?_⟩
      simp only [setReq_req]
      rw [show (st.setReq k s .answered).lookupQ = st.lookupQ from rfl, (h.lookQ s').2]
      split
      · rename_i e; obtain ⟨rfl, rfl⟩ := e; simp [h2]
      · rfl
    · intro s'
      refine ⟨(h.rankQ s').1, fun k' => ?_⟩
      simp only [setReq_req]
      rw [show (st.setReq k s .answered).rankQ = st.rankQ from rfl, (h.rankQ s').2]
      split
      · rename_i e; obtain ⟨rfl, rfl⟩ := e; simp [h3]
      · rfl
    · intro k'
      by_cases hkk : k' = k
      · subst hkk
        obtain ⟨n1, n2⟩ := h.ans k'
        have e : ({ st.setReq k' s .answered with chan := update st.chan k' (st.chan k' ++ [(s, a)]) } :
            Full c F A).answers k' = st.answers k' ++ [(s, a)] := by
          simp [Full.answers, Full.setReq]
        rw [e, List.map_append]
        refine ⟨?_, fun s' => ?_⟩
        · rw [List.nodup_append]
          refine ⟨n1, by simp, ?_⟩
          intro x hx y hy
          simp only [List.map_cons, List.map_nil, List.mem_singleton] at hy
          subst hy
          rintro rfl
          exact h4 ((n2 x).1 hx)
        · rw [List.mem_append, n2]
          simp only [List.map_cons, List.map_nil, List.mem_singleton, setReq_req, true_and]
          by_cases hs : s' = s
          · simp [hs]
          · simp [hs]
      · have e : ({ st.setReq k s .answered with chan := update st.chan k (st.chan k ++ [(s, a)]) } :
            Full c F A).answers k' = st.answers k' := by
          simp [Full.answers, Full.setReq, hkk]
        rw [e]
        refine ⟨(h.ans k').1, fun s' => ?_⟩
        simp only [setReq_req, hkk, false_and, if_false]
        exact (h.ans k').2 s'
  · cases hd

/-- Only `fine`, `dead` or the worker counts change. -/
theorem Proto.same {st st' : Full c F A} (h : Proto st) (hs : st'.searches = st.searches) (hse : st'.sent = st.sent)
    (hreq : st'.req = st.req) (hl : st'.lookupQ = st.lookupQ) (hr : st'.rankQ = st.rankQ) (hch : st'.chan = st.chan)
    (hg : st'.got = st.got) : Proto st' := by
  obtain ⟨a1, a2, a3, a4, a5⟩ := h
  refine ⟨?_, ?_, ?_, ?_, ?_⟩
  · rw [hs, hse, hg]; exact a1
  · rw [hreq, hse]; exact a2
  · rw [hreq, hl]; exact a3
  · rw [hreq, hr]; exact a4
  · have : st'.answers = st.answers := by funext k; unfold Full.answers; rw [hg, hch]
    rw [hreq, this]; exact a5

theorem Proto.step {E : EngCfg D F A} {st st' : Full c F A} {a : EAct c.toPipeSize D F} (h : Proto st)
    (hst : st.step E a = some st') : Proto st' := by
  unfold Full.step at hst
  split at hst
  · cases hst
  rename_i hlive
  split at hst
  · obtain ⟨f, _, rfl⟩ := Option.map_eq_some_iff.1 hst
    exact h.same rfl rfl rfl rfl rfl rfl rfl
  rename_i ha
  cases a with
  | pipe a => cases ha
  | beginAdd s => cases ha
  | beginRem s => cases ha
  | add s => cases ha
  | rem s => cases ha
  | start r =>
    simp only [Full.search] at hst
    split at hst
    · cases hst
      obtain ⟨a1, a2, a3, a4, a5⟩ := h
      exact ⟨fun k hk => a1 k (by simp at hk; omega), a2, a3, a4, a5⟩
    · cases hst
  | send k =>
    simp only [Full.search] at hst
    split at hst
    · rename_i hk
      split at hst
      · cases hst
        have hun : st.req k ⟨st.sent k, hk.2⟩ = .unsent := (h.unsent _ _).2 (le_refl _)
        refine ⟨?_, ?_, ?_, ?_, ?_⟩
        · intro k' hk'
          have : k' ≠ k := by intro e; subst e; exact absurd hk.1 (by simpa [Full.setReq] using hk')
          simp only [update, this]
          exact h.fresh k' hk'
        · intro k' s'
          simp only [setReq_req]
          by_cases hkk : k' = k
          · subst hkk
            simp only [true_and, Function.update_self]
            by_cases hs : s' = ⟨st.sent k', hk.2⟩
            · subst hs; simp
            · simp only [hs, if_false, h.unsent]
              have : s'.val ≠ st.sent k' := fun e => hs (Fin.ext e)
              omega
          · simp only [hkk, false_and, if_false, update, h.unsent]
            simp
        · intro s'
          by_cases hs : s' = ⟨st.sent k, hk.2⟩
          · subst hs
            simp only [Function.update_self, setReq_req, and_true]
            obtain ⟨n1, n2⟩ := h.lookQ ⟨st.sent k, hk.2⟩
            have hnk : k ∉ st.lookupQ ⟨st.sent k, hk.2⟩ := by rw [n2, hun]; simp
            refine ⟨?_, fun k' => ?_⟩
            · rw [List.nodup_append]
              exact ⟨n1, by simp, fun x hx y hy => by simp at hy; subst hy; rintro rfl; exact hnk hx⟩
            · rw [List.mem_append, n2, List.mem_singleton]
              by_cases hkk : k' = k <;> simp [hkk]
          · simp only [update, hs, setReq_req, and_false, if_false]
            exact h.lookQ s'
        · intro s'
          refine ⟨(h.rankQ s').1, fun k' => ?_⟩
          simp only [setReq_req]
          rw [show (st.setReq k ⟨st.sent k, hk.2⟩ .queued).rankQ = st.rankQ from rfl, (h.rankQ s').2]
          split
          · rename_i e; obtain ⟨rfl, rfl⟩ := e; simp [hun]
          · rfl
        · intro k'
          refine ⟨(h.ans k').1, fun s' => ?_⟩
          simp only [setReq_req]
          refine ((h.ans k').2 s').trans ?_
          split
          · rename_i e; obtain ⟨rfl, rfl⟩ := e; simp [hun]
          · rfl
      · cases hst
    · cases hst
  | take s =>
    simp only [Full.search] at hst
    split at hst
    · rename_i k q hq
      split at hst
      · cases hst
        obtain ⟨n1, n2⟩ := h.lookQ s
        have hkq : st.req k s = .queued := (n2 k).1 (by rw [hq]; simp)
        refine ⟨h.fresh, ?_, ?_, ?_, ?_⟩
        · intro k' s'
          simp only [setReq_req]
          rw [show (st.setReq k s .taken).sent = st.sent from rfl, ← h.unsent]
          split
          · rename_i e; obtain ⟨rfl, rfl⟩ := e; simp [hkq]
          · rfl
        · intro s'
          by_cases hs : s' = s
          · subst hs
            simp only [Function.update_self, setReq_req, and_true]
            rw [hq, List.nodup_cons] at n1
            refine ⟨n1.2, fun k' => ?_⟩
            by_cases hkk : k' = k
            · subst hkk; simp [n1.1]
            · simp only [hkk, if_false, ← n2, hq, List.mem_cons, false_or]
          · simp only [update, hs, setReq_req, and_false, if_false]
            exact h.lookQ s'
        · intro s'
          refine ⟨(h.rankQ s').1, fun k' => ?_⟩
          simp only [setReq_req]
          rw [show (st.setReq k s .taken).rankQ = st.rankQ from rfl, (h.rankQ s').2]
          split
          · rename_i e; obtain ⟨rfl, rfl⟩ := e; simp [hkq]
          · rfl
        · intro k'
          refine ⟨(h.ans k').1, fun s' => ?_⟩
          simp only [setReq_req]
          refine ((h.ans k').2 s').trans ?_
          split
          · rename_i e; obtain ⟨rfl, rfl⟩ := e; simp [hkq]
          · rfl
      · cases hst
    · cases hst
  | lock s k =>
    simp only [Full.search] at hst
    split at hst
    · rename_i hk
      obtain ⟨f, _, rfl⟩ := Option.map_eq_some_iff.1 hst
      exact h.move (k := k) (s := s) (x := .locked) rfl rfl rfl rfl rfl rfl rfl (by simp [hk]) (by simp [hk])
        (by simp [hk]) (by simp [hk]) (by simp) (by simp) (by simp) (by simp)
    · cases hst
  | look s k =>
    simp only [Full.search] at hst
    split at hst
    · rename_i hk _
      split at hst
      · cases hst; exact h.same rfl rfl rfl rfl rfl rfl rfl
      · rename_i out _
        obtain ⟨f, _, rfl⟩ := Option.map_eq_some_iff.1 hst
        exact h.move (k := k) (s := s) (x := .looked out) rfl rfl rfl rfl rfl rfl rfl (by simp [hk]) (by simp [hk])
          (by simp [hk]) (by simp [hk]) (by simp) (by simp) (by simp) (by simp)
    · cases hst
  | reply s k =>
    simp only [Full.search] at hst
    split at hst
    · rename_i a' hk
      obtain ⟨st1, h1, rfl⟩ := Option.map_eq_some_iff.1 hst
      exact (h.deliver (by simp [hk]) (by simp [hk]) (by simp [hk]) (by simp [hk]) h1).same rfl rfl rfl rfl rfl rfl rfl
    · cases hst
  | forward s k =>
    simp only [Full.search] at hst
    split at hst
    · rename_i docs hk
      split at hst
      · cases hst
        refine ⟨h.fresh, ?_, ?_, ?_, ?_⟩
        · intro k' s'
          simp only [setReq_req]
          rw [show (st.setReq k s (.waiting docs)).sent = st.sent from rfl, ← h.unsent]
          split
          · rename_i e; obtain ⟨rfl, rfl⟩ := e; simp [hk]
          · rfl
        · intro s'
          refine ⟨(h.lookQ s').1, fun k' => ?_⟩
          simp only [setReq_req]
          rw [show (st.setReq k s (.waiting docs)).lookupQ = st.lookupQ from rfl, (h.lookQ s').2]
          split
          · rename_i e; obtain ⟨rfl, rfl⟩ := e; simp [hk]
          · rfl
        · intro s'
          by_cases hs : s' = s
          · subst hs
            simp only [Function.update_self, setReq_req, and_true]
            obtain ⟨n1, n2⟩ := h.rankQ s'
            have hnk : k ∉ st.rankQ s' := by rw [n2, hk]; simp
            refine ⟨?_, fun k' => ?_⟩
            · rw [List.nodup_append]
              exact ⟨n1, by simp, fun x hx y hy => by simp at hy; subst hy; rintro rfl; exact hnk hx⟩
            · rw [List.mem_append, n2, List.mem_singleton]
              by_cases hkk : k' = k <;> simp [hkk]
          · simp only [update, hs, setReq_req, and_false, if_false]
            exact h.rankQ s'
        · intro k'
          refine ⟨(h.ans k').1, fun s' => ?_⟩
          simp only [setReq_req]
          refine ((h.ans k').2 s').trans ?_
          split
          · rename_i e; obtain ⟨rfl, rfl⟩ := e; simp [hk]
          · rfl
      · cases hst
    · cases hst
  | takeRank s =>
    simp only [Full.search] at hst
    split at hst
    · rename_i k q hq
      split at hst
      · rename_i docs r hk _
        split at hst
        · cases hst
          refine ⟨h.fresh, ?_, ?_, ?_, ?_⟩
          · intro k' s'
            simp only [setReq_req]
            rw [show (st.setReq k s _).sent = st.sent from rfl, ← h.unsent]
            split
            · rename_i e; obtain ⟨rfl, rfl⟩ := e; simp [hk]
            · rfl
          · intro s'
            refine ⟨(h.lookQ s').1, fun k' => ?_⟩
            simp only [setReq_req]
            rw [show (st.setReq k s _).lookupQ = st.lookupQ from rfl, (h.lookQ s').2]
            split
            · rename_i e; obtain ⟨rfl, rfl⟩ := e; simp [hk]
            · rfl
          · intro s'
            by_cases hs : s' = s
            · subst hs
              simp only [Function.update_self, setReq_req, and_true]
              obtain ⟨n1, n2⟩ := h.rankQ s'
              rw [hq, List.nodup_cons] at n1
              refine ⟨n1.2, fun k' => ?_⟩
              by_cases hkk : k' = k
              · subst hkk; simp [n1.1]
              · simp only [hkk, if_false, ← n2, hq, List.mem_cons, false_or]
            · simp only [update, hs, setReq_req, and_false, if_false]
              exact h.rankQ s'
          · intro k'
            refine ⟨(h.ans k').1, fun s' => ?_⟩
            simp only [setReq_req]
            refine ((h.ans k').2 s').trans ?_
            split
            · rename_i e; obtain ⟨rfl, rfl⟩ := e; simp [hk]
            · rfl
        · cases hst
      · cases hst
    · cases hst
  | read s k =>
    simp only [Full.search] at hst
    split at hst
    · rename_i call hk
      split at hst
      · cases hst
        exact h.move (k := k) (s := s) rfl rfl rfl rfl rfl rfl rfl (by simp [hk]) (by simp [hk])
          (by simp [hk]) (by simp [hk]) (by simp) (by simp) (by simp) (by simp)
      · cases hst
    · cases hst
  | replyRank s k =>
    simp only [Full.search] at hst
    split at hst
    · rename_i call hk
      split at hst
      · split at hst
        · cases hst; exact h.same rfl rfl rfl rfl rfl rfl rfl
        · obtain ⟨st1, h1, rfl⟩ := Option.map_eq_some_iff.1 hst
          exact (h.deliver (by simp [hk]) (by simp [hk]) (by simp [hk]) (by simp [hk]) h1).same
            rfl rfl rfl rfl rfl rfl rfl
      · cases hst
    · cases hst
  | recv k =>
    simp only [Full.search] at hst
    split at hst
    · rename_i a' q hq
      split at hst
      · rename_i hk
        cases hst
        refine ⟨?_, h.unsent, h.lookQ, h.rankQ, ?_⟩
        · intro k' hk'
          have : k' ≠ k := by rintro rfl; exact absurd hk.1 (by simpa using hk')
          simp only [update, this]
          exact h.fresh k' hk'
        · intro k'
          have e : ({ st with chan := update st.chan k q, got := update st.got k (st.got k ++ [some a']) } :
              Full c F A).answers k' = st.answers k' := by
            unfold Full.answers
            by_cases hkk : k' = k
            · subst hkk; simp [hq]
            · simp [hkk]
          rw [e]; exact h.ans k'
      · cases hst
    · cases hst
  | timer k =>
    simp only [Full.search] at hst
    split at hst
    · rename_i r hr
      split at hst
      · cases hst
        refine ⟨?_, h.unsent, h.lookQ, h.rankQ, ?_⟩
        · intro k' hk'
          have : k' ≠ k := by
            rintro rfl
            have := (List.getElem?_eq_some_iff.1 hr).1
            exact absurd this (by simpa using hk')
          simp only [update, this]
          exact h.fresh k' hk'
        · intro k'
          have e : ({ st with got := update st.got k (st.got k ++ [none]) } : Full c F A).answers k' = st.answers k' := by
            unfold Full.answers
            by_cases hkk : k' = k
            · subst hkk; simp
            · simp [hkk]
          rw [e]; exact h.ans k'
      · cases hst
    · cases hst

theorem proto_run {E : EngCfg D F A} (as : List (EAct c.toPipeSize D F)) : ∀ {st st' : Full c F A}, Proto st →
    st.run E as = some st' → Proto st' := by
  induction as with
  | nil => intro st st' h hr; cases hr; exact h
  | cons a l ih =>
    intro st st' h hr
    simp only [Full.run] at hr
    obtain ⟨st1, h1, h2⟩ := Option.bind_eq_some_iff.1 hr
    exact ih (h.step h1) h2

end Riot
