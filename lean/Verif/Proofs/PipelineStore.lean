import Verif.Spec.Store
import Verif.Proofs.PipelineRounds
import Verif.Proofs.PipelineLive

/-!
# Order of the writes to a database
-/

namespace Riot

open Function (update)

variable {D : Type} {c : PipeCfg D}

/-- Writes of document `d`. -/
def DbOp.isSet (d : Str) : DbOp D → Bool
  | .set id _ => id = d
  | .del _ => false

section
variable (c) (m : Fin c.stores) (d : Str)

/-- The writes of `d` to database `m` a message will cause. -/
def PipeCfg.msgSets (c : PipeCfg D) (d : Str) : Msg D → List (DbOp D)
  | .store id x => if id = d ∧ c.encodes x = true then [.set id x] else []
  | _ => []

/-- ... an action will cause. -/
def PipeCfg.microSets (m : Fin c.stores) (d : Str) : Micro c.toPipeSize D → List (DbOp D)
  | .send (.store m') x => if m' = m then c.msgSets d x else []
  | .db m' op => if m' = m ∧ op.isSet d = true then [op] else []
  | _ => []

/-- ... a list of actions will cause. -/
def PipeCfg.progSets (l : List (Micro c.toPipeSize D)) : List (DbOp D) := l.flatMap (c.microSets m d)

end

variable {m : Fin c.stores} {d : Str}

theorem progSets_cons (x : Micro c.toPipeSize D) (l : List (Micro c.toPipeSize D)) :
    c.progSets m d (x :: l) = c.microSets m d x ++ c.progSets m d l := rfl

theorem progSets_internal (id : Str) (x : D) (f : Bool) : c.progSets m d (c.internalIndex id x f) = [] := by
  by_cases h : id = str "0" <;> cases f <;>
    simp [PipeCfg.progSets, PipeCfg.internalIndex, PipeCfg.microSets, h]

theorem progSets_call (a : Call D) (hm : c.storeRoute d = m) :
    c.progSets m d (c.call a) = (c.callDb m a).filter (DbOp.isSet d) := by
  cases a with
  | index id x f =>
    have h1 := progSets_internal (c := c) (m := m) (d := d) id x f
    unfold PipeCfg.progSets at h1 ⊢
    simp only [PipeCfg.call, List.flatMap_append, h1, List.nil_append]
    by_cases hs : c.useStore = true ∧ id ≠ str "0"
    · rw [if_pos hs]
      by_cases hid : id = d
      · subst hid
        cases he : c.encodes x <;>
          simp [PipeCfg.callDb, hs.1, hs.2, hm, he, PipeCfg.microSets, PipeCfg.msgSets, DbOp.isSet]
      · have : (c.callDb m (.index id x f)).filter (DbOp.isSet d) = [] := by
          simp only [PipeCfg.callDb]; split <;> simp [DbOp.isSet, hid]
        rw [this]
        simp only [List.flatMap_cons, List.flatMap_nil, List.append_nil, PipeCfg.microSets]
        split <;> simp [PipeCfg.msgSets, hid]
    · rw [if_neg hs]
      have : c.callDb m (.index id x f) = [] := by
        simp only [PipeCfg.callDb]; rw [if_neg]; rintro ⟨h1, h2, _⟩; exact hs ⟨h1, h2⟩
      rw [this]; rfl
  | remove id f =>
    have h2 : (c.callDb m (.remove id f)).filter (DbOp.isSet d) = [] := by
      simp only [PipeCfg.callDb]; split <;> simp [DbOp.isSet]
    rw [h2]
    unfold PipeCfg.progSets
    rw [List.flatMap_eq_nil_iff]
    intro x hx
    simp only [PipeCfg.call, List.mem_append, List.mem_flatMap] at hx
    rcases hx with ((hx | hx) | ⟨s, _, hx⟩) | hx
    · split at hx <;> simp at hx; subst hx; rfl
    · split at hx <;> simp at hx; subst hx; rfl
    · rcases List.mem_cons.1 hx with rfl | hx
      · rfl
      · split at hx <;> simp at hx; subst hx; rfl
    · split at hx <;> simp at hx; subst hx; rfl
  | flush =>
    unfold PipeCfg.progSets
    have h1 := progSets_internal (c := c) (m := m) (d := d) (str "0") c.emptyData true
    unfold PipeCfg.progSets at h1
    simp [PipeCfg.call, h1, PipeCfg.microSets, PipeCfg.callDb]

theorem progSets_expand_store (msg : Msg D) :
    c.progSets m d (c.expand (.store m) msg) = c.msgSets d msg := by
  cases msg <;> try rfl
  rename_i id x
  by_cases hid : id = d <;> cases he : c.encodes x <;>
    simp [PipeCfg.expand, he, PipeCfg.progSets, PipeCfg.microSets, PipeCfg.msgSets, DbOp.isSet, hid]

/-- No worker but the store worker of `m` touches database `m` or its channel. -/
theorem progSets_expand_other {q : Chan c.toPipeSize} (hq : q ≠ .store m) (msg : Msg D) :
    ∀ x ∈ c.expand q msg, c.microSets m d x = [] := by
  intro x hx
  cases q with
  | seg => 
    cases msg <;> simp only [PipeCfg.expand, List.not_mem_nil] at hx
    rename_i id y f
    split at hx
    · split at hx
      · obtain ⟨s, _, rfl⟩ := List.mem_map.1 hx; rfl
      · simp at hx
    · simp only [List.cons_append, List.mem_cons, List.mem_append, List.not_mem_nil, or_false] at hx
      rcases hx with rfl | hx | rfl
      · rfl
      · split at hx
        · obtain ⟨s, _, rfl⟩ := List.mem_map.1 hx; rfl
        · simp at hx
      · rfl
  | idxAdd s =>
    cases msg <;> simp only [PipeCfg.expand, List.not_mem_nil] at hx
    rename_i doc f
    cases doc <;> cases f <;> simp at hx <;>
      (rcases hx with rfl | hx <;> first | rfl | (rcases hx with rfl | hx <;> first | rfl | (rcases hx with rfl | rfl <;> rfl) | (subst hx; rfl)) | (subst hx; rfl))
  | idxRem s =>
    cases msg <;> simp only [PipeCfg.expand, List.not_mem_nil] at hx
    rename_i id f
    simp only [List.cons_append, List.mem_cons, List.mem_append] at hx
    rcases hx with rfl | hx | hx
    · rfl
    · split at hx <;> simp at hx; subst hx; rfl
    · split at hx <;> simp at hx; subst hx; rfl
  | rankAdd s => cases msg <;> simp [PipeCfg.expand] at hx; subst hx; rfl
  | rankRem s => cases msg <;> simp [PipeCfg.expand] at hx; subst hx; rfl
  | store m' =>
    have hm : m' ≠ m := fun h => hq (by rw [h])
    cases msg <;> simp only [PipeCfg.expand, List.not_mem_nil] at hx
    split at hx
    · simp at hx; rcases hx with rfl | rfl <;> simp [PipeCfg.microSets, hm]
    · simp at hx; subst hx; rfl

/-- The writes of `d` executed, in the worker, in its channel, and in the callers. -/
def Pipe.setSeq (m : Fin c.stores) (d : Str) (st : Pipe c) : List (DbOp D) :=
  (st.dbLog m).filter (DbOp.isSet d) ++ c.progSets m d (st.prog (.store m)) ++
    (st.chan (.store m)).flatMap (c.msgSets d) ++
    (List.finRange c.clients).flatMap (fun i => c.progSets m d (st.prog (.client i)))

/-- At most one caller is about to write `d`. -/
def Pipe.OneWriter (m : Fin c.stores) (d : Str) (st : Pipe c) : Prop :=
  ∀ i j, c.progSets m d (st.prog (.client i)) ≠ [] → c.progSets m d (st.prog (.client j)) ≠ [] → i = j

/-- If only client `i` has anything, the sum over the clients is what `i` has. -/
theorem flatMap_one {α : Type} {n : Nat} (f : Fin n → List α) (i : Fin n) (h : ∀ j, j ≠ i → f j = []) :
    (List.finRange n).flatMap f = f i := by
  have key : ∀ l : List (Fin n), l.Nodup → (l.flatMap f = if i ∈ l then f i else []) := by
    intro l
    induction l with
    | nil => intro _; simp
    | cons x l ih =>
      intro hn
      rw [List.nodup_cons] at hn
      rw [List.flatMap_cons, ih hn.2]
      by_cases hx : x = i
      · subst hx; simp [hn.1]
      · rw [h x hx]; simp [Ne.symm hx]
  rw [key _ (List.nodup_finRange n), if_pos (List.mem_finRange i)]

theorem setSeq_idle {st : Pipe c} (h : st.ClientsIdle) : st.setSeq m d =
    (st.dbLog m).filter (DbOp.isSet d) ++ c.progSets m d (st.prog (.store m)) ++
    (st.chan (.store m)).flatMap (c.msgSets d) := by
  unfold Pipe.setSeq
  have : (List.finRange c.clients).flatMap (fun i => c.progSets m d (st.prog (.client i))) = [] := by
    rw [List.flatMap_eq_nil_iff]
    intro i _; rw [h i]; rfl
  rw [this, List.append_nil]

/-- A step that does not start a call keeps the sequence. -/
theorem setSeq_step {db : Fin c.stores → List (Str × D)} {st st' : Pipe c} (hr : Reach db st)
    {a : Act c.toPipeSize D} (hcall : ∀ i b, a ≠ .call i b) (h : st.step a = some st')
    (hone : st.OneWriter m d) : st'.setSeq m d = st.setSeq m d ∧ st'.OneWriter m d := by
  have hone' : st'.OneWriter m d := by
    have hsub : ∀ i, c.progSets m d (st'.prog (.client i)) ≠ [] → c.progSets m d (st.prog (.client i)) ≠ [] := by
      intro i hi
      rcases step_prog st st' a h (.client i) with e | ⟨x, e⟩ | ⟨q, msg, e, _, ht⟩ | ⟨j, b, _, _, _, hab⟩
      · rwa [e] at hi
      · rw [e, progSets_cons]; intro h0; exact hi (List.append_eq_nil_iff.1 h0).2
      · simp [Thread.input] at ht
      · exact absurd hab (hcall j b)
    intro i j hi hj; exact hone i j (hsub i hi) (hsub j hj)
  refine ⟨?_, hone'⟩
  cases a with
  | call i b => exact absurd rfl (hcall i b)
  | ready =>
    simp only [Pipe.step] at h
    split at h
    · rw [← Option.some.inj h]; rfl
    · simp at h
  | bg k =>
    have hsp : SpawnsDelete st := by
      obtain ⟨as, ha⟩ := hr
      exact run_induction (P := SpawnsDelete) (fun x a y hi hs => spawnsDelete_step x y a hs hi) as _ st
        ⟨by intro t m' op hm
            have := start_prog_ok db t _ hm
            cases op with
            | del id => exact ⟨id, rfl⟩
            | set id x => simp [Micro.clientOk] at this, by intro x hx; simp [Pipe.start] at hx⟩ ha
    simp only [Pipe.step] at h
    split at h
    · simp at h
    · rename_i m' op hk
      obtain ⟨id, hid⟩ := hsp.2 (m', op) (List.mem_of_getElem? hk)
      simp only at hid; subst hid
      rw [← Option.some.inj h]
      unfold Pipe.setSeq
      by_cases hm : m = m'
      · subst hm; simp [DbOp.isSet]
      · simp [hm]
  | recv t =>
    simp only [Pipe.step] at h
    split at h
    · simp at h
    · rename_i q hq
      split at h
      · rename_i msg l hp hc
        rw [← Option.some.inj h]
        have hcl : ∀ i, update st.prog t (c.expand q msg) (.client i) = st.prog (.client i) := by
          intro i
          rw [Function.update_of_ne]
          rintro rfl; simp [Thread.input] at hq
        unfold Pipe.setSeq
        simp only [hcl]
        congr 1
        by_cases ht : t = .store m
        · subst ht
          simp only [Thread.input, Option.some.injEq] at hq
          subst hq
          rw [hp, hc]
          simp only [Function.update_self, progSets_expand_store]
          simp [PipeCfg.progSets]
        · have hqm : q ≠ .store m := by
            rintro rfl
            cases t <;> simp [Thread.input] at hq
            exact ht (by rw [hq])
          rw [Function.update_of_ne (Ne.symm ht), Function.update_of_ne (Ne.symm hqm)]
      · simp at h
  | run t =>
    cases hp : st.prog t with
    | nil => simp [Pipe.step, hp] at h
    | cons x l =>
      obtain ⟨hprog, he⟩ := step_run_prog hp h
      have horig := hr.origin t
      rw [hp] at horig
      -- a thread that is neither a client nor the store worker does nothing to the sequence
      have hquiet : c.microSets m d x = [] → st'.setSeq m d = st.setSeq m d := by
        intro hx
        have e1 : (st'.dbLog m).filter (DbOp.isSet d) = (st.dbLog m).filter (DbOp.isSet d) := by
          cases x <;> simp only [Pipe.exec] at he
          case db m' op =>
            rw [← Option.some.inj he]
            by_cases hm : m = m'
            · subst hm
              simp only [PipeCfg.microSets, true_and, List.ne_cons_self] at hx
              split at hx
              · simp at hx
              · rename_i hs; simp [hs]
            · simp [hm]
          all_goals first
            | (split at he <;> first | (rw [← Option.some.inj he]) | simp at he)
            | (rw [← Option.some.inj he])
        have e2 : (st'.chan (.store m)).flatMap (c.msgSets d) = (st.chan (.store m)).flatMap (c.msgSets d) := by
          cases x <;> simp only [Pipe.exec] at he
          case send q msg =>
            split at he
            · rw [← Option.some.inj he]
              by_cases hq : q = .store m
              · subst hq
                simp only [PipeCfg.microSets, if_true] at hx
                simp [hx]
              · simp [Ne.symm hq]
            · simp at he
          all_goals first
            | (split at he <;> first | (rw [← Option.some.inj he]) | simp at he)
            | (rw [← Option.some.inj he])
        have e3 : ∀ u, c.progSets m d (st'.prog u) = c.progSets m d (st.prog u) := by
          intro u
          rw [hprog]
          by_cases hu : u = t
          · subst hu; rw [Function.update_self, hp, progSets_cons, hx]; rfl
          · rw [Function.update_of_ne hu]
        unfold Pipe.setSeq
        simp only [e1, e2, e3]
      by_cases hx : c.microSets m d x = []
      · exact hquiet hx
      · -- only the store worker and clients
        cases t with
        | client i =>
          obtain ⟨b, hb⟩ := horig
          have hok := call_ok b x (hb.subset (by simp))
          cases x <;> simp only [Micro.clientOk] at hok <;>
            simp only [PipeCfg.microSets, ne_eq, not_true_eq_false] at hx
          rename_i q msg
          cases q <;> simp only [not_true_eq_false] at hx
          rename_i m'
          split at hx
          · rename_i hm; subst hm
            simp only [Pipe.exec] at he
            split at he
            · rw [← Option.some.inj he]
              have hne : c.progSets m' d (st.prog (.client i)) ≠ [] := by
                rw [hp, progSets_cons]
                intro h0
                exact hx (by have := (List.append_eq_nil_iff.1 h0).1; simpa [PipeCfg.microSets] using this)
              have hother : ∀ j, j ≠ i → c.progSets m' d (st.prog (.client j)) = [] := by
                intro j hj
                by_contra h0
                exact hj (hone j i h0 hne)
              unfold Pipe.setSeq
              rw [flatMap_one (fun j => c.progSets m' d (st.prog (.client j))) i hother,
                flatMap_one _ i (by
                  intro j hj
                  show c.progSets m' d (update st.prog (.client i) l (.client j)) = []
                  rw [Function.update_of_ne (by simpa using hj)]
                  exact hother j hj)]
              simp only [Function.update_self, hp, progSets_cons, PipeCfg.microSets, if_true]
              rw [Function.update_of_ne (by simp)]
              simp [List.append_assoc]
            · simp at he
          · simp at hx
        | store m' =>
          obtain ⟨q, msg, hq, hs⟩ := horig
          simp only [Thread.input, Option.some.injEq] at hq
          subst hq
          have hmm : m' = m := by
            by_contra hne
            exact hx (progSets_expand_other (fun h => hne (by cases h; rfl)) msg x (hs.subset (by simp)))
          subst hmm
          have hmem := hs.subset (List.mem_cons_self (a := x) (l := l))
          cases msg <;> simp only [PipeCfg.expand, List.not_mem_nil] at hmem
          rename_i id y
          have hxdb : x = .db m' (.set id y) := by
            split at hmem
            · simp at hmem
              rcases hmem with rfl | rfl
              · rfl
              · simp [PipeCfg.microSets] at hx
            · simp at hmem; subst hmem; simp [PipeCfg.microSets] at hx
          subst hxdb
          simp only [Pipe.exec] at he
          rw [← Option.some.inj he]
          have hset : DbOp.isSet d (.set id y : DbOp D) = true := by
            by_contra h0
            exact hx (by simp [PipeCfg.microSets, h0])
          unfold Pipe.setSeq
          simp only [Function.update_self, hp, progSets_cons, PipeCfg.microSets, true_and, hset, if_true,
            List.filter_append, List.filter_cons, List.filter_nil]
          have : ∀ j, update st.prog (.store m') l (.client j) = st.prog (.client j) := by
            intro j; rw [Function.update_of_ne (by simp)]
          simp only [this]
          simp [List.append_assoc]
        | init m' =>
          have := start_prog_ok db (.init m') x (horig.subset (by simp))
          have hmem : x ∈ (Pipe.start c db).prog (.init m') := horig.subset (by simp)
          simp only [Pipe.start] at hmem
          split at hmem
          · obtain ⟨y, _, hy⟩ := List.mem_flatMap.1 hmem
            have := progSets_internal (c := c) (m := m) (d := d) y.1 y.2 false
            exact absurd (List.flatMap_eq_nil_iff.1 this x hy) hx
          · simp at hmem
        | seg j =>
          obtain ⟨q, msg, hq, hs⟩ := horig
          simp only [Thread.input, Option.some.injEq] at hq; subst hq
          exact absurd (progSets_expand_other (by simp) msg x (hs.subset (by simp))) hx
        | idxAdd j =>
          obtain ⟨q, msg, hq, hs⟩ := horig
          simp only [Thread.input, Option.some.injEq] at hq; subst hq
          exact absurd (progSets_expand_other (by simp) msg x (hs.subset (by simp))) hx
        | idxRem j =>
          obtain ⟨q, msg, hq, hs⟩ := horig
          simp only [Thread.input, Option.some.injEq] at hq; subst hq
          exact absurd (progSets_expand_other (by simp) msg x (hs.subset (by simp))) hx
        | rankAdd j =>
          obtain ⟨q, msg, hq, hs⟩ := horig
          simp only [Thread.input, Option.some.injEq] at hq; subst hq
          exact absurd (progSets_expand_other (by simp) msg x (hs.subset (by simp))) hx
        | rankRem j =>
          obtain ⟨q, msg, hq, hs⟩ := horig
          simp only [Thread.input, Option.some.injEq] at hq; subst hq
          exact absurd (progSets_expand_other (by simp) msg x (hs.subset (by simp))) hx

end Riot

namespace Riot

open Function (update)

variable {D : Type} {c : PipeCfg D} {m : Fin c.stores} {d : Str}

/-- With sequential Index(d) calls, executed and pending writes of `d` are the issued ones, in
order. -/
theorem setSeq_run (hm : c.storeRoute d = m) (db : Fin c.stores → List (Str × D)) :
    ∀ (as : List (Act c.toPipeSize D)) (st : Pipe c), (Pipe.start c db).run as = some st →
      SequentialFor d (Pipe.start c db) as →
      st.setSeq m d = (st.issuedDb m).filter (DbOp.isSet d) ∧ st.OneWriter m d := by
  intro as
  induction as using List.reverseRecOn with
  | nil =>
    intro st h _
    simp only [Pipe.run, Option.some.injEq] at h
    subst h
    constructor
    · simp [Pipe.setSeq, Pipe.issuedDb, Pipe.start, PipeCfg.progSets]
    · intro i j hi; simp [Pipe.start, PipeCfg.progSets] at hi
  | append_singleton as a ih =>
    intro st h hseq
    rw [run_append] at h
    obtain ⟨u, hu, h⟩ := Option.bind_eq_some_iff.1 h
    rw [run_one] at h
    have hr : Reach db u := ⟨as, hu⟩
    obtain ⟨ih1, ih2⟩ := ih u hu (by
      intro as1 i x f as2 v he hv
      exact hseq as1 i x f (as2 ++ [a]) v (by rw [he]; simp) hv)
    by_cases hcall : ∃ i b, a = .call i b
    · obtain ⟨i, b, rfl⟩ := hcall
      have hci := call_inited h
      have hst := hci.2.2
      have hidle : u.prog (.client i) = [] := by
        simp only [Pipe.step] at h
        split at h
        · rename_i hc; exact hc.2
        · simp at h
      have hiss : st.issuedDb m = u.issuedDb m ++ c.callDb m b := by
        rw [hst]; simp [Pipe.issuedDb]
      have hnew := progSets_call (c := c) (m := m) (d := d) b hm
      have hcli : ∀ j, st.prog (.client j) = if j = i then c.call b else u.prog (.client j) := by
        intro j
        rw [hst]
        by_cases hj : j = i
        · subst hj; simp
        · simp [hj]
      have hrest : (st.dbLog m).filter (DbOp.isSet d) ++ c.progSets m d (st.prog (.store m)) ++
          (st.chan (.store m)).flatMap (c.msgSets d) =
          (u.dbLog m).filter (DbOp.isSet d) ++ c.progSets m d (u.prog (.store m)) ++
          (u.chan (.store m)).flatMap (c.msgSets d) := by
        rw [hst]; simp
      by_cases hb : c.progSets m d (c.call b) = []
      · -- a call that writes nothing about d
        have hc' : ∀ j, c.progSets m d (st.prog (.client j)) = c.progSets m d (u.prog (.client j)) := by
          intro j
          rw [hcli j]
          split
          · rename_i hj; subst hj; rw [hb, hidle]; rfl
          · rfl
        constructor
        · rw [hiss, List.filter_append, ← hnew, hb, List.append_nil, ← ih1]
          unfold Pipe.setSeq
          rw [hrest]
          simp only [hc']
        · intro j k; rw [hc' j, hc' k]; exact ih2 j k
      · -- a call of Index(d)
        have hall : u.ClientsIdle := by
          cases b with
          | index id x f =>
            have hid : id = d := by
              by_contra hne
              apply hb
              rw [hnew]
              simp only [PipeCfg.callDb]; split <;> simp [DbOp.isSet, hne]
            subst hid
            exact hseq as i x f [] u rfl hu
          | remove id f =>
            exfalso; apply hb; rw [hnew]; simp only [PipeCfg.callDb]; split <;> simp [DbOp.isSet]
          | flush => exfalso; apply hb; rw [hnew]; rfl
        have hother : ∀ j, j ≠ i → c.progSets m d (st.prog (.client j)) = [] := by
          intro j hj; rw [hcli j, if_neg hj, hall j]; rfl
        constructor
        · rw [hiss, List.filter_append, ← hnew, ← ih1, setSeq_idle hall, ← hrest]
          unfold Pipe.setSeq
          rw [flatMap_one _ i hother, hcli i, if_pos rfl]
        · intro j k hj hk
          have : j = i := by by_contra h0; exact hj (hother j h0)
          have : k = i := by by_contra h0; exact hk (hother k h0)
          simp_all
    · have hnc : ∀ i b, a ≠ .call i b := fun i b e => hcall ⟨i, b, e⟩
      obtain ⟨e1, e2⟩ := setSeq_step (m := m) (d := d) hr hnc h ih2
      have hcalls : st.calls = u.calls := by
        rw [step_calls u st a h]
        cases a <;> simp_all [Act.called]
      refine ⟨?_, e2⟩
      rw [e1, ih1]
      simp [Pipe.issuedDb, hcalls]

theorem step_dbLog (st st' : Pipe c) (a : Act c.toPipeSize D) (h : st.step a = some st')
    (s : Fin c.stores) : st.dbLog s <+: st'.dbLog s := by
  cases a with
  | call i b => rw [(call_inited h).2.2]
  | run t =>
    cases hp : st.prog t with
    | nil => simp [Pipe.step, hp] at h
    | cons x l =>
      have he := (step_run_prog hp h).2
      cases x <;> simp only [Pipe.exec] at he
      case db s' op =>
        rw [← Option.some.inj he]
        by_cases hs : s = s'
        · subst hs; simp
        · simp [hs]
      all_goals first
        | (split at he <;> first | (rw [← Option.some.inj he]) | simp at he)
        | (rw [← Option.some.inj he])
  | recv t' =>
    simp only [Pipe.step] at h
    split at h
    · simp at h
    · split at h
      · rw [← Option.some.inj h]
      · simp at h
  | bg k =>
    simp only [Pipe.step] at h
    split at h
    · simp at h
    · rename_i s' op hk
      rw [← Option.some.inj h]
      by_cases hs : s = s'
      · subst hs; simp
      · simp [hs]
  | ready =>
    simp only [Pipe.step] at h
    split at h
    · rw [← Option.some.inj h]
    · simp at h

theorem run_dbLog (as : List (Act c.toPipeSize D)) (st st' : Pipe c) (h : st.run as = some st')
    (s : Fin c.stores) : st.dbLog s <+: st'.dbLog s :=
  run_induction (P := fun x => st.dbLog s <+: x.dbLog s)
    (fun x a y hi hs => hi.trans (step_dbLog x y a hs s)) as st st' (List.prefix_refl _) h

/-- A Flush waits for the writes to the databases. -/
theorem flush_stored (hs : c.useStore = true) {db : Fin c.stores → List (Str × D)} {i : Fin c.clients}
    {st st' : Pipe c} (hr : Reach db st) (h : FlushCompletes i st st') (m : Fin c.stores)
    (p : DbOp D → Bool) (hp : ∀ op, p op = true → ∃ id x, op = .set id x) :
    (st'.dbLog m).countP p = (st.issuedDb m).countP p := by
  have hr' := h.reach hr
  have hc' : st'.issuedDb m = st.issuedDb m := by
    unfold Pipe.issuedDb; rw [h.calls]; simp [PipeCfg.callDb]
  obtain ⟨hidle, st1, as, h1, hno, h2, hdone⟩ := h
  obtain ⟨a1, a2, a3, a4, a5, s1, s2, s3, s4, s5, hn, r1, r2, r3, r4, r5, _, w1, w2, w3, w4, p3, p4⟩ :=
    flush_stages h1 hno h2 hdone
  have g1 := onlyFlush_run a1 st1 s1 (hr.step h1) (fun a ha => hn a (by simp [ha])) r1 (FlushCompletes.onlyFlush hidle h1)
  have g2 := onlyFlush_run a2 s1 s2 ((hr.step h1).run r1) (fun a ha => hn a (by simp [ha])) r2 g1
  have g3 := onlyFlush_run a3 s2 s3 (((hr.step h1).run r1).run r2) (fun a ha => hn a (by simp [ha])) r3 g2
  have c3 : Reach db s3 := (((hr.step h1).run r1).run r2).run r3
  have hw := wait_stored c3 g3 hs w3
  obtain ⟨bs, hb⟩ := c3
  have hz := (dom_stored m p hp).pending_zero db bs s3 hb hw
  have hrest : s3.run (a4 ++ a5) = some st' := by rw [run_append, r4]; exact r5
  have hz' := (pending_zero_run (μDb c m p) s3 st' (a4 ++ a5)
    (fun a ha => hn a (by simp only [List.mem_append] at ha ⊢; tauto)) hrest (by
      obtain ⟨t, ht⟩ := run_dbLog (a4 ++ a5) s3 st' hrest m
      show (s3.dbLog m).countP p ≤ (st'.dbLog m).countP p
      rw [← ht, List.countP_append]; omega) hz).1
  obtain ⟨cs, hcs⟩ := hr'
  have := db_conserve m p db cs st' hcs
  rw [hz', hc'] at this
  omega

/-- Executed database operations were issued. -/
theorem db_mem {db : Fin c.stores → List (Str × D)} {st : Pipe c} (hr : Reach db st)
    (m : Fin c.stores) {op : DbOp D} (h : op ∈ st.dbLog m) : op ∈ st.issuedDb m := by
  classical
  obtain ⟨as, ha⟩ := hr
  have := db_conserve m (fun x => decide (x = op)) db as st ha
  have h1 : 0 < (st.dbLog m).countP (fun x => decide (x = op)) :=
    List.countP_pos_iff.2 ⟨op, h, by simp⟩
  obtain ⟨x, hx, he⟩ := List.countP_pos_iff.1
    (show 0 < (st.issuedDb m).countP (fun x => decide (x = op)) by omega)
  simp only [decide_eq_true_eq] at he
  rwa [he] at hx

/-- A write in the database log comes from an Index call. -/
theorem db_mem_set {db : Fin c.stores → List (Str × D)} {st : Pipe c} (hr : Reach db st)
    {m : Fin c.stores} {id : Str} {x : D} (h : DbOp.set id x ∈ st.dbLog m) :
    c.useStore = true ∧ id ≠ str "0" ∧ c.storeRoute id = m ∧ c.encodes x = true ∧
      ∃ i f, (i, Call.index id x f) ∈ st.calls := by
  obtain ⟨⟨i, a⟩, ha, hop⟩ := List.mem_flatMap.1 (db_mem hr m h)
  cases a with
  | index id' y f =>
    simp only [PipeCfg.callDb] at hop
    split at hop
    · rename_i hc
      simp at hop
      obtain ⟨rfl, rfl⟩ := hop
      exact ⟨hc.1, hc.2.1, hc.2.2.1, hc.2.2.2, i, f, ha⟩
    · simp at hop
  | remove id' f => simp only [PipeCfg.callDb] at hop; split at hop <;> simp at hop
  | flush => simp [PipeCfg.callDb] at hop

/-- A deletion in the database log comes from a RemoveDoc call. -/
theorem db_mem_del {db : Fin c.stores → List (Str × D)} {st : Pipe c} (hr : Reach db st)
    {m : Fin c.stores} {id : Str} (h : DbOp.del id ∈ st.dbLog m) :
    ∃ i f, (i, Call.remove id f) ∈ st.calls := by
  obtain ⟨⟨i, a⟩, ha, hop⟩ := List.mem_flatMap.1 (db_mem hr m h)
  cases a with
  | index id' y f => simp only [PipeCfg.callDb] at hop; split at hop <;> simp at hop
  | remove id' f =>
    simp only [PipeCfg.callDb] at hop
    split at hop
    · simp at hop; subst hop; exact ⟨i, f, ha⟩
    · simp at hop
  | flush => simp [PipeCfg.callDb] at hop

/-- The content at `d` after operations without deletions of `d`. -/
theorem dbApply_sets (mp : Str → Option D) (ops : List (DbOp D)) (d : Str) (hno : DbOp.del d ∉ ops) :
    dbApply mp ops d = ((ops.filter (DbOp.isSet d)).getLast?).elim (mp d)
      (fun op => match op with | .set _ x => some x | .del _ => none) := by
  induction ops using List.reverseRecOn with
  | nil => rfl
  | append_singleton ops op ih =>
    have ih := ih (fun h => hno (by simp [h]))
    unfold dbApply at ih ⊢
    rw [List.foldl_append, List.filter_append]
    simp only [List.foldl_cons, List.foldl_nil]
    cases op with
    | set id x =>
      by_cases hid : id = d
      · subst hid; simp [dbStep, DbOp.isSet]
      · simp [dbStep, DbOp.isSet, hid, Ne.symm hid, ih]
    | del id =>
      have hid : d ≠ id := by rintro rfl; exact hno (by simp)
      simp [dbStep, DbOp.isSet, hid, ih]

theorem lastStored_eq (hs : c.useStore = true) (h0 : d ≠ str "0") (hm : c.storeRoute d = m)
    (before : Option D) (calls : List (Fin c.clients × Call D)) :
    lastStored c d before (calls.map (·.2)) =
      (((calls.flatMap (fun x => c.callDb m x.2)).filter (DbOp.isSet d)).getLast?).elim before
      (fun op => match op with | .set _ x => some x | .del _ => none) := by
  induction calls using List.reverseRecOn with
  | nil => rfl
  | append_singleton calls a ih =>
    unfold lastStored at ih ⊢
    rw [List.map_append, List.foldl_append, List.flatMap_append, List.filter_append]
    simp only [List.map_cons, List.map_nil, List.foldl_cons, List.foldl_nil, List.flatMap_cons,
      List.flatMap_nil, List.append_nil]
    obtain ⟨i, a⟩ := a
    cases a with
    | index id x f =>
      by_cases hid : id = d
      · subst hid
        cases he : c.encodes x with
        | true => simp [PipeCfg.callDb, hs, h0, hm, he, DbOp.isSet]
        | false => simp [PipeCfg.callDb, he, ih]
      · have : (c.callDb m (.index id x f)).filter (DbOp.isSet d) = [] := by
          simp only [PipeCfg.callDb]; split <;> simp [DbOp.isSet, hid]
        simp only [this, List.append_nil]
        simp [hid, ih]
    | remove id f =>
      have : (c.callDb m (.remove id f)).filter (DbOp.isSet d) = [] := by
        simp only [PipeCfg.callDb]; split <;> simp [DbOp.isSet]
      simp only [this, List.append_nil]
      exact ih
    | flush => simp [PipeCfg.callDb, ih]

theorem listedDb_lists {l : List (Str × D)} (h : (l.map (·.1)).Nodup) : ListsDb l (listedDb l) := by
  refine ⟨h, fun id x => ?_⟩
  unfold listedDb
  induction l with
  | nil => simp
  | cons y l ih =>
    simp only [List.map_cons, List.nodup_cons] at h
    rw [List.find?_cons]
    by_cases hy : y.1 = id
    · simp only [hy, decide_true, Option.map_some, Option.some.injEq, List.mem_cons]
      constructor
      · rintro (rfl | hm)
        · rfl
        · exact absurd (List.mem_map.2 ⟨_, hm, rfl⟩) (by rw [← hy] at *; exact h.1)
      · rintro rfl; left; rw [← hy]
    · simp only [hy, decide_false, List.mem_cons]
      rw [← ih h.2]
      constructor
      · rintro (rfl | hm)
        · exact absurd rfl hy
        · exact hm
      · exact Or.inr

/-- What a database contains was put there for that document. -/
theorem dbContent_route {db : Fin c.stores → List (Str × D)} (hdb : DbOk c db) {st : Pipe c} (hr : Reach db st)
    {m : Fin c.stores} {id : Str} {x : D} (h : st.dbContent db m id = some x) :
    c.storeRoute id = m ∧ id ≠ str "0" ∧ c.encodes x = true := by
  unfold Pipe.dbContent at h
  have key : ∀ (ops : List (DbOp D)), (∀ op ∈ ops, op ∈ st.dbLog m) →
      ∀ y, dbApply (listedDb (db m)) ops id = some y →
        c.storeRoute id = m ∧ id ≠ str "0" ∧ c.encodes y = true := by
    intro ops
    induction ops using List.reverseRecOn with
    | nil =>
      intro _ y hy
      have hmem := ((listedDb_lists (hdb m).1).2 id y).2 hy
      exact (hdb m).2 (id, y) hmem
    | append_singleton ops op ih =>
      intro hall y hy
      have ih := ih (fun o ho => hall o (by simp [ho]))
      unfold dbApply at ih hy
      rw [List.foldl_append] at hy
      simp only [List.foldl_cons, List.foldl_nil] at hy
      cases op with
      | set id' z =>
        simp only [dbStep] at hy
        split at hy
        · rename_i he; subst he
          simp only [Option.some.injEq] at hy; subst hy
          obtain ⟨_, h1, h2, h3, _⟩ := db_mem_set hr (hall (.set id z) (by simp))
          exact ⟨h2, h1, h3⟩
        · exact ih y hy
      | del id' =>
        simp only [dbStep] at hy
        split at hy
        · simp at hy
        · exact ih y hy
  exact key _ (fun _ h => h) x h

end Riot
