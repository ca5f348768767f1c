import Verif.Spec.Repeated
import Verif.Props.Races

/-!
# Proofs: documents that are indexed again and again
-/

namespace Riot

section trace

/-- Without a removal, a document that was added is visible or waiting, in a version that was added. -/
theorem Trace.kept {h : List IdxOp} {tr : Nat → AbsIndex} (ht : Trace h tr) {d : Str} (hno : ∀ f, IdxOp.remove d f ∉ h) :
    (∀ x, (tr h.length).vis d = some x → x.docId = d ∧ ∃ g, IdxOp.add x g ∈ h) ∧
    (∀ x, (tr h.length).pend d x → x.docId = d ∧ ∃ g, IdxOp.add x g ∈ h) ∧
    ((∃ x g, IdxOp.add x g ∈ h ∧ x.docId = d) → (∃ x, (tr h.length).vis d = some x) ∨ ∃ x, (tr h.length).pend d x) := by
  induction h using List.reverseRecOn with
  | nil => rw [List.length_nil, ht.1]; exact ⟨fun x hx => by simp [AbsIndex.empty] at hx, fun x hx => hx.elim, by rintro ⟨x, g, hx, _⟩; simp at hx⟩
  | append_singleton h op ih =>
    obtain ⟨ht', hstep⟩ := ht.init
    obtain ⟨i1, i2, i3⟩ := ih ht' (fun f hm => hno f (by simp [hm]))
    simp only [List.length_append, List.length_singleton]
    have hcommit : ∀ (f : Bool) (a b : AbsIndex), AbsCommit f a b →
        (∀ x, a.vis d = some x → x.docId = d ∧ ∃ g, IdxOp.add x g ∈ h ++ [op]) →
        (∀ x, a.pend d x → x.docId = d ∧ ∃ g, IdxOp.add x g ∈ h ++ [op]) →
        ((∃ x g, IdxOp.add x g ∈ h ++ [op] ∧ x.docId = d) → (∃ x, a.vis d = some x) ∨ ∃ x, a.pend d x) →
        (∀ x, b.vis d = some x → x.docId = d ∧ ∃ g, IdxOp.add x g ∈ h ++ [op]) ∧
        (∀ x, b.pend d x → x.docId = d ∧ ∃ g, IdxOp.add x g ∈ h ++ [op]) ∧
        ((∃ x g, IdxOp.add x g ∈ h ++ [op] ∧ x.docId = d) → (∃ x, b.vis d = some x) ∨ ∃ x, b.pend d x) := by
      intro f a b hc k1 k2 k3
      rcases hc d with ⟨e1, e2, _⟩ | ⟨_, ⟨y, hy⟩, e1, e2⟩ | ⟨v, hv, e1, e2⟩
      · simp only [e1, e2]; exact ⟨k1, k2, k3⟩
      · refine ⟨fun x hx => by rw [e1] at hx; simp at hx, fun x hx => k2 x ((e2 x).1 hx), fun _ => .inr ⟨y, (e2 y).2 hy⟩⟩
      · refine ⟨fun x hx => ?_, fun x hx => absurd hx (e2 x), fun _ => .inl ⟨v, e1⟩⟩
        rw [e1, Option.some.injEq] at hx
        subst hx
        exact k2 _ hv
    have push : ∀ x : DocIndex, (x.docId = d ∧ ∃ g, IdxOp.add x g ∈ h) → x.docId = d ∧ ∃ g, IdxOp.add x g ∈ h ++ [op] :=
      fun x ⟨a, g, b⟩ => ⟨a, g, by simp [b]⟩
    cases op with
    | add doc f =>
      simp only [AbsStep] at hstep
      refine hcommit _ _ _ hstep (fun x hx => push x (i1 x hx)) ?_ ?_
      · rintro x (hx | ⟨rfl, rfl⟩)
        · exact push x (i2 x hx)
        · exact ⟨rfl, f, by simp⟩
      · rintro ⟨x, g, hx, hid⟩
        simp only [List.mem_append, List.mem_singleton, IdxOp.add.injEq] at hx
        rcases hx with hx | ⟨rfl, rfl⟩
        · rcases i3 ⟨x, g, hx, hid⟩ with hh | ⟨y, hy⟩
          · exact .inl hh
          · exact .inr ⟨y, .inl hy⟩
        · exact .inr ⟨x, .inr ⟨rfl, hid.symm⟩⟩
    | flush f =>
      simp only [AbsStep] at hstep
      refine hcommit _ _ _ hstep (fun x hx => push x (i1 x hx)) (fun x hx => push x (i2 x hx)) ?_
      rintro ⟨x, g, hx, hid⟩
      exact i3 ⟨x, g, by simpa using hx, hid⟩
    | remove id f =>
      simp only [AbsStep] at hstep
      have hne : d ≠ id := by rintro rfl; exact hno f (by simp)
      have hv := hstep.1 d
      rw [if_neg (fun hh => hne hh.1)] at hv
      refine ⟨fun x hx => push x (i1 x (by rw [← hv]; exact hx)), fun x hx => push x (i2 x ((hstep.2 d x).1 hx)), ?_⟩
      rintro ⟨x, g, hx, hid⟩
      rcases i3 ⟨x, g, by simpa using hx, hid⟩ with ⟨y, hy⟩ | ⟨y, hy⟩
      · exact .inl ⟨y, by rw [hv]; exact hy⟩
      · exact .inr ⟨y, (hstep.2 d y).2 hy⟩

end trace

variable {D F A : Type} {c : PipeCfg D}

/-- After such a Flush the executed calls about `d` are the issued ones, and `d` is settled. -/
theorem CallsFlushed.inv (hdoc : c.DocOk) {db : Fin c.stores → List (Str × D)} {d : Str} (h0 : d ≠ str "0") {st : Pipe c}
    (h : CallsFlushed db st d) : Reach db st ∧ ∀ s, (docOps d (st.issued db s)).Perm (docOps d (st.idxLog s)) ∧ Settled d (st.idxLog s) := by
  obtain ⟨as, i, st1, st2, bs, hr, hf, hbs, hno⟩ := h
  have hr1 : Reach db st1 := ⟨as, hr⟩
  have hreach := hf.reach hr1
  refine ⟨hreach.run hbs, fun s => ?_⟩
  obtain ⟨hp, i4⟩ := flush_docOps hr1 hf s h0
  have i2 : (docOps d (st2.issued db s)).Perm (docOps d (st2.idxLog s)) := by
    rw [issued_flush (db := db) hf s, docOps_append]
    simp only [docOps, IdxOp.id?, reduceCtorEq, decide_false, Bool.false_eq_true, not_false_eq_true,
      List.filter_cons_of_neg, List.filter_nil, List.append_nil]
    exact hp.symm
  obtain ⟨N, hN⟩ := run_idxLog bs st2 st hbs s
  have hl : ((bs.flatMap Act.called).map (·.2)).filter (Call.about d) = [] := by
    rw [List.filter_eq_nil_iff]
    intro a ha
    obtain ⟨x, hx, rfl⟩ := List.mem_map.1 ha
    obtain ⟨b, hb, hx⟩ := List.mem_flatMap.1 hx
    cases b with
    | call j y =>
      simp only [Act.called, List.mem_singleton] at hx
      subst hx
      simp [hno j y hb]
    | _ => simp [Act.called] at hx
  have hiss : docOps d (st.issued db s) = docOps d (st2.issued db s) := by
    rw [issued_eq, issued_eq, run_calls _ _ _ hbs, List.map_append, ← List.append_assoc, List.flatMap_append,
      docOps_append, docOps_calls hdoc s d ((bs.flatMap Act.called).map (·.2)), hl]
    simp [docOps]
  have hN0 : docOps d N = [] := by
    obtain ⟨cs, hb⟩ := hreach.run hbs
    have k := idx_conserve s (fun op => decide (op.id? = some d)) db cs st hb
    have e1 : (st.idxLog s).countP (fun op => decide (op.id? = some d)) =
        (docOps d (st.idxLog s)).length := List.countP_eq_length_filter ..
    have e2 : (st.issued db s).countP (fun op => decide (op.id? = some d)) =
        (docOps d (st.issued db s)).length := List.countP_eq_length_filter ..
    rw [e1, e2, hiss, i2.length_eq, ← hN, docOps_append, List.length_append] at k
    exact List.length_eq_zero_iff.1 (by omega)
  refine ⟨?_, ?_⟩
  · rw [hiss, ← hN, docOps_append, hN0, List.append_nil]; exact i2
  · rw [← hN]
    intro h1 doc g h3 he hid
    rcases List.append_eq_append_iff.1 he with ⟨a, ha, hb⟩ | ⟨a, ha, hb⟩
    · have : IdxOp.add doc g ∈ docOps d N := by rw [hb]; simp [docOps, IdxOp.id?, hid]
      rw [hN0] at this; simp at this
    · cases a with
      | nil =>
        simp only [List.nil_append] at hb
        have : IdxOp.add doc g ∈ docOps d N := by rw [← hb]; simp [docOps, IdxOp.id?, hid]
        rw [hN0] at this; simp at this
      | cons x a =>
        simp only [List.cons_append, List.cons.injEq] at hb
        obtain ⟨rfl, hb⟩ := hb
        rcases i4 h1 doc g a ha hid with h | ⟨y, hy, hyr⟩
        · exact Or.inl h
        · right; exact ⟨y, by rw [hb]; simp [hy], hyr⟩

/-- No call about a settled document is in progress. -/
theorem untouched_of_perm {db : Fin c.stores → List (Str × D)} {st : Fine c} {d : Str} (hreach : Reach db st.pipe) (s : Fin c.shards)
    (hp : (docOps d (st.pipe.issued db s)).Perm (docOps d (st.pipe.idxLog s))) : st.Untouched s d := by
  obtain ⟨bs, hb⟩ := id hreach
  have k := idx_conserve s (fun op => decide (op.id? = some d)) db bs _ hb
  have e := hp.length_eq
  unfold docOps at e
  rw [← List.countP_eq_length_filter, ← List.countP_eq_length_filter] at e
  have hz : (μIdx c s (fun op => decide (op.id? = some d))).pending st.pipe = 0 := by omega
  have key : ∀ (t : Thread c.toPipeSize) (op : IdxOp), (∀ s' op l, st.pipe.prog t = .idx s' op :: l → s' = s) →
      st.pipe.nextIdx t = some op → op.id? ≠ some d := by
    intro t op hs hn he
    unfold Pipe.nextIdx at hn
    split at hn
    · rename_i s' op' l' hpr
      simp only [Option.some.injEq] at hn
      subst hn
      have e1 := hs _ _ _ hpr
      subst e1
      have := prog_pend hpr (p := fun op => decide (op.id? = some d)) (by simpa using he)
      omega
    · simp at hn
  refine ⟨fun _ f hn => ?_, fun _ op hn => ?_⟩
  · exact key (.idxRem s) _ (fun s' op l hp => (idx_rem_prog hreach hp).1) hn rfl
  · exact key (.idxAdd s) _ (fun s' op l hp => (idx_add_prog hreach hp).1) hn

/-- While nobody calls about the document, it stays so. -/
theorem flushed_after {E : EngCfg D F A} {st0 st : Full c F A} {as : List (EAct c.toPipeSize D F)}
    (h : st0.run E as = some st) {b t : Nat} (hbt : b ≤ t) {db : Fin c.stores → List (Str × D)} {d : Str}
    (hno : NobodyCalls as b d) (hr : CallsFlushed db (Full.after E st0 as b).fine.pipe d) :
    CallsFlushed db (Full.after E st0 as t).fine.pipe d := by
  obtain ⟨cs, hcs, hcall⟩ := after_pipe h hbt
  obtain ⟨as', i, st1, st2, bs, h1, h2, h3, h4⟩ := hr
  refine ⟨as', i, st1, st2, bs ++ cs, h1, h2, by rw [run_append, h3, Option.bind_some, hcs], fun j a ha => ?_⟩
  rcases List.mem_append.1 ha with ha | ha
  · exact h4 j a ha
  · obtain ⟨v, hv, hav⟩ := hcall (j, a) (List.mem_flatMap.2 ⟨_, ha, by simp [Act.called]⟩)
    exact hno v j a hv hav

theorem mem_docOps {d : Str} {l : List IdxOp} {op : IdxOp} : op ∈ docOps d l ↔ op ∈ l ∧ op.id? = some d := by
  simp [docOps]

/-- The versions of a document that is only indexed, as the index calls show them. -/
theorem issued_add (hdoc : c.DocOk) {db : Fin c.stores → List (Str × D)} {st : Pipe c} {s : Fin c.shards} {d : Str} (h0 : d ≠ str "0") (x : DocIndex) :
    ((∃ g, IdxOp.add x g ∈ st.issued db s) ∧ x.docId = d) ↔ ∃ y, VersionOn c s (st.given db) d y ∧ x = c.docOf d y := by
  have e : st.issued db s = (st.given db).flatMap (c.callOps s) := issued_eq db st s
  rw [e]
  constructor
  · rintro ⟨⟨g, hm⟩, hid⟩
    obtain ⟨a, ha, hm⟩ := List.mem_flatMap.1 hm
    cases a with
    | index id y f =>
      simp only [PipeCfg.callOps] at hm
      split at hm
      · split at hm <;> simp at hm
      · split at hm
        · rename_i hne hroute
          simp only [List.mem_singleton, IdxOp.add.injEq] at hm
          obtain ⟨rfl, rfl⟩ := hm
          have : id = d := by rw [← hid]; exact (hdoc id y).symm
          subst this
          exact ⟨y, ⟨⟨g, ha⟩, hroute⟩, rfl⟩
        · split at hm <;> simp at hm
    | remove id f => simp [PipeCfg.callOps] at hm
    | flush => simp [PipeCfg.callOps] at hm
  · rintro ⟨y, ⟨⟨g, hg⟩, hr⟩, rfl⟩
    exact ⟨⟨g, List.mem_flatMap.2 ⟨_, hg, by simp [PipeCfg.callOps, h0, hr]⟩⟩, hdoc d y⟩

/-- What a shard sees of a document that was only indexed: one of its versions there, if there is one. -/
theorem vis_onlyIndexed (hdoc : c.DocOk) {db : Fin c.stores → List (Str × D)} {st : Fine c} {s : Fin c.shards} {tr : Nat → AbsIndex}
    {vis : Str → Option DocIndex} (htr : Trace (st.pipe.idxLog s) tr) (hv : st.SeesNow s (tr (st.pipe.idxLog s).length) vis) {d : Str}
    (h0 : d ≠ str "0") (hfl : CallsFlushed db st.pipe d) (hkept : ∀ f, IdxOp.remove d f ∉ st.pipe.issued db s) :
    (∀ x, vis d = some x → ∃ y, VersionOn c s (st.pipe.given db) d y ∧ x = c.docOf d y) ∧
    ((∃ y, VersionOn c s (st.pipe.given db) d y) → ∃ x, vis d = some x) := by
  obtain ⟨hreach, hinv⟩ := hfl.inv hdoc h0
  obtain ⟨hp, hset⟩ := hinv s
  have hu := untouched_of_perm hreach s hp
  have hpn := hset.no_pend htr
  have hvd : vis d = (tr (st.pipe.idxLog s).length).vis d := by
    rcases hv d with e | ⟨_, ⟨hr, f, hf⟩ | ⟨hr, ⟨op, ho, hid⟩ | ⟨x, hx⟩⟩⟩
    · exact e
    · exact absurd hf (hu.1 hr f)
    · exact absurd hid (hu.2 (by intro e; rw [e] at hr; simp [AddPC.refreshing] at hr) op ho)
    · exact absurd hx (hpn x)
  have hmem : ∀ op : IdxOp, op.id? = some d → (op ∈ st.pipe.idxLog s ↔ op ∈ st.pipe.issued db s) := by
    intro op hid
    have := hp.mem_iff (a := op)
    rw [mem_docOps, mem_docOps] at this
    simp only [hid, and_true] at this
    exact this.symm
  obtain ⟨k1, _, k3⟩ := htr.kept (d := d) (fun f hm => hkept f ((hmem _ rfl).1 hm))
  rw [hvd]
  refine ⟨fun x hx => ?_, ?_⟩
  · obtain ⟨hid, g, hg⟩ := k1 x hx
    exact (issued_add hdoc h0 x).1 ⟨⟨g, (hmem _ (by simp [IdxOp.id?, hid])).1 hg⟩, hid⟩
  · rintro ⟨y, hy⟩
    obtain ⟨⟨g, hg⟩, hid⟩ := (issued_add hdoc h0 (c.docOf d y)).2 ⟨y, hy, rfl⟩
    rcases k3 ⟨_, g, (hmem _ (by simp [IdxOp.id?, hid])).2 hg, hid⟩ with hh | ⟨z, hz⟩
    · exact hh
    · exact absurd hz (hpn z)

theorem issued_no_remove {db : Fin c.stores → List (Str × D)} {st : Pipe c} {s : Fin c.shards} {d : Str}
    (h : ∀ f, Call.remove d f ∉ st.given db) : ∀ f, IdxOp.remove d f ∉ st.issued db s := by
  intro f hm
  have e : st.issued db s = (st.given db).flatMap (c.callOps s) := issued_eq db st s
  rw [e] at hm
  obtain ⟨a, ha, hm⟩ := List.mem_flatMap.1 hm
  cases a with
  | index id y f =>
    simp only [PipeCfg.callOps] at hm
    split at hm
    · split at hm <;> simp at hm
    · split at hm
      · simp at hm
      · split at hm <;> simp at hm
  | remove id f =>
    simp only [PipeCfg.callOps, List.mem_singleton, IdxOp.remove.injEq] at hm
    obtain ⟨rfl, rfl⟩ := hm
    exact h _ ha
  | flush => simp [PipeCfg.callOps] at hm

end Riot
