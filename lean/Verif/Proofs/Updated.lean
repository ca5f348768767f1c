import Verif.Proofs.Repeated

/-!
# Proofs: a document that was indexed again since an earlier Flush
-/

namespace Riot

/-- If nothing of `d` waits and then `d` is added and not removed, then it is visible in a version that was added then, or such a version waits. -/
theorem Trace.replaced {L N : List IdxOp} {tr : Nat → AbsIndex} (ht : Trace (L ++ N) tr) {d : Str}
    (h0 : ∀ x, ¬ (tr L.length).pend d x) (hno : ∀ f, IdxOp.remove d f ∉ N) :
    (∀ x, (tr (L ++ N).length).pend d x → x.docId = d ∧ ∃ g, IdxOp.add x g ∈ N) ∧
    ((∃ x g, IdxOp.add x g ∈ N ∧ x.docId = d) →
      (∃ x, (tr (L ++ N).length).vis d = some x ∧ x.docId = d ∧ ∃ g, IdxOp.add x g ∈ N) ∨ ∃ x, (tr (L ++ N).length).pend d x) := by
  induction N using List.reverseRecOn with
  | nil =>
    rw [List.append_nil]
    exact ⟨fun x hx => absurd hx (h0 x), by rintro ⟨x, g, hx, _⟩; simp at hx⟩
  | append_singleton N op ih =>
    rw [← List.append_assoc] at ht ⊢
    obtain ⟨ht', hstep⟩ := ht.init
    obtain ⟨i2, i3⟩ := ih ht' (fun f hm => hno f (by simp [hm]))
    rw [List.length_append (as := L ++ N), List.length_singleton]
    have push : ∀ x : DocIndex, (x.docId = d ∧ ∃ g, IdxOp.add x g ∈ N) → x.docId = d ∧ ∃ g, IdxOp.add x g ∈ N ++ [op] :=
      fun x ⟨a, g, b⟩ => ⟨a, g, by simp [b]⟩
    have hcommit : ∀ (f : Bool) (a b : AbsIndex), AbsCommit f a b →
        (∀ x, a.pend d x → x.docId = d ∧ ∃ g, IdxOp.add x g ∈ N ++ [op]) →
        ((∃ x g, IdxOp.add x g ∈ N ++ [op] ∧ x.docId = d) →
          (∃ x, a.vis d = some x ∧ x.docId = d ∧ ∃ g, IdxOp.add x g ∈ N ++ [op]) ∨ ∃ x, a.pend d x) →
        (∀ x, b.pend d x → x.docId = d ∧ ∃ g, IdxOp.add x g ∈ N ++ [op]) ∧
        ((∃ x g, IdxOp.add x g ∈ N ++ [op] ∧ x.docId = d) →
          (∃ x, b.vis d = some x ∧ x.docId = d ∧ ∃ g, IdxOp.add x g ∈ N ++ [op]) ∨ ∃ x, b.pend d x) := by
      intro f a b hc k2 k3
      rcases hc d with ⟨e1, e2, _⟩ | ⟨_, ⟨y, hy⟩, e1, e2⟩ | ⟨v, hv, e1, e2⟩
      · simp only [e1, e2]; exact ⟨k2, k3⟩
      · exact ⟨fun x hx => k2 x ((e2 x).1 hx), fun _ => .inr ⟨y, (e2 y).2 hy⟩⟩
      · exact ⟨fun x hx => absurd hx (e2 x), fun _ => .inl ⟨v, e1, k2 v hv⟩⟩
    have pushv : (∃ x, (tr (L ++ N).length).vis d = some x ∧ x.docId = d ∧ ∃ g, IdxOp.add x g ∈ N) →
        ∃ x, (tr (L ++ N).length).vis d = some x ∧ x.docId = d ∧ ∃ g, IdxOp.add x g ∈ N ++ [op] :=
      fun ⟨x, a, b⟩ => ⟨x, a, push x b⟩
    cases op with
    | add doc f =>
      simp only [AbsStep] at hstep
      refine hcommit _ _ _ hstep ?_ ?_
      · rintro x (hx | ⟨rfl, rfl⟩)
        · exact push x (i2 x hx)
        · exact ⟨rfl, f, by simp⟩
      · rintro ⟨x, g, hx, hid⟩
        simp only [List.mem_append, List.mem_singleton, IdxOp.add.injEq] at hx
        rcases hx with hx | ⟨rfl, rfl⟩
        · rcases i3 ⟨x, g, hx, hid⟩ with hh | ⟨y, hy⟩
          · exact .inl (pushv hh)
          · exact .inr ⟨y, .inl hy⟩
        · exact .inr ⟨x, .inr ⟨rfl, hid.symm⟩⟩
    | flush f =>
      simp only [AbsStep] at hstep
      refine hcommit _ _ _ hstep (fun x hx => push x (i2 x hx)) ?_
      rintro ⟨x, g, hx, hid⟩
      exact (i3 ⟨x, g, by simpa using hx, hid⟩).imp pushv id
    | remove id f =>
      simp only [AbsStep] at hstep
      have hne : d ≠ id := by rintro rfl; exact hno f (by simp)
      have hv := hstep.1 d
      rw [if_neg (fun hh => hne hh.1)] at hv
      refine ⟨fun x hx => push x (i2 x ((hstep.2 d x).1 hx)), ?_⟩
      rintro ⟨x, g, hx, hid⟩
      rcases i3 ⟨x, g, by simpa using hx, hid⟩ with hh | ⟨y, hy⟩
      · obtain ⟨z, hz, hz2⟩ := pushv hh
        exact .inl ⟨z, by rw [hv]; exact hz, hz2⟩
      · exact .inr ⟨y, (hstep.2 d y).2 hy⟩

variable {D F A : Type} {c : PipeCfg D}

/-- What a shard shows of a document that was indexed there, and not removed, since an earlier Flush: one of the versions given since. -/
theorem vis_updated (hdoc : c.DocOk) {db : Fin c.stores → List (Str × D)} {p0 : Pipe c} {st : Fine c} {s : Fin c.shards} {tr : Nat → AbsIndex}
    {vis : Str → Option DocIndex} (htr : Trace (st.pipe.idxLog s) tr) (hv : st.SeesNow s (tr (st.pipe.idxLog s).length) vis) {d : Str}
    (h0 : d ≠ str "0") (hfl0 : CallsFlushed db p0 d) (hfl : CallsFlushed db st.pipe d) {bs : List (Act c.toPipeSize D)}
    (hrun : p0.run bs = some st.pipe) {news : List (Call D)} (hnews : st.pipe.given db = p0.given db ++ news)
    (hkept : ∀ f, Call.remove d f ∉ news) (hy : ∃ y, VersionOn c s news d y) :
    ∃ y, VersionOn c s news d y ∧ vis d = some (c.docOf d y) := by
  obtain ⟨_, hinv0⟩ := hfl0.inv hdoc h0
  obtain ⟨hp0, hset0⟩ := hinv0 s
  obtain ⟨hreach, hinv⟩ := hfl.inv hdoc h0
  obtain ⟨hp, hset⟩ := hinv s
  have hu := untouched_of_perm hreach s hp
  have hpn := hset.no_pend htr
  have hvd : vis d = (tr (st.pipe.idxLog s).length).vis d := by
    rcases hv d with e | ⟨_, ⟨hr, f, hf⟩ | ⟨hr, ⟨op, ho, hid⟩ | ⟨x, hx⟩⟩⟩
    · exact e
    · exact absurd hf (hu.1 hr f)
    · exact absurd hid (hu.2 (by intro e; rw [e] at hr; simp [AddPC.refreshing] at hr) op ho)
    · exact absurd hx (hpn x)
  obtain ⟨N, hN⟩ := run_idxLog bs p0 st.pipe hrun s
  have hiss : st.pipe.issued db s = p0.issued db s ++ news.flatMap (c.callOps s) := by
    have e1 : st.pipe.issued db s = (st.pipe.given db).flatMap (c.callOps s) := issued_eq db st.pipe s
    have e2 : p0.issued db s = (p0.given db).flatMap (c.callOps s) := issued_eq db p0 s
    rw [e1, e2, hnews, List.flatMap_append]
  have hNp : (docOps d (news.flatMap (c.callOps s))).Perm (docOps d N) := by
    rw [← hN, hiss, docOps_append, docOps_append] at hp
    exact (List.perm_append_left_iff _).1 ((hp0.symm.append_right _).trans hp)
  have hmem : ∀ op : IdxOp, op.id? = some d → (op ∈ N ↔ op ∈ news.flatMap (c.callOps s)) := by
    intro op hid
    have := hNp.mem_iff (a := op)
    rw [mem_docOps, mem_docOps] at this
    simp only [hid, and_true] at this
    exact this.symm
  have hpre : Trace (p0.idxLog s) tr := by
    have := htr.take (p0.idxLog s).length
    rwa [← hN, List.take_left] at this
  have htr' : Trace (p0.idxLog s ++ N) tr := by rw [hN]; exact htr
  obtain ⟨_, k3⟩ := htr'.replaced (d := d) (hset0.no_pend hpre) (by
    intro f hm
    obtain ⟨a, ha, hm⟩ := List.mem_flatMap.1 ((hmem _ rfl).1 hm)
    cases a with
    | index id y f =>
      simp only [PipeCfg.callOps] at hm
      split at hm
      · split at hm <;> simp at hm
      · split at hm
        · simp at hm
        · split at hm <;> simp at hm
    | remove id f =>
      simp only [PipeCfg.callOps, List.mem_singleton, IdxOp.remove.injEq] at hm
      obtain ⟨rfl, rfl⟩ := hm
      exact hkept _ ha
    | flush => simp [PipeCfg.callOps] at hm)
  rw [hN] at k3
  obtain ⟨y, ⟨g, hg⟩, hroute⟩ := hy
  have hadd : IdxOp.add (c.docOf d y) g ∈ news.flatMap (c.callOps s) :=
    List.mem_flatMap.2 ⟨_, hg, by simp [PipeCfg.callOps, h0, hroute]⟩
  rcases k3 ⟨_, g, (hmem _ (by simp [IdxOp.id?, hdoc d y])).2 hadd, hdoc d y⟩ with ⟨x, hx, hid, g', hg'⟩ | ⟨z, hz⟩
  · obtain ⟨a, ha, hm⟩ := List.mem_flatMap.1 ((hmem (.add x g') (by simp [IdxOp.id?, hid])).1 hg')
    cases a with
    | index id z f =>
      simp only [PipeCfg.callOps] at hm
      split at hm
      · split at hm <;> simp at hm
      · split at hm
        · rename_i hne hr
          simp only [List.mem_singleton, IdxOp.add.injEq] at hm
          obtain ⟨rfl, rfl⟩ := hm
          have : id = d := by rw [← hid]; exact (hdoc id z).symm
          subst this
          exact ⟨z, ⟨⟨_, ha⟩, hr⟩, by rw [hvd, hx]⟩
        · split at hm <;> simp at hm
    | remove id f => simp [PipeCfg.callOps] at hm
    | flush => simp [PipeCfg.callOps] at hm
  · exact absurd hz (hpn z)

end Riot
