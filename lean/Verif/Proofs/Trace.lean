import Verif.Proofs.Refresh

/-! # Abstract traces: consequences that do not look at the index any more -/

namespace Riot

/-- Every panic-free history has an abstract trace that describes all its states. -/
theorem trace_exists {so : Sorter} (hso : SortOk so) (o : IndexerOpts) (h : List IdxOp)
    (hok : ∀ op ∈ h, OpOk op) (s : Indexer) (hr : (Indexer.init o).run so h = some s) :
    ∃ tr, Trace h tr ∧ ∀ i ≤ h.length, ∃ si known, (Indexer.init o).run so (h.take i) = some si ∧
      si.opts = o.init ∧ Inv si known ∧ tr i = absOf si known ∧ ∀ d x, known.get d = some x → LastVisible tr i d x := by
  induction h using List.reverseRecOn generalizing s with
  | nil =>
    refine ⟨fun _ => .empty, ⟨rfl, by simp⟩, ?_⟩
    intro i hi
    refine ⟨Indexer.init o, .empty, by simp [Indexer.run], rfl, Inv.init o, ?_, ?_⟩
    · simp [AbsIndex.empty, absOf, Indexer.init]
    · intro d x hx; simp at hx
  | append_singleton h op ih =>
    rw [Indexer.run_snoc, Option.bind_eq_some_iff] at hr
    obtain ⟨s0, hr0, hstep⟩ := hr
    obtain ⟨tr, ht, hall⟩ := ih (fun x hx => hok x (by simp [hx])) s0 hr0
    obtain ⟨si, known, h1, h2, h3, h4, h5⟩ := hall h.length le_rfl
    rw [List.take_length, hr0, Option.some.injEq] at h1
    subst h1
    obtain ⟨s1, known', g1, g2, g3, g4, g5⟩ := step_spec hso h3 op (hok op (by simp)) (by
      rintro ⟨doc, f, rfl⟩
      by_contra hc
      rw [step_full doc f hc] at hstep; simp at hstep)
    rw [g1, Option.some.injEq] at hstep
    subst hstep
    refine ⟨fun i => if i ≤ h.length then tr i else absOf s1 known', ⟨?_, ?_⟩, ?_⟩
    · simp [ht.1]
    · intro i hi
      simp only [List.length_append, List.length_singleton] at hi
      rcases Nat.lt_or_ge i h.length with hlt | hge
      · have := ht.2 i hlt
        simp only [List.getElem_append_left hlt]
        rw [if_pos (by omega), if_pos (by omega)]
        exact this
      · have : i = h.length := by omega
        subst this
        simp only [List.getElem_append_right le_rfl, Nat.sub_self, List.getElem_cons_zero]
        rw [if_pos le_rfl, if_neg (by omega), h4]
        exact g3
    · intro i hi
      simp only [List.length_append, List.length_singleton] at hi
      rcases Nat.lt_or_ge h.length i with hlt | hge
      · have : i = h.length + 1 := by omega
        subst this
        refine ⟨s1, known', ?_, by rw [g4, h2], g2, by simp, ?_⟩
        · rw [List.take_of_length_le (by simp), Indexer.run_snoc, hr0]
          exact g1
        · intro d x hx
          by_cases hv : (absOf s1 known').vis d = some x
          · exact ⟨h.length + 1, le_rfl, by simp [hv], fun m h1 h2 => by omega⟩
          · have hn : (absOf s1 known').vis d = none := by
              simp only [absOf, hx] at hv ⊢
              split at hv
              · exact absurd rfl hv
              · rename_i h0; rw [if_neg h0]
            obtain ⟨j, hj, e1, e2⟩ := h5 d x ((g5 d x hx).resolve_left hv)
            refine ⟨j, by omega, by simp [hj, e1], fun m m1 m2 => ?_⟩
            by_cases hm : m ≤ h.length
            · simp only [if_pos hm]; exact e2 m m1 hm
            · simp only [if_neg hm]; exact hn
      · obtain ⟨sj, kj, a, b, c, e, q⟩ := hall i hge
        refine ⟨sj, kj, ?_, b, c, by simp [hge, e], ?_⟩
        · rw [List.take_append_of_le_length hge]
          exact a
        · intro d x hx
          obtain ⟨j, hj, e1, e2⟩ := q d x hx
          refine ⟨j, hj, by simp [le_trans hj hge, e1], fun m m1 m2 => ?_⟩
          simp only [if_pos (le_trans m2 hge)]; exact e2 m m1 m2

theorem Trace.take {h : List IdxOp} {tr : Nat → AbsIndex} (ht : Trace h tr) (n : Nat) :
    Trace (h.take n) tr := by
  refine ⟨ht.1, ?_⟩
  intro i hi
  simp only [List.length_take] at hi
  simpa using ht.2 i (by omega)

theorem Trace.init {h : List IdxOp} {op : IdxOp} {tr : Nat → AbsIndex} (ht : Trace (h ++ [op]) tr) :
    Trace h tr ∧ AbsStep op (tr h.length) (tr (h.length + 1)) := by
  constructor
  · have := ht.take h.length
    simpa using this
  · have := ht.2 h.length (by simp)
    simpa using this

/-- A version still waiting was added after the last forced refresh. -/
theorem Trace.pend_since {h : List IdxOp} {tr : Nat → AbsIndex} (ht : Trace h tr) {d : Str}
    {x : DocIndex} (hx : (tr h.length).pend d x) :
    x.docId = d ∧ ∃ h1 h2, h = h1 ++ .add x false :: h2 ∧ ∀ c ∈ h2, c.refreshes = false := by
  induction h using List.reverseRecOn with
  | nil => rw [List.length_nil, ht.1] at hx; exact hx.elim
  | append_singleton h op ih =>
    obtain ⟨ht', hstep⟩ := ht.init
    simp only [List.length_append, List.length_singleton] at hx
    have hext : ∀ op, op.refreshes = false → (tr h.length).pend d x →
        x.docId = d ∧ ∃ h1 h2, h ++ [op] = h1 ++ .add x false :: h2 ∧ ∀ c ∈ h2, c.refreshes = false :=
      fun op hop hp => ⟨(ih ht' hp).1, not_refreshes_since hop (ih ht' hp).2⟩
    cases op with
    | add doc f =>
      simp only [AbsStep] at hstep
      cases f with
      | true => exact absurd hx (hstep.forced d x)
      | false =>
        rcases hstep.pend_sub hx with h | ⟨rfl, rfl⟩
        · exact hext _ rfl h
        · exact ⟨rfl, h, [], by simp, by simp⟩
    | flush f =>
      simp only [AbsStep] at hstep
      cases f with
      | true => exact absurd hx (hstep.forced d x)
      | false => exact hext _ rfl (hstep.pend_sub hx)
    | remove id f =>
      simp only [AbsStep] at hstep
      exact hext _ rfl ((hstep.2 d x).1 hx)

theorem DocDisciplined.init {d : Str} {h : List IdxOp} {op : IdxOp} (hd : DocDisciplined d (h ++ [op])) :
    DocDisciplined d h := by
  refine ⟨hd.1, ?_⟩
  intro h1 doc f h2 b h3 he hid hb
  exact hd.2 h1 doc f h2 b (h3 ++ [op]) (by simp [he]) hid hb

/-- For a disciplined document, the waiting version is the ideal one, and without one the
visible version is. -/
theorem Trace.doc_ideal {h : List IdxOp} {tr : Nat → AbsIndex} (ht : Trace h tr) {d : Str}
    (hd : DocDisciplined d h) :
    (∀ x, (tr h.length).pend d x → ideal h d = some x) ∧
    ((∀ x, ¬ (tr h.length).pend d x) → (tr h.length).vis d = ideal h d) := by
  induction h using List.reverseRecOn with
  | nil =>
    rw [List.length_nil, ht.1]
    exact ⟨fun x hx => hx.elim, fun _ => rfl⟩
  | append_singleton h op ih =>
    obtain ⟨ht', hstep⟩ := ht.init
    obtain ⟨ih1, ih2⟩ := ih ht' hd.init
    -- nothing waits if the call mentions the document
    have hfresh : op.id? = some d → ∀ x, ¬ (tr h.length).pend d x := by
      intro hid x hx
      obtain ⟨hxd, h1, h2, he, hno⟩ := ht'.pend_since hx
      rcases hd.2 h1 x false h2 op [] (by rw [he]) hxd hid with hh | ⟨c, hc, hc2⟩
      · simp at hh
      · rw [hno c hc] at hc2; simp at hc2
    -- a commit of a state satisfying the relation satisfies the relation
    have hcommit : ∀ (f : Bool) (a b : AbsIndex) (I : Option DocIndex), AbsCommit f a b →
        (∀ x, a.pend d x → I = some x) → ((∀ x, ¬ a.pend d x) → a.vis d = I) →
        (∀ x, b.pend d x → I = some x) ∧ ((∀ x, ¬ b.pend d x) → b.vis d = I) := by
      intro f a b I hc h1 h2
      rcases hc d with ⟨e1, e2, _⟩ | ⟨_, ⟨y, e1⟩, e2, e3⟩ | ⟨v, e1, e2, e3⟩
      · exact ⟨fun x hx => h1 x ((e2 x).1 hx),
          fun hn => e1.trans (h2 (fun x hx => hn x ((e2 x).2 hx)))⟩
      · exact ⟨fun x hx => h1 x ((e3 x).1 hx), fun hn => absurd ((e3 y).2 e1) (hn y)⟩
      · exact ⟨fun x hx => absurd hx (e3 x), fun _ => by rw [e2, h1 v e1]⟩
    rw [ideal_snoc]
    simp only [List.length_append, List.length_singleton]
    cases op with
    | add doc f =>
      simp only [AbsStep] at hstep
      refine hcommit f _ _ _ hstep ?_ ?_
      · rintro x (hx | ⟨rfl, hx⟩)
        · have hne : doc.docId ≠ d := fun he => hfresh (by simp [IdxOp.id?, he]) x hx
          simp only [idealStep, if_neg (Ne.symm hne)]
          exact ih1 x hx
        · simp only [idealStep, if_pos hx]
      · intro hn
        have hne : d ≠ doc.docId := fun he => hn doc (Or.inr ⟨rfl, he⟩)
        simp only [idealStep, if_neg hne]
        exact ih2 (fun x hx => hn x (Or.inl hx))
    | flush f =>
      simp only [AbsStep] at hstep
      exact hcommit f _ _ _ hstep ih1 ih2
    | remove id f =>
      simp only [AbsStep] at hstep
      obtain ⟨e1, e2⟩ := hstep
      by_cases hid : d = id
      · have hno := hfresh (by simp [IdxOp.id?, hid])
        refine ⟨fun x hx => absurd ((e2 d x).1 hx) (hno x), fun _ => ?_⟩
        rw [e1, if_pos ⟨hid, hid ▸ hd.1⟩]
        simp [idealStep, hid]
      · refine ⟨fun x hx => ?_, fun hn => ?_⟩
        · simp only [idealStep, if_neg hid]; exact ih1 x ((e2 d x).1 hx)
        · rw [e1, if_neg (fun h => hid h.1)]
          simp only [idealStep, if_neg hid]
          exact ih2 (fun x hx => hn x ((e2 d x).2 hx))

/-- After a forced refresh nothing waits. -/
theorem Trace.refreshed {h : List IdxOp} {op : IdxOp} {tr : Nat → AbsIndex}
    (ht : Trace (h ++ [op]) tr) (hop : op.refreshes = true) (d : Str) (x : DocIndex) :
    ¬ (tr (h.length + 1)).pend d x := by
  obtain ⟨_, hstep⟩ := ht.init
  cases op with
  | add doc f =>
    simp only [IdxOp.refreshes] at hop; subst hop
    exact AbsCommit.forced hstep d x
  | flush f =>
    simp only [IdxOp.refreshes] at hop; subst hop
    exact AbsCommit.forced hstep d x
  | remove id f => simp [IdxOp.refreshes] at hop

/-- A document that nobody adds again, and of which no version waits, stays as it is or
disappears. -/
theorem Trace.stays_invisible {h h2 : List IdxOp} {tr : Nat → AbsIndex} (ht : Trace (h ++ h2) tr)
    {d : Str} (hvis : (tr h.length).vis d = none) (hp : ∀ x, ¬ (tr h.length).pend d x)
    (hno : ∀ doc f, IdxOp.add doc f ∈ h2 → doc.docId ≠ d) :
    (tr (h ++ h2).length).vis d = none ∧ ∀ x, ¬ (tr (h ++ h2).length).pend d x := by
  induction h2 using List.reverseRecOn with
  | nil => simpa using ⟨hvis, hp⟩
  | append_singleton h2 op ih =>
    rw [← List.append_assoc] at ht ⊢
    obtain ⟨ht', hstep⟩ := ht.init
    obtain ⟨i1, i2⟩ := ih ht' (fun doc f hm => hno doc f (by simp [hm]))
    have hcommit : ∀ (f : Bool) (a b : AbsIndex), AbsCommit f a b → a.vis d = none →
        (∀ x, ¬ a.pend d x) → b.vis d = none ∧ ∀ x, ¬ b.pend d x := by
      intro f a b hc h1 h2
      rcases hc d with ⟨e1, e2, _⟩ | ⟨_, ⟨y, e1⟩, _⟩ | ⟨v, e1, _⟩
      · exact ⟨e1.trans h1, fun x hx => h2 x ((e2 x).1 hx)⟩
      · exact absurd e1 (h2 y)
      · exact absurd e1 (h2 v)
    rw [List.length_append (as := h ++ h2), List.length_singleton]
    cases op with
    | add doc f =>
      refine hcommit f _ _ hstep i1 ?_
      rintro x (hx | ⟨rfl, hx⟩)
      · exact i2 x hx
      · exact hno x f (by simp) hx.symm
    | flush f => exact hcommit f _ _ hstep i1 i2
    | remove id f =>
      obtain ⟨e1, e2⟩ := hstep
      refine ⟨?_, fun x hx => i2 x ((e2 d x).1 hx)⟩
      rw [e1]; split
      · rfl
      · exact i1

end Riot
