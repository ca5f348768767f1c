import Verif.Proofs.PipelineIndex

/-!
# Documents used with discipline
-/

namespace Riot

variable {D : Type} {c : PipeCfg D}

/-- Every add of `d` is followed by a forced refresh. -/
def Settled (d : Str) (h : List IdxOp) : Prop :=
  ∀ h1 doc g h3, h = h1 ++ IdxOp.add doc g :: h3 → doc.docId = d →
    g = true ∨ ∃ x ∈ h3, x.refreshes = true

theorem Settled.no_pend {d : Str} {h : List IdxOp} (hs : Settled d h) {tr : Nat → AbsIndex}
    (ht : Trace h tr) (x : DocIndex) : ¬ (tr h.length).pend d x := by
  intro hx
  obtain ⟨hxd, h1, h3, he, hnr⟩ := ht.pend_since hx
  rcases hs h1 x false h3 he hxd with hh | ⟨c, hc, hc2⟩
  · simp at hh
  · rw [hnr c hc] at hc2; simp at hc2

/-- Appending calls that contain a refresh but no add of `d`. -/
theorem settled_append {d : Str} {L M : List IdxOp} (hM : IdxOp.flush true ∈ M)
    (hno : ∀ doc g, IdxOp.add doc g ∈ M → doc.docId ≠ d) : Settled d (L ++ M) := by
  intro h1 doc g h3 he hid
  rcases List.append_eq_append_iff.1 he with ⟨a, ha, hb⟩ | ⟨a, ha, hb⟩
  · exact absurd hid (hno doc g (by rw [hb]; simp))
  · cases a with
    | nil => simp only [List.nil_append] at hb; exact absurd hid (hno doc g (by rw [← hb]; simp))
    | cons x a =>
      simp only [List.cons_append, List.cons.injEq] at hb
      right; exact ⟨.flush true, by rw [hb.2]; simp [hM], rfl⟩

theorem docDisciplined_append {d : Str} {A B : List IdxOp} (hA : DocDisciplined d A) (hs : Settled d A)
    (hB : DocDisciplined d B) : DocDisciplined d (A ++ B) := by
  refine ⟨hA.1, ?_⟩
  intro h1 doc f h2 b h3 he hid hb
  rw [List.append_assoc, List.cons_append] at he
  rcases List.append_eq_append_iff.1 he with ⟨a, ha, hb'⟩ | ⟨a, ha, hb'⟩
  · exact hB.2 a doc f h2 b h3 (by rw [hb']; simp) hid hb
  · cases a with
    | nil =>
      simp only [List.nil_append] at hb'
      exact hB.2 [] doc f h2 b h3 (by rw [← hb']; simp) hid hb
    | cons x a =>
      simp only [List.cons_append, List.cons.injEq] at hb'
      obtain ⟨rfl, hb'⟩ := hb'
      rcases hs h1 doc f a ha hid with h | ⟨y, hy, hyr⟩
      · exact Or.inl h
      · rcases List.append_eq_append_iff.1 hb' with ⟨a', ha', hc'⟩ | ⟨a', ha', _⟩
        · cases a' with
          | nil =>
            simp only [List.append_nil] at ha'
            right; exact ⟨y, by rw [← ha']; exact hy, hyr⟩
          | cons z a' =>
            simp only [List.cons_append, List.cons.injEq] at hc'
            obtain ⟨rfl, hc'⟩ := hc'
            refine hA.2 h1 doc f h2 b a' ?_ hid hb
            rw [ha, ha']; simp
        · right; exact ⟨y, by rw [ha']; simp [hy], hyr⟩

theorem docOps_append (d : Str) (l l' : List IdxOp) : docOps d (l ++ l') = docOps d l ++ docOps d l' :=
  List.filter_append ..

/-- A list with at most one call about `d` is disciplined. -/
theorem docDisciplined_of_le_one {d : Str} (h0 : d ≠ str "0") {h : List IdxOp}
    (hl : (docOps d h).length ≤ 1) : DocDisciplined d h := by
  refine ⟨h0, ?_⟩
  intro h1 doc f h2 b h3 he hid hb
  exfalso
  have e1 : docOps d [IdxOp.add doc f] = [IdxOp.add doc f] := by simp [docOps, IdxOp.id?, hid]
  have e2 : docOps d [b] = [b] := by simp [docOps, hb]
  have : h = h1 ++ ([IdxOp.add doc f] ++ (h2 ++ ([b] ++ h3))) := by rw [he]; simp
  rw [this] at hl
  simp only [docOps_append, e1, e2, List.length_append, List.length_singleton] at hl
  omega

theorem foldl_ideal_docOps (d : Str) (h : List IdxOp) (m m' : Str → Option DocIndex) (hm : m d = m' d) :
    h.foldl idealStep m d = (docOps d h).foldl idealStep m' d := by
  induction h generalizing m m' with
  | nil => exact hm
  | cons op h ih =>
    simp only [List.foldl_cons]
    by_cases hop : op.id? = some d
    · have : docOps d (op :: h) = op :: docOps d h := by simp [docOps, hop]
      rw [this, List.foldl_cons]
      apply ih
      cases op with
      | add doc f => simp only [IdxOp.id?, Option.some.injEq] at hop; simp [idealStep, hop]
      | remove id f => simp only [IdxOp.id?, Option.some.injEq] at hop; simp [idealStep, hop]
      | flush f => simp [IdxOp.id?] at hop
    · have : docOps d (op :: h) = docOps d h := by simp [docOps, hop]
      rw [this]
      apply ih
      rw [← hm]
      cases op with
      | add doc f =>
        simp only [IdxOp.id?, Option.some.injEq] at hop
        simp [idealStep, Ne.symm hop]
      | remove id f =>
        simp only [IdxOp.id?, Option.some.injEq] at hop
        simp [idealStep, Ne.symm hop]
      | flush f => rfl

theorem ideal_docOps (d : Str) (h : List IdxOp) : ideal h d = ideal (docOps d h) d :=
  foldl_ideal_docOps d h _ _ rfl

/-- The documents the segmenter makes carry the id of the call. -/
def PipeCfg.DocOk (c : PipeCfg D) : Prop := ∀ id x, (c.docOf id x).docId = id

/-- Calls about other documents lead to no index calls about `d`. -/
theorem docOps_callOps_other (hdoc : c.DocOk) (s : Fin c.shards) (d : Str) (a : Call D)
    (ha : a.about d = false) : docOps d (c.callOps s a) = [] := by
  cases a with
  | index id x f =>
    simp only [Call.about, decide_eq_false_iff_not] at ha
    simp only [PipeCfg.callOps]
    have h2 : docOps d [IdxOp.add (c.docOf id x) f] = [] := by
      simp [docOps, IdxOp.id?, hdoc id x, ha]
    split
    · split <;> rfl
    · split
      · exact h2
      · split <;> rfl
  | remove id f =>
    simp only [Call.about, decide_eq_false_iff_not] at ha
    simp [docOps, PipeCfg.callOps, IdxOp.id?, ha]
  | flush => rfl

/-- Index calls about `d` come from calls about `d`. -/
theorem docOps_calls (hdoc : c.DocOk) (s : Fin c.shards) (d : Str) (l : List (Call D)) :
    docOps d (l.flatMap (c.callOps s)) = docOps d ((l.filter (Call.about d)).flatMap (c.callOps s)) := by
  induction l with
  | nil => rfl
  | cons a l ih =>
    rw [List.flatMap_cons, docOps_append, ih]
    cases ha : a.about d with
    | true => rw [List.filter_cons_of_pos (by simp [ha]), List.flatMap_cons, docOps_append]
    | false =>
      rw [List.filter_cons_of_neg (by simp [ha]), docOps_callOps_other hdoc s d a ha]; rfl

theorem callOps_length_le (s : Fin c.shards) (a : Call D) : (c.callOps s a).length ≤ 1 := by
  cases a with
  | index id x f => simp only [PipeCfg.callOps]; split <;> (try split) <;> (try split) <;> simp
  | _ => simp [PipeCfg.callOps]

theorem docOps_le_one (hdoc : c.DocOk) (s : Fin c.shards) (d : Str) (l : List (Call D))
    (hl : (l.filter (Call.about d)).length ≤ 1) : (docOps d (l.flatMap (c.callOps s))).length ≤ 1 := by
  rw [docOps_calls hdoc]
  generalize l.filter (Call.about d) = m at hl
  match m, hl with
  | [], _ => simp [docOps]
  | [a], _ =>
    simp only [List.flatMap_cons, List.flatMap_nil, List.append_nil]
    exact (List.length_filter_le _ _).trans (callOps_length_le s a)

theorem perm_eq_of_le_one {α : Type} {l l' : List α} (h : l.Perm l') (hl : l'.length ≤ 1) : l = l' := by
  match l', hl with
  | [], _ => exact List.perm_nil.1 h
  | [a], _ => exact List.perm_singleton.1 h

theorem docOps_work {d : Str} (h0 : d ≠ str "0") (l : List IdxOp) :
    docOps d (l.filter IdxOp.isWork) = docOps d l := by
  unfold docOps
  rw [List.filter_filter]
  apply List.filter_congr
  intro op _
  cases op with
  | add doc f => simp [IdxOp.isWork]
  | remove id f =>
    by_cases hid : id = d
    · subst hid; simp [IdxOp.isWork, h0]
    · simp [IdxOp.id?, hid]
  | flush f => simp [IdxOp.id?]

/-- After a Flush: the executed calls about `d` are the issued ones, and `d` is settled. -/
theorem flush_docOps {db : Fin c.stores → List (Str × D)} {i : Fin c.clients} {st st' : Pipe c}
    (hr : Reach db st) (h : FlushCompletes i st st') (s : Fin c.shards) {d : Str} (h0 : d ≠ str "0") :
    (docOps d (st'.idxLog s)).Perm (docOps d (st.issued db s)) ∧ Settled d (st'.idxLog s) := by
  obtain ⟨L, M, e, hL, hM, hf, _⟩ := flush_index hr h s
  have hM0 : docOps d M = [] := by rw [← docOps_work h0, hM]; rfl
  constructor
  · rw [e, docOps_append, hM0, List.append_nil, ← docOps_work h0 L, ← docOps_work h0 (st.issued db s)]
    exact hL.filter _
  · rw [e]
    apply settled_append hf
    intro doc g hm hid
    have : IdxOp.add doc g ∈ docOps d M := by simp [docOps, hm, IdxOp.id?, hid]
    rw [hM0] at this; simp at this

theorem issued_eq (db : Fin c.stores → List (Str × D)) (st : Pipe c) (s : Fin c.shards) :
    st.issued db s = ((c.recovered db).map (fun x => Call.index x.1 x.2 false) ++
      st.calls.map (·.2)).flatMap (c.callOps s) := by
  unfold Pipe.issued PipeCfg.recoverOps PipeCfg.recovered
  rw [List.flatMap_append, List.flatMap_map, List.flatMap_map]
  congr 1
  split
  · simp [List.flatMap_assoc]
  · rfl

/-- **Disciplined use**: on every shard, the index calls about `d` were executed in the order
of the API calls, each settled before the next. -/
theorem Rounds.inv (hdoc : c.DocOk) {db : Fin c.stores → List (Str × D)} {d : Str} (h0 : d ≠ str "0")
    {st : Pipe c} {l : List (Call D)} (h : Rounds db d st l) :
    Reach db st ∧ ∀ s, docOps d (st.idxLog s) = docOps d (l.flatMap (c.callOps s)) ∧
      (docOps d (st.issued db s)).Perm (docOps d (st.idxLog s)) ∧
      DocDisciplined d (st.idxLog s) ∧ Settled d (st.idxLog s) := by
  induction h with
  | first as i st1 st2 hr hf hl =>
    have hr1 : Reach db st1 := ⟨as, hr⟩
    refine ⟨hf.reach hr1, fun s => ?_⟩
    obtain ⟨hp, hs⟩ := flush_docOps hr1 hf s h0
    have hle := docOps_le_one hdoc s d _ hl
    rw [← issued_eq] at hle
    have he := perm_eq_of_le_one hp hle
    have hiss := issued_flush (db := db) hf s
    refine ⟨?_, ?_, docDisciplined_of_le_one h0 (by rw [he]; exact hle), hs⟩
    · rw [he, issued_eq, docOps_calls hdoc]
    · rw [hiss, docOps_append, he]
      simp [docOps, IdxOp.id?]
  | next st l as i st1 st2 news hst hr hf hcalls hl ih =>
    obtain ⟨hreach, ih⟩ := ih
    have hr1 : Reach db st1 := hreach.run hr
    refine ⟨hf.reach hr1, fun s => ?_⟩
    obtain ⟨i1, i2, i3, i4⟩ := ih s
    obtain ⟨hp, hs⟩ := flush_docOps hr1 hf s h0
    have hiss1 : st1.issued db s = st.issued db s ++ (news.map (·.2)).flatMap (c.callOps s) := by
      rw [issued_eq, issued_eq, hcalls]
      simp [List.flatMap_append, List.append_assoc]
    have hle := docOps_le_one hdoc s d (news.map (·.2)) hl
    -- the log grows by the new calls
    obtain ⟨N, hN⟩ : st.idxLog s <+: st2.idxLog s := by
      have e1 := run_idxLog as st st1 hr s
      obtain ⟨_, _, e2, _, _, _, e3⟩ := flush_index hr1 hf s
      exact e1.trans (e3.trans ⟨_, e2.symm⟩)
    have hNp : (docOps d N).Perm (docOps d ((news.map (·.2)).flatMap (c.callOps s))) := by
      rw [← hN, docOps_append, hiss1, docOps_append] at hp
      have := hp.trans (i2.append_right _)
      exact (List.perm_append_left_iff _).1 this
    have hNe := perm_eq_of_le_one hNp hle
    have hdN : DocDisciplined d N := docDisciplined_of_le_one h0 (by rw [hNe]; exact hle)
    have hiss := issued_flush (db := db) hf s
    refine ⟨?_, ?_, ?_, hs⟩
    · rw [← hN, docOps_append, i1, hNe, List.flatMap_append, docOps_append, docOps_calls hdoc s d (news.map (·.2))]
    · rw [hiss, docOps_append]
      simp only [docOps, IdxOp.id?, reduceCtorEq, decide_false, Bool.false_eq_true, not_false_eq_true,
        List.filter_cons_of_neg, List.filter_nil, List.append_nil]
      exact hp.symm
    · rw [← hN]; exact docDisciplined_append i3 i4 hdN
  | later st l as st2 news hst hr hcalls hl ih =>
    obtain ⟨hreach, ih⟩ := ih
    refine ⟨hreach.run hr, fun s => ?_⟩
    obtain ⟨i1, i2, i3, i4⟩ := ih s
    obtain ⟨N, hN⟩ := run_idxLog as st st2 hr s
    have hiss : docOps d (st2.issued db s) = docOps d (st.issued db s) := by
      rw [issued_eq, issued_eq, hcalls, List.map_append, ← List.append_assoc, List.flatMap_append,
        docOps_append, docOps_calls hdoc s d (news.map (·.2)), hl]
      simp [docOps]
    -- nothing new about d can have been executed
    have hN0 : docOps d N = [] := by
      obtain ⟨bs, hb⟩ := hreach.run hr
      have k := idx_conserve s (fun op => decide (op.id? = some d)) db bs st2 hb
      have e1 : (st2.idxLog s).countP (fun op => decide (op.id? = some d)) =
          (docOps d (st2.idxLog s)).length := List.countP_eq_length_filter ..
      have e2 : (st2.issued db s).countP (fun op => decide (op.id? = some d)) =
          (docOps d (st2.issued db s)).length := List.countP_eq_length_filter ..
      rw [e1, e2, hiss, i2.length_eq, ← hN, docOps_append, List.length_append] at k
      exact List.length_eq_zero_iff.1 (by omega)
    refine ⟨?_, ?_, ?_, ?_⟩
    · rw [← hN, docOps_append, hN0, List.append_nil, i1]
    · rw [hiss, ← hN, docOps_append, hN0, List.append_nil]; exact i2
    · rw [← hN]
      exact docDisciplined_append i3 i4 (docDisciplined_of_le_one h0 (by simp [hN0]))
    · rw [← hN]
      intro h1 doc g h3 he hid
      rcases List.append_eq_append_iff.1 he with ⟨a, ha, hb⟩ | ⟨a, ha, hb⟩
      · have : IdxOp.add doc g ∈ docOps d N := by rw [hb]; simp [docOps, IdxOp.id?, hid]
        rw [hN0] at this; simp at this
      · cases a with
        | nil =>
          simp only [List.nil_append] at hb
          have : IdxOp.add doc g ∈ docOps d N := by rw [← hb]; simp [docOps, IdxOp.id?, hid]
          rw [hN0] at this; simp at this
        | cons x a =>
          simp only [List.cons_append, List.cons.injEq] at hb
          obtain ⟨rfl, hb⟩ := hb
          rcases i4 h1 doc g a ha hid with h | ⟨y, hy, hyr⟩
          · exact Or.inl h
          · right; exact ⟨y, by rw [hb]; simp [hy], hyr⟩

end Riot
