import Verif.Proofs.PipelineCalls2
import Verif.Proofs.Trace

/-!
# Flushes and the content of the shards
-/

namespace Riot

open Function (update)

variable {D : Type} {c : PipeCfg D}

theorem perm_of_countP {α : Type} {l l' : List α} (h : ∀ p : α → Bool, l.countP p = l'.countP p) :
    l.Perm l' := by
  classical
  rw [List.perm_iff_count]
  intro a
  exact h _

theorem FlushCompletes.reach {db : Fin c.stores → List (Str × D)} {i : Fin c.clients} {st st' : Pipe c}
    (h : FlushCompletes i st st') (hr : Reach db st) : Reach db st' := by
  obtain ⟨_, st1, as, h1, _, h2, _⟩ := h
  exact (hr.step h1).run h2

theorem FlushCompletes.calls {i : Fin c.clients} {st st' : Pipe c}
    (h : FlushCompletes i st st') : st'.calls = st.calls ++ [(i, .flush)] := by
  obtain ⟨_, st1, as, h1, hno, h2, _⟩ := h
  rw [run_calls st1 st' as h2, noCall_called hno, step_calls st st1 _ h1]
  simp [Act.called]

theorem issued_flush {db : Fin c.stores → List (Str × D)} {i : Fin c.clients} {st st' : Pipe c}
    (h : FlushCompletes i st st') (s : Fin c.shards) :
    st'.issued db s = st.issued db s ++ [.flush true] := by
  simp [Pipe.issued, h.calls, PipeCfg.callOps]

theorem FlushCompletes.onlyFlush {i : Fin c.clients} {st st1 : Pipe c} (hi : st.ClientsIdle)
    (h1 : st.step (.call i .flush) = some st1) : OnlyFlush i st1 := by
  obtain ⟨e1, e2, e3⟩ := call_inited h1
  refine ⟨by rw [e3]; exact e1, ?_, ?_, ?_, ?_⟩
  · intro j hj
    rw [e3]
    simp [hj, hi j]
  · rw [e3]; simp
  · intro k _; rw [e3]; simp
  · intro _; rw [e3]; simp

/-- **What Flush guarantees** for a shard. -/
theorem flush_index {db : Fin c.stores → List (Str × D)} {i : Fin c.clients} {st st' : Pipe c}
    (hr : Reach db st) (h : FlushCompletes i st st') (s : Fin c.shards) :
    ∃ L M, st'.idxLog s = L ++ M ∧
      (L.filter IdxOp.isWork).Perm ((st.issued db s).filter IdxOp.isWork) ∧
      M.filter IdxOp.isWork = [] ∧ IdxOp.flush true ∈ M ∧ st.idxLog s <+: L := by
  have hr' := h.reach hr
  have hiss := issued_flush (db := db) h s
  obtain ⟨hidle, st1, as, h1, hno, h2, hdone⟩ := h
  obtain ⟨a1, a2, a3, a4, a5, s1, s2, s3, s4, s5, hn, r1, r2, r3, r4, r5, _, w1, w2, _, w4, p3, p4⟩ :=
    flush_stages h1 hno h2 hdone
  have n1 : ∀ a ∈ a1, a.isCall = false := fun a ha => hn a (by simp [ha])
  have n2 : ∀ a ∈ a2, a.isCall = false := fun a ha => hn a (by simp [ha])
  have n3 : ∀ a ∈ a3, a.isCall = false := fun a ha => hn a (by simp [ha])
  have n4 : ∀ a ∈ a4, a.isCall = false := fun a ha => hn a (by simp [ha])
  have n5 : ∀ a ∈ a5, a.isCall = false := fun a ha => hn a (by simp [ha])
  have f1 := FlushCompletes.onlyFlush hidle h1
  have c1 : Reach db s1 := (hr.step h1).run r1
  have c2 : Reach db s2 := c1.run r2
  have c3 : Reach db s3 := c2.run r3
  have c4 : Reach db s4 := c3.run r4
  have g1 := onlyFlush_run a1 st1 s1 (hr.step h1) n1 r1 f1
  have g2 := onlyFlush_run a2 s1 s2 c1 n2 r2 g1
  have g3 := onlyFlush_run a3 s2 s3 c2 n3 r3 g2
  have g4 := onlyFlush_run a4 s3 s4 c3 n4 r4 g3
  -- all index calls of a kind executed at a state stay all
  have hkeep : ∀ (p : IdxOp → Bool) (u v : Pipe c) (bs : List (Act c.toPipeSize D)),
      (∀ a ∈ bs, a.isCall = false) → u.run bs = some v → (μIdx c s p).pending u = 0 →
      (μIdx c s p).pending v = 0 := by
    intro p u v bs hb hrun hz
    obtain ⟨t, ht⟩ := run_idxLog bs u v hrun s
    refine (pending_zero_run (μIdx c s p) u v bs hb hrun ?_ hz).1
    show (u.idxLog s).countP p ≤ (v.idxLog s).countP p
    rw [← ht, List.countP_append]; omega
  have hadd : ∀ p : IdxOp → Bool, (∀ op, p op = true → ∃ d f, op = .add d f) →
      (μIdx c s p).pending s3 = 0 := by
    intro p hp
    obtain ⟨bs, hb⟩ := c1
    have := (dom_add s p hp).pending_zero db bs s1 hb (wait_indexed ⟨bs, hb⟩ g1 w1)
    exact hkeep p s2 s3 a3 n3 r3 (hkeep p s1 s2 a2 n2 r2 this)
  have hrem : ∀ p : IdxOp → Bool, (∀ op, p op = true → ∃ id f, op = .remove id f ∧ id ≠ str "0") →
      (μIdx c s p).pending s3 = 0 := by
    intro p hp
    obtain ⟨bs, hb⟩ := c2
    have := (dom_rem s p hp).pending_zero db bs s2 hb (wait_removed ⟨bs, hb⟩ g2 w2)
    exact hkeep p s2 s3 a3 n3 r3 this
  have hwork : ∀ (p : IdxOp → Bool), (μIdx c s (fun op => p op && op.isWork)).pending s3 = 0 := by
    intro p
    have e1 := hadd (fun op => p op && (match op with | .add _ _ => true | _ => false)) (by
      intro op hop; cases op <;> simp at hop ⊢)
    have e2 := hrem (fun op => p op && (match op with | .remove id _ => id ≠ str "0" | _ => false)) (by
      intro op hop; cases op <;> simp at hop ⊢; exact hop.2)
    obtain ⟨bs, hb⟩ := c3
    have k1 := idx_conserve s (fun op => p op && (match op with | .add _ _ => true | _ => false)) db bs s3 hb
    have k2 := idx_conserve s (fun op => p op && (match op with | .remove id _ => id ≠ str "0" | _ => false)) db bs s3 hb
    have k3 := idx_conserve s (fun op => p op && op.isWork) db bs s3 hb
    have hsplit : ∀ l : List IdxOp, l.countP (fun op => p op && op.isWork) =
        l.countP (fun op => p op && (match op with | .add _ _ => true | _ => false)) +
        l.countP (fun op => p op && (match op with | .remove id _ => id ≠ str "0" | _ => false)) := by
      intro l
      induction l with
      | nil => rfl
      | cons op l ih =>
        rw [List.countP_cons, List.countP_cons, List.countP_cons, ih]
        cases op <;> cases p _ <;> simp [IdxOp.isWork] <;> omega
    rw [hsplit, hsplit (s3.issued db s)] at k3
    omega
  -- the calls known at s3 and at the end are those at st plus the flush
  have hcalls : ∀ u bs, st1.run bs = some u → (∀ a ∈ bs, a.isCall = false) →
      u.issued db s = st.issued db s ++ [.flush true] := by
    intro u bs hb hnb
    simp [Pipe.issued, run_calls st1 u bs hb, noCall_called hnb, step_calls st st1 _ h1, Act.called,
      PipeCfg.callOps]
  have hs3run : st1.run (a1 ++ a2 ++ a3) = some s3 := by
    rw [run_append, run_append, r1, Option.bind_some, r2, Option.bind_some, r3]
  have hs4run : st1.run (a1 ++ a2 ++ a3 ++ a4) = some s4 := by
    rw [run_append, hs3run, Option.bind_some, r4]
  have hi3 := hcalls s3 _ hs3run (fun a ha => hn a (by simp only [List.mem_append] at ha ⊢; tauto))
  have hi4 := hcalls s4 _ hs4run (fun a ha => hn a (by simp only [List.mem_append] at ha ⊢; tauto))
  have hlast : s3.idxLog s <+: s4.idxLog s := run_idxLog a4 s3 s4 r4 s
  have hlast2 : s4.idxLog s <+: st'.idxLog s := run_idxLog a5 s4 st' r5 s
  obtain ⟨M, hM⟩ := hlast.trans hlast2
  refine ⟨s3.idxLog s, M, hM.symm, ?_, ?_, ?_, ?_⟩
  · apply perm_of_countP
    intro p
    rw [List.countP_filter, List.countP_filter]
    obtain ⟨bs, hb⟩ := c3
    have := idx_conserve s (fun op => p op && op.isWork) db bs s3 hb
    rw [hwork p, hi3, List.countP_append] at this
    simpa [IdxOp.isWork, List.countP_cons] using this
  · have hw0 : M.countP IdxOp.isWork = 0 := by
      have e1 := hwork (fun _ => true)
      simp only [Bool.true_and] at e1
      obtain ⟨bs, hb⟩ := c3
      have k1 := idx_conserve s IdxOp.isWork db bs s3 hb
      obtain ⟨bs', hb'⟩ := hr'
      have k2 := idx_conserve s IdxOp.isWork db bs' st' hb'
      rw [e1, hi3] at k1
      rw [hiss, ← hM, List.countP_append] at k2
      omega
    rw [List.countP_eq_zero] at hw0
    rw [List.filter_eq_nil_iff]
    exact hw0
  · -- the refresh is executed after s3
    let p : IdxOp → Bool := fun op => match op with | .flush true => true | _ => false
    have hp : ∀ op, p op = true → op = .flush true := by
      intro op hop
      cases op with
      | flush f => cases f <;> simp [p] at hop ⊢
      | _ => simp [p] at hop
    have hz : (μIdx c s p).pending s4 = 0 := by
      obtain ⟨bs, hb⟩ := c4
      exact (dom_forced s p (fun op hop => by rw [hp op hop]; rfl)).pending_zero db bs s4 hb
        (wait_forced ⟨bs, hb⟩ g4 p4 w4)
    have hge : 1 ≤ (μIdx c s p).pending s3 := by
      have := pending_ge (μIdx c s p) s3 (.client i)
      rw [p3, wsum_cons, wsum_append, μIdx_internal] at this
      have hone : (c.callOps s (.index (str "0") c.emptyData true)).countP p = 1 := by
        simp only [PipeCfg.callOps, if_true]; rfl
      omega
    obtain ⟨bs, hb⟩ := c3
    obtain ⟨bs4, hb4⟩ := c4
    have k1 := idx_conserve s p db bs s3 hb
    have k2 := idx_conserve s p db bs4 s4 hb4
    rw [hi3] at k1
    rw [hi4, hz] at k2
    obtain ⟨M1, hM1⟩ := hlast
    obtain ⟨M2, hM2⟩ := hlast2
    have hMM : M = M1 ++ M2 := by
      have : s3.idxLog s ++ M = s3.idxLog s ++ (M1 ++ M2) := by
        rw [hM, ← hM2, ← hM1, List.append_assoc]
      exact List.append_cancel_left this
    have hpos : 0 < M1.countP p := by
      rw [← hM1, List.countP_append] at k2
      omega
    obtain ⟨op, hop, hpo⟩ := List.countP_pos_iff.1 hpos
    rw [hp op hpo] at hop
    rw [hMM]
    simp [hop]
  · have e0 : st.idxLog s <+: st1.idxLog s := step_idxLog st st1 _ h1 s
    exact e0.trans (run_idxLog _ st1 s3 hs3run s)

end Riot
