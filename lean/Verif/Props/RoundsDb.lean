import Verif.Props.Store

/-!
# What a database holds about a document that was removed, under disciplined use
-/

namespace Riot

variable {D : Type} {c : PipeCfg D}

theorem isSet_is {d : Str} (op : DbOp D) (h : DbOp.isSet d op = true) : ∃ id x, op = DbOp.set id x := by
  cases op with
  | set id x => exact ⟨id, x, rfl⟩
  | del id => simp [DbOp.isSet] at h

theorem noSets_of {d : Str} {m : Fin c.stores} {l : List (Fin c.clients × Call D)} (h : ∀ i x g, (i, Call.index d x g) ∉ l) :
    (l.flatMap (fun x => c.callDb m x.2)).countP (DbOp.isSet d) = 0 := by
  rw [List.countP_eq_zero]
  intro op hop hs
  obtain ⟨⟨i, a⟩, ha, hop⟩ := List.mem_flatMap.1 hop
  cases a with
  | index id x g =>
    simp only [PipeCfg.callDb] at hop
    split at hop
    · simp only [List.mem_singleton] at hop
      subst hop
      simp only [DbOp.isSet, decide_eq_true_eq] at hs
      subst hs
      exact h i x g ha
    · simp at hop
  | remove id g =>
    simp only [PipeCfg.callDb] at hop
    split at hop
    · simp only [List.mem_singleton] at hop; subst hop; simp [DbOp.isSet] at hs
    · simp at hop
  | flush => simp [PipeCfg.callDb] at hop

theorem someDel_of [DecidableEq (DbOp D)] (hu : c.useStore = true) {d : Str} (h0 : d ≠ str "0") {l : List (Fin c.clients × Call D)} {i : Fin c.clients} {f : Bool}
    (h : (i, Call.remove d f) ∈ l) :
    0 < (l.flatMap (fun x => c.callDb (c.storeRoute d) x.2)).countP (fun x => decide (x = DbOp.del d)) := by
  refine List.countP_pos_iff.2 ⟨DbOp.del d, List.mem_flatMap.2 ⟨_, h, ?_⟩, by simp⟩
  simp only [PipeCfg.callDb]
  rw [if_pos ⟨hu, h0, trivial⟩]
  simp

theorem about_none {d : Str} {l : List (Fin c.clients × Call D)} (h : (l.map (·.2)).filter (Call.about d) = []) (i : Fin c.clients) (x : D) (g : Bool) :
    (i, Call.index d x g) ∉ l := by
  intro hm
  rw [List.filter_eq_nil_iff] at h
  exact h _ (List.mem_map.2 ⟨_, hm, rfl⟩) (by simp [Call.about])

theorem one_last {α : Type} {l q : List α} {y : α} (hq : q ≠ []) (h1 : q.length ≤ 1) (h : (l ++ q).getLast? = some y) : q = [y] := by
  match q, hq, h1, h with
  | [z], _, _, h => simpa using h
  | _ :: _ :: _, _, h1, _ => simp at h1

/-- Under disciplined use, every write of `d` was executed; and if the last call about `d` was a removal, the writes were executed
before the removal's deletion. -/
theorem Rounds.db [DecidableEq (DbOp D)] (hu : c.useStore = true) {db : Fin c.stores → List (Str × D)} {d : Str} (h0 : d ≠ str "0")
    {st : Pipe c} {l : List (Call D)} (h : Rounds db d st l) :
    Reach db st ∧ l = (st.given db).filter (Call.about d) ∧
    (st.dbLog (c.storeRoute d)).countP (DbOp.isSet d) = (st.issuedDb (c.storeRoute d)).countP (DbOp.isSet d) ∧
    ∀ f, l.getLast? = some (.remove d f) → ∃ a b, st.dbLog (c.storeRoute d) = a ++ b ∧ b.countP (DbOp.isSet d) = 0 ∧
      a.countP (fun x => decide (x = DbOp.del d)) < (st.issuedDb (c.storeRoute d)).countP (fun x => decide (x = DbOp.del d)) := by
  have hflush : ∀ {i : Fin c.clients} {u v : Pipe c}, FlushCompletes i u v → ∀ m, v.issuedDb m = u.issuedDb m := by
    intro i u v hf m
    unfold Pipe.issuedDb
    rw [hf.calls]
    simp [PipeCfg.callDb]
  have hadd : ∀ {u v : Pipe c} {news : List (Fin c.clients × Call D)} {m}, v.calls = u.calls ++ news →
      v.issuedDb m = u.issuedDb m ++ news.flatMap (fun x => c.callDb m x.2) := by
    intro u v news m hc
    unfold Pipe.issuedDb
    rw [hc, List.flatMap_append]
  induction h with
  | first as i st1 st2 hr hf hl =>
    have r1 : Reach db st1 := ⟨as, hr⟩
    have hA := flush_stored hu r1 hf (c.storeRoute d) (DbOp.isSet d) isSet_is
    refine ⟨hf.reach r1, ?_, by rw [hA, hflush hf], fun f hlast => ⟨[], st2.dbLog _, rfl, ?_, ?_⟩⟩
    · unfold Pipe.given
      rw [hf.calls]
      simp [Call.about]
    · rw [hA]
      refine noSets_of (fun j x g hm => ?_)
      have : Call.index d x g ∈ ((c.recovered db).map (fun x => Call.index x.1 x.2 false) ++ st1.calls.map (·.2)).filter (Call.about d) :=
        List.mem_filter.2 ⟨List.mem_append_right _ (List.mem_map.2 ⟨_, hm, rfl⟩), by simp [Call.about]⟩
      rw [one_last (l := []) (by intro he; rw [he] at this; simp at this) hl hlast] at this
      simp at this
    · rw [hflush hf]
      have hm := List.mem_filter.1 (List.mem_of_getLast? hlast)
      rcases List.mem_append.1 hm.1 with h1 | h1
      · simp at h1
      · obtain ⟨⟨j, a⟩, h2, h3⟩ := List.mem_map.1 h1
        simp only at h3
        subst h3
        exact someDel_of hu h0 h2
  | next st l as i st1 st2 news hst hr hf hcalls hl ih =>
    obtain ⟨r0, hlist, iA, iB⟩ := ih
    have r1 : Reach db st1 := r0.run hr
    have hA := flush_stored hu r1 hf (c.storeRoute d) (DbOp.isSet d) isSet_is
    obtain ⟨N, hN⟩ : st.dbLog (c.storeRoute d) <+: st2.dbLog (c.storeRoute d) := by
      obtain ⟨_, u, bs, s1, _, hb, _⟩ := hf
      exact (run_dbLog as st st1 hr _).trans ((step_dbLog st1 u _ s1 _).trans (run_dbLog bs u st2 hb _))
    have hN2 := hA
    rw [← hN, List.countP_append, hadd hcalls, List.countP_append, iA] at hN2
    refine ⟨hf.reach r1, ?_, by rw [hA, hflush hf], fun f hlast => ?_⟩
    · unfold Pipe.given at hlist ⊢
      rw [hf.calls, hcalls, hlist]
      simp [Call.about, List.filter_append]
    · by_cases hn : (news.map (·.2)).filter (Call.about d) = []
      · rw [hn, List.append_nil] at hlast
        obtain ⟨a, b, e1, e2, e3⟩ := iB f hlast
        refine ⟨a, b ++ N, by rw [← hN, e1, List.append_assoc], ?_, ?_⟩
        · rw [List.countP_append]
          have := noSets_of (m := c.storeRoute d) (about_none hn)
          omega
        · rw [hflush hf, hadd hcalls, List.countP_append]
          omega
      · have hq := one_last hn hl hlast
        refine ⟨st.dbLog _, N, hN.symm, ?_, ?_⟩
        · have := noSets_of (m := c.storeRoute d) (d := d) (l := news) (fun j x g hm => by
            have : Call.index d x g ∈ (news.map (·.2)).filter (Call.about d) :=
              List.mem_filter.2 ⟨List.mem_map.2 ⟨_, hm, rfl⟩, by simp [Call.about]⟩
            rw [hq] at this
            simp at this)
          omega
        · rw [hflush hf, hadd hcalls, List.countP_append]
          obtain ⟨bs, hb⟩ := r0
          have := db_conserve (c.storeRoute d) (fun x => decide (x = DbOp.del d)) db bs st hb
          have hm : Call.remove d f ∈ (news.map (·.2)).filter (Call.about d) := by rw [hq]; simp
          obtain ⟨⟨j, a⟩, h2, h3⟩ := List.mem_map.1 (List.mem_filter.1 hm).1
          simp only at h3
          subst h3
          have := someDel_of hu h0 h2
          omega
  | later st l as st2 news hst hr hcalls hl ih =>
    obtain ⟨r0, hlist, iA, iB⟩ := ih
    obtain ⟨N, hN⟩ := run_dbLog as st st2 hr (c.storeRoute d)
    have hz := noSets_of (m := c.storeRoute d) (about_none hl)
    have hN2 : N.countP (DbOp.isSet d) = 0 := by
      obtain ⟨bs, hb⟩ := r0.run hr
      have := db_conserve (c.storeRoute d) (DbOp.isSet d) db bs st2 hb
      rw [← hN, List.countP_append, hadd hcalls, List.countP_append, iA] at this
      omega
    refine ⟨r0.run hr, ?_, ?_, fun f hlast => ?_⟩
    · unfold Pipe.given at hlist ⊢
      rw [hcalls, List.map_append, ← List.append_assoc, List.filter_append, hl, List.append_nil]
      exact hlist
    · rw [← hN, List.countP_append, hadd hcalls, List.countP_append, iA]
      omega
    · obtain ⟨a, b, e1, e2, e3⟩ := iB f hlast
      refine ⟨a, b ++ N, by rw [← hN, e1, List.append_assoc], ?_, ?_⟩
      · rw [List.countP_append]; omega
      · rw [hadd hcalls, List.countP_append]; omega

/-- ... so when all work is done, a document whose last call was a removal is in no database. -/
theorem Rounds.db_gone (hu : c.useStore = true) {db : Fin c.stores → List (Str × D)} (hdb : DbOk c db) {d : Str} (h0 : d ≠ str "0")
    {st : Pipe c} {l : List (Call D)} (h : Rounds db d st l) (hdone : ∀ m (p : DbOp D → Bool), (st.dbLog m).countP p = (st.issuedDb m).countP p)
    {l1 l2 : List (Call D)} {f : Bool} (hl : st.given db = l1 ++ Call.remove d f :: l2) (hno : ∀ x g, Call.index d x g ∉ l2) (m : Fin c.stores) :
    st.dbContent db m d = none := by
  classical
  obtain ⟨hr, e1, _, hB⟩ := h.db hu h0
  by_cases hm : m = c.storeRoute d
  swap
  · exact dbContent_elsewhere hdb hr hm
  subst hm
  obtain ⟨f', hlast⟩ : ∃ f', l.getLast? = some (Call.remove d f') := by
    rw [e1, hl, List.filter_append, List.filter_cons_of_pos (by simp [Call.about]), List.getLast?_append]
    cases hq : l2.filter (Call.about d) with
    | nil => exact ⟨f, by simp⟩
    | cons y q =>
      have hne : l2.filter (Call.about d) ≠ [] := by rw [hq]; simp
      have hz := List.getLast_mem hne
      obtain ⟨z1, z2⟩ := List.mem_filter.1 hz
      rw [List.getLast?_cons, ← hq]
      rw [List.getLast?_eq_getLast_of_ne_nil hne]
      cases hz' : (l2.filter (Call.about d)).getLast hne with
      | flush => rw [hz'] at z2; simp [Call.about] at z2
      | index id x g =>
        rw [hz'] at z1 z2
        simp only [Call.about, decide_eq_true_eq] at z2
        subst z2
        exact absurd z1 (hno x g)
      | remove id g =>
        rw [hz'] at z2
        simp only [Call.about, decide_eq_true_eq] at z2
        subst z2
        exact ⟨g, by simp⟩
  obtain ⟨a, b, k1, k2, k3⟩ := hB f' hlast
  rw [← hdone, k1, List.countP_append] at k3
  obtain ⟨x, hx, he⟩ := List.countP_pos_iff.1 (show 0 < b.countP (fun x => decide (x = DbOp.del d)) by omega)
  simp only [decide_eq_true_eq] at he
  subst he
  unfold Pipe.dbContent
  rw [k1, dbApply_append]
  exact dbApply_deleted _ _ _ hx (by rw [← List.length_eq_zero_iff, ← List.countP_eq_length_filter]; exact k2)

end Riot
