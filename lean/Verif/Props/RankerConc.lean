import Verif.Spec.RankerConc
import Verif.Props.Ranker

/-!
# C64: ranking while documents are added and removed
-/

namespace Riot

open Function (update)

variable {F A : Type}

theorem perm_map_lift {α β : Type} (f : α → β) : ∀ (l : List β) (E : List α), l.Perm (E.map f) →
    ∃ full : List α, full.Perm E ∧ full.map f = l := by
  intro l
  induction l with
  | nil =>
    intro E h
    have : E = [] := by simpa using h.symm.eq_nil
    exact ⟨[], by rw [this], rfl⟩
  | cons b l ih =>
    intro E h
    obtain ⟨e, he, hb⟩ := List.mem_map.1 (h.mem_iff.1 (List.mem_cons_self))
    obtain ⟨s, t, rfl⟩ := List.append_of_mem he
    have h1 : l.Perm ((s ++ t).map f) := by
      have h2 : (b :: l).Perm (f e :: (s ++ t).map f) := h.trans (by simp [List.perm_middle])
      rw [hb] at h2
      exact h2.cons_inv
    obtain ⟨full, g1, g2⟩ := ih _ h1
    exact ⟨e :: full, (g1.cons e).trans List.perm_middle.symm, by simp [g2, hb]⟩

theorem rankOps_append (as bs : List (RAct F A)) : rankOps (as ++ bs) = rankOps as ++ rankOps bs := by
  simp [rankOps]

theorem cranker_run_append (gs : GSort) (as bs : List (RAct F A)) : ∀ st : CRanker F A,
    st.run gs (as ++ bs) = (st.run gs as).bind (fun st' => st'.run gs bs) := by
  induction as with
  | nil => intro st; rfl
  | cons a l ih =>
    intro st
    simp only [List.cons_append, CRanker.run]
    cases st.step gs a with
    | none => rfl
    | some st' => simp [ih]

/-- The ranker follows the calls executed so far. -/
theorem cranker_r (gs : GSort) (as : List (RAct F A)) : ∀ {st st' : CRanker F A}, st.run gs as = some st' →
    st'.r = (rankOps as).foldl Ranker.step st.r := by
  induction as with
  | nil => intro st st' h; simp only [CRanker.run, Option.some.injEq] at h; subst h; rfl
  | cons a l ih =>
    intro st st' h
    simp only [CRanker.run] at h
    obtain ⟨st1, h1, h2⟩ := Option.bind_eq_some_iff.1 h
    rw [ih h2]
    cases a with
    | op x => simp only [CRanker.step, Option.some.injEq] at h1; subst h1; simp [rankOps]
    | start i docs o co =>
      simp only [CRanker.step] at h1
      split at h1
      · simp only [Option.some.injEq] at h1; subst h1; simp [rankOps]
      · simp at h1
    | read i =>
      simp only [CRanker.step] at h1
      split at h1
      · split at h1
        · simp only [Option.some.injEq] at h1; subst h1; simp [rankOps]
        · simp at h1
      · simp at h1
    | finish i =>
      simp only [CRanker.step] at h1
      split at h1
      · split at h1
        · simp only [Option.some.injEq] at h1; subst h1; simp [rankOps]
        · simp at h1
      · simp at h1

theorem cranker_run_rel (gs : GSort) (idOnly : Bool) {as : List (RAct F A)} {st : CRanker F A}
    (h : (CRanker.init idOnly).run gs as = some st) :
    RankRel st.r (rankIdeal (rankOps as)) ∧ st.r.idOnly = idOnly := by
  rw [cranker_r gs as h]
  exact rank_run_rel idOnly (rankOps as)

/-- Where a call of `Rank` is, in terms of the moments of its reads; `h` is the history of
AddDoc/RemoveDoc calls so far. -/
structure CallAt (idOnly : Bool) (h : List (RankerOp F A)) (n0 : Nat) (docs : List IndexedDoc) (o : RankOpts F)
    (co : Bool) (k : RankCall F A) : Prop where
  opts : k.opts = o
  cnt : k.countOnly = co
  done : ∃ (d0 : List IndexedDoc) (ts : List Nat), docs = d0 ++ k.todo ∧ Moments d0 n0 h.length ts ∧
    k.num = (entriesAt h o.score d0 ts).length ∧
    (idOnly = true → k.ids = if co then [] else (entriesAt h o.score d0 ts).map (·.scoredID)) ∧
    (idOnly = false → k.docs = if co then [] else entriesAt h o.score d0 ts)

theorem entriesAt_extend (h : List (RankerOp F A)) (x : List (RankerOp F A))
    (score : IndexedDoc → Option F → List F32) (docs : List IndexedDoc) (ts : List Nat)
    (hb : ∀ t ∈ ts, t ≤ h.length) : entriesAt (h ++ x) score docs ts = entriesAt h score docs ts := by
  unfold entriesAt
  apply List.filterMap_congr
  intro p hp
  have : p.2 ≤ h.length := hb _ (List.of_mem_zip (a := p.1) (b := p.2) hp).2
  rw [List.take_append_of_le_length this]

theorem CallAt.more {idOnly : Bool} {h : List (RankerOp F A)} {n0 : Nat} {docs : List IndexedDoc} {o : RankOpts F}
    {co : Bool} {k : RankCall F A} (hc : CallAt idOnly h n0 docs o co k) (x : List (RankerOp F A)) :
    CallAt idOnly (h ++ x) n0 docs o co k := by
  obtain ⟨h1, h2, d0, ts, h3, h4, h5, h6, h7⟩ := hc
  have e := entriesAt_extend h x o.score d0 ts (fun t ht => (h4.bounds t ht).2)
  refine ⟨h1, h2, d0, ts, h3, ⟨h4.length, h4.order, fun t ht => ⟨(h4.bounds t ht).1, ?_⟩⟩, ?_, ?_, ?_⟩
  · have := (h4.bounds t ht).2; simp only [List.length_append]; omega
  · rw [e]; exact h5
  · rw [e]; exact h6
  · rw [e]; exact h7

theorem CallAt.read {idOnly : Bool} {h : List (RankerOp F A)} {n0 : Nat} {docs : List IndexedDoc} {o : RankOpts F}
    {co : Bool} {k : RankCall F A} (hc : CallAt idOnly h n0 docs o co k) {r : Ranker F A}
    (hr : RankRel r (rankIdeal h)) (hid : r.idOnly = idOnly) (hn : n0 ≤ h.length) {d : IndexedDoc}
    {rest : List IndexedDoc} (ht : k.todo = d :: rest) : CallAt idOnly h n0 docs o co (k.read r d rest) := by
  obtain ⟨h1, h2, d0, ts, h3, h4, h5, h6, h7⟩ := hc
  have hM : Moments (d0 ++ [d]) n0 h.length (ts ++ [h.length]) := by
    refine ⟨by simp [h4.length], ?_, ?_⟩
    · rw [List.pairwise_append]
      refine ⟨h4.order, by simp, fun a ha b hb => ?_⟩
      simp only [List.mem_singleton] at hb
      subst hb; exact (h4.bounds a ha).2
    · intro t ht
      rcases List.mem_append.1 ht with ht | ht
      · exact h4.bounds t ht
      · simp only [List.mem_singleton] at ht
        subst ht; exact ⟨hn, le_refl _⟩
  have hE : entriesAt h o.score (d0 ++ [d]) (ts ++ [h.length]) =
      entriesAt h o.score d0 ts ++ [d].filterMap (expectedScored (rankIdeal h) o.score) := by
    unfold entriesAt
    rw [List.zip_append h4.length.symm, List.filterMap_append]
    simp [List.filterMap_cons]
  have hdocs : docs = (d0 ++ [d]) ++ rest := by rw [h3, ht]; simp
  unfold RankCall.read
  cases idOnly with
  | true =>
    rw [if_pos hid]
    obtain ⟨s1, s2⟩ := rankOutIDs_spec hr o [d]
    refine ⟨h1, h2, d0 ++ [d], ts ++ [h.length], hdocs, hM, ?_, ?_, by simp⟩
    · rw [hE, List.length_append]
      simp only [h5, h1, h2]
      cases co
      · rw [s1]
      · rw [s2]
    · intro _
      rw [hE]
      simp only [h1, h2, h6 rfl]
      cases co
      · rw [s1]; simp
      · rw [s2]; simp
  | false =>
    rw [if_neg (by simp [hid])]
    obtain ⟨s1, s2⟩ := rankOutDocs_spec hr hid o [d]
    refine ⟨h1, h2, d0 ++ [d], ts ++ [h.length], hdocs, hM, ?_, by simp, ?_⟩
    · rw [hE, List.length_append]
      simp only [h5, h1, h2]
      cases co
      · rw [s1]
      · rw [s2]
    · intro _
      rw [hE]
      simp only [h1, h2, h7 rfl]
      cases co
      · rw [s1]; simp
      · rw [s2]; simp

theorem callAt_run (gs : GSort) (idOnly : Bool) {i : Nat} {docs : List IndexedDoc} {o : RankOpts F} {co : Bool} {n0 : Nat}
    (bs : List (RAct F A)) (hf : ∀ a ∈ bs, a ≠ .finish i) : ∀ {st st' : CRanker F A} {h : List (RankerOp F A)}
    {k : RankCall F A}, st.run gs bs = some st' → RankRel st.r (rankIdeal h) → st.r.idOnly = idOnly → n0 ≤ h.length →
    st.calls i = some k → CallAt idOnly h n0 docs o co k →
    ∃ k', st'.calls i = some k' ∧ CallAt idOnly (h ++ rankOps bs) n0 docs o co k' := by
  induction bs with
  | nil =>
    intro st st' h k hr _ _ _ hk hc
    simp only [CRanker.run, Option.some.injEq] at hr; subst hr
    exact ⟨k, hk, by simpa [rankOps] using hc⟩
  | cons a l ih =>
    intro st st' h k hr hrel hid hn hk hc
    replace ih := @ih (fun b hb => hf b (by simp [hb]))
    simp only [CRanker.run] at hr
    obtain ⟨st1, h1, h2⟩ := Option.bind_eq_some_iff.1 hr
    cases a with
    | op x =>
      simp only [CRanker.step, Option.some.injEq] at h1; subst h1
      obtain ⟨e1, e2⟩ := hrel.step x
      have e1' : RankRel (st.r.step x) (rankIdeal (h ++ [x])) := by
        simpa [rankIdeal, List.foldl_append] using e1
      obtain ⟨k', g1, g2⟩ := ih (h := h ++ [x]) h2 e1' (e2.trans hid) (by simp; omega) hk (hc.more [x])
      exact ⟨k', g1, by simpa [rankOps] using g2⟩
    | start j docs' o' co' =>
      simp only [CRanker.step] at h1
      split at h1
      · rename_i hj
        simp only [Option.some.injEq] at h1; subst h1
        have hne : i ≠ j := by intro e; subst e; rw [hk] at hj; simp at hj
        obtain ⟨k', g1, g2⟩ := ih (h := h) (k := k) h2 hrel hid hn (by simp [update, hne, hk]) hc
        exact ⟨k', g1, by simpa [rankOps] using g2⟩
      · simp at h1
    | read j =>
      simp only [CRanker.step] at h1
      split at h1
      · rename_i kj hj
        split at h1
        · rename_i d rest ht
          simp only [Option.some.injEq] at h1; subst h1
          by_cases hij : i = j
          · subst hij
            rw [hk, Option.some.injEq] at hj; subst hj
            obtain ⟨k', g1, g2⟩ := ih (h := h) (k := k.read st.r d rest) h2 hrel hid hn (by simp)
              (hc.read hrel hid hn ht)
            exact ⟨k', g1, by simpa [rankOps] using g2⟩
          · obtain ⟨k', g1, g2⟩ := ih (h := h) (k := k) h2 hrel hid hn (by simp [update, hij, hk]) hc
            exact ⟨k', g1, by simpa [rankOps] using g2⟩
        · simp at h1
      · simp at h1
    | finish j =>
      simp only [CRanker.step] at h1
      split at h1
      · split at h1
        · simp only [Option.some.injEq] at h1; subst h1
          have hne : i ≠ j := by rintro rfl; exact hf _ (by simp) rfl
          obtain ⟨k', g1, g2⟩ := ih (h := h) (k := k) h2 hrel hid hn (by simp [update, hne, hk]) hc
          exact ⟨k', g1, by simpa [rankOps] using g2⟩
        · simp at h1
      · simp at h1

/-- The end of a call. -/
theorem finish_isRanking {gs : GSort} (hgs : GSortOk gs) {idOnly : Bool} {E : List (ScoredDoc F A)} {k : RankCall F A}
    {co : Bool} (hco : k.countOnly = co) (hnum : k.num = E.length)
    (hi : idOnly = true → k.ids = if co then [] else E.map (·.scoredID))
    (hd : idOnly = false → k.docs = if co then [] else E) (off m : Nat) (ho : k.opts.outputOffset = off)
    (hm : k.opts.maxOutputs = m) :
    ∃ out, k.finish gs idOnly = some out ∧ IsRankingOf idOnly co k.opts.reverseOrder off m E out := by
  have hsr : ∀ rev, ∃ full : List (ScoredDoc F A), full.Perm E ∧
      ((∀ x ∈ E, NoNaN x.scoredID.scores) → Ranked rev full) ∧
      full.map (·.scoredID) = sortScored gs rev (E.map (·.scoredID)) := by
    intro rev
    obtain ⟨full, h1, h2⟩ := perm_map_lift (fun x : ScoredDoc F A => x.scoredID) _ E
      (sortScored_perm hgs rev (E.map (·.scoredID)))
    refine ⟨full, h1, fun hn => ?_, h2⟩
    have := sortScored_ranked hgs rev (E.map (·.scoredID)) (by
      intro a ha
      obtain ⟨x, hx, rfl⟩ := List.mem_map.1 ha
      exact hn x hx)
    rw [← h2] at this
    unfold Ranked at this ⊢
    rw [List.pairwise_map] at this
    exact this
  unfold RankCall.finish
  cases idOnly with
  | true =>
    rw [if_pos rfl, hi rfl, hco, hnum]
    cases co with
    | true =>
      exact ⟨_, rfl, rfl, sortScored gs k.opts.reverseOrder E, sortScored_perm hgs _ _,
        fun hn => sortScored_ranked hgs _ _ hn, rfl⟩
    | false =>
      simp only [Bool.false_eq_true, if_false]
      rw [sortAndCut_page gs _ _ _ off m ho hm]
      obtain ⟨full, h1, h2, h3⟩ := hsr k.opts.reverseOrder
      exact ⟨_, rfl, rfl, full, h1, h2, by simp [h3]⟩
  | false =>
    rw [if_neg (by simp), hd rfl, hco, hnum]
    cases co with
    | true =>
      exact ⟨_, rfl, rfl, sortScored gs k.opts.reverseOrder E, sortScored_perm hgs _ _,
        fun hn => sortScored_ranked hgs _ _ hn, rfl⟩
    | false =>
      simp only [Bool.false_eq_true, if_false]
      rw [sortAndCut_page gs _ _ _ off m ho hm]
      exact ⟨_, rfl, rfl, sortScored gs k.opts.reverseOrder E, sortScored_perm hgs _ _,
        fun hn => sortScored_ranked hgs _ _ hn, rfl⟩

/-- **C64** Whatever other goroutines do with the ranker, a call of Rank with a legal offset and
limit returns, and its result is the ranking of the entries its candidates have at some moments
during the call, one moment per candidate, in the order of the candidates: every entry carries the
fields, content and attributes of one version of its document. (`pre`: everything before the call
begins, `mid`: everything between its begin and its end.) -/
theorem C64_rank_during_updates {gs : GSort} (hgs : GSortOk gs) (idOnly : Bool) {pre mid : List (RAct F A)} {i : Nat}
    {docs : List IndexedDoc} {o : RankOpts F} {co : Bool} {off m : Nat} {st : CRanker F A}
    (ho : o.outputOffset = off) (hm : o.maxOutputs = m) (hf : ∀ a ∈ mid, a ≠ .finish i)
    (h : (CRanker.init idOnly).run gs (pre ++ .start i docs o co :: mid ++ [.finish i]) = some st) :
    ∃ ts, Moments docs (rankOps pre).length (rankOps (pre ++ mid)).length ts ∧
      ∃ out, st.result i = some (some out) ∧
        IsRankingOf idOnly co o.reverseOrder off m (entriesAt (rankOps (pre ++ mid)) o.score docs ts) out := by
  rw [cranker_run_append, cranker_run_append] at h
  obtain ⟨st2, h12, h3⟩ := Option.bind_eq_some_iff.1 h
  obtain ⟨st0, h1, h2⟩ := Option.bind_eq_some_iff.1 h12
  obtain ⟨hrel, hid⟩ := cranker_run_rel gs idOnly h1
  simp only [CRanker.run] at h2 h3
  obtain ⟨st1, g1, g2⟩ := Option.bind_eq_some_iff.1 h2
  obtain ⟨st3, g3, g4⟩ := Option.bind_eq_some_iff.1 h3
  simp only [Option.some.injEq] at g4; subst g4
  simp only [CRanker.step] at g1
  split at g1
  case h_2 => simp at g1
  simp only [Option.some.injEq] at g1; subst g1
  obtain ⟨k, e1, e2⟩ := callAt_run gs idOnly (docs := docs) (o := o) (co := co) (n0 := (rankOps pre).length) mid hf
    (h := rankOps pre) (k := { opts := o, countOnly := co, todo := docs }) g2 hrel hid (le_refl _) (by simp)
    ⟨rfl, rfl, [], [], by simp, ⟨rfl, by simp, by simp⟩, by simp [entriesAt], by simp [entriesAt],
      by simp [entriesAt]⟩
  simp only [CRanker.step, e1] at g3
  split at g3
  case h_2 => simp at g3
  rename_i ht
  simp only [Option.some.injEq] at g3; subst g3
  obtain ⟨k1, k2, d0, ts, k3, k4, k5, k6, k7⟩ := e2
  rw [ht, List.append_nil] at k3
  subst k3
  rw [rankOps_append]
  refine ⟨ts, k4, ?_⟩
  have hid2 : st2.r.idOnly = idOnly := by
    rw [cranker_r gs mid g2]
    have : ∀ (l : List (RankerOp F A)) (r : Ranker F A), (l.foldl Ranker.step r).idOnly = r.idOnly := by
      intro l
      induction l with
      | nil => intro r; rfl
      | cons x l ih =>
        intro r
        simp only [List.foldl_cons, ih]
        cases x with
        | add d f c =>
          simp only [Ranker.step, Ranker.addDoc]
          split
          · rfl
          · split <;> rfl
        | remove d => simp only [Ranker.step, Ranker.removeDoc]; split <;> rfl
    rw [this]; exact hid
  obtain ⟨out, g5, g6⟩ := finish_isRanking hgs (idOnly := idOnly)
    (E := entriesAt (rankOps pre ++ rankOps mid) o.score docs ts) k2 k5 k6 k7 off m (by rw [k1]; exact ho)
    (by rw [k1]; exact hm)
  refine ⟨out, ?_, by rw [k1] at g6; exact g6⟩
  simp [hid2, g5]

/-- **C64** If nothing is done to the candidates' documents during the call, the result is the
ranking of the state at its beginning. -/
theorem C64_untouched_candidates {gs : GSort} (hgs : GSortOk gs) (idOnly : Bool) {pre mid : List (RAct F A)} {i : Nat}
    {docs : List IndexedDoc} {o : RankOpts F} {co : Bool} {off m : Nat} {st : CRanker F A}
    (ho : o.outputOffset = off) (hm : o.maxOutputs = m) (hf : ∀ a ∈ mid, a ≠ .finish i)
    (h : (CRanker.init idOnly).run gs (pre ++ .start i docs o co :: mid ++ [.finish i]) = some st)
    (hu : ∀ x ∈ rankOps mid, ∀ d ∈ docs, x.aboutId ≠ d.docId) :
    ∃ out, st.result i = some (some out) ∧
      IsRankingOf idOnly co o.reverseOrder off m
        (docs.filterMap (expectedScored (rankIdeal (rankOps pre)) o.score)) out := by
  obtain ⟨ts, hM, out, h1, h2⟩ := C64_rank_during_updates hgs idOnly ho hm hf h
  refine ⟨out, h1, ?_⟩
  have key : ∀ (n : Nat), ∀ d ∈ docs, rankIdeal (rankOps pre ++ (rankOps mid).take n) d.docId =
      rankIdeal (rankOps pre) d.docId := by
    intro n d hd
    have : ∀ (l : List (RankerOp F A)) (f : Str → Option (RankData F A)), (∀ x ∈ l, x ∈ rankOps mid) →
        l.foldl rankIdealStep f d.docId = f d.docId := by
      intro l
      induction l with
      | nil => intro f _; rfl
      | cons x l ih =>
        intro f hl
        rw [List.foldl_cons, ih _ (fun y hy => hl y (by simp [hy]))]
        have := hu x (hl x (by simp)) d hd
        cases x with
        | add id a b =>
          simp only [RankerOp.aboutId] at this
          show (if d.docId = id then _ else f d.docId) = _
          rw [if_neg (Ne.symm this)]
        | remove id =>
          simp only [RankerOp.aboutId] at this
          show (if d.docId = id then _ else f d.docId) = _
          rw [if_neg (Ne.symm this)]
    rw [rankIdeal, List.foldl_append]
    exact this _ _ (fun x hx => List.mem_of_mem_take hx)
  have hE : entriesAt (rankOps (pre ++ mid)) o.score docs ts =
      docs.filterMap (expectedScored (rankIdeal (rankOps pre)) o.score) := by
    unfold entriesAt
    have h3 : (docs.zip ts).filterMap
        (fun x => expectedScored (rankIdeal ((rankOps (pre ++ mid)).take x.2)) o.score x.1) =
        (docs.zip ts).filterMap (fun x => expectedScored (rankIdeal (rankOps pre)) o.score x.1) := by
      apply List.filterMap_congr
      intro x hx
      obtain ⟨hx1, hx2⟩ := List.of_mem_zip (a := x.1) (b := x.2) hx
      have hb := (hM.bounds x.2 hx2).1
      have := key (x.2 - (rankOps pre).length) x.1 hx1
      unfold expectedScored
      rw [rankOps_append, List.take_append, List.take_of_length_le hb, this]
    rw [h3]
    have : docs = (docs.zip ts).map Prod.fst := (List.map_fst_zip (by rw [hM.length])).symm
    conv_rhs => rw [this]
    rw [List.filterMap_map]
    rfl
  rw [hE] at h2
  exact h2

/-! ## A ranking is not a snapshot -/

def twoDocs : List IndexedDoc := [{ docId := str "1" }, { docId := str "2" }]

def before12 : List (RAct Nat Nat) := [.op (.add (str "1") (some 5) none), .op (.add (str "2") (some 5) none)]

/-- "1" is looked up, then the fields of "1" and then those of "2" are changed, then "2" is looked up. -/
def during12 : List (RAct Nat Nat) :=
  [.read 0, .op (.add (str "1") (some 7) none), .op (.add (str "2") (some 7) none), .read 0]

def raced12 : Option (RankOut Nat Nat) :=
  (((CRanker.init false).run insGSort
    (before12 ++ .start 0 twoDocs { score := demoScore } false :: during12 ++ [.finish 0])).bind
      (fun st => (st.result 0).bind (fun x => x.map (·.1))))

/-- The ranking shows the old fields of "1" and the new ones of "2", although "1" was changed before
"2": it is the ranking of no state the ranker ever had. -/
theorem C64_not_a_snapshot :
    raced12.isSome ∧ ∀ n, ((Ranker.run false ((rankOps (before12 ++ during12)).take n)).rank insGSort twoDocs
      { score := demoScore } false).map (·.1) ≠ raced12 := by
  refine ⟨by decide +kernel, ?_⟩
  have h : ∀ n < 5, ((Ranker.run false ((rankOps (before12 ++ during12)).take n)).rank insGSort twoDocs
      { score := demoScore } false).map (·.1) ≠ raced12 := by decide +kernel
  intro n
  rcases Nat.lt_or_ge n 5 with hn | hn
  · exact h n hn
  · have e : (rankOps (before12 ++ during12)).take n = (rankOps (before12 ++ during12)).take 4 := by
      rw [List.take_of_length_le (by show 4 ≤ n; omega), List.take_of_length_le (by decide)]
    rw [e]; exact h 4 (by omega)

/-- The hypotheses of the C64 theorems hold of that run (and of one that touches another document). -/
example : (∀ a ∈ during12, a ≠ .finish 0) ∧
    ((CRanker.init false).run insGSort
      (before12 ++ .start 0 twoDocs { score := demoScore } false :: during12 ++ [.finish 0])).isSome ∧
    ((CRanker.init false).run insGSort (before12 ++ .start 0 twoDocs { score := demoScore } false ::
      [.read 0, .op (.add (str "3") (some 7) none), .read 0] ++ [.finish 0])).isSome := by
  refine ⟨?_, by decide +kernel, by decide +kernel⟩
  intro a ha
  simp only [during12, List.mem_cons, List.not_mem_nil, or_false] at ha
  rcases ha with rfl | rfl | rfl | rfl <;> simp

end Riot
