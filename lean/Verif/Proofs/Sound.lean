import Verif.Proofs.FineLive
import Verif.Proofs.ShardLost
import Verif.Proofs.Rows
import Verif.Proofs.PipelineRounds
import Verif.Props.Pipeline

/-!
# What holds of the table whatever the schedule: every posting comes from a document that was given
-/

namespace Riot

open Function (update)

/-- `P k d`: document `d` may be listed under key `k`. -/
def TableFrom (P : Str → Str → Prop) (t : GoMap KeywordIndices) : Prop :=
  ∀ k ki, t.get k = some ki → ∀ d ∈ ki.docIds, P k d

def DocFrom (P : Str → Str → Prop) (x : DocIndex) : Prop := ∀ k ∈ x.keys, P k x.docId

variable {P : Str → Str → Prop}

/-! ## Adding -/

theorem goInsert_mem {α : Type} {l l' : List α} {p : Nat} {z v : α} (h : goInsert l p z v = some l') :
    ∀ x ∈ l', x ∈ l ∨ x = v := by
  have hp : p ≤ l.length := by
    simp only [goInsert, goCopyWithin, bind, Option.bind] at h
    split at h
    · simp at h
    · rename_i hx
      split at hx
      · rename_i hh; simp at hh; omega
      · simp at hx
  rw [goInsert_eq l p z v hp, Option.some.injEq] at h
  subst h
  intro x hx
  simp only [List.mem_append, List.mem_cons] at hx
  rcases hx with hx | hx | hx
  · exact Or.inl (List.mem_of_mem_take hx)
  · exact Or.inr hx
  · exact Or.inl (List.mem_of_mem_drop hx)

theorem insertRow_mem {it : IndexType} {ki ki' : KeywordIndices} {p : Nat} {d : Str} {kw : KeywordIndex}
    (h : insertRow it ki p d kw = some ki') : ∀ x ∈ ki'.docIds, x ∈ ki.docIds ∨ x = d := by
  cases it <;> simp only [insertRow, bind, pure, Option.bind_eq_some_iff, Option.some.injEq] at h
  · obtain ⟨k1, h1, ids, h2, h3⟩ := h
    subst h1; subst h3
    intro x hx
    exact goInsert_mem h2 x hx
  all_goals
    obtain ⟨_, _, k1, h1, ids, h2, h3⟩ := h
    subst h1; subst h3
    intro x hx
    exact goInsert_mem h2 x hx

theorem addKeyword_from {it : IndexType} {d : Str} {t t' : GoMap KeywordIndices} {ptrs ptrs' : GoMap Nat}
    {kw : KeywordIndex} (ht : TableFrom P t) (hp : P kw.text d)
    (h : addKeyword it d t ptrs kw = some (t', ptrs')) : TableFrom P t' := by
  unfold addKeyword at h
  split at h
  · simp only [Option.some.injEq, Prod.mk.injEq] at h
    obtain ⟨rfl, _⟩ := h
    intro k ki hk x hx
    rw [GoMap.get_set] at hk
    split at hk
    · rename_i e
      subst e
      simp only [Option.some.injEq] at hk; subst hk
      have : x = d := by cases it <;> simpa [newRow] using hx
      subst this; exact hp
    · exact ht k ki hk x hx
  · rename_i ki0 hk0
    simp only [bind, pure, Option.bind_eq_some_iff, Option.some.injEq, Prod.mk.injEq, Prod.exists] at h
    obtain ⟨pos, b, _, ki', h2, rfl, _⟩ := h
    intro k ki hk x hx
    rw [GoMap.get_set] at hk
    split at hk
    · rename_i e
      subst e
      simp only [Option.some.injEq] at hk; subst hk
      rcases insertRow_mem h2 x hx with hx | hx
      · exact ht _ _ hk0 x hx
      · subst hx; exact hp
    · exact ht k ki hk x hx

theorem addKeywords_from {it : IndexType} {d : Str} (kws : List KeywordIndex) : ∀ {t t' : GoMap KeywordIndices}
    {ptrs ptrs' : GoMap Nat}, TableFrom P t → (∀ kw ∈ kws, P kw.text d) →
    addKeywords it d kws t ptrs = some (t', ptrs') → TableFrom P t' := by
  induction kws with
  | nil =>
    intro t t' ptrs ptrs' ht _ h
    simp only [addKeywords, Option.some.injEq, Prod.mk.injEq] at h
    obtain ⟨rfl, _⟩ := h; exact ht
  | cons kw kws ih =>
    intro t t' ptrs ptrs' ht hp h
    simp only [addKeywords, bind, Option.bind_eq_some_iff, Prod.exists] at h
    obtain ⟨t1, p1, h1, h2⟩ := h
    exact ih (addKeyword_from ht (hp kw (by simp)) h1) (fun kw hk => hp kw (by simp [hk])) h2

theorem addOneDoc_from {s s' : Indexer} {ptrs ptrs' : GoMap Nat} {doc : DocIndex} (ht : TableFrom P s.table)
    (hd : DocFrom P doc) (h : addOneDoc s ptrs doc = some (s', ptrs')) :
    TableFrom P s'.table ∧ s'.addCache = s.addCache := by
  unfold addOneDoc at h
  split at h
  · simp only [Option.some.injEq, Prod.mk.injEq] at h
    obtain ⟨rfl, _⟩ := h; exact ⟨ht, rfl⟩
  · simp only [bind, pure, Option.bind_eq_some_iff, Option.some.injEq, Prod.mk.injEq, Prod.exists] at h
    obtain ⟨t, p, h1, rfl, _⟩ := h
    have ht' : TableFrom P (if doc.tokenLen ≠ 0 then
        { s with docTokenLens := s.docTokenLens.set doc.docId doc.tokenLen,
                 totalTokenLen := s.totalTokenLen + doc.tokenLen }
      else s).table := by split <;> exact ht
    refine ⟨addKeywords_from _ ht' ?_ h1, ?_⟩
    · intro kw hk; exact hd kw.text (List.mem_map_of_mem hk)
    · simp only; split <;> rfl

theorem addDocsLoop_from (docs : List DocIndex) : ∀ {s s' : Indexer} {ptrs : GoMap Nat}, TableFrom P s.table →
    (∀ x ∈ docs, DocFrom P x) → addDocsLoop docs s ptrs = some s' →
    TableFrom P s'.table ∧ s'.addCache = s.addCache := by
  induction docs with
  | nil =>
    intro s s' ptrs ht _ h
    simp only [addDocsLoop, Option.some.injEq] at h; subst h; exact ⟨ht, rfl⟩
  | cons doc rest ih =>
    intro s s' ptrs ht hd h
    have hone : ∀ {s1 : Indexer} {p1 : GoMap Nat}, addOneDoc s ptrs doc = some (s1, p1) →
        addDocsLoop rest s1 p1 = some s' → TableFrom P s'.table ∧ s'.addCache = s.addCache := by
      intro s1 p1 h1 h2
      obtain ⟨e1, e2⟩ := addOneDoc_from ht (hd doc (by simp)) h1
      obtain ⟨e3, e4⟩ := ih e1 (fun x hx => hd x (by simp [hx])) h2
      exact ⟨e3, e4.trans e2⟩
    cases rest with
    | nil =>
      simp only [addDocsLoop, bind, Option.bind_eq_some_iff, Prod.exists] at h
      obtain ⟨s1, p1, h1, h2⟩ := h
      exact hone h1 (by simpa [addDocsLoop] using h2)
    | cons next rest =>
      rw [addDocsLoop] at h
      simp only at h
      split at h
      · exact ih ht (fun x hx => hd x (by simp only [List.mem_cons] at hx ⊢; exact Or.inr hx)) h
      · simp only [bind, Option.bind_eq_some_iff, Prod.exists] at h
        obtain ⟨s1, p1, h1, h2⟩ := h
        exact hone h1 h2

/-! ## Removing -/

theorem moveRow_mem {it : IndexType} {ki ki' : KeywordIndices} {top ptr : Nat}
    (h : moveRow it ki top ptr = some ki') : ∀ x ∈ ki'.docIds, x ∈ ki.docIds := by
  have key : ∀ {l l' : List Str} {i j : Nat} {x : Str}, l[j]? = some x → goSet l i x = some l' →
      ∀ y ∈ l', y ∈ l := by
    intro l l' i j x hx hs y hy
    simp only [goSet] at hs
    split at hs
    · simp only [Option.some.injEq] at hs; subst hs
      rcases List.mem_or_eq_of_mem_set hy with hy | hy
      · exact hy
      · subst hy; exact List.mem_of_getElem? hx
    · simp at hs
  cases it <;> simp only [moveRow, bind, pure, Option.bind_eq_some_iff, Option.some.injEq] at h
  · obtain ⟨k1, h1, x, hx, l, hl, h3⟩ := h
    subst h1; subst h3
    exact key hx hl
  all_goals
    obtain ⟨_, _, _, _, k1, h1, x, hx, l, hl, h3⟩ := h
    subst h1; subst h3
    exact key hx hl

theorem removeLoop_mem {it : IndexType} {docs : List Str} : ∀ (ki : KeywordIndices) (top ptr dptr : Nat)
    {ki' : KeywordIndices} {a b : Nat}, removeLoop it docs ki top ptr dptr = some (ki', a, b) →
    ∀ x ∈ ki'.docIds, x ∈ ki.docIds := by
  intro ki top ptr dptr
  fun_induction removeLoop it docs ki top ptr dptr with
  | case1 => intro _ _ _ h; simp at h
  | case2 ki top ptr dptr h0 h1 h2 ki1 hm ih =>
    intro ki' a b h x hx
    exact moveRow_mem hm x (ih h x hx)
  | case3 ki top ptr dptr h0 h1 h2 ih => intro ki' a b h x hx; exact ih h x hx
  | case4 ki top ptr dptr h0 h1 h2 ih => intro ki' a b h x hx; exact ih h x hx
  | case5 ki top ptr dptr h0 h1 h2 ih => intro ki' a b h x hx; exact ih h x hx
  | case6 ki top ptr dptr h0 =>
    intro ki' a b h x hx
    simp only [Option.some.injEq, Prod.mk.injEq] at h
    obtain ⟨rfl, _⟩ := h; exact hx

theorem goCut_mem {α : Type} {l l' : List α} {a b : Nat} (h : goCut l a b = some l') : ∀ x ∈ l', x ∈ l := by
  simp only [goCut] at h
  split at h
  · simp only [Option.some.injEq] at h; subst h
    intro x hx
    rcases List.mem_append.1 hx with hx | hx
    · exact List.mem_of_mem_take hx
    · exact List.mem_of_mem_drop hx
  · simp at h

theorem cutRow_mem {it : IndexType} {ki ki' : KeywordIndices} {a b : Nat} (h : cutRow it ki a b = some ki') :
    ∀ x ∈ ki'.docIds, x ∈ ki.docIds := by
  unfold cutRow at h
  split at h
  · cases it <;> simp only [bind, pure, Option.bind_eq_some_iff, Option.some.injEq] at h
    · obtain ⟨k1, h1, l, hl, h3⟩ := h
      subst h1; subst h3
      exact goCut_mem hl
    all_goals
      obtain ⟨_, _, k1, h1, l, hl, h3⟩ := h
      subst h1; subst h3
      exact goCut_mem hl
  · simp only [Option.some.injEq] at h; subst h; exact fun x hx => hx

theorem removeRow_mem {it : IndexType} {docs : List Str} {ki ki' : KeywordIndices}
    (h : removeRow it docs ki = some (some ki')) : ∀ x ∈ ki'.docIds, x ∈ ki.docIds := by
  simp only [removeRow, bind, pure, Option.bind_eq_some_iff, Option.some.injEq, Prod.exists] at h
  obtain ⟨n, _, k1, a, b, h1, k2, h2, h3⟩ := h
  split at h3
  · simp at h3
  · simp only [Option.some.injEq] at h3; subst h3
    intro x hx
    exact removeLoop_mem _ _ _ _ h1 x (cutRow_mem h2 x hx)

theorem rangeUpdate_get {V W : Type} {m : GoMap V} {f : V → Option (Option W)} {m' : GoMap W}
    (h : m.rangeUpdate f = some m') {k : Str} {w : W} (hk : m'.get k = some w) :
    ∃ v, m.get k = some v ∧ f v = some (some w) := by
  have key : ∀ (l : List (Str × V)) (l' : List (Str × W)), GoMap.rangeUpdateList f l = some l' → (k, w) ∈ l' →
      ∃ v, (k, v) ∈ l ∧ f v = some (some w) := by
    intro l
    induction l with
    | nil => intro l' h hm; simp [GoMap.rangeUpdateList] at h; subst h; simp at hm
    | cons e l ih =>
      intro l' h hm
      obtain ⟨k0, v0⟩ := e
      simp only [GoMap.rangeUpdateList] at h
      split at h
      · rename_i w0 l1 hf hl
        simp only [Option.some.injEq] at h; subst h
        simp only [List.mem_cons, Prod.mk.injEq] at hm
        rcases hm with ⟨rfl, rfl⟩ | hm
        · exact ⟨v0, by simp, hf⟩
        · obtain ⟨v, h1, h2⟩ := ih _ hl hm
          exact ⟨v, by simp [h1], h2⟩
      · rename_i l1 hf hl
        simp only [Option.some.injEq] at h; subst h
        obtain ⟨v, h1, h2⟩ := ih _ hl hm
        exact ⟨v, by simp [h1], h2⟩
      · simp at h
  unfold GoMap.rangeUpdate at h
  split at h
  · simp at h
  · rename_i l hl
    simp only [Option.some.injEq] at h; subst h
    obtain ⟨v, h1, h2⟩ := key _ _ hl ((GoMap.get_eq_some_iff _ _ _).1 hk)
    exact ⟨v, (GoMap.get_eq_some_iff _ _ _).2 h1, h2⟩

theorem forgetDocs_table (docs : List Str) : ∀ s : Indexer,
    (forgetDocs docs s).table = s.table ∧ (forgetDocs docs s).addCache = s.addCache := by
  induction docs with
  | nil => intro s; exact ⟨rfl, rfl⟩
  | cons d l ih => intro s; rw [forgetDocs]; exact ih _

theorem removeDocs_from {s s' : Indexer} {docs : List Str} (ht : TableFrom P s.table)
    (h : s.removeDocs docs = some s') : TableFrom P s'.table ∧ s'.addCache = s.addCache := by
  simp only [Indexer.removeDocs, bind, pure, Option.bind_eq_some_iff, Option.some.injEq] at h
  obtain ⟨t, h1, rfl⟩ := h
  rw [(forgetDocs_table docs s).1] at h1
  refine ⟨?_, (forgetDocs_table docs s).2⟩
  intro k ki hk x hx
  obtain ⟨v, h2, h3⟩ := rangeUpdate_get h1 hk
  exact ht k v h2 x (removeRow_mem h3 x hx)

/-! ## Looking up -/

theorem searchIndexLoop_found {ids : List Str} {d : Str} : ∀ (a b : Nat) {p : Nat},
    searchIndexLoop ids d a b = some (p, true) → d ∈ ids := by
  intro a b
  fun_induction searchIndexLoop ids d a b with
  | case1 => intro p h; simp at h
  | case2 => intro p h; rename_i hm; exact List.mem_of_getElem? hm
  | case3 => rename_i ih; intro p h; exact ih h
  | case4 => rename_i ih; intro p h; exact ih h
  | case5 => intro p h; simp at h

theorem searchIndex_found {ids : List Str} {d : Str} {a b p : Nat} (h : searchIndex ids a b d = some (p, true)) :
    d ∈ ids := by
  unfold searchIndex at h
  split at h
  · simp at h
  · split at h
    · simp at h
    · rename_i ds hds
      split at h
      · simp at h
      · split at h
        · rename_i e; subst e; exact List.mem_of_getElem? hds
        · split at h
          · simp at h
          · rename_i de hde
            split at h
            · simp at h
            · split at h
              · rename_i e; subst e; exact List.mem_of_getElem? hde
              · exact searchIndexLoop_found _ _ h

/-- The rows a probe returns. -/
def Probe.kis : Probe → Option (List KeywordIndices)
  | .hit rows => some (rows.map (·.1))
  | .miss rows => some (rows.map (·.1))
  | .stop => none

theorem probeRows_rows : ∀ (rows : List (KeywordIndices × Nat)) {base : Str} {r : Probe},
    probeRows rows base = some r → (∀ l, r.kis = some l → l = rows.map (·.1)) ∧
      (∀ rows', r = .hit rows' → ∀ ki ∈ rows.map (·.1), base ∈ ki.docIds) := by
  intro rows
  induction rows with
  | nil =>
    intro base r h
    simp only [probeRows, Option.some.injEq] at h; subst h
    exact ⟨fun l hl => by simp only [Probe.kis, Option.some.injEq] at hl; exact hl.symm, by simp⟩
  | cons e rest ih =>
    intro base r h
    obtain ⟨ki, ptr⟩ := e
    simp only [probeRows, bind, pure, Option.bind_eq_some_iff, Prod.exists] at h
    obtain ⟨pos, found, hs, h⟩ := h
    cases found with
    | true =>
      simp only [if_true, Option.bind_eq_some_iff] at h
      obtain ⟨r1, h1, h2⟩ := h
      obtain ⟨i1, i2⟩ := ih h1
      cases r1 with
      | hit rows1 =>
        simp only [Option.some.injEq] at h2; subst h2
        refine ⟨fun l hl => ?_, fun rows' e k hk => ?_⟩
        · simp only [Probe.kis, Option.some.injEq] at hl
          subst hl
          simpa using i1 _ rfl
        · simp only [List.map_cons, List.mem_cons] at hk
          rcases hk with hk | hk
          · subst hk; exact searchIndex_found hs
          · exact i2 _ rfl k hk
      | miss rows1 =>
        simp only [Option.some.injEq] at h2; subst h2
        refine ⟨fun l hl => ?_, fun rows' e => by simp at e⟩
        simp only [Probe.kis, Option.some.injEq] at hl
        subst hl
        simpa using i1 _ rfl
      | stop =>
        simp only [Option.some.injEq] at h2; subst h2
        exact ⟨fun l hl => by simp [Probe.kis] at hl, fun _ e => by simp at e⟩
    | false =>
      simp only [Bool.false_eq_true, if_false] at h
      split at h
      · simp only [Option.some.injEq] at h; subst h
        exact ⟨fun l hl => by simp [Probe.kis] at hl, fun _ e => by simp at e⟩
      · simp only [Option.some.injEq] at h; subst h
        refine ⟨fun l hl => ?_, fun rows' e => by simp at e⟩
        simp only [Probe.kis, Option.some.injEq] at hl
        subst hl; rfl

theorem lookupLoop_mem {log2 : Rat → Rat} {s : Indexer} {avg : Rat} {row0 : KeywordIndices} {tokens : List Str}
    {docIds : Option (List Str)} {co : Bool} {kis : List KeywordIndices} (p : Nat) :
    ∀ (rows : List (KeywordIndices × Nat)) (acc res : List IndexedDoc × Nat), rows.map (·.1) = kis →
    lookupLoop log2 s avg row0 tokens docIds co p rows acc = some res →
    (∀ x ∈ acc.1, x.docId ∈ row0.docIds ∧ ∀ ki ∈ kis, x.docId ∈ ki.docIds) →
    ∀ x ∈ res.1, x.docId ∈ row0.docIds ∧ ∀ ki ∈ kis, x.docId ∈ ki.docIds := by
  induction p with
  | zero =>
    intro rows acc res _ h ha
    simp only [lookupLoop, Option.some.injEq] at h; subst h; exact ha
  | succ p ih =>
    intro rows acc res hr h ha
    rw [lookupLoop] at h
    split at h
    · simp at h
    · rename_i base hb
      split at h
      · exact ih _ _ _ hr h ha
      · split at h
        · simp at h
        · simp only [Option.some.injEq] at h; subst h; exact ha
        · rename_i rows1 hp
          obtain ⟨e1, _⟩ := probeRows_rows rows hp
          exact ih _ _ _ ((e1 _ rfl).trans hr) h ha
        · rename_i rows1 hp
          obtain ⟨e1, e2⟩ := probeRows_rows rows hp
          have hr1 : rows1.map (·.1) = kis := (e1 _ rfl).trans hr
          split at h
          · exact ih _ _ _ hr1 h ha
          · split at h
            · simp at h
            · rename_i doc hdoc
              refine ih _ _ _ hr1 h ?_
              intro x hx
              simp only at hx
              split at hx
              · exact ha x hx
              · rcases List.mem_append.1 hx with hx | hx
                · exact ha x hx
                · simp only [List.mem_singleton] at hx
                  subst hx
                  rw [scoreDoc_docId hdoc]
                  refine ⟨List.mem_of_getElem? hb, fun ki hk => e2 _ rfl ki ?_⟩
                  rw [hr]; exact hk

theorem collectRows_get {t : GoMap KeywordIndices} : ∀ (ks : List Str) {rows : List KeywordIndices},
    collectRows t ks = some rows → ∀ k ∈ ks, ∃ ki ∈ rows, t.get k = some ki := by
  intro ks
  induction ks with
  | nil => intro rows _ k hk; simp at hk
  | cons k0 ks ih =>
    intro rows h k hk
    simp only [collectRows] at h
    split at h
    · rename_i ki rs h1 h2
      simp only [Option.some.injEq] at h; subst h
      simp only [List.mem_cons] at hk
      rcases hk with rfl | hk
      · exact ⟨ki, by simp, h1⟩
      · obtain ⟨ki', h3, h4⟩ := ih h2 k hk
        exact ⟨ki', by simp [h3], h4⟩
    · simp at h

/-- A plain lookup on any table, however damaged, returns only documents that are listed under
every key of the request. -/
theorem lookup_listed {log2 : Rat → Rat} {s : Indexer} {tokens labels : List Str} {docIds : Option (List Str)}
    {co : Bool} {res : List IndexedDoc × Nat} (h : s.lookup log2 tokens labels docIds co = some res) :
    ∀ x ∈ res.1, ∀ k ∈ tokens ++ labels, ∃ ki, s.table.get k = some ki ∧ x.docId ∈ ki.docIds := by
  unfold Indexer.lookup at h
  split at h
  · simp only [Option.some.injEq] at h; subst h; simp
  · simp only at h
    unfold Indexer.internalLookup at h
    split at h
    · simp only [Option.some.injEq] at h; subst h; simp
    · simp only [Option.some.injEq] at h; subst h; simp
    · rename_i row0 rows hc
      intro x hx k hk
      obtain ⟨ki, h1, h2⟩ := collectRows_get _ hc k hk
      have := lookupLoop_mem (kis := rows) _ _ _ _ (by simp [List.map_map, Function.comp_def]) h (by simp) x hx
      refine ⟨ki, h2, ?_⟩
      rcases List.mem_cons.1 h1 with rfl | h1
      · exact this.1
      · exact this.2 ki h1

/-! ## A shard -/

structure SoundInv (P : Str → Str → Prop) (st : CShard) : Prop where
  table : TableFrom P st.ix.table
  cache : ∀ x ∈ st.ix.addCache, DocFrom P x
  put : ∀ x f, st.add = .put (some x) f → DocFrom P x
  docs : ∀ l, st.add = .lockTable2 l → ∀ x ∈ l, DocFrom P x

theorem SoundInv.mono {Q : Str → Str → Prop} {st : CShard} (h : SoundInv P st) (hq : ∀ k d, P k d → Q k d) :
    SoundInv Q st :=
  ⟨fun k ki hk d hd => hq _ _ (h.table k ki hk d hd), fun x hx k hk => hq _ _ (h.cache x hx k hk),
    fun x f hx k hk => hq _ _ (h.put x f hx k hk), fun l hl x hx k hk => hq _ _ (h.docs l hl x hx k hk)⟩

theorem soundInv_init (o : IndexerOpts) : SoundInv P (CShard.init o) := by
  refine ⟨?_, ?_, ?_, ?_⟩
  · intro k ki hk; simp [CShard.init, Indexer.init] at hk
  · intro x hx; simp [CShard.init, Indexer.init] at hx
  · intro x f h; simp [CShard.init] at h
  · intro l h; simp [CShard.init] at h

theorem register_table {st st' : CShard} {id : Str} (h : st.register id = some st') :
    st'.ix.table = st.ix.table ∧ st'.ix.addCache = st.ix.addCache := by
  unfold CShard.register at h
  split at h
  · obtain ⟨y, h1, rfl⟩ := Option.map_eq_some_iff.1 h
    obtain ⟨e, _⟩ := push_frame h1
    exact ⟨by simp [e], by simp [e]⟩
  · simp only [Option.some.injEq] at h; subst h; exact ⟨rfl, rfl⟩
  · simp only [Option.some.injEq] at h; subst h; exact ⟨rfl, rfl⟩

theorem orDie_cases {st : CShard} {x : Option CShard} (Q : CShard → Prop) (h1 : Q { st with dead := true })
    (h2 : ∀ y, x = some y → Q y) : Q (st.orDie x) := by
  cases x with
  | none => exact h1
  | some y => exact h2 y rfl

theorem remStep_sound {so : Sorter} {st : CShard} {tf cf : Bool} {pc : RemPC} {y : CShard × RemPC}
    (ht : TableFrom P st.ix.table) (h : st.remStep so tf cf pc = some y) :
    TableFrom P y.1.ix.table ∧ y.1.ix.addCache = st.ix.addCache := by
  cases pc <;> simp only [CShard.remStep] at h
  · split at h
    · simp only [Option.some.injEq] at h; subst h; exact ⟨ht, rfl⟩
    · simp at h
  · split at h
    · simp only [Option.some.injEq] at h; subst h
      refine orDie_cases (fun z => TableFrom P z.ix.table ∧ z.ix.addCache = st.ix.addCache) ⟨ht, rfl⟩ ?_
      intro z hz
      obtain ⟨e1, e2⟩ := register_table hz
      exact ⟨by rw [e1]; exact ht, e2⟩
    · simp at h
  · split at h <;> (simp only [Option.some.injEq] at h; subst h; exact ⟨ht, rfl⟩)
  · simp only [Option.some.injEq] at h; subst h; exact ⟨ht, rfl⟩
  · split at h
    · simp only [Option.some.injEq] at h; subst h
      refine orDie_cases (fun z => TableFrom P z.ix.table ∧ z.ix.addCache = st.ix.addCache) ⟨ht, rfl⟩ ?_
      intro z hz
      obtain ⟨ix, h1, rfl⟩ := Option.map_eq_some_iff.1 hz
      exact removeDocs_from ht h1
    · simp at h
  · simp at h

theorem swapCache_sub {cache cache' : List DocIndex} {p i : Nat} {doc : DocIndex} (hi : cache[i]? = some doc)
    (h : swapCache cache p i doc = some cache') : ∀ x ∈ cache', x ∈ cache := by
  unfold swapCache at h
  split at h
  · split at h
    · simp at h
    · rename_i y hy
      simp only [Option.some.injEq] at h; subst h
      intro x hx
      rcases List.mem_or_eq_of_mem_set hx with hx | rfl
      · rcases List.mem_or_eq_of_mem_set hx with hx | rfl
        · exact hx
        · exact List.mem_of_getElem? hi
      · exact List.mem_of_getElem? hy
  · simp only [Option.some.injEq] at h; subst h; exact fun x hx => hx

theorem step_sound {so : Sorter} (hso : ∀ l, (so.docs l).Perm l) {st st' : CShard} {x : SAct}
    (hI : SoundInv P st) (hb : ∀ d f, x = .begin (.add d f) → DocFrom P d) (h : st.step so x = some st') :
    SoundInv P st' := by
  obtain ⟨h1, h2, h3, h4⟩ := hI
  cases x with
  | begin op =>
    simp only [CShard.step] at h
    split at h
    · simp at h
    · cases op with
      | add d f =>
        simp only at h
        split at h
        · simp only [Option.some.injEq] at h; subst h
          refine ⟨h1, h2, ?_, by simp⟩
          intro x g e
          simp only [AddPC.put.injEq, Option.some.injEq] at e
          rw [← e.1]; exact hb d f rfl
        · simp at h
      | flush f =>
        simp only at h
        split at h
        · simp only [Option.some.injEq] at h; subst h
          exact ⟨h1, h2, by simp, by simp⟩
        · simp at h
      | remove id f =>
        simp only at h
        split at h
        · simp only [Option.some.injEq] at h; subst h; exact ⟨h1, h2, h3, h4⟩
        · simp at h
  | search =>
    simp only [CShard.step] at h
    split at h
    · simp at h
    · simp only [Option.some.injEq] at h; subst h; exact ⟨h1, h2, h3, h4⟩
  | searched =>
    simp only [CShard.step] at h
    split at h
    · simp at h
    · simp only [Option.some.injEq] at h; subst h; exact ⟨h1, h2, h3, h4⟩
  | rem =>
    obtain h := step_rem_some h
    unfold CShard.remWorkerStep at h
    split at h
    · simp at h
    · simp only [Option.some.injEq] at h; subst h; exact ⟨h1, h2, h3, h4⟩
    · obtain ⟨⟨y, pc'⟩, hy, rfl⟩ := Option.map_eq_some_iff.1 h
      obtain ⟨_, e2, _⟩ := remStep_frame hy
      obtain ⟨f1, f2⟩ := remStep_sound h1 hy
      refine ⟨f1, ?_, ?_, ?_⟩
      · show ∀ x ∈ y.ix.addCache, _; rw [f2]; exact h2
      · show ∀ x f, y.add = _ → _; rw [e2]; exact h3
      · show ∀ l, y.add = _ → _; rw [e2]; exact h4
  | add =>
    obtain h := step_add_some h
    unfold CShard.addStep at h
    simp only at h
    split at h
    · simp at h
    · rename_i doc force hadd
      split at h
      · simp only [Option.some.injEq] at h; subst h; exact ⟨h1, h2, h3, h4⟩
      · rename_i ix hix
        simp only [Option.some.injEq] at h; subst h
        have hc : ix.table = st.ix.table ∧ ∀ x ∈ ix.addCache, DocFrom P x := by
          split at hix
          · simp only [Option.some.injEq] at hix; subst hix; exact ⟨rfl, h2⟩
          · rename_i d hd
            split at hix
            · simp only [Option.some.injEq] at hix; subst hix
              refine ⟨rfl, fun x hx => ?_⟩
              rcases List.mem_append.1 hx with hx | hx
              · exact h2 x hx
              · simp only [List.mem_singleton] at hx
                subst hx; exact h3 _ _ hadd
            · simp at hix
        refine ⟨by rw [hc.1]; exact h1, hc.2, ?_, ?_⟩
        · intro x f e; simp only at e; split at e <;> simp at e
        · intro l e; simp only at e; split at e <;> simp at e
    · split at h
      · simp only [Option.some.injEq] at h; subst h; exact ⟨h1, h2, by simp, by simp⟩
      · simp at h
    · simp only [Option.some.injEq] at h; subst h; exact ⟨h1, h2, by simp, by simp⟩
    all_goals rename_i hadd
    · split at h
      · simp only [Option.some.injEq] at h; subst h; exact ⟨h1, h2, h3, h4⟩
      · rename_i doc hdoc
        split at h
        · simp only [Option.some.injEq] at h; subst h; exact ⟨h1, h2, by simp, by simp⟩
        · split at h
          · split at h
            · simp only [Option.some.injEq] at h; subst h; exact ⟨h1, h2, h3, h4⟩
            · rename_i cache hcache
              simp only [Option.some.injEq] at h; subst h
              refine ⟨h1, fun x hx => h2 x (swapCache_sub hdoc hcache x hx), ?_, ?_⟩
              · intro x f e; simp only at e; split at e <;> simp at e
              · intro l e; simp only at e; split at e <;> simp at e
          · simp only [Option.some.injEq] at h; subst h; exact ⟨h1, h2, by simp, by simp⟩
    · split at h
      · simp only [Option.some.injEq] at h; subst h
        refine orDie_cases (SoundInv P) ⟨h1, h2, h3, h4⟩ ?_
        intro z hz
        obtain ⟨w, hw, rfl⟩ := Option.map_eq_some_iff.1 hz
        obtain ⟨e, _⟩ := push_frame hw
        refine ⟨?_, ?_, by simp, by simp⟩
        · show TableFrom P w.ix.table; rw [e]; exact h1
        · show ∀ x ∈ w.ix.addCache, _; rw [e]; exact h2
      · simp at h
    · simp only [Option.some.injEq] at h; subst h
      refine ⟨h1, fun x hx => h2 x (List.mem_of_mem_take hx), by simp, ?_⟩
      intro l e x hx
      simp only [AddPC.lockTable2.injEq] at e
      subst e
      exact h2 x (List.mem_of_mem_drop ((hso _).mem_iff.1 hx))
    · obtain ⟨⟨y, pc'⟩, hy, rfl⟩ := Option.map_eq_some_iff.1 h
      obtain ⟨f1, f2⟩ := remStep_sound h1 hy
      refine ⟨f1, ?_, by simp, by simp⟩
      show ∀ x ∈ y.ix.addCache, _; rw [f2]; exact h2
    · split at h
      · simp only [Option.some.injEq] at h; subst h
        refine orDie_cases (SoundInv P) ⟨h1, h2, h3, h4⟩ ?_
        intro z hz
        obtain ⟨ix, hix, rfl⟩ := Option.map_eq_some_iff.1 hz
        obtain ⟨e1, e2⟩ := addDocsLoop_from _ h1 (h4 _ hadd) hix
        exact ⟨e1, by show ∀ x ∈ ix.addCache, _; rw [e2]; exact h2, by simp, by simp⟩
      · simp at h

end Riot
