import Verif.Spec.Backends
import Verif.Spec.Store

/-! # C45: the store backends implement a map -/

namespace Riot.Store

theorem stored_cons {op : Op} {ops : List Op} {k v : Str} :
    Stored (op :: ops) k v ↔ Stored ops k v ∨ (op = .set k v ∧ ∀ o ∈ ops, o.key ≠ k) := by
  constructor
  · rintro ⟨before, aft, h, hn⟩
    cases before with
    | nil => simp only [List.nil_append, List.cons.injEq] at h; right; rw [h.1, h.2]; exact ⟨rfl, hn⟩
    | cons x before =>
      simp only [List.cons_append, List.cons.injEq] at h
      left; exact ⟨before, aft, h.2, hn⟩
  · rintro (⟨before, aft, h, hn⟩ | ⟨rfl, hn⟩)
    · exact ⟨op :: before, aft, by rw [h]; rfl, hn⟩
    · exact ⟨[], ops, rfl, hn⟩

theorem stored_about {ops : List Op} {k v : Str} (h : Stored ops k v) : ∃ o ∈ ops, o.key = k := by
  obtain ⟨before, aft, rfl, _⟩ := h
  exact ⟨.set k v, by simp, rfl⟩

theorem accepted_cons (op : Op) (ops : List Op) (e : Option DbErr) (es : List (Option DbErr)) :
    accepted (op :: ops) (e :: es) = if e = none then op :: accepted ops es else accepted ops es := by
  simp only [accepted, List.zip_cons_cons, List.filter_cons]
  by_cases h : e = none
  · simp [h]
  · simp [h]

/-- What is in a database after a history of calls. -/
theorem run_get (b : Lib) : ∀ (ops : List Op) (m : Db) (k v : Str),
    (run b m ops).1.get k = some v ↔
      Stored (accepted ops (run b m ops).2) k v ∨
        (m.get k = some v ∧ ∀ o ∈ accepted ops (run b m ops).2, o.key ≠ k) := by
  intro ops
  induction ops with
  | nil => intro m k v; simp [run, accepted, Stored]
  | cons op ops ih =>
    intro m k v
    simp only [run]
    rw [ih, accepted_cons]
    have hcall : ((call b m op).2 = none ∧ (call b m op).1.get k =
          (match op with
           | .set k' v' => if k = k' then some v' else m.get k
           | .delete k' => if k = k' then none else m.get k)) ∨
        ((call b m op).2 ≠ none ∧ (call b m op).1 = m) := by
      cases op with
      | set k' v' =>
        simp only [call, set]
        cases b.setErr k' v' with
        | none => left; exact ⟨rfl, by rw [GoMap.get_set]⟩
        | some e => right; exact ⟨by simp, rfl⟩
      | delete k' =>
        simp only [call, delete]
        cases b.delErr k' with
        | none => left; exact ⟨rfl, by rw [GoMap.get_del]⟩
        | some e => right; exact ⟨by simp, rfl⟩
    generalize hacc : accepted ops (run b (call b m op).1 ops).2 = acc
    rcases hcall with ⟨h1, h2⟩ | ⟨h1, h2⟩
    · rw [if_pos h1, h2, stored_cons]
      cases op with
      | set k' v' =>
        simp only [List.mem_cons, forall_eq_or_imp, Op.key, Op.set.injEq]
        by_cases hk : k = k'
        · subst hk; simp
        · have hk' : k' ≠ k := fun h => hk h.symm
          simp [hk, hk']
      | delete k' =>
        simp only [List.mem_cons, forall_eq_or_imp, Op.key]
        by_cases hk : k = k'
        · subst hk; simp
        · have hk' : k' ≠ k := fun h => hk h.symm
          simp [hk, hk']
    · rw [if_neg h1, h2]

theorem after_get (b : Lib) (ops : List Op) (k v : Str) : (after b ops).get k = some v ↔ Stored (ok b ops) k v := by
  rw [after, run_get]; simp [ok]

theorem cursor_mem (m : Db) (x : Str × Str) : x ∈ cursor m ↔ m.get x.1 = some x.2 := by
  rw [cursor, List.mem_insertionSort, GoMap.get_eq_some_iff]

theorem visit_collect (l acc : List (Str × Str)) :
    visit (E := Unit) (fun acc k v => (acc ++ [(k, v)], none)) l acc = (acc ++ l, none) := by
  induction l generalizing acc with
  | nil => simp [visit]
  | cons x l ih => obtain ⟨k, v⟩ := x; simp only [visit]; rw [ih]; simp

theorem seen_eq (m : Db) : seen m = cursor m := by simp [seen, forEach, visit_collect]

/-- C45: ForEach of every backend visits exactly the pairs stored and not deleted since, every key
once, in ascending key order. -/
theorem C45_forEach_exact (b : Lib) (ops : List Op) :
    (∀ k v : Str, (k, v) ∈ seen (after b ops) ↔ Stored (ok b ops) k v) ∧
      ((seen (after b ops)).map (·.1)).Pairwise (fun x y => x < y) := by
  refine ⟨fun k v => by rw [seen_eq, cursor_mem, after_get], ?_⟩
  rw [seen_eq]
  have hs : (cursor (after b ops)).Pairwise (fun a b => a.1 ≤ b.1) := by
    have : Std.Total (fun (a b : Str × Str) => a.1 ≤ b.1) := ⟨fun a b => le_total a.1 b.1⟩
    have : IsTrans (Str × Str) (fun (a b : Str × Str) => a.1 ≤ b.1) := ⟨fun a b c => le_trans⟩
    exact List.pairwise_insertionSort _ _
  have hn : ((cursor (after b ops)).map (·.1)).Nodup :=
    ((List.perm_insertionSort _ _).map _).nodup_iff.2 (after b ops).nodup
  have hs' : ((cursor (after b ops)).map (·.1)).Pairwise (fun x y => x ≤ y) := List.pairwise_map.2 hs
  exact List.Pairwise.imp₂ (fun a b h1 h2 => lt_of_le_of_ne h1 h2) hs' hn

/-- C45: ForEach stops at the first error of its callback and returns it: the callback has then seen a
prefix of the pairs. -/
theorem C45_forEach_stops {σ E : Type} (m : Db) (fn : σ → Str → Str → σ × Option E) (s s' : σ) (e : E)
    (h : forEach m fn s = (s', some e)) :
    ∃ (before after : List (Str × Str)) (k v : Str) (s1 : σ), seen m = before ++ (k, v) :: after ∧
      visit fn before s = (s1, none) ∧ fn s1 k v = (s', some e) := by
  rw [seen_eq]
  unfold forEach at h
  generalize cursor m = l at h
  induction l generalizing s with
  | nil => simp [visit] at h
  | cons x l ih =>
    obtain ⟨k, v⟩ := x
    simp only [visit] at h
    rcases hf : fn s k v with ⟨s1, o⟩
    rw [hf] at h
    cases o with
    | some e' =>
      simp only [Prod.mk.injEq, Option.some.injEq] at h
      refine ⟨[], l, k, v, s, rfl, rfl, ?_⟩
      rw [hf, h.1, h.2]
    | none =>
      simp only at h
      obtain ⟨bef, aft, k', v', s2, h1, h2, h3⟩ := ih s1 h
      refine ⟨(k, v) :: bef, aft, k', v', s2, by rw [h1]; rfl, ?_, h3⟩
      simp only [visit, hf]; exact h2

/-- The read of a key that can be written is not refused. -/
def Readable (b : Lib) : Prop := ∀ k v, b.setErr k v = none → b.getErr k = none

theorem stored_accepted {b : Lib} {ops : List Op} {k v : Str} (h : Stored (ok b ops) k v) : b.setErr k v = none := by
  obtain ⟨before, aft, h, _⟩ := h
  have hm : Op.set k v ∈ ok b ops := by rw [h]; simp
  unfold ok at hm
  have : ∀ (ops : List Op) (m : Db), Op.set k v ∈ accepted ops (run b m ops).2 → b.setErr k v = none := by
    intro ops
    induction ops with
    | nil => intro m hm; simp [accepted] at hm
    | cons op ops ih =>
      intro m hm
      simp only [run] at hm
      rw [accepted_cons] at hm
      split at hm
      · rename_i h1
        rcases List.mem_cons.1 hm with hm | hm
        · subst hm
          simp only [call, set] at h1
          cases he : b.setErr k v with
          | none => rfl
          | some e => rw [he] at h1; cases h1
        · exact ih _ hm
      · exact ih _ hm
  exact this ops _ hm

theorem get_exact {b : Lib} (hb : Readable b) (ops : List Op) (k v : Str) :
    (get b (after b ops) k).1 = some v ↔ Stored (ok b ops) k v := by
  rw [← after_get]
  unfold get
  cases hg : b.getErr k with
  | some e =>
    simp only [reduceCtorEq, false_iff]
    intro h
    rw [after_get] at h
    rw [hb k v (stored_accepted h)] at hg; cases hg
  | none =>
    cases (after b ops).get k with
    | some v => simp
    | none => simp

theorem readable_ldb : Readable leveldb := fun _ _ _ => rfl
theorem readable_bolt : Readable bbolt := fun _ _ _ => rfl
theorem readable_badger (tooBig : Str → Str → Bool) : Readable (badgerDb tooBig) := by
  intro k v h
  simp only [badgerDb] at h ⊢
  by_cases hk : k = []
  · simp [hk] at h
  · simp [hk]

/-- C45: Get of the three backends returns the value last Set and not deleted since (nil otherwise). -/
theorem C45_get_exact (tooBig : Str → Str → Bool) (ops : List Op) (k v : Str) :
    ((get leveldb (after leveldb ops) k).1 = some v ↔ Stored (ok leveldb ops) k v) ∧
    ((get bbolt (after bbolt ops) k).1 = some v ↔ Stored (ok bbolt ops) k v) ∧
    ((get (badgerDb tooBig) (after (badgerDb tooBig) ops) k).1 = some v ↔ Stored (ok (badgerDb tooBig) ops) k v) :=
  ⟨get_exact readable_ldb ops k v, get_exact readable_bolt ops k v, get_exact (readable_badger tooBig) ops k v⟩

/-- C45: Get of goleveldb and badger returns an error exactly for the keys that are not stored; Get of bbolt never does (what is
not stored is a nil slice). -/
theorem C45_get_missing (tooBig : Str → Str → Bool) (ops : List Op) (k : Str) :
    ((get leveldb (after leveldb ops) k).2 = none ↔ ∃ v : Str, Stored (ok leveldb ops) k v) ∧
    ((get (badgerDb tooBig) (after (badgerDb tooBig) ops) k).2 = none ↔ ∃ v : Str, Stored (ok (badgerDb tooBig) ops) k v) ∧
    (get bbolt (after bbolt ops) k).2 = none := by
  have key : ∀ b : Lib, b.missing ≠ none → ((get b (after b ops) k).2 = none ↔ ∃ v : Str, (get b (after b ops) k).1 = some v) := by
    intro b hb
    unfold get
    cases b.getErr k with
    | some e => simp
    | none =>
      cases (after b ops).get k with
      | some v => simp
      | none => simp [hb]
  refine ⟨?_, ?_, ?_⟩
  · rw [key leveldb (by decide)]
    exact exists_congr fun v => get_exact readable_ldb ops k v
  · rw [key (badgerDb tooBig) (by simp [badgerDb])]
    exact exists_congr fun v => get_exact (readable_badger tooBig) ops k v
  · unfold get
    cases (after bbolt ops).get k <;> simp [bbolt]

/-- Non-vacuity: a key that was deleted, on all three. -/
example : (get leveldb (after leveldb [.set (str "k") (str "v"), .delete (str "k")]) (str "k")).2 = some .notFound ∧
    (get bbolt (after bbolt [.set (str "k") (str "v"), .delete (str "k")]) (str "k")) = (none, none) ∧
    (get (badgerDb (fun _ _ => false)) (after (badgerDb (fun _ _ => false)) [.set (str "k") (str "v"), .delete (str "k")])
      (str "k")).2 = some .keyNotFound := by
  decide +kernel

/-- C45: which pairs are accepted. After any history a Set of any pair on goleveldb, of a key of 1 to 32768 bytes with a value of less than
2 GB on bbolt, and of a non-empty key without the prefix "!badger!" within the size limits on badger, returns no error and Get reads the value. -/
theorem C45_set_then_get (tooBig : Str → Str → Bool) (ops : List Op) (k v : Str) :
    ((set leveldb (after leveldb ops) k v).2 = none ∧
      (get leveldb (after leveldb (ops ++ [.set k v])) k).1 = some v) ∧
    (1 ≤ k.length → k.length ≤ 32768 → v.length < 2 ^ 31 - 1 → (set bbolt (after bbolt ops) k v).2 = none ∧
      (get bbolt (after bbolt (ops ++ [.set k v])) k).1 = some v) ∧
    (k ≠ [] → ¬ str "!badger!" <+: k → tooBig k v = false →
      (set (badgerDb tooBig) (after (badgerDb tooBig) ops) k v).2 = none ∧
      (get (badgerDb tooBig) (after (badgerDb tooBig) (ops ++ [.set k v])) k).1 = some v) := by
  have key : ∀ b : Lib, b.setErr k v = none → b.getErr k = none →
      (set b (after b ops) k v).2 = none ∧ (get b (after b (ops ++ [.set k v])) k).1 = some v := by
    intro b h1 h2
    have hs : set b (after b ops) k v = ((after b ops).set k v, none) := by simp [set, h1]
    refine ⟨by rw [hs], ?_⟩
    have ha : after b (ops ++ [.set k v]) = (after b ops).set k v := by
      have gen : ∀ (ops : List Op) (m : Db), (run b m (ops ++ [.set k v])).1 = ((run b m ops).1).set k v := by
        intro ops
        induction ops with
        | nil => intro m; simp [run, call, set, h1]
        | cons o ops ih => intro m; simp only [List.cons_append, run]; exact ih _
      exact gen ops _
    simp [get, h2, ha]
  refine ⟨key _ rfl rfl, fun h1 h2 h3 => key _ ?_ rfl, fun h1 h2 h3 => key _ ?_ ?_⟩
  · have hk : k ≠ [] := by rintro rfl; simp at h1
    simp only [bbolt, if_neg hk]
    rw [if_neg (by omega), if_neg (by omega)]
  · simp [badgerDb, h1, h2, h3]
  · simp [badgerDb, h1]

/-- C45: which pairs are refused, with an error and no effect. -/
theorem C45_set_refused (tooBig : Str → Str → Bool) (m : Db) (k v : Str) :
    (k = [] ∨ 32768 < k.length ∨ 2 ^ 31 - 1 ≤ v.length → ∃ e, set bbolt m k v = (m, some e)) ∧
    (k = [] ∨ str "!badger!" <+: k ∨ tooBig k v = true → ∃ e, set (badgerDb tooBig) m k v = (m, some e)) := by
  have key : ∀ b : Lib, (∃ e, b.setErr k v = some e) → ∃ e, set b m k v = (m, some e) := by
    rintro b ⟨e, he⟩
    exact ⟨e, by simp [set, he]⟩
  constructor
  · intro h
    apply key
    simp only [bbolt]
    split
    · exact ⟨_, rfl⟩
    · split
      · exact ⟨_, rfl⟩
      · split
        · exact ⟨_, rfl⟩
        · rename_i a b c
          rcases h with h | h | h
          · exact absurd h a
          · exact absurd h b
          · exact absurd h (by omega)
  · intro h
    apply key
    simp only [badgerDb]
    split
    · exact ⟨_, rfl⟩
    · split
      · exact ⟨_, rfl⟩
      · split
        · exact ⟨_, rfl⟩
        · rename_i a b c
          rcases h with h | h | h
          · exact absurd h a
          · exact absurd h b
          · exact absurd h c

/-- C45: Has of goleveldb is exact. -/
theorem C45_has_exact_leveldb (ops : List Op) (k : Str) :
    (ldbHas (after leveldb ops) k).1 = true ↔ ∃ v : Str, Stored (ok leveldb ops) k v := by
  simp only [ldbHas, Option.isSome_iff_exists]
  constructor <;> rintro ⟨v, h⟩ <;> exact ⟨v, by simpa [after_get] using h⟩

/-- C45: Has of badger is exact. -/
theorem C45_has_exact_badger (tooBig : Str → Str → Bool) (ops : List Op) (k : Str) :
    (badgerHas tooBig (after (badgerDb tooBig) ops) k).1 = true ↔ ∃ v : Str, Stored (ok (badgerDb tooBig) ops) k v := by
  have hg := get_exact (readable_badger tooBig) ops k
  simp only [badgerHas]
  have hcases : (∃ v : Str, get (badgerDb tooBig) (after (badgerDb tooBig) ops) k = (some v, none)) ∨
      ∃ e : DbErr, get (badgerDb tooBig) (after (badgerDb tooBig) ops) k = (none, some e) := by
    unfold get
    cases hge : (badgerDb tooBig).getErr k with
    | some e => exact Or.inr ⟨e, rfl⟩
    | none =>
      cases (after (badgerDb tooBig) ops).get k with
      | some v => exact Or.inl ⟨v, rfl⟩
      | none => exact Or.inr ⟨_, rfl⟩
  rcases hcases with ⟨v, h⟩ | ⟨e, h⟩
  · have := hg v
    rw [h] at this ⊢
    simp only [Option.getD_some, ne_eq, not_true_eq_false, and_false, if_false, true_iff]
    exact ⟨v, this.1 rfl⟩
  · rw [h] at hg ⊢
    simp only [Option.getD_none, true_and]
    rw [if_pos (by simp)]
    simp only [Bool.false_eq_true, false_iff]
    rintro ⟨v, hv⟩
    have := (hg v).2 hv
    cases this

/-- C45: Has of bbolt is true exactly for keys with a non-empty value. -/
theorem C45_has_bolt_partial (ops : List Op) (k : Str) :
    (boltHas (after bbolt ops) k).1 = true ↔ ∃ v : Str, Stored (ok bbolt ops) k v ∧ v ≠ [] := by
  have hg := after_get bbolt ops k
  have hget : get bbolt (after bbolt ops) k = ((after bbolt ops).get k, none) := by
    unfold get
    cases h : (after bbolt ops).get k <;> simp [bbolt]
  simp only [boltHas, hget]
  cases h : (after bbolt ops).get k with
  | none =>
    simp only [Option.getD_none, or_true, if_true, Bool.false_eq_true, false_iff]
    rintro ⟨v, hv, _⟩
    rw [← hg, h] at hv; cases hv
  | some v =>
    have hv := (hg v).1 h
    simp only [Option.getD_some, ne_eq, not_true_eq_false, false_or]
    by_cases hv0 : v = []
    · rw [if_pos hv0]
      simp only [Bool.false_eq_true, false_iff]
      rintro ⟨w, hw, hw0⟩
      rw [← hg, h] at hw
      cases hw; exact hw0 hv0
    · rw [if_neg hv0]
      simp only [true_iff]
      exact ⟨v, hv, hv0⟩

/-- C45 refuted for bbolt: after Set(k, "") without error, Has(k) is false, although Get returns the
(empty) value and ForEach visits the pair; with goleveldb and badger Has(k) is true. -/
theorem C45_refuted_bolt_empty_value :
    (run bbolt .empty [.set (str "k") []]).2 = [none] ∧
    Stored [.set (str "k") []] (str "k") [] ∧
    (boltHas (after bbolt [.set (str "k") []]) (str "k")).1 = false ∧
    seen (after bbolt [.set (str "k") []]) = [(str "k", [])] ∧
    (ldbHas (after leveldb [.set (str "k") []]) (str "k")).1 = true ∧
    (badgerHas (fun _ _ => false) (after (badgerDb (fun _ _ => false)) [.set (str "k") []]) (str "k")).1 = true := by
  refine ⟨by decide +kernel, ⟨[], [], rfl, by simp⟩, by decide +kernel, by decide +kernel, by decide +kernel, by decide +kernel⟩

/-- C45 refuted: a document with the empty id is stored by goleveldb and refused by bbolt and badger. (The
store worker ignores the error: store_worker.go:59.) -/
theorem C45_refuted_empty_key :
    (get leveldb (after leveldb [.set [] (str "x")]) []).1 = some (str "x") ∧
    (get bbolt (after bbolt [.set [] (str "x")]) []).1 = none ∧
    (get (badgerDb (fun _ _ => false)) (after (badgerDb (fun _ _ => false)) [.set [] (str "x")]) []).1 = none := by
  decide +kernel

/-- A key every backend accepts, with the value. -/
def Ordinary (tooBig : Str → Str → Bool) : Op → Prop
  | .set k v => bbolt.setErr k v = none ∧ (badgerDb tooBig).setErr k v = none
  | .delete k => (badgerDb tooBig).delErr k = none

theorem run_same {b b' : Lib} {ops : List Op} (h : ∀ op ∈ ops, ∀ m : Db, call b m op = call b' m op) (m : Db) :
    run b m ops = run b' m ops := by
  induction ops generalizing m with
  | nil => rfl
  | cons op ops ih =>
    simp only [run]
    rw [h op (by simp) m, ih (fun o ho => h o (by simp [ho]))]

/-- C45: on ordinary keys and values the three backends hold the same pairs after every history, and
no call fails. -/
theorem C45_backends_agree (tooBig : Str → Str → Bool) (ops : List Op) (h : ∀ op ∈ ops, Ordinary tooBig op) :
    after bbolt ops = after leveldb ops ∧ after (badgerDb tooBig) ops = after leveldb ops ∧
      ok bbolt ops = ops ∧ ok leveldb ops = ops ∧ ok (badgerDb tooBig) ops = ops := by
  have hl : ∀ (ops : List Op) (m : Db), accepted ops (run leveldb m ops).2 = ops := by
    intro ops
    induction ops with
    | nil => intro m; rfl
    | cons op ops ih =>
      intro m
      simp only [run]
      rw [accepted_cons, ih, if_pos]
      cases op <;> rfl
  have h1 : ∀ op ∈ ops, ∀ m : Db, call bbolt m op = call leveldb m op := by
    intro op hop m
    have := h op hop
    cases op with
    | set k v => simp only [call, set, this.1]; rfl
    | delete k => rfl
  have h2 : ∀ op ∈ ops, ∀ m : Db, call (badgerDb tooBig) m op = call leveldb m op := by
    intro op hop m
    have := h op hop
    cases op with
    | set k v => simp only [call, set, this.2]; rfl
    | delete k =>
      simp only [Ordinary] at this
      simp only [call, delete, this]; rfl
  refine ⟨by rw [after, run_same h1]; rfl, by rw [after, run_same h2]; rfl, ?_, hl ops _, ?_⟩
  · rw [ok, run_same h1]; exact hl ops _
  · rw [ok, run_same h2]; exact hl ops _

/-! ## What the engine does with a store -/

variable {D : Type}

/-- The store worker writes gob encodings (store_worker.go:41-59), storeRemoveDoc deletes. -/
def engineOp (enc : D → Str) : DbOp D → Op
  | .set id x => .set id (enc x)
  | .del id => .delete id

/-- Decode what `ForEach` visits (store_worker.go:72-92): a pair that cannot be decoded is skipped. -/
def decoded (dec : Str → Option D) (l : List (Str × Str)) : List (Str × D) :=
  l.filterMap (fun x => (dec x.2).map (fun d => (x.1, d)))

theorem dbApply_stored (enc : D → Str) (hinj : Function.Injective enc) (log : List (DbOp D)) (id : Str) (x : D) :
    Riot.dbApply (fun _ => none) log id = some x ↔ Stored (log.map (engineOp enc)) id (enc x) := by
  have key : ∀ (log : List (DbOp D)) (m : Str → Option D),
      Riot.dbApply m log id = some x ↔ Stored (log.map (engineOp enc)) id (enc x) ∨
        (m id = some x ∧ ∀ o ∈ log.map (engineOp enc), o.key ≠ id) := by
    intro log
    induction log with
    | nil => intro m; simp [Riot.dbApply, Stored]
    | cons op log ih =>
      intro m
      have : Riot.dbApply m (op :: log) = Riot.dbApply (Riot.dbStep m op) log := rfl
      rw [this, ih, List.map_cons, stored_cons]
      simp only [List.mem_cons, forall_eq_or_imp]
      cases op with
      | set id' y =>
        simp only [Riot.dbStep, engineOp, Op.key, Op.set.injEq]
        by_cases hk : id = id'
        · subst hk
          simp only [if_true, Option.some.injEq, true_and, ne_eq, not_true_eq_false, false_and, and_false, or_false]
          rw [hinj.eq_iff]
        · have hk' : id' ≠ id := fun h => hk h.symm
          simp [hk, hk']
      | del id' =>
        simp only [Riot.dbStep, engineOp, Op.key, reduceCtorEq, false_and, or_false]
        by_cases hk : id = id'
        · subst hk; simp
        · have hk' : id' ≠ id := fun h => hk h.symm
          simp [hk, hk']
  rw [key]; simp

/-- C45: used by an engine (non-empty encodings, ordinary ids), every backend realises the database of
Model/Pipeline: Has is exact, and ForEach with decoding lists the content. -/
theorem C45_engine_database (tooBig : Str → Str → Bool) (enc : D → Str) (dec : Str → Option D)
    (hdec : ∀ x, dec (enc x) = some x) (hne : ∀ x, enc x ≠ []) (log : List (DbOp D))
    (ho : ∀ op ∈ log, Ordinary tooBig (engineOp enc op))
    (b : Lib) (hb : b = leveldb ∨ b = bbolt ∨ b = badgerDb tooBig) :
    ListsDb (decoded dec (seen (after b (log.map (engineOp enc))))) (Riot.dbApply (fun _ => none) log) ∧
    ∀ id : Str,
      (ldbHas (after leveldb (log.map (engineOp enc))) id).1 = (Riot.dbApply (fun _ => none) log id).isSome ∧
      (boltHas (after bbolt (log.map (engineOp enc))) id).1 = (Riot.dbApply (fun _ => none) log id).isSome ∧
      (badgerHas tooBig (after (badgerDb tooBig) (log.map (engineOp enc))) id).1 =
        (Riot.dbApply (fun _ => none) log id).isSome := by
  have hinj : Function.Injective enc := by
    intro x y h
    have := hdec x; rw [h, hdec y] at this
    exact (Option.some.inj this).symm
  have hord : ∀ op ∈ log.map (engineOp enc), Ordinary tooBig op := by
    intro op hop
    obtain ⟨o, ho', rfl⟩ := List.mem_map.1 hop
    exact ho o ho'
  obtain ⟨a1, a2, a3, a4, a5⟩ := C45_backends_agree tooBig (log.map (engineOp enc)) hord
  have hafter : after b (log.map (engineOp enc)) = after leveldb (log.map (engineOp enc)) := by
    rcases hb with rfl | rfl | rfl
    · rfl
    · exact a1
    · exact a2
  -- everything stored is an encoding
  have henc : ∀ k v, Stored (log.map (engineOp enc)) k v → ∃ x, v = enc x := by
    rintro k v ⟨bef, aft, h, _⟩
    have hm : Op.set k v ∈ log.map (engineOp enc) := by rw [h]; simp
    obtain ⟨o, _, ho'⟩ := List.mem_map.1 hm
    cases o with
    | set id x => simp only [engineOp, Op.set.injEq] at ho'; exact ⟨x, ho'.2.symm⟩
    | del id => simp [engineOp] at ho'
  have hsome : ∀ id, (Riot.dbApply (fun _ => none) log id).isSome = true ↔ ∃ v, Stored (log.map (engineOp enc)) id v := by
    intro id
    rw [Option.isSome_iff_exists]
    constructor
    · rintro ⟨x, hx⟩; exact ⟨enc x, (dbApply_stored enc hinj log id x).1 hx⟩
    · rintro ⟨v, hv⟩
      obtain ⟨x, rfl⟩ := henc _ _ hv
      exact ⟨x, (dbApply_stored enc hinj log id x).2 hv⟩
  refine ⟨⟨?_, ?_⟩, ?_⟩
  · have hp := (C45_forEach_exact b (log.map (engineOp enc))).2
    have hn : ((seen (after b (log.map (engineOp enc)))).map (·.1)).Nodup := hp.imp (fun h => ne_of_lt h)
    generalize seen (after b (log.map (engineOp enc))) = l at hn
    have hsub : ((decoded dec l).map (·.1)).Sublist (l.map (·.1)) := by
      induction l with
      | nil => simp [decoded]
      | cons y l ih =>
        have ih := ih (by simp only [List.map_cons, List.nodup_cons] at hn; exact hn.2)
        simp only [decoded, List.filterMap_cons] at ih ⊢
        cases dec y.2 with
        | none => simp only [Option.map_none]; exact ih.cons _
        | some d => simp only [Option.map_some, List.map_cons]; exact ih.cons_cons _
    exact hn.sublist hsub
  · intro id x
    rw [dbApply_stored enc hinj, decoded, List.mem_filterMap]
    have hseen := (C45_forEach_exact b (log.map (engineOp enc))).1
    have hok : ok b (log.map (engineOp enc)) = log.map (engineOp enc) := by
      rcases hb with rfl | rfl | rfl
      · exact a4
      · exact a3
      · exact a5
    rw [hok] at hseen
    constructor
    · rintro ⟨⟨k, v⟩, h1, h2⟩
      rw [hseen] at h1
      obtain ⟨y, rfl⟩ := henc _ _ h1
      simp only [hdec, Option.map_some, Option.some.injEq, Prod.mk.injEq] at h2
      obtain ⟨rfl, rfl⟩ := h2
      exact h1
    · intro h
      exact ⟨(id, enc x), (hseen _ _).2 h, by simp [hdec]⟩
  · intro id
    have e1 := C45_has_exact_leveldb (log.map (engineOp enc)) id
    have e2 := C45_has_bolt_partial (log.map (engineOp enc)) id
    have e3 := C45_has_exact_badger tooBig (log.map (engineOp enc)) id
    rw [a4, ← hsome] at e1
    rw [a5, ← hsome] at e3
    rw [a3] at e2
    have e2' : (∃ v : Str, Stored (log.map (engineOp enc)) id v ∧ v ≠ []) ↔ ∃ v, Stored (log.map (engineOp enc)) id v := by
      constructor
      · rintro ⟨v, hv, _⟩; exact ⟨v, hv⟩
      · rintro ⟨v, hv⟩
        obtain ⟨x, rfl⟩ := henc _ _ hv
        exact ⟨enc x, hv, hne x⟩
    rw [e2', ← hsome] at e2
    exact ⟨Bool.eq_iff_iff.2 e1, Bool.eq_iff_iff.2 e2, Bool.eq_iff_iff.2 e3⟩

/-- A history every backend accepts, with an overwritten, a deleted and a re-added key. -/
def backendDemo : List Op := [.set (str "b") (str "1"), .set (str "a") (str "2"), .set (str "b") (str "3"),
  .set (str "c") (str "4"), .delete (str "c"), .delete (str "d")]

example : (∀ op ∈ backendDemo, Ordinary (fun _ _ => false) op) ∧
    seen (after bbolt backendDemo) = [(str "a", str "2"), (str "b", str "3")] ∧
    (boltHas (after bbolt backendDemo) (str "c")).1 = false := by
  refine ⟨?_, by decide +kernel, by decide +kernel⟩
  intro op hop
  simp only [backendDemo, List.mem_cons, List.not_mem_nil, or_false] at hop
  rcases hop with rfl | rfl | rfl | rfl | rfl | rfl <;> simp only [Ordinary] <;> decide +kernel

end Riot.Store
