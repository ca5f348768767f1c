import Verif.Basic.GoStr
import Mathlib.Data.List.Nodup
import Mathlib.Algebra.BigOperators.Group.List.Basic
import Mathlib.Algebra.Order.Ring.Rat

/-!
# Go maps with string keys

A finite list of entries with pairwise distinct keys.  The order of the entries carries
no meaning (Go's iteration order is unspecified).
-/

namespace Riot

/-- Go `map[string]V`. -/
structure GoMap (V : Type) where
  entries : List (Str × V)
  nodup : (entries.map Prod.fst).Nodup

namespace GoMap
variable {V W : Type}

/-- `make(map[string]V)` -/
def empty : GoMap V := ⟨[], by simp⟩

/-- `v, ok := m[k]` -/
def get (m : GoMap V) (k : Str) : Option V := (m.entries.find? (fun e => e.1 = k)).map (·.2)

/-- `delete(m, k)` -/
def del (m : GoMap V) (k : Str) : GoMap V :=
  ⟨m.entries.filter (fun e => e.1 ≠ k), by
    refine List.Nodup.sublist ?_ m.nodup
    exact (List.filter_sublist).map _⟩

/-- `m[k] = v` -/
def set (m : GoMap V) (k : Str) (v : V) : GoMap V :=
  ⟨(k, v) :: (m.del k).entries, by
    simp only [List.map_cons, List.nodup_cons]
    refine ⟨?_, (m.del k).nodup⟩
    simp [del]⟩

theorem get_eq_some_iff (m : GoMap V) (k : Str) (v : V) :
    m.get k = some v ↔ (k, v) ∈ m.entries := by
  obtain ⟨l, h⟩ := m
  simp only [get]
  induction l with
  | nil => simp
  | cons e l ih =>
    obtain ⟨k', v'⟩ := e
    simp only [List.map_cons, List.nodup_cons] at h
    by_cases hk : k' = k
    · subst hk
      simp only [List.find?_cons, decide_true, Option.map_some, Option.some.injEq,
        List.mem_cons, Prod.mk.injEq, true_and]
      constructor
      · intro hv; exact Or.inl hv.symm
      · rintro (hv | hv)
        · exact hv.symm
        · exact absurd (List.mem_map_of_mem (f := Prod.fst) hv) h.1
    · rw [List.find?_cons_of_neg (by simpa using hk), ih h.2]
      simp only [List.mem_cons, Prod.mk.injEq]
      constructor
      · exact Or.inr
      · rintro (⟨hv, _⟩ | hv)
        · exact absurd hv.symm hk
        · exact hv

@[simp] theorem get_empty (k : Str) : (empty : GoMap V).get k = none := rfl

theorem get_del (m : GoMap V) (k k' : Str) :
    (m.del k).get k' = if k' = k then none else m.get k' := by
  ext v
  rw [get_eq_some_iff]
  by_cases h : k' = k
  · simp [del, h]
  · rw [if_neg h, get_eq_some_iff]; simp [del, h]

theorem get_set (m : GoMap V) (k k' : Str) (v : V) :
    (m.set k v).get k' = if k' = k then some v else m.get k' := by
  ext w
  rw [get_eq_some_iff]
  by_cases h : k' = k
  · simp [set, del, h, eq_comm]
  · rw [if_neg h, get_eq_some_iff]; simp [set, del, h]

@[simp] theorem get_set_self (m : GoMap V) (k : Str) (v : V) : (m.set k v).get k = some v := by
  simp [get_set]

/-- Number of entries satisfying `p`. -/
def count (m : GoMap V) (p : V → Bool) : Nat := m.entries.countP (fun e => p e.2)

/-- Sum of `f` over the entries. -/
def sumBy (m : GoMap V) (f : V → Rat) : Rat := (m.entries.map (fun e => f e.2)).sum

theorem get_eq_none_iff (m : GoMap V) (k : Str) :
    m.get k = none ↔ ∀ v, (k, v) ∉ m.entries := by
  constructor
  · intro h v hv
    rw [← get_eq_some_iff, h] at hv; simp at hv
  · intro h
    cases hg : m.get k with
    | none => rfl
    | some v => exact absurd ((get_eq_some_iff m k v).1 hg) (h v)

theorem entries_perm_del (m : GoMap V) (k : Str) (v : V) (h : m.get k = some v) :
    m.entries.Perm ((k, v) :: (m.del k).entries) := by
  rw [get_eq_some_iff] at h
  have hn : m.entries.Nodup := List.Nodup.of_map _ m.nodup
  have hn2 : ((k, v) :: (m.del k).entries).Nodup := by
    have := (m.set k v).nodup
    exact List.Nodup.of_map _ this
  rw [List.perm_ext_iff_of_nodup hn hn2]
  rintro ⟨k', v'⟩
  simp only [del, List.mem_cons, Prod.mk.injEq, List.mem_filter, ne_eq, decide_not,
    Bool.not_eq_eq_eq_not, Bool.not_true, decide_eq_false_iff_not]
  constructor
  · intro h'
    by_cases hk : k' = k
    · subst hk
      rw [← get_eq_some_iff] at h h'
      rw [h] at h'
      left; exact ⟨rfl, (Option.some.inj h').symm⟩
    · exact Or.inr ⟨h', hk⟩
  · rintro (⟨rfl, rfl⟩ | ⟨h', _⟩)
    · exact h
    · exact h'

theorem entries_del_of_none (m : GoMap V) (k : Str) (h : m.get k = none) :
    (m.del k).entries = m.entries := by
  rw [get_eq_none_iff] at h
  simp only [del, List.filter_eq_self]
  rintro ⟨k', v'⟩ h'
  simp only [ne_eq, decide_not, Bool.not_eq_eq_eq_not, Bool.not_true, decide_eq_false_iff_not]
  rintro rfl
  exact h _ h'

theorem sumBy_set (m : GoMap V) (f : V → Rat) (k : Str) (v : V) :
    (m.set k v).sumBy f = f v + (m.del k).sumBy f := by
  simp [sumBy, set]

theorem sumBy_del (m : GoMap V) (f : V → Rat) (k : Str) :
    (m.del k).sumBy f = m.sumBy f - ((m.get k).map f).getD 0 := by
  cases h : m.get k with
  | none => simp [sumBy, entries_del_of_none m k h]
  | some v =>
    have := (entries_perm_del m k v h).map (fun e => f e.2)
    have := this.sum_eq
    simp only [List.map_cons, List.sum_cons] at this
    simp [sumBy, this]

theorem count_set (m : GoMap V) (p : V → Bool) (k : Str) (v : V) :
    (m.set k v).count p = (if p v then 1 else 0) + (m.del k).count p := by
  simp [count, set, List.countP_cons]; omega

theorem count_del (m : GoMap V) (p : V → Bool) (k : Str) :
    (m.del k).count p + (if (m.get k).any p then 1 else 0) = m.count p := by
  cases h : m.get k with
  | none => simp [count, entries_del_of_none m k h]
  | some v =>
    have := (entries_perm_del m k v h).countP_eq (fun e => p e.2)
    simp only [List.countP_cons] at this
    simp [count, this]

/-- The keys whose value satisfies `p`: a duplicate-free list of length `count p`. -/
def keysWhere (m : GoMap V) (p : V → Bool) : List Str :=
  (m.entries.filter (fun e => p e.2)).map Prod.fst

theorem keysWhere_nodup (m : GoMap V) (p : V → Bool) : (m.keysWhere p).Nodup :=
  List.Nodup.sublist ((List.filter_sublist).map _) m.nodup

theorem length_keysWhere (m : GoMap V) (p : V → Bool) : (m.keysWhere p).length = m.count p := by
  simp [keysWhere, count, List.countP_eq_length_filter]

theorem mem_keysWhere (m : GoMap V) (p : V → Bool) (k : Str) :
    k ∈ m.keysWhere p ↔ ∃ v, m.get k = some v ∧ p v = true := by
  simp only [keysWhere, List.mem_map, List.mem_filter, Prod.exists, exists_and_right,
    exists_eq_right]
  constructor
  · rintro ⟨v, h, hp⟩; exact ⟨v, (get_eq_some_iff _ _ _).2 h, hp⟩
  · rintro ⟨v, h, hp⟩; exact ⟨v, (get_eq_some_iff _ _ _).1 h, hp⟩

/-- Process every entry, possibly deleting it (`some none`), possibly panicking (`none`):
Go's `for k, v := range m { ... delete(m, k) ... }` when the body touches only its entry. -/
def rangeUpdateList (f : V → Option (Option W)) : List (Str × V) → Option (List (Str × W))
  | [] => some []
  | (k, v) :: l =>
    match f v, rangeUpdateList f l with
    | some (some w), some l' => some ((k, w) :: l')
    | some none, some l' => some l'
    | _, _ => none

theorem rangeUpdateList_keys (f : V → Option (Option W)) (l : List (Str × V))
    (l' : List (Str × W)) (h : rangeUpdateList f l = some l') :
    (l'.map Prod.fst).Sublist (l.map Prod.fst) := by
  induction l generalizing l' with
  | nil => simp [rangeUpdateList] at h; simp [← h]
  | cons e l ih =>
    obtain ⟨k, v⟩ := e
    simp only [rangeUpdateList] at h
    split at h
    · rename_i w l'' _ h2
      simp only [Option.some.injEq] at h; subst h
      simpa using ih _ h2
    · rename_i l'' _ h2
      simp only [Option.some.injEq] at h; subst h
      exact (ih _ h2).trans (by simp)
    · simp at h

/-- `rangeUpdateList` on a whole map. -/
def rangeUpdate (m : GoMap V) (f : V → Option (Option W)) : Option (GoMap W) :=
  match h : rangeUpdateList f m.entries with
  | none => none
  | some l => some ⟨l, List.Nodup.sublist (rangeUpdateList_keys f _ _ h) m.nodup⟩

theorem rangeUpdate_eq_some (m : GoMap V) (f : V → Option (Option W)) (g : V → Option W)
    (hf : ∀ k v, m.get k = some v → f v = some (g v)) :
    ∃ m', m.rangeUpdate f = some m' ∧ ∀ k, m'.get k = (m.get k).bind g := by
  have key : ∀ l : List (Str × V), (∀ k v, (k, v) ∈ l → f v = some (g v)) →
      ∃ l', rangeUpdateList f l = some l' ∧
        ∀ k w, (k, w) ∈ l' ↔ ∃ v, (k, v) ∈ l ∧ g v = some w := by
    intro l
    induction l with
    | nil => intro _; exact ⟨[], rfl, by simp⟩
    | cons e l ih =>
      obtain ⟨k, v⟩ := e
      intro h
      obtain ⟨l', h1, h2⟩ := ih (fun k v hm => h k v (List.mem_cons_of_mem _ hm))
      have hv := h k v (by simp)
      cases hg : g v with
      | none =>
        refine ⟨l', by simp [rangeUpdateList, hv, hg, h1], ?_⟩
        intro k' w
        rw [h2]
        constructor
        · rintro ⟨v', hm, hw⟩; exact ⟨v', List.mem_cons_of_mem _ hm, hw⟩
        · rintro ⟨v', hm, hw⟩
          simp only [List.mem_cons, Prod.mk.injEq] at hm
          rcases hm with ⟨rfl, rfl⟩ | hm
          · rw [hg] at hw; simp at hw
          · exact ⟨v', hm, hw⟩
      | some w0 =>
        refine ⟨(k, w0) :: l', by simp [rangeUpdateList, hv, hg, h1], ?_⟩
        intro k' w
        simp only [List.mem_cons, Prod.mk.injEq, h2]
        constructor
        · rintro (⟨rfl, rfl⟩ | ⟨v', hm, hw⟩)
          · exact ⟨v, Or.inl ⟨rfl, rfl⟩, hg⟩
          · exact ⟨v', Or.inr hm, hw⟩
        · rintro ⟨v', ⟨rfl, rfl⟩ | hm, hw⟩
          · rw [hg] at hw; exact Or.inl ⟨rfl, (Option.some.inj hw).symm⟩
          · exact Or.inr ⟨v', hm, hw⟩
  obtain ⟨l', h1, h2⟩ := key m.entries (fun k v hm => hf k v ((get_eq_some_iff _ _ _).2 hm))
  refine ⟨⟨l', List.Nodup.sublist (rangeUpdateList_keys f _ _ h1) m.nodup⟩, ?_, ?_⟩
  · unfold rangeUpdate
    split
    · rename_i h; rw [h1] at h; simp at h
    · rename_i l h; rw [h1] at h; simp only [Option.some.injEq] at h; subst h; rfl
  · intro k
    ext w
    rw [get_eq_some_iff]
    show (k, w) ∈ l' ↔ _
    rw [h2, Option.bind_eq_some_iff]
    simp only [get_eq_some_iff]

end GoMap
end Riot
