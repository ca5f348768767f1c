import Verif.Proofs.StableSort
import Mathlib.Order.Basic
import Mathlib.Data.List.Sort

/-!
# C47, C48, C49: sorting of uint64 slices

`Sort.sort asc` is core.Asc, `Sort.sort desc` core.Desc, `Sort.stable asc` core.StableAsc,
`Sort.stable desc` core.StableDesc, `Sort.isSorted asc` core.IsSortedAsc, `Sort.isSorted desc`
core.IsSortedDesc. `none` would be an index out of range or an endless loop.
-/

namespace Riot.Sort

theorem good_asc : Good asc (fun x y => x ≤ y) where
  refl _ := UInt64.le_refl _
  trans _ _ _ := UInt64.le_trans
  total := UInt64.le_total
  lt x y := by simp [asc]
  ge x y := by simp [asc]
  merge_t x y h := by simpa [asc] using h
  merge_f x y h := by simp only [asc, decide_eq_false_iff_not, ge_iff_le, UInt64.not_le] at h; exact UInt64.le_of_lt h

theorem good_desc : Good desc (fun x y => x ≥ y) where
  refl _ := UInt64.le_refl _
  trans _ _ _ h1 h2 := UInt64.le_trans h2 h1
  total x y := UInt64.le_total y x
  lt x y := by simp [desc]
  ge x y := by simp [desc]
  merge_t x y h := by simp only [desc, decide_eq_true_eq] at h; exact UInt64.le_of_lt h
  merge_f x y h := by simpa [desc] using h

theorem el_nat {l : List UInt64} {i : Nat} (h : i < l.length) : el l i = l[i] := by
  simp [el, List.getD_eq_getElem?_getD, List.getElem?_eq_getElem h]

theorem pairwise_of_sortedOn {le : UInt64 → UInt64 → Prop} {l : List UInt64} (h : SortedOn le l 0 l.length) :
    l.Pairwise le := by
  rw [List.pairwise_iff_getElem]
  intro i j hi hj hij
  have := h i j (by omega) (by omega) (by omega)
  rwa [el_nat hi, el_nat hj] at this

/-- C47: core.Asc rearranges every slice into ascending order, without a panic. -/
theorem C47_asc_sorts (l : List UInt64) :
    ∃ out : List UInt64, sort asc l = some out ∧ out.Perm l ∧ out.Pairwise (fun x y => x ≤ y) := by
  obtain ⟨l', e1, e2, e3⟩ := sort_spec good_asc l
  exact ⟨l', e1, e2, pairwise_of_sortedOn e3⟩

/-- C47: core.Desc rearranges every slice into descending order, without a panic. -/
theorem C47_desc_sorts (l : List UInt64) :
    ∃ out : List UInt64, sort desc l = some out ∧ out.Perm l ∧ out.Pairwise (fun x y => x ≥ y) := by
  obtain ⟨l', e1, e2, e3⟩ := sort_spec good_desc l
  exact ⟨l', e1, e2, pairwise_of_sortedOn e3⟩

/-- C48: core.StableAsc rearranges every slice into ascending order, without a panic. -/
theorem C48_stableAsc_sorts (l : List UInt64) :
    ∃ out : List UInt64, stable asc l = some out ∧ out.Perm l ∧ out.Pairwise (fun x y => x ≤ y) := by
  obtain ⟨l', e1, e2, e3⟩ := stable_spec good_asc l
  exact ⟨l', e1, e2, pairwise_of_sortedOn e3⟩

/-- C48: core.StableDesc rearranges every slice into descending order, without a panic (although
its merge compares with `<` where StableAsc has `>=`). -/
theorem C48_stableDesc_sorts (l : List UInt64) :
    ∃ out : List UInt64, stable desc l = some out ∧ out.Perm l ∧ out.Pairwise (fun x y => x ≥ y) := by
  obtain ⟨l', e1, e2, e3⟩ := stable_spec good_desc l
  exact ⟨l', e1, e2, pairwise_of_sortedOn e3⟩

/-- Two ascending rearrangements of the same slice are equal. -/
theorem sorted_unique {a b : List UInt64} (h : a.Perm b) (ha : a.Pairwise (fun x y => x ≤ y))
    (hb : b.Pairwise (fun x y => x ≤ y)) : a = b :=
  h.eq_of_pairwise (fun _ _ _ _ h1 h2 => UInt64.le_antisymm h1 h2) ha hb

/-- C48: Asc and StableAsc compute the same slice, and Desc and StableDesc its reverse. -/
theorem C48_all_four_agree (l : List UInt64) :
    ∃ out : List UInt64, sort asc l = some out ∧ stable asc l = some out ∧
      sort desc l = some out.reverse ∧ stable desc l = some out.reverse := by
  obtain ⟨a, a1, a2, a3⟩ := C47_asc_sorts l
  obtain ⟨b, b1, b2, b3⟩ := C48_stableAsc_sorts l
  obtain ⟨d, d1, d2, d3⟩ := C47_desc_sorts l
  obtain ⟨e, e1, e2, e3⟩ := C48_stableDesc_sorts l
  have rev : ∀ x : List UInt64, x.Perm l → x.Pairwise (fun x y => x ≥ y) → x = a.reverse := by
    intro x hx hp
    have h1 : x.reverse = a := sorted_unique ((List.reverse_perm x).trans (hx.trans a2.symm))
      (List.pairwise_reverse.2 hp) a3
    rw [← h1, List.reverse_reverse]
  refine ⟨a, a1, ?_, ?_, ?_⟩
  · rw [b1, sorted_unique (b2.trans a2.symm) b3 a3]
  · rw [d1, rev d d2 d3]
  · rw [e1, rev e e2 e3]

theorem isSorted_eq {c : Cmp UInt64} {le : UInt64 → UInt64 → Prop} (g : Good c le) (l : List UInt64) :
    ∃ b : Bool, isSorted c l = some b ∧ (b = true ↔ l.Pairwise le) := by
  refine ⟨_, isSortedLoop_spec (c := c) (l.length - 1) (by omega), ?_⟩
  rw [decide_eq_true_iff]
  constructor
  · intro h
    have hchain : ∀ n i : Nat, i + n < l.length → le (el l i) (el l ((i + n : Nat) : Int)) := by
      intro n
      induction n with
      | zero => intro i _; exact g.refl _
      | succ n ih =>
        intro i hi
        refine g.trans _ _ _ (ih i (by omega)) ?_
        have := g.of_not_lt (h (i + n) (by omega))
        rwa [show (((i + n : Nat) : Int)) + 1 = ((i + (n + 1) : Nat) : Int) by push_cast; ring] at this
    rw [List.pairwise_iff_getElem]
    intro i j hi hj hij
    have := hchain (j - i) i (by omega)
    rw [show i + (j - i) = j by omega] at this
    rwa [el_nat hi, el_nat hj] at this
  · intro h i hi
    rw [List.pairwise_iff_getElem] at h
    have h1 := h i (i + 1) (by omega) (by omega) (by omega)
    have e1 : el l ((i : Int) + 1) = l[i + 1] := by
      have := el_nat (l := l) (i := i + 1) (by omega)
      rw [← this]; push_cast; rfl
    rw [e1, el_nat (by omega)]
    by_contra hc
    exact (g.lt _ _).1 (by simpa using hc) h1

/-- C49: core.IsSortedAsc is true exactly for ascending slices (and never panics). -/
theorem C49_isSortedAsc_exact (l : List UInt64) :
    ∃ b : Bool, isSorted asc l = some b ∧ (b = true ↔ l.Pairwise (fun x y => x ≤ y)) := isSorted_eq good_asc l

/-- C49: core.IsSortedDesc is true exactly for descending slices (and never panics). -/
theorem C49_isSortedDesc_exact (l : List UInt64) :
    ∃ b : Bool, isSorted desc l = some b ∧ (b = true ↔ l.Pairwise (fun x y => x ≥ y)) := isSorted_eq good_desc l

/-- Some data with many equal values, longer than 40 (median of nine, heap sort not needed). -/
def sortDemo : List UInt64 := (List.range 60).map (fun i => UInt64.ofNat ((i * 37) % 23))

example : (sort asc sortDemo).bind (isSorted asc) = some true ∧ isSorted asc sortDemo = some false ∧
    (sort asc sortDemo).map (fun l => (l.take 4, l.drop 57)) = some ([0, 0, 0, 1], [21, 22, 22]) := by decide +kernel
example : stable desc sortDemo = (sort asc sortDemo).map List.reverse := by decide +kernel
example : isSorted asc [1, 2, 2, 5] = some true ∧ isSorted asc [1, 3, 2] = some false ∧ isSorted desc [3, 3, 1] = some true := by
  decide +kernel

end Riot.Sort
