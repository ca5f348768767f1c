import Verif.Model.Sort
import Mathlib.Data.List.Perm.Basic
import Mathlib.Tactic.Ring
import Mathlib.Tactic.Linarith

/-! # Sorting: elementary facts, insertion sort, heap sort -/

namespace Riot.Sort

variable {α : Type} [Inhabited α]

/-- Element of a list at an integer position. -/
def el (l : List α) (i : Int) : α := l.getD i.toNat default

/-- What the comparison operators must satisfy. -/
structure Good (c : Cmp α) (le : α → α → Prop) : Prop where
  refl : ∀ x, le x x
  trans : ∀ x y z, le x y → le y z → le x z
  total : ∀ x y, le x y ∨ le y x
  lt : ∀ x y, c.lt x y = true ↔ ¬ le y x
  ge : ∀ x y, c.ge x y = true ↔ le y x
  merge_t : ∀ x y, c.merge x y = true → le y x
  merge_f : ∀ x y, c.merge x y = false → le x y

omit [Inhabited α] in
theorem Good.of_lt {c : Cmp α} {le : α → α → Prop} (g : Good c le) {x y : α} (h : c.lt x y = true) : le x y := by
  rcases g.total x y with h1 | h1
  · exact h1
  · exact absurd h1 ((g.lt _ _).1 h)

omit [Inhabited α] in
theorem Good.of_not_lt {c : Cmp α} {le : α → α → Prop} (g : Good c le) {x y : α} (h : c.lt x y = false) : le y x := by
  by_contra hc
  rw [(g.lt x y).2 hc] at h; cases h

omit [Inhabited α] in
theorem Good.of_not_ge {c : Cmp α} {le : α → α → Prop} (g : Good c le) {x y : α} (h : c.ge x y = false) : ¬ le y x := by
  intro hc; rw [(g.ge x y).2 hc] at h; cases h

theorem rd_eq {l : List α} {i : Int} (h0 : 0 ≤ i) (h1 : i < l.length) : rd l i = some (el l i) := by
  have : i.toNat < l.length := by omega
  simp [rd, h0, el, List.getD_eq_getElem?_getD, List.getElem?_eq_getElem this]

theorem less_eq {c : Cmp α} {l : List α} {i j : Int} (h0 : 0 ≤ i) (h1 : i < l.length)
    (h2 : 0 ≤ j) (h3 : j < l.length) : less c l i j = some (c.lt (el l i) (el l j)) := by
  simp [less, rd_eq h0 h1, rd_eq h2 h3]

theorem geq_eq {c : Cmp α} {l : List α} {i j : Int} (h0 : 0 ≤ i) (h1 : i < l.length)
    (h2 : 0 ≤ j) (h3 : j < l.length) : geq c l i j = some (c.ge (el l i) (el l j)) := by
  simp [geq, rd_eq h0 h1, rd_eq h2 h3]

/-- `l'` is `l` with the elements at positions `[a, b)` rearranged. -/
structure Shuf (a b : Int) (l l' : List α) : Prop where
  len : l'.length = l.length
  perm : l'.Perm l
  outside : ∀ k, 0 ≤ k → k < a ∨ b ≤ k → el l' k = el l k
  inside : ∀ k, a ≤ k → k < b → ∃ j, a ≤ j ∧ j < b ∧ el l' k = el l j

theorem Shuf.refl (a b : Int) (l : List α) : Shuf a b l l :=
  ⟨rfl, .refl _, fun _ _ _ => rfl, fun k h1 h2 => ⟨k, h1, h2, rfl⟩⟩

theorem Shuf.trans {a b : Int} {l l' l'' : List α} (h : Shuf a b l l') (h' : Shuf a b l' l'') :
    Shuf a b l l'' := by
  refine ⟨h'.len.trans h.len, h'.perm.trans h.perm, fun k h0 hk => (h'.outside k h0 hk).trans (h.outside k h0 hk), ?_⟩
  intro k h1 h2
  obtain ⟨j, h3, h4, h5⟩ := h'.inside k h1 h2
  obtain ⟨i, h6, h7, h8⟩ := h.inside j h3 h4
  exact ⟨i, h6, h7, h5.trans h8⟩

theorem Shuf.mono {a b a' b' : Int} {l l' : List α} (h : Shuf a b l l') (h0 : 0 ≤ a') (ha : a' ≤ a) (hb : b ≤ b') :
    Shuf a' b' l l' := by
  refine ⟨h.len, h.perm, fun k hk hk' => h.outside k hk (by omega), ?_⟩
  intro k h1 h2
  by_cases hk : a ≤ k ∧ k < b
  · obtain ⟨j, h3, h4, h5⟩ := h.inside k hk.1 hk.2
    exact ⟨j, by omega, by omega, h5⟩
  · exact ⟨k, h1, h2, h.outside k (by omega) (by omega)⟩

/-- A property of all elements of a range is kept when the range is rearranged. -/
theorem Shuf.keep {a b : Int} {l l' : List α} (h : Shuf a b l l') {P : α → Prop}
    (hp : ∀ k, a ≤ k → k < b → P (el l k)) : ∀ k, a ≤ k → k < b → P (el l' k) := by
  intro k h1 h2
  obtain ⟨j, h3, h4, h5⟩ := h.inside k h1 h2
  rw [h5]; exact hp j h3 h4

theorem swp_spec {l : List α} {i j : Int} (h0 : 0 ≤ i) (h1 : i < l.length) (h2 : 0 ≤ j) (h3 : j < l.length) :
    ∃ l', swp l i j = some l' ∧ l'.length = l.length ∧ l'.Perm l ∧
      ∀ k, 0 ≤ k → el l' k = if k = i then el l j else if k = j then el l i else el l k := by
  have hi : i.toNat < l.length := by omega
  have hj : j.toNat < l.length := by omega
  refine ⟨(l.set i.toNat (el l j)).set j.toNat (el l i), ?_, by simp, ?_, ?_⟩
  · simp [swp, rd_eq h0 h1, rd_eq h2 h3]
  · have e1 : el l i = l[i.toNat] := by simp [el, List.getD_eq_getElem?_getD, List.getElem?_eq_getElem hi]
    have e2 : el l j = l[j.toNat] := by simp [el, List.getD_eq_getElem?_getD, List.getElem?_eq_getElem hj]
    rw [e1, e2]
    exact List.set_set_perm hi hj
  · intro k hk
    simp only [el, List.getD_eq_getElem?_getD, List.getElem?_set, List.length_set]
    by_cases h4 : k = j
    · subst h4
      by_cases h5 : k = i
      · subst h5; simp [hi]
      · simp [hj, h5]
    · have h6 : j.toNat ≠ k.toNat := by omega
      by_cases h5 : k = i
      · subst h5; simp [hi, h6]
      · have h7 : i.toNat ≠ k.toNat := by omega
        simp [h6, h7, h4, h5]

theorem swp_shuf {l l' : List α} {i j a b : Int} (hp : l'.Perm l)
    (he : ∀ k, 0 ≤ k → el l' k = if k = i then el l j else if k = j then el l i else el l k)
    (h0 : 0 ≤ a) (hi : a ≤ i) (hi' : i < b) (hj : a ≤ j) (hj' : j < b) : Shuf a b l l' := by
  refine ⟨hp.length_eq, hp, ?_, ?_⟩
  · intro k h1 h2
    rw [he k h1, if_neg (by omega), if_neg (by omega)]
  · intro k h1 h2
    rw [he k (by omega)]
    split
    · exact ⟨j, hj, hj', rfl⟩
    · split
      · exact ⟨i, hi, hi', rfl⟩
      · exact ⟨k, h1, h2, rfl⟩

/-- The range `[a, b)` is in order. -/
def SortedOn (le : α → α → Prop) (l : List α) (a b : Int) : Prop :=
  ∀ i j, a ≤ i → i ≤ j → j < b → le (el l i) (el l j)

theorem SortedOn.congr {le : α → α → Prop} {l l' : List α} {a b : Int} (h : SortedOn le l a b)
    (he : ∀ k, a ≤ k → k < b → el l' k = el l k) : SortedOn le l' a b := by
  intro i j h1 h2 h3
  rw [he i h1 (by omega), he j (by omega) h3]
  exact h i j h1 h2 h3

theorem SortedOn.sub {le : α → α → Prop} {l : List α} {a b a' b' : Int} (h : SortedOn le l a b)
    (ha : a ≤ a') (hb : b' ≤ b) : SortedOn le l a' b' :=
  fun i j h1 h2 h3 => h i j (by omega) h2 (by omega)

/-! ## Insertion sort -/

section
variable {c : Cmp α} {le : α → α → Prop}

theorem insertLoop_spec (g : Good c le) {a i : Int} (ha : 0 ≤ a) :
    ∀ (fuel : Nat) (j : Int) (l : List α), (j - a).toNat < fuel → a ≤ j → j ≤ i → i < l.length →
      (∀ x y, a ≤ x → x ≤ y → y ≤ i → x ≠ j → y ≠ j → le (el l x) (el l y)) →
      (∀ y, j < y → y ≤ i → le (el l j) (el l y)) →
      ∃ l', insertLoop c a fuel j l = some l' ∧ Shuf a (i + 1) l l' ∧ SortedOn le l' a (i + 1) := by
  intro fuel
  induction fuel with
  | zero => intro j l h; omega
  | succ fuel ih =>
    intro j l hf hj hji hil hs1 hs2
    have done : (a < j → le (el l (j - 1)) (el l j)) → SortedOn le l a (i + 1) := by
      intro hlow x y h1 h2 h3
      by_cases hxy : x = y
      · subst hxy; exact g.refl _
      by_cases hx : x = j
      · subst hx; exact hs2 y (by omega) (by omega)
      by_cases hy : y = j
      · subst hy
        by_cases hx1 : x = y - 1
        · subst hx1; exact hlow (by omega)
        · exact g.trans _ _ _ (hs1 x (y - 1) h1 (by omega) (by omega) (by omega) (by omega)) (hlow (by omega))
      · exact hs1 x y h1 h2 (by omega) hx hy
    simp only [insertLoop]
    by_cases hja : j > a
    · rw [if_pos hja, less_eq (by omega) (by omega) (by omega) (by omega)]
      simp only [Option.bind_eq_bind, Option.bind_some]
      by_cases hlt : c.lt (el l j) (el l (j - 1)) = true
      · rw [if_pos hlt]
        obtain ⟨l1, e1, e2, e3, e4⟩ := swp_spec (l := l) (i := j) (j := j - 1) (by omega) (by omega) (by omega) (by omega)
        rw [e1]; simp only [Option.bind_some]
        have hsh : Shuf a (i + 1) l l1 := swp_shuf e3 e4 ha (by omega) (by omega) (by omega) (by omega)
        have hle := g.of_lt hlt
        obtain ⟨l2, f1, f2, f3⟩ := ih (j - 1) l1 (by omega) (by omega) (by omega) (by rw [e2]; omega)
          (by
            intro x y h1 h2 h3 hx hy
            rw [e4 x (by omega), e4 y (by omega)]
            by_cases hxj : x = j
            · subst hxj
              rw [if_pos rfl]
              by_cases hyx : y = x
              · subst hyx; rw [if_pos rfl]; exact g.refl _
              · rw [if_neg hyx, if_neg (by omega)]
                exact hs1 (x - 1) y (by omega) (by omega) h3 (by omega) (by omega)
            · rw [if_neg hxj, if_neg hx]
              by_cases hyj : y = j
              · subst hyj
                rw [if_pos rfl]
                exact hs1 x (y - 1) h1 (by omega) (by omega) (by omega) (by omega)
              · rw [if_neg hyj, if_neg hy]
                exact hs1 x y h1 h2 h3 hxj hyj)
          (by
            intro y h1 h2
            rw [e4 (j - 1) (by omega), if_neg (by omega), if_pos rfl, e4 y (by omega)]
            by_cases hyj : y = j
            · subst hyj; rw [if_pos rfl]; exact hle
            · rw [if_neg hyj, if_neg (by omega)]
              exact hs2 y (by omega) h2)
        exact ⟨l2, f1, hsh.trans f2, f3⟩
      · rw [if_neg hlt]
        exact ⟨l, rfl, Shuf.refl _ _ _, done (fun _ => g.of_not_lt (by simpa using hlt))⟩
    · rw [if_neg hja]
      exact ⟨l, rfl, Shuf.refl _ _ _, done (by omega)⟩

theorem insertionLoop_spec (g : Good c le) {a b : Int} (ha : 0 ≤ a) :
    ∀ (fuel : Nat) (i : Int) (l : List α), (b - i).toNat < fuel → a < i → i ≤ b → b ≤ l.length →
      SortedOn le l a i →
      ∃ l', insertionLoop c a b fuel i l = some l' ∧ Shuf a b l l' ∧ SortedOn le l' a b := by
  intro fuel
  induction fuel with
  | zero => intro i l h; omega
  | succ fuel ih =>
    intro i l hf hi hib hl hs
    simp only [insertionLoop]
    by_cases h : i < b
    · rw [if_pos h]
      obtain ⟨l1, e1, e2, e3⟩ := insertLoop_spec (i := i) g ha ((i - a).toNat + 1) i l (by omega) (by omega) (by omega) (by omega)
        (fun x y h1 h2 h3 h4 h5 => hs x y h1 h2 (by omega)) (by intro y h1 h2; omega)
      rw [e1]
      simp only [Option.bind_eq_bind, Option.bind_some]
      obtain ⟨l2, f1, f2, f3⟩ := ih (i + 1) l1 (by omega) (by omega) (by omega) (by rw [e2.len]; omega) e3
      exact ⟨l2, f1, (e2.mono ha (by omega) (by omega)).trans f2, f3⟩
    · rw [if_neg h]
      have : i = b := by omega
      subst this
      exact ⟨l, rfl, Shuf.refl _ _ _, hs⟩

/-- insertionSort sorts its range. -/
theorem insertionSort_spec (g : Good c le) {l : List α} {a b : Int} (ha : 0 ≤ a) (hab : a ≤ b) (hb : b ≤ l.length) :
    ∃ l', insertionSort c l a b = some l' ∧ Shuf a b l l' ∧ SortedOn le l' a b := by
  by_cases h : a = b
  · subst h
    refine ⟨l, ?_, Shuf.refl _ _ _, by intro i j; omega⟩
    simp only [insertionSort, insertionLoop]
    rw [if_neg (by omega)]; rfl
  · exact insertionLoop_spec g ha _ _ _ (by omega) (by omega) (by omega) hb
      (by intro i j h1 h2 h3
          have : i = j := by omega
          subst this; exact g.refl _)

/-! ## Heap sort -/

/-- Heap order at all nodes `lo ≤ p`, `p ≠ skip`, of the heap of size `hi` at `first`. -/
def HeapFrom (le : α → α → Prop) (l : List α) (first lo hi skip : Int) : Prop :=
  ∀ p k, (k = 2 * p + 1 ∨ k = 2 * p + 2) → lo ≤ p → k < hi → p ≠ skip →
    le (el l (first + k)) (el l (first + p))

theorem largerChild_spec (g : Good c le) {l : List α} {child hi first : Int} (h0 : 0 ≤ first)
    (h1 : 0 ≤ child) (h2 : child < hi) (h3 : first + hi ≤ l.length) :
    ∃ k, largerChild c l child hi first = some k ∧ (k = child ∨ k = child + 1) ∧ k < hi ∧
      le (el l (first + child)) (el l (first + k)) ∧
      (child + 1 < hi → le (el l (first + (child + 1))) (el l (first + k))) := by
  simp only [largerChild]
  by_cases h : child + 1 < hi
  · rw [if_pos h, less_eq (by omega) (by omega) (by omega) (by omega)]
    simp only [Option.bind_eq_bind, Option.bind_some]
    rw [add_assoc]
    by_cases hlt : c.lt (el l (first + child)) (el l (first + (child + 1))) = true
    · rw [if_pos hlt]
      exact ⟨child + 1, rfl, Or.inr rfl, h, g.of_lt hlt, fun _ => g.refl _⟩
    · rw [if_neg hlt]
      exact ⟨child, rfl, Or.inl rfl, h2, g.refl _, fun _ => g.of_not_lt (by simpa using hlt)⟩
  · rw [if_neg h]
    exact ⟨child, rfl, Or.inl rfl, h2, g.refl _, fun h' => absurd h' h⟩

theorem siftLoop_spec (g : Good c le) {lo hi first : Int} (h0 : 0 ≤ first) (hlo : 0 ≤ lo) :
    ∀ (fuel : Nat) (root : Int) (l : List α), (hi - root).toNat < fuel → lo ≤ root → first + hi ≤ l.length →
      HeapFrom le l first lo hi root →
      (∀ q k, (root = 2 * q + 1 ∨ root = 2 * q + 2) → lo ≤ q → (k = 2 * root + 1 ∨ k = 2 * root + 2) → k < hi →
        le (el l (first + k)) (el l (first + q))) →
      ∃ l', siftLoop c hi first fuel root l = some l' ∧ Shuf (first + lo) (first + hi) l l' ∧
        HeapFrom le l' first lo hi (-1) := by
  intro fuel
  induction fuel with
  | zero => intro root l h; omega
  | succ fuel ih =>
    intro root l hf hr hl hheap hgrand
    simp only [siftLoop]
    by_cases hc : 2 * root + 1 ≥ hi
    · rw [if_pos hc]
      refine ⟨l, rfl, Shuf.refl _ _ _, ?_⟩
      intro p k hk hp hkh _
      exact hheap p k hk hp hkh (by omega)
    · rw [if_neg hc]
      obtain ⟨k, e1, e2, e3, e4, e5⟩ := largerChild_spec (c := c) (le := le) g (l := l) (child := 2 * root + 1) (hi := hi)
        (first := first) h0 (by omega) (by omega) hl
      rw [e1]
      simp only [Option.bind_eq_bind, Option.bind_some]
      rw [geq_eq (by omega) (by omega) (by omega) (by omega)]
      simp only [Option.bind_some]
      have echild : ∀ k', (k' = 2 * root + 1 ∨ k' = 2 * root + 2) → k' < hi → le (el l (first + k')) (el l (first + k)) := by
        rintro k' (rfl | rfl) hk'
        · exact e4
        · have := e5 (by omega)
          rwa [show (2 : Int) * root + 1 + 1 = 2 * root + 2 by ring] at this
      by_cases hge : c.ge (el l (first + root)) (el l (first + k)) = true
      · rw [if_pos hge]
        refine ⟨l, rfl, Shuf.refl _ _ _, ?_⟩
        intro p k' hk hp hkh _
        by_cases hpr : p = root
        · subst hpr
          exact g.trans _ _ _ (echild k' hk hkh) ((g.ge _ _).1 hge)
        · exact hheap p k' hk hp hkh hpr
      · rw [if_neg hge]
        have hlt : le (el l (first + root)) (el l (first + k)) := by
          rcases g.total (el l (first + root)) (el l (first + k)) with h | h
          · exact h
          · exact absurd h (g.of_not_ge (by simpa using hge))
        obtain ⟨l1, f1, f2, f3, f4⟩ := swp_spec (l := l) (i := first + root) (j := first + k) (by omega) (by omega) (by omega) (by omega)
        rw [f1]; simp only [Option.bind_some]
        have hsh : Shuf (first + lo) (first + hi) l l1 := swp_shuf f3 f4 (by omega) (by omega) (by omega) (by omega) (by omega)
        obtain ⟨l2, g1, g2, g3⟩ := ih k l1 (by omega) (by omega) (by rw [f2]; exact hl)
          (by
            intro p k' hk hp hkh hpk
            rw [f4 _ (by omega), f4 _ (by omega)]
            by_cases hpr : p = root
            · subst hpr
              rw [if_neg (by omega), if_pos rfl]
              by_cases hkk : k' = k
              · subst hkk; rw [if_pos rfl]; exact hlt
              · rw [if_neg (by omega)]; exact echild k' hk hkh
            · rw [if_neg (show ¬ first + p = first + root by omega), if_neg (show ¬ first + p = first + k by omega)]
              by_cases hkr : k' = root
              · subst hkr
                rw [if_pos rfl]
                exact hgrand p k hk hp (by omega) (by omega)
              · rw [if_neg (by omega), if_neg (by omega)]
                exact hheap p k' hk hp hkh hpr)
          (by
            intro q k' hq hlq hk hkh
            have hqr : q = root := by omega
            subst hqr
            rw [f4 _ (by omega), f4 _ (by omega), if_neg (by omega), if_neg (by omega), if_pos rfl]
            exact hheap k k' hk (by omega) hkh (by omega))
        exact ⟨l2, g1, hsh.trans g2, g3⟩

theorem siftDown_spec (g : Good c le) {lo hi first : Int} {l : List α} (h0 : 0 ≤ first) (hlo : 0 ≤ lo)
    (hl : first + hi ≤ l.length) (hh : HeapFrom le l first (lo + 1) hi (-1)) :
    ∃ l', siftDown c l lo hi first = some l' ∧ Shuf (first + lo) (first + hi) l l' ∧
      HeapFrom le l' first lo hi (-1) := by
  refine siftLoop_spec g h0 hlo _ lo l (by omega) (le_refl _) hl ?_ ?_
  · intro p k hk hp hkh hpl
    exact hh p k hk (by omega) hkh (by omega)
  · intro q k h1 h2; omega

theorem heapify_spec (g : Good c le) {hi first : Int} (h0 : 0 ≤ first) :
    ∀ (n : Nat) (l : List α), first + hi ≤ l.length → HeapFrom le l first n hi (-1) →
      ∃ l', heapify c hi first n l = some l' ∧ Shuf first (first + hi) l l' ∧ HeapFrom le l' first 0 hi (-1) := by
  intro n
  induction n with
  | zero => intro l hl hh; exact ⟨l, rfl, Shuf.refl _ _ _, hh⟩
  | succ n ih =>
    intro l hl hh
    simp only [heapify]
    obtain ⟨l1, e1, e2, e3⟩ := siftDown_spec g (lo := n) h0 (by omega) hl (by simpa using hh)
    rw [e1]
    simp only [Option.bind_eq_bind, Option.bind_some]
    obtain ⟨l2, f1, f2, f3⟩ := ih l1 (by rw [e2.len]; exact hl) e3
    exact ⟨l2, f1, (e2.mono h0 (by omega) (le_refl _)).trans f2, f3⟩

/-- The root of a heap is its maximum. -/
theorem heap_max (g : Good c le) {l : List α} {first hi : Int} (h : HeapFrom le l first 0 hi (-1)) :
    ∀ k : Nat, (k : Int) < hi → le (el l (first + k)) (el l first) := by
  intro k
  induction k using Nat.strong_induction_on with
  | _ k ih =>
    intro hk
    by_cases h0 : k = 0
    · subst h0; simp; exact g.refl _
    · have hp := h (((k - 1) / 2 : Nat) : Int) k (by omega) (by omega) hk (by omega)
      exact g.trans _ _ _ hp (ih ((k - 1) / 2) (by omega) (by omega))

theorem popLoop_spec (g : Good c le) {first hi : Int} (h0 : 0 ≤ first) :
    ∀ (n : Nat) (l : List α), first + hi ≤ l.length → (n : Int) ≤ hi → HeapFrom le l first 0 n (-1) →
      SortedOn le l (first + n) (first + hi) →
      (∀ x y, first ≤ x → x < first + n → first + n ≤ y → y < first + hi → le (el l x) (el l y)) →
      ∃ l', popLoop c first n l = some l' ∧ Shuf first (first + hi) l l' ∧ SortedOn le l' first (first + hi) := by
  intro n
  induction n with
  | zero =>
    intro l hl hn hh hs hx
    exact ⟨l, rfl, Shuf.refl _ _ _, by simpa using hs⟩
  | succ n ih =>
    intro l hl hn hh hs hx
    push_cast at hn hh hs hx
    simp only [popLoop]
    obtain ⟨l1, e1, e2, e3, e4⟩ := swp_spec (l := l) (i := first) (j := first + n) (by omega) (by omega) (by omega) (by omega)
    rw [e1]
    simp only [Option.bind_eq_bind, Option.bind_some]
    have hsh1 : Shuf first (first + (n + 1)) l l1 := swp_shuf e3 e4 h0 (by omega) (by omega) (by omega) (by omega)
    have hmax : ∀ x, first ≤ x → x < first + (n + 1) → le (el l x) (el l first) := by
      intro x hx1 hx2
      have := heap_max g hh (x - first).toNat (by omega)
      rwa [show first + ((x - first).toNat : Int) = x by omega] at this
    obtain ⟨l2, f1, f2, f3⟩ := siftDown_spec (l := l1) g (lo := 0) (hi := n) (first := first) h0 (le_refl _) (by rw [e2]; omega)
      (by
        intro p k hk hp hkh _
        rw [e4 _ (by omega), e4 _ (by omega), if_neg (by omega), if_neg (by omega), if_neg (by omega), if_neg (by omega)]
        exact hh p k hk (by omega) (by omega) (by omega))
    rw [f1]
    simp only [Option.bind_some]
    simp only [add_zero] at f2
    have hlast : el l2 (first + n) = el l first := by
      rw [f2.outside _ (by omega) (by omega), e4 _ (by omega)]
      by_cases hn0 : first + (n : Int) = first
      · rw [if_pos hn0, hn0]
      · rw [if_neg hn0, if_pos rfl]
    have hrest : ∀ k, first + (n + 1) ≤ k → el l2 k = el l k := by
      intro k hk
      rw [f2.outside _ (by omega) (by omega), e4 _ (by omega), if_neg (by omega), if_neg (by omega)]
    have hsmall : ∀ (P : α → Prop), (∀ x, first ≤ x → x < first + (n + 1) → P (el l x)) →
        ∀ x, first ≤ x → x < first + n → P (el l2 x) := by
      intro P hP
      refine f2.keep ?_
      intro k hk1 hk2
      exact hsh1.keep hP k hk1 (by omega)
    obtain ⟨l3, g1, g2, g3⟩ := ih l2 (by rw [f2.len, e2]; exact hl) (by omega) f3
      (by
        intro i j h1 h2 h3
        by_cases hi : i = first + n
        · rw [hi, hlast]
          by_cases hj : j = first + n
          · rw [hj, hlast]; exact g.refl _
          · rw [hrest j (by omega)]
            exact hx first j (by omega) (by omega) (by omega) h3
        · rw [hrest i (by omega), hrest j (by omega)]
          exact hs i j (by omega) h2 h3)
      (by
        intro x y h1 h2 h3 h4
        by_cases hy : y = first + n
        · rw [hy, hlast]
          exact hsmall (fun v => le v (el l first)) hmax x h1 h2
        · rw [hrest y (by omega)]
          exact hsmall (fun v => le v (el l y)) (fun x' h5 h6 => hx x' y h5 h6 (by omega) h4) x h1 h2)
    refine ⟨l3, g1, ?_, g3⟩
    exact ((hsh1.mono h0 (le_refl _) (by omega)).trans (f2.mono h0 (le_refl _) (by omega))).trans g2

/-- heapSort sorts its range. -/
theorem heapSort_spec (g : Good c le) {l : List α} {a b : Int} (ha : 0 ≤ a) (hab : a < b) (hb : b ≤ l.length) :
    ∃ l', heapSort c l a b = some l' ∧ Shuf a b l l' ∧ SortedOn le l' a b := by
  simp only [heapSort]
  have hd : Int.tdiv (b - a - 1) 2 = (b - a - 1) / 2 := Int.tdiv_eq_ediv_of_nonneg (by omega)
  obtain ⟨l1, e1, e2, e3⟩ := heapify_spec g (hi := b - a) ha (Int.tdiv (b - a - 1) 2 + 1).toNat l (by omega)
    (by intro p k hk hp hkh; rw [hd] at hp; omega)
  rw [e1]
  simp only [Option.bind_eq_bind, Option.bind_some]
  rw [show a + (b - a) = b by ring] at e2
  have hn : (((b - a).toNat : Nat) : Int) = b - a := by omega
  obtain ⟨l2, f1, f2, f3⟩ := popLoop_spec g (hi := b - a) ha (b - a).toNat l1 (by rw [e2.len]; omega) (by omega)
    (by rw [hn]; exact e3) (by intro i j; omega) (by intro x y; omega)
  rw [show a + (b - a) = b by ring] at f2 f3
  exact ⟨l2, f1, e2.trans f2, f3⟩

end

end Riot.Sort
