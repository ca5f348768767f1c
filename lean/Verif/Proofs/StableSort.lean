import Verif.Proofs.QuickSort

/-! # Sorting: rotation, SymMerge, StableAsc / StableDesc, IsSorted -/

namespace Riot.Sort

variable {α : Type} [Inhabited α] {c : Cmp α} {le : α → α → Prop}

/-- `l'` is `l` with the adjacent blocks of lengths `i` and `j` at `x` exchanged. -/
structure Rot (x i j : Int) (l l' : List α) : Prop where
  perm : l'.Perm l
  right : ∀ k, 0 ≤ k → k < j → el l' (x + k) = el l (x + i + k)
  left : ∀ k, 0 ≤ k → k < i → el l' (x + j + k) = el l (x + k)
  outside : ∀ k, 0 ≤ k → k < x ∨ x + i + j ≤ k → el l' k = el l k

theorem Rot.len {x i j : Int} {l l' : List α} (h : Rot x i j l l') : l'.length = l.length := h.perm.length_eq

theorem Rot.shuf {x i j : Int} {l l' : List α} (h : Rot x i j l l') (hi : 0 ≤ i) (hj : 0 ≤ j) :
    Shuf x (x + i + j) l l' := by
  refine ⟨h.len, h.perm, h.outside, ?_⟩
  intro k h1 h2
  by_cases hk : k < x + j
  · refine ⟨x + i + (k - x), by omega, by omega, ?_⟩
    rw [← h.right (k - x) (by omega) (by omega)]; congr 1; omega
  · refine ⟨x + (k - x - j), by omega, by omega, ?_⟩
    rw [← h.left (k - x - j) (by omega) (by omega)]; congr 1; omega

theorem swapRange_rot {l : List α} {x i : Int} (hx : 0 ≤ x) (hi : 0 ≤ i) (hl : x + i + i ≤ l.length) :
    ∃ l', swapRange l x (x + i) i.toNat = some l' ∧ Rot x i i l l' := by
  obtain ⟨l', e1, e2, e3⟩ := swapRange_spec i.toNat l x (x + i) hx (by omega) (by omega)
  refine ⟨l', e1, e2, ?_, ?_, ?_⟩
  · intro k h1 h2
    rw [e3 _ (by omega), if_pos (by omega)]; congr 1; omega
  · intro k h1 h2
    rw [e3 _ (by omega), if_neg (by omega), if_pos (by omega)]; congr 1; omega
  · intro k h1 h2
    rw [e3 _ h1, if_neg (by omega), if_neg (by omega)]

theorem rotateLoop_spec {p : Int} : ∀ (fuel : Nat) (i j : Int) (l : List α), (i + j).toNat < fuel →
    0 < i → 0 < j → 0 ≤ p - i → p + j ≤ l.length →
    ∃ l', rotateLoop p fuel i j l = some l' ∧ Rot (p - i) i j l l' := by
  intro fuel
  induction fuel with
  | zero => intro i j l h; omega
  | succ fuel ih =>
    intro i j l hf hi hj hp hl
    simp only [rotateLoop]
    by_cases hij : i = j
    · subst hij
      rw [if_neg (by simp)]
      obtain ⟨l', e1, e2⟩ := swapRange_rot (l := l) (x := p - i) (i := i) hp (by omega) (by omega)
      rw [show p - i + i = p by ring] at e1
      exact ⟨l', e1, e2⟩
    · rw [if_pos hij]
      by_cases hgt : i > j
      · rw [if_pos hgt]
        obtain ⟨l1, e1, e2, e3⟩ := swapRange_spec j.toNat l (p - i) p hp (by omega) (by omega)
        rw [e1]
        simp only [Option.bind_eq_bind, Option.bind_some]
        have hlen : l1.length = l.length := e2.length_eq
        obtain ⟨l2, f1, f2⟩ := ih (i - j) j l1 (by omega) (by omega) (by omega) (by omega) (by rw [hlen]; omega)
        refine ⟨l2, f1, f2.perm.trans e2, ?_, ?_, ?_⟩
        · intro k h1 h2
          rw [f2.outside _ (by omega) (by omega), e3 _ (by omega), if_pos (by omega)]; congr 1; omega
        · intro k h1 h2
          by_cases hk : k < j
          · rw [show p - i + j + k = p - (i - j) + k by ring, f2.right k h1 hk, e3 _ (by omega), if_neg (by omega), if_pos (by omega)]
            congr 1; omega
          · rw [show p - i + j + k = p - (i - j) + j + (k - j) by ring, f2.left (k - j) (by omega) (by omega),
              e3 _ (by omega), if_neg (by omega), if_neg (by omega)]
            congr 1; omega
        · intro k h1 h2
          rw [f2.outside _ h1 (by omega), e3 _ h1, if_neg (by omega), if_neg (by omega)]
      · rw [if_neg hgt]
        obtain ⟨l1, e1, e2, e3⟩ := swapRange_spec i.toNat l (p - i) (p + j - i) hp (by omega) (by omega)
        rw [e1]
        simp only [Option.bind_eq_bind, Option.bind_some]
        have hlen : l1.length = l.length := e2.length_eq
        obtain ⟨l2, f1, f2⟩ := ih i (j - i) l1 (by omega) (by omega) (by omega) (by omega) (by rw [hlen]; omega)
        refine ⟨l2, f1, f2.perm.trans e2, ?_, ?_, ?_⟩
        · intro k h1 h2
          by_cases hk : k < j - i
          · rw [f2.right k h1 hk, e3 _ (by omega), if_neg (by omega), if_neg (by omega)]
          · rw [show p - i + k = p - i + (j - i) + (k - (j - i)) by ring, f2.left (k - (j - i)) (by omega) (by omega),
              e3 _ (by omega), if_pos (by omega)]
            congr 1; omega
        · intro k h1 h2
          rw [f2.outside _ (by omega) (by omega), e3 _ (by omega), if_neg (by omega), if_pos (by omega)]
          congr 1; omega
        · intro k h1 h2
          rw [f2.outside _ h1 (by omega), e3 _ h1, if_neg (by omega), if_neg (by omega)]

/-- rotate exchanges the blocks `[a, m)` and `[m, b)`. -/
theorem rotate_spec {l : List α} {a m b : Int} (ha : 0 ≤ a) (hm : a ≤ m) (hb : m ≤ b) (hl : b ≤ l.length) :
    ∃ l', rotate l a m b = some l' ∧ Rot a (m - a) (b - m) l l' := by
  simp only [rotate]
  by_cases h1 : m - a = 0
  · rw [if_pos h1]
    refine ⟨l, rfl, .refl _, ?_, ?_, fun _ _ _ => rfl⟩
    · intro k h2 h3; congr 1; omega
    · intro k h2 h3; omega
  rw [if_neg h1]
  by_cases h2 : b - m = 0
  · rw [if_pos h2]
    refine ⟨l, rfl, .refl _, ?_, ?_, fun _ _ _ => rfl⟩
    · intro k h2 h3; omega
    · intro k h2 h3; congr 1; omega
  rw [if_neg h2]
  by_cases h3 : m - a = b - m
  · rw [if_pos h3, ← h3]
    obtain ⟨l', e1, e2⟩ := swapRange_rot (l := l) (x := a) (i := m - a) ha (by omega) (by omega)
    rw [show a + (m - a) = m by ring] at e1
    exact ⟨l', e1, e2⟩
  · rw [if_neg h3]
    obtain ⟨l', e1, e2⟩ := rotateLoop_spec (p := a + (m - a)) ((b - a).toNat + 1) (m - a) (b - m) l (by omega) (by omega)
      (by omega) (by omega) (by omega)
    rw [show a + (m - a) - (m - a) = a by ring] at e2
    exact ⟨l', e1, e2⟩

/-- The binary search of symMerge: a point where the comparison of mirrored positions changes. -/
theorem mergeSearch_spec (g : Good c le) {l : List α} {p lo hi : Int} (hlo : 0 ≤ lo) (hhi : hi ≤ l.length)
    (hp1 : hi ≤ p + 1) (hp2 : p - lo < l.length) :
    ∀ (fuel : Nat) (start r : Int), (r - start).toNat < fuel → lo ≤ start → start ≤ r → r ≤ hi →
      (lo < start → le (el l (start - 1)) (el l (p - (start - 1)))) →
      (r < hi → le (el l (p - r)) (el l r)) →
      ∃ s, mergeSearch c l p fuel start r = some s ∧ lo ≤ s ∧ s ≤ hi ∧
        (lo < s → le (el l (s - 1)) (el l (p - (s - 1)))) ∧ (s < hi → le (el l (p - s)) (el l s)) := by
  intro fuel
  induction fuel with
  | zero => intro start r h; omega
  | succ fuel ih =>
    intro start r hf h1 h2 h3 hL hR
    simp only [mergeSearch]
    by_cases h : start < r
    · rw [if_pos h]
      have d2 : Int.tdiv (r - start) 2 = (r - start) / 2 := Int.tdiv_eq_ediv_of_nonneg (by omega)
      simp only [d2]
      rw [rd_eq (by omega) (by omega)]
      simp only [Option.bind_eq_bind, Option.bind_some]
      rw [rd_eq (by omega) (by omega)]
      simp only [Option.bind_some]
      by_cases hm : c.merge (el l (p - (start + (r - start) / 2))) (el l (start + (r - start) / 2)) = true
      · rw [if_pos hm]
        refine ih _ r (by omega) (by omega) (by omega) h3 ?_ hR
        intro _
        rw [show start + (r - start) / 2 + 1 - 1 = start + (r - start) / 2 by ring]
        exact g.merge_t _ _ hm
      · rw [if_neg hm]
        exact ih start _ (by omega) h1 (by omega) (by omega) hL (fun _ => g.merge_f _ _ (by simpa using hm))
    · rw [if_neg h]
      have : start = r := by omega
      subst this
      exact ⟨start, rfl, h1, h3, hL, hR⟩

/-- symMerge merges two adjacent sorted ranges. -/
theorem symMerge_spec (g : Good c le) : ∀ (fuel : Nat) (l : List α) (a m b : Int), (b - a).toNat < fuel →
    0 ≤ a → a ≤ m → b ≤ l.length → SortedOn le l a (min m b) → SortedOn le l m b →
    ∃ l', symMerge c fuel l a m b = some l' ∧ Shuf a b l l' ∧ SortedOn le l' a b := by
  intro fuel
  induction fuel with
  | zero => intro l a m b h; omega
  | succ fuel ih =>
    intro l a m b hf ha ham hb hs1 hs2
    simp only [symMerge]
    by_cases h : a ≥ m ∨ m ≥ b
    · rw [if_pos h]
      refine ⟨l, rfl, Shuf.refl _ _ _, ?_⟩
      rcases h with h | h
      · have : a = m := by omega
        subst this; exact hs2
      · rw [min_eq_right h] at hs1; exact hs1
    · rw [if_neg h]
      push Not at h
      have d2 : Int.tdiv (b - a) 2 = (b - a) / 2 := Int.tdiv_eq_ediv_of_nonneg (by omega)
      simp only [d2]
      rw [min_eq_left (by omega)] at hs1
      obtain ⟨mid, hmid⟩ : ∃ mid, mid = a + (b - a) / 2 := ⟨_, rfl⟩
      rw [← hmid]
      -- the point found by the binary search
      obtain ⟨start, e1, e2, e3, e4, e5⟩ : ∃ start,
          mergeStart c l a m b mid = some start ∧
          a ≤ start ∧ start ≤ m ∧ (start ≤ mid ∧ mid + m - start ≤ b) ∧
          ((a < start → mid + m - start < b → le (el l (start - 1)) (el l (mid + m - start))) ∧
            (start < m → m < mid + m - start → le (el l (mid + m - start - 1)) (el l start))) := by
        unfold mergeStart
        by_cases hm : m > mid
        · rw [if_pos hm]
          obtain ⟨s, f1, f2, f3, f4, f5⟩ := mergeSearch_spec g (l := l) (p := mid + m - 1) (lo := mid + m - b) (hi := mid) (by omega)
            (by omega) (by omega) (by omega) ((mid - (mid + m - b)).toNat + 1) (mid + m - b) mid (by omega) (by omega) (by omega)
            (by omega) (by omega) (by omega)
          refine ⟨s, f1, by omega, by omega, ⟨by omega, by omega⟩, ?_, ?_⟩
          · intro h1 h2
            have := f4 (by omega)
            rwa [show mid + m - 1 - (s - 1) = mid + m - s by ring] at this
          · intro h1 h2
            have := f5 (by omega)
            rwa [show mid + m - 1 - s = mid + m - s - 1 by ring] at this
        · rw [if_neg hm]
          obtain ⟨s, f1, f2, f3, f4, f5⟩ := mergeSearch_spec g (l := l) (p := mid + m - 1) (lo := a) (hi := m) (by omega)
            (by omega) (by omega) (by omega) ((m - a).toNat + 1) a m (by omega) (by omega) (by omega)
            (by omega) (by omega) (by omega)
          refine ⟨s, f1, by omega, by omega, ⟨by omega, by omega⟩, ?_, ?_⟩
          · intro h1 h2
            have := f4 (by omega)
            rwa [show mid + m - 1 - (s - 1) = mid + m - s by ring] at this
          · intro h1 h2
            have := f5 (by omega)
            rwa [show mid + m - 1 - s = mid + m - s - 1 by ring] at this
      rw [e1]
      simp only [Option.bind_eq_bind, Option.bind_some]
      obtain ⟨en, hen⟩ : ∃ en, en = mid + m - start := ⟨_, rfl⟩
      rw [← hen] at e4 e5 ⊢
      obtain ⟨l1, f1, f2⟩ := rotate_spec (l := l) (a := start) (m := m) (b := en) (by omega) e3 (by omega) (by omega)
      rw [f1]
      simp only [Option.bind_some]
      have hlen1 := f2.len
      -- the contents after the rotation
      have r1 : ∀ k, 0 ≤ k → k < start → el l1 k = el l k := fun k h1 h2 => f2.outside k h1 (Or.inl h2)
      have r2 : ∀ k, start ≤ k → k < mid → el l1 k = el l (k + (m - start)) := by
        intro k h1 h2
        have := f2.right (k - start) (by omega) (by omega)
        rw [show start + (k - start) = k by ring] at this
        rw [this]; congr 1; omega
      have r3 : ∀ k, mid ≤ k → k < en → el l1 k = el l (k - (en - m)) := by
        intro k h1 h2
        have := f2.left (k - start - (en - m)) (by omega) (by omega)
        rw [show start + (en - m) + (k - start - (en - m)) = k by ring] at this
        rw [this]; congr 1; omega
      have r4 : ∀ k, en ≤ k → el l1 k = el l k := fun k h1 => f2.outside k (by omega) (by omega)
      -- everything in the left half is at most everything in the right half
      have hcross : ∀ i j, a ≤ i → i < mid → mid ≤ j → j < b → le (el l1 i) (el l1 j) := by
        intro i j hi1 hi2 hj1 hj2
        by_cases hi : i < start
        · rw [r1 i (by omega) hi]
          by_cases hj : j < en
          · rw [r3 j hj1 hj]
            exact hs1 i _ hi1 (by omega) (by omega)
          · rw [r4 j (by omega)]
            refine g.trans _ _ _ (hs1 i (start - 1) hi1 (by omega) (by omega)) ?_
            exact g.trans _ _ _ (e5.1 (by omega) (by omega)) (hs2 en j (by omega) (by omega) hj2)
        · rw [r2 i (by omega) hi2]
          by_cases hj : j < en
          · rw [r3 j hj1 hj]
            refine g.trans _ _ _ (hs2 _ (en - 1) (by omega) (by omega) (by omega)) ?_
            exact g.trans _ _ _ (e5.2 (by omega) (by omega)) (hs1 start _ (by omega) (by omega) (by omega))
          · rw [r4 j (by omega)]
            exact hs2 _ j (by omega) (by omega) hj2
      obtain ⟨l2, g1, g2, g3⟩ := ih l1 a start mid (by omega) ha (by omega) (by omega)
        (by
          intro i j h1 h2 h3
          rw [r1 i (by omega) (by omega), r1 j (by omega) (by omega)]
          exact hs1 i j h1 h2 (by omega))
        (by
          intro i j h1 h2 h3
          rw [r2 i (by omega) (by omega), r2 j (by omega) (by omega)]
          exact hs2 _ _ (by omega) (by omega) (by omega))
      rw [g1]
      simp only [Option.bind_some]
      have q : ∀ k, mid ≤ k → el l2 k = el l1 k := fun k h1 => g2.outside k (by omega) (by omega)
      obtain ⟨l3, k1, k2, k3⟩ := ih l2 mid en b (by omega) (by omega) (by omega) (by rw [g2.len]; omega)
        (by
          intro i j h1 h2 h3
          rw [q i (by omega), q j (by omega), r3 i (by omega) (by omega), r3 j (by omega) (by omega)]
          exact hs1 _ _ (by omega) (by omega) (by omega))
        (by
          intro i j h1 h2 h3
          rw [q i (by omega), q j (by omega), r4 i (by omega), r4 j (by omega)]
          exact hs2 _ _ (by omega) (by omega) (by omega))
      refine ⟨l3, k1, ?_, ?_⟩
      · have hrot := f2.shuf (by omega) (by omega)
        rw [show start + (m - start) + (en - m) = en by ring] at hrot
        exact ((hrot.mono ha (by omega) (by omega)).trans (g2.mono ha (le_refl _) (by omega))).trans (k2.mono ha (by omega) (le_refl _))
      · intro i j h1 h2 h3
        by_cases hj : j < mid
        · rw [k2.outside i (by omega) (by omega), k2.outside j (by omega) (by omega)]
          exact g3 i j h1 h2 hj
        by_cases hi : mid ≤ i
        · exact k3 i j hi h2 h3
        · rw [k2.outside i (by omega) (by omega)]
          refine k2.keep (P := fun v => le (el l2 i) v) ?_ j (by omega) h3
          intro y hy1 hy2
          rw [q y hy1]
          refine g2.keep (P := fun v => le v (el l1 y)) ?_ i h1 (by omega)
          intro x hx1 hx2
          exact hcross x y hx1 hx2 hy1 hy2

/-- All blocks of length `bs` before `n` are in order. -/
def Runs (le : α → α → Prop) (l : List α) (bs n : Int) : Prop :=
  ∀ q : Nat, SortedOn le l (q * bs) (min (q * bs + bs) n)

theorem sortBlocks_spec (g : Good c le) {n bs : Int} (hbs : 0 < bs) : ∀ (fuel : Nat) (q : Nat) (l : List α),
    (n - q * bs).toNat < fuel → q * bs ≤ n → n ≤ l.length →
    (∀ i : Nat, i < q → SortedOn le l (i * bs) (i * bs + bs)) →
    ∃ (q' : Nat) (l' : List α), sortBlocks c n bs fuel (q * bs) l = some (q' * bs, l') ∧ Shuf 0 n l l' ∧
      q' * bs ≤ n ∧ n < q' * bs + bs ∧ ∀ i : Nat, i < q' → SortedOn le l' (i * bs) (i * bs + bs) := by
  intro fuel
  induction fuel with
  | zero => intro q l h; omega
  | succ fuel ih =>
    intro q l hf hq hn hs
    have hq0 : (0 : Int) ≤ q * bs := by positivity
    simp only [sortBlocks]
    by_cases h : q * bs + bs ≤ n
    · rw [if_pos h]
      obtain ⟨l1, e1, e2, e3⟩ := insertionSort_spec (c := c) (l := l) (a := q * bs) (b := q * bs + bs) g hq0 (by omega) (by omega)
      rw [e1]
      simp only [Option.bind_eq_bind, Option.bind_some]
      have hq1 : (((q + 1 : Nat) : Int)) * bs = q * bs + bs := by push_cast; ring
      obtain ⟨q', l2, f1, f2, f3, f4, f5⟩ := ih (q + 1) l1 (by rw [hq1]; omega) (by rw [hq1]; omega) (by rw [e2.len]; omega)
        (by
          intro i hi
          by_cases hiq : i = q
          · subst hiq; exact e3
          · have hle : (i : Int) * bs + bs ≤ q * bs := by
              have : ((i : Int) + 1) * bs ≤ q * bs := by
                apply mul_le_mul_of_nonneg_right _ (by omega)
                omega
              linarith
            have h0 : (0 : Int) ≤ i * bs := by positivity
            exact (hs i (by omega)).congr (fun k h1 h2 => e2.outside k (by omega) (by omega)))
      rw [hq1] at f1
      exact ⟨q', l2, f1, (e2.mono (le_refl _) hq0 h).trans f2, f3, f4, f5⟩
    · rw [if_neg h]
      exact ⟨q, l, rfl, Shuf.refl _ _ _, hq, by omega, hs⟩

theorem mergeBlocks_spec (g : Good c le) {n bs : Int} (hbs : 0 < bs) : ∀ (fuel : Nat) (q : Nat) (l : List α),
    (n - q * (2 * bs)).toNat < fuel → q * (2 * bs) ≤ n → n ≤ l.length →
    (∀ i : Nat, i < q → SortedOn le l (i * (2 * bs)) (i * (2 * bs) + 2 * bs)) →
    (∀ i : Nat, 2 * q ≤ i → SortedOn le l (i * bs) (min (i * bs + bs) n)) →
    ∃ (q' : Nat) (l' : List α), mergeBlocks c n bs fuel (q * (2 * bs)) l = some (q' * (2 * bs), l') ∧ Shuf 0 n l l' ∧
      q' * (2 * bs) ≤ n ∧ n < q' * (2 * bs) + 2 * bs ∧
      (∀ i : Nat, i < q' → SortedOn le l' (i * (2 * bs)) (i * (2 * bs) + 2 * bs)) ∧
      (∀ i : Nat, 2 * q' ≤ i → SortedOn le l' (i * bs) (min (i * bs + bs) n)) := by
  intro fuel
  induction fuel with
  | zero => intro q l h; omega
  | succ fuel ih =>
    intro q l hf hq hn hs hr
    have hq0 : (0 : Int) ≤ q * (2 * bs) := by positivity
    simp only [mergeBlocks]
    by_cases h : q * (2 * bs) + 2 * bs ≤ n
    · rw [if_pos h]
      have ea : (((2 * q : Nat) : Int)) * bs = q * (2 * bs) := by push_cast; ring
      have eb : (((2 * q + 1 : Nat) : Int)) * bs = q * (2 * bs) + bs := by push_cast; ring
      obtain ⟨l1, e1, e2, e3⟩ := symMerge_spec g (l.length + 1) l (q * (2 * bs)) (q * (2 * bs) + bs) (q * (2 * bs) + 2 * bs)
        (by omega) hq0 (by omega) (by omega)
        (by
          have := hr (2 * q) (le_refl _)
          rw [ea] at this
          exact this.sub (le_refl _) (by omega))
        (by
          have := hr (2 * q + 1) (by omega)
          rw [eb] at this
          exact this.sub (le_refl _) (by omega))
      rw [e1]
      simp only [Option.bind_eq_bind, Option.bind_some]
      have hq1 : (((q + 1 : Nat) : Int)) * (2 * bs) = q * (2 * bs) + 2 * bs := by push_cast; ring
      obtain ⟨q', l2, f1, f2, f3, f4, f5, f6⟩ := ih (q + 1) l1 (by rw [hq1]; omega) (by rw [hq1]; omega) (by rw [e2.len]; omega)
        (by
          intro i hi
          by_cases hiq : i = q
          · subst hiq; exact e3
          · have hle : (i : Int) * (2 * bs) + 2 * bs ≤ q * (2 * bs) := by
              have : ((i : Int) + 1) * (2 * bs) ≤ q * (2 * bs) := by
                apply mul_le_mul_of_nonneg_right _ (by omega)
                omega
              linarith
            have h0 : (0 : Int) ≤ i * (2 * bs) := by positivity
            exact (hs i (by omega)).congr (fun k h1 h2 => e2.outside k (by omega) (by omega)))
        (by
          intro i hi
          have hle : q * (2 * bs) + 2 * bs ≤ (i : Int) * bs := by
            have : ((2 * q + 2 : Nat) : Int) * bs ≤ i * bs := by
              apply mul_le_mul_of_nonneg_right _ (by omega)
              omega
            push_cast at this
            linarith
          have hr' := hr i (by omega)
          exact hr'.congr (fun k h1 h2 => e2.outside k (by omega) (by omega)))
      rw [hq1] at f1
      exact ⟨q', l2, f1, (e2.mono (le_refl _) hq0 h).trans f2, f3, f4, f5, f6⟩
    · rw [if_neg h]
      exact ⟨q, l, rfl, Shuf.refl _ _ _, hq, by omega, hs, hr⟩

theorem mergeRounds_spec (g : Good c le) {n : Int} : ∀ (fuel : Nat) (bs : Int) (l : List α), 0 < bs →
    (n - bs).toNat < fuel → n = l.length → Runs le l bs n →
    ∃ l', mergeRounds c n fuel bs l = some l' ∧ l'.Perm l ∧ SortedOn le l' 0 n := by
  intro fuel
  induction fuel with
  | zero => intro bs l _ h; omega
  | succ fuel ih =>
    intro bs l hbs hf hn hr
    simp only [mergeRounds]
    by_cases h : bs < n
    · rw [if_pos h]
      obtain ⟨q, l1, e1, e2, e3, e4, e5, e6⟩ := mergeBlocks_spec g (n := n) hbs (l.length + 1) 0 l (by simp; omega) (by simp; omega)
        (by omega) (by intro i hi; omega) (fun i _ => hr i)
      simp only [Nat.cast_zero, zero_mul] at e1
      rw [e1]
      simp only [Option.bind_eq_bind, Option.bind_some]
      have hq0 : (0 : Int) ≤ q * (2 * bs) := by positivity
      have ea : (((2 * q : Nat) : Int)) * bs = q * (2 * bs) := by push_cast; ring
      have eb : (((2 * q + 1 : Nat) : Int)) * bs = q * (2 * bs) + bs := by push_cast; ring
      have hlen1 := e2.len
      obtain ⟨l2, f1, f2, f3⟩ := symMerge_spec g (l1.length + 1) l1 (q * (2 * bs)) (q * (2 * bs) + bs) n
        (by omega) hq0 (by omega) (by omega)
        (by
          have := e6 (2 * q) (le_refl _)
          rw [ea] at this
          exact this)
        (by
          have := e6 (2 * q + 1) (by omega)
          rw [eb] at this
          exact this.sub (le_refl _) (by omega))
      rw [f1]
      simp only [Option.bind_some]
      obtain ⟨l3, g1, g2, g3⟩ := ih (2 * bs) l2 (by omega) (by omega) (by rw [f2.len]; omega)
        (by
          intro i
          by_cases hi : i < q
          · have hle : (i : Int) * (2 * bs) + 2 * bs ≤ q * (2 * bs) := by
              have : ((i : Int) + 1) * (2 * bs) ≤ q * (2 * bs) := by
                apply mul_le_mul_of_nonneg_right _ (by omega)
                omega
              linarith
            have h0 : (0 : Int) ≤ i * (2 * bs) := by positivity
            exact ((e5 i hi).congr (fun k h1 h2 => f2.outside k (by omega) (by omega))).sub (le_refl _) (by omega)
          · by_cases hiq : i = q
            · subst hiq
              exact f3.sub (le_refl _) (by omega)
            · have hle : q * (2 * bs) + 2 * bs ≤ (i : Int) * (2 * bs) := by
                have : ((q : Int) + 1) * (2 * bs) ≤ i * (2 * bs) := by
                  apply mul_le_mul_of_nonneg_right _ (by omega)
                  omega
                linarith
              intro x y; omega)
      exact ⟨l3, g1, (g2.trans f2.perm).trans e2.perm, g3⟩
    · rw [if_neg h]
      refine ⟨l, rfl, .refl _, ?_⟩
      have := hr 0
      simp only [Nat.cast_zero, zero_mul] at this
      exact this.sub (le_refl _) (by omega)

/-- StableAsc and StableDesc. -/
theorem stable_spec (g : Good c le) (l : List α) :
    ∃ l', stable c l = some l' ∧ l'.Perm l ∧ SortedOn le l' 0 l'.length := by
  simp only [stable]
  obtain ⟨q, l1, e1, e2, e3, e4, e5⟩ := sortBlocks_spec (c := c) (le := le) g (n := l.length) (bs := 20) (by omega) (l.length + 1) 0 l
    (by simp) (by simp) (le_refl _) (by intro i hi; omega)
  simp only [Nat.cast_zero, zero_mul] at e1
  rw [e1]
  simp only [Option.bind_eq_bind, Option.bind_some]
  obtain ⟨l2, f1, f2, f3⟩ := insertionSort_spec (c := c) (l := l1) (a := q * 20) (b := l.length) g (by omega) e3 (by rw [e2.len])
  rw [f1]
  simp only [Option.bind_some]
  obtain ⟨l3, g1, g2, g3⟩ := mergeRounds_spec (c := c) (le := le) g (n := l.length) (l2.length + 1) 20 l2 (by omega)
    (by rw [f2.len, e2.len]; omega) (by rw [f2.len, e2.len])
    (by
      intro i
      by_cases hi : i < q
      · exact ((e5 i hi).congr (fun k h1 h2 => f2.outside k (by omega) (by omega))).sub (le_refl _) (by omega)
      · by_cases hiq : i = q
        · subst hiq; exact f3.sub (le_refl _) (by omega)
        · intro x y; omega)
  have hp := (g2.trans f2.perm).trans e2.perm
  exact ⟨l3, g1, hp, by rw [hp.length_eq]; exact g3⟩

/-- IsSorted looks at all neighbours. -/
theorem isSortedLoop_spec {l : List α} : ∀ n : Nat, n < l.length ∨ n = 0 →
    isSortedLoop c l n = some (decide (∀ i : Nat, i < n → c.lt (el l ((i : Int) + 1)) (el l i) = false)) := by
  intro n
  induction n with
  | zero => intro _; simp [isSortedLoop]
  | succ n ih =>
    intro h
    simp only [isSortedLoop]
    rw [less_eq (by omega) (by omega) (by omega) (by omega)]
    simp only [Option.bind_eq_bind, Option.bind_some]
    by_cases hlt : c.lt (el l ((n : Int) + 1)) (el l n) = true
    · rw [if_pos hlt]
      simp only [pure, Option.some.injEq]
      symm
      rw [decide_eq_false_iff_not]
      intro hall
      rw [hall n (by omega)] at hlt; cases hlt
    · rw [if_neg hlt, ih (by omega)]
      congr 1
      rw [decide_eq_decide]
      constructor
      · intro h1 i hi
        by_cases hin : i = n
        · subst hin; simpa using hlt
        · exact h1 i (by omega)
      · intro h1 i hi
        exact h1 i (by omega)

end Riot.Sort
