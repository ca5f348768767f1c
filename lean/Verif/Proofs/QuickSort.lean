import Verif.Proofs.Sort

/-! # Sorting: partition, quick sort -/

namespace Riot.Sort

variable {α : Type} [Inhabited α] {c : Cmp α} {le : α → α → Prop}

/-- `swapRange` of two disjoint ranges. -/
theorem swapRange_spec : ∀ (n : Nat) (l : List α) (a b : Int), 0 ≤ a → a + n ≤ b → b + n ≤ l.length →
    ∃ l', swapRange l a b n = some l' ∧ l'.Perm l ∧
      ∀ k, 0 ≤ k → el l' k = if a ≤ k ∧ k < a + n then el l (k - a + b)
        else if b ≤ k ∧ k < b + n then el l (k - b + a) else el l k := by
  intro n
  induction n with
  | zero =>
    intro l a b ha hab hb
    refine ⟨l, rfl, .refl _, ?_⟩
    intro k hk
    rw [if_neg (by omega), if_neg (by omega)]
  | succ n ih =>
    intro l a b ha hab hb
    push_cast at hab hb
    simp only [swapRange]
    obtain ⟨l1, e1, e2, e3, e4⟩ := swp_spec (l := l) (i := a) (j := b) ha (by omega) (by omega) (by omega)
    rw [e1]
    simp only [Option.bind_eq_bind, Option.bind_some]
    obtain ⟨l2, f1, f2, f3⟩ := ih l1 (a + 1) (b + 1) (by omega) (by omega) (by rw [e2]; omega)
    refine ⟨l2, f1, f2.trans e3, ?_⟩
    intro k hk
    push_cast
    rw [f3 k hk]
    by_cases h1 : a + 1 ≤ k ∧ k < a + 1 + n
    · rw [if_pos h1, if_pos (by omega), e4 _ (by omega), if_neg (by omega), if_neg (by omega)]
      congr 1; omega
    · rw [if_neg h1]
      by_cases h2 : b + 1 ≤ k ∧ k < b + 1 + n
      · rw [if_pos h2, if_neg (by omega), if_pos (by omega), e4 _ (by omega), if_neg (by omega), if_neg (by omega)]
        congr 1; omega
      · rw [if_neg h2, e4 _ hk]
        by_cases h3 : k = a
        · subst h3; rw [if_pos rfl, if_pos (by omega)]; congr 1; omega
        · rw [if_neg h3]
          by_cases h4 : k = b
          · subst h4; rw [if_pos rfl, if_neg (by omega), if_pos (by omega)]; congr 1; omega
          · rw [if_neg h4, if_neg (by omega), if_neg (by omega)]

theorem swapRange_shuf {n : Nat} {l l' : List α} {a b x y : Int} (hp : l'.Perm l)
    (he : ∀ k, 0 ≤ k → el l' k = if a ≤ k ∧ k < a + n then el l (k - a + b)
        else if b ≤ k ∧ k < b + n then el l (k - b + a) else el l k)
    (h0 : 0 ≤ x) (hx : x ≤ a) (hab : a + n ≤ b) (hy : b + n ≤ y) : Shuf x y l l' := by
  refine ⟨hp.length_eq, hp, ?_, ?_⟩
  · intro k h1 h2
    rw [he k h1, if_neg (by omega), if_neg (by omega)]
  · intro k h1 h2
    rw [he k (by omega)]
    split
    · exact ⟨k - a + b, by omega, by omega, rfl⟩
    · split
      · exact ⟨k - b + a, by omega, by omega, rfl⟩
      · exact ⟨k, h1, h2, rfl⟩

theorem swapIfLess_spec {l : List α} {i j x y : Int} (h0 : 0 ≤ x) (hy : y ≤ l.length) (hi : x ≤ i) (hi' : i < y)
    (hj : x ≤ j) (hj' : j < y) : ∃ l', swapIfLess c l i j = some l' ∧ Shuf x y l l' := by
  simp only [swapIfLess]
  rw [less_eq (by omega) (by omega) (by omega) (by omega)]
  simp only [Option.bind_eq_bind, Option.bind_some]
  split
  · obtain ⟨l1, e1, e2, e3, e4⟩ := swp_spec (l := l) (i := i) (j := j) (by omega) (by omega) (by omega) (by omega)
    exact ⟨l1, e1, swp_shuf e3 e4 h0 hi hi' hj hj'⟩
  · exact ⟨l, rfl, Shuf.refl _ _ _⟩

theorem medianOfThree_spec {l : List α} {m1 m0 m2 x y : Int} (h0 : 0 ≤ x) (hy : y ≤ l.length) (h1 : x ≤ m1) (h1' : m1 < y)
    (h2 : x ≤ m0) (h2' : m0 < y) (h3 : x ≤ m2) (h3' : m2 < y) :
    ∃ l', medianOfThree c l m1 m0 m2 = some l' ∧ Shuf x y l l' := by
  simp only [medianOfThree]
  obtain ⟨l1, e1, e2⟩ := swapIfLess_spec (c := c) (l := l) h0 hy h1 h1' h2 h2'
  obtain ⟨l2, f1, f2⟩ := swapIfLess_spec (c := c) (l := l1) h0 (by rw [e2.len]; exact hy) h3 h3' h1 h1'
  obtain ⟨l3, g1, g2⟩ := swapIfLess_spec (c := c) (l := l2) h0 (by rw [f2.len, e2.len]; exact hy) h1 h1' h2 h2'
  refine ⟨l3, ?_, (e2.trans f2).trans g2⟩
  simp [e1, f1, g1]

theorem choosePivot_spec {l : List α} {lo hi : Int} (h0 : 0 ≤ lo) (h : lo < hi) (hl : hi ≤ l.length) :
    ∃ l', choosePivot c l lo hi = some l' ∧ Shuf lo hi l l' := by
  have d2 : Int.tdiv (hi - lo) 2 = (hi - lo) / 2 := Int.tdiv_eq_ediv_of_nonneg (by omega)
  have d8 : Int.tdiv (hi - lo) 8 = (hi - lo) / 8 := Int.tdiv_eq_ediv_of_nonneg (by omega)
  simp only [choosePivot, d2, d8]
  by_cases h40 : hi - lo > 40
  · simp only [if_pos h40]
    obtain ⟨l1, e1, e2⟩ := medianOfThree_spec (c := c) (l := l) (m1 := lo) (m0 := lo + (hi - lo) / 8)
      (m2 := lo + 2 * ((hi - lo) / 8)) (x := lo) (y := hi) h0 hl (by omega) (by omega) (by omega) (by omega) (by omega) (by omega)
    obtain ⟨l2, f1, f2⟩ := medianOfThree_spec (c := c) (l := l1) (m1 := lo + (hi - lo) / 2)
      (m0 := lo + (hi - lo) / 2 - (hi - lo) / 8) (m2 := lo + (hi - lo) / 2 + (hi - lo) / 8) (x := lo) (y := hi) h0
      (by rw [e2.len]; exact hl) (by omega) (by omega) (by omega) (by omega) (by omega) (by omega)
    obtain ⟨l3, g1, g2⟩ := medianOfThree_spec (c := c) (l := l2) (m1 := hi - 1)
      (m0 := hi - 1 - (hi - lo) / 8) (m2 := hi - 1 - 2 * ((hi - lo) / 8)) (x := lo) (y := hi) h0
      (by rw [f2.len, e2.len]; exact hl) (by omega) (by omega) (by omega) (by omega) (by omega) (by omega)
    obtain ⟨l4, k1, k2⟩ := medianOfThree_spec (c := c) (l := l3) (m1 := lo)
      (m0 := lo + (hi - lo) / 2) (m2 := hi - 1) (x := lo) (y := hi) h0
      (by rw [g2.len, f2.len, e2.len]; exact hl) (by omega) (by omega) (by omega) (by omega) (by omega) (by omega)
    refine ⟨l4, ?_, ((e2.trans f2).trans g2).trans k2⟩
    simp [e1, f1, g1, k1]
  · simp only [if_neg h40]
    obtain ⟨l4, k1, k2⟩ := medianOfThree_spec (c := c) (l := l) (m1 := lo)
      (m0 := lo + (hi - lo) / 2) (m2 := hi - 1) (x := lo) (y := hi) h0
      hl (by omega) (by omega) (by omega) (by omega) (by omega) (by omega)
    refine ⟨l4, ?_, k2⟩
    simp [k1]

/-- The invariant of the partition with pivot value `pv`. -/
structure PInv (le : α → α → Prop) (pv : α) (lo hi : Int) (l : List α) (a b hc d : Int) : Prop where
  hlo : 0 ≤ lo
  hhi : hi ≤ l.length
  h1 : lo < a
  h2 : a ≤ b
  h3 : b ≤ hc
  h4 : hc ≤ d
  h5 : d ≤ hi
  piv : el l lo = pv
  eqL : ∀ k, lo ≤ k → k < a → le (el l k) pv ∧ le pv (el l k)
  low : ∀ k, a ≤ k → k < b → le (el l k) pv
  high : ∀ k, hc ≤ k → k < d → le pv (el l k)
  eqR : ∀ k, d ≤ k → k < hi → le (el l k) pv ∧ le pv (el l k)

theorem pivotUp_spec (g : Good c le) {pv : α} {lo hi hc d : Int} : ∀ (fuel : Nat) (a b : Int) (l : List α),
    (hc - b).toNat < fuel → PInv le pv lo hi l a b hc d →
    ∃ a' b' l', pivotUp c lo hc fuel a b l = some (a', b', l') ∧ PInv le pv lo hi l' a' b' hc d ∧
      (b' < hc → ¬ le (el l' b') pv) ∧ Shuf lo hi l l' ∧ b ≤ b' := by
  intro fuel
  induction fuel with
  | zero => intro a b l h; omega
  | succ fuel ih =>
    intro a b l hf inv
    have := inv.hlo; have := inv.hhi; have := inv.h1; have := inv.h2; have := inv.h3; have := inv.h4; have := inv.h5
    simp only [pivotUp]
    by_cases hb : b < hc
    · rw [if_pos hb, less_eq (by omega) (by omega) (by omega) (by omega), inv.piv]
      simp only [Option.bind_eq_bind, Option.bind_some]
      by_cases hlt : c.lt (el l b) pv = true
      · rw [if_pos hlt]
        obtain ⟨a', b', l', e1, e2, e3, e4, e5⟩ := ih a (b + 1) l (by omega)
          { inv with
            h2 := by omega
            h3 := by omega
            low := by
              intro k hk1 hk2
              by_cases hkb : k = b
              · subst hkb; exact g.of_lt hlt
              · exact inv.low k hk1 (by omega) }
        exact ⟨a', b', l', e1, e2, e3, e4, by omega⟩
      · rw [if_neg hlt, geq_eq (by omega) (by omega) (by omega) (by omega), inv.piv]
        simp only [Option.bind_some]
        have hge : le pv (el l b) := g.of_not_lt (by simpa using hlt)
        by_cases hy : c.ge pv (el l b) = true
        · rw [if_pos hy]
          have hle : le (el l b) pv := (g.ge _ _).1 hy
          obtain ⟨l1, f1, f2, f3, f4⟩ := swp_spec (l := l) (i := a) (j := b) (by omega) (by omega) (by omega) (by omega)
          rw [f1]; simp only [Option.bind_some]
          obtain ⟨a', b', l', e1, e2, e3, e4, e5⟩ := ih (a + 1) (b + 1) l1 (by omega)
            { hlo := by omega, hhi := by rw [f2]; omega, h1 := by omega, h2 := by omega, h3 := by omega, h4 := by omega, h5 := by omega
              piv := by rw [f4 lo (by omega), if_neg (by omega), if_neg (by omega)]; exact inv.piv
              eqL := by
                intro k hk1 hk2
                rw [f4 k (by omega)]
                by_cases hka : k = a
                · rw [if_pos hka]; exact ⟨hle, hge⟩
                · rw [if_neg hka, if_neg (by omega)]; exact inv.eqL k hk1 (by omega)
              low := by
                intro k hk1 hk2
                rw [f4 k (by omega), if_neg (by omega)]
                by_cases hkb : k = b
                · rw [if_pos hkb]; exact inv.low a (by omega) (by omega)
                · rw [if_neg hkb]; exact inv.low k (by omega) (by omega)
              high := by
                intro k hk1 hk2
                rw [f4 k (by omega), if_neg (by omega), if_neg (by omega)]
                exact inv.high k hk1 hk2
              eqR := by
                intro k hk1 hk2
                rw [f4 k (by omega), if_neg (by omega), if_neg (by omega)]
                exact inv.eqR k hk1 hk2 }
          exact ⟨a', b', l', e1, e2, e3, (swp_shuf f3 f4 (by omega) (by omega) (by omega) (by omega) (by omega)).trans e4, by omega⟩
        · rw [if_neg hy]
          exact ⟨a, b, l, rfl, inv, fun _ => g.of_not_ge (by simpa using hy), Shuf.refl _ _ _, le_refl _⟩
    · rw [if_neg hb]
      exact ⟨a, b, l, rfl, inv, fun h => absurd h hb, Shuf.refl _ _ _, le_refl _⟩

theorem pivotDown_spec (g : Good c le) {pv : α} {lo hi a b : Int} : ∀ (fuel : Nat) (hc d : Int) (l : List α),
    (hc - b).toNat < fuel → PInv le pv lo hi l a b hc d → (b < hc → ¬ le (el l b) pv) →
    ∃ hc' d' l', pivotDown c lo b fuel hc d l = some (hc', d', l') ∧ PInv le pv lo hi l' a b hc' d' ∧
      (b < hc' → ¬ le (el l' b) pv ∧ ¬ le pv (el l' (hc' - 1))) ∧ Shuf lo hi l l' ∧ hc' ≤ hc := by
  intro fuel
  induction fuel with
  | zero => intro hc d l h; omega
  | succ fuel ih =>
    intro hc d l hf inv hbreak
    have := inv.hlo; have := inv.hhi; have := inv.h1; have := inv.h2; have := inv.h3; have := inv.h4; have := inv.h5
    simp only [pivotDown]
    by_cases hb : b < hc
    · rw [if_pos hb, less_eq (by omega) (by omega) (by omega) (by omega), inv.piv]
      simp only [Option.bind_eq_bind, Option.bind_some]
      by_cases hlt : c.lt pv (el l (hc - 1)) = true
      · rw [if_pos hlt]
        obtain ⟨a', b', l', e1, e2, e3, e4, e5⟩ := ih (hc - 1) d l (by omega)
          { inv with
            h3 := by omega
            h4 := by omega
            high := by
              intro k hk1 hk2
              by_cases hkb : k = hc - 1
              · subst hkb; exact g.of_lt hlt
              · exact inv.high k (by omega) (by omega) } (fun _ => hbreak hb)
        exact ⟨a', b', l', e1, e2, e3, e4, by omega⟩
      · rw [if_neg hlt, geq_eq (by omega) (by omega) (by omega) (by omega), inv.piv]
        simp only [Option.bind_some]
        have hle : le (el l (hc - 1)) pv := g.of_not_lt (by simpa using hlt)
        have hne : b ≠ hc - 1 := by
          intro hbe; rw [← hbe] at hle; exact hbreak hb hle
        by_cases hy : c.ge (el l (hc - 1)) pv = true
        · rw [if_pos hy]
          have hge : le pv (el l (hc - 1)) := (g.ge _ _).1 hy
          obtain ⟨l1, f1, f2, f3, f4⟩ := swp_spec (l := l) (i := hc - 1) (j := d - 1) (by omega) (by omega) (by omega) (by omega)
          rw [f1]; simp only [Option.bind_some]
          obtain ⟨a', b', l', e1, e2, e3, e4, e5⟩ := ih (hc - 1) (d - 1) l1 (by omega)
            { hlo := by omega, hhi := by rw [f2]; omega, h1 := by omega, h2 := by omega, h3 := by omega, h4 := by omega, h5 := by omega
              piv := by rw [f4 lo (by omega), if_neg (by omega), if_neg (by omega)]; exact inv.piv
              eqL := by
                intro k hk1 hk2
                rw [f4 k (by omega), if_neg (by omega), if_neg (by omega)]
                exact inv.eqL k hk1 hk2
              low := by
                intro k hk1 hk2
                rw [f4 k (by omega), if_neg (by omega), if_neg (by omega)]
                exact inv.low k hk1 hk2
              high := by
                intro k hk1 hk2
                rw [f4 k (by omega)]
                by_cases hkb : k = hc - 1
                · rw [if_pos hkb]
                  exact inv.high (d - 1) (by omega) (by omega)
                · rw [if_neg hkb, if_neg (by omega)]; exact inv.high k (by omega) (by omega)
              eqR := by
                intro k hk1 hk2
                rw [f4 k (by omega)]
                by_cases hkd : k = d - 1
                · by_cases hkc : k = hc - 1
                  · rw [if_pos hkc, ← hkd, hkc]; exact ⟨hle, hge⟩
                  · rw [if_neg hkc, if_pos hkd]; exact ⟨hle, hge⟩
                · rw [if_neg (by omega), if_neg hkd]; exact inv.eqR k (by omega) hk2 }
            (by
              intro _
              rw [f4 b (by omega), if_neg hne, if_neg (by omega)]
              exact hbreak hb)
          exact ⟨a', b', l', e1, e2, e3, (swp_shuf f3 f4 (by omega) (by omega) (by omega) (by omega) (by omega)).trans e4, by omega⟩
        · rw [if_neg hy]
          exact ⟨hc, d, l, rfl, inv, fun _ => ⟨hbreak hb, g.of_not_ge (by simpa using hy)⟩, Shuf.refl _ _ _, le_refl _⟩
    · rw [if_neg hb]
      exact ⟨hc, d, l, rfl, inv, fun h => absurd h hb, Shuf.refl _ _ _, le_refl _⟩

theorem pivotLoop_spec (g : Good c le) {pv : α} {lo hi : Int} : ∀ (fuel : Nat) (s : Part α),
    (s.c - s.b).toNat < fuel → PInv le pv lo hi s.data s.a s.b s.c s.d →
    ∃ s', pivotLoop c lo fuel s = some s' ∧ PInv le pv lo hi s'.data s'.a s'.b s'.c s'.d ∧ s'.b = s'.c ∧
      Shuf lo hi s.data s'.data := by
  intro fuel
  induction fuel with
  | zero => intro s h; omega
  | succ fuel ih =>
    intro s hf inv
    simp only [pivotLoop]
    obtain ⟨a, b, l, e1, e2, e3, e4, e5⟩ := pivotUp_spec g ((s.c - s.b).toNat + 1) s.a s.b s.data (by omega) inv
    rw [e1]
    simp only [Option.bind_eq_bind, Option.bind_some]
    obtain ⟨hc, d, l', f1, f2, f3, f4, f5⟩ := pivotDown_spec g ((s.c - b).toNat + 1) s.c s.d l (by omega) e2 e3
    rw [f1]
    simp only [Option.bind_some]
    have := f2.hlo; have := f2.hhi; have := f2.h1; have := f2.h2; have := f2.h3; have := f2.h4; have := f2.h5
    by_cases hb : b ≥ hc
    · rw [if_pos hb]
      exact ⟨⟨a, b, hc, d, l'⟩, rfl, f2, by simp only; omega, e4.trans f4⟩
    · rw [if_neg hb]
      obtain ⟨g1, g2⟩ := f3 (by omega)
      have hne : b ≠ hc - 1 := by
        intro hbe; rw [← hbe] at g2
        rcases g.total (el l' b) pv with h | h
        · exact g1 h
        · exact g2 h
      obtain ⟨l1, k1, k2, k3, k4⟩ := swp_spec (l := l') (i := b) (j := hc - 1) (by omega) (by omega) (by omega) (by omega)
      rw [k1]; simp only [Option.bind_some]
      obtain ⟨s', m1, m2, m3, m4⟩ := ih ⟨a, b + 1, hc - 1, d, l1⟩ (by simp only; omega)
        { hlo := by omega, hhi := by simp only; rw [k2]; omega, h1 := by simp only; omega, h2 := by simp only; omega, h3 := by simp only; omega, h4 := by simp only; omega, h5 := by simp only; omega
          piv := by simp only; rw [k4 lo (by omega), if_neg (by omega), if_neg (by omega)]; exact f2.piv
          eqL := by
            intro k hk1 hk2
            simp only at hk2 ⊢
            rw [k4 k (by omega), if_neg (by omega), if_neg (by omega)]
            exact f2.eqL k hk1 hk2
          low := by
            intro k hk1 hk2
            simp only at hk1 hk2 ⊢
            rw [k4 k (by omega)]
            by_cases hkb : k = b
            · rw [if_pos hkb]
              rcases g.total (el l' (hc - 1)) pv with h | h
              · exact h
              · exact absurd h g2
            · rw [if_neg hkb, if_neg (by omega)]; exact f2.low k hk1 (by omega)
          high := by
            intro k hk1 hk2
            simp only at hk1 hk2 ⊢
            rw [k4 k (by omega), if_neg (by omega)]
            by_cases hkb : k = hc - 1
            · rw [if_pos hkb]
              rcases g.total pv (el l' b) with h | h
              · exact h
              · exact absurd h g1
            · rw [if_neg hkb]; exact f2.high k (by omega) hk2
          eqR := by
            intro k hk1 hk2
            simp only at hk1 hk2 ⊢
            rw [k4 k (by omega), if_neg (by omega), if_neg (by omega)]
            exact f2.eqR k hk1 hk2 }
      refine ⟨s', m1, m2, m3, ((e4.trans f4).trans ?_).trans m4⟩
      exact swp_shuf k3 k4 (by omega) (by omega) (by omega) (by omega) (by omega)

/-- doPivot partitions its range into smaller, equal and larger elements. -/
theorem doPivot_spec (g : Good c le) {l : List α} {lo hi : Int} (h0 : 0 ≤ lo) (h : lo < hi) (hl : hi ≤ l.length) :
    ∃ mlo mhi l' pv, doPivot c l lo hi = some (mlo, mhi, l') ∧ Shuf lo hi l l' ∧
      lo ≤ mlo ∧ mlo < mhi ∧ mhi ≤ hi ∧
      (∀ k, lo ≤ k → k < mlo → le (el l' k) pv) ∧
      (∀ k, mlo ≤ k → k < mhi → le (el l' k) pv ∧ le pv (el l' k)) ∧
      (∀ k, mhi ≤ k → k < hi → le pv (el l' k)) := by
  simp only [doPivot]
  obtain ⟨l1, e1, e2⟩ := choosePivot_spec (c := c) (l := l) h0 h hl
  rw [e1]
  simp only [Option.bind_eq_bind, Option.bind_some]
  obtain ⟨s, f1, f2, f3, f4⟩ := pivotLoop_spec (pv := el l1 lo) (lo := lo) (hi := hi) g ((hi - lo).toNat + 1)
    ⟨lo + 1, lo + 1, hi, hi, l1⟩ (by simp only; omega)
    { hlo := h0, hhi := by rw [e2.len]; exact hl, h1 := by simp only; omega, h2 := by simp only; omega, h3 := by simp only; omega
      h4 := by simp only; omega, h5 := by simp only; omega, piv := rfl
      eqL := by
        intro k hk1 hk2
        simp only at hk2
        have : k = lo := by omega
        subst this; exact ⟨g.refl _, g.refl _⟩
      low := by intro k hk1 hk2; simp only at hk1 hk2; omega
      high := by intro k hk1 hk2; simp only at hk1 hk2; omega
      eqR := by intro k hk1 hk2; simp only at hk1 hk2; omega }
  rw [f1]
  simp only [Option.bind_some]
  simp only at f4
  have := f2.hlo; have := f2.hhi; have := f2.h1; have := f2.h2; have := f2.h3; have := f2.h4; have := f2.h5
  obtain ⟨l2, m1, m2, m3⟩ := swapRange_spec (min (s.b - s.a) (s.a - lo)).toNat s.data lo (s.b - min (s.b - s.a) (s.a - lo))
    (by omega) (by omega) (by omega)
  have hsh2 : Shuf lo s.b s.data l2 := swapRange_shuf m2 m3 h0 (by omega) (by omega) (by omega)
  rw [m1]
  simp only [Option.bind_some]
  obtain ⟨l3, n1, n2, n3⟩ := swapRange_spec (min (hi - s.d) (s.d - s.c)).toNat l2 s.c (hi - min (hi - s.d) (s.d - s.c))
    (by omega) (by omega) (by rw [hsh2.len]; omega)
  have hsh3 : Shuf s.c hi l2 l3 := swapRange_shuf n2 n3 (by omega) (by omega) (by omega) (by omega)
  rw [n1]
  simp only [Option.bind_some]
  refine ⟨lo + s.b - s.a, hi - (s.d - s.c), l3, el l1 lo, rfl, ?_, by omega, by omega, by omega, ?_, ?_, ?_⟩
  · exact ((e2.trans f4).trans (hsh2.mono h0 (by omega) (by omega))).trans (hsh3.mono h0 (by omega) (by omega))
  · intro k hk1 hk2
    rw [hsh3.outside k (by omega) (by omega)]
    refine hsh2.keep (P := fun v => le v (el l1 lo)) ?_ k hk1 (by omega)
    intro j hj1 hj2
    by_cases hja : j < s.a
    · exact (f2.eqL j hj1 hja).1
    · exact f2.low j (by omega) hj2
  · intro k hk1 hk2
    by_cases hkb : k < s.b
    · rw [hsh3.outside k (by omega) (by omega), m3 k (by omega), if_neg (by omega)]
      by_cases hk3 : s.b - min (s.b - s.a) (s.a - lo) ≤ k ∧ k < s.b - min (s.b - s.a) (s.a - lo) + (min (s.b - s.a) (s.a - lo)).toNat
      · rw [if_pos hk3]; exact f2.eqL _ (by omega) (by omega)
      · rw [if_neg hk3]; exact f2.eqL _ (by omega) (by omega)
    · have hout : ∀ j, s.c ≤ j → j < hi → el l2 j = el s.data j := by
        intro j hj1 hj2
        exact hsh2.outside j (by omega) (by omega)
      rw [n3 k (by omega)]
      by_cases hk3 : s.c ≤ k ∧ k < s.c + (min (hi - s.d) (s.d - s.c)).toNat
      · rw [if_pos hk3, hout _ (by omega) (by omega)]
        exact f2.eqR _ (by omega) (by omega)
      · rw [if_neg hk3, if_neg (by omega), hout _ (by omega) (by omega)]
        exact f2.eqR _ (by omega) (by omega)
  · refine fun k hk1 hk2 => hsh3.keep (P := fun v => le (el l1 lo) v) ?_ k (by omega) hk2
    intro j hj1 hj2
    rw [hsh2.outside j (by omega) (by omega)]
    by_cases hjd : j < s.d
    · exact f2.high j hj1 hjd
    · exact (f2.eqR j (by omega) hj2).2

/-- quickSort sorts its range, whatever the allowed depth. -/
theorem quickSort_spec (g : Good c le) : ∀ (fuel : Nat) (l : List α) (a b depth : Int), (b - a).toNat < fuel →
    0 ≤ a → a ≤ b → b ≤ l.length →
    ∃ l', quickSort c fuel l a b depth = some l' ∧ Shuf a b l l' ∧ SortedOn le l' a b := by
  intro fuel
  induction fuel with
  | zero => intro l a b depth h; omega
  | succ fuel ih =>
    intro l a b depth hf ha hab hb
    simp only [quickSort]
    by_cases h7 : b - a > 7
    · rw [if_pos h7]
      by_cases hd : depth = 0
      · rw [if_pos hd]
        exact heapSort_spec g ha (by omega) hb
      · rw [if_neg hd]
        obtain ⟨mlo, mhi, l1, pv, e1, e2, e3, e4, e5, e6, e7, e8⟩ := doPivot_spec g (l := l) ha (show a < b by omega) hb
        rw [e1]
        simp only [Option.bind_eq_bind, Option.bind_some]
        -- whatever the order of the two recursive calls
        have fin : ∀ l', (∀ k, a ≤ k → k < mlo → le (el l' k) pv) →
            (∀ k, mlo ≤ k → k < mhi → le (el l' k) pv ∧ le pv (el l' k)) →
            (∀ k, mhi ≤ k → k < b → le pv (el l' k)) → SortedOn le l' a mlo → SortedOn le l' mhi b →
            SortedOn le l' a b := by
          intro l' p1 p2 p3 s1 s2 i j hi hij hj
          by_cases hjm : j < mlo
          · exact s1 i j hi hij hjm
          by_cases him : mhi ≤ i
          · exact s2 i j him hij hj
          have q1 : le (el l' i) pv := by
            by_cases hi2 : i < mlo
            · exact p1 i hi hi2
            · exact (p2 i (by omega) (by omega)).1
          have q2 : le pv (el l' j) := by
            by_cases hj2 : j < mhi
            · exact (p2 j (by omega) hj2).2
            · exact p3 j (by omega) hj
          exact g.trans _ _ _ q1 q2
        by_cases hsm : mlo - a < b - mhi
        · rw [if_pos hsm]
          obtain ⟨l2, f1, f2, f3⟩ := ih l1 a mlo (depth - 1) (by omega) ha e3 (by rw [e2.len]; omega)
          rw [f1]
          simp only [Option.bind_some]
          obtain ⟨l3, g1, g2, g3⟩ := ih l2 mhi b (depth - 1) (by omega) (by omega) e5 (by rw [f2.len, e2.len]; omega)
          refine ⟨l3, g1, (e2.trans (f2.mono ha (le_refl _) (by omega))).trans (g2.mono ha (by omega) (le_refl _)), ?_⟩
          refine fin l3 ?_ ?_ ?_ ?_ g3
          · intro k hk1 hk2
            rw [g2.outside k (by omega) (by omega)]
            exact f2.keep (P := fun v => le v pv) e6 k hk1 hk2
          · intro k hk1 hk2
            rw [g2.outside k (by omega) (by omega), f2.outside k (by omega) (by omega)]
            exact e7 k hk1 hk2
          · refine g2.keep (P := fun v => le pv v) ?_
            intro k hk1 hk2
            rw [f2.outside k (by omega) (by omega)]
            exact e8 k hk1 hk2
          · exact f3.congr (fun k hk1 hk2 => g2.outside k (by omega) (by omega))
        · rw [if_neg hsm]
          obtain ⟨l2, f1, f2, f3⟩ := ih l1 mhi b (depth - 1) (by omega) (by omega) e5 (by rw [e2.len]; omega)
          rw [f1]
          simp only [Option.bind_some]
          obtain ⟨l3, g1, g2, g3⟩ := ih l2 a mlo (depth - 1) (by omega) ha e3 (by rw [f2.len, e2.len]; omega)
          refine ⟨l3, g1, (e2.trans (f2.mono ha (by omega) (le_refl _))).trans (g2.mono ha (le_refl _) (by omega)), ?_⟩
          refine fin l3 ?_ ?_ ?_ g3 ?_
          · refine g2.keep (P := fun v => le v pv) ?_
            intro k hk1 hk2
            rw [f2.outside k (by omega) (by omega)]
            exact e6 k hk1 hk2
          · intro k hk1 hk2
            rw [g2.outside k (by omega) (by omega), f2.outside k (by omega) (by omega)]
            exact e7 k hk1 hk2
          · intro k hk1 hk2
            rw [g2.outside k (by omega) (by omega)]
            exact f2.keep (P := fun v => le pv v) e8 k hk1 hk2
          · exact f3.congr (fun k hk1 hk2 => g2.outside k (by omega) (by omega))
    · rw [if_neg h7]
      by_cases h1 : b - a > 1
      · rw [if_pos h1]
        exact insertionSort_spec g ha hab hb
      · rw [if_neg h1]
        refine ⟨l, rfl, Shuf.refl _ _ _, ?_⟩
        intro i j h2 h3 h4
        have : i = j := by omega
        subst this; exact g.refl _

/-- Asc and Desc. -/
theorem sort_spec (g : Good c le) (l : List α) :
    ∃ l', sort c l = some l' ∧ l'.Perm l ∧ SortedOn le l' 0 l'.length := by
  obtain ⟨l', e1, e2, e3⟩ := quickSort_spec g (l.length + 1) l 0 l.length (2 * bits l.length l.length) (by omega) (le_refl _) (by omega) (le_refl _)
  exact ⟨l', e1, e2.perm, by rw [e2.len]; exact e3⟩

end Riot.Sort
