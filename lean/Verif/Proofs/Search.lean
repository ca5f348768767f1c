import Verif.Model.Indexer

/-! # Binary search in posting lists -/

namespace Riot

/-- strictly ascending list of ids -/
abbrev SortedIds (l : List Str) : Prop := l.Pairwise (· < ·)

theorem SortedIds.lt {l : List Str} (h : SortedIds l) {i j : Nat} (hij : i < j)
    (hj : j < l.length) : l[i] < l[j] := (List.pairwise_iff_getElem.1 h) i j _ hj hij

theorem SortedIds.nodup {l : List Str} (h : SortedIds l) : l.Nodup := h.imp (fun h => ne_of_lt h)

theorem SortedIds.le {l : List Str} (h : SortedIds l) {i j : Nat} (hij : i ≤ j)
    (hj : j < l.length) : l[i] ≤ l[j] := by
  rcases Nat.lt_or_eq_of_le hij with hlt | rfl
  · exact le_of_lt (h.lt hlt hj)
  · exact le_refl _

/-- number of ids below `d` = position of `d` -/
def rankOf (l : List Str) (d : Str) : Nat := l.countP (fun x => decide (x < d))

theorem rankOf_eq {l : List Str} (hs : SortedIds l) {d : Str} {p : Nat} (hp : p ≤ l.length)
    (h1 : ∀ (_ : 0 < p) , l[p - 1] < d) (h2 : ∀ h : p < l.length, d ≤ l[p]) :
    rankOf l d = p := by
  have hsplit : l = l.take p ++ l.drop p := (List.take_append_drop p l).symm
  unfold rankOf
  rw [hsplit, List.countP_append]
  have a : (l.take p).countP (fun x => decide (x < d)) = (l.take p).length := by
    rw [List.countP_eq_length]
    intro x hx
    obtain ⟨i, hi, rfl⟩ := List.mem_iff_getElem.1 hx
    simp only [List.length_take] at hi
    simp only [List.getElem_take, decide_eq_true_eq]
    exact lt_of_le_of_lt (hs.le (by omega : i ≤ p - 1) (by omega)) (h1 (by omega))
  have b : (l.drop p).countP (fun x => decide (x < d)) = 0 := by
    rw [List.countP_eq_zero]
    intro x hx
    obtain ⟨i, hi, rfl⟩ := List.mem_iff_getElem.1 hx
    simp only [List.length_drop] at hi
    simp only [List.getElem_drop, decide_eq_true_eq, not_lt]
    exact le_trans (h2 (by omega)) (hs.le (by omega) (by omega))
  rw [a, b, List.length_take]; omega

theorem mem_of_rank {l : List Str} (hs : SortedIds l) {d : Str} {p : Nat}
    (h1 : ∀ (_ : 0 < p) (_ : p ≤ l.length), l[p - 1] < d) (hp : p ≤ l.length)
    (h2 : ∀ h : p < l.length, d < l[p]) : d ∉ l := by
  intro hm
  obtain ⟨i, hi, rfl⟩ := List.mem_iff_getElem.1 hm
  rcases Nat.lt_or_ge i p with h | h
  · have := lt_of_le_of_lt (hs.le (by omega : i ≤ p - 1) (by omega)) (h1 (by omega) hp)
    exact lt_irrefl _ this
  · have := lt_of_lt_of_le (h2 (by omega)) (hs.le h (by omega))
    exact lt_irrefl _ this

theorem searchIndexLoop_spec {ids : List Str} (d : Str) :
    ∀ (n start e : Nat), e - start ≤ n → ∀ (h1 : start < e) (h2 : e < ids.length),
      ids[start] < d → d < ids[e] →
      ∃ p b, searchIndexLoop ids d start e = some (p, b) ∧ start < p ∧ p ≤ e ∧
        (b = true → ids[p]? = some d) ∧
        (b = false → (∀ x, ids[p - 1]? = some x → x < d) ∧ (∀ x, ids[p]? = some x → d < x)) := by
  intro n
  induction n with
  | zero => intro start e hn h1; omega
  | succ n ih =>
    intro start e hn h1 h2 hsd hde
    rw [searchIndexLoop]
    by_cases hgt : e - start > 1
    · rw [if_pos hgt]
      have hm : (start + e) / 2 < ids.length := by omega
      simp only [List.getElem?_eq_getElem hm]
      by_cases heq : d = ids[(start + e) / 2]
      · rw [if_pos heq]
        refine ⟨_, _, rfl, by omega, by omega, ?_, by simp⟩
        intro _; rw [List.getElem?_eq_getElem hm, ← heq]
      · rw [if_neg heq]
        by_cases hlt : d > ids[(start + e) / 2]
        · rw [if_pos hlt]
          obtain ⟨p, b, hp, hp1, hp2, hp3, hp4⟩ := ih _ e (by omega) (by omega) h2 hlt hde
          exact ⟨p, b, hp, by omega, hp2, hp3, hp4⟩
        · rw [if_neg hlt]
          have hlt' : d < ids[(start + e) / 2] := lt_of_le_of_ne (not_lt.1 hlt) heq
          obtain ⟨p, b, hp, hp1, hp2, hp3, hp4⟩ := ih start _ (by omega) (by omega) hm hsd hlt'
          exact ⟨p, b, hp, hp1, by omega, hp3, hp4⟩
    · rw [if_neg hgt]
      have : e = start + 1 := by omega
      subst this
      refine ⟨_, _, rfl, by omega, by omega, by simp, fun _ => ⟨?_, ?_⟩⟩
      · intro x hx
        simp only [Nat.add_sub_cancel] at hx
        rw [List.getElem?_eq_getElem (by omega)] at hx
        simp only [Option.some.injEq] at hx; rw [← hx]; exact hsd
      · intro x hx
        rw [List.getElem?_eq_getElem h2] at hx
        simp only [Option.some.injEq] at hx; rw [← hx]; exact hde

/-- The result of `searchIndex` on a sorted row whose elements before `start` are smaller
than `d`: the number of elements below `d` among the first `e + 1`, and membership. -/
theorem searchIndex_eq {ids : List Str} (hs : SortedIds ids) {start e : Nat} {d : Str}
    (h0 : start < ids.length) (h1 : start ≤ e) (h2 : e < ids.length)
    (hbefore : ∀ (_ : 0 < start), ids[start - 1] < d) :
    searchIndex ids start e d =
      some (rankOf (ids.take (e + 1)) d, decide (d ∈ ids.take (e + 1))) := by
  have hlen : (ids.take (e + 1)).length = e + 1 := by simp; omega
  have hs' : SortedIds (ids.take (e + 1)) := hs.sublist (List.take_sublist _ _)
  unfold searchIndex
  rw [if_neg (by omega), List.getElem?_eq_getElem h0]
  simp only
  by_cases c1 : d < ids[start]
  · rw [if_pos c1]
    have ra : rankOf (ids.take (e + 1)) d = start := by
      apply rankOf_eq hs' (by omega)
      · intro hpos; simpa using hbefore hpos
      · intro _; simpa using le_of_lt c1
    have na : d ∉ ids.take (e + 1) := by
      apply mem_of_rank hs' (p := start) _ (by omega)
      · intro _; simpa using c1
      · intro hpos _; simpa using hbefore hpos
    simp [ra, na]
  rw [if_neg c1]
  by_cases c2 : d = ids[start]
  · rw [if_pos c2]
    have ra : rankOf (ids.take (e + 1)) d = start := by
      apply rankOf_eq hs' (by omega)
      · intro hpos; simpa using hbefore hpos
      · intro _; simpa using le_of_eq c2
    have na : d ∈ ids.take (e + 1) := by
      rw [List.mem_iff_getElem]; exact ⟨start, by omega, by simp [c2]⟩
    simp [ra, na]
  rw [if_neg c2, List.getElem?_eq_getElem h2]
  have c12 : ids[start] < d := lt_of_le_of_ne (not_lt.1 c1) (Ne.symm c2)
  simp only
  by_cases c3 : d > ids[e]
  · rw [if_pos c3]
    have ra : rankOf (ids.take (e + 1)) d = e + 1 := by
      apply rankOf_eq hs' (by omega)
      · intro _; simpa using c3
      · intro h; omega
    have na : d ∉ ids.take (e + 1) := by
      apply mem_of_rank hs' (p := e + 1) _ (by omega)
      · intro h; omega
      · intro _ _; simpa using c3
    simp [ra, na]
  rw [if_neg c3]
  by_cases c4 : d = ids[e]
  · rw [if_pos c4]
    have ra : rankOf (ids.take (e + 1)) d = e := by
      apply rankOf_eq hs' (by omega)
      · intro hpos; rw [c4]; simpa using hs.lt (by omega : e - 1 < e) h2
      · intro _; simpa using le_of_eq c4
    have na : d ∈ ids.take (e + 1) := by
      rw [List.mem_iff_getElem]; exact ⟨e, by omega, by simp [c4]⟩
    simp [ra, na]
  rw [if_neg c4]
  have c34 : d < ids[e] := lt_of_le_of_ne (not_lt.1 c3) c4
  have hse : start < e := by
    rcases Nat.lt_or_eq_of_le h1 with h | h
    · exact h
    · subst h; exact absurd (lt_trans c12 c34) (lt_irrefl _)
  obtain ⟨p, b, hp, hp1, hp2, hp3, hp4⟩ :=
    searchIndexLoop_spec d (e - start) start e (le_refl _) hse h2 c12 c34
  rw [hp]
  cases b with
  | true =>
    have hpd := hp3 rfl
    have hpl : p < ids.length := by omega
    rw [List.getElem?_eq_getElem hpl, Option.some.injEq] at hpd
    have ra : rankOf (ids.take (e + 1)) d = p := by
      apply rankOf_eq hs' (by omega)
      · intro hpos; rw [← hpd]; simpa using hs.lt (by omega : p - 1 < p) hpl
      · intro _; rw [List.getElem_take, hpd]
    have na : d ∈ ids.take (e + 1) := by
      rw [List.mem_iff_getElem]; exact ⟨p, by omega, by simp [hpd]⟩
    simp [ra, na]
  | false =>
    obtain ⟨ha, hb⟩ := hp4 rfl
    have ha' : ids[p - 1] < d := ha _ (List.getElem?_eq_getElem (by omega))
    have hb' : d < ids[p] := hb _ (List.getElem?_eq_getElem (by omega))
    have ra : rankOf (ids.take (e + 1)) d = p := by
      apply rankOf_eq hs' (by omega)
      · intro _; simpa using ha'
      · intro _; simpa using le_of_lt hb'
    have na : d ∉ ids.take (e + 1) := by
      apply mem_of_rank hs' (p := p) _ (by omega)
      · intro _; simpa using hb'
      · intro _ _; simpa using ha'
    simp [ra, na]

/-- `searchIndex` over a whole row, from any admissible `start` (also `start = len`). -/
theorem searchIndex_full {ids : List Str} (hs : SortedIds ids) {start : Nat} {d : Str}
    (h0 : start ≤ ids.length) (hbefore : ∀ (_ : 0 < start), ids[start - 1] < d) :
    searchIndex ids start (ids.length - 1) d = some (rankOf ids d, decide (d ∈ ids)) := by
  by_cases h : start < ids.length
  · rw [searchIndex_eq hs h (by omega) (by omega) hbefore]
    have : ids.take (ids.length - 1 + 1) = ids := by
      rw [List.take_of_length_le]; omega
    rw [this]
  · have hst : ids.length = start := by omega
    unfold searchIndex
    rw [if_pos hst]
    have ra : rankOf ids d = start := rankOf_eq hs h0 hbefore (by intro h; omega)
    have na : d ∉ ids := mem_of_rank hs (p := start) (by intro a _; exact hbefore a) h0
      (by intro h; omega)
    simp [ra, na]

theorem rankOf_le (l : List Str) (d : Str) : rankOf l d ≤ l.length := List.countP_le_length

/-- all elements before the rank are smaller -/
theorem lt_of_lt_rankOf {l : List Str} (hs : SortedIds l) {d : Str} {i : Nat}
    (hi : i < rankOf l d) : l[i]'(by have := rankOf_le l d; omega) < d := by
  have hl := rankOf_le l d
  by_contra hc
  have : rankOf l d ≤ i := by
    unfold rankOf
    conv_lhs => rw [← List.take_append_drop i l]
    rw [List.countP_append]
    have b : (l.drop i).countP (fun x => decide (x < d)) = 0 := by
      rw [List.countP_eq_zero]
      intro x hx
      obtain ⟨j, hj, rfl⟩ := List.mem_iff_getElem.1 hx
      simp only [List.length_drop] at hj
      simp only [List.getElem_drop, decide_eq_true_eq, not_lt]
      exact le_trans (not_lt.1 hc) (hs.le (by omega) (by omega))
    have a : (l.take i).countP (fun x => decide (x < d)) ≤ i :=
      le_trans List.countP_le_length (by simp)
    omega
  omega

/-- all elements from the rank on are not smaller -/
theorem le_of_rankOf_le {l : List Str} (hs : SortedIds l) {d : Str} {i : Nat}
    (hi : rankOf l d ≤ i) (hl : i < l.length) : d ≤ l[i] := by
  by_contra hc
  have hc := not_le.1 hc
  have : i + 1 ≤ rankOf l d := by
    unfold rankOf
    conv_rhs => rw [← List.take_append_drop (i + 1) l]
    rw [List.countP_append]
    have a : (l.take (i + 1)).countP (fun x => decide (x < d)) = (l.take (i + 1)).length := by
      rw [List.countP_eq_length]
      intro x hx
      obtain ⟨j, hj, rfl⟩ := List.mem_iff_getElem.1 hx
      simp only [List.length_take] at hj
      simp only [List.getElem_take, decide_eq_true_eq]
      exact lt_of_le_of_lt (hs.le (by omega) hl) hc
    rw [a, List.length_take]; omega
  omega

theorem getElem_rankOf {l : List Str} (hs : SortedIds l) {d : Str} (hm : d ∈ l) :
    l[rankOf l d]? = some d := by
  obtain ⟨i, hi, rfl⟩ := List.mem_iff_getElem.1 hm
  have : rankOf l l[i] = i := by
    apply rankOf_eq hs (by omega)
    · intro h; exact hs.lt (by omega) hi
    · intro _; exact le_refl _
  rw [this, List.getElem?_eq_getElem hi]

end Riot
