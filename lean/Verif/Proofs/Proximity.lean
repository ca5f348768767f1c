import Verif.Model.Proximity
import Verif.Spec.Proximity
import Mathlib.Data.List.Forall2
import Mathlib.Tactic.Linarith
import Mathlib.Tactic.Ring

/-! # The dynamic programme of computeTokenProximity -/

namespace Riot

theorem proxCost_snoc (p q : Int) : ∀ (ps : List Int) (ls : List Nat) (l : Nat),
    ls.length = ps.length →
    proxCost (ps ++ [p, q]) (ls ++ [l]) = proxCost (ps ++ [p]) ls + |q - p - l|
  | [], [], l, _ => by simp [proxCost]
  | [x], [y], l, _ => by simp [proxCost]
  | x :: x' :: ps, y :: ls, l, h => by
    have := proxCost_snoc p q (x' :: ps) ls l (by simpa using h)
    simp only [List.cons_append, proxCost] at this ⊢
    rw [this]; ring
  | [], _ :: _, _, h => by simp at h
  | _ :: _, [], _, h => by simp at h
  | [_], _ :: _ :: _, _, h => by simp at h

theorem proxCost_extra (ls2 : List Nat) : ∀ (ps : List Int) (ls : List Nat),
    ps.length = ls.length + 1 → proxCost ps (ls ++ ls2) = proxCost ps ls
  | [], _, h => by simp at h
  | [p], [], _ => by cases ls2 <;> simp [proxCost]
  | [p], _ :: _, h => by simp at h
  | p :: q :: ps, [], h => by simp at h
  | p :: q :: ps, l :: ls, h => by
    simp only [List.cons_append, proxCost]
    rw [proxCost_extra ls2 (q :: ps) ls (by simpa using h)]

/-- A cell of the row is unset or comes from a current location. -/
def CellOk (next : List Int) (len : Nat) (cur : List (Int × Int)) (row : List (Int × Nat)) : Prop :=
  row.length = next.length ∧
  ∀ (j : Nat) (v : Int) (fr : Nat), row[j]? = some (v, fr) → v ≠ -1 →
    ∃ c m n, cur[fr]? = some (c, m) ∧ m ≠ -1 ∧ next[j]? = some n ∧ v = m + |n - c - len|

theorem advanceNext_lt (next : List Int) (c : Int) (i : Nat) (h : i < next.length) :
    advanceNext next c i < next.length := by
  fun_induction advanceNext next c i with
  | case1 i h1 h2 ih => exact ih h1
  | case2 i h1 h2 => exact h
  | case3 i h1 => exact h

theorem updateCell_ok {next : List Int} {c m : Int} {len fr dst : Nat} {cur : List (Int × Int)}
    {row : List (Int × Nat)} (h : CellOk next len cur row) (hc : cur[fr]? = some (c, m))
    (hm : m ≠ -1) : CellOk next len cur (updateCell next c m len fr dst row) := by
  unfold updateCell
  split
  · rename_i n v fr' hn hr
    dsimp only
    split
    · refine ⟨by simpa using h.1, ?_⟩
      intro j v' fr'' hj hv
      rw [List.getElem?_set] at hj
      split at hj
      · rename_i heq
        subst heq
        split at hj
        · simp only [Option.some.injEq, Prod.mk.injEq] at hj
          obtain ⟨rfl, rfl⟩ := hj
          exact ⟨c, m, n, hc, hm, hn, rfl⟩
        · simp at hj
      · exact h.2 j v' fr'' hj hv
    · exact h
  · exact h

/-- After an update the cell is set, with at most the value offered; other cells do not grow. -/
def RowLe (row row' : List (Int × Nat)) : Prop :=
  ∀ (j : Nat) v fr, row[j]? = some (v, fr) → v ≠ -1 → ∃ v' fr', row'[j]? = some (v', fr') ∧ v' ≠ -1 ∧ v' ≤ v

theorem RowLe.refl (row : List (Int × Nat)) : RowLe row row := fun _ v fr h hv => ⟨v, fr, h, hv, le_rfl⟩

theorem RowLe.trans {a b c : List (Int × Nat)} (h1 : RowLe a b) (h2 : RowLe b c) : RowLe a c := by
  intro j v fr h hv
  obtain ⟨v', fr', e1, e2, e3⟩ := h1 j v fr h hv
  obtain ⟨v'', fr'', f1, f2, f3⟩ := h2 j v' fr' e1 e2
  exact ⟨v'', fr'', f1, f2, f3.trans e3⟩

theorem updateCell_le (next : List Int) (c m : Int) (len fr dst : Nat) (row : List (Int × Nat))
    (hm : 0 ≤ m) : RowLe row (updateCell next c m len fr dst row) := by
  unfold updateCell
  split
  · rename_i n v0 fr0 hn hr
    dsimp only
    have habs := abs_nonneg (n - c - len)
    split
    · rename_i hlt
      intro j v fr' hj hv
      rw [List.getElem?_set]
      by_cases hd : dst = j
      · subst hd
        rw [hr] at hj
        simp only [Option.some.injEq, Prod.mk.injEq] at hj
        obtain ⟨rfl, rfl⟩ := hj
        have hl : dst < row.length := (List.getElem?_eq_some_iff.1 hr).1
        refine ⟨m + |n - c - len|, fr, by simp [hl], by omega, ?_⟩
        rcases hlt with h | h
        · exact absurd h hv
        · omega
      · exact ⟨v, fr', by simp [hd, hj], hv, le_rfl⟩
    · exact RowLe.refl row
  · exact RowLe.refl row

theorem updateCell_set {next : List Int} {c m n : Int} {len fr dst : Nat} {row : List (Int × Nat)}
    (hm : 0 ≤ m) (hn : next[dst]? = some n) (hl : row.length = next.length) :
    ∃ v fr', (updateCell next c m len fr dst row)[dst]? = some (v, fr') ∧ v ≠ -1 ∧
      v ≤ m + |n - c - len| := by
  have hdl : dst < row.length := by rw [hl]; exact (List.getElem?_eq_some_iff.1 hn).1
  have habs := abs_nonneg (n - c - len)
  unfold updateCell
  rw [hn, List.getElem?_eq_getElem hdl]
  rcases hr : row[dst] with ⟨v, fr0⟩
  simp only
  split
  · exact ⟨_, fr, by simp [hdl], by omega, le_rfl⟩
  · rename_i h
    push Not at h
    exact ⟨v, fr0, by simp [hdl, hr], h.1, h.2⟩

/-- Invariants of the loop over the current locations. -/
theorem proxRow_ok {next : List Int} {len : Nat} (cur0 : List (Int × Int)) :
    ∀ (cur : List (Int × Int)) (i iNext : Nat) (row : List (Int × Nat)),
      cur0.drop i = cur → CellOk next len cur0 row →
      CellOk next len cur0 (proxRow next len cur i iNext row)
  | [], _, _, row, _, h => by simpa [proxRow] using h
  | (c, m) :: cur, i, iNext, row, hd, h => by
    have hi : cur0[i]? = some (c, m) := by
      have : (cur0.drop i)[0]? = some (c, m) := by rw [hd]; rfl
      simpa using this
    have hd' : cur0.drop (i + 1) = cur := by
      rw [← List.tail_drop, hd]; rfl
    rw [proxRow]
    split
    · exact proxRow_ok cur0 cur (i + 1) iNext row hd' h
    · rename_i hm
      exact proxRow_ok cur0 cur (i + 1) _ _ hd' (updateCell_ok (updateCell_ok h hi hm) hi hm)

theorem proxRow_le {next : List Int} {len : Nat} :
    ∀ (cur : List (Int × Int)) (i iNext : Nat) (row : List (Int × Nat)),
      (∀ x ∈ cur, x.2 = -1 ∨ 0 ≤ x.2) →
      RowLe row (proxRow next len cur i iNext row)
  | [], _, _, row, _ => by simpa [proxRow] using RowLe.refl row
  | (c, m) :: cur, i, iNext, row, h => by
    rw [proxRow]
    split
    · exact proxRow_le cur _ _ _ (fun x hx => h x (by simp [hx]))
    · rename_i hm
      have hm' : 0 ≤ m := by
        rcases h (c, m) (by simp) with h | h
        · exact absurd h hm
        · exact h
      exact ((updateCell_le _ _ _ _ _ _ _ hm').trans (updateCell_le _ _ _ _ _ _ _ hm')).trans
        (proxRow_le cur _ _ _ (fun x hx => h x (by simp [hx])))

theorem updateCell_length (next : List Int) (c m : Int) (len fr dst : Nat) (row : List (Int × Nat)) :
    (updateCell next c m len fr dst row).length = row.length := by
  unfold updateCell
  split
  · dsimp only; split <;> simp
  · rfl

theorem proxRow_length {next : List Int} {len : Nat} :
    ∀ (cur : List (Int × Int)) (i iNext : Nat) (row : List (Int × Nat)),
      (proxRow next len cur i iNext row).length = row.length
  | [], _, _, row => by simp [proxRow]
  | (c, m) :: cur, i, iNext, row => by
    rw [proxRow]
    split
    · exact proxRow_length cur _ _ _
    · rw [proxRow_length cur]; simp [updateCell_length]

/-- If some current value is set, some cell of the row is set. -/
theorem proxRow_some {next : List Int} {len : Nat} (hne : next ≠ []) :
    ∀ (cur : List (Int × Int)) (i iNext : Nat) (row : List (Int × Nat)),
      iNext < next.length → row.length = next.length →
      (∀ x ∈ cur, x.2 = -1 ∨ 0 ≤ x.2) → (∃ x ∈ cur, x.2 ≠ -1) →
      ∃ (j : Nat) (v : Int) (fr : Nat), (proxRow next len cur i iNext row)[j]? = some (v, fr) ∧ v ≠ -1
  | [], _, _, row, _, _, _, h => by simp at h
  | (c, m) :: cur, i, iNext, row, hi, hl, hx, hex => by
    rw [proxRow]
    split
    · rename_i hm
      refine proxRow_some hne cur _ _ _ hi hl (fun x hx' => hx x (by simp [hx'])) ?_
      obtain ⟨x, hx1, hx2⟩ := hex
      rcases List.mem_cons.1 hx1 with rfl | hx1
      · exact absurd hm hx2
      · exact ⟨x, hx1, hx2⟩
    · rename_i hm
      have hm' : 0 ≤ m := by
        rcases hx (c, m) (by simp) with h | h
        · exact absurd h hm
        · exact h
      have hadv := advanceNext_lt next c iNext hi
      dsimp only
      set k := advanceNext next c iNext
      obtain ⟨v, fr, e1, e2, -⟩ := updateCell_set (next := next) (c := c) (len := len) (fr := i)
        (dst := k) (row := row) hm' (List.getElem?_eq_getElem hadv) hl
      obtain ⟨v', fr', f1, f2, -⟩ :=
        ((updateCell_le next c m len i (k + 1) _ hm').trans
          (proxRow_le cur (i + 1) k _ (fun x hx' => hx x (by simp [hx'])))) k v fr e1 e2
      exact ⟨k, v', fr', f1, f2⟩

/-- Invariant of the dynamic programme: every set value of the current token is the cost
of the path the trace-back will follow. -/
structure DPInv (rl : List (List Int)) (rp : List (List Nat)) (dl : List Nat)
    (cur : List (Int × Int)) : Prop where
  locs : ∃ a rest, rl = a :: rest ∧ cur.map (·.1) = a
  nonneg : ∀ x ∈ cur, x.2 = -1 ∨ 0 ≤ x.2
  ex : ∃ x ∈ cur, x.2 ≠ -1
  trace : ∀ (j : Nat) c m, cur[j]? = some (c, m) → m ≠ -1 →
    ∃ ls, proxTrace rl rp j = some (c :: ls) ∧ IsChoice (c :: ls) rl ∧
      ls.length = dl.length ∧ proxCost (c :: ls).reverse dl = m

theorem zip_row {next : List Int} {row : List (Int × Nat)}
    {j : Nat} {c v : Int} :
    (next.zip (row.map (·.1)))[j]? = some (c, v) ↔
      next[j]? = some c ∧ ∃ fr, row[j]? = some (v, fr) := by
  rw [List.getElem?_zip_eq_some]
  simp only [List.getElem?_map, Option.map_eq_some_iff, Prod.exists, exists_and_right,
    exists_eq_right]

theorem DPInv.step {rl rp dl cur} (h : DPInv rl rp dl cur) (next : List Int) (hne : next ≠ [])
    (len : Nat) :
    DPInv (next :: rl) ((proxRow next len cur 0 0 (next.map (fun _ => (-1, 0)))).map (·.2) :: rp)
      (dl ++ [len])
      (next.zip ((proxRow next len cur 0 0 (next.map (fun _ => (-1, 0)))).map (·.1))) := by
  set row0 : List (Int × Nat) := next.map (fun _ => (-1, 0)) with hrow0
  have hok0 : CellOk next len cur row0 := by
    refine ⟨by simp [hrow0], ?_⟩
    intro j v fr hj hv
    simp only [hrow0, List.getElem?_map, Option.map_eq_some_iff, Prod.mk.injEq] at hj
    obtain ⟨_, _, h1, _⟩ := hj
    exact absurd h1.symm hv
  have hok := proxRow_ok cur cur 0 0 row0 (by simp) hok0
  have hsome := proxRow_some (len := len) hne cur 0 0 row0 (List.length_pos_of_ne_nil hne)
    (by simp [hrow0]) h.nonneg h.ex
  have hlen : (proxRow next len cur 0 0 row0).length = next.length := hok.1
  set row := proxRow next len cur 0 0 row0 with hrow
  clear_value row
  refine ⟨⟨next, rl, rfl, ?_⟩, ?_, ?_, ?_⟩
  · rw [List.map_fst_zip]; simp [hlen]
  · intro x hx
    obtain ⟨j, hj⟩ := List.mem_iff_getElem?.1 hx
    obtain ⟨h1, fr, h2⟩ := (zip_row (c := x.1) (v := x.2)).1 hj
    by_cases hv : x.2 = -1
    · exact Or.inl hv
    · right
      obtain ⟨c, m, n, e1, e2, e3, e4⟩ := hok.2 j _ _ h2 hv
      have := abs_nonneg (n - c - len)
      rcases h.nonneg _ (List.mem_of_getElem? e1) with h' | h'
      · exact absurd h' e2
      · simp only at h'; omega
  · obtain ⟨j, v, fr, e1, e2⟩ := hsome
    have hjl : j < next.length := by rw [← hlen]; exact (List.getElem?_eq_some_iff.1 e1).1
    exact ⟨(next[j], v), List.mem_iff_getElem?.2 ⟨j, (zip_row).2
      ⟨List.getElem?_eq_getElem hjl, fr, e1⟩⟩, e2⟩
  · intro j c v hj hv
    obtain ⟨h1, fr, h2⟩ := (zip_row).1 hj
    obtain ⟨c', m, n, e1, e2, e3, e4⟩ := hok.2 j _ _ h2 hv
    rw [h1] at e3
    obtain rfl := Option.some.inj e3
    obtain ⟨ls, f1, f2, f3, f4⟩ := h.trace fr c' m e1 e2
    obtain ⟨a, rest, rfl, hlocs⟩ := h.locs
    refine ⟨c' :: ls, ?_, ?_, by simp [f3], ?_⟩
    · rw [proxTrace]
      simp [h1, h2, f1]
    · exact .cons (List.mem_of_getElem? h1) f2
    · have := proxCost_snoc c' c ls.reverse dl len (by simp [f3])
      simp only [List.reverse_cons, List.append_assoc, List.cons_append, List.nil_append] at f4 this ⊢
      rw [this, f4, e4]

/-- The state of the programme after all tokens. -/
theorem proxDP_inv : ∀ (rest : List (List Int)) (lens : List Nat) (rl : List (List Int))
    (rp : List (List Nat)) (dl : List Nat) (cur : List (Int × Int)), DPInv rl rp dl cur →
    (∀ l ∈ rest, l ≠ []) → rest.length ≤ lens.length →
    ∃ cur', (proxDP cur rest lens).1 = cur'.map (·.2) ∧
      DPInv (rest.reverse ++ rl) ((proxDP cur rest lens).2.reverse ++ rp)
        (dl ++ lens.take rest.length) cur'
  | [], lens, rl, rp, dl, cur, h, _, _ => ⟨cur, by simp [proxDP], by simpa [proxDP] using h⟩
  | next :: rest, [], _, _, _, _, _, _, hl => by simp at hl
  | next :: rest, len :: lens, rl, rp, dl, cur, h, hne, hl => by
    obtain ⟨cur', e1, e2⟩ := proxDP_inv rest lens _ _ _ _ (h.step next (hne next (by simp)) len)
      (fun l hl => hne l (by simp [hl])) (by simpa using hl)
    refine ⟨cur', ?_, ?_⟩
    · simpa [proxDP] using e1
    · simpa [proxDP] using e2

theorem proxBest_spec : ∀ (vs : List Int) (i : Nat) (best : Int) (cursor : Nat),
    (∀ v ∈ vs, v = -1 ∨ 0 ≤ v) → (best = -1 ∨ 0 ≤ best) →
    ((proxBest vs i best cursor = (best, cursor) ∧
        (∀ v ∈ vs, v ≠ -1 → best ≠ -1 ∧ best ≤ v)) ∨
      (∃ j v, vs[j]? = some v ∧ v ≠ -1 ∧ proxBest vs i best cursor = (v, i + j) ∧
        (∀ w ∈ vs, w ≠ -1 → v ≤ w) ∧ (best ≠ -1 → v ≤ best)))
  | [], i, best, cursor, _, _ => by left; simp [proxBest]
  | v :: vs, i, best, cursor, hv, hb => by
    rw [proxBest]
    have hv' : ∀ w ∈ vs, w = -1 ∨ 0 ≤ w := fun w hw => hv w (by simp [hw])
    split
    · rename_i hm
      rcases proxBest_spec vs (i + 1) best cursor hv' hb with ⟨e1, e2⟩ | ⟨j, w, e1, e2, e3, e4, e5⟩
      · left
        refine ⟨e1, ?_⟩
        intro w hw hw1
        rcases List.mem_cons.1 hw with rfl | hw
        · exact absurd hm hw1
        · exact e2 w hw hw1
      · right
        refine ⟨j + 1, w, by simpa using e1, e2, by rw [e3]; congr 1; omega, ?_, e5⟩
        intro x hx hx1
        rcases List.mem_cons.1 hx with rfl | hx
        · exact absurd hm hx1
        · exact e4 x hx hx1
    · rename_i hm
      have hv0 : 0 ≤ v := by
        rcases hv v (by simp) with h | h
        · exact absurd h hm
        · exact h
      split
      · rename_i hlt
        right
        rcases proxBest_spec vs (i + 1) v i hv' (Or.inr hv0) with
          ⟨e1, e2⟩ | ⟨j, w, e1, e2, e3, e4, e5⟩
        · refine ⟨0, v, by simp, hm, by simpa using e1, ?_, ?_⟩
          · intro x hx hx1
            rcases List.mem_cons.1 hx with rfl | hx
            · exact le_rfl
            · exact (e2 x hx hx1).2
          · intro h; rcases hlt with h' | h'
            · exact absurd h' h
            · omega
        · refine ⟨j + 1, w, by simpa using e1, e2, by rw [e3]; congr 1; omega, ?_, ?_⟩
          · intro x hx hx1
            rcases List.mem_cons.1 hx with rfl | hx
            · exact e5 hm
            · exact e4 x hx hx1
          · intro h
            have := e5 hm
            rcases hlt with h' | h'
            · exact absurd h' h
            · omega
      · rename_i hlt
        push Not at hlt
        rcases proxBest_spec vs (i + 1) best cursor hv' hb with
          ⟨e1, e2⟩ | ⟨j, w, e1, e2, e3, e4, e5⟩
        · left
          refine ⟨e1, ?_⟩
          intro w hw hw1
          rcases List.mem_cons.1 hw with rfl | hw
          · exact hlt
          · exact e2 w hw hw1
        · right
          refine ⟨j + 1, w, by simpa using e1, e2, by rw [e3]; congr 1; omega, ?_, e5⟩
          intro x hx hx1
          rcases List.mem_cons.1 hx with rfl | hx
          · exact (e5 hlt.1).trans hlt.2
          · exact e4 x hx hx1

/-- Never a panic for non-empty location lists, and the reported value is attained at the
reported locations. Moreover it is the minimum of the final values of the programme. -/
theorem computeTokenProximity_spec (locs : List (List Int)) (lens : List Nat) (hne : locs ≠ [])
    (hl : ∀ l ∈ locs, l ≠ []) (hlen : lens.length = locs.length) :
    ∃ v ps, computeTokenProximity locs lens = some (v, ps) ∧ IsChoice ps locs ∧
      proxCost ps lens = v ∧
      ∀ first rest, locs = first :: rest →
        ∀ w ∈ (proxDP (first.map (fun l => (l, 0))) rest lens).1, w ≠ -1 → v ≤ w := by
  cases locs with
  | nil => exact absurd rfl hne
  | cons first rest =>
    have hinit : DPInv [first] [] [] (first.map (fun l => (l, 0))) := by
      refine ⟨⟨first, [], rfl, by rw [List.map_map]; exact List.map_id _⟩, by simp, ?_, ?_⟩
      · obtain ⟨x, hx⟩ := List.exists_mem_of_ne_nil _ (hl first (by simp))
        exact ⟨(x, 0), by simpa using hx, by simp⟩
      · intro j c m hj hm
        simp only [List.getElem?_map, Option.map_eq_some_iff, Prod.mk.injEq] at hj
        obtain ⟨x, h1, rfl, rfl⟩ := hj
        exact ⟨[], by simp [proxTrace, h1], .cons (List.mem_of_getElem? h1) .nil, rfl,
          by simp [proxCost]⟩
    simp only [List.length_cons] at hlen
    obtain ⟨cur', e1, e2⟩ := proxDP_inv rest lens _ _ _ _ hinit (fun l h => hl l (by simp [h]))
      (by omega)
    set r := proxDP (first.map (fun l => (l, 0))) rest lens with hr
    have hvs : ∀ v ∈ r.1, v = -1 ∨ 0 ≤ v := by
      intro v hv
      rw [e1] at hv
      obtain ⟨x, hx, rfl⟩ := List.mem_map.1 hv
      exact e2.nonneg x hx
    rcases proxBest_spec r.1 0 (-1) 0 hvs (Or.inl rfl) with ⟨_, f2⟩ | ⟨j, v, f1, f2, f3, f4, -⟩
    · exfalso
      obtain ⟨x, hx, hx1⟩ := e2.ex
      exact (f2 x.2 (by rw [e1]; exact List.mem_map.2 ⟨x, hx, rfl⟩) hx1).1 rfl
    · rw [e1, List.getElem?_map, Option.map_eq_some_iff] at f1
      obtain ⟨⟨c, m⟩, g1, rfl⟩ := f1
      obtain ⟨ls, h1, h2, h3, h4⟩ := e2.trace j c m g1 f2
      refine ⟨m, (c :: ls).reverse, ?_, ?_, ?_, ?_⟩
      · simp only [computeTokenProximity, ← hr, f3]
        have : (first :: rest).reverse = rest.reverse ++ [first] := by simp
        rw [this]
        simp only [List.append_nil] at h1
        rw [Nat.zero_add, h1]
        rfl
      · have : (rest.reverse ++ [first]) = (first :: rest).reverse := by simp
        rw [this] at h2
        have := List.rel_reverse h2
        simpa [IsChoice] using this
      · simp only [List.nil_append] at h4 h3
        rw [← h4]
        have hsplit : lens = lens.take rest.length ++ lens.drop rest.length := by simp
        conv_lhs => rw [hsplit]
        apply proxCost_extra
        simp [h3]
      · intro first' rest' heq w hw hw1
        obtain ⟨rfl, rfl⟩ : first = first' ∧ rest = rest' := by simpa using heq
        exact f4 w hw hw1

/-! ## Optimality when tokens do not overlap -/

theorem advanceNext_spec {next : List Int} (hs : next.Pairwise (· ≤ ·)) (c : Int) (i : Nat)
    (hi : i < next.length) :
    i ≤ advanceNext next c i ∧
    (∀ j (_ : advanceNext next c i < j) (hj : j < next.length), c ≤ next[j]) ∧
    (advanceNext next c i = i ∨
      ∃ h : advanceNext next c i < next.length, next[advanceNext next c i] < c) := by
  fun_induction advanceNext next c i with
  | case1 i h1 h2 ih =>
    obtain ⟨a, b, d⟩ := ih h1
    refine ⟨by omega, b, Or.inr ?_⟩
    rcases d with d | d
    · have : advanceNext next c (i + 1) < next.length := by omega
      refine ⟨this, ?_⟩
      have e : next[advanceNext next c (i + 1)] = next[i + 1] := by congr 1
      rw [e]; exact h2
    · exact d
  | case2 i h1 h2 =>
    refine ⟨le_rfl, ?_, Or.inl rfl⟩
    intro j hj hjl
    have : next[i + 1] ≤ next[j] := by
      rcases Nat.lt_or_ge (i + 1) j with h | h
      · exact List.pairwise_iff_getElem.1 hs _ _ _ _ h
      · have : j = i + 1 := by omega
        subst this; exact le_rfl
    omega
  | case3 i h1 => exact ⟨le_rfl, fun j hj hjl => by omega, Or.inl rfl⟩

/-- Every step of every path can be replaced by one the row considers. -/
theorem proxRow_opt {next : List Int} {len : Nat} (hs : next.Pairwise (· ≤ ·)) :
    ∀ (cur : List (Int × Int)) (i iNext : Nat) (row : List (Int × Nat)),
      (cur.map (·.1)).Pairwise (· ≤ ·) → iNext < next.length → row.length = next.length →
      (∀ x ∈ cur, x.2 = -1 ∨ 0 ≤ x.2) →
      (iNext = 0 ∨ ∀ x ∈ cur, ∀ h : iNext < next.length, next[iNext] < x.1) →
      (∀ x ∈ cur, ∀ n ∈ next, n < x.1 ∨ x.1 + len ≤ n) →
      ∀ x ∈ cur, x.2 ≠ -1 → ∀ n ∈ next,
        ∃ (j : Nat) (v : Int) (fr : Nat) (hj : j < next.length),
          (proxRow next len cur i iNext row)[j]? = some (v, fr) ∧ v ≠ -1 ∧
          v + |n - next[j]| ≤ x.2 + |n - x.1 - len|
  | [], _, _, _, _, _, _, _, _, _, x, hx, _, _, _ => by simp at hx
  | (c, m) :: cur, i, iNext, row, hc, hi, hl, hx, hleft, hov, x, hxm, hx1, n, hn => by
    have hc' : (cur.map (·.1)).Pairwise (· ≤ ·) := by
      simp only [List.map_cons, List.pairwise_cons] at hc; exact hc.2
    have hcle : ∀ y ∈ cur, c ≤ y.1 := by
      simp only [List.map_cons, List.pairwise_cons] at hc
      intro y hy
      exact hc.1 _ (List.mem_map.2 ⟨y, hy, rfl⟩)
    rw [proxRow]
    split
    · rename_i hm
      rcases List.mem_cons.1 hxm with rfl | hxm
      · exact absurd hm hx1
      · refine proxRow_opt hs cur _ _ _ hc' hi hl (fun y hy => hx y (by simp [hy])) ?_
          (fun y hy => hov y (by simp [hy])) x hxm hx1 n hn
        rcases hleft with h | h
        · exact Or.inl h
        · exact Or.inr (fun y hy => h y (by simp [hy]))
    · rename_i hm
      have hm' : 0 ≤ m := by
        rcases hx (c, m) (by simp) with h | h
        · exact absurd h hm
        · exact h
      have hadv := advanceNext_lt next c iNext hi
      obtain ⟨a1, a2, a3⟩ := advanceNext_spec hs c iNext hi
      dsimp only
      set k := advanceNext next c iNext with hk
      have hkleft : k = 0 ∨ next[k] < c := by
        rcases a3 with h | ⟨_, h⟩
        · rcases hleft with h' | h'
          · left; omega
          · right
            have := h' (c, m) (by simp) hi
            have e : next[k] = next[iNext] := by congr 1
            rw [e]; exact this
        · exact Or.inr h
      have hleft' : k = 0 ∨ ∀ y ∈ cur, ∀ h : k < next.length, next[k] < y.1 := by
        rcases hkleft with h | h
        · exact Or.inl h
        · exact Or.inr (fun y hy _ => lt_of_lt_of_le h (hcle y hy))
      rcases List.mem_cons.1 hxm with rfl | hxm
      · -- the step from this location
        have hset : ∀ j (hj : j < next.length), (j = k ∨ j = k + 1) →
            ∃ v fr, (proxRow next len cur (i + 1) k
              (updateCell next c m len i (k + 1) (updateCell next c m len i k row)))[j]? =
                some (v, fr) ∧ v ≠ -1 ∧ v ≤ m + |next[j] - c - len| := by
          intro j hj hjk
          have hle := proxRow_le (next := next) (len := len) cur (i + 1) k
            (updateCell next c m len i (k + 1) (updateCell next c m len i k row))
            (fun y hy => hx y (by simp [hy]))
          rcases hjk with rfl | rfl
          · obtain ⟨v, fr, e1, e2, e3⟩ := updateCell_set (next := next) (c := c) (len := len)
              (fr := i) (dst := k) (row := row) hm' (List.getElem?_eq_getElem hj) hl
            obtain ⟨v', fr', f1, f2, f3⟩ :=
              ((updateCell_le next c m len i (k + 1) _ hm').trans hle) k v fr e1 e2
            exact ⟨v', fr', f1, f2, f3.trans e3⟩
          · obtain ⟨v, fr, e1, e2, e3⟩ := updateCell_set (next := next) (c := c) (len := len)
              (fr := i) (dst := k + 1) (row := updateCell next c m len i k row) hm'
              (List.getElem?_eq_getElem hj) (by rw [updateCell_length, hl])
            obtain ⟨v', fr', f1, f2, f3⟩ := hle (k + 1) v fr e1 e2
            exact ⟨v', fr', f1, f2, f3.trans e3⟩
        simp only
        obtain ⟨q, hq, rfl⟩ := List.mem_iff_getElem.1 hn
        have hmono : ∀ a b (ha : a < next.length) (hb : b < next.length), a ≤ b →
            next[a] ≤ next[b] := by
          intro a b ha hb hab
          rcases Nat.lt_or_ge a b with h | h
          · exact List.pairwise_iff_getElem.1 hs _ _ _ _ h
          · have : a = b := by omega
            subst this; exact le_rfl
        rcases Nat.lt_or_ge k q with hkq | hkq
        · -- the goal lies to the right of `c`
          have hk1 : k + 1 < next.length := by omega
          obtain ⟨v, fr, e1, e2, e3⟩ := hset (k + 1) hk1 (Or.inr rfl)
          refine ⟨k + 1, v, fr, hk1, e1, e2, ?_⟩
          have h1 : c ≤ next[k + 1] := a2 (k + 1) (by omega) hk1
          have h2 : c + len ≤ next[k + 1] := by
            rcases hov (c, m) (by simp) next[k + 1] (List.getElem_mem _) with h | h
            · simp only at h; omega
            · exact h
          have h3 := hmono (k + 1) q hk1 hq (by omega)
          rw [abs_of_nonneg (by omega : 0 ≤ next[k + 1] - c - len)] at e3
          rw [abs_of_nonneg (by omega : 0 ≤ next[q] - next[k + 1]),
            abs_of_nonneg (by omega : 0 ≤ next[q] - c - len)]
          omega
        · obtain ⟨v, fr, e1, e2, e3⟩ := hset k hadv (Or.inl rfl)
          refine ⟨k, v, fr, hadv, e1, e2, ?_⟩
          have h3 := hmono q k hq hadv hkq
          rcases hkleft with h | h
          · -- `k = 0`, so the goal is the cell itself
            have hqk : q = k := by omega
            subst hqk
            simp only [sub_self, abs_zero, add_zero]
            exact e3
          · rw [abs_of_nonpos (by omega : next[k] - c - len ≤ 0)] at e3
            rw [abs_of_nonpos (by omega : next[q] - next[k] ≤ 0),
              abs_of_nonpos (by omega : next[q] - c - len ≤ 0)]
            omega
      · exact proxRow_opt hs cur _ _ _ hc' hadv (by simp [updateCell_length, hl])
          (fun y hy => hx y (by simp [hy])) hleft' (fun y hy => hov y (by simp [hy])) x hxm hx1 n hn

theorem proxCost_move (a b : Int) (ps : List Int) (ls : List Nat) :
    proxCost (a :: ps) ls ≤ |b - a| + proxCost (b :: ps) ls := by
  have := abs_nonneg (b - a)
  cases ps with
  | nil => simp [proxCost]
  | cons q ps =>
    cases ls with
    | nil => simp [proxCost]
    | cons l ls =>
      simp only [proxCost]
      have : |q - a - l| ≤ |b - a| + |q - b - l| := by
        have e : q - a - l = (b - a) + (q - b - l) := by ring
        rw [e]; exact abs_add_le _ _
      linarith

theorem proxDP_opt : ∀ (rest : List (List Int)) (lens : List Nat) (rl : List (List Int))
    (rp : List (List Nat)) (dl : List Nat) (cur : List (Int × Int)), DPInv rl rp dl cur →
    (∀ l ∈ rest, l ≠ []) → rest.length ≤ lens.length →
    (cur.map (·.1)).Pairwise (· ≤ ·) → (∀ l ∈ rest, l.Pairwise (· ≤ ·)) →
    NoOverlap (cur.map (·.1) :: rest) lens →
    ∀ x ∈ cur, x.2 ≠ -1 → ∀ ps, IsChoice ps rest →
      ∃ w ∈ (proxDP cur rest lens).1, w ≠ -1 ∧ w ≤ x.2 + proxCost (x.1 :: ps) lens
  | [], lens, rl, rp, dl, cur, h, _, _, _, _, _, x, hx, hx1, ps, hps => by
    cases hps
    exact ⟨x.2, by simp [proxDP]; exact ⟨x.1, hx⟩, hx1, by simp [proxCost]⟩
  | next :: rest, [], _, _, _, _, _, _, hl, _, _, _, _, _, _, _, _ => by simp at hl
  | next :: rest, len :: lens, rl, rp, dl, cur, h, hne, hl, hc, hs, hov, x, hx, hx1, ps, hps => by
    cases hps with
    | @cons n _ ps _ hn hps =>
      have hnn : next ≠ [] := hne next (by simp)
      have hstep := h.step next hnn len
      set row := proxRow next len cur 0 0 (next.map (fun _ => (-1, 0))) with hrow
      have hrl : row.length = next.length := by rw [hrow, proxRow_length]; simp
      simp only [NoOverlap] at hov
      obtain ⟨j, v, fr, hj, e1, e2, e3⟩ := proxRow_opt (len := len) (hs next (by simp)) cur 0 0
        (next.map (fun _ => (-1, 0))) hc (List.length_pos_of_ne_nil hnn) (by simp) h.nonneg
        (Or.inl rfl) (fun y hy => hov.1 y.1 (List.mem_map.2 ⟨y, hy, rfl⟩)) x hx hx1 n hn
      rw [← hrow] at e1
      have hcell : (next[j], v) ∈ next.zip (row.map (·.1)) :=
        List.mem_iff_getElem?.2 ⟨j, (zip_row).2 ⟨List.getElem?_eq_getElem hj, fr, e1⟩⟩
      have hfst : (next.zip (row.map (·.1))).map (·.1) = next := by
        rw [List.map_fst_zip]; simp [hrl]
      obtain ⟨w, f1, f2, f3⟩ := proxDP_opt rest lens _ _ _ _ hstep (fun l hl => hne l (by simp [hl]))
        (by simpa using hl) (by rw [hfst]; exact hs next (by simp)) (fun l hl => hs l (by simp [hl]))
        (by rw [hfst]; exact hov.2) _ hcell e2 ps hps
      refine ⟨w, by rw [proxDP]; exact f1, f2, ?_⟩
      simp only at f3
      have hmove := proxCost_move next[j] n ps lens
      simp only [proxCost]
      linarith

/-- With ascending locations and tokens that do not overlap, the reported value is the
minimum over all choices. -/
theorem computeTokenProximity_opt (locs : List (List Int)) (lens : List Nat) (v : Int)
    (ps : List Int) (hl : ∀ l ∈ locs, l ≠ []) (hlen : lens.length = locs.length)
    (hs : ∀ l ∈ locs, l.Pairwise (· ≤ ·)) (hov : NoOverlap locs lens)
    (h : computeTokenProximity locs lens = some (v, ps)) :
    ∀ qs, IsChoice qs locs → v ≤ proxCost qs lens := by
  intro qs hqs
  have hne : locs ≠ [] := by rintro rfl; simp [computeTokenProximity] at h
  obtain ⟨v', ps', e1, -, -, e4⟩ := computeTokenProximity_spec locs lens hne hl hlen
  rw [h] at e1
  obtain ⟨rfl, rfl⟩ : v = v' ∧ ps = ps' := by simpa using e1
  cases locs with
  | nil => exact absurd rfl hne
  | cons first rest =>
    cases hqs with
    | @cons q _ qs _ hq hqs =>
      have hinit : DPInv [first] [] [] (first.map (fun l => (l, 0))) := by
        refine ⟨⟨first, [], rfl, by rw [List.map_map]; exact List.map_id _⟩, by simp, ⟨(q, 0), by simpa using hq, by simp⟩, ?_⟩
        intro j c m hj hm
        simp only [List.getElem?_map, Option.map_eq_some_iff, Prod.mk.injEq] at hj
        obtain ⟨x, h1, rfl, rfl⟩ := hj
        exact ⟨[], by simp [proxTrace, h1], .cons (List.mem_of_getElem? h1) .nil, rfl,
          by simp [proxCost]⟩
      simp only [List.length_cons] at hlen
      have hfst : (first.map (fun l => ((l, 0) : Int × Int))).map (·.1) = first := by
        rw [List.map_map]; exact List.map_id _
      obtain ⟨w, f1, f2, f3⟩ := proxDP_opt rest lens _ _ _ _ hinit (fun l h => hl l (by simp [h]))
        (by omega) (by rw [hfst]; exact hs first (by simp)) (fun l h => hs l (by simp [h]))
        (by rw [hfst]; exact hov) (q, 0) (by simpa using hq) (by simp) qs hqs
      have := e4 first rest rfl w f1 f2
      simp only [zero_add] at f3
      omega

end Riot
