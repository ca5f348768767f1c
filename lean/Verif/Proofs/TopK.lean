import Mathlib.Data.List.Sort
import Mathlib.Data.List.Forall2
import Mathlib.Data.List.Perm.Basic
import Mathlib.Data.List.Flatten
import Mathlib.Tactic.Linarith

/-!
# Merging the best `k` of several sorted lists
-/

namespace Riot

/-- A permutation of a mapped list is the map of a permutation. -/
theorem perm_map_lift {α β : Type} (f : α → β) {l : List β} {m : List α} (h : l.Perm (m.map f)) :
    ∃ m' : List α, m'.Perm m ∧ m'.map f = l := by
  generalize hx : m.map f = x at h
  induction h generalizing m with
  | nil => exact ⟨[], by simp_all, rfl⟩
  | cons b _ ih =>
    cases m with
    | nil => simp at hx
    | cons a m =>
      simp only [List.map_cons, List.cons.injEq] at hx
      obtain ⟨m', h1, h2⟩ := ih hx.2
      exact ⟨a :: m', h1.cons a, by simp [h2, hx.1]⟩
  | swap b c l =>
    match m, hx with
    | a :: a' :: m, hx =>
      simp only [List.map_cons, List.cons.injEq] at hx
      refine ⟨a' :: a :: m, List.Perm.swap _ _ _, ?_⟩
      simp [hx]
  | trans _ _ ih1 ih2 =>
    obtain ⟨m1, h1, h2⟩ := ih2 hx
    obtain ⟨m2, h3, h4⟩ := ih1 h2
    exact ⟨m2, h3.trans h1, h4⟩

/-- **Top-k merge.** If every list of `Ls` is sorted by `key`, and `S` is a sorted permutation
of the first `k` elements of each, then some sorted permutation of everything starts with the
first `k` elements of `S`. -/
theorem topk_merge {α K : Type} [LinearOrder K] (key : α → K) (k : Nat) (Ls : List (List α))
    (hL : ∀ l ∈ Ls, l.Pairwise (fun a b => key a ≤ key b)) (S : List α)
    (hS : S.Pairwise (fun a b => key a ≤ key b)) (hp : S.Perm (Ls.flatMap (·.take k))) :
    ∃ R : List α, R.Perm Ls.flatten ∧ R.Pairwise (fun a b => key a ≤ key b) ∧ R.take k = S.take k := by
  classical
  let rest := S.drop k ++ Ls.flatMap (·.drop k)
  let r : α → α → Prop := fun a b => key a ≤ key b
  have : Std.Total r := ⟨fun a b => le_total _ _⟩
  have : IsTrans α r := ⟨fun a b c h1 h2 => le_trans h1 h2⟩
  let T := rest.insertionSort r
  have hT : T.Perm rest := List.perm_insertionSort _ _
  have hcross : ∀ x ∈ S.take k, ∀ y ∈ rest, key x ≤ key y := by
    intro x hx y hy
    rcases List.mem_append.1 hy with hy | hy
    · have hS' := hS
      rw [← List.take_append_drop k S, List.pairwise_append] at hS'
      exact hS'.2.2 x hx y hy
    · obtain ⟨l, hl, hyl⟩ := List.mem_flatMap.1 hy
      by_contra hlt
      have hlt : key y < key x := not_le.1 hlt
      have hlen : (l.take k).length = k := by
        have : k < l.length := by
          by_contra h
          rw [List.drop_eq_nil_of_le (by omega)] at hyl
          simp at hyl
        rw [List.length_take]; omega
      -- all elements of `l.take k` are strictly before `x`
      have hall : ∀ z ∈ l.take k, decide (key z < key x) = true := by
        intro z hz
        have h := hL l hl
        rw [← List.take_append_drop k l, List.pairwise_append] at h
        simpa using lt_of_le_of_lt (h.2.2 z hz y hyl) hlt
      have hc1 : (l.take k).countP (fun z => decide (key z < key x)) = k := by
        rw [List.countP_eq_length.2 hall, hlen]
      have hsub : (l.take k).Subperm (Ls.flatMap (·.take k)) := by
        rw [List.flatMap_def]
        exact (List.sublist_flatten_of_mem (List.mem_map.2 ⟨l, hl, rfl⟩)).subperm
      have hc2 : k ≤ S.countP (fun z => decide (key z < key x)) := by
        rw [hp.countP_eq]
        calc k = _ := hc1.symm
          _ ≤ _ := hsub.countP_le _
      obtain ⟨i, hi, hix⟩ := List.getElem_of_mem hx
      have hik : i < k := by rw [List.length_take] at hi; omega
      have hiS : i < S.length := by rw [List.length_take] at hi; omega
      rw [List.getElem_take] at hix
      have hsplit : S = S.take i ++ S.drop i := (List.take_append_drop i S).symm
      have hdrop : (S.drop i).countP (fun z => decide (key z < key x)) = 0 := by
        rw [List.countP_eq_zero]
        intro z hz
        rw [List.drop_eq_getElem_cons hiS] at hz
        have hSi := hS
        rw [hsplit, List.pairwise_append] at hSi
        have h2 := hSi.2.1
        rw [List.drop_eq_getElem_cons hiS, List.pairwise_cons] at h2
        rcases List.mem_cons.1 hz with rfl | hz
        · simp [hix]
        · have := h2.1 z hz
          rw [hix] at this
          simpa using this
      have hc3 : S.countP (fun z => decide (key z < key x)) ≤ i := by
        rw [hsplit, List.countP_append, hdrop]
        have : (S.take i).countP (fun z => decide (key z < key x)) ≤ (S.take i).length :=
          List.countP_le_length
        rw [List.length_take] at this
        omega
      omega
  refine ⟨S.take k ++ T, ?_, ?_, ?_⟩
  · have h1 : (S.take k ++ T).Perm (S ++ Ls.flatMap (·.drop k)) := by
      refine (List.Perm.append_left _ hT).trans ?_
      show (S.take k ++ (S.drop k ++ Ls.flatMap (·.drop k))).Perm _
      rw [← List.append_assoc, List.take_append_drop]
    refine h1.trans ((hp.append_right _).trans ?_)
    clear h1 hT hcross hp hS hL
    induction Ls with
    | nil => simp
    | cons l Ls ih =>
      simp only [List.flatMap_cons, List.flatten_cons]
      calc (l.take k ++ Ls.flatMap (·.take k) ++ (l.drop k ++ Ls.flatMap (·.drop k))).Perm
            (l.take k ++ l.drop k ++ (Ls.flatMap (·.take k) ++ Ls.flatMap (·.drop k))) := by
              simp only [List.append_assoc]
              refine List.Perm.append_left _ ?_
              rw [← List.append_assoc, ← List.append_assoc]
              exact List.Perm.append_right _ List.perm_append_comm
        _ |>.Perm (l ++ Ls.flatten) := by
              rw [List.take_append_drop]
              exact List.Perm.append_left _ ih
  · rw [List.pairwise_append]
    refine ⟨hS.sublist (List.take_sublist _ _), ?_, ?_⟩
    · exact List.pairwise_insertionSort r rest
    · intro x hx y hy
      exact hcross x hx y (hT.mem_iff.1 hy)
  · by_cases h : k ≤ S.length
    · rw [List.take_append_of_le_length (by rw [List.length_take]; omega), List.take_take]
      simp
    · -- everything fits: nothing is left
      have hnil : rest = [] := by
        have h1 : S.drop k = [] := List.drop_eq_nil_of_le (by omega)
        have h2 : Ls.flatMap (·.drop k) = [] := by
          rw [List.flatMap_eq_nil_iff]
          intro l hl
          apply List.drop_eq_nil_of_le
          by_contra h3
          have : (l.take k).Subperm (Ls.flatMap (·.take k)) := by
            rw [List.flatMap_def]
            exact (List.sublist_flatten_of_mem (List.mem_map.2 ⟨l, hl, rfl⟩)).subperm
          have := this.length_le
          rw [← hp.length_eq, List.length_take] at this
          omega
        simp [rest, h1, h2]
      have hTn : T = [] := by simp [T, hnil]
      simp [hTn, List.take_take]

end Riot
