import Verif.Proofs.JsonGrammar

/-!
# Values: the reader and the writer against the grammar
-/

namespace Riot.Json

open Riot Riot.Net

/-! ## White space and first bytes -/

theorem skipWs_ws {w : Str} (h : Ws w) (t : Str) : skipWs (w ++ t) = skipWs t := by
  induction w with
  | nil => rfl
  | cons b w ih =>
    rw [List.cons_append, skipWs, if_pos (h b (by simp))]
    exact ih fun c hc => h c (by simp [hc])

theorem skipWs_split (bs : Str) : ∃ w : Str, Ws w ∧ bs = w ++ skipWs bs := by
  induction bs with
  | nil => exact ⟨[], by intro b hb; simp at hb, rfl⟩
  | cons b t ih =>
    by_cases h : b = 32 ∨ b = 9 ∨ b = 10 ∨ b = 13
    · obtain ⟨w, hw, e⟩ := ih
      refine ⟨b :: w, ?_, by rw [skipWs, if_pos h, List.cons_append, ← e]⟩
      intro c hc
      rcases List.mem_cons.1 hc with rfl | hc
      · exact h
      · exact hw c hc
    · exact ⟨[], by intro b hb; simp at hb, by rw [skipWs, if_neg h]; rfl⟩

theorem skipWs_nil {w : Str} (h : Ws w) : skipWs w = [] := by
  have := skipWs_ws h []
  rwa [List.append_nil] at this

/-- A byte a value may begin with. -/
def Head (b : Fin 256) : Prop := ¬ (b = 32 ∨ b = 9 ∨ b = 10 ∨ b = 13) ∧ b ≠ 93 ∧ b ≠ 125

theorem digit_head {b : Fin 256} (h : b = 45 ∨ (48 ≤ b.val ∧ b.val ≤ 57)) : Head b ∧ b ≠ 34 ∧ b ≠ 91 ∧ b ≠ 123 ∧ b ≠ 110 ∧
    b ≠ 116 ∧ b ≠ 102 := by
  rcases h with rfl | ⟨h1, h2⟩
  · exact ⟨⟨by decide, by decide, by decide⟩, by decide, by decide, by decide, by decide, by decide, by decide⟩
  · refine ⟨⟨?_, ?_, ?_⟩, ?_, ?_, ?_, ?_, ?_, ?_⟩
    · rintro (rfl | rfl | rfl | rfl) <;> revert h1 <;> decide
    all_goals (rintro rfl; revert h1 h2; decide)

theorem isVal_head {t : Str} {v : Val} (h : IsVal t v) : ∃ (b : Fin 256) (u : Str), t = b :: u ∧ Head b := by
  cases h with
  | null => exact ⟨_, _, rfl, by decide, by decide, by decide⟩
  | true => exact ⟨_, _, rfl, by decide, by decide, by decide⟩
  | false => exact ⟨_, _, rfl, by decide, by decide, by decide⟩
  | num h =>
    obtain ⟨b, u, rfl, hb⟩ := readNum_first ((number_iff _).2 h)
    exact ⟨b, u, rfl, (digit_head hb).1⟩
  | text h =>
    obtain ⟨u, rfl, -⟩ := h
    exact ⟨_, _, rfl, by decide, by decide, by decide⟩
  | arr0 h => exact ⟨_, _, rfl, by decide, by decide, by decide⟩
  | arr h => exact ⟨_, _, rfl, by decide, by decide, by decide⟩
  | obj0 h => exact ⟨_, _, rfl, by decide, by decide, by decide⟩
  | obj h => exact ⟨_, _, rfl, by decide, by decide, by decide⟩

theorem skipWs_val {w t : Str} {v : Val} (hw : Ws w) (h : IsVal t v) (rest : Str) : skipWs (w ++ (t ++ rest)) = t ++ rest := by
  obtain ⟨b, u, rfl, hb⟩ := isVal_head h
  rw [skipWs_ws hw, List.cons_append, skipWs_head hb.1]

theorem areElems_head {t : Str} {l : Elems} (h : AreElems t l) (rest : Str) : ∃ (b : Fin 256) (u : Str),
    skipWs (t ++ rest) = b :: u ∧ b ≠ 93 := by
  cases h with
  | one hw hv hw' =>
    obtain ⟨b, u, rfl, hb⟩ := isVal_head hv
    rw [List.append_assoc, List.append_assoc, skipWs_val hw hv]
    exact ⟨b, _, rfl, hb.2.1⟩
  | more hw hv hw' _ =>
    obtain ⟨b, u, rfl, hb⟩ := isVal_head hv
    rw [List.append_assoc, List.append_assoc, skipWs_val hw hv]
    exact ⟨b, _, rfl, hb.2.1⟩

theorem skipWs_string {w t s : Str} (hw : Ws w) (h : IsString t s) (rest : Str) : skipWs (w ++ (t ++ rest)) = t ++ rest := by
  obtain ⟨u, rfl, -⟩ := h
  rw [skipWs_ws hw, List.cons_append, skipWs_head (by decide)]

theorem areFields_head {t : Str} {l : Fields} (h : AreFields t l) (rest : Str) : ∃ u : Str, skipWs (t ++ rest) = 34 :: u := by
  cases h with
  | one hw hk _ _ _ _ =>
    rw [List.append_assoc, List.append_assoc, skipWs_string hw hk]
    obtain ⟨u, rfl, -⟩ := hk
    exact ⟨_, rfl⟩
  | more hw hk _ _ _ _ _ =>
    rw [List.append_assoc, List.append_assoc, skipWs_string hw hk]
    obtain ⟨u, rfl, -⟩ := hk
    exact ⟨_, rfl⟩

theorem stops_ws {w rest : Str} (hw : Ws w) (h : Stops rest) : Stops (w ++ rest) := by
  cases w with
  | nil => exact h
  | cons b w =>
    refine Or.inr ⟨b, w ++ rest, rfl, ?_⟩
    rcases hw b (by simp) with h | h | h | h
    · exact Or.inr (Or.inr (Or.inr (Or.inl h)))
    · exact Or.inr (Or.inr (Or.inr (Or.inr (Or.inl h))))
    · exact Or.inr (Or.inr (Or.inr (Or.inr (Or.inr (Or.inl h)))))
    · exact Or.inr (Or.inr (Or.inr (Or.inr (Or.inr (Or.inr h)))))

/-- The string that begins behind the quote. -/
theorem string_complete {t s : Str} (h : IsString t s) (rest : Str) : ∃ u : Str, t ++ rest = 34 :: u ∧
    readChars (u.length + 1) u = some (s, rest) := by
  obtain ⟨u, rfl, hu⟩ := h
  refine ⟨u ++ 34 :: rest, by simp, chars_complete hu _ _ ?_⟩
  rw [List.length_append]; omega

/-! ## Every text of the grammar is read -/

theorem readVal_eq (n : Nat) (bs : Str) (b : Fin 256) (t : Str) (h : skipWs bs = b :: t) : readVal (n + 1) bs =
      if b = 34 then (readChars (t.length + 1) t).map fun q => (.text q.1, q.2)
      else if b = 91 then
        match skipWs t with
        | 93 :: t' => some (.arr .nil, t')
        | _ => (readElems n t).map fun q => (.arr q.1, q.2)
      else if b = 123 then
        match skipWs t with
        | 125 :: t' => some (.obj .nil, t')
        | _ => (readFields n t).map fun q => (.obj q.1, q.2)
      else if b = 110 then readLit (str "null") .null (b :: t)
      else if b = 116 then readLit (str "true") (.bool true) (b :: t)
      else if b = 102 then readLit (str "false") (.bool false) (b :: t)
      else (readNum 0 (b :: t)).map fun q => (.num q.1, q.2) := by
  simp only [readVal, h]
  rfl

theorem lits : str "null" = [110, 117, 108, 108] ∧ str "true" = [116, 114, 117, 101] ∧
    str "false" = [102, 97, 108, 115, 101] := by
  refine ⟨?_, ?_, ?_⟩ <;> decide +kernel

mutual

theorem val_complete : ∀ (v : Val) (t : Str) (_ : IsVal t v) (n : Nat) (bs rest : Str), skipWs bs = t ++ rest → Stops rest →
    t.length ≤ n → readVal n bs = some (v, rest)
  | v, t, h, n, bs, rest, hsk, hs, hn => by
    obtain ⟨n, rfl⟩ : ∃ m, n = m + 1 := ⟨n - 1, by
      obtain ⟨b, u, rfl, -⟩ := isVal_head h
      rw [List.length_cons] at hn; omega⟩
    cases h with
    | null =>
      rw [readVal_eq n bs _ _ hsk]
      simp only [readLit, lits.1]
      rfl
    | true =>
      rw [readVal_eq n bs _ _ hsk]
      simp only [readLit, lits.2.1]
      rfl
    | false =>
      rw [readVal_eq n bs _ _ hsk]
      simp only [readLit, lits.2.2]
      rfl
    | num h =>
      have h0 := (number_iff _).2 h
      have hr := readNum_append hs _ 0 h0
      obtain ⟨b, u, rfl, hb⟩ := readNum_first h0
      obtain ⟨-, n1, n2, n3, n4, n5, n6⟩ := digit_head hb
      rw [List.cons_append] at hsk hr
      rw [readVal_eq n bs _ _ hsk]
      simp only [if_neg n1, if_neg n2, if_neg n3, if_neg n4, if_neg n5, if_neg n6, hr]
      rfl
    | text h =>
      obtain ⟨u, e, hu⟩ := string_complete h rest
      rw [e] at hsk
      rw [readVal_eq n bs _ _ hsk]
      simp only [if_true, hu]
      rfl
    | @arr0 w' hw' =>
      rw [List.cons_append, List.append_assoc, List.cons_append, List.nil_append] at hsk
      have h1 : ¬ ((91 : Fin 256) = 34) := by decide
      rw [readVal_eq n bs _ _ hsk]
      simp only [if_neg h1, if_true]
      rw [skipWs_ws hw', skipWs_head (by decide)]
      rfl
    | @arr u l hl =>
      rw [List.cons_append, List.append_assoc, List.cons_append, List.nil_append] at hsk
      have h1 : ¬ ((91 : Fin 256) = 34) := by decide
      rw [readVal_eq n bs _ _ hsk]
      simp only [if_neg h1, if_true]
      simp only [List.length_cons, List.length_append, List.length_nil] at hn
      obtain ⟨b, u', e, hb⟩ := areElems_head hl (93 :: rest)
      rw [e, elems_complete l u hl n rest (by omega)]
      split
      · rename_i t' heq
        exact absurd (List.cons.inj heq).1 hb
      · rfl
    | @obj0 w' hw' =>
      rw [List.cons_append, List.append_assoc, List.cons_append, List.nil_append] at hsk
      have h1 : ¬ ((123 : Fin 256) = 34) := by decide
      have h2 : ¬ ((123 : Fin 256) = 91) := by decide
      rw [readVal_eq n bs _ _ hsk]
      simp only [if_neg h1, if_neg h2, if_true]
      rw [skipWs_ws hw', skipWs_head (by decide)]
      rfl
    | @obj u l hl =>
      rw [List.cons_append, List.append_assoc, List.cons_append, List.nil_append] at hsk
      have h1 : ¬ ((123 : Fin 256) = 34) := by decide
      have h2 : ¬ ((123 : Fin 256) = 91) := by decide
      rw [readVal_eq n bs _ _ hsk]
      simp only [if_neg h1, if_neg h2, if_true]
      simp only [List.length_cons, List.length_append, List.length_nil] at hn
      obtain ⟨u', e⟩ := areFields_head hl (125 :: rest)
      rw [e, fields_complete l u hl n rest (by omega)]
      rfl
termination_by v => sizeOf v
decreasing_by all_goals (subst_vars; simp_wf; try omega)

theorem elems_complete : ∀ (l : Elems) (t : Str) (_ : AreElems t l) (n : Nat) (rest : Str), t.length < n →
    readElems n (t ++ 93 :: rest) = some (l, rest)
  | l, t, h, n, rest, hn => by
    obtain ⟨n, rfl⟩ : ∃ m, n = m + 1 := ⟨n - 1, by omega⟩
    cases h with
    | @one w t w' v hw hv hw' =>
      simp only [List.length_append] at hn
      rw [List.append_assoc, List.append_assoc, readElems,
        val_complete v t hv n _ (w' ++ 93 :: rest) (skipWs_val hw hv _) (stops_ws hw' (Or.inr ⟨93, rest, rfl, by decide⟩)) (by omega)]
      simp only [Option.bind_some]
      rw [skipWs_ws hw', skipWs_head (by decide)]
      rfl
    | @more w t w' u v l hw hv hw' hl =>
      simp only [List.length_append, List.length_cons] at hn
      rw [List.append_assoc, List.append_assoc, List.append_assoc, List.cons_append, readElems,
        val_complete v t hv n _ (w' ++ 44 :: (u ++ 93 :: rest)) (skipWs_val hw hv _) (stops_ws hw' (Or.inr ⟨44, _, rfl, by decide⟩)) (by omega)]
      simp only [Option.bind_some]
      rw [skipWs_ws hw', skipWs_head (by decide)]
      simp only
      rw [elems_complete l u hl n rest (by omega)]
      rfl
termination_by l => sizeOf l
decreasing_by all_goals (subst_vars; simp_wf; try omega)

theorem fields_complete : ∀ (l : Fields) (t : Str) (_ : AreFields t l) (n : Nat) (rest : Str), t.length < n →
    readFields n (t ++ 125 :: rest) = some (l, rest)
  | l, t, h, n, rest, hn => by
    obtain ⟨n, rfl⟩ : ∃ m, n = m + 1 := ⟨n - 1, by omega⟩
    cases h with
    | @one w t k x t' y key v hw hk hwk hwx hv hwy =>
      simp only [List.length_append, List.length_cons] at hn
      simp only [List.append_assoc, List.cons_append]
      obtain ⟨u, e, hu⟩ := string_complete hk (k ++ 58 :: (x ++ (t' ++ (y ++ 125 :: rest))))
      have hsk := (skipWs_string hw hk (k ++ 58 :: (x ++ (t' ++ (y ++ 125 :: rest))))).trans e
      simp only [readFields, hsk, hu, Option.bind_some]
      rw [skipWs_ws hwk, skipWs_head (by decide)]
      simp only
      rw [val_complete v t' hv n _ (y ++ 125 :: rest) (skipWs_val hwx hv _)
        (stops_ws hwy (Or.inr ⟨125, rest, rfl, by decide⟩)) (by omega)]
      simp only [Option.bind_some]
      rw [skipWs_ws hwy, skipWs_head (by decide)]
      rfl
    | @more w t k x t' y z key v l hw hk hwk hwx hv hwy hl =>
      simp only [List.length_append, List.length_cons] at hn
      simp only [List.append_assoc, List.cons_append]
      obtain ⟨u, e, hu⟩ := string_complete hk (k ++ 58 :: (x ++ (t' ++ (y ++ 44 :: (z ++ 125 :: rest)))))
      have hsk := (skipWs_string hw hk (k ++ 58 :: (x ++ (t' ++ (y ++ 44 :: (z ++ 125 :: rest)))))).trans e
      simp only [readFields, hsk, hu, Option.bind_some]
      rw [skipWs_ws hwk, skipWs_head (by decide)]
      simp only
      rw [val_complete v t' hv n _ (y ++ 44 :: (z ++ 125 :: rest)) (skipWs_val hwx hv _)
        (stops_ws hwy (Or.inr ⟨44, _, rfl, by decide⟩)) (by omega)]
      simp only [Option.bind_some]
      rw [skipWs_ws hwy, skipWs_head (by decide)]
      simp only
      rw [fields_complete l z hl n rest (by omega)]
      rfl
termination_by l => sizeOf l
decreasing_by all_goals (subst_vars; simp_wf; try omega)
end

/-! ## Whatever is read is a text of the grammar -/

theorem num_sound (bs : Str) : ∀ (q : Nat) (t rest : Str), readNum q bs = some (t, rest) →
    bs = t ++ rest ∧ readNum q t = some (t, []) := by
  induction bs with
  | nil =>
    intro q t rest h
    rw [readNum] at h
    split_ifs at h with hq
    simp only [Option.some.injEq, Prod.mk.injEq] at h
    obtain ⟨rfl, rfl⟩ := h
    exact ⟨rfl, (num_nil q).2 hq⟩
  | cons b bs ih =>
    intro q t rest h
    rw [readNum] at h
    cases hn : numStep q b with
    | none =>
      rw [hn] at h
      simp only at h
      split_ifs at h with hq
      simp only [Option.some.injEq, Prod.mk.injEq] at h
      obtain ⟨rfl, rfl⟩ := h
      exact ⟨rfl, (num_nil q).2 hq⟩
    | some q' =>
      rw [hn] at h
      simp only [Option.map_eq_some_iff] at h
      obtain ⟨⟨t', rest'⟩, h1, h2⟩ := h
      simp only [Prod.mk.injEq] at h2
      obtain ⟨rfl, rfl⟩ := h2
      obtain ⟨e, h3⟩ := ih q' t' rest' h1
      exact ⟨by rw [e]; rfl, (num_cons q b t').2 ⟨q', hn, h3⟩⟩

theorem lit_sound {lit : Str} {v v' : Val} {bs rest : Str} (h : readLit lit v bs = some (v', rest)) :
    v' = v ∧ bs = lit ++ rest := by
  unfold readLit at h
  split_ifs at h with hl
  simp only [Option.some.injEq, Prod.mk.injEq] at h
  obtain ⟨rfl, rfl⟩ := h
  refine ⟨rfl, ?_⟩
  conv_lhs => rw [← List.take_append_drop lit.length bs]
  rw [hl]

theorem string_sound {n : Nat} {u s rest : Str} (h : readChars n u = some (s, rest)) : ∃ t : Str,
    34 :: u = t ++ rest ∧ IsString t s := by
  obtain ⟨t, rfl, ht⟩ := chars_sound n u s rest h
  exact ⟨34 :: (t ++ [34]), by simp, t, rfl, ht⟩

theorem val_sound (n : Nat) :
    (∀ (bs rest : Str) (v : Val), readVal n bs = some (v, rest) → ∃ t : Str, skipWs bs = t ++ rest ∧ IsVal t v) ∧
    (∀ (bs rest : Str) (l : Elems), readElems n bs = some (l, rest) → ∃ t : Str, bs = t ++ 93 :: rest ∧ AreElems t l) ∧
    (∀ (bs rest : Str) (l : Fields), readFields n bs = some (l, rest) → ∃ t : Str, bs = t ++ 125 :: rest ∧ AreFields t l) := by
  induction n with
  | zero =>
    refine ⟨?_, ?_, ?_⟩
    · intro bs rest v h; simp [readVal] at h
    · intro bs rest v h; simp [readElems] at h
    · intro bs rest v h; simp [readFields] at h
  | succ n ih =>
    obtain ⟨ihv, ihe, ihf⟩ := ih
    refine ⟨?_, ?_, ?_⟩
    · intro bs rest v h
      cases hsk : skipWs bs with
      | nil => simp only [readVal, hsk] at h; cases h
      | cons b t =>
        rw [readVal_eq n bs b t hsk] at h
        by_cases h34 : b = 34
        · subst h34
          simp only [if_true, Option.map_eq_some_iff] at h
          obtain ⟨⟨s, rest'⟩, h1, h2⟩ := h
          simp only [Prod.mk.injEq] at h2
          obtain ⟨rfl, rfl⟩ := h2
          obtain ⟨u, e, hu⟩ := string_sound h1
          exact ⟨u, e, IsVal.text hu⟩
        rw [if_neg h34] at h
        by_cases h91 : b = 91
        · subst h91
          rw [if_pos rfl] at h
          obtain ⟨w, hw, ew⟩ := skipWs_split t
          split at h
          · rename_i t' heq
            simp only [Option.some.injEq, Prod.mk.injEq] at h
            obtain ⟨rfl, rfl⟩ := h
            rw [heq] at ew
            exact ⟨91 :: (w ++ [93]), by rw [ew]; simp, IsVal.arr0 hw⟩
          · simp only [Option.map_eq_some_iff] at h
            obtain ⟨⟨l, rest'⟩, h1, h2⟩ := h
            simp only [Prod.mk.injEq] at h2
            obtain ⟨rfl, rfl⟩ := h2
            obtain ⟨u, e, hu⟩ := ihe _ _ _ h1
            exact ⟨91 :: (u ++ [93]), by rw [e]; simp, IsVal.arr hu⟩
        rw [if_neg h91] at h
        by_cases h123 : b = 123
        · subst h123
          rw [if_pos rfl] at h
          obtain ⟨w, hw, ew⟩ := skipWs_split t
          split at h
          · rename_i t' heq
            simp only [Option.some.injEq, Prod.mk.injEq] at h
            obtain ⟨rfl, rfl⟩ := h
            rw [heq] at ew
            exact ⟨123 :: (w ++ [125]), by rw [ew]; simp, IsVal.obj0 hw⟩
          · simp only [Option.map_eq_some_iff] at h
            obtain ⟨⟨l, rest'⟩, h1, h2⟩ := h
            simp only [Prod.mk.injEq] at h2
            obtain ⟨rfl, rfl⟩ := h2
            obtain ⟨u, e, hu⟩ := ihf _ _ _ h1
            exact ⟨123 :: (u ++ [125]), by rw [e]; simp, IsVal.obj hu⟩
        rw [if_neg h123] at h
        by_cases h110 : b = 110
        · rw [if_pos h110] at h
          obtain ⟨rfl, e⟩ := lit_sound h
          rw [lits.1] at e
          exact ⟨_, e, IsVal.null⟩
        rw [if_neg h110] at h
        by_cases h116 : b = 116
        · rw [if_pos h116] at h
          obtain ⟨rfl, e⟩ := lit_sound h
          rw [lits.2.1] at e
          exact ⟨_, e, IsVal.true⟩
        rw [if_neg h116] at h
        by_cases h102 : b = 102
        · rw [if_pos h102] at h
          obtain ⟨rfl, e⟩ := lit_sound h
          rw [lits.2.2] at e
          exact ⟨_, e, IsVal.false⟩
        rw [if_neg h102] at h
        simp only [Option.map_eq_some_iff] at h
        obtain ⟨⟨u, rest'⟩, h1, h2⟩ := h
        simp only [Prod.mk.injEq] at h2
        obtain ⟨rfl, rfl⟩ := h2
        obtain ⟨e, hu⟩ := num_sound _ _ _ _ h1
        exact ⟨u, e, IsVal.num ((number_iff u).1 hu)⟩
    · intro bs rest l h
      simp only [readElems, Option.bind_eq_some_iff] at h
      obtain ⟨⟨v, r⟩, h1, h2⟩ := h
      obtain ⟨t, e, ht⟩ := ihv _ _ _ h1
      obtain ⟨w, hw, ew⟩ := skipWs_split bs
      obtain ⟨w', hw', ew'⟩ := skipWs_split r
      rw [e] at ew
      simp only at h2
      split at h2
      · rename_i t' heq
        simp only [Option.map_eq_some_iff] at h2
        obtain ⟨⟨l', rest'⟩, h3, h4⟩ := h2
        simp only [Prod.mk.injEq] at h4
        obtain ⟨rfl, rfl⟩ := h4
        obtain ⟨u, rfl, hu⟩ := ihe _ _ _ h3
        rw [heq] at ew'
        exact ⟨w ++ (t ++ (w' ++ 44 :: u)), by rw [ew, ew']; simp, AreElems.more hw ht hw' hu⟩
      · rename_i t' heq
        simp only [Option.some.injEq, Prod.mk.injEq] at h2
        obtain ⟨rfl, rfl⟩ := h2
        rw [heq] at ew'
        exact ⟨w ++ (t ++ w'), by rw [ew, ew']; simp, AreElems.one hw ht hw'⟩
      · cases h2
    · intro bs rest l h
      obtain ⟨w, hw, ew⟩ := skipWs_split bs
      simp only [readFields] at h
      split at h
      · rename_i t heq
        rw [heq] at ew
        simp only [Option.bind_eq_some_iff] at h
        obtain ⟨⟨key, r⟩, h1, h2⟩ := h
        obtain ⟨tk, ek, hk⟩ := string_sound h1
        obtain ⟨k, hwk, ewk⟩ := skipWs_split r
        simp only at h2
        split at h2
        · rename_i t' heq'
          rw [heq'] at ewk
          simp only [Option.bind_eq_some_iff] at h2
          obtain ⟨⟨v, r'⟩, h3, h4⟩ := h2
          obtain ⟨tv, ev, hv⟩ := ihv _ _ _ h3
          obtain ⟨x, hwx, ex⟩ := skipWs_split t'
          rw [ev] at ex
          obtain ⟨y, hwy, ey⟩ := skipWs_split r'
          simp only at h4
          split at h4
          · rename_i t'' heq''
            rw [heq''] at ey
            simp only [Option.map_eq_some_iff] at h4
            obtain ⟨⟨l', rest'⟩, h5, h6⟩ := h4
            simp only [Prod.mk.injEq] at h6
            obtain ⟨rfl, rfl⟩ := h6
            obtain ⟨u, rfl, hu⟩ := ihf _ _ _ h5
            exact ⟨w ++ (tk ++ (k ++ 58 :: (x ++ (tv ++ (y ++ 44 :: u))))), by rw [ew, ek, ewk, ex, ey]; simp,
              AreFields.more hw hk hwk hwx hv hwy hu⟩
          · rename_i t'' heq''
            rw [heq''] at ey
            simp only [Option.some.injEq, Prod.mk.injEq] at h4
            obtain ⟨rfl, rfl⟩ := h4
            exact ⟨w ++ (tk ++ (k ++ 58 :: (x ++ (tv ++ y)))), by rw [ew, ek, ewk, ex, ey]; simp,
              AreFields.one hw hk hwk hwx hv hwy⟩
          · cases h4
        · cases h2
      · cases h

/-- The reader is the grammar. -/
theorem parse_iff (bs : Str) (v : Val) : parse bs = some v ↔ IsJson bs v := by
  constructor
  · intro h
    unfold parse at h
    split at h
    · rename_i v' rest heq
      split_ifs at h with hr
      cases h
      obtain ⟨t, e, ht⟩ := (val_sound _).1 _ _ _ heq
      obtain ⟨w, hw, ew⟩ := skipWs_split bs
      obtain ⟨w', hw', ew'⟩ := skipWs_split rest
      rw [hr, List.append_nil] at ew'
      subst ew'
      exact ⟨w, t, rest, by rw [← e]; exact ew, hw, ht, hw'⟩
    · cases h
  · rintro ⟨w, t, w', rfl, hw, ht, hw'⟩
    have hs : Stops w' := by
      have := stops_ws hw' (Or.inl (rfl : ([] : Str) = []))
      rwa [List.append_nil] at this
    unfold parse
    rw [val_complete v t ht _ _ w' (skipWs_val hw ht w') hs (by simp only [List.length_append]; omega)]
    simp only
    rw [if_pos (skipWs_nil hw')]

/-- What is written is a text of the grammar. -/
theorem write_json (v : Val) (h : v.NumsOk) : IsJson (write v) v.mended := (parse_iff _ _).1 (parse_write v h)

end Riot.Json
