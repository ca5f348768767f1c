import Verif.Proofs.JsonText
import Verif.Props.HttpForm

namespace Riot.Json

open Riot Riot.Net

/-! ## Numbers -/

/-- What may follow a value. -/
def Stops (rest : Str) : Prop := rest = [] ∨ ∃ (c : Fin 256) (t : Str), rest = c :: t ∧
  (c = 44 ∨ c = 93 ∨ c = 125 ∨ c = 32 ∨ c = 9 ∨ c = 10 ∨ c = 13)

theorem numStep_stop {c : Fin 256} (h : c = 44 ∨ c = 93 ∨ c = 125 ∨ c = 32 ∨ c = 9 ∨ c = 10 ∨ c = 13) (q : Nat) :
    numStep q c = none := by
  rcases h with rfl | rfl | rfl | rfl | rfl | rfl | rfl <;> (unfold numStep; split <;> rfl)

theorem readNum_append {rest : Str} (hs : Stops rest) (t : Str) : ∀ q : Nat, readNum q t = some (t, []) →
    readNum q (t ++ rest) = some (t, rest) := by
  induction t with
  | nil =>
    intro q h
    rw [readNum] at h
    by_cases hq : numEnd q
    · rcases hs with rfl | ⟨c, t, rfl, hc⟩
      · rw [List.append_nil, readNum, if_pos hq]
      · rw [List.nil_append, readNum, numStep_stop hc]
        simp only
        rw [if_pos hq]
    · rw [if_neg hq] at h; cases h
  | cons b t ih =>
    intro q h
    rw [readNum] at h
    rw [List.cons_append, readNum]
    cases hn : numStep q b with
    | none =>
      rw [hn] at h
      simp only at h
      split_ifs at h
      simp at h
    | some q' =>
      rw [hn] at h
      simp only [Option.map_eq_some_iff] at h ⊢
      obtain ⟨⟨x, y⟩, h1, h2⟩ := h
      simp only [Prod.mk.injEq, List.cons.injEq, true_and] at h2
      obtain ⟨rfl, rfl⟩ := h2
      exact ⟨(x, rest), ih q' h1, rfl⟩

theorem readNum_digits (ds : Str) (h : ∀ b ∈ ds, 48 ≤ b.val ∧ b.val ≤ 57) : readNum 3 ds = some (ds, []) := by
  induction ds with
  | nil => rfl
  | cons b ds ih =>
    have hb := h b (by simp)
    have e : numStep 3 b = some 3 := by
      simp only [numStep]
      rw [if_pos (by simp [hb])]
    rw [readNum, e]
    simp only
    rw [ih (fun c hc => h c (by simp [hc]))]
    rfl

/-- The digits of a positive number do not begin with a zero. -/
theorem itoa_head (n : Nat) (h : 0 < n) : ∃ (d : Fin 256) (ds : Str), itoa n = d :: ds ∧ 49 ≤ d.val ∧ d.val ≤ 57 ∧
    ∀ b ∈ ds, 48 ≤ b.val ∧ b.val ≤ 57 := by
  induction n using Nat.strongRecOn with
  | _ n ih =>
    rw [itoa]
    by_cases h9 : n < 10
    · rw [if_pos h9]
      have v := ofNat_val (n := 48 + n) (by omega)
      exact ⟨_, [], rfl, by omega, by omega, by simp⟩
    · rw [if_neg h9]
      obtain ⟨d, ds, e, h1, h2, h3⟩ := ih (n / 10) (by omega) (by omega)
      have v := ofNat_val (n := 48 + n % 10) (by omega)
      refine ⟨d, ds ++ [Fin.ofNat 256 (48 + n % 10)], by rw [e]; rfl, h1, h2, ?_⟩
      intro b hb
      rcases List.mem_append.1 hb with hb | hb
      · exact h3 b hb
      · rw [List.mem_singleton.1 hb]; omega

theorem readNum_itoa (n : Nat) (q : Nat) (hq : q = 0 ∨ q = 1) : readNum q (itoa n) = some (itoa n, []) := by
  rcases Nat.eq_zero_or_pos n with rfl | hn
  · have e : itoa 0 = [48] := by rw [itoa]; rfl
    rw [e]
    rcases hq with rfl | rfl <;> decide +kernel
  · obtain ⟨d, ds, e, h1, h2, h3⟩ := itoa_head n hn
    rw [e]
    have n1 : ¬ d = 45 := by rintro rfl; revert h1; decide
    have n2 : ¬ d = 48 := by rintro rfl; revert h1; decide
    have hd : (decide (48 ≤ d.val) && decide (d.val ≤ 57)) = true := by
      simp only [Bool.and_eq_true, decide_eq_true_eq]; omega
    have es : numStep q d = some 3 := by
      rcases hq with rfl | rfl
      · simp only [numStep, if_neg n1, if_neg n2, hd, if_true]
      · simp only [numStep, if_neg n2, hd, if_true]
    rw [readNum, es]
    simp only
    rw [readNum_digits ds h3]
    rfl

theorem readNum_itoaInt (z : Int) : readNum 0 (itoaInt z) = some (itoaInt z, []) := by
  unfold itoaInt
  by_cases h : z < 0
  · rw [if_pos h, readNum]
    have e : numStep 0 45 = some 1 := rfl
    rw [e]
    simp only
    rw [readNum_itoa _ 1 (Or.inr rfl)]
    rfl
  · rw [if_neg h]
    exact readNum_itoa _ 0 (Or.inl rfl)

theorem parseInt64_itoaInt (z : Int) (h : Int64Range z) : parseInt64 (itoaInt z) = some z := by
  unfold Int64Range at h
  have hf (n : Nat) := (decimal_itoa n).foldl
  have hall (n : Nat) : (itoa n).all (between 48 57) = true := by
    rw [List.all_eq_true]
    intro b hb
    simp only [between, Bool.and_eq_true, decide_eq_true_eq]
    exact (hf n).2 b hb
  have hne (n : Nat) : itoa n ≠ [] := (decimal_itoa n).ne_nil
  unfold itoaInt
  by_cases hz : z < 0
  · rw [if_pos hz]
    simp only [parseInt64]
    rw [(hf z.natAbs).1, if_pos ⟨hne _, hall _, by omega⟩]
    congr 1; omega
  · rw [if_neg hz]
    obtain ⟨b, t, e, hb1, hb2⟩ := (decimal_itoa z.natAbs).first_digit
    have n1 : ∀ t', itoa z.natAbs = 45 :: t' → False := by
      intro t' ht
      rw [e] at ht
      injection ht with h1 _
      subst h1
      revert hb1; decide
    rw [parseInt64]
    · rw [(hf z.natAbs).1, if_pos ⟨hne _, hall _, by omega⟩]
      congr 1; omega
    · exact n1

/-! ## Values -/

mutual
/-- All numbers are well-formed. -/
def Val.NumsOk : Val → Prop
  | .num lit => readNum 0 lit = some (lit, [])
  | .arr l => l.NumsOk
  | .obj l => l.NumsOk
  | _ => True
/-- All numbers are well-formed. -/
def Elems.NumsOk : Elems → Prop
  | .nil => True
  | .cons v t => v.NumsOk ∧ t.NumsOk
/-- All numbers are well-formed. -/
def Fields.NumsOk : Fields → Prop
  | .nil => True
  | .cons _ v t => v.NumsOk ∧ t.NumsOk
end

mutual
/-- All strings mended. -/
def Val.mended : Val → Val
  | .null => .null
  | .bool b => .bool b
  | .num lit => .num lit
  | .text s => .text (mend s)
  | .arr l => .arr l.mended
  | .obj l => .obj l.mended
/-- All strings mended. -/
def Elems.mended : Elems → Elems
  | .nil => .nil
  | .cons v t => .cons v.mended t.mended
/-- All strings mended. -/
def Fields.mended : Fields → Fields
  | .nil => .nil
  | .cons k v t => .cons (mend k) v.mended t.mended
end

/-- What is written of a value begins with a byte that is not white space. -/
theorem write_head (v : Val) (h : v.NumsOk) : ∃ (b : Fin 256) (t : Str), write v = b :: t ∧
    ¬ (b = 32 ∨ b = 9 ∨ b = 10 ∨ b = 13) ∧ b ≠ 93 ∧ b ≠ 125 := by
  cases v with
  | null => exact ⟨110, [117, 108, 108], by decide +kernel, by decide, by decide, by decide⟩
  | bool b =>
    cases b
    · exact ⟨102, [97, 108, 115, 101], by decide +kernel, by decide, by decide, by decide⟩
    · exact ⟨116, [114, 117, 101], by decide +kernel, by decide, by decide, by decide⟩
  | num lit =>
    simp only [Val.NumsOk] at h
    cases lit with
    | nil => exact absurd h (by decide)
    | cons b t =>
      refine ⟨b, t, by rw [write], ?_⟩
      rw [readNum] at h
      cases hn : numStep 0 b with
      | none =>
        rw [hn] at h
        simp [numEnd] at h
      | some q =>
        simp only [numStep] at hn
        have : b = 45 ∨ (48 ≤ b.val ∧ b.val ≤ 57) := by
          split_ifs at hn with h1 h2 h3
          · exact Or.inl h1
          · right; subst h2; decide
          · right; simpa using h3
        rcases this with rfl | ⟨h1, h2⟩
        · decide
        · refine ⟨?_, ?_, ?_⟩
          · rintro (rfl | rfl | rfl | rfl) <;> revert h1 <;> decide
          · rintro rfl; revert h2; decide
          · rintro rfl; revert h2; decide
  | text s => exact ⟨34, _, by rw [write, writeStr], by decide, by decide, by decide⟩
  | arr l =>
    cases l with
    | nil => exact ⟨91, _, by rw [write], by decide, by decide, by decide⟩
    | cons v t => exact ⟨91, _, by rw [write], by decide, by decide, by decide⟩
  | obj l =>
    cases l with
    | nil => exact ⟨123, _, by rw [write], by decide, by decide, by decide⟩
    | cons k v t => exact ⟨123, _, by rw [write], by decide, by decide, by decide⟩

theorem skipWs_head {b : Fin 256} (h : ¬ (b = 32 ∨ b = 9 ∨ b = 10 ∨ b = 13)) (t : Str) : skipWs (b :: t) = b :: t := by
  rw [skipWs, if_neg h]

theorem skipWs_write (v : Val) (h : v.NumsOk) (rest : Str) : skipWs (write v ++ rest) = write v ++ rest := by
  obtain ⟨b, t, e, hb, -⟩ := write_head v h
  rw [e, List.cons_append, skipWs_head hb]

theorem read_str (s rest : Str) : readChars ((writeChars s ++ 34 :: rest).length + 1) (writeChars s ++ 34 :: rest) =
    some (mend s, rest) := by
  apply read_chars
  rw [List.length_append]; omega

theorem readNum_first {lit : Str} (h : readNum 0 lit = some (lit, [])) : ∃ (b : Fin 256) (t : Str), lit = b :: t ∧
    (b = 45 ∨ (48 ≤ b.val ∧ b.val ≤ 57)) := by
  cases lit with
  | nil => exact absurd h (by decide)
  | cons b t =>
    refine ⟨b, t, rfl, ?_⟩
    rw [readNum] at h
    cases hn : numStep 0 b with
    | none =>
      rw [hn] at h
      simp [numEnd] at h
    | some q =>
      simp only [numStep] at hn
      split_ifs at hn with h1 h2 h3
      · exact Or.inl h1
      · right; subst h2; decide
      · right; simpa using h3

mutual

/-- A value that was written is read back, mended. -/
theorem read_val : ∀ (v : Val) (_ : v.NumsOk) (n : Nat) (rest : Str), Stops rest → (write v).length ≤ n →
    readVal n (write v ++ rest) = some (v.mended, rest)
  | .null, _, n, rest, _, hn => by
    obtain ⟨n, rfl⟩ : ∃ m, n = m + 1 := ⟨n - 1, by rw [write] at hn; have : (str "null").length = 4 := by decide +kernel
                                                   omega⟩
    have e : write .null = [110, 117, 108, 108] := by decide +kernel
    have e' : str "null" = [110, 117, 108, 108] := by decide +kernel
    rw [e, Val.mended]
    simp only [List.cons_append, List.nil_append, readVal]
    rw [skipWs_head (by decide)]
    simp only [readLit, e']
    rfl
  | .bool b, _, n, rest, _, hn => by
    obtain ⟨n, rfl⟩ : ∃ m, n = m + 1 := ⟨n - 1, by
      cases b
      · rw [write] at hn; have : (str "false").length = 5 := by decide +kernel
        omega
      · rw [write] at hn; have : (str "true").length = 4 := by decide +kernel
        omega⟩
    have e : write (.bool true) = [116, 114, 117, 101] := by decide +kernel
    have e' : str "true" = [116, 114, 117, 101] := by decide +kernel
    have f : write (.bool false) = [102, 97, 108, 115, 101] := by decide +kernel
    have f' : str "false" = [102, 97, 108, 115, 101] := by decide +kernel
    cases b
    · rw [f, Val.mended]
      simp only [List.cons_append, List.nil_append, readVal]
      rw [skipWs_head (by decide)]
      simp only [readLit, f']
      rfl
    · rw [e, Val.mended]
      simp only [List.cons_append, List.nil_append, readVal]
      rw [skipWs_head (by decide)]
      simp only [readLit, e']
      rfl
  | .num lit, h, n, rest, hs, hn => by
    simp only [Val.NumsOk] at h
    obtain ⟨b, t, e, hb⟩ := readNum_first h
    obtain ⟨n, rfl⟩ : ∃ m, n = m + 1 := ⟨n - 1, by rw [write, e, List.length_cons] at hn; omega⟩
    have hr := readNum_append hs lit 0 h
    rw [write, Val.mended]
    have ws : ¬ (b = 32 ∨ b = 9 ∨ b = 10 ∨ b = 13) := by
      rcases hb with rfl | ⟨h1, h2⟩
      · decide
      · rintro (rfl | rfl | rfl | rfl) <;> revert h1 <;> decide
    have n1 : ¬ b = 34 := by
      rcases hb with rfl | ⟨h1, h2⟩
      · decide
      · rintro rfl; revert h1; decide
    have n2 : ¬ b = 91 := by
      rcases hb with rfl | ⟨h1, h2⟩
      · decide
      · rintro rfl; revert h2; decide
    have n3 : ¬ b = 123 := by
      rcases hb with rfl | ⟨h1, h2⟩
      · decide
      · rintro rfl; revert h2; decide
    have n4 : ¬ b = 110 := by
      rcases hb with rfl | ⟨h1, h2⟩
      · decide
      · rintro rfl; revert h2; decide
    have n5 : ¬ b = 116 := by
      rcases hb with rfl | ⟨h1, h2⟩
      · decide
      · rintro rfl; revert h2; decide
    have n6 : ¬ b = 102 := by
      rcases hb with rfl | ⟨h1, h2⟩
      · decide
      · rintro rfl; revert h2; decide
    rw [e, List.cons_append] at hr ⊢
    simp only [readVal]
    rw [skipWs_head ws]
    simp only [if_neg n1, if_neg n2, if_neg n3, if_neg n4, if_neg n5, if_neg n6, hr]
    rfl
  | .text s, _, n, rest, _, hn => by
    obtain ⟨n, rfl⟩ : ∃ m, n = m + 1 := ⟨n - 1, by rw [write, writeStr, List.length_cons] at hn; omega⟩
    rw [write, writeStr, Val.mended]
    simp only [List.cons_append, List.append_assoc, List.nil_append, readVal]
    rw [skipWs_head (by decide)]
    simp only [if_true, read_str]
    rfl
  | .arr .nil, _, n, rest, _, hn => by
    obtain ⟨n, rfl⟩ : ∃ m, n = m + 1 := ⟨n - 1, by rw [write] at hn; simp at hn; omega⟩
    rw [write, Val.mended, Elems.mended]
    have h1 : ¬ ((91 : Fin 256) = 34) := by decide
    simp only [List.cons_append, List.nil_append, readVal]
    rw [skipWs_head (by decide)]
    simp only [if_neg h1, if_true]
    rw [skipWs_head (by decide)]
    rfl
  | .arr (.cons v t), h, n, rest, hs, hn => by
    obtain ⟨n, rfl⟩ : ∃ m, n = m + 1 := ⟨n - 1, by rw [write] at hn; simp at hn; omega⟩
    have hv : v.NumsOk := by simp only [Val.NumsOk, Elems.NumsOk] at h; exact h.1
    have ht : t.NumsOk := by simp only [Val.NumsOk, Elems.NumsOk] at h; exact h.2
    rw [write, List.length_cons] at hn
    rw [write, Val.mended, Elems.mended]
    obtain ⟨b, w, e, hb, hb93, -⟩ := write_head v hv
    have key := read_elems v hv t ht n rest (by omega)
    have h1 : ¬ ((91 : Fin 256) = 34) := by decide
    simp only [List.cons_append, List.append_assoc, readVal]
    rw [skipWs_head (by decide)]
    simp only [if_neg h1, if_true]
    rw [List.append_assoc] at key
    rw [skipWs_write v hv]
    rw [key]
    rw [e]
    simp only [List.cons_append]
    split
    · rename_i t' heq
      injection heq with h2 _
      exact absurd h2 hb93
    · rfl
  | .obj .nil, _, n, rest, _, hn => by
    obtain ⟨n, rfl⟩ : ∃ m, n = m + 1 := ⟨n - 1, by rw [write] at hn; simp at hn; omega⟩
    rw [write, Val.mended, Fields.mended]
    have h1 : ¬ ((123 : Fin 256) = 34) := by decide
    have h2 : ¬ ((123 : Fin 256) = 91) := by decide
    simp only [List.cons_append, List.nil_append, readVal]
    rw [skipWs_head (by decide)]
    simp only [if_neg h1, if_neg h2, if_true]
    rw [skipWs_head (by decide)]
    rfl
  | .obj (.cons k v t), h, n, rest, hs, hn => by
    obtain ⟨n, rfl⟩ : ∃ m, n = m + 1 := ⟨n - 1, by rw [write] at hn; simp at hn; omega⟩
    have hv : v.NumsOk := by simp only [Val.NumsOk, Fields.NumsOk] at h; exact h.1
    have ht : t.NumsOk := by simp only [Val.NumsOk, Fields.NumsOk] at h; exact h.2
    rw [write, List.length_cons] at hn
    rw [write, Val.mended, Fields.mended]
    have key := read_fields k v hv t ht n rest (by simpa using hn)
    have h1 : ¬ ((123 : Fin 256) = 34) := by decide
    have h2 : ¬ ((123 : Fin 256) = 91) := by decide
    simp only [List.cons_append, List.append_assoc, readVal]
    rw [skipWs_head (by decide)]
    simp only [if_neg h1, if_neg h2, if_true]
    simp only [writeStr, List.cons_append, List.append_assoc, List.nil_append] at key ⊢
    rw [skipWs_head (by decide)]
    simp only
    rw [key]
    rfl
termination_by v => sizeOf v
decreasing_by all_goals (simp_wf; try omega)
/-- The same for the elements of an array. -/
theorem read_elems : ∀ (v : Val) (_ : v.NumsOk) (t : Elems) (_ : t.NumsOk) (n : Nat) (rest : Str),
    (write v ++ writeElems t).length ≤ n →
    readElems n (write v ++ writeElems t ++ rest) = some (.cons v.mended t.mended, rest)
  | v, hv, .nil, _, n, rest, hn => by
    obtain ⟨n, rfl⟩ : ∃ m, n = m + 1 := ⟨n - 1, by rw [writeElems] at hn; simp at hn; omega⟩
    rw [writeElems] at hn ⊢
    rw [List.length_append] at hn
    simp only [List.length_cons, List.length_nil] at hn
    rw [List.append_assoc, readElems,
      read_val v hv n ([93] ++ rest) (Or.inr ⟨93, rest, rfl, by decide⟩) (by omega), Elems.mended]
    simp only [Option.bind_some, List.cons_append, List.nil_append]
    rw [skipWs_head (by decide)]
    rfl
  | v, hv, .cons v' t, ht, n, rest, hn => by
    obtain ⟨n, rfl⟩ : ∃ m, n = m + 1 := ⟨n - 1, by rw [writeElems] at hn; simp at hn; omega⟩
    have hv' : v'.NumsOk := by simp only [Elems.NumsOk] at ht; exact ht.1
    have ht' : t.NumsOk := by simp only [Elems.NumsOk] at ht; exact ht.2
    obtain ⟨b, w, e, -⟩ := write_head v hv
    have hpos : 0 < (write v).length := by rw [e]; simp
    rw [writeElems] at hn ⊢
    rw [List.length_append] at hn
    simp only [List.length_cons] at hn
    rw [List.append_assoc, readElems,
      read_val v hv n _ (Or.inr ⟨44, _, by rw [List.cons_append], by decide⟩) (by omega), Elems.mended]
    simp only [Option.bind_some, List.cons_append]
    rw [skipWs_head (by decide)]
    simp only
    rw [read_elems v' hv' t ht' n rest (by omega)]
    rfl
termination_by v _ t => sizeOf v + sizeOf t
decreasing_by all_goals (simp_wf; try omega)
/-- The same for the members of an object. -/
theorem read_fields : ∀ (k : Str) (v : Val) (_ : v.NumsOk) (t : Fields) (_ : t.NumsOk) (n : Nat) (rest : Str),
    (writeStr k ++ 58 :: (write v ++ writeFields t)).length ≤ n →
    readFields n (writeStr k ++ 58 :: (write v ++ writeFields t) ++ rest) = some (.cons (mend k) v.mended t.mended, rest)
  | k, v, hv, .nil, _, n, rest, hn => by
    obtain ⟨n, rfl⟩ : ∃ m, n = m + 1 := ⟨n - 1, by rw [writeFields] at hn; simp at hn; omega⟩
    rw [writeFields] at hn ⊢
    simp only [List.length_append, List.length_cons, List.length_nil] at hn
    have key := read_val v hv n ([125] ++ rest) (Or.inr ⟨125, rest, rfl, by decide⟩) (by omega)
    simp only [List.cons_append, List.nil_append] at key
    simp only [writeStr, List.cons_append, List.append_assoc, List.nil_append, readFields]
    rw [skipWs_head (by decide)]
    simp only [read_str, Option.bind_some]
    rw [skipWs_head (by decide)]
    simp only [key, Option.bind_some]
    rw [skipWs_head (by decide), Fields.mended]
    rfl
  | k, v, hv, .cons k' v' t, ht, n, rest, hn => by
    obtain ⟨n, rfl⟩ : ∃ m, n = m + 1 := ⟨n - 1, by rw [writeFields] at hn; simp at hn; omega⟩
    have hv' : v'.NumsOk := by simp only [Fields.NumsOk] at ht; exact ht.1
    have ht' : t.NumsOk := by simp only [Fields.NumsOk] at ht; exact ht.2
    rw [writeFields] at hn ⊢
    simp only [List.length_append, List.length_cons] at hn
    have key := read_val v hv n (44 :: (writeStr k' ++ 58 :: (write v' ++ writeFields t)) ++ rest)
      (Or.inr ⟨44, _, by rw [List.cons_append], by decide⟩) (by omega)
    have key2 := read_fields k' v' hv' t ht' n rest (by
      simp only [List.length_append, List.length_cons]; omega)
    simp only [List.cons_append] at key
    rw [writeStr]
    simp only [List.cons_append, List.append_assoc, List.nil_append, readFields] at key key2 ⊢
    rw [skipWs_head (by decide)]
    simp only [read_str, Option.bind_some]
    rw [skipWs_head (by decide)]
    simp only [key, Option.bind_some]
    rw [skipWs_head (by decide)]
    simp only [key2, Fields.mended]
    rfl
termination_by _ v _ t => sizeOf v + sizeOf t
decreasing_by all_goals (simp_wf; try omega)
end

/-- A text that was written is read back, mended. -/
theorem parse_write (v : Val) (h : v.NumsOk) : parse (write v) = some v.mended := by
  have := read_val v h ((write v).length + 1) [] (Or.inl rfl) (by omega)
  rw [List.append_nil] at this
  unfold parse
  rw [this]
  rfl

end Riot.Json
