import Verif.Proofs.JsonNumber
import Verif.Proofs.JsonVal

/-!
# The reader and the writer against the grammar
-/

namespace Riot.Json

open Riot Riot.Net

/-! ## Strings -/

theorem encodes_cases {r : Nat} {p : Str} (h : Encodes r p) : (∃ b : Fin 256, p = [b] ∧ b.val = r ∧ r < 0x80) ∨
    (0x80 ≤ r ∧ ∃ (b : Fin 256) (t : Str), p = b :: t ∧ 0x80 ≤ b.val ∧ ∀ c ∈ p, 0x80 ≤ c.val) := by
  cases h with
  | one b hb => exact Or.inl ⟨b, rfl, rfl, hb⟩
  | two _ b c h1 h2 h3 h4 =>
    refine Or.inr ⟨h1, b, [c], rfl, by omega, ?_⟩
    intro x hx
    simp only [List.mem_cons, List.not_mem_nil, or_false] at hx
    rcases hx with rfl | rfl <;> omega
  | three _ b c d h1 h2 h3 h4 h5 h6 h7 h8 h9 h10 =>
    refine Or.inr ⟨by omega, b, [c, d], rfl, by omega, ?_⟩
    intro x hx
    simp only [List.mem_cons, List.not_mem_nil, or_false] at hx
    rcases hx with rfl | rfl | rfl <;> omega
  | four _ b c d e h1 h2 h3 h4 h5 h6 h7 h8 h9 h10 h11 =>
    refine Or.inr ⟨by omega, b, [c, d, e], rfl, by omega, ?_⟩
    intro x hx
    simp only [List.mem_cons, List.not_mem_nil, or_false] at hx
    rcases hx with rfl | rfl | rfl | rfl <;> omega

theorem encodes_runeLen {r : Nat} {p : Str} (h : Encodes r p) (rest : Str) : runeLen (p ++ rest) ≠ 0 := by
  obtain ⟨hs, rfl⟩ := (encodes_iff r p).1 h
  rw [runeLen_rune r hs]
  have := runeBytes_len r
  omega

/-- A rune at the beginning of the rest of a text lies before the closing quote. -/
theorem prefix_quote {p t rest u : Str} (hp : ∀ c ∈ p, 0x80 ≤ c.val) (e : t ++ 34 :: rest = p ++ u) :
    ∃ u' : Str, t = p ++ u' := by
  induction p generalizing t with
  | nil => exact ⟨t, rfl⟩
  | cons c p ih =>
    cases t with
    | nil =>
      have h1 := (List.cons.inj e).1
      have h2 := hp c (by simp)
      rw [← h1] at h2
      exact absurd h2 (by decide)
    | cons d t =>
      obtain ⟨rfl, e'⟩ := List.cons.inj e
      obtain ⟨u', rfl⟩ := ih (fun x hx => hp x (by simp [hx])) e'
      exact ⟨u', rfl⟩

theorem runeLen_bad {b : Fin 256} {t : Str} (hb : 0x80 ≤ b.val)
    (h : ∀ (r : Nat) (p u : Str), Encodes r p → b :: t ≠ p ++ u) (rest : Str) : runeLen (b :: t ++ 34 :: rest) = 0 := by
  by_contra hne
  obtain ⟨r, hr, ht, hle⟩ := rune_of_runeLen _ hne
  have he : Encodes r (runeBytes r) := (encodes_iff r _).2 ⟨hr, rfl⟩
  have e : b :: t ++ 34 :: rest = runeBytes r ++ (b :: t ++ 34 :: rest).drop (runeLen (b :: t ++ 34 :: rest)) := by
    rw [← ht, List.take_append_drop]
  rcases encodes_cases he with ⟨c, hp, hc, hlt⟩ | ⟨-, c, u, hp, hc, hall⟩
  · rw [hp] at e
    have := (List.cons.inj e).1
    rw [this] at hb
    omega
  · obtain ⟨u', hu⟩ := prefix_quote hall e
    exact h r _ u' he hu

theorem readChars_u (n : Nat) (a b c d : Fin 256) (t : Str) (r : Nat) (h : hex4 a b c d = some r)
    (hr : 0xD800 ≤ r ∧ r < 0xE000) : readChars (n + 1) (92 :: 117 :: a :: b :: c :: d :: t) =
      match lowHalf r t with
      | some (bs, rest) => (readChars n rest).map fun q => (bs ++ q.1, q.2)
      | none => (readChars n t).map fun q => (runeError ++ q.1, q.2) := by
  have h34 : ¬ ((92 : Fin 256) = 34) := by decide
  simp only [readChars, if_true, if_neg h34, h, if_pos hr]
  cases lowHalf r t <;> rfl

theorem lowHalf_some (r : Nat) (a b c d : Fin 256) (l : Nat) (u : Str) (h : hex4 a b c d = some l) (hr1 : 0xD800 ≤ r)
    (hr2 : r < 0xDC00) (hl : LowHalf l) : lowHalf r (92 :: 117 :: a :: b :: c :: d :: u) =
      some (runeBytes ((r - 0xD800) * 1024 + (l - 0xDC00) + 0x10000), u) := by
  unfold LowHalf at hl
  simp only [lowHalf, h]
  rw [if_pos ⟨hr1, hr2⟩, if_pos hl]

theorem low_sum (h l : Nat) : (h - 0xD800) * 1024 + (l - 0xDC00) + 0x10000 =
    0x10000 + 0x400 * (h - 0xD800) + (l - 0xDC00) := by
  rw [Nat.mul_comm, Nat.add_comm, Nat.add_assoc]

theorem lowHalf_inv {r : Nat} {t bs rest : Str} (h : lowHalf r t = some (bs, rest)) : 0xD800 ≤ r ∧ r < 0xDC00 ∧
    ∃ (a b c d : Fin 256) (l : Nat), t = 92 :: 117 :: a :: b :: c :: d :: rest ∧ hex4 a b c d = some l ∧ LowHalf l ∧
      bs = runeBytes ((r - 0xD800) * 1024 + (l - 0xDC00) + 0x10000) := by
  unfold lowHalf at h
  split_ifs at h with hr
  split at h
  · rename_i a b c d t'
    split at h
    · rename_i r' h4
      split_ifs at h with hl
      simp only [Option.some.injEq, Prod.mk.injEq] at h
      obtain ⟨rfl, rfl⟩ := h
      exact ⟨hr.1, hr.2, a, b, c, d, r', rfl, h4, hl, rfl⟩
    · cases h
  · cases h

/-- Six bytes before the closing quote. -/
theorem six_quote {t rest u : Str} {a b c d : Fin 256} (ha : a ≠ 34) (hb : b ≠ 34) (hc : c ≠ 34) (hd : d ≠ 34)
    (e : t ++ 34 :: rest = 92 :: 117 :: a :: b :: c :: d :: u) : ∃ u' : Str, t = 92 :: 117 :: a :: b :: c :: d :: u' := by
  match t, e with
  | [], e => exact absurd (List.cons.inj e).1 (by decide)
  | [x1], e => exact absurd (List.cons.inj (List.cons.inj e).2).1 (by decide)
  | [x1, x2], e => exact absurd (List.cons.inj (List.cons.inj (List.cons.inj e).2).2).1.symm ha
  | [x1, x2, x3], e => exact absurd (List.cons.inj (List.cons.inj (List.cons.inj (List.cons.inj e).2).2).2).1.symm hb
  | [x1, x2, x3, x4], e =>
    exact absurd (List.cons.inj (List.cons.inj (List.cons.inj (List.cons.inj (List.cons.inj e).2).2).2).2).1.symm hc
  | [x1, x2, x3, x4, x5], e =>
    exact absurd (List.cons.inj (List.cons.inj (List.cons.inj (List.cons.inj (List.cons.inj
      (List.cons.inj e).2).2).2).2).2).1.symm hd
  | x1 :: x2 :: x3 :: x4 :: x5 :: x6 :: t, e =>
    simp only [List.cons_append, List.cons.injEq] at e
    obtain ⟨rfl, rfl, rfl, rfl, rfl, rfl, -⟩ := e
    exact ⟨t, rfl⟩

theorem hex4_ne {a b c d : Fin 256} {r : Nat} (h : Hex4 a b c d r) : a ≠ 34 ∧ b ≠ 34 ∧ c ≠ 34 ∧ d ≠ 34 := by
  obtain ⟨i, j, k, l, h1, h2, h3, h4, -⟩ := h
  exact ⟨hex_ne h1, hex_ne h2, hex_ne h3, hex_ne h4⟩

/-- Every string of the grammar is read. -/
theorem chars_complete {t s : Str} (h : Chars t s) : ∀ (n : Nat) (rest : Str), t.length < n →
    readChars n (t ++ 34 :: rest) = some (s, rest) := by
  induction h with
  | nil =>
    intro n rest hn
    obtain ⟨n, rfl⟩ : ∃ m, n = m + 1 := ⟨n - 1, by omega⟩
    rfl
  | @plain r p t s hp h1 h2 h3 _ ih =>
    intro n rest hn
    obtain ⟨n, rfl⟩ : ∃ m, n = m + 1 := ⟨n - 1, by omega⟩
    rw [List.length_append] at hn
    rcases encodes_cases hp with ⟨b, rfl, hb, hlt⟩ | ⟨-, b, u, rfl, hb, -⟩
    · have n1 : ¬ b = 34 := by rintro rfl; exact h2 hb.symm
      have n2 : ¬ b = 92 := by rintro rfl; exact h3 hb.symm
      have n3 : ¬ b.val < 0x20 := by omega
      have n4 : b.val < 0x80 := by omega
      simp only [List.length_cons, List.length_nil] at hn
      simp only [List.cons_append, List.nil_append, readChars, if_neg n1, if_neg n2, if_neg n3, if_pos n4]
      rw [ih n rest (by omega)]
      rfl
    · have hr := (encodes_iff r _).1 hp
      simp only [List.length_cons] at hn
      rw [List.append_assoc, read_rune r hr.1 b u (t ++ 34 :: rest) (by omega) hr.2.symm, ih n rest (by omega)]
      rfl
  | @letter e c t s hl _ ih =>
    intro n rest hn
    obtain ⟨n, rfl⟩ : ∃ m, n = m + 1 := ⟨n - 1, by omega⟩
    simp only [List.length_cons] at hn
    have h34 : ¬ ((92 : Fin 256) = 34) := by decide
    have h117 : ¬ e = 117 := by
      rintro rfl
      have := (letter_iff _ _).2 hl
      exact absurd this (by simp [unescape])
    simp only [List.cons_append, readChars, if_neg h34, if_true, if_neg h117, (letter_iff e c).2 hl]
    rw [ih n rest (by omega)]
    rfl
  | @code a b c d r p t s h4 hp _ ih =>
    intro n rest hn
    obtain ⟨n, rfl⟩ : ∃ m, n = m + 1 := ⟨n - 1, by omega⟩
    simp only [List.length_cons] at hn
    obtain ⟨hs, rfl⟩ := (encodes_iff r _).1 hp
    unfold Scalar at hs
    simp only [List.cons_append]
    rw [read_u ((hex4_iff _ _ _ _ _).2 h4) (by omega), ih n rest (by omega)]
    rfl
  | @pair a b c d a' b' c' d' h l p t s h4 hh1 hh2 h4' hl hp _ ih =>
    intro n rest hn
    obtain ⟨n, rfl⟩ : ∃ m, n = m + 1 := ⟨n - 1, by omega⟩
    simp only [List.length_cons] at hn
    have hpe := ((encodes_iff _ _).1 hp).2
    simp only [List.cons_append]
    rw [readChars_u n _ _ _ _ _ h ((hex4_iff _ _ _ _ _).2 h4) (by omega),
      lowHalf_some h _ _ _ _ l _ ((hex4_iff _ _ _ _ _).2 h4') hh1 hh2 hl]
    simp only
    rw [ih n rest (by omega), Option.map_some, low_sum, ← hpe]
  | @lone a b c d r t s h4 hr1 hr2 hno _ ih =>
    intro n rest hn
    obtain ⟨n, rfl⟩ : ∃ m, n = m + 1 := ⟨n - 1, by omega⟩
    simp only [List.length_cons] at hn
    have hnone : lowHalf r (t ++ 34 :: rest) = none := by
      cases hx : lowHalf r (t ++ 34 :: rest) with
      | none => rfl
      | some q =>
        obtain ⟨bs, u⟩ := q
        obtain ⟨g1, g2, x, y, z, w, l, e, hl4, hl, -⟩ := lowHalf_inv hx
        exfalso
        rcases hno with hno | hno
        · unfold LowHalf at hno; omega
        · have hl4' := (hex4_iff _ _ _ _ _).1 hl4
          obtain ⟨k1, k2, k3, k4⟩ := hex4_ne hl4'
          obtain ⟨u', rfl⟩ := six_quote k1 k2 k3 k4 e
          exact hno ⟨x, y, z, w, l, u', rfl, hl4', hl⟩
    simp only [List.cons_append]
    rw [readChars_u n _ _ _ _ _ r ((hex4_iff _ _ _ _ _).2 h4) ⟨hr1, hr2⟩, hnone]
    simp only
    rw [ih n rest (by omega)]
    rfl
  | @bad b t s hb hno _ ih =>
    intro n rest hn
    obtain ⟨n, rfl⟩ : ∃ m, n = m + 1 := ⟨n - 1, by omega⟩
    simp only [List.length_cons] at hn
    have hl := runeLen_bad hb hno rest
    have n1 : ¬ b = 34 := by rintro rfl; exact absurd hb (by decide)
    have n2 : ¬ b = 92 := by rintro rfl; exact absurd hb (by decide)
    have n3 : ¬ b.val < 0x20 := by omega
    have n4 : ¬ b.val < 0x80 := by omega
    rw [List.cons_append] at hl ⊢
    simp only [readChars, if_neg n1, if_neg n2, if_neg n3, if_neg n4, hl, if_true]
    rw [ih n rest (by omega)]
    rfl

/-- Whatever is read is a string of the grammar. -/
theorem chars_sound (n : Nat) : ∀ bs s rest : Str, readChars n bs = some (s, rest) →
    ∃ t : Str, bs = t ++ 34 :: rest ∧ Chars t s := by
  induction n with
  | zero => intro bs s rest h; cases h
  | succ n ih =>
    intro bs s rest h
    cases bs with
    | nil => cases h
    | cons b t =>
      by_cases h34 : b = 34
      · subst h34
        simp only [readChars, if_true, Option.some.injEq, Prod.mk.injEq] at h
        obtain ⟨rfl, rfl⟩ := h
        exact ⟨[], rfl, Chars.nil⟩
      by_cases h92 : b = 92
      · subst h92
        cases t with
        | nil => simp only [readChars, if_neg h34, if_true] at h; cases h
        | cons e t =>
          by_cases h117 : e = 117
          · subst h117
            match t, h with
            | [], h => simp only [readChars, if_neg h34, if_true] at h; cases h
            | [_], h => simp only [readChars, if_neg h34, if_true] at h; cases h
            | [_, _], h => simp only [readChars, if_neg h34, if_true] at h; cases h
            | [_, _, _], h => simp only [readChars, if_neg h34, if_true] at h; cases h
            | a :: b :: c :: d :: t, h =>
              cases h4 : hex4 a b c d with
              | none => simp only [readChars, if_neg h34, if_true, h4] at h; cases h
              | some r =>
                have h4' := (hex4_iff _ _ _ _ _).1 h4
                by_cases hr : 0xD800 ≤ r ∧ r < 0xE000
                · rw [readChars_u n _ _ _ _ _ r h4 hr] at h
                  cases hl : lowHalf r t with
                  | none =>
                    rw [hl] at h
                    simp only [Option.map_eq_some_iff] at h
                    obtain ⟨⟨s', rest'⟩, hq, he⟩ := h
                    simp only [Prod.mk.injEq] at he
                    obtain ⟨rfl, rfl⟩ := he
                    obtain ⟨u, rfl, hu⟩ := ih _ _ _ hq
                    refine ⟨92 :: 117 :: a :: b :: c :: d :: u, rfl, Chars.lone h4' hr.1 hr.2 ?_ hu⟩
                    by_cases hlow : LowHalf r
                    · exact Or.inl hlow
                    · right
                      rintro ⟨x, y, z, w, l, u', rfl, g4, gl⟩
                      unfold LowHalf at hlow
                      simp only [List.cons_append] at hl
                      rw [lowHalf_some r _ _ _ _ l _ ((hex4_iff _ _ _ _ _).2 g4) hr.1 (by omega) gl] at hl
                      cases hl
                  | some q =>
                    obtain ⟨p, t'⟩ := q
                    rw [hl] at h
                    simp only [Option.map_eq_some_iff] at h
                    obtain ⟨⟨s', rest'⟩, hq, he⟩ := h
                    simp only [Prod.mk.injEq] at he
                    obtain ⟨rfl, rfl⟩ := he
                    obtain ⟨u, rfl, hu⟩ := ih _ _ _ hq
                    obtain ⟨g1, g2, x, y, z, w, l, rfl, g4, gl, hpe⟩ := lowHalf_inv hl
                    refine ⟨92 :: 117 :: a :: b :: c :: d :: 92 :: 117 :: x :: y :: z :: w :: u, rfl,
                      Chars.pair h4' g1 g2 ((hex4_iff _ _ _ _ _).1 g4) gl ?_ hu⟩
                    rw [low_sum] at hpe
                    refine (encodes_iff _ _).2 ⟨?_, hpe⟩
                    unfold Scalar
                    unfold LowHalf at gl
                    omega
                · rw [read_u h4 hr] at h
                  simp only [Option.map_eq_some_iff] at h
                  obtain ⟨⟨s', rest'⟩, hq, he⟩ := h
                  simp only [Prod.mk.injEq] at he
                  obtain ⟨rfl, rfl⟩ := he
                  obtain ⟨u, rfl, hu⟩ := ih _ _ _ hq
                  have := hex4_lt h4'
                  refine ⟨92 :: 117 :: a :: b :: c :: d :: u, rfl, Chars.code h4' ((encodes_iff _ _).2 ⟨?_, rfl⟩) hu⟩
                  unfold Scalar
                  omega
          · cases hl : unescape e with
            | none => simp only [readChars, if_neg h34, if_true, if_neg h117, hl] at h; cases h
            | some c =>
              simp only [readChars, if_neg h34, if_true, if_neg h117, hl, Option.map_eq_some_iff] at h
              obtain ⟨⟨s', rest'⟩, hq, he⟩ := h
              simp only [Prod.mk.injEq] at he
              obtain ⟨rfl, rfl⟩ := he
              obtain ⟨u, rfl, hu⟩ := ih _ _ _ hq
              exact ⟨92 :: e :: u, rfl, Chars.letter ((letter_iff _ _).1 hl) hu⟩
      by_cases h20 : b.val < 0x20
      · simp only [readChars, if_neg h34, if_neg h92, if_pos h20] at h; cases h
      by_cases h80 : b.val < 0x80
      · simp only [readChars, if_neg h34, if_neg h92, if_neg h20, if_pos h80, Option.map_eq_some_iff] at h
        obtain ⟨⟨s', rest'⟩, hq, he⟩ := h
        simp only [Prod.mk.injEq] at he
        obtain ⟨rfl, rfl⟩ := he
        obtain ⟨u, rfl, hu⟩ := ih _ _ _ hq
        refine ⟨[b] ++ u, rfl, Chars.plain (Encodes.one b h80) (by omega) ?_ ?_ hu⟩
        · intro hv; exact h34 (Fin.ext hv)
        · intro hv; exact h92 (Fin.ext hv)
      by_cases h0 : runeLen (b :: t) = 0
      · simp only [readChars, if_neg h34, if_neg h92, if_neg h20, if_neg h80, if_pos h0, Option.map_eq_some_iff] at h
        obtain ⟨⟨s', rest'⟩, hq, he⟩ := h
        simp only [Prod.mk.injEq] at he
        obtain ⟨rfl, rfl⟩ := he
        obtain ⟨u, rfl, hu⟩ := ih _ _ _ hq
        refine ⟨b :: u, rfl, Chars.bad (by omega) ?_ hu⟩
        intro r p v hp hv
        have := encodes_runeLen hp (v ++ 34 :: rest')
        rw [← List.append_assoc, ← hv] at this
        exact this h0
      · simp only [readChars, if_neg h34, if_neg h92, if_neg h20, if_neg h80, if_neg h0, Option.map_eq_some_iff] at h
        obtain ⟨⟨s', rest'⟩, hq, he⟩ := h
        simp only [Prod.mk.injEq] at he
        obtain ⟨rfl, rfl⟩ := he
        obtain ⟨u, hu1, hu⟩ := ih _ _ _ hq
        obtain ⟨r, hr, ht, hle⟩ := rune_of_runeLen (b :: t) h0
        have hd : b :: t = runeBytes r ++ t.drop (runeLen (b :: t) - 1) := by
          rw [← ht]
          obtain ⟨k, hk⟩ := Nat.exists_eq_succ_of_ne_zero h0
          rw [hk]; simp
        rw [hu1] at hd
        have henc : Encodes r (runeBytes r) := (encodes_iff _ _).2 ⟨hr, rfl⟩
        have hbig : 0x80 ≤ r := by
          rcases encodes_cases henc with ⟨c, hp, hc, hlt⟩ | ⟨h, -⟩
          · rw [hp] at hd
            have := (List.cons.inj hd).1
            rw [this] at h80
            omega
          · exact h
        refine ⟨runeBytes r ++ u, by rw [hd, List.append_assoc], ?_⟩
        simp only [ht]
        exact Chars.plain henc (by omega) (by omega) (by omega) hu

end Riot.Json
