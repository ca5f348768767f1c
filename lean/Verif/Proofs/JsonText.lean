import Verif.Proofs.JsonUtf8

namespace Riot.Json

open Riot Riot.Net

theorem escape_len (b : Fin 256) : 0 < (escape b).length := by
  unfold escape; split_ifs <;> simp

theorem hex_small : ∀ b : Fin 256, hex4 48 48 (hexDigit (b.val / 16)) (hexDigit (b.val % 16)) = some b.val := by
  decide +kernel

theorem read_u {a b c d : Fin 256} {r : Nat} (h : hex4 a b c d = some r) (hr : ¬ (0xD800 ≤ r ∧ r < 0xE000)) (n : Nat)
    (rest : Str) : readChars (n + 1) (92 :: 117 :: a :: b :: c :: d :: rest) =
      (readChars n rest).map fun q => (runeBytes r ++ q.1, q.2) := by
  have h34 : ¬ ((92 : Fin 256) = 34) := by decide
  simp only [readChars, if_true, if_neg h34, h, if_neg hr]

/-- A byte below 0x80 is read back. -/
theorem read_escape (b : Fin 256) (h : b.val < 0x80) (n : Nat) (rest : Str) :
    readChars (n + 1) (escape b ++ rest) = (readChars n rest).map fun q => (b :: q.1, q.2) := by
  unfold escape
  by_cases h1 : b = 34 ∨ b = 92
  · rw [if_pos h1]
    rcases h1 with rfl | rfl <;> rfl
  rw [if_neg h1]
  by_cases h2 : b = 10
  · rw [if_pos h2]; subst h2; rfl
  rw [if_neg h2]
  by_cases h3 : b = 13
  · rw [if_pos h3]; subst h3; rfl
  rw [if_neg h3]
  by_cases h4 : b = 9
  · rw [if_pos h4]; subst h4; rfl
  rw [if_neg h4]
  by_cases h5 : b.val < 0x20 ∨ b = 60 ∨ b = 62 ∨ b = 38
  · rw [if_pos h5]
    have e : runeBytes b.val = [b] := by unfold runeBytes; rw [if_pos h, ofNat_self]
    simp only [List.cons_append, List.nil_append]
    rw [read_u (hex_small b) (by omega), e]
    rfl
  · rw [if_neg h5]
    simp only [not_or] at h1 h5
    simp only [List.cons_append, List.nil_append, readChars]
    rw [if_neg h1.1, if_neg h1.2, if_neg h5.1, if_pos h]

theorem read_bad (n : Nat) (rest : Str) :
    readChars (n + 1) ([92, 117, 102, 102, 102, 100] ++ rest) =
      (readChars n rest).map fun q => (runeError ++ q.1, q.2) := by
  have h : hex4 102 102 102 100 = some 0xFFFD := by decide +kernel
  have e : runeBytes 0xFFFD = runeError := by decide +kernel
  simp only [List.cons_append, List.nil_append]
  rw [read_u h (by decide), e]

theorem read_line (n : Nat) (rest : Str) (d : Fin 256) (hd : d = 56 ∨ d = 57) :
    readChars (n + 1) ([92, 117, 50, 48, 50, d] ++ rest) =
      (readChars n rest).map fun q => ([0xE2, 0x80, d + 112] ++ q.1, q.2) := by
  have h : hex4 50 48 50 d = some (0x2028 + (d.val - 56)) := by rcases hd with rfl | rfl <;> decide +kernel
  have e : runeBytes (0x2028 + (d.val - 56)) = [0xE2, 0x80, d + 112] := by
    rcases hd with rfl | rfl <;> decide +kernel
  simp only [List.cons_append, List.nil_append]
  rw [read_u h (by rcases hd with rfl | rfl <;> decide), e]
  rfl

/-- A rune of more than one byte, read directly. -/
theorem read_rune (r : Nat) (hr : Scalar r) (b : Fin 256) (t rest : Str) (hb : ¬ b.val < 0x80)
    (h : runeBytes r = b :: t) (n : Nat) :
    readChars (n + 1) (b :: t ++ rest) = (readChars n rest).map fun q => (b :: t ++ q.1, q.2) := by
  have hl : runeLen (b :: t ++ rest) = (b :: t).length := by rw [← h]; exact runeLen_rune r hr rest
  rw [List.cons_append] at hl ⊢
  have h1 : ¬ b = 34 := by rintro rfl; exact hb (by decide)
  have h2 : ¬ b = 92 := by rintro rfl; exact hb (by decide)
  have h3 : ¬ b.val < 0x20 := by omega
  have h4 : ¬ (b :: t).length = 0 := by simp
  simp only [readChars, if_neg h1, if_neg h2, if_neg h3, if_neg hb, hl, if_neg h4]
  rw [List.length_cons, List.take_succ_cons, List.take_left' rfl, Nat.add_sub_cancel, List.drop_left' rfl]

theorem mend_cons_small (b : Fin 256) (t : Str) (h : b.val < 0x80) : mend (b :: t) = b :: mend t := by
  have e : runeBytes b.val = [b] := by unfold runeBytes; rw [if_pos h, ofNat_self]
  have := mend_rune b.val (by left; omega) t
  rwa [e] at this

/-- A string that was written is read back, mended. -/
theorem read_chars (s : Str) : ∀ (n : Nat) (rest : Str), (writeChars s).length < n →
    readChars n (writeChars s ++ 34 :: rest) = some (mend s, rest) := by
  induction hn : s.length using Nat.strongRecOn generalizing s with
  | _ k ih =>
    intro n rest hlen
    obtain ⟨n, rfl⟩ : ∃ m, n = m + 1 := ⟨n - 1, by omega⟩
    cases s with
    | nil => rw [writeChars, mend]; rfl
    | cons b t =>
      rw [writeChars] at hlen ⊢
      by_cases h : b.val < 0x80
      · rw [if_pos h] at hlen ⊢
        rw [List.append_assoc, read_escape b h, mend_cons_small b t h]
        have := escape_len b
        rw [List.length_append] at hlen
        rw [ih t.length (by simp at hn; omega) t rfl n rest (by omega)]
        rfl
      rw [if_neg h] at hlen ⊢
      by_cases h0 : runeLen (b :: t) = 0
      · rw [if_pos h0] at hlen ⊢
        rw [List.append_assoc, read_bad]
        rw [List.length_append] at hlen
        simp only [List.length_cons, List.length_nil] at hlen
        rw [ih t.length (by simp at hn; omega) t rfl n rest (by omega), mend, if_pos h0]
        rfl
      rw [if_neg h0] at hlen ⊢
      obtain ⟨r, hr, ht, hle⟩ := rune_of_runeLen (b :: t) h0
      have hd : b :: t = runeBytes r ++ t.drop (runeLen (b :: t) - 1) := by
        rw [← ht]
        obtain ⟨k, hk⟩ := Nat.exists_eq_succ_of_ne_zero h0
        rw [hk]; simp
      have hm : mend (b :: t) = runeBytes r ++ mend (t.drop (runeLen (b :: t) - 1)) := by
        rw [mend, if_neg h0, ht]
      rw [hm]
      have hih := ih (t.drop (runeLen (b :: t) - 1)).length (by simp at hn ⊢; omega) _ rfl n rest
      generalize t.drop (runeLen (b :: t) - 1) = u at hih hlen ⊢ hd
      rw [ht] at hlen ⊢
      by_cases h1 : runeBytes r = [0xE2, 0x80, 0xA8]
      · rw [if_pos h1] at hlen ⊢
        rw [List.append_assoc, read_line _ _ 56 (Or.inl rfl)]
        rw [List.length_append] at hlen
        simp only [List.length_cons, List.length_nil] at hlen
        rw [hih (by omega), h1]
        rfl
      rw [if_neg h1] at hlen ⊢
      by_cases h2 : runeBytes r = [0xE2, 0x80, 0xA9]
      · rw [if_pos h2] at hlen ⊢
        rw [List.append_assoc, read_line _ _ 57 (Or.inr rfl)]
        rw [List.length_append] at hlen
        simp only [List.length_cons, List.length_nil] at hlen
        rw [hih (by omega), h2]
        rfl
      rw [if_neg h2] at hlen ⊢
      have hp := runeBytes_len r
      cases hrb : runeBytes r with
      | nil => rw [hrb] at hp; simp at hp
      | cons c w =>
        have hc : b = c := by
          have := congrArg List.head? hd
          rw [hrb] at this
          simpa using this
        subst hc
        rw [hrb] at hlen
        rw [List.append_assoc, read_rune r hr b w _ h hrb]
        rw [List.length_append] at hlen
        simp only [List.length_cons] at hlen
        rw [hih (by omega)]
        rfl

end Riot.Json
