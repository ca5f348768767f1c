import Verif.Spec.Json

namespace Riot.Json

open Riot Riot.Net

theorem ofNat_val {n : Nat} (h : n < 256) : (Fin.ofNat 256 n).val = n := by
  simp only [Fin.ofNat]; omega

theorem ofNat_self (b : Fin 256) : Fin.ofNat 256 b.val = b := by
  apply Fin.ext; rw [ofNat_val b.isLt]

theorem fin_eq {n : Nat} {b : Fin 256} (h : n = b.val) : Fin.ofNat 256 n = b := by
  rw [h]; exact ofNat_self b

theorem runeBytes_len (r : Nat) : 0 < (runeBytes r).length := by
  unfold runeBytes; split_ifs <;> simp

theorem runeLen_cons (b : Fin 256) (t : Str) : runeLen (b :: t) =
    if b.val < 0x80 then 1
    else if b.val < 0xC2 then 0
    else if b.val < 0xE0 then
      match t with
      | c :: _ => if between 0x80 0xBF c then 2 else 0
      | _ => 0
    else if b.val < 0xF0 then
      match t with
      | c :: d :: _ =>
        if between (if b.val = 0xE0 then 0xA0 else 0x80) (if b.val = 0xED then 0x9F else 0xBF) c &&
          between 0x80 0xBF d then 3 else 0
      | _ => 0
    else if b.val < 0xF5 then
      match t with
      | c :: d :: e :: _ =>
        if between (if b.val = 0xF0 then 0x90 else 0x80) (if b.val = 0xF4 then 0x8F else 0xBF) c &&
          between 0x80 0xBF d && between 0x80 0xBF e then 4 else 0
      | _ => 0
    else 0 := rfl

theorem runeLen1 {b : Fin 256} (t : Str) (h : b.val < 0x80) : runeLen (b :: t) = 1 := by
  rw [runeLen_cons, if_pos h]

theorem runeLen2 {b c : Fin 256} (t : Str) (h1 : 0xC2 ≤ b.val) (h2 : b.val < 0xE0) (h3 : 0x80 ≤ c.val)
    (h4 : c.val ≤ 0xBF) : runeLen (b :: c :: t) = 2 := by
  have hc : between 0x80 0xBF c = true := by simp only [between, Bool.and_eq_true, decide_eq_true_eq]; omega
  rw [runeLen_cons, if_neg (by omega), if_neg (by omega), if_pos (by omega)]
  exact if_pos hc

theorem runeLen3 {b c d : Fin 256} (t : Str) (h1 : 0xE0 ≤ b.val) (h2 : b.val < 0xF0) (h3 : 0x80 ≤ c.val)
    (h3' : b.val = 0xE0 → 0xA0 ≤ c.val) (h4 : c.val ≤ 0xBF) (h4' : b.val = 0xED → c.val ≤ 0x9F)
    (h5 : 0x80 ≤ d.val) (h6 : d.val ≤ 0xBF) : runeLen (b :: c :: d :: t) = 3 := by
  have hc : (between (if b.val = 0xE0 then 0xA0 else 0x80) (if b.val = 0xED then 0x9F else 0xBF) c &&
      between 0x80 0xBF d) = true := by
    simp only [between, Bool.and_eq_true, decide_eq_true_eq]
    refine ⟨⟨?_, ?_⟩, h5, h6⟩ <;> split_ifs <;> omega
  rw [runeLen_cons, if_neg (by omega), if_neg (by omega), if_neg (by omega), if_pos (by omega)]
  exact if_pos hc

theorem runeLen4 {b c d e : Fin 256} (t : Str) (h1 : 0xF0 ≤ b.val) (h2 : b.val < 0xF5) (h3 : 0x80 ≤ c.val)
    (h3' : b.val = 0xF0 → 0x90 ≤ c.val) (h4 : c.val ≤ 0xBF) (h4' : b.val = 0xF4 → c.val ≤ 0x8F)
    (h5 : 0x80 ≤ d.val) (h6 : d.val ≤ 0xBF) (h7 : 0x80 ≤ e.val) (h8 : e.val ≤ 0xBF) :
    runeLen (b :: c :: d :: e :: t) = 4 := by
  have hc : (between (if b.val = 0xF0 then 0x90 else 0x80) (if b.val = 0xF4 then 0x8F else 0xBF) c &&
      between 0x80 0xBF d && between 0x80 0xBF e) = true := by
    simp only [between, Bool.and_eq_true, decide_eq_true_eq]
    refine ⟨⟨⟨?_, ?_⟩, h5, h6⟩, h7, h8⟩ <;> split_ifs <;> omega
  rw [runeLen_cons, if_neg (by omega), if_neg (by omega), if_neg (by omega), if_neg (by omega), if_pos (by omega)]
  exact if_pos hc

/-- A rune is recognised. -/
theorem runeLen_rune (r : Nat) (h : Scalar r) (rest : Str) : runeLen (runeBytes r ++ rest) = (runeBytes r).length := by
  unfold Scalar at h
  unfold runeBytes
  by_cases h1 : r < 0x80
  · rw [if_pos h1]
    exact runeLen1 rest (by rw [ofNat_val (by omega)]; exact h1)
  rw [if_neg h1]
  by_cases h2 : r < 0x800
  · rw [if_pos h2]
    have v1 := ofNat_val (n := 0xC0 + r / 64) (by omega)
    have v2 := ofNat_val (n := 0x80 + r % 64) (by omega)
    exact runeLen2 rest (by omega) (by omega) (by omega) (by omega)
  rw [if_neg h2]
  by_cases h3 : r < 0x10000
  · rw [if_pos h3]
    have v1 := ofNat_val (n := 0xE0 + r / 4096) (by omega)
    have v2 := ofNat_val (n := 0x80 + r / 64 % 64) (by omega)
    have v3 := ofNat_val (n := 0x80 + r % 64) (by omega)
    exact runeLen3 rest (by omega) (by omega) (by omega) (by omega) (by omega) (by omega) (by omega) (by omega)
  rw [if_neg h3]
  have v1 := ofNat_val (n := 0xF0 + r / 262144) (by omega)
  have v2 := ofNat_val (n := 0x80 + r / 4096 % 64) (by omega)
  have v3 := ofNat_val (n := 0x80 + r / 64 % 64) (by omega)
  have v4 := ofNat_val (n := 0x80 + r % 64) (by omega)
  exact runeLen4 rest (by omega) (by omega) (by omega) (by omega) (by omega) (by omega) (by omega) (by omega) (by omega)
    (by omega)

/-- What is recognised is a rune. -/
theorem rune_of_runeLen (s : Str) (h : runeLen s ≠ 0) : ∃ r : Nat, Scalar r ∧ s.take (runeLen s) = runeBytes r ∧
    runeLen s ≤ s.length := by
  unfold Scalar
  cases s with
  | nil => simp [runeLen] at h
  | cons b t =>
    have hb := b.isLt
    generalize hn : runeLen (b :: t) = n at h ⊢
    rw [runeLen_cons] at hn
    by_cases h1 : b.val < 0x80
    · rw [if_pos h1] at hn
      subst hn
      refine ⟨b.val, by omega, ?_, by simp⟩
      unfold runeBytes
      rw [if_pos h1, ofNat_self]; rfl
    rw [if_neg h1] at hn
    by_cases h2 : b.val < 0xC2
    · rw [if_pos h2] at hn; exact absurd hn.symm h
    rw [if_neg h2] at hn
    by_cases h3 : b.val < 0xE0
    · rw [if_pos h3] at hn
      cases t with
      | nil => exact absurd hn.symm h
      | cons c t =>
        have hc := c.isLt
        simp only at hn
        by_cases h4 : between 0x80 0xBF c
        · rw [if_pos h4] at hn
          subst hn
          simp only [between, Bool.and_eq_true, decide_eq_true_eq] at h4
          refine ⟨(b.val - 0xC0) * 64 + (c.val - 0x80), by omega, ?_, by simp⟩
          unfold runeBytes
          rw [if_neg (by omega), if_pos (by omega), fin_eq (b := b) (by omega), fin_eq (b := c) (by omega)]
          rfl
        · rw [if_neg h4] at hn; exact absurd hn.symm h
    rw [if_neg h3] at hn
    by_cases h5 : b.val < 0xF0
    · rw [if_pos h5] at hn
      match t, hn with
      | [], hn => exact absurd hn.symm h
      | [c], hn => exact absurd hn.symm h
      | c :: d :: t, hn =>
        have hc := c.isLt
        have hd := d.isLt
        simp only at hn
        by_cases h4 : (between (if b.val = 0xE0 then 0xA0 else 0x80) (if b.val = 0xED then 0x9F else 0xBF) c &&
          between 0x80 0xBF d) = true
        · rw [if_pos h4] at hn
          subst hn
          simp only [between, Bool.and_eq_true, decide_eq_true_eq] at h4
          obtain ⟨⟨a1, a2⟩, a3, a4⟩ := h4
          have b1 : 0x80 ≤ c.val ∧ (b.val = 0xE0 → 0xA0 ≤ c.val) := by split_ifs at a1 <;> omega
          have b2 : c.val ≤ 0xBF ∧ (b.val = 0xED → c.val ≤ 0x9F) := by split_ifs at a2 <;> omega
          clear a1 a2
          refine ⟨(b.val - 0xE0) * 4096 + (c.val - 0x80) * 64 + (d.val - 0x80), by omega, ?_, by simp⟩
          unfold runeBytes
          rw [if_neg (by omega), if_neg (by omega), if_pos (by omega), fin_eq (b := b) (by omega),
            fin_eq (b := c) (by omega), fin_eq (b := d) (by omega)]
          rfl
        · rw [if_neg h4] at hn; exact absurd hn.symm h
    rw [if_neg h5] at hn
    by_cases h6 : b.val < 0xF5
    · rw [if_pos h6] at hn
      match t, hn with
      | [], hn => exact absurd hn.symm h
      | [c], hn => exact absurd hn.symm h
      | [c, d], hn => exact absurd hn.symm h
      | c :: d :: e :: t, hn =>
        have hc := c.isLt
        have hd := d.isLt
        have he := e.isLt
        simp only at hn
        by_cases h4 : (between (if b.val = 0xF0 then 0x90 else 0x80) (if b.val = 0xF4 then 0x8F else 0xBF) c &&
          between 0x80 0xBF d && between 0x80 0xBF e) = true
        · rw [if_pos h4] at hn
          subst hn
          simp only [between, Bool.and_eq_true, decide_eq_true_eq] at h4
          obtain ⟨⟨⟨a1, a2⟩, a3, a4⟩, a5, a6⟩ := h4
          have b1 : 0x80 ≤ c.val ∧ (b.val = 0xF0 → 0x90 ≤ c.val) := by split_ifs at a1 <;> omega
          have b2 : c.val ≤ 0xBF ∧ (b.val = 0xF4 → c.val ≤ 0x8F) := by split_ifs at a2 <;> omega
          clear a1 a2
          refine ⟨(b.val - 0xF0) * 262144 + (c.val - 0x80) * 4096 + (d.val - 0x80) * 64 + (e.val - 0x80), by omega, ?_,
            by simp⟩
          unfold runeBytes
          rw [if_neg (by omega), if_neg (by omega), if_neg (by omega), fin_eq (b := b) (by omega),
            fin_eq (b := c) (by omega), fin_eq (b := d) (by omega), fin_eq (b := e) (by omega)]
          rfl
        · rw [if_neg h4] at hn; exact absurd hn.symm h
    · rw [if_neg h6] at hn; exact absurd hn.symm h

/-- The replacement as a function. -/
def mend : Str → Str
  | [] => []
  | b :: t =>
    if runeLen (b :: t) = 0 then runeError ++ mend t
    else (b :: t).take (runeLen (b :: t)) ++ mend (t.drop (runeLen (b :: t) - 1))
termination_by s => s.length
decreasing_by all_goals simp only [List.length_cons, List.length_drop]; omega

theorem mend_rune (r : Nat) (h : Scalar r) (s : Str) : mend (runeBytes r ++ s) = runeBytes r ++ mend s := by
  have hl := runeLen_rune r h s
  have hp := runeBytes_len r
  cases hr : runeBytes r with
  | nil => rw [hr] at hp; simp at hp
  | cons b t =>
    rw [hr] at hl hp
    rw [List.cons_append] at hl ⊢
    rw [mend, hl, if_neg (by simp)]
    rw [List.length_cons, List.take_succ_cons, List.take_left', Nat.add_sub_cancel, List.drop_left']
    · rfl
    · rfl

theorem mended_mend (s : Str) : Mended s (mend s) := by
  induction hn : s.length using Nat.strongRecOn generalizing s with
  | _ n ih =>
    cases s with
    | nil => rw [mend]; exact Mended.nil
    | cons b t =>
      rw [mend]
      by_cases h : runeLen (b :: t) = 0
      · rw [if_pos h]
        refine Mended.bad b ?_ (ih t.length (by simp at hn; omega) t rfl)
        intro r rest hr he
        have := runeLen_rune r hr rest
        have hp := runeBytes_len r
        rw [← he] at this
        omega
      · rw [if_neg h]
        obtain ⟨r, hr, ht, hle⟩ := rune_of_runeLen (b :: t) h
        have hd : b :: t = (b :: t).take (runeLen (b :: t)) ++ t.drop (runeLen (b :: t) - 1) := by
          obtain ⟨k, hk⟩ := Nat.exists_eq_succ_of_ne_zero h
          rw [hk]; simp
        rw [ht] at hd ⊢
        have := Mended.rune r hr (ih (t.drop (runeLen (b :: t) - 1)).length
          (by simp at hn ⊢; omega) _ rfl)
        rw [← hd] at this
        exact this

/-- There is only one way. -/
theorem mended_unique {s t : Str} (h : Mended s t) : t = mend s := by
  induction h with
  | nil => rw [mend]
  | rune r hr m ih => rw [mend_rune r hr, ih]
  | @bad b s t hb m ih =>
    rw [mend, if_pos, ih]
    by_contra hne
    obtain ⟨r, hr, ht, hle⟩ := rune_of_runeLen (b :: s) hne
    refine hb r ((b :: s).drop (runeLen (b :: s))) hr ?_
    rw [← ht, List.take_append_drop]

theorem mend_utf8 {s : Str} (h : Utf8 s) : mend s = s := by
  obtain ⟨rs, hr, rfl⟩ := h
  induction rs with
  | nil => rw [List.flatMap_nil, mend]
  | cons r rs ih =>
    rw [List.flatMap_cons, mend_rune r (hr r (by simp)), ih (fun x hx => hr x (by simp [hx]))]

/-- Only UTF-8 is left as it is. -/
theorem utf8_of_mended {s t : Str} (h : Mended s t) : s.length ≤ t.length ∧ (t = s → Utf8 s) := by
  induction h with
  | nil => exact ⟨le_refl _, fun _ => ⟨[], by simp, rfl⟩⟩
  | rune r hr m ih =>
    refine ⟨by simpa using ih.1, fun he => ?_⟩
    obtain ⟨rs, h1, h2⟩ := ih.2 (List.append_cancel_left he)
    refine ⟨r :: rs, ?_, by rw [List.flatMap_cons, ← h2]⟩
    intro x hx
    rcases List.mem_cons.1 hx with rfl | hx
    · exact hr
    · exact h1 x hx
  | @bad b s t hb m ih =>
    have : (runeError ++ t).length = t.length + 3 := by simp [runeError]
    refine ⟨by rw [this]; simp; omega, fun he => ?_⟩
    have hl := congrArg List.length he
    rw [this] at hl
    simp at hl
    omega

theorem mend_eq_iff (s : Str) : mend s = s ↔ Utf8 s :=
  ⟨fun h => (utf8_of_mended (mended_mend s)).2 h, mend_utf8⟩

end Riot.Json
