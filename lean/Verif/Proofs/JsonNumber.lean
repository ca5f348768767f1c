import Verif.Proofs.JsonUtf8

/-!
# Numbers, characters and escapes of the reader against the grammar
-/

namespace Riot.Json

open Riot

/-! ## UTF-8 -/

theorem encodes_iff (r : Nat) (p : Str) : Encodes r p ↔ Scalar r ∧ p = runeBytes r := by
  unfold Scalar
  constructor
  · intro h
    cases h with
    | one b hb =>
      refine ⟨by omega, ?_⟩
      unfold runeBytes
      rw [if_pos hb, ofNat_self]
    | two _ b c h1 h2 h3 h4 =>
      refine ⟨by omega, ?_⟩
      unfold runeBytes
      rw [if_neg (by omega), if_pos h2, fin_eq (b := b) (by omega), fin_eq (b := c) (by omega)]
    | three _ b c d h1 h2 h3 h4 h5 h6 h7 h8 h9 h10 =>
      refine ⟨by omega, ?_⟩
      unfold runeBytes
      rw [if_neg (by omega), if_neg (by omega), if_pos h2, fin_eq (b := b) (by omega), fin_eq (b := c) (by omega),
        fin_eq (b := d) (by omega)]
    | four _ b c d e h1 h2 h3 h4 h5 h6 h7 h8 h9 h10 h11 =>
      refine ⟨by omega, ?_⟩
      unfold runeBytes
      rw [if_neg (by omega), if_neg (by omega), if_neg (by omega), fin_eq (b := b) (by omega), fin_eq (b := c) (by omega),
        fin_eq (b := d) (by omega), fin_eq (b := e) (by omega)]
  · rintro ⟨h, rfl⟩
    unfold runeBytes
    by_cases h1 : r < 0x80
    · rw [if_pos h1]
      have v := ofNat_val (n := r) (by omega)
      have := Encodes.one (Fin.ofNat 256 r) (by omega)
      rwa [v] at this
    rw [if_neg h1]
    by_cases h2 : r < 0x800
    · rw [if_pos h2]
      exact Encodes.two r _ _ (by omega) h2 (ofNat_val (by omega)) (ofNat_val (by omega))
    rw [if_neg h2]
    by_cases h3 : r < 0x10000
    · rw [if_pos h3]
      have v1 := ofNat_val (n := 0xE0 + r / 4096) (by omega)
      have v2 := ofNat_val (n := 0x80 + r / 64 % 64) (by omega)
      have v3 := ofNat_val (n := 0x80 + r % 64) (by omega)
      exact Encodes.three r _ _ _ (by omega) h3 (by omega) (by omega) (by omega) (by omega) (by omega) (by omega) (by omega)
        (by omega)
    rw [if_neg h3]
    have v1 := ofNat_val (n := 0xF0 + r / 262144) (by omega)
    have v2 := ofNat_val (n := 0x80 + r / 4096 % 64) (by omega)
    have v3 := ofNat_val (n := 0x80 + r / 64 % 64) (by omega)
    have v4 := ofNat_val (n := 0x80 + r % 64) (by omega)
    exact Encodes.four r _ _ _ _ (by omega) (by omega) (by omega) (by omega) (by omega) (by omega) (by omega) (by omega)
      (by omega) (by omega) (by omega)

/-! ## Numbers -/

theorem num_nil (q : Nat) : readNum q [] = some ([], []) ↔ numEnd q = true := by
  rw [readNum]
  by_cases h : numEnd q = true
  · simp [h]
  · simp [h]

theorem num_cons (q : Nat) (b : Fin 256) (t : Str) : readNum q (b :: t) = some (b :: t, []) ↔
    ∃ q' : Nat, numStep q b = some q' ∧ readNum q' t = some (t, []) := by
  rw [readNum]
  cases h : numStep q b with
  | none =>
    simp only
    by_cases hq : numEnd q = true
    · simp [hq]
    · simp [hq]
  | some q' =>
    simp only [Option.map_eq_some_iff, Option.some.injEq]
    constructor
    · rintro ⟨⟨x, y⟩, h1, h2⟩
      simp only [Prod.mk.injEq, List.cons.injEq, true_and] at h2
      obtain ⟨rfl, rfl⟩ := h2
      exact ⟨q', rfl, h1⟩
    · rintro ⟨_, rfl, h1⟩
      exact ⟨(t, []), h1, rfl⟩

theorem digit_bool (b : Fin 256) : (decide (48 ≤ b.val) && decide (b.val ≤ 57)) = true ↔ Digit b := by
  unfold Digit
  simp only [Bool.and_eq_true, decide_eq_true_eq]

theorem exp_bool (b : Fin 256) : (b == 101 || b == 69) = true ↔ (b = 0x65 ∨ b = 0x45) := by
  simp only [Bool.or_eq_true, beq_iff_eq]

theorem step8 (b : Fin 256) (q' : Nat) : numStep 8 b = some q' ↔ Digit b ∧ q' = 8 := by
  simp only [numStep]
  split_ifs with h
  · have := (digit_bool b).1 h
    simp [this, eq_comm]
  · have : ¬ Digit b := fun hd => h ((digit_bool b).2 hd)
    simp [this]

theorem step7 (b : Fin 256) (q' : Nat) : numStep 7 b = some q' ↔ Digit b ∧ q' = 8 := by
  simp only [numStep]
  split_ifs with h
  · have := (digit_bool b).1 h
    simp [this, eq_comm]
  · have : ¬ Digit b := fun hd => h ((digit_bool b).2 hd)
    simp [this]

theorem step4 (b : Fin 256) (q' : Nat) : numStep 4 b = some q' ↔ Digit b ∧ q' = 5 := by
  simp only [numStep]
  split_ifs with h
  · have := (digit_bool b).1 h
    simp [this, eq_comm]
  · have : ¬ Digit b := fun hd => h ((digit_bool b).2 hd)
    simp [this]

theorem digit_ne {b : Fin 256} (h : Digit b) : b ≠ 0x2D ∧ b ≠ 0x2B ∧ b ≠ 0x2E ∧ b ≠ 0x65 ∧ b ≠ 0x45 := by
  unfold Digit at h
  refine ⟨?_, ?_, ?_, ?_, ?_⟩ <;> rintro rfl <;> revert h <;> decide

theorem num8 (t : Str) : readNum 8 t = some (t, []) ↔ ∀ b ∈ t, Digit b := by
  induction t with
  | nil => simp [num_nil, numEnd]
  | cons b t ih =>
    rw [num_cons]
    constructor
    · rintro ⟨q', h1, h2⟩
      obtain ⟨hd, rfl⟩ := (step8 b q').1 h1
      intro c hc
      rcases List.mem_cons.1 hc with rfl | hc
      · exact hd
      · exact ih.1 h2 c hc
    · intro h
      exact ⟨8, (step8 b 8).2 ⟨h b (by simp), rfl⟩, ih.2 fun c hc => h c (by simp [hc])⟩

theorem num7 (t : Str) : readNum 7 t = some (t, []) ↔ Digits t := by
  unfold Digits
  cases t with
  | nil => simp [num_nil, numEnd]
  | cons b t =>
    rw [num_cons]
    constructor
    · rintro ⟨q', h1, h2⟩
      obtain ⟨hd, rfl⟩ := (step7 b q').1 h1
      refine ⟨by simp, fun c hc => ?_⟩
      rcases List.mem_cons.1 hc with rfl | hc
      · exact hd
      · exact (num8 t).1 h2 c hc
    · rintro ⟨-, h⟩
      exact ⟨8, (step7 b 8).2 ⟨h b (by simp), rfl⟩, (num8 t).2 fun c hc => h c (by simp [hc])⟩

theorem num6 (t : Str) : readNum 6 t = some (t, []) ↔ ∃ sign ds : Str, t = sign ++ ds ∧
    (sign = [] ∨ sign = [0x2D] ∨ sign = [0x2B]) ∧ Digits ds := by
  cases t with
  | nil =>
    rw [num_nil]
    constructor
    · intro h; cases h
    · rintro ⟨sign, ds, e, -, hd⟩
      obtain ⟨rfl, rfl⟩ := List.append_eq_nil_iff.1 e.symm
      exact absurd rfl hd.1
  | cons b t =>
    rw [num_cons]
    constructor
    · rintro ⟨q', h1, h2⟩
      simp only [numStep] at h1
      split_ifs at h1 with hs hd
      · cases h1
        refine ⟨[b], t, rfl, ?_, (num7 t).1 h2⟩
        rcases hs with rfl | rfl
        · exact Or.inr (Or.inr rfl)
        · exact Or.inr (Or.inl rfl)
      · cases h1
        refine ⟨[], b :: t, rfl, Or.inl rfl, by simp, fun c hc => ?_⟩
        rcases List.mem_cons.1 hc with rfl | hc
        · exact (digit_bool _).1 hd
        · exact (num8 t).1 h2 c hc
    · rintro ⟨sign, ds, e, hs, hd⟩
      rcases hs with rfl | rfl | rfl
      · rw [List.nil_append] at e
        subst e
        have hb := hd.2 b (by simp)
        obtain ⟨n1, n2, -⟩ := digit_ne hb
        refine ⟨8, ?_, (num8 t).2 fun c hc => hd.2 c (by simp [hc])⟩
        simp only [numStep]
        rw [if_neg (by rintro (h | h); exact n2 h; exact n1 h), if_pos ((digit_bool _).2 hb)]
      · obtain ⟨rfl, rfl⟩ := List.cons.inj e
        exact ⟨7, rfl, (num7 _).2 hd⟩
      · obtain ⟨rfl, rfl⟩ := List.cons.inj e
        exact ⟨7, rfl, (num7 _).2 hd⟩

/-- What follows the digits of a fraction. -/
theorem num_exp (b : Fin 256) (t : Str) (hb : b = 0x65 ∨ b = 0x45) : readNum 6 t = some (t, []) ↔ IsExp (b :: t) := by
  rw [num6]
  unfold IsExp
  constructor
  · rintro ⟨sign, ds, rfl, hs, hd⟩
    exact Or.inr ⟨b, sign, ds, rfl, hb, hs, hd⟩
  · rintro (h | ⟨e, sign, ds, h, he, hs, hd⟩)
    · cases h
    · exact ⟨sign, ds, (List.cons.inj h).2, hs, hd⟩

theorem exp_head {b : Fin 256} {t : Str} (h : IsExp (b :: t)) : b = 0x65 ∨ b = 0x45 := by
  rcases h with h | ⟨e, sign, ds, h, he, hs, hd⟩
  · cases h
  · rw [(List.cons.inj h).1]; exact he

theorem num5 (t : Str) : readNum 5 t = some (t, []) ↔ ∃ ds exp : Str, t = ds ++ exp ∧ (∀ b ∈ ds, Digit b) ∧ IsExp exp := by
  induction t with
  | nil =>
    rw [num_nil]
    exact ⟨fun _ => ⟨[], [], rfl, by simp, Or.inl rfl⟩, fun _ => rfl⟩
  | cons b t ih =>
    rw [num_cons]
    constructor
    · rintro ⟨q', h1, h2⟩
      simp only [numStep] at h1
      split_ifs at h1 with hd he
      · cases h1
        obtain ⟨ds, exp, rfl, h3, h4⟩ := ih.1 h2
        refine ⟨b :: ds, exp, rfl, fun c hc => ?_, h4⟩
        rcases List.mem_cons.1 hc with rfl | hc
        · exact (digit_bool _).1 hd
        · exact h3 c hc
      · cases h1
        exact ⟨[], b :: t, rfl, by simp, (num_exp b t ((exp_bool _).1 he)).1 h2⟩
    · rintro ⟨ds, exp, e, h3, h4⟩
      cases ds with
      | nil =>
        rw [List.nil_append] at e
        subst e
        have he := exp_head h4
        refine ⟨6, ?_, (num_exp b t he).2 h4⟩
        rcases he with rfl | rfl <;> rfl
      | cons c ds =>
        obtain ⟨rfl, rfl⟩ := List.cons.inj e
        refine ⟨5, ?_, ih.2 ⟨ds, exp, rfl, fun c hc => h3 c (by simp [hc]), h4⟩⟩
        simp only [numStep]
        rw [if_pos ((digit_bool _).2 (h3 b (by simp)))]

theorem num4 (t : Str) : readNum 4 t = some (t, []) ↔ ∃ ds exp : Str, t = ds ++ exp ∧ Digits ds ∧ IsExp exp := by
  cases t with
  | nil =>
    rw [num_nil]
    constructor
    · intro h; cases h
    · rintro ⟨ds, exp, e, hd, -⟩
      exact absurd (List.append_eq_nil_iff.1 e.symm).1 hd.1
  | cons b t =>
    rw [num_cons]
    constructor
    · rintro ⟨q', h1, h2⟩
      obtain ⟨hd, rfl⟩ := (step4 b q').1 h1
      obtain ⟨ds, exp, rfl, h3, h4⟩ := (num5 t).1 h2
      refine ⟨b :: ds, exp, rfl, ⟨by simp, fun c hc => ?_⟩, h4⟩
      rcases List.mem_cons.1 hc with rfl | hc
      · exact hd
      · exact h3 c hc
    · rintro ⟨ds, exp, e, hd, h4⟩
      cases ds with
      | nil => exact absurd rfl hd.1
      | cons c ds =>
        obtain ⟨rfl, rfl⟩ := List.cons.inj e
        exact ⟨5, (step4 b 5).2 ⟨hd.2 b (by simp), rfl⟩, (num5 _).2 ⟨ds, exp, rfl, fun c hc => hd.2 c (by simp [hc]), h4⟩⟩

/-- A fraction and an exponent that begin with the byte. -/
theorem num_tail (b : Fin 256) (t : Str) : (∃ frac exp : Str, b :: t = frac ++ exp ∧ IsFrac frac ∧ IsExp exp) ↔
    (b = 0x2E ∧ readNum 4 t = some (t, [])) ∨ ((b = 0x65 ∨ b = 0x45) ∧ readNum 6 t = some (t, [])) := by
  constructor
  · rintro ⟨frac, exp, e, hf, he⟩
    rcases hf with rfl | ⟨ds, rfl, hd⟩
    · rw [List.nil_append] at e
      subst e
      exact Or.inr ⟨exp_head he, (num_exp b t (exp_head he)).2 he⟩
    · obtain ⟨rfl, rfl⟩ := List.cons.inj e
      exact Or.inl ⟨rfl, (num4 _).2 ⟨ds, exp, rfl, hd, he⟩⟩
  · rintro (⟨rfl, h⟩ | ⟨hb, h⟩)
    · obtain ⟨ds, exp, rfl, hd, he⟩ := (num4 t).1 h
      exact ⟨0x2E :: ds, exp, rfl, Or.inr ⟨ds, rfl, hd⟩, he⟩
    · exact ⟨[], b :: t, rfl, Or.inl rfl, (num_exp b t hb).1 h⟩

theorem num2 (t : Str) : readNum 2 t = some (t, []) ↔ ∃ frac exp : Str, t = frac ++ exp ∧ IsFrac frac ∧ IsExp exp := by
  cases t with
  | nil =>
    rw [num_nil]
    exact ⟨fun _ => ⟨[], [], rfl, Or.inl rfl, Or.inl rfl⟩, fun _ => rfl⟩
  | cons b t =>
    rw [num_cons, num_tail]
    constructor
    · rintro ⟨q', h1, h2⟩
      simp only [numStep] at h1
      split_ifs at h1 with hd he
      · cases h1; exact Or.inl ⟨hd, h2⟩
      · cases h1; exact Or.inr ⟨(exp_bool _).1 he, h2⟩
    · rintro (⟨rfl, h⟩ | ⟨rfl | rfl, h⟩)
      · exact ⟨4, rfl, h⟩
      · exact ⟨6, rfl, h⟩
      · exact ⟨6, rfl, h⟩

theorem num3 (t : Str) : readNum 3 t = some (t, []) ↔ ∃ ds u : Str, t = ds ++ u ∧ (∀ b ∈ ds, Digit b) ∧
    ∃ frac exp : Str, u = frac ++ exp ∧ IsFrac frac ∧ IsExp exp := by
  induction t with
  | nil =>
    rw [num_nil]
    exact ⟨fun _ => ⟨[], [], rfl, by simp, [], [], rfl, Or.inl rfl, Or.inl rfl⟩, fun _ => rfl⟩
  | cons b t ih =>
    rw [num_cons]
    constructor
    · rintro ⟨q', h1, h2⟩
      simp only [numStep] at h1
      split_ifs at h1 with hd hp he
      · cases h1
        obtain ⟨ds, u, rfl, h3, h4⟩ := ih.1 h2
        refine ⟨b :: ds, u, rfl, fun c hc => ?_, h4⟩
        rcases List.mem_cons.1 hc with rfl | hc
        · exact (digit_bool _).1 hd
        · exact h3 c hc
      · cases h1
        exact ⟨[], b :: t, rfl, by simp, (num_tail b t).2 (Or.inl ⟨hp, h2⟩)⟩
      · cases h1
        exact ⟨[], b :: t, rfl, by simp, (num_tail b t).2 (Or.inr ⟨(exp_bool _).1 he, h2⟩)⟩
    · rintro ⟨ds, u, e, h3, h4⟩
      cases ds with
      | nil =>
        rw [List.nil_append] at e
        subst e
        rcases (num_tail b t).1 h4 with ⟨rfl, h⟩ | ⟨rfl | rfl, h⟩
        · exact ⟨4, rfl, h⟩
        · exact ⟨6, rfl, h⟩
        · exact ⟨6, rfl, h⟩
      | cons c ds =>
        obtain ⟨rfl, rfl⟩ := List.cons.inj e
        refine ⟨3, ?_, ih.2 ⟨ds, u, rfl, fun c hc => h3 c (by simp [hc]), h4⟩⟩
        simp only [numStep]
        rw [if_pos ((digit_bool _).2 (h3 b (by simp)))]

theorem zero_digit : Digit 0x30 := ⟨by decide, by decide⟩

theorem num1 (t : Str) : readNum 1 t = some (t, []) ↔ ∃ int frac exp : Str, t = int ++ (frac ++ exp) ∧ IsInt int ∧
    IsFrac frac ∧ IsExp exp := by
  cases t with
  | nil =>
    rw [num_nil]
    constructor
    · intro h; cases h
    · rintro ⟨int, frac, exp, e, hi, -⟩
      rw [(List.append_eq_nil_iff.1 e.symm).1] at hi
      rcases hi with h | ⟨d, ds, h, -⟩ <;> cases h
  | cons b t =>
    rw [num_cons]
    constructor
    · rintro ⟨q', h1, h2⟩
      simp only [numStep] at h1
      split_ifs at h1 with hz hd
      · cases h1
        obtain ⟨frac, exp, rfl, hf, he⟩ := (num2 t).1 h2
        exact ⟨[b], frac, exp, rfl, Or.inl (by rw [hz]), hf, he⟩
      · cases h1
        obtain ⟨ds, u, rfl, h3, frac, exp, rfl, hf, he⟩ := (num3 t).1 h2
        exact ⟨b :: ds, frac, exp, rfl, Or.inr ⟨b, ds, rfl, (digit_bool _).1 hd, hz, h3⟩, hf, he⟩
    · rintro ⟨int, frac, exp, e, hi, hf, he⟩
      rcases hi with rfl | ⟨d, ds, rfl, hd, hz, h3⟩
      · obtain ⟨rfl, rfl⟩ := List.cons.inj e
        exact ⟨2, rfl, (num2 _).2 ⟨frac, exp, rfl, hf, he⟩⟩
      · obtain ⟨rfl, rfl⟩ := List.cons.inj e
        refine ⟨3, ?_, (num3 _).2 ⟨ds, frac ++ exp, rfl, h3, frac, exp, rfl, hf, he⟩⟩
        simp only [numStep]
        rw [if_neg hz, if_pos ((digit_bool _).2 hd)]

theorem int_head {b : Fin 256} {t : Str} (h : ∃ int frac exp : Str, b :: t = int ++ (frac ++ exp) ∧ IsInt int ∧
    IsFrac frac ∧ IsExp exp) : Digit b := by
  obtain ⟨int, frac, exp, e, hi, -⟩ := h
  rcases hi with rfl | ⟨d, ds, rfl, hd, -⟩
  · rw [(List.cons.inj e).1]; exact zero_digit
  · rw [(List.cons.inj e).1]; exact hd

/-- The states of a number accept the numbers of the RFC. -/
theorem number_iff (t : Str) : readNum 0 t = some (t, []) ↔ IsNumber t := by
  have e0 : IsNumber t ↔ (∃ u : Str, t = 0x2D :: u ∧ readNum 1 u = some (u, [])) ∨ readNum 1 t = some (t, []) := by
    unfold IsNumber
    constructor
    · rintro ⟨m, int, frac, exp, e, hm, h⟩
      rcases hm with rfl | rfl
      · exact Or.inr ((num1 t).2 ⟨int, frac, exp, e, h⟩)
      · exact Or.inl ⟨_, e, (num1 _).2 ⟨int, frac, exp, rfl, h⟩⟩
    · rintro (⟨u, rfl, h⟩ | h)
      · obtain ⟨int, frac, exp, rfl, h'⟩ := (num1 u).1 h
        exact ⟨[0x2D], int, frac, exp, rfl, Or.inr rfl, h'⟩
      · obtain ⟨int, frac, exp, e, h⟩ := (num1 t).1 h
        exact ⟨[], int, frac, exp, e, Or.inl rfl, h⟩
  rw [e0]
  cases t with
  | nil =>
    constructor
    · intro h; exact absurd h (by decide)
    · rintro (⟨u, h, -⟩ | h)
      · cases h
      · exact absurd h (by decide)
  | cons b t =>
    have key (h : b ≠ 45) : numStep 0 b = numStep 1 b := by simp only [numStep, if_neg h]
    by_cases hb : b = 45
    · subst hb
      rw [num_cons]
      constructor
      · rintro ⟨q', h1, h2⟩
        have : q' = 1 := by simpa [numStep, eq_comm] using h1
        subst this
        exact Or.inl ⟨t, rfl, h2⟩
      · rintro (⟨u, e, h⟩ | h)
        · obtain ⟨-, rfl⟩ := List.cons.inj e
          exact ⟨1, rfl, h⟩
        · exact absurd rfl (digit_ne (int_head ((num1 _).1 h))).1
    · constructor
      · intro h
        right
        rw [num_cons] at h ⊢
        rwa [key hb] at h
      · rintro (⟨u, e, h⟩ | h)
        · exact absurd (List.cons.inj e).1 hb
        · rw [num_cons] at h ⊢
          rwa [key hb]

/-! ## Escapes -/

theorem hexVal_iff (b : Fin 256) (n : Nat) : hexVal b = some n ↔ Hex b n := by
  unfold hexVal Hex Digit
  split_ifs with h1 h2 h3
  · rw [Option.some.injEq]; constructor
    · intro h; left; omega
    · rintro (h | h) <;> omega
  · rw [Option.some.injEq]; constructor
    · intro h; right; omega
    · rintro (h | h) <;> omega
  · rw [Option.some.injEq]; constructor
    · intro h; right; omega
    · rintro (h | h) <;> omega
  · constructor
    · intro h; cases h
    · rintro (h | h) <;> omega

theorem hex4_iff (a b c d : Fin 256) (r : Nat) : hex4 a b c d = some r ↔ Hex4 a b c d r := by
  unfold hex4 Hex4
  simp only [← hexVal_iff]
  cases hexVal a <;> cases hexVal b <;> cases hexVal c <;> cases hexVal d <;> simp
  omega

theorem hex_lt {b : Fin 256} {n : Nat} (h : Hex b n) : n < 16 := by
  unfold Hex Digit at h; omega

theorem hex4_lt {a b c d : Fin 256} {r : Nat} (h : Hex4 a b c d r) : r < 65536 := by
  obtain ⟨i, j, k, l, h1, h2, h3, h4, rfl⟩ := h
  have := hex_lt h1; have := hex_lt h2; have := hex_lt h3; have := hex_lt h4
  omega

theorem hex_ne {b : Fin 256} {n : Nat} (h : Hex b n) : b ≠ 34 := by
  rintro rfl
  have : (34 : Fin 256).val = 34 := rfl
  unfold Hex Digit at h; omega

theorem letter_iff (e c : Fin 256) : unescape e = some c ↔ Letter e c := by
  unfold unescape Letter
  split_ifs with h1 h2 h3 h4 h5 h6
  · rcases h1 with rfl | rfl | rfl <;> simp [eq_comm]
  · subst h2; simp [eq_comm]
  · subst h3; simp [eq_comm]
  · subst h4; simp [eq_comm]
  · subst h5; simp [eq_comm]
  · subst h6; simp [eq_comm]
  · simp only [not_or] at h1
    obtain ⟨a1, a2, a3⟩ := h1
    simp [a1, a2, a3, h2, h3, h4, h5, h6]

end Riot.Json
