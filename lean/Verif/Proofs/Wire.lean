import Verif.Spec.Wire
import Mathlib.Tactic.NormNum

/-! # Reading the wire format -/

namespace Riot.Wire

@[simp] theorem Out.bind_ok {α β : Type} (a : α) (f : α → Out β) : (Out.ok a).bind f = f a := rfl

/-- Go on with a known value. -/
theorem bind_of {α β : Type} {x : Out α} {a : α} (f : α → Out β) (h : x = .ok a) : x.bind f = f a := by rw [h]; rfl

theorem ok_congr {a b : Int} (h : a = b) : Out.ok a = Out.ok b := by rw [h]

theorem shift_split (w s x n : Nat) (hx : x < 128) :
    BitVec.ofNat w (x + 128 * n) <<< s = (BitVec.ofNat w x <<< s) ||| (BitVec.ofNat w n <<< (s + 7)) := by
  apply BitVec.eq_of_getLsbD_eq
  intro i hi
  simp only [BitVec.getLsbD_or, BitVec.getLsbD_shiftLeft, BitVec.getLsbD_ofNat, hi, decide_true, Bool.true_and]
  by_cases h1 : i < s
  · simp [h1, show i < s + 7 by omega]
  · simp only [h1, decide_false, Bool.not_false, Bool.true_and]
    have e : x + 128 * n = 2 ^ 7 * n + x := by omega
    rw [e, Nat.testBit_two_pow_mul_add n (by simpa using hx)]
    by_cases h2 : i < s + 7
    · have h3 : i - s < 7 := by omega
      simp [h2, h3, show i - s < w by omega]
    · have h3 : ¬ i - s < 7 := by omega
      have h4 : Nat.testBit x (i - s) = false := Nat.testBit_lt_two_pow (lt_of_lt_of_le hx (by
        calc 128 = 2 ^ 7 := by norm_num
          _ ≤ 2 ^ (i - s) := Nat.pow_le_pow_right (by norm_num) (by omega)))
      simp [h2, h3, h4, show i - s < w by omega, show i - (s + 7) < w by omega, show i - s - 7 = i - (s + 7) by omega]

theorem readVarint_spec {bs : Str} {n : Nat} (h : Varint bs n) (w : Nat) (rest : Str) :
    ∀ (s : Nat) (acc : BitVec w), s + 7 * bs.length < 71 →
      readVarint w s acc (bs ++ rest) = .ok (acc ||| (BitVec.ofNat w n <<< s), rest) := by
  induction h with
  | last b hb =>
    intro s acc hs
    simp only [List.length_singleton] at hs
    simp only [List.singleton_append, readVarint, if_neg (show ¬ s ≥ 64 by omega), if_pos hb, Nat.mod_eq_of_lt hb]
  | @more b hb bs n t ih =>
    intro s acc hs
    simp only [List.length_cons] at hs
    have hb' := b.isLt
    have hpos : 0 < bs.length := by cases t <;> simp
    simp only [List.cons_append, readVarint, if_neg (show ¬ s ≥ 64 by omega), if_neg (show ¬ b.val < 128 by omega)]
    rw [ih (s + 7) _ (by omega), shift_split w s (b.val - 128) n (by omega), show b.val % 128 = b.val - 128 by omega,
      BitVec.or_assoc]

theorem Varint.ne_nil {bs : Str} {n : Nat} (h : Varint bs n) : bs ≠ [] := by cases h <;> simp

theorem IsVarint.ne_nil {bs : Str} {n : Nat} (h : IsVarint bs n) : bs ≠ [] := h.1.ne_nil

theorem IsVarint.pos {bs : Str} {n : Nat} (h : IsVarint bs n) : 0 < bs.length := List.length_pos_of_ne_nil h.ne_nil

theorem IsVarint.read {bs : Str} {n : Nat} (h : IsVarint bs n) (w : Nat) (rest : Str) :
    readVarint w 0 0 (bs ++ rest) = .ok (BitVec.ofNat w n, rest) := by
  have := h.2.1
  rw [readVarint_spec h.1 w rest 0 0 (by omega)]
  simp

theorem IsVarint.toNat {bs : Str} {n : Nat} (h : IsVarint bs n) : (BitVec.ofNat 64 n).toNat = n := by
  simp only [BitVec.toNat_ofNat]
  exact Nat.mod_eq_of_lt h.2.2

theorem passVarint_spec {bs : Str} {n : Nat} (h : Varint bs n) (rest : Str) :
    ∀ (s : Nat), s + 7 * bs.length < 71 → passVarint s (bs ++ rest) = .ok rest := by
  induction h with
  | last b hb =>
    intro s hs
    simp only [List.length_singleton] at hs
    simp only [List.singleton_append, passVarint, if_neg (show ¬ s ≥ 64 by omega), if_pos hb]
  | @more b hb bs n t ih =>
    intro s hs
    simp only [List.length_cons] at hs
    have hpos : 0 < bs.length := by cases t <;> simp
    simp only [List.cons_append, passVarint, if_neg (show ¬ s ≥ 64 by omega), if_neg (show ¬ b.val < 128 by omega)]
    exact ih (s + 7) (by omega)

theorem int64_small {x : Int} (h0 : 0 ≤ x) (h : x < 2 ^ 63) : int64 x = x := by
  unfold int64; omega

theorem toInt_ofNat_small {n : Nat} (h : n < 2 ^ 63) : (BitVec.ofNat 64 n).toInt = n := by
  rw [BitVec.toInt_eq_toNat_cond, BitVec.toNat_ofNat, Nat.mod_eq_of_lt (by omega)]
  rw [if_pos (by omega)]

theorem readLen_spec {k : Str} {n : Nat} (h : IsVarint k n) {l : Nat} {rest : Str} (hn : n ≤ rest.length)
    (hl : (k ++ rest).length ≤ l) (hl' : l < 2 ^ 63) :
    readLen l (k ++ rest) = .ok (((l - rest.length + n : Nat) : Int), rest) := by
  simp only [List.length_append] at hl
  unfold readLen
  rw [h.read 64 rest]
  simp only [Out.bind_ok]
  have hnt := toInt_ofNat_small (n := n) (by omega)
  have e : int64 (((l - rest.length : Nat) : Int) + n) = ((l - rest.length + n : Nat) : Int) := by
    rw [int64_small (by omega) (by omega)]; omega
  rw [hnt, if_neg (by omega), e, if_neg (by omega)]

theorem takeLen_spec {k p : Str} (h : IsVarint k p.length) {l : Nat} {rest : Str}
    (hl : (k ++ p ++ rest).length ≤ l) (hl' : l < 2 ^ 63) : takeLen l (k ++ p ++ rest) = .ok (p, rest) := by
  simp only [List.length_append] at hl
  unfold takeLen
  rw [List.append_assoc, readLen_spec h (rest := p ++ rest) (by simp) (by simp; omega) hl']
  simp only [Out.bind_ok, List.length_append]
  rw [if_neg (by omega)]
  have e : (((l - (p.length + rest.length) + p.length : Nat) : Int)).toNat - (l - (p.length + rest.length)) = p.length := by
    omega
  rw [e]; simp

/-! ## Unknown fields -/

/-- How a field begins. -/
theorem Record.tag {bs : Str} {num : Nat} {p : Payload} (h : Record bs num p) :
    ∃ (t q : Str) (wt : Nat), bs = t ++ q ∧ IsVarint t (8 * num + wt) ∧ wt < 6 ∧ wt ≠ 4 ∧ 1 ≤ num ∧ num < 2 ^ 29 := by
  cases h with
  | @varint t v _ n hn ht hv => exact ⟨t, v, 0, rfl, ht, by omega, by omega, hn⟩
  | @fixed64 t p _ hn ht hp => exact ⟨t, p, 1, rfl, ht, by omega, by omega, hn⟩
  | @len t k p _ hn ht hk => exact ⟨t, k ++ p, 2, by simp, ht, by omega, by omega, hn⟩
  | @group t p e _ hn ht hp he => exact ⟨t, p ++ e, 3, by simp, ht, by omega, by omega, hn⟩
  | @fixed32 t p _ hn ht hp => exact ⟨t, p, 5, rfl, ht, by omega, by omega, hn⟩

theorem Record.pos {bs : Str} {num : Nat} {p : Payload} (h : Record bs num p) : 0 < bs.length := by
  obtain ⟨t, q, wt, rfl, ht, -⟩ := h.tag
  have := ht.pos
  simp; omega

/-- The first step of `skipDoc` on a field with the tag `t`. -/
theorem skipDoc_tag {t : Str} {v : Nat} (ht : IsVarint t v) (n : Nat) (rest : Str) :
    skipDoc (n + 1) (t ++ rest) =
      match v % 8 with
      | 0 => (passVarint 0 rest).bind fun r => .ok (((t ++ rest).length - r.length : Nat) : Int)
      | 1 => .ok (((t ++ rest).length - rest.length + 8 : Nat) : Int)
      | 2 => (readVarint 64 0 0 rest).bind fun q =>
          if q.1.toInt < 0 then .err
          else .ok (int64 (((t ++ rest).length - q.2.length : Nat) + q.1.toInt))
      | 3 => skipGroup n (t ++ rest) rest
      | 4 => .ok (((t ++ rest).length - rest.length : Nat) : Int)
      | 5 => .ok (((t ++ rest).length - rest.length + 4 : Nat) : Int)
      | _ => .err := by
  have hr := ht.read 64 rest
  have hv := ht.toNat
  obtain ⟨b, d, hd⟩ : ∃ b d, t ++ rest = b :: d := by
    cases t with
    | nil => exact absurd rfl ht.ne_nil
    | cons b t => exact ⟨b, t ++ rest, rfl⟩
  rw [hd] at hr ⊢
  simp only [skipDoc, hr, Out.bind_ok, hv, List.length_cons]
  rfl

/-- What is shown about one field. -/
def SkipsField (bs : Str) : Prop :=
  ∀ (rest : Str) (n : Nat), 2 * bs.length ≤ n → (bs ++ rest).length < 2 ^ 63 →
    skipDoc n (bs ++ rest) = .ok (bs.length : Int)

/-- What is shown about the fields of a group. -/
def SkipsFields (p : Str) : Prop :=
  ∀ (pre e rest : Str) (num : Nat), IsVarint e (8 * num + 4) → ∀ n : Nat, 2 * (p.length + e.length) ≤ n + 1 →
    (pre ++ p ++ e ++ rest).length < 2 ^ 63 →
    skipGroup n (pre ++ p ++ e ++ rest) (p ++ e ++ rest) = .ok ((pre.length + (p.length + e.length) : Nat) : Int)

theorem skips_varint {t v : Str} {num k : Nat} (ht : IsVarint t (8 * num)) (hv : IsVarint v k) :
    SkipsField (t ++ v) := by
  intro rest n hn hl
  have := ht.pos; have := hv.pos; have h10 := hv.2.1
  simp only [List.length_append] at hn hl ⊢
  obtain ⟨n, rfl⟩ : ∃ m, n = m + 1 := ⟨n - 1, by omega⟩
  rw [List.append_assoc, skipDoc_tag ht, show 8 * num % 8 = 0 by omega]
  simp only [passVarint_spec hv.1 rest 0 (by omega), Out.bind_ok, List.length_append]
  exact ok_congr (by omega)

theorem skips_fixed64 {t p : Str} {num : Nat} (ht : IsVarint t (8 * num + 1)) (hp : p.length = 8) :
    SkipsField (t ++ p) := by
  intro rest n hn hl
  have := ht.pos
  simp only [List.length_append] at hn hl ⊢
  obtain ⟨n, rfl⟩ : ∃ m, n = m + 1 := ⟨n - 1, by omega⟩
  rw [List.append_assoc, skipDoc_tag ht, show (8 * num + 1) % 8 = 1 by omega]
  simp only [List.length_append]
  exact ok_congr (by omega)

theorem skips_fixed32 {t p : Str} {num : Nat} (ht : IsVarint t (8 * num + 5)) (hp : p.length = 4) :
    SkipsField (t ++ p) := by
  intro rest n hn hl
  have := ht.pos
  simp only [List.length_append] at hn hl ⊢
  obtain ⟨n, rfl⟩ : ∃ m, n = m + 1 := ⟨n - 1, by omega⟩
  rw [List.append_assoc, skipDoc_tag ht, show (8 * num + 5) % 8 = 5 by omega]
  simp only [List.length_append]
  exact ok_congr (by omega)

theorem skips_len {t k p : Str} {num : Nat} (ht : IsVarint t (8 * num + 2)) (hk : IsVarint k p.length) :
    SkipsField (t ++ k ++ p) := by
  intro rest n hn hl
  have := ht.pos; have := hk.pos
  simp only [List.length_append] at hn hl ⊢
  obtain ⟨n, rfl⟩ : ∃ m, n = m + 1 := ⟨n - 1, by omega⟩
  rw [List.append_assoc, List.append_assoc, skipDoc_tag ht, show (8 * num + 2) % 8 = 2 by omega]
  simp only [hk.read 64, Out.bind_ok, toInt_ofNat_small (n := p.length) (by omega), List.length_append]
  rw [if_neg (by omega), int64_small (by omega) (by omega)]
  exact ok_congr (by omega)

theorem skips_group {t p e : Str} {num : Nat} (ht : IsVarint t (8 * num + 3)) (he : IsVarint e (8 * num + 4))
    (hp : SkipsFields p) : SkipsField (t ++ p ++ e) := by
  intro rest n hn hl
  have := ht.pos
  simp only [List.length_append] at hn hl ⊢
  obtain ⟨n, rfl⟩ : ∃ m, n = m + 1 := ⟨n - 1, by omega⟩
  rw [List.append_assoc, List.append_assoc, skipDoc_tag ht, show (8 * num + 3) % 8 = 3 by omega]
  simp only
  have := hp t e rest num he n (by omega) (by simp only [List.length_append]; omega)
  simp only [List.append_assoc] at this
  rw [this]
  exact ok_congr (by omega)

theorem skips_nil : SkipsFields [] := by
  intro pre e rest num he n hn hl
  have hepos := he.pos
  obtain ⟨n, rfl⟩ : ∃ m, n = m + 1 := ⟨n - 1, by simp only [List.length_nil] at hn; omega⟩
  simp only [List.nil_append, List.append_nil, skipGroup, he.read 64 rest, Out.bind_ok, he.toNat]
  rw [if_pos (by omega)]
  simp only [List.length_append, List.length_nil]
  exact ok_congr (by omega)

theorem skips_cons {bs more : Str} {num' : Nat} {q : Payload} (hr : Record bs num' q) (hbs : SkipsField bs)
    (hmore : SkipsFields more) : SkipsFields (bs ++ more) := by
  intro pre e rest num he n hn hl
  have hepos := he.pos
  have hpos := hr.pos
  simp only [List.length_append] at hn hl
  obtain ⟨n, rfl⟩ : ∃ m, n = m + 1 := ⟨n - 1, by omega⟩
  obtain ⟨t, q', wt, e1, htag, hwt, hwt4, -⟩ := hr.tag
  have hread : readVarint 64 0 0 (bs ++ more ++ e ++ rest) = .ok (BitVec.ofNat 64 (8 * num' + wt), q' ++ more ++ e ++ rest) := by
    rw [e1]; simp only [List.append_assoc]; exact htag.read 64 _
  have hskip : skipDoc n (bs ++ more ++ e ++ rest) = .ok (bs.length : Int) := by
    have := hbs (more ++ e ++ rest) n (by omega) (by simp only [List.length_append]; omega)
    simpa only [List.append_assoc] using this
  rw [skipGroup]
  rw [bind_of _ hread]
  rw [if_neg (by rw [htag.toNat]; omega), bind_of _ hskip]
  have hidx : int64 ((((pre ++ (bs ++ more) ++ e ++ rest).length - (bs ++ more ++ e ++ rest).length : Nat) : Int) + bs.length)
      = ((pre.length + bs.length : Nat) : Int) := by
    simp only [List.length_append]
    rw [int64_small (by omega) (by omega)]; omega
  generalize int64 ((((pre ++ (bs ++ more) ++ e ++ rest).length - (bs ++ more ++ e ++ rest).length : Nat) : Int) + bs.length)
    = x at hidx ⊢
  subst hidx
  rw [if_neg (by omega)]
  have hdrop : (pre ++ (bs ++ more) ++ e ++ rest).drop ((pre.length + bs.length : Nat) : Int).toNat = more ++ e ++ rest := by
    rw [show (pre ++ (bs ++ more) ++ e ++ rest) = (pre ++ bs) ++ (more ++ e ++ rest) by simp only [List.append_assoc]]
    exact List.drop_left' (by simp only [List.length_append, Int.toNat_natCast])
  rw [hdrop]
  have := hmore (pre ++ bs) e rest num he n (by omega) (by simp only [List.length_append]; omega)
  rw [show pre ++ (bs ++ more) ++ e ++ rest = pre ++ bs ++ more ++ e ++ rest by simp only [List.append_assoc], this]
  simp only [List.length_append]
  exact ok_congr (by omega)

theorem Record.skips {bs : Str} {num : Nat} {p : Payload} (h : Record bs num p) : SkipsField bs :=
  Record.rec (motive_1 := fun bs _ _ _ => SkipsField bs) (motive_2 := fun p _ => SkipsFields p)
    (fun _ ht hv => skips_varint ht hv) (fun _ ht hp => skips_fixed64 ht hp) (fun _ ht hk => skips_len ht hk)
    (fun _ ht _ he ih => skips_group ht he ih) (fun _ ht hp => skips_fixed32 ht hp)
    skips_nil (fun hr _ ih1 ih2 => skips_cons hr ih1 ih2) h

theorem unknownField_spec {bs : Str} {num : Nat} {p : Payload} (h : Record bs num p) {l : Nat} {bound : Int} {rest : Str}
    (hl : (bs ++ rest).length ≤ l) (hl' : l < 2 ^ 63) (hb : ((l - rest.length : Nat) : Int) ≤ bound) :
    unknownField l bound (bs ++ rest) = .ok (bs, rest) := by
  have hs := h.skips rest (2 * (bs ++ rest).length + 2) (by simp only [List.length_append]; omega) (by omega)
  simp only [List.length_append] at hl
  have e : int64 (((l - (bs ++ rest).length : Nat) : Int) + bs.length) = ((l - rest.length : Nat) : Int) := by
    rw [List.length_append, int64_small (by omega) (by omega)]; omega
  unfold unknownField
  rw [bind_of _ hs]
  generalize int64 (((l - (bs ++ rest).length : Nat) : Int) + bs.length) = x at e ⊢
  subst e
  rw [if_neg (by omega), if_neg (by omega), if_neg (by rw [List.length_append]; omega)]
  simp only [Int.toNat_natCast, List.take_left', List.drop_left']

/-! ## Messages -/

theorem tag_num {num wt : Nat} (hn : 1 ≤ num ∧ num < 2 ^ 29) (hwt : wt < 8) :
    ((BitVec.ofNat 64 (8 * num + wt) >>> 3).setWidth 32).toNat = num := by
  simp only [BitVec.toNat_setWidth, BitVec.toNat_ushiftRight, BitVec.toNat_ofNat, Nat.shiftRight_eq_div_pow]
  omega

theorem tag_num_pos {num wt : Nat} (hn : 1 ≤ num ∧ num < 2 ^ 29) (hwt : wt < 8) :
    ¬ ((BitVec.ofNat 64 (8 * num + wt) >>> 3).setWidth 32).toInt ≤ 0 := by
  rw [BitVec.toInt_eq_toNat_cond, tag_num hn hwt, if_pos (by omega)]
  omega

theorem ofNat_tag {t : Str} {num wt : Nat} (ht : IsVarint t (8 * num + wt)) (hwt : wt < 8) :
    (BitVec.ofNat 64 (8 * num + wt)).toNat % 8 = wt := by
  rw [ht.toNat]; omega

variable {M : Type} {sw : Switch M} {unk : M → Str → M}

/-- One field of a message, a known one or an unknown one. -/
theorem decode_step {t : Str} {num wt : Nat} (hn : 1 ≤ num ∧ num < 2 ^ 29) (hwt : wt < 8) (hwt4 : wt ≠ 4)
    (ht : IsVarint t (8 * num + wt)) (l n : Nat) (m : M) (rest : Str) :
    decodeLoop sw unk l (n + 1) m (t ++ rest) =
      match sw l m num wt rest with
      | some x => x.bind fun q => decodeLoop sw unk l n q.1 q.2
      | none => (unknownField l l (t ++ rest)).bind fun q => decodeLoop sw unk l n (unk m q.1) q.2 := by
  have hr := ht.read 64 rest
  obtain ⟨b, d, hd⟩ : ∃ b d, t ++ rest = b :: d := by
    cases t with
    | nil => exact absurd rfl ht.ne_nil
    | cons b t => exact ⟨b, t ++ rest, rfl⟩
  rw [hd] at hr ⊢
  simp only [decodeLoop, hr, Out.bind_ok, ofNat_tag ht hwt]
  rw [if_neg hwt4, if_neg (tag_num_pos hn hwt), tag_num hn hwt]
  rfl

/-- The switch handles the field `bs`, and takes `m` to `m'`. -/
def Handles (sw : Switch M) (unk : M → Str → M) (m : M) (bs : Str) (m' : M) : Prop :=
  0 < bs.length ∧ ∀ (l n : Nat) (rest : Str), (bs ++ rest).length ≤ l → l < 2 ^ 63 →
    decodeLoop sw unk l (n + 1) m (bs ++ rest) = decodeLoop sw unk l n m' rest

theorem handles_unknown {bs : Str} {num : Nat} {p : Payload} (h : Record bs num p) {m : M}
    (hsw : ∀ (l wt : Nat) (r : Str), sw l m num wt r = none) : Handles sw unk m bs (unk m bs) := by
  refine ⟨h.pos, fun l n rest hl hl' => ?_⟩
  obtain ⟨t, q, wt, e, ht, hwt, hwt4, hn⟩ := h.tag
  have := decode_step (sw := sw) (unk := unk) hn (show wt < 8 by omega) hwt4 ht l n m (q ++ rest)
  rw [hsw] at this
  simp only [← List.append_assoc, ← e] at this
  rw [this, unknownField_spec h hl hl' (by omega)]
  rfl

theorem handles_len {bs s : Str} {num : Nat} (h : Record bs num (.len s)) {m m' : M}
    (hsw : ∀ (l : Nat) (k rest : Str), IsVarint k s.length → (k ++ s ++ rest).length ≤ l → l < 2 ^ 63 →
      sw l m num 2 (k ++ s ++ rest) = some (.ok (m', rest))) : Handles sw unk m bs m' := by
  refine ⟨h.pos, fun l n rest hl hl' => ?_⟩
  cases h with
  | @len t k _ _ hn ht hk =>
    simp only [List.length_append] at hl
    have := decode_step (sw := sw) (unk := unk) hn (show 2 < 8 by omega) (by omega) ht l n m (k ++ s ++ rest)
    rw [hsw l k rest hk (by simp; omega) hl'] at this
    simpa only [List.append_assoc, Out.bind_ok] using this

theorem handles_str {bs s : Str} {num : Nat} (h : Record bs num (.len s)) {m : M} {set : Str → M}
    (hsw : ∀ (l : Nat) (r : Str), sw l m num 2 r = some (strField l 2 r set)) : Handles sw unk m bs (set s) := by
  refine handles_len h (fun l k rest hk hl hl' => ?_)
  rw [hsw]
  simp only [strField, ne_eq, not_true_eq_false, if_false, takeLen_spec hk hl hl', Out.bind_ok]

theorem handles_msg {N : Type} {bs p : Str} {num : Nat} (h : Record bs num (.len p)) {m : M} {dec : Str → Out N} {x : N}
    {set : N → M} (hdec : p.length < 2 ^ 63 → dec p = .ok x)
    (hsw : ∀ (l : Nat) (r : Str), sw l m num 2 r = some (msgField l 2 r dec set)) : Handles sw unk m bs (set x) := by
  refine handles_len h (fun l k rest hk hl hl' => ?_)
  have hp : p.length < 2 ^ 63 := by simp only [List.length_append] at hl; omega
  rw [hsw]
  simp only [msgField, ne_eq, not_true_eq_false, if_false, takeLen_spec hk hl hl', Out.bind_ok, hdec hp]

theorem handles_varint {bs : Str} {num n : Nat} (h : Record bs num (.varint n)) {m m' : M}
    (hsw : ∀ (l : Nat) (v rest : Str), IsVarint v n → sw l m num 0 (v ++ rest) = some (.ok (m', rest))) :
    Handles sw unk m bs m' := by
  refine ⟨h.pos, fun l k rest hl hl' => ?_⟩
  cases h with
  | @varint t v _ _ hn ht hv =>
    have := decode_step (sw := sw) (unk := unk) hn (show 0 < 8 by omega) (by omega) (wt := 0) ht l k m (v ++ rest)
    rw [hsw l v rest hv] at this
    simpa only [List.append_assoc, Out.bind_ok] using this

theorem handles_num {bs : Str} {num n : Nat} (h : Record bs num (.varint n)) {m : M} {w : Nat} {set : BitVec w → M}
    (hsw : ∀ (l : Nat) (r : Str), sw l m num 0 r = some (numField w 0 r set)) :
    Handles sw unk m bs (set (BitVec.ofNat w n)) := by
  refine handles_varint h (fun l v rest hv => ?_)
  rw [hsw]
  simp only [numField, ne_eq, not_true_eq_false, if_false, hv.read w rest, Out.bind_ok]

theorem handles_bool {bs : Str} {num n : Nat} (h : Record bs num (.varint n)) {m : M} {set : Bool → M}
    (hsw : ∀ (l : Nat) (r : Str), sw l m num 0 r = some (numField 64 0 r fun v => set (v ≠ 0))) :
    Handles sw unk m bs (set (n ≠ 0)) := by
  refine handles_varint h (fun l v rest hv => ?_)
  rw [hsw]
  simp only [numField, ne_eq, not_true_eq_false, if_false, hv.read 64 rest, Out.bind_ok]
  have e : (BitVec.ofNat 64 n = 0) ↔ n = 0 := by
    rw [← BitVec.toNat_inj, hv.toNat]; simp
  simp only [e]

/-- A message all whose fields are handled is read to its end. -/
theorem decode_reads {adds : M → Str → M → Prop} (hh : ∀ m bs m', adds m bs m' → Handles sw unk m bs m') {m m' : M}
    {d : Str} (h : Reads adds m d m') :
    ∀ (l n : Nat), d.length ≤ l → l < 2 ^ 63 → d.length ≤ n → decodeLoop sw unk l n m d = .ok m' := by
  induction h with
  | nil m => intro l n _ _ _; cases n <;> simp [decodeLoop]
  | @cons m m1 m2 bs rest h t ih =>
    intro l n hl hl' hn
    obtain ⟨hpos, hstep⟩ := hh _ _ _ h
    simp only [List.length_append] at hl hn
    obtain ⟨n, rfl⟩ : ∃ k, n = k + 1 := ⟨n - 1, by omega⟩
    rw [hstep l n rest (by simp; omega) hl']
    exact ih l n (by omega) hl' (by omega)

theorem unmarshal_reads {adds : M → Str → M → Prop} (hh : ∀ m bs m', adds m bs m' → Handles sw unk m bs m') {m m' : M}
    {d : Str} (h : Reads adds m d m') (hl : d.length < 2 ^ 63) : decode sw unk m d = .ok m' :=
  decode_reads hh h _ _ (le_refl _) hl (by omega)

/-! ## The packed list and the entries of the map -/

theorem packedLoop_spec {p : Str} {ns : List Nat} (h : Packed p ns) (l : Nat) :
    ∀ (n : Nat) (acc : List (BitVec 32)) (rest : Str), (p ++ rest).length ≤ l → p.length + 1 ≤ n →
      packedLoop l ((l - rest.length : Nat) : Int) n acc (p ++ rest) = .ok (acc ++ ns.map (BitVec.ofNat 32), rest) := by
  induction h with
  | nil =>
    intro n acc rest hl hn
    obtain ⟨n, rfl⟩ : ∃ k, n = k + 1 := ⟨n - 1, by simp only [List.length_nil] at hn; omega⟩
    simp only [List.nil_append, packedLoop, lt_irrefl, if_false, List.map_nil, List.append_nil]
  | @cons v bs k ks hv t ih =>
    intro n acc rest hl hn
    have hpos := hv.pos
    simp only [List.length_append] at hl hn
    obtain ⟨n, rfl⟩ : ∃ k, n = k + 1 := ⟨n - 1, by omega⟩
    rw [packedLoop, if_pos (by simp only [List.length_append]; omega), List.append_assoc, bind_of _ (hv.read 32 _),
      ih n _ rest (by simp only [List.length_append]; omega) (by omega)]
    simp

theorem entryLoop_spec {e e' : Str × Bool} {p : Str} (h : Reads EntryAdds e p e') (l : Nat) :
    ∀ (n : Nat) (rest : Str), (p ++ rest).length ≤ l → l < 2 ^ 63 → p.length + 1 ≤ n →
      entryLoop l ((l - rest.length : Nat) : Int) n e (p ++ rest) = .ok e' := by
  induction h with
  | nil e =>
    intro n rest hl hl' hn
    obtain ⟨n, rfl⟩ : ∃ k, n = k + 1 := ⟨n - 1, by simp only [List.length_nil] at hn; omega⟩
    simp only [List.nil_append, entryLoop, lt_irrefl, if_false]
  | @cons e e1 e2 bs more h t ih =>
    intro n rest hl hl' hn
    simp only [List.length_append] at hl hn
    have ih' := fun n hn' => ih n rest (by simp only [List.length_append]; omega) hl' hn'
    cases h with
    | @key s hr =>
      have hpos := hr.pos
      obtain ⟨n, rfl⟩ : ∃ k, n = k + 1 := ⟨n - 1, by omega⟩
      cases hr with
      | @len t k _ _ hnum ht hk =>
        simp only [List.length_append] at hl hn hpos
        rw [entryLoop, if_pos (by simp only [List.length_append]; omega)]
        have e0 : t ++ k ++ s ++ more ++ rest = t ++ (k ++ s ++ (more ++ rest)) := by simp only [List.append_assoc]
        rw [e0, bind_of _ (ht.read 64 _), if_pos (tag_num (num := 1) (wt := 2) (by omega) (by omega)),
          bind_of _ (takeLen_spec hk (by simp only [List.length_append]; omega) hl')]
        exact ih' n (by omega)
    | @value v hr =>
      have hpos := hr.pos
      obtain ⟨n, rfl⟩ : ∃ k, n = k + 1 := ⟨n - 1, by omega⟩
      cases hr with
      | @varint t k _ _ hnum ht hk =>
        simp only [List.length_append] at hl hn hpos
        rw [entryLoop, if_pos (by simp only [List.length_append]; omega)]
        have e0 : t ++ k ++ more ++ rest = t ++ (k ++ (more ++ rest)) := by simp only [List.append_assoc]
        have e1 := tag_num (num := 2) (wt := 0) (by omega) (by omega)
        have e2 : (BitVec.ofNat 64 v = 0) ↔ v = 0 := by rw [← BitVec.toNat_inj, hk.toNat]; simp
        rw [e0, bind_of _ (ht.read 64 _), if_neg (by rw [show 8 * 2 = 8 * 2 + 0 from rfl, e1]; omega),
          if_pos (by rw [show 8 * 2 = 8 * 2 + 0 from rfl, e1]), bind_of _ (hk.read 64 _)]
        simp only [ne_eq, e2]
        exact ih' n (by omega)
    | @unknown num q hr hnum =>
      have hpos := hr.pos
      obtain ⟨n, rfl⟩ : ∃ k, n = k + 1 := ⟨n - 1, by omega⟩
      obtain ⟨t, r, wt, e0, ht, hwt, hwt4, hn1⟩ := hr.tag
      have hu := unknownField_spec hr (l := l) (bound := ((l - rest.length : Nat) : Int)) (rest := more ++ rest)
        (by simp only [List.length_append]; omega) hl' (by simp only [List.length_append]; omega)
      have hrd : readVarint 64 0 0 (bs ++ (more ++ rest)) = .ok (BitVec.ofNat 64 (8 * num + wt), r ++ (more ++ rest)) := by
        rw [e0, List.append_assoc]; exact ht.read 64 _
      have e1 := tag_num hn1 (show wt < 8 by omega)
      rw [entryLoop, if_pos (by simp only [List.length_append]; omega), List.append_assoc, bind_of _ hrd,
        if_neg (by rw [e1]; omega), if_neg (by rw [e1]; omega), bind_of _ hu]
      exact ih' n (by omega)

/-! ## The messages -/

/-- The bytes of doc.pb.go's `HeartReq` that are kept although nothing is known about them. -/
abbrev HeartReq.keep (m : HeartReq) (u : Str) : HeartReq := { m with unrecognized := m.unrecognized ++ u }

theorem HeartReq.handles (m : HeartReq) (bs : Str) (m' : HeartReq) (h : HeartReq.Adds m bs m') :
    Handles HeartReq.field HeartReq.keep m bs m' := by
  cases h with
  | msg h => exact handles_num (sw := HeartReq.field) (unk := HeartReq.keep) (m := m) (w := 32) h (set := fun v => { m with msg := v }) (fun _ _ => rfl)
  | @unknown num p h hn =>
    obtain ⟨j, rfl⟩ : ∃ j, num = j + 2 := ⟨num - 2, by omega⟩
    exact handles_unknown (sw := HeartReq.field) (unk := HeartReq.keep) (m := m) h (fun _ _ _ => rfl)

/-- The bytes of doc.pb.go's `Reply` that are kept although nothing is known about them. -/
abbrev Reply.keep (m : Reply) (u : Str) : Reply := { m with unrecognized := m.unrecognized ++ u }

theorem Reply.handles (m : Reply) (bs : Str) (m' : Reply) (h : Reply.Adds m bs m') :
    Handles Reply.field Reply.keep m bs m' := by
  cases h with
  | result h => exact handles_num (sw := Reply.field) (unk := Reply.keep) (m := m) (w := 32) h (set := fun v => { m with result := v }) (fun _ _ => rfl)
  | @unknown num p h hn =>
    obtain ⟨j, rfl⟩ : ∃ j, num = j + 2 := ⟨num - 2, by omega⟩
    exact handles_unknown (sw := Reply.field) (unk := Reply.keep) (m := m) h (fun _ _ _ => rfl)

/-- The bytes of doc.pb.go's `DeleteReq` that are kept although nothing is known about them. -/
abbrev DeleteReq.keep (m : DeleteReq) (u : Str) : DeleteReq := { m with unrecognized := m.unrecognized ++ u }

theorem DeleteReq.handles (m : DeleteReq) (bs : Str) (m' : DeleteReq) (h : DeleteReq.Adds m bs m') :
    Handles DeleteReq.field DeleteReq.keep m bs m' := by
  cases h with
  | docId h => exact handles_str (sw := DeleteReq.field) (unk := DeleteReq.keep) (m := m) h (set := fun s => { m with docId := s }) (fun _ _ => rfl)
  | @unknown num p h hn =>
    obtain ⟨j, rfl⟩ : ∃ j, num = j + 2 := ⟨num - 2, by omega⟩
    exact handles_unknown (sw := DeleteReq.field) (unk := DeleteReq.keep) (m := m) h (fun _ _ _ => rfl)

/-- The bytes of doc.pb.go's `TokenMsg` that are kept although nothing is known about them. -/
abbrev TokenMsg.keep (m : TokenMsg) (u : Str) : TokenMsg := { m with unrecognized := m.unrecognized ++ u }

theorem TokenMsg.handles (m : TokenMsg) (bs : Str) (m' : TokenMsg) (h : TokenMsg.Adds m bs m') :
    Handles TokenMsg.field TokenMsg.keep m bs m' := by
  cases h with
  | text h => exact handles_str (sw := TokenMsg.field) (unk := TokenMsg.keep) (m := m) h (set := fun s => { m with text := s }) (fun _ _ => rfl)
  | location h =>
    refine handles_varint h (fun l v rest hv => ?_)
    simp only [TokenMsg.field, TokenMsg.locField, hv.read 32 rest, Out.bind_ok, if_true]
  | @locations p ns h hp =>
    refine handles_len h (fun l k rest hk hl hl' => ?_)
    have hl2 : k.length + p.length + rest.length ≤ l := by simpa only [List.length_append] using hl
    have h1 := readLen_spec hk (l := l) (rest := p ++ rest) (by simp) (by simp only [List.length_append]; omega) hl'
    have h2 := packedLoop_spec hp l ((p ++ rest).length + 1) m.locations rest
      (by simp only [List.length_append]; omega) (by simp only [List.length_append]; omega)
    rw [show (l - rest.length : Nat) = l - (p ++ rest).length + p.length by simp only [List.length_append]; omega] at h2
    simp only [TokenMsg.field, TokenMsg.locField, List.append_assoc]
    rw [if_neg (by omega), if_pos trivial, bind_of _ h1, bind_of _ h2]
  | @unknown num p h hn =>
    obtain ⟨j, rfl⟩ : ∃ j, num = j + 3 := ⟨num - 3, by omega⟩
    exact handles_unknown (sw := TokenMsg.field) (unk := TokenMsg.keep) (m := m) h (fun _ _ _ => rfl)

/-- The bytes of doc.pb.go's `DocReq` that are kept although nothing is known about them. -/
abbrev DocReq.keep (m : DocReq) (u : Str) : DocReq := { m with unrecognized := m.unrecognized ++ u }

theorem DocReq.handles (m : DocReq) (bs : Str) (m' : DocReq) (h : DocReq.Adds m bs m') :
    Handles DocReq.field DocReq.keep m bs m' := by
  cases h with
  | docId h => exact handles_str (sw := DocReq.field) (unk := DocReq.keep) (m := m) h (set := fun s => { m with docId := s }) (fun _ _ => rfl)
  | content h => exact handles_str (sw := DocReq.field) (unk := DocReq.keep) (m := m) h (set := fun s => { m with content := s }) (fun _ _ => rfl)
  | attri h => exact handles_str (sw := DocReq.field) (unk := DocReq.keep) (m := m) h (set := fun s => { m with attri := s }) (fun _ _ => rfl)
  | token h hr =>
    exact handles_msg (sw := DocReq.field) (unk := DocReq.keep) (m := m) h (dec := TokenMsg.unmarshal {}) (set := fun t => { m with tokens := m.tokens ++ [t] })
      (fun hl => unmarshal_reads TokenMsg.handles hr hl) (fun _ _ => rfl)
  | label h => exact handles_str (sw := DocReq.field) (unk := DocReq.keep) (m := m) h (set := fun s => { m with labels := m.labels ++ [s] }) (fun _ _ => rfl)
  | fields h => exact handles_str (sw := DocReq.field) (unk := DocReq.keep) (m := m) h (set := fun s => { m with fields := s }) (fun _ _ => rfl)
  | forceUpdate h => exact handles_bool (sw := DocReq.field) (unk := DocReq.keep) (m := m) h (set := fun v => { m with forceUpdate := v }) (fun _ _ => rfl)
  | @unknown num p h hn =>
    obtain ⟨j, rfl⟩ : ∃ j, num = j + 8 := ⟨num - 8, by omega⟩
    exact handles_unknown (sw := DocReq.field) (unk := DocReq.keep) (m := m) h (fun _ _ _ => rfl)

/-- The bytes of doc.pb.go's `ExprMsg` that are kept although nothing is known about them. -/
abbrev ExprMsg.keep (m : ExprMsg) (u : Str) : ExprMsg := { m with unrecognized := m.unrecognized ++ u }

theorem ExprMsg.handles (m : ExprMsg) (bs : Str) (m' : ExprMsg) (h : ExprMsg.Adds m bs m') :
    Handles ExprMsg.field ExprMsg.keep m bs m' := by
  cases h with
  | must h => exact handles_str (sw := ExprMsg.field) (unk := ExprMsg.keep) (m := m) h (set := fun s => { m with must := m.must ++ [s] }) (fun _ _ => rfl)
  | should h => exact handles_str (sw := ExprMsg.field) (unk := ExprMsg.keep) (m := m) h (set := fun s => { m with should := m.should ++ [s] }) (fun _ _ => rfl)
  | notIn h => exact handles_str (sw := ExprMsg.field) (unk := ExprMsg.keep) (m := m) h (set := fun s => { m with notIn := m.notIn ++ [s] }) (fun _ _ => rfl)
  | @unknown num p h hn =>
    obtain ⟨j, rfl⟩ : ∃ j, num = j + 4 := ⟨num - 4, by omega⟩
    exact handles_unknown (sw := ExprMsg.field) (unk := ExprMsg.keep) (m := m) h (fun _ _ _ => rfl)

/-- The bytes of doc.pb.go's `LogicMsg` that are kept although nothing is known about them. -/
abbrev LogicMsg.keep (m : LogicMsg) (u : Str) : LogicMsg := { m with unrecognized := m.unrecognized ++ u }

theorem LogicMsg.handles (m : LogicMsg) (bs : Str) (m' : LogicMsg) (h : LogicMsg.Adds m bs m') :
    Handles LogicMsg.field LogicMsg.keep m bs m' := by
  cases h with
  | must h => exact handles_bool (sw := LogicMsg.field) (unk := LogicMsg.keep) (m := m) h (set := fun v => { m with must := v }) (fun _ _ => rfl)
  | should h => exact handles_bool (sw := LogicMsg.field) (unk := LogicMsg.keep) (m := m) h (set := fun v => { m with should := v }) (fun _ _ => rfl)
  | notIn h => exact handles_bool (sw := LogicMsg.field) (unk := LogicMsg.keep) (m := m) h (set := fun v => { m with notIn := v }) (fun _ _ => rfl)
  | expr h hr =>
    exact handles_msg (sw := LogicMsg.field) (unk := LogicMsg.keep) (m := m) h (dec := ExprMsg.unmarshal (m.expr.getD {})) (set := fun t => { m with expr := some t })
      (fun hl => unmarshal_reads ExprMsg.handles hr hl) (fun _ _ => rfl)
  | @unknown num p h hn =>
    obtain ⟨j, rfl⟩ : ∃ j, num = j + 5 := ⟨num - 5, by omega⟩
    exact handles_unknown (sw := LogicMsg.field) (unk := LogicMsg.keep) (m := m) h (fun _ _ _ => rfl)

/-- The bytes of doc.pb.go's `SearchMsg` that are kept although nothing is known about them. -/
abbrev SearchMsg.keep (m : SearchMsg) (u : Str) : SearchMsg := { m with unrecognized := m.unrecognized ++ u }

theorem SearchMsg.handles (m : SearchMsg) (bs : Str) (m' : SearchMsg) (h : SearchMsg.Adds m bs m') :
    Handles SearchMsg.field SearchMsg.keep m bs m' := by
  cases h with
  | id h => exact handles_str (sw := SearchMsg.field) (unk := SearchMsg.keep) (m := m) h (set := fun s => { m with id := s }) (fun _ _ => rfl)
  | query h => exact handles_str (sw := SearchMsg.field) (unk := SearchMsg.keep) (m := m) h (set := fun s => { m with query := s }) (fun _ _ => rfl)
  | outputOffset h => exact handles_num (sw := SearchMsg.field) (unk := SearchMsg.keep) (m := m) (w := 32) h (set := fun v => { m with outputOffset := v }) (fun _ _ => rfl)
  | maxOutputs h => exact handles_num (sw := SearchMsg.field) (unk := SearchMsg.keep) (m := m) (w := 32) h (set := fun v => { m with maxOutputs := v }) (fun _ _ => rfl)
  | time h => exact handles_str (sw := SearchMsg.field) (unk := SearchMsg.keep) (m := m) h (set := fun s => { m with time := s }) (fun _ _ => rfl)
  | @docId p e h he =>
    refine handles_len h (fun l k rest hk hl hl' => ?_)
    have hl2 : k.length + p.length + rest.length ≤ l := by simpa only [List.length_append] using hl
    have h1 := readLen_spec hk (l := l) (rest := p ++ rest) (by simp) (by simp only [List.length_append]; omega) hl'
    have h2 := entryLoop_spec he l ((p ++ rest).length + 1) rest (by simp only [List.length_append]; omega) hl'
      (by simp only [List.length_append]; omega)
    rw [show (l - rest.length : Nat) = l - (p ++ rest).length + p.length by simp only [List.length_append]; omega] at h2
    simp only [SearchMsg.field, SearchMsg.idsField, List.append_assoc]
    rw [if_neg (by omega), bind_of _ h1, bind_of _ h2, if_neg (by dsimp only; omega)]
    dsimp only
    rw [show ((l - (p ++ rest).length + p.length : Nat) : Int).toNat - (l - (p ++ rest).length) = p.length by omega]
    simp only [List.drop_left']
  | logic h hr =>
    exact handles_msg (sw := SearchMsg.field) (unk := SearchMsg.keep) (m := m) h (dec := LogicMsg.unmarshal (m.logic.getD {})) (set := fun t => { m with logic := some t })
      (fun hl => unmarshal_reads LogicMsg.handles hr hl) (fun _ _ => rfl)
  | @unknown num p h hn =>
    obtain ⟨j, rfl⟩ : ∃ j, num = j + 8 := ⟨num - 8, by omega⟩
    exact handles_unknown (sw := SearchMsg.field) (unk := SearchMsg.keep) (m := m) h (fun _ _ _ => rfl)

/-- The bytes of doc.pb.go's `AttriMsg` that are kept although nothing is known about them. -/
abbrev AttriMsg.keep (m : AttriMsg) (u : Str) : AttriMsg := { m with unrecognized := m.unrecognized ++ u }

theorem AttriMsg.handles (m : AttriMsg) (bs : Str) (m' : AttriMsg) (h : AttriMsg.Adds m bs m') :
    Handles AttriMsg.field AttriMsg.keep m bs m' := by
  cases h with
  | title h => exact handles_str (sw := AttriMsg.field) (unk := AttriMsg.keep) (m := m) h (set := fun s => { m with title := s }) (fun _ _ => rfl)
  | author h => exact handles_str (sw := AttriMsg.field) (unk := AttriMsg.keep) (m := m) h (set := fun s => { m with author := s }) (fun _ _ => rfl)
  | time h => exact handles_str (sw := AttriMsg.field) (unk := AttriMsg.keep) (m := m) h (set := fun s => { m with time := s }) (fun _ _ => rfl)
  | ts h => exact handles_num (sw := AttriMsg.field) (unk := AttriMsg.keep) (m := m) (w := 64) h (set := fun v => { m with ts := v }) (fun _ _ => rfl)
  | @unknown num p h hn =>
    obtain ⟨j, rfl⟩ : ∃ j, num = j + 5 := ⟨num - 5, by omega⟩
    exact handles_unknown (sw := AttriMsg.field) (unk := AttriMsg.keep) (m := m) h (fun _ _ _ => rfl)

/-- The bytes of doc.pb.go's `TextMsg` that are kept although nothing is known about them. -/
abbrev TextMsg.keep (m : TextMsg) (u : Str) : TextMsg := { m with unrecognized := m.unrecognized ++ u }

theorem TextMsg.handles (m : TextMsg) (bs : Str) (m' : TextMsg) (h : TextMsg.Adds m bs m') :
    Handles TextMsg.field TextMsg.keep m bs m' := by
  cases h with
  | id h => exact handles_str (sw := TextMsg.field) (unk := TextMsg.keep) (m := m) h (set := fun s => { m with id := s }) (fun _ _ => rfl)
  | content h => exact handles_str (sw := TextMsg.field) (unk := TextMsg.keep) (m := m) h (set := fun s => { m with content := s }) (fun _ _ => rfl)
  | attri h hr =>
    exact handles_msg (sw := TextMsg.field) (unk := TextMsg.keep) (m := m) h (dec := AttriMsg.unmarshal (m.attri.getD {})) (set := fun t => { m with attri := some t })
      (fun hl => unmarshal_reads AttriMsg.handles hr hl) (fun _ _ => rfl)
  | @unknown num p h hn =>
    obtain ⟨j, rfl⟩ : ∃ j, num = j + 4 := ⟨num - 4, by omega⟩
    exact handles_unknown (sw := TextMsg.field) (unk := TextMsg.keep) (m := m) h (fun _ _ _ => rfl)

/-- The bytes of doc.pb.go's `ReplyMsg` that are kept although nothing is known about them. -/
abbrev ReplyMsg.keep (m : ReplyMsg) (u : Str) : ReplyMsg := { m with unrecognized := m.unrecognized ++ u }

theorem ReplyMsg.handles (m : ReplyMsg) (bs : Str) (m' : ReplyMsg) (h : ReplyMsg.Adds m bs m') :
    Handles ReplyMsg.field ReplyMsg.keep m bs m' := by
  cases h with
  | code h => exact handles_num (sw := ReplyMsg.field) (unk := ReplyMsg.keep) (m := m) (w := 32) h (set := fun v => { m with code := v }) (fun _ _ => rfl)
  | len h => exact handles_num (sw := ReplyMsg.field) (unk := ReplyMsg.keep) (m := m) (w := 32) h (set := fun v => { m with len := v }) (fun _ _ => rfl)
  | timestamp h => exact handles_num (sw := ReplyMsg.field) (unk := ReplyMsg.keep) (m := m) (w := 64) h (set := fun v => { m with timestamp := v }) (fun _ _ => rfl)
  | doc h hr =>
    exact handles_msg (sw := ReplyMsg.field) (unk := ReplyMsg.keep) (m := m) h (dec := TextMsg.unmarshal {}) (set := fun t => { m with docs := m.docs ++ [t] })
      (fun hl => unmarshal_reads TextMsg.handles hr hl) (fun _ _ => rfl)
  | @unknown num p h hn =>
    obtain ⟨j, rfl⟩ : ∃ j, num = j + 5 := ⟨num - 5, by omega⟩
    exact handles_unknown (sw := ReplyMsg.field) (unk := ReplyMsg.keep) (m := m) h (fun _ _ _ => rfl)

end Riot.Wire
