import Verif.Proofs.Wire

/-!
# Reading arbitrary bytes

`Unmarshal` of any bytes ends, and where it crashes the bytes have a length near `2 ^ 63` in them.
-/

namespace Riot.Wire

/-- A call ends with a value that has `Q`, with an error, or, if `ff`, with a crash. -/
def Safe {α : Type} (ff : Prop) (Q : α → Prop) : Out α → Prop
  | .ok a => Q a
  | .err => True
  | .panic => ff
  | .hang => False

theorem Safe.bind {α β : Type} {ff : Prop} {Q : α → Prop} {R : β → Prop} {x : Out α} {f : α → Out β}
    (h : Safe ff Q x) (hf : ∀ a, Q a → Safe ff R (f a)) : Safe ff R (x.bind f) := by
  cases x with
  | ok a => exact hf a h
  | err => trivial
  | panic => exact h
  | hang => exact h.elim

theorem Safe.mono {α : Type} {ff : Prop} {Q R : α → Prop} {x : Out α} (h : Safe ff Q x) (hq : ∀ a, Q a → R a) :
    Safe ff R x := by
  cases x with
  | ok a => exact hq a h
  | err => trivial
  | panic => exact h
  | hang => exact h.elim

theorem readVarint_inv (w : Nat) : ∀ (bs : Str) (s : Nat) (acc : BitVec w) (ff : Prop),
    Safe ff (fun r : BitVec w × Str => ∃ (p : Str) (n : Nat), bs = p ++ r.2 ∧ Varint p n ∧ r.1 = acc ||| (BitVec.ofNat w n <<< s))
      (readVarint w s acc bs)
  | [], _, _, _ => trivial
  | b :: bs, s, acc, ff => by
    unfold readVarint
    by_cases h1 : s ≥ 64
    · rw [if_pos h1]; trivial
    rw [if_neg h1]
    by_cases h2 : b.val < 128
    · rw [if_pos h2]
      refine ⟨[b], b.val, rfl, .last b h2, ?_⟩
      rw [Nat.mod_eq_of_lt h2]
    · rw [if_neg h2]
      refine (readVarint_inv w bs (s + 7) _ ff).mono ?_
      rintro r ⟨p, n, hp, hv, hr⟩
      refine ⟨b :: p, _, by rw [hp]; rfl, .more b (by omega) hv, ?_⟩
      have hm : b.val % 128 = b.val - 128 := by have := b.isLt; omega
      rw [hr, shift_split w s _ n (by have := b.isLt; omega), hm, BitVec.or_assoc]

/-- A number just below `2 ^ 63` has four bytes 255 in a row. -/
theorem near_ff {p : Str} {n : Nat} (h : Varint p n) (hn : 2 ^ 63 - 2 ^ 28 ≤ n % 2 ^ 63) : FourFF p := by
  have step {q : Str} {m : Nat} (h : Varint q m) (hm : 128 ≤ m) :
      ∃ (b : Fin 256) (q' : Str) (m' : Nat), q = b :: q' ∧ 128 ≤ b.val ∧ m = b.val - 128 + 128 * m' ∧ Varint q' m' := by
    cases h with
    | last b hb => omega
    | @more b hb bs k t => exact ⟨b, bs, k, rfl, hb, rfl, t⟩
  obtain ⟨b0, p1, n1, rfl, h0, rfl, v1⟩ := step h (by omega)
  have := b0.isLt
  obtain ⟨b1, p2, n2, rfl, h1, rfl, v2⟩ := step v1 (by omega)
  have := b1.isLt
  obtain ⟨b2, p3, n3, rfl, h2, rfl, v3⟩ := step v2 (by omega)
  have := b2.isLt
  obtain ⟨b3, p4, n4, rfl, h3, rfl, v4⟩ := step v3 (by omega)
  have := b3.isLt
  have e4 : n4 % 2 ^ 35 = 2 ^ 35 - 1 := by omega
  clear hn h v1 v2 v3
  obtain ⟨b4, p5, n5, rfl, h4, rfl, v5⟩ := step v4 (by omega)
  have := b4.isLt
  have e5 : n5 % 2 ^ 28 = 2 ^ 28 - 1 := by omega
  have f4 : b4.val = 255 := by omega
  obtain ⟨b5, p6, n6, rfl, h5, rfl, v6⟩ := step v5 (by omega)
  have := b5.isLt
  have e6 : n6 % 2 ^ 21 = 2 ^ 21 - 1 := by omega
  have f5 : b5.val = 255 := by omega
  obtain ⟨b6, p7, n7, rfl, h6, rfl, v7⟩ := step v6 (by omega)
  have := b6.isLt
  have e7 : n7 % 2 ^ 14 = 2 ^ 14 - 1 := by omega
  have f6 : b6.val = 255 := by omega
  obtain ⟨b7, p8, n8, rfl, h7, rfl, v8⟩ := step v7 (by omega)
  have := b7.isLt
  have f7 : b7.val = 255 := by omega
  have g4 : b4 = 255 := Fin.ext f4
  have g5 : b5 = 255 := Fin.ext f5
  have g6 : b6 = 255 := Fin.ext f6
  have g7 : b7 = 255 := Fin.ext f7
  refine ⟨[b0, b1, b2, b3], p8, ?_⟩
  rw [g4, g5, g6, g7]; rfl

/-- The bytes `d` of the whole message allow a crash: a huge length in them (or more bytes than any computer has). -/
def MayCrash (d : Str) : Prop := HugeLength d ∨ 2 ^ 62 ≤ d.length

/-- Where a number is read, the rest is shorter, and a length that leads beyond `2 ^ 63` is seen in the bytes. -/
theorem read_len_safe {d bs : Str} (h : bs <:+: d) :
    Safe (MayCrash d) (fun r : BitVec 64 × Str => r.2 <:+ bs ∧ r.2.length < bs.length ∧
      (0 ≤ r.1.toInt → 2 ^ 63 ≤ (d.length : Int) + r.1.toInt → MayCrash d)) (readVarint 64 0 0 bs) := by
  refine (readVarint_inv 64 bs 0 0 (MayCrash d)).mono ?_
  rintro ⟨v, rest⟩ ⟨p, n, hp, hv, hr⟩
  have hpos := List.length_pos_of_ne_nil hv.ne_nil
  refine ⟨⟨p, hp.symm⟩, by simp only [hp, List.length_append]; omega, fun h0 h1 => ?_⟩
  refine .inl ⟨p, n, (List.IsPrefix.isInfix ⟨rest, hp.symm⟩).trans h, hv, ?_⟩
  simp only at hr h0 h1
  have hv' : v = BitVec.ofNat 64 n := by rw [hr]; simp
  rw [hv', BitVec.toInt_eq_toNat_cond, BitVec.toNat_ofNat] at h0 h1
  split at h0 <;> rename_i hc
  · rw [if_pos hc] at h1; omega
  · omega

theorem read_safe {d bs : Str} (w : Nat) (ff : Prop) (_ : bs <:+: d) :
    Safe ff (fun r : BitVec w × Str => r.2 <:+ bs ∧ r.2.length < bs.length) (readVarint w 0 0 bs) := by
  refine (readVarint_inv w bs 0 0 ff).mono ?_
  rintro ⟨v, rest⟩ ⟨p, n, hp, hv, hr⟩
  have hpos := List.length_pos_of_ne_nil hv.ne_nil
  exact ⟨⟨p, hp.symm⟩, by simp only [hp, List.length_append]; omega⟩

theorem passVarint_safe (ff : Prop) : ∀ (bs : Str) (s : Nat),
    Safe ff (fun r : Str => r.length < bs.length) (passVarint s bs)
  | [], _ => trivial
  | b :: bs, s => by
    unfold passVarint
    by_cases h1 : s ≥ 64
    · rw [if_pos h1]; trivial
    rw [if_neg h1]
    by_cases h2 : b.val < 128
    · rw [if_pos h2]; simp [Safe]
    · rw [if_neg h2]
      exact (passVarint_safe ff bs (s + 7)).mono fun r hr => by simp only [List.length_cons]; omega

theorem suffix_infix {a b d : Str} (h : a <:+ b) (h' : b <:+: d) : a <:+: d := h.isInfix.trans h'

theorem int64_range {x : Int} (h0 : 0 ≤ x) (h : x < 2 ^ 64) :
    (x < 2 ^ 63 ∧ int64 x = x) ∨ (2 ^ 63 ≤ x ∧ int64 x = x - 2 ^ 64) := by
  unfold int64; omega

theorem toInt_lt (v : BitVec 64) : v.toInt < 2 ^ 63 := by
  rw [BitVec.toInt_eq_toNat_cond]; have := v.isLt; split <;> omega

theorem readLen_safe {d bs : Str} {l : Nat} (h : bs <:+: d) (hl : l ≤ d.length) (hd : d.length < 2 ^ 63) :
    Safe (MayCrash d) (fun r : Int × Str => r.2 <:+ bs ∧ r.2.length < bs.length ∧ r.1 ≤ l ∧
      (r.1 < (l - r.2.length : Nat) → MayCrash d)) (readLen l bs) := by
  unfold readLen
  refine (read_len_safe h).bind ?_
  rintro ⟨v, rest⟩ ⟨h1, h2, h3⟩
  simp only at h1 h2 h3 ⊢
  by_cases hv : v.toInt < 0
  · rw [if_pos hv]; trivial
  rw [if_neg hv]
  by_cases hp : int64 ((l - rest.length : Nat) + v.toInt) > l
  · rw [if_pos hp]; trivial
  rw [if_neg hp]
  refine ⟨h1, h2, by simpa using hp, fun hlt => ?_⟩
  simp only at hlt
  have := toInt_lt v
  have hle : l - rest.length ≤ d.length := by omega
  rcases int64_range (x := (l - rest.length : Nat) + v.toInt) (by omega) (by omega) with ⟨ha, hb⟩ | ⟨ha, hb⟩
  · omega
  · exact h3 (by omega) (by omega)

theorem takeLen_safe {d bs : Str} {l : Nat} (h : bs <:+: d) (hl : l ≤ d.length) (hd : d.length < 2 ^ 63) :
    Safe (MayCrash d) (fun r : Str × Str => r.1 <:+: d ∧ r.2 <:+ bs ∧ r.2.length < bs.length) (takeLen l bs) := by
  unfold takeLen
  refine (readLen_safe h hl hd).bind ?_
  rintro ⟨post, rest⟩ ⟨h1, h2, h3, h4⟩
  simp only at h1 h2 h3 h4 ⊢
  by_cases hp : post < (l - rest.length : Nat) ∨ (l : Int) < post
  · rw [if_pos hp]; exact h4 (by omega)
  rw [if_neg hp]
  refine ⟨?_, ?_, ?_⟩
  · exact (List.take_prefix _ _).isInfix.trans (suffix_infix h1 h)
  · exact (List.drop_suffix _ _).trans h1
  · simp only [List.length_drop]; omega

/-- What `skipDoc` gives: a positive number, or, after an overflow, one that is far below zero. -/
def Skipped (d bs : Str) (k : Int) : Prop :=
  (0 < k ∧ k + ((d.length - bs.length : Nat) : Int) < 2 ^ 64 ∧
      (2 ^ 63 ≤ k + ((d.length - bs.length : Nat) : Int) → MayCrash d)) ∨
    (MayCrash d ∧ - 2 ^ 63 ≤ k ∧ k + ((d.length - bs.length : Nat) : Int) < 0)

theorem skip_safe {d : Str} (hd : d.length < 2 ^ 63) : ∀ n : Nat,
    (∀ bs : Str, bs <:+: d → bs ≠ [] → 2 * bs.length ≤ n → Safe (MayCrash d) (Skipped d bs) (skipDoc n bs)) ∧
    (∀ g bs : Str, g <:+: d → bs <:+ g → 2 * bs.length + 1 ≤ n →
      Safe (MayCrash d) (fun k : Int => 0 < k ∧ k ≤ (g.length : Int)) (skipGroup n g bs)) := by
  intro n
  induction n with
  | zero =>
    refine ⟨fun bs _ h0 hn => ?_, fun g bs _ _ hn => by omega⟩
    exact absurd (List.length_pos_of_ne_nil h0) (by omega)
  | succ n ih =>
    obtain ⟨ih1, ih2⟩ := ih
    constructor
    · intro bs hbs h0 hn
      obtain ⟨b, t, rfl⟩ := List.exists_cons_of_ne_nil h0
      rw [skipDoc]
      have hlen := hbs.length_le
      refine (read_len_safe hbs).bind ?_
      rintro ⟨v, rest⟩ ⟨h1, h2, -⟩
      simp only [List.length_cons] at h1 h2 hn hlen ⊢
      have hrest : rest <:+: d := suffix_infix h1 hbs
      have close : ∀ k : Nat, 0 < k → k ≤ t.length + 1 + 8 → Skipped d (b :: t) (k : Int) := by
        intro k hk hk'
        refine .inl ⟨by omega, by simp only [List.length_cons]; omega, fun h => .inr ?_⟩
        simp only [List.length_cons] at h
        omega
      split
      · refine (passVarint_safe _ rest 0).bind ?_
        intro r hr
        exact close _ (by omega) (by omega)
      · exact close _ (by omega) (by omega)
      · refine (read_len_safe hrest).bind ?_
        rintro ⟨q, more⟩ ⟨k1, k2, k3⟩
        simp only at k1 k2 k3 ⊢
        by_cases hv : q.toInt < 0
        · rw [if_pos hv]; trivial
        rw [if_neg hv]
        have := toInt_lt q
        have hx : Skipped d (b :: t) (int64 ((t.length + 1 - more.length : Nat) + q.toInt)) := by
          rcases int64_range (x := (t.length + 1 - more.length : Nat) + q.toInt) (by omega) (by omega) with ⟨ha, hb⟩ | ⟨ha, hb⟩
          · rw [hb]
            refine .inl ⟨by omega, by simp only [List.length_cons]; omega, fun h => ?_⟩
            simp only [List.length_cons] at h
            exact k3 (by omega) (by omega)
          · rw [hb]
            refine .inr ⟨k3 (by omega) (by omega), by omega, ?_⟩
            simp only [List.length_cons]
            omega
        exact hx
      · refine (ih2 (b :: t) rest hbs h1 (by omega)).mono ?_
        rintro k ⟨hk, hk'⟩
        simp only [List.length_cons] at hk'
        lift k to Nat using (by omega)
        exact close k (by omega) (by omega)
      · exact close _ (by omega) (by omega)
      · exact close _ (by omega) (by omega)
      · trivial
    · intro g bs hg hbs hn
      rw [skipGroup]
      have hbsd : bs <:+: d := suffix_infix hbs hg
      have hlen := hg.length_le
      have hlen' := hbs.length_le
      refine (read_safe 64 _ hbsd).bind ?_
      rintro ⟨v, rest⟩ ⟨h1, h2⟩
      simp only at h1 h2 ⊢
      by_cases h4 : v.toNat % 8 = 4
      · rw [if_pos h4]
        have : (0 : Int) < (g.length - rest.length : Nat) ∧ ((g.length - rest.length : Nat) : Int) ≤ g.length := by omega
        exact this
      rw [if_neg h4]
      have hne : bs ≠ [] := by rintro rfl; simp at h2
      refine (ih1 bs hbsd hne (by omega)).bind ?_
      intro k hk
      rcases hk with ⟨hk, hk2, hk'⟩ | ⟨hk, hk', hk''⟩
      · by_cases hbig : 2 ^ 63 ≤ ((g.length - bs.length : Nat) : Int) + k
        · have hc : MayCrash d := hk' (by omega)
          by_cases hneg : int64 ((g.length - bs.length : Nat) + k) < 0
          · rw [if_pos hneg]; exact hc
          · exfalso
            apply hneg
            unfold int64
            omega
        · rw [int64_small (by omega) (by omega), if_neg (by omega)]
          refine ih2 g _ hg (List.drop_suffix _ _) ?_
          simp only [List.length_drop]
          omega
      · have : int64 ((g.length - bs.length : Nat) + k) = (g.length - bs.length : Nat) + k := by unfold int64; omega
        rw [this, if_pos (by omega)]
        exact hk

theorem unknownField_safe {d bs : Str} {l : Nat} (h : bs <:+: d) (hne : bs ≠ []) (hb : bs.length ≤ l)
    (hl : l ≤ d.length) (hd : d.length < 2 ^ 63) (bound : Int) (hbound : bound ≤ l) :
    Safe (MayCrash d) (fun r : Str × Str => r.2 <:+ bs ∧ r.2.length < bs.length) (unknownField l bound bs) := by
  unfold unknownField
  have hpos := List.length_pos_of_ne_nil hne
  refine ((skip_safe hd (2 * bs.length + 2)).1 bs h hne (by omega)).bind ?_
  intro k hk
  by_cases h0 : k < 0
  · rw [if_pos h0]; trivial
  rw [if_neg h0]
  by_cases h1 : int64 ((l - bs.length : Nat) + k) > bound
  · rw [if_pos h1]; trivial
  rw [if_neg h1]
  rcases hk with ⟨hk, hk2, hk'⟩ | ⟨hk, hk', hk''⟩
  · by_cases h2 : int64 ((l - bs.length : Nat) + k) < (l - bs.length : Nat) ∨ (l : Int) < int64 ((l - bs.length : Nat) + k)
    · rw [if_pos h2]
      refine hk' ?_
      rcases int64_range (x := (l - bs.length : Nat) + k) (by omega) (by omega) with ⟨ha, hb⟩ | ⟨ha, hb⟩ <;> omega
    · rw [if_neg h2]
      refine ⟨List.drop_suffix _ _, ?_⟩
      simp only [List.length_drop]
      omega
  · omega

/-! ## The loop over the fields -/

/-- The cases of a message read arbitrary bytes safely. -/
def Calm {M : Type} (d : Str) (sw : Switch M) : Prop :=
  ∀ (l : Nat) (m : M) (num wt : Nat) (bs : Str) (x : Out (M × Str)), sw l m num wt bs = some x → bs <:+: d →
    bs.length ≤ l → l ≤ d.length → Safe (MayCrash d) (fun q : M × Str => q.2 <:+ bs) x

variable {M : Type} {sw : Switch M} {unk : M → Str → M}

theorem decodeLoop_safe {d : Str} (hd : d.length < 2 ^ 63) (hsw : Calm d sw) {l : Nat} (hl : l ≤ d.length) :
    ∀ (n : Nat) (m : M) (bs : Str), bs <:+: d → bs.length ≤ l → bs.length ≤ n →
      Safe (MayCrash d) (fun _ => True) (decodeLoop sw unk l n m bs) := by
  intro n
  induction n with
  | zero =>
    intro m bs h hb hn
    cases bs with
    | nil => simp [decodeLoop, Safe]
    | cons b t => simp at hn
  | succ n ih =>
    intro m bs h hb hn
    cases bs with
    | nil => simp [decodeLoop, Safe]
    | cons b t =>
      rw [decodeLoop]
      refine (read_safe 64 _ h).bind ?_
      rintro ⟨v, rest⟩ ⟨h1, h2⟩
      simp only [List.length_cons] at h1 h2 hb hn ⊢
      have hrest := suffix_infix h1 h
      by_cases h4 : v.toNat % 8 = 4
      · rw [if_pos h4]; trivial
      rw [if_neg h4]
      by_cases h5 : ((v >>> 3).setWidth 32).toInt ≤ 0
      · rw [if_pos h5]; trivial
      rw [if_neg h5]
      split
      · rename_i x hx
        refine (hsw _ _ _ _ _ _ hx hrest (by omega) hl).bind ?_
        rintro ⟨m', q⟩ hq
        simp only at hq ⊢
        have := hq.length_le
        exact ih m' q (suffix_infix hq hrest) (by omega) (by omega)
      · refine (unknownField_safe h (by simp) (by simp only [List.length_cons]; omega) hl hd l (le_refl _)).bind ?_
        rintro ⟨u, q⟩ ⟨hq, hq'⟩
        simp only [List.length_cons] at hq hq' ⊢
        exact ih _ q (suffix_infix hq h) (by omega) (by omega)

theorem decode_safe {d : Str} (hd : d.length < 2 ^ 63) (hsw : Calm d sw) (m : M) {p : Str} (hp : p <:+: d) :
    Safe (MayCrash d) (fun _ => True) (decode sw unk m p) :=
  decodeLoop_safe hd hsw hp.length_le _ m p hp (le_refl _) (by omega)

theorem strField_safe {d bs : Str} {l : Nat} (h : bs <:+: d) (hl : l ≤ d.length) (hd : d.length < 2 ^ 63) (wt : Nat)
    (set : Str → M) : Safe (MayCrash d) (fun q : M × Str => q.2 <:+ bs) (strField l wt bs set) := by
  unfold strField
  by_cases hw : wt ≠ 2
  · rw [if_pos hw]; trivial
  rw [if_neg hw]
  exact (takeLen_safe h hl hd).bind fun r hr => hr.2.1

theorem msgField_safe {N : Type} {d bs : Str} {l : Nat} (h : bs <:+: d) (hl : l ≤ d.length) (hd : d.length < 2 ^ 63)
    (wt : Nat) {dec : Str → Out N} (hdec : ∀ p : Str, p <:+: d → Safe (MayCrash d) (fun _ => True) (dec p)) (set : N → M) :
    Safe (MayCrash d) (fun q : M × Str => q.2 <:+ bs) (msgField l wt bs dec set) := by
  unfold msgField
  by_cases hw : wt ≠ 2
  · rw [if_pos hw]; trivial
  rw [if_neg hw]
  exact (takeLen_safe h hl hd).bind fun r hr => (hdec r.1 hr.1).bind fun n _ => hr.2.1

theorem numField_safe {d bs : Str} (w : Nat) (h : bs <:+: d) (wt : Nat) (set : BitVec w → M) :
    Safe (MayCrash d) (fun q : M × Str => q.2 <:+ bs) (numField w wt bs set) := by
  unfold numField
  by_cases hw : wt ≠ 0
  · rw [if_pos hw]; trivial
  rw [if_neg hw]
  exact (read_safe w _ h).bind fun r hr => hr.1

theorem packedLoop_safe {d : Str} (l : Nat) (post : Int) :
    ∀ (n : Nat) (acc : List (BitVec 32)) (bs : Str), bs <:+: d → bs.length < n →
      Safe (MayCrash d) (fun q : List (BitVec 32) × Str => q.2 <:+ bs) (packedLoop l post n acc bs) := by
  intro n
  induction n with
  | zero => intro acc bs _ hn; omega
  | succ n ih =>
    intro acc bs h hn
    rw [packedLoop]
    by_cases hp : ((l - bs.length : Nat) : Int) < post
    · rw [if_pos hp]
      refine (read_safe 32 _ h).bind ?_
      rintro ⟨v, rest⟩ ⟨h1, h2⟩
      simp only at h1 h2 ⊢
      exact (ih _ rest (suffix_infix h1 h) (by omega)).mono fun q hq => hq.trans h1
    · rw [if_neg hp]; exact List.suffix_refl _

theorem locField_safe {d bs : Str} {l : Nat} (h : bs <:+: d) (hl : l ≤ d.length) (hd : d.length < 2 ^ 63) (m : TokenMsg)
    (wt : Nat) : Safe (MayCrash d) (fun q : TokenMsg × Str => q.2 <:+ bs) (m.locField l wt bs) := by
  unfold TokenMsg.locField
  by_cases h0 : wt = 0
  · rw [if_pos h0]; exact (read_safe 32 _ h).bind fun r hr => hr.1
  rw [if_neg h0]
  by_cases h2 : wt = 2
  · rw [if_pos h2]
    refine (readLen_safe h hl hd).bind ?_
    rintro ⟨post, rest⟩ ⟨h1, -⟩
    simp only at h1 ⊢
    exact (packedLoop_safe l post _ _ rest (suffix_infix h1 h) (by omega)).bind fun q hq => hq.trans h1
  · rw [if_neg h2]; trivial

theorem entryLoop_safe {d : Str} {l : Nat} (hl : l ≤ d.length) (hd : d.length < 2 ^ 63) (post : Int) (hpost : post ≤ l) :
    ∀ (n : Nat) (e : Str × Bool) (bs : Str), bs <:+: d → bs.length ≤ l → bs.length < n →
      Safe (MayCrash d) (fun _ => True) (entryLoop l post n e bs) := by
  intro n
  induction n with
  | zero => intro e bs _ _ hn; omega
  | succ n ih =>
    intro e bs h hb hn
    rw [entryLoop]
    by_cases hp : ((l - bs.length : Nat) : Int) < post
    · rw [if_pos hp]
      refine (read_safe 64 _ h).bind ?_
      rintro ⟨v, rest⟩ ⟨h1, h2⟩
      simp only at h1 h2 ⊢
      have hrest := suffix_infix h1 h
      by_cases hk : ((v >>> 3).setWidth 32).toNat = 1
      · rw [if_pos hk]
        refine (takeLen_safe hrest hl hd).bind ?_
        rintro ⟨s, q⟩ ⟨-, q1, q2⟩
        simp only at q1 q2 ⊢
        exact ih _ q (suffix_infix q1 hrest) (by omega) (by omega)
      rw [if_neg hk]
      by_cases hk2 : ((v >>> 3).setWidth 32).toNat = 2
      · rw [if_pos hk2]
        refine (read_safe 64 _ hrest).bind ?_
        rintro ⟨s, q⟩ ⟨q1, q2⟩
        simp only at q1 q2 ⊢
        exact ih _ q (suffix_infix q1 hrest) (by omega) (by omega)
      rw [if_neg hk2]
      have hne : bs ≠ [] := by rintro rfl; simp at h2
      refine (unknownField_safe h hne hb hl hd post hpost).bind ?_
      rintro ⟨u, q⟩ ⟨q1, q2⟩
      simp only at q1 q2 ⊢
      exact ih _ q (suffix_infix q1 h) (by omega) (by omega)
    · rw [if_neg hp]; trivial

theorem idsField_safe {d bs : Str} {l : Nat} (h : bs <:+: d) (hb : bs.length ≤ l) (hl : l ≤ d.length)
    (hd : d.length < 2 ^ 63) (m : SearchMsg) (wt : Nat) :
    Safe (MayCrash d) (fun q : SearchMsg × Str => q.2 <:+ bs) (m.idsField l wt bs) := by
  unfold SearchMsg.idsField
  by_cases hw : wt ≠ 2
  · rw [if_pos hw]; trivial
  rw [if_neg hw]
  refine (readLen_safe h hl hd).bind ?_
  rintro ⟨post, rest⟩ ⟨h1, h2, h3, h4⟩
  simp only at h1 h2 h3 h4 ⊢
  refine (entryLoop_safe hl hd post h3 _ _ rest (suffix_infix h1 h) (by omega) (by omega)).bind ?_
  intro e _
  by_cases hp : post < (l - rest.length : Nat)
  · rw [if_pos hp]; exact h4 hp
  · rw [if_neg hp]; exact (List.drop_suffix _ _).trans h1

/-! ## The messages -/

variable {d : Str}

theorem HeartReq.calm (_hd : d.length < 2 ^ 63) : Calm d HeartReq.field := by
  intro l m num wt bs x hx h hb hl
  simp only [HeartReq.field] at hx
  split at hx
  · cases hx; exact numField_safe _ h _ _
  · cases hx

theorem HeartReq.safe (hd : d.length < 2 ^ 63) (m : HeartReq) {p : Str} (hp : p <:+: d) :
    Safe (MayCrash d) (fun _ => True) (m.unmarshal p) := decode_safe hd (HeartReq.calm hd) m hp

theorem Reply.calm (_hd : d.length < 2 ^ 63) : Calm d Reply.field := by
  intro l m num wt bs x hx h hb hl
  simp only [Reply.field] at hx
  split at hx
  · cases hx; exact numField_safe _ h _ _
  · cases hx

theorem Reply.safe (hd : d.length < 2 ^ 63) (m : Reply) {p : Str} (hp : p <:+: d) :
    Safe (MayCrash d) (fun _ => True) (m.unmarshal p) := decode_safe hd (Reply.calm hd) m hp

theorem DeleteReq.calm (hd : d.length < 2 ^ 63) : Calm d DeleteReq.field := by
  intro l m num wt bs x hx h hb hl
  simp only [DeleteReq.field] at hx
  split at hx
  · cases hx; exact strField_safe h hl hd _ _
  · cases hx

theorem DeleteReq.safe (hd : d.length < 2 ^ 63) (m : DeleteReq) {p : Str} (hp : p <:+: d) :
    Safe (MayCrash d) (fun _ => True) (m.unmarshal p) := decode_safe hd (DeleteReq.calm hd) m hp

theorem TokenMsg.calm (hd : d.length < 2 ^ 63) : Calm d TokenMsg.field := by
  intro l m num wt bs x hx h hb hl
  simp only [TokenMsg.field] at hx
  split at hx
  · cases hx; exact strField_safe h hl hd _ _
  · cases hx; exact locField_safe h hl hd m wt
  · cases hx

theorem TokenMsg.safe (hd : d.length < 2 ^ 63) (m : TokenMsg) {p : Str} (hp : p <:+: d) :
    Safe (MayCrash d) (fun _ => True) (m.unmarshal p) := decode_safe hd (TokenMsg.calm hd) m hp

theorem DocReq.calm (hd : d.length < 2 ^ 63) : Calm d DocReq.field := by
  intro l m num wt bs x hx h hb hl
  simp only [DocReq.field] at hx
  split at hx
  · cases hx; exact strField_safe h hl hd _ _
  · cases hx; exact strField_safe h hl hd _ _
  · cases hx; exact strField_safe h hl hd _ _
  · cases hx; exact msgField_safe h hl hd _ (fun p hp => TokenMsg.safe hd _ hp) _
  · cases hx; exact strField_safe h hl hd _ _
  · cases hx; exact strField_safe h hl hd _ _
  · cases hx; exact numField_safe _ h _ _
  · cases hx

theorem DocReq.safe (hd : d.length < 2 ^ 63) (m : DocReq) {p : Str} (hp : p <:+: d) :
    Safe (MayCrash d) (fun _ => True) (m.unmarshal p) := decode_safe hd (DocReq.calm hd) m hp

theorem ExprMsg.calm (hd : d.length < 2 ^ 63) : Calm d ExprMsg.field := by
  intro l m num wt bs x hx h hb hl
  simp only [ExprMsg.field] at hx
  split at hx
  · cases hx; exact strField_safe h hl hd _ _
  · cases hx; exact strField_safe h hl hd _ _
  · cases hx; exact strField_safe h hl hd _ _
  · cases hx

theorem ExprMsg.safe (hd : d.length < 2 ^ 63) (m : ExprMsg) {p : Str} (hp : p <:+: d) :
    Safe (MayCrash d) (fun _ => True) (m.unmarshal p) := decode_safe hd (ExprMsg.calm hd) m hp

theorem LogicMsg.calm (hd : d.length < 2 ^ 63) : Calm d LogicMsg.field := by
  intro l m num wt bs x hx h hb hl
  simp only [LogicMsg.field] at hx
  split at hx
  · cases hx; exact numField_safe _ h _ _
  · cases hx; exact numField_safe _ h _ _
  · cases hx; exact numField_safe _ h _ _
  · cases hx; exact msgField_safe h hl hd _ (fun p hp => ExprMsg.safe hd _ hp) _
  · cases hx

theorem LogicMsg.safe (hd : d.length < 2 ^ 63) (m : LogicMsg) {p : Str} (hp : p <:+: d) :
    Safe (MayCrash d) (fun _ => True) (m.unmarshal p) := decode_safe hd (LogicMsg.calm hd) m hp

theorem SearchMsg.calm (hd : d.length < 2 ^ 63) : Calm d SearchMsg.field := by
  intro l m num wt bs x hx h hb hl
  simp only [SearchMsg.field] at hx
  split at hx
  · cases hx; exact strField_safe h hl hd _ _
  · cases hx; exact strField_safe h hl hd _ _
  · cases hx; exact numField_safe _ h _ _
  · cases hx; exact numField_safe _ h _ _
  · cases hx; exact strField_safe h hl hd _ _
  · cases hx; exact idsField_safe h hb hl hd m wt
  · cases hx; exact msgField_safe h hl hd _ (fun p hp => LogicMsg.safe hd _ hp) _
  · cases hx

theorem SearchMsg.safe (hd : d.length < 2 ^ 63) (m : SearchMsg) {p : Str} (hp : p <:+: d) :
    Safe (MayCrash d) (fun _ => True) (m.unmarshal p) := decode_safe hd (SearchMsg.calm hd) m hp

theorem AttriMsg.calm (hd : d.length < 2 ^ 63) : Calm d AttriMsg.field := by
  intro l m num wt bs x hx h hb hl
  simp only [AttriMsg.field] at hx
  split at hx
  · cases hx; exact strField_safe h hl hd _ _
  · cases hx; exact strField_safe h hl hd _ _
  · cases hx; exact strField_safe h hl hd _ _
  · cases hx; exact numField_safe _ h _ _
  · cases hx

theorem AttriMsg.safe (hd : d.length < 2 ^ 63) (m : AttriMsg) {p : Str} (hp : p <:+: d) :
    Safe (MayCrash d) (fun _ => True) (m.unmarshal p) := decode_safe hd (AttriMsg.calm hd) m hp

theorem TextMsg.calm (hd : d.length < 2 ^ 63) : Calm d TextMsg.field := by
  intro l m num wt bs x hx h hb hl
  simp only [TextMsg.field] at hx
  split at hx
  · cases hx; exact strField_safe h hl hd _ _
  · cases hx; exact strField_safe h hl hd _ _
  · cases hx; exact msgField_safe h hl hd _ (fun p hp => AttriMsg.safe hd _ hp) _
  · cases hx

theorem TextMsg.safe (hd : d.length < 2 ^ 63) (m : TextMsg) {p : Str} (hp : p <:+: d) :
    Safe (MayCrash d) (fun _ => True) (m.unmarshal p) := decode_safe hd (TextMsg.calm hd) m hp

theorem ReplyMsg.calm (hd : d.length < 2 ^ 63) : Calm d ReplyMsg.field := by
  intro l m num wt bs x hx h hb hl
  simp only [ReplyMsg.field] at hx
  split at hx
  · cases hx; exact numField_safe _ h _ _
  · cases hx; exact numField_safe _ h _ _
  · cases hx; exact numField_safe _ h _ _
  · cases hx; exact msgField_safe h hl hd _ (fun p hp => TextMsg.safe hd _ hp) _
  · cases hx

theorem ReplyMsg.safe (hd : d.length < 2 ^ 63) (m : ReplyMsg) {p : Str} (hp : p <:+: d) :
    Safe (MayCrash d) (fun _ => True) (m.unmarshal p) := decode_safe hd (ReplyMsg.calm hd) m hp

end Riot.Wire
