import Verif.Proofs.Wire

/-! # Writing the wire format -/

namespace Riot.Wire

/-- `f` writes exactly the bytes `bs`, if there is room for them. -/
def Writes (f : Buf → Option Buf) (bs : Str) : Prop :=
  ∀ w : Buf, bs.length ≤ w.room → f w = some { done := w.done ++ bs, room := w.room - bs.length }

theorem Writes.bind {f g : Buf → Option Buf} {a b : Str} (hf : Writes f a) (hg : Writes g b) :
    Writes (fun w => (f w).bind g) (a ++ b) := by
  intro w hw
  simp only [List.length_append] at hw ⊢
  rw [hf w (by omega), Option.bind_some, hg _ (by simp only; omega)]
  simp only [List.append_assoc, Nat.sub_sub]

theorem Writes.map_copy {f : Buf → Option Buf} {a : Str} (hf : Writes f a) (s : Str) :
    Writes (fun w => (f w).map (Buf.copy s)) (a ++ s) := by
  intro w hw
  simp only [List.length_append] at hw ⊢
  rw [hf w (by omega), Option.map_some]
  simp only [Buf.copy, List.append_assoc, Nat.sub_sub]
  rw [List.take_of_length_le (by omega)]

theorem writes_put (b : Fin 256) : Writes (Buf.put b) [b] := by
  intro w hw
  obtain ⟨d, r⟩ := w
  simp only [List.length_singleton] at hw ⊢
  obtain ⟨k, rfl⟩ : ∃ k, r = k + 1 := ⟨r - 1, by omega⟩
  simp [Buf.put]

theorem writes_none : Writes (fun w => some w) [] := by
  intro w _; simp

theorem writes_some_eq : Writes some [] := writes_none

/-- The varint that the code writes. -/
def enc : Nat → Nat → Str
  | 0, _ => []
  | n + 1, v => if v ≥ 128 then Fin.ofNat 256 (v % 128 + 128) :: enc n (v / 128) else [Fin.ofNat 256 v]

theorem enc_spec : ∀ (n v : Nat), v < 128 ^ (n + 1) →
    Writes (putVarint (n + 1) v) (enc (n + 1) v) ∧ Varint (enc (n + 1) v) v ∧
      (enc (n + 1) v).length = sovLoop (n + 1) v ∧ (enc (n + 1) v).length ≤ n + 1
  | 0, v, hv => by
    have hv' : v < 128 := by simpa using hv
    have e : enc 1 v = [Fin.ofNat 256 v] := by rw [enc, if_neg (by omega)]
    have h1 : Writes (putVarint 1 v) [Fin.ofNat 256 v] := by
      intro w hw
      rw [putVarint, if_neg (by omega)]
      exact writes_put _ w hw
    have h2 : Varint [Fin.ofNat 256 v] v := by
      have := Varint.last (Fin.ofNat 256 v) (by simp only [Fin.val_ofNat]; omega)
      simpa only [Fin.val_ofNat, Nat.mod_eq_of_lt (show v < 256 by omega)] using this
    rw [e]
    refine ⟨h1, h2, ?_, by simp⟩
    rw [sovLoop, if_pos (by omega)]; rfl
  | n + 1, v, hv => by
    by_cases hb : v ≥ 128
    · have hlt : v / 128 < 128 ^ (n + 1) := by
        rw [Nat.div_lt_iff_lt_mul (by omega)]
        calc v < 128 ^ (n + 1 + 1) := hv
          _ = 128 ^ (n + 1) * 128 := by rw [pow_succ]
      obtain ⟨h1, h2, h3, h4⟩ := enc_spec n (v / 128) hlt
      have e : enc (n + 2) v = Fin.ofNat 256 (v % 128 + 128) :: enc (n + 1) (v / 128) := by rw [enc, if_pos hb]
      rw [e]
      refine ⟨?_, ?_, ?_, by simp only [List.length_cons]; omega⟩
      · intro w hw
        rw [putVarint, if_pos hb]
        exact (writes_put (Fin.ofNat 256 (v % 128 + 128))).bind h1 w hw
      · have hval : (Fin.ofNat 256 (v % 128 + 128)).val = v % 128 + 128 := by simp only [Fin.val_ofNat]; omega
        have := Varint.more (Fin.ofNat 256 (v % 128 + 128)) (by omega) h2
        rw [hval, show v % 128 + 128 - 128 + 128 * (v / 128) = v by omega] at this
        exact this
      · rw [sovLoop, if_neg (by omega), List.length_cons, h3]; omega
    · have e : enc (n + 2) v = [Fin.ofNat 256 v] := by rw [enc, if_neg hb]
      rw [e]
      refine ⟨?_, ?_, ?_, by simp⟩
      · intro w hw
        rw [putVarint, if_neg hb]
        exact writes_put _ w hw
      · have := Varint.last (Fin.ofNat 256 v) (by simp only [Fin.val_ofNat]; omega)
        simpa only [Fin.val_ofNat, Nat.mod_eq_of_lt (show v < 256 by omega)] using this
      · rw [sovLoop, if_pos (by omega)]; rfl

/-- Every number of 64 bits is written as a varint of the size `sov` gives. -/
theorem varint_written {v : Nat} (hv : v < 2 ^ 64) :
    ∃ k : Str, Writes (putVarint 10 v) k ∧ IsVarint k v ∧ k.length = sov v := by
  obtain ⟨h1, h2, h3, h4⟩ := enc_spec 9 v (lt_of_lt_of_le hv (by norm_num))
  exact ⟨_, h1, ⟨h2, h4, hv⟩, h3⟩

/-- The tag bytes of the fields 1 to 15. -/
theorem tag_varint {n : Nat} (h : n < 128) : IsVarint [Fin.ofNat 256 n] n := by
  have := Varint.last (Fin.ofNat 256 n) (by simp only [Fin.val_ofNat]; omega)
  rw [show (Fin.ofNat 256 n).val = n by simp only [Fin.val_ofNat]; omega] at this
  exact ⟨this, by simp, by omega⟩

/-! ## Fields -/

/-- The part of a message written by `f` has `size` bytes, and takes every message with `pre` to the one `set` gives. -/
def Part {M : Type} (adds : M → Str → M → Prop) (f : Buf → Option Buf) (size : Nat) (pre : M → Prop) (set : M → M) : Prop :=
  ∃ bs : Str, Writes f bs ∧ bs.length = size ∧ ∀ m, pre m → Reads adds m bs (set m)

theorem Reads.append {M : Type} {adds : M → Str → M → Prop} {m m' m'' : M} {a b : Str} (h : Reads adds m a m')
    (h' : Reads adds m' b m'') : Reads adds m (a ++ b) m'' := by
  induction h with
  | nil m => exact h'
  | cons h t ih => rw [List.append_assoc]; exact Reads.cons h (ih h')

theorem Reads.one {M : Type} {adds : M → Str → M → Prop} {m m' : M} {bs : Str} (h : adds m bs m') : Reads adds m bs m' := by
  have := Reads.cons h (Reads.nil m')
  simpa using this

variable {M : Type} {adds : M → Str → M → Prop}

theorem Part.then {f g : Buf → Option Buf} {a b : Nat} {p q : M → Prop} {s t : M → M} (hf : Part adds f a p s)
    (hg : Part adds g b q t) (hq : ∀ m, p m → q (s m)) : Part adds (fun w => (f w).bind g) (a + b) p (fun m => t (s m)) := by
  obtain ⟨x, hx, hxl, hxr⟩ := hf
  obtain ⟨y, hy, hyl, hyr⟩ := hg
  exact ⟨x ++ y, hx.bind hy, by simp [hxl, hyl], fun m hm => (hxr m hm).append (hyr _ (hq m hm))⟩

/-- The field with a string. -/
theorem record_len {num : Nat} (h : 1 ≤ num ∧ num < 16) {s : Str} (hs : s.length < 2 ^ 64) :
    ∃ bs : Str, Writes (putStr (Fin.ofNat 256 (8 * num + 2)) s) bs ∧ bs.length = lenSize s.length ∧
      Record bs num (.len s) := by
  obtain ⟨k, hk, hkv, hkl⟩ := varint_written hs
  have ht := tag_varint (n := 8 * num + 2) (by omega)
  refine ⟨[Fin.ofNat 256 (8 * num + 2)] ++ k ++ s, ?_, ?_, Record.len (by omega) ht hkv⟩
  · exact ((writes_put (Fin.ofNat 256 (8 * num + 2))).bind hk).map_copy s
  · simp only [List.length_append, List.length_singleton, hkl, lenSize]; omega

theorem part_str {num : Nat} (h : 1 ≤ num ∧ num < 16) {s : Str} (hs : s.length < 2 ^ 64) {pre : M → Prop} {set : M → M}
    (hadd : ∀ m bs, pre m → s ≠ [] → Record bs num (.len s) → adds m bs (set m)) (hempty : ∀ m, pre m → s = [] → set m = m) :
    Part adds (putStrIf (Fin.ofNat 256 (8 * num + 2)) s) (strSize s) pre set := by
  by_cases he : s = []
  · refine ⟨[], ?_, ?_, fun m hm => ?_⟩
    · intro w hw; simp [putStrIf, he]
    · simp [strSize, he]
    · rw [hempty m hm he]; exact Reads.nil m
  · have hpos : s.length > 0 := List.length_pos_of_ne_nil he
    obtain ⟨bs, hb, hbl, hr⟩ := record_len h hs
    refine ⟨bs, ?_, ?_, fun m hm => Reads.one (hadd m bs hm he hr)⟩
    · intro w hw; rw [putStrIf, if_pos hpos]; exact hb w hw
    · rw [strSize, if_pos hpos]; exact hbl

theorem record_varint {num : Nat} (h : 1 ≤ num ∧ num < 16) {v : Nat} (hv : v < 2 ^ 64) :
    ∃ bs : Str, Writes (fun w => (w.put (Fin.ofNat 256 (8 * num))).bind (putVarint 10 v)) bs ∧ bs.length = 1 + sov v ∧
      Record bs num (.varint v) := by
  obtain ⟨k, hk, hkv, hkl⟩ := varint_written hv
  have ht := tag_varint (n := 8 * num) (by omega)
  refine ⟨[Fin.ofNat 256 (8 * num)] ++ k, (writes_put _).bind hk, ?_, Record.varint (by omega) ht hkv⟩
  simp only [List.length_append, List.length_singleton, hkl]

theorem signExtend_back {w : Nat} (hw : w ≤ 64) (v : BitVec w) : BitVec.ofNat w (v.signExtend 64).toNat = v := by
  apply BitVec.eq_of_getLsbD_eq
  intro i hi
  rw [BitVec.getLsbD_ofNat]
  change (decide (i < w) && (v.signExtend 64).getLsbD i) = v.getLsbD i
  rw [BitVec.getLsbD_signExtend]
  simp only [hi, decide_true, Bool.true_and, if_true, show i < 64 by omega]

theorem part_num {num : Nat} (h : 1 ≤ num ∧ num < 16) {w : Nat} (hw : w ≤ 64) {v : BitVec w} {pre : M → Prop} {set : M → M}
    (hadd : ∀ m bs n, pre m → Record bs num (.varint n) → BitVec.ofNat w n = v → adds m bs (set m))
    (hempty : ∀ m, pre m → v = 0 → set m = m) :
    Part adds (putNumIf (Fin.ofNat 256 (8 * num)) v) (numSize v) pre set := by
  by_cases he : v = 0
  · refine ⟨[], ?_, ?_, fun m hm => ?_⟩
    · intro w hw; simp [putNumIf, he]
    · simp [numSize, he]
    · rw [hempty m hm he]; exact Reads.nil m
  · obtain ⟨bs, hb, hbl, hr⟩ := record_varint h (v := (v.signExtend 64).toNat) (BitVec.isLt _)
    refine ⟨bs, ?_, ?_, fun m hm => Reads.one (hadd m bs _ hm hr (signExtend_back hw v))⟩
    · intro w hw; rw [putNumIf, if_pos he]; exact hb w hw
    · rw [numSize, if_pos he]; exact hbl

theorem part_bool {num : Nat} (h : 1 ≤ num ∧ num < 16) {v : Bool} {pre : M → Prop} {set : M → M}
    (hadd : ∀ m bs, pre m → v = true → Record bs num (.varint 1) → adds m bs (set m))
    (hempty : ∀ m, pre m → v = false → set m = m) :
    Part adds (putBoolIf (Fin.ofNat 256 (8 * num)) v) (boolSize v) pre set := by
  cases v with
  | false =>
    refine ⟨[], ?_, ?_, fun m hm => ?_⟩
    · intro w hw; simp [putBoolIf]
    · simp [boolSize]
    · rw [hempty m hm rfl]; exact Reads.nil m
  | true =>
    have ht := tag_varint (n := 8 * num) (by omega)
    have h1 := tag_varint (n := 1) (by omega)
    refine ⟨[Fin.ofNat 256 (8 * num)] ++ [1], ?_, ?_, fun m hm => Reads.one (hadd m _ hm rfl (Record.varint (by omega) ht h1))⟩
    · intro w hw
      rw [putBoolIf, if_pos rfl]
      exact ((writes_put (Fin.ofNat 256 (8 * num))).bind (writes_put 1)) w hw
    · simp [boolSize]

/-- A message inside a message. -/
theorem record_msg {num : Nat} (h : 1 ≤ num ∧ num < 16) {body : Buf → Option Buf} {p : Str} (hb : Writes body p)
    (hp : p.length < 2 ^ 64) :
    ∃ bs : Str, Writes (putMsg (Fin.ofNat 256 (8 * num + 2)) p.length body) bs ∧ bs.length = lenSize p.length ∧
      Record bs num (.len p) := by
  obtain ⟨k, hk, hkv, hkl⟩ := varint_written hp
  have ht := tag_varint (n := 8 * num + 2) (by omega)
  refine ⟨[Fin.ofNat 256 (8 * num + 2)] ++ k ++ p, ?_, ?_, Record.len (by omega) ht hkv⟩
  · exact ((writes_put (Fin.ofNat 256 (8 * num + 2))).bind hk).bind hb
  · simp only [List.length_append, List.length_singleton, hkl, lenSize]; omega

/-- What `Marshal` of a message gives. -/
def Good {N : Type} (addsN : N → Str → N → Prop) (empty x : N) (size : Nat) (body : Buf → Option Buf) : Prop :=
  ∃ p : Str, Writes body p ∧ p.length = size ∧ Reads addsN empty p x

theorem part_opt {N : Type} {addsN : N → Str → N → Prop} {empty : N} {num : Nat} (h : 1 ≤ num ∧ num < 16)
    {size : N → Nat} {body : N → Buf → Option Buf} {x : Option N}
    (hx : ∀ n, x = some n → size n < 2 ^ 64 ∧ Good addsN empty n (size n) (body n)) {pre : M → Prop} {set : M → M}
    (hadd : ∀ m bs p n, pre m → x = some n → Record bs num (.len p) → Reads addsN empty p n → adds m bs (set m))
    (hempty : ∀ m, pre m → x = none → set m = m) :
    Part adds (putOpt (Fin.ofNat 256 (8 * num + 2)) size body x) (optSize size x) pre set := by
  cases x with
  | none =>
    refine ⟨[], ?_, ?_, fun m hm => ?_⟩
    · intro w hw; simp [putOpt]
    · simp [optSize]
    · rw [hempty m hm rfl]; exact Reads.nil m
  | some n =>
    obtain ⟨hs, p, hw, hl, hr⟩ := hx n rfl
    obtain ⟨bs, hb, hbl, hrec⟩ := record_msg h hw (by omega)
    refine ⟨bs, ?_, ?_, fun m hm => Reads.one (hadd m bs p n hm rfl hrec hr)⟩
    · rw [hl] at hb; exact hb
    · rw [optSize, ← hl]; exact hbl

theorem part_all {α : Type} {f : α → Buf → Option Buf} {size : α → Nat} {step : α → M → M} :
    ∀ {as : List α}, (∀ a ∈ as, Part adds (f a) (size a) (fun _ => True) (step a)) →
      Part adds (putAll f as) (as.map size).sum (fun _ => True) (fun m => as.foldl (fun m a => step a m) m)
  | [], _ => ⟨[], fun w _ => by simp [putAll], by simp, fun m _ => Reads.nil m⟩
  | a :: as, h => by
    have h1 := h a (by simp)
    have h2 := part_all (as := as) (fun b hb => h b (by simp [hb]))
    obtain ⟨bs, hw, hl, hr⟩ := h1.then h2 (fun _ _ => trivial)
    exact ⟨bs, fun w hw' => by rw [putAll]; exact hw w hw', by simp [hl], fun m hm => hr m hm⟩

theorem part_strs {num : Nat} (h : 1 ≤ num ∧ num < 16) {ss : List Str} (hs : ∀ s ∈ ss, s.length < 2 ^ 64) {step : Str → M → M}
    (hadd : ∀ m bs, ∀ s ∈ ss, Record bs num (.len s) → adds m bs (step s m)) :
    Part adds (putAll (putStr (Fin.ofNat 256 (8 * num + 2))) ss) (ss.map fun s => lenSize s.length).sum (fun _ => True)
      (fun m => ss.foldl (fun m s => step s m) m) :=
  part_all (fun s hmem => by
    obtain ⟨bs, hb, hbl, hr⟩ := record_len h (hs s hmem)
    exact ⟨bs, hb, hbl, fun m _ => Reads.one (hadd m bs s hmem hr)⟩)

theorem part_msgs {N : Type} {addsN : N → Str → N → Prop} {empty : N} {num : Nat} (h : 1 ≤ num ∧ num < 16)
    {size : N → Nat} {body : N → Buf → Option Buf} {xs : List N}
    (hx : ∀ n ∈ xs, size n < 2 ^ 64 ∧ Good addsN empty n (size n) (body n)) {step : N → M → M}
    (hadd : ∀ m bs p, ∀ n ∈ xs, Record bs num (.len p) → Reads addsN empty p n → adds m bs (step n m)) :
    Part adds (putAll (fun t => putMsg (Fin.ofNat 256 (8 * num + 2)) (size t) (body t)) xs)
      (xs.map fun t => lenSize (size t)).sum (fun _ => True) (fun m => xs.foldl (fun m t => step t m) m) :=
  part_all (fun t hmem => by
    obtain ⟨hs, p, hw, hl, hr⟩ := hx t hmem
    obtain ⟨bs, hb, hbl, hrec⟩ := record_msg h hw (by omega)
    exact ⟨bs, by rw [hl] at hb; exact hb, by rw [← hl]; exact hbl, fun m _ => Reads.one (hadd m bs p t hmem hrec hr)⟩)

end Riot.Wire
