import Verif.Proofs.WireWrite

/-! # What `Marshal` writes, message by message -/

namespace Riot.Wire

variable {M : Type} {adds : M → Str → M → Prop}

/-- The bytes written by `f` take `m0` to `m1`. -/
def From (adds : M → Str → M → Prop) (f : Buf → Option Buf) (size : Nat) (m0 m1 : M) : Prop :=
  Part adds f size (fun m => m = m0) (fun _ => m1)

theorem From.then {f g : Buf → Option Buf} {a b : Nat} {m0 m1 m2 : M} (hf : From adds f a m0 m1)
    (hg : From adds g b m1 m2) : From adds (fun w => (f w).bind g) (a + b) m0 m2 :=
  Part.then hf hg (fun _ _ => rfl)

theorem Part.from_of {f : Buf → Option Buf} {a : Nat} {s : M → M} (h : Part adds f a (fun _ => True) s) {m0 m1 : M}
    (he : s m0 = m1) : From adds f a m0 m1 := by
  obtain ⟨bs, hw, hl, hr⟩ := h
  refine ⟨bs, hw, hl, fun m hm => ?_⟩
  have := hr m trivial
  rw [hm, he] at this
  rw [hm]; exact this

theorem le_sum_of_mem {α : Type} (f : α → Nat) : ∀ {l : List α} {a : α}, a ∈ l → f a ≤ (l.map f).sum
  | b :: l, a, h => by
    simp only [List.map_cons, List.sum_cons]
    rcases List.mem_cons.1 h with rfl | h
    · omega
    · have := le_sum_of_mem f h; omega

theorem le_strSize (s : Str) : s.length ≤ strSize s := by
  unfold strSize lenSize
  split <;> omega

theorem le_lenSize (n : Nat) : n ≤ lenSize n := by unfold lenSize; omega

theorem le_optSize {N : Type} {size : N → Nat} {x : Option N} {n : N} (h : x = some n) : size n ≤ optSize size x := by
  rw [h]; exact le_lenSize _

theorem foldl_app {α : Type} (get : M → List α) (put : M → List α → M) (hput : ∀ m l l', put (put m l) l' = put m l')
    (hget : ∀ m l, get (put m l) = l) (hself : ∀ m, put m (get m) = m) :
    ∀ (as : List α) (m : M), as.foldl (fun m a => put m (get m ++ [a])) m = put m (get m ++ as)
  | [], m => by simp [hself]
  | a :: as, m => by
    rw [List.foldl_cons, foldl_app get put hput hget hself as, hput, hget]
    simp

theorem good_of {f : Buf → Option Buf} {size : Nat} {m0 m1 m2 : M} {u : Str} (h : From adds f size m0 m1)
    (hu : Reads adds m1 u m2) : Good adds m0 m2 (size + u.length) (fun w => (f w).map (Buf.copy u)) := by
  obtain ⟨bs, hw, hl, hr⟩ := h
  exact ⟨bs ++ u, hw.map_copy u, by simp [hl], (hr m0 rfl).append hu⟩

/-- The numbers of a packed list. -/
theorem locs_written : ∀ (ls : List (BitVec 32)), ∃ p : Str,
    Writes (putAll (fun v => putVarint 10 (v.signExtend 64).toNat) ls) p ∧ p.length = locsSize ls ∧ p.length ≤ ls.length * 10 ∧
      Packed p (ls.map fun v => (v.signExtend 64).toNat)
  | [] => ⟨[], fun w _ => by simp [putAll], by simp [locsSize], by simp, Packed.nil⟩
  | v :: ls => by
    obtain ⟨p, hw, hl, hle, hp⟩ := locs_written ls
    obtain ⟨k, hk, hkv, hkl⟩ := varint_written (v := (v.signExtend 64).toNat) (BitVec.isLt _)
    refine ⟨k ++ p, ?_, ?_, ?_, Packed.cons hkv hp⟩
    · intro w hw'
      have := hk.bind hw w hw'
      rw [putAll]; exact this
    · simp [hkl, hl, locsSize]
    · have := hkv.2.1
      simp only [List.length_append, List.length_cons]; omega

theorem locs_back (ls : List (BitVec 32)) : (ls.map fun v => (v.signExtend 64).toNat).map (BitVec.ofNat 32) = ls := by
  rw [List.map_map]
  conv_rhs => rw [← List.map_id ls]
  exact List.map_congr_left (fun v _ => signExtend_back (by omega) v)

theorem from_locs {num : Nat} (h : 1 ≤ num ∧ num < 16) {ls : List (BitVec 32)} (hs : locsSize ls < 2 ^ 64) {m0 m1 : M}
    (hadd : ∀ bs p ns, Record bs num (.len p) → Packed p ns → ns.map (BitVec.ofNat 32) = ls → adds m0 bs m1)
    (hempty : ls = [] → m1 = m0) :
    From adds (putLocs (Fin.ofNat 256 (8 * num + 2)) ls)
      (if ls.length > 0 then 1 + sov (locsSize ls) + locsSize ls else 0) m0 m1 := by
  by_cases he : ls = []
  · refine ⟨[], ?_, ?_, fun m hm => ?_⟩
    · intro w hw; simp [putLocs, he]
    · simp [he]
    · rw [hm, hempty he]; exact Reads.nil m0
  · have hpos : ls.length > 0 := List.length_pos_of_ne_nil he
    obtain ⟨p, hw, hl, hle, hp⟩ := locs_written ls
    obtain ⟨bs, hb, hbl, hr⟩ := record_len h (s := p) (by omega)
    refine ⟨bs, ?_, ?_, fun m hm => ?_⟩
    · intro w hw'
      have h1 := hw { room := ls.length * 10 } (by simpa using hle)
      have h2 := hb w hw'
      rw [putLocs, if_pos hpos, h1]
      exact h2
    · rw [if_pos hpos, hbl, hl, lenSize]; omega
    · rw [hm]; exact Reads.one (hadd bs p _ hr hp (locs_back ls))

/-- One entry of the map. -/
theorem entry_written {e : Str × Bool} (hs : entrySize e.1 < 2 ^ 64) :
    ∃ bs p : Str, Writes (putEntry e) bs ∧ bs.length = entrySize e.1 + 1 + sov (entrySize e.1) ∧ Record bs 6 (.len p) ∧
      Reads EntryAdds ([], false) p e := by
  have hk : e.1.length < 2 ^ 64 := by unfold entrySize at hs; omega
  obtain ⟨kb, hkw, hkl, hkr⟩ := record_len (num := 1) (by omega) hk
  have h1 := tag_varint (n := 16) (by omega)
  have hv : IsVarint [(if e.2 then 1 else 0 : Fin 256)] (if e.2 then 1 else 0) := by
    cases e.2
    · exact tag_varint (n := 0) (by omega)
    · exact tag_varint (n := 1) (by omega)
  have hvr : Record ([16] ++ [(if e.2 then 1 else 0 : Fin 256)]) 2 (.varint (if e.2 then 1 else 0)) :=
    Record.varint (by omega) h1 hv
  have hlen : (kb ++ ([16] ++ [(if e.2 then 1 else 0 : Fin 256)])).length = entrySize e.1 := by
    simp only [List.length_append, List.length_singleton, hkl, entrySize, lenSize]
  obtain ⟨k, hkk, hkv, hkkl⟩ := varint_written hs
  have ht := tag_varint (n := 8 * 6 + 2) (by omega)
  refine ⟨[Fin.ofNat 256 (8 * 6 + 2)] ++ k ++ (kb ++ ([16] ++ [(if e.2 then 1 else 0 : Fin 256)])), _, ?_, ?_,
    Record.len (by omega) ht (by rw [hlen]; exact hkv), ?_⟩
  · intro w hw
    have := ((((writes_put (Fin.ofNat 256 (8 * 6 + 2))).bind hkk).bind hkw).bind (writes_put 16)).bind
      (writes_put (if e.2 then 1 else 0)) w (by simpa using hw)
    simpa [putEntry] using this
  · rw [List.length_append, hlen, List.length_append, hkkl, List.length_singleton]; omega
  · have r1 : Reads EntryAdds ([], false) kb (e.1, false) := Reads.one (EntryAdds.key hkr)
    have r2 : Reads EntryAdds (e.1, false) ([16] ++ [(if e.2 then 1 else 0 : Fin 256)]) (e.1, ((if e.2 then 1 else 0) ≠ 0 : Bool)) :=
      Reads.one (EntryAdds.value hvr)
    have e2 : ((e.1, ((if e.2 then 1 else 0) ≠ 0 : Bool)) : Str × Bool) = e := by
      obtain ⟨a, b⟩ := e
      cases b <;> simp
    rw [e2] at r2
    exact r1.append r2

/-- The map after the entries have arrived in this order. -/
def arrived (order : List (Str × Bool)) : Option (GoMap Bool) :=
  order.foldl (fun d e => some ((d.getD GoMap.empty).set e.1 e.2)) none

theorem HeartReq.reads_unknown {u : Str} (h : UnknownFrom 2 u) : ∀ m : HeartReq,
    Reads HeartReq.Adds m u { m with unrecognized := m.unrecognized ++ u } := by
  induction h with
  | nil => intro m; simpa using Reads.nil m
  | @cons bs rest num p h hn t ih =>
    intro m
    have := Reads.cons (.unknown h hn) (ih { m with unrecognized := m.unrecognized ++ bs })
    simpa only [List.append_assoc] using this

theorem HeartReq.good (m : HeartReq) (hk : m.Proper) (hs : m.size < 2 ^ 63) :
    Good HeartReq.Adds {} m m.size m.marshalTo := by
  have hu := hk
  simp only [HeartReq.size] at hs ⊢
  have p1 : From HeartReq.Adds (putNumIf 0x8 m.msg) (numSize m.msg) {} { msg := m.msg } :=
    part_num (num := 1) (by omega) (by omega) (fun x bs n hx h hn => by rw [hx, ← hn]; exact HeartReq.Adds.msg h)
      (fun x hx he => by rw [hx, he])
  have := good_of p1 (HeartReq.reads_unknown hu { msg := m.msg })
  simp only [List.nil_append] at this
  exact this

theorem Reply.reads_unknown {u : Str} (h : UnknownFrom 2 u) : ∀ m : Reply,
    Reads Reply.Adds m u { m with unrecognized := m.unrecognized ++ u } := by
  induction h with
  | nil => intro m; simpa using Reads.nil m
  | @cons bs rest num p h hn t ih =>
    intro m
    have := Reads.cons (.unknown h hn) (ih { m with unrecognized := m.unrecognized ++ bs })
    simpa only [List.append_assoc] using this

theorem Reply.good (m : Reply) (hk : m.Proper) (hs : m.size < 2 ^ 63) :
    Good Reply.Adds {} m m.size m.marshalTo := by
  have hu := hk
  simp only [Reply.size] at hs ⊢
  have p1 : From Reply.Adds (putNumIf 0x8 m.result) (numSize m.result) {} { result := m.result } :=
    part_num (num := 1) (by omega) (by omega) (fun x bs n hx h hn => by rw [hx, ← hn]; exact Reply.Adds.result h)
      (fun x hx he => by rw [hx, he])
  have := good_of p1 (Reply.reads_unknown hu { result := m.result })
  simp only [List.nil_append] at this
  exact this

theorem DeleteReq.reads_unknown {u : Str} (h : UnknownFrom 2 u) : ∀ m : DeleteReq,
    Reads DeleteReq.Adds m u { m with unrecognized := m.unrecognized ++ u } := by
  induction h with
  | nil => intro m; simpa using Reads.nil m
  | @cons bs rest num p h hn t ih =>
    intro m
    have := Reads.cons (.unknown h hn) (ih { m with unrecognized := m.unrecognized ++ bs })
    simpa only [List.append_assoc] using this

theorem DeleteReq.good (m : DeleteReq) (hk : m.Proper) (hs : m.size < 2 ^ 63) :
    Good DeleteReq.Adds {} m m.size m.marshalTo := by
  have hu := hk
  simp only [DeleteReq.size] at hs ⊢
  have l1 := le_strSize m.docId
  have p1 : From DeleteReq.Adds (putStrIf 0xa m.docId) (strSize m.docId) {} { docId := m.docId } :=
    part_str (num := 1) (by omega) (by omega) (fun x bs hx _ h => by rw [hx]; exact DeleteReq.Adds.docId h)
      (fun x hx he => by rw [hx, he])
  have := good_of p1 (DeleteReq.reads_unknown hu { docId := m.docId })
  simp only [List.nil_append] at this
  exact this

theorem TokenMsg.reads_unknown {u : Str} (h : UnknownFrom 3 u) : ∀ m : TokenMsg,
    Reads TokenMsg.Adds m u { m with unrecognized := m.unrecognized ++ u } := by
  induction h with
  | nil => intro m; simpa using Reads.nil m
  | @cons bs rest num p h hn t ih =>
    intro m
    have := Reads.cons (.unknown h hn) (ih { m with unrecognized := m.unrecognized ++ bs })
    simpa only [List.append_assoc] using this

theorem TokenMsg.good (m : TokenMsg) (hk : m.Proper) (hs : m.size < 2 ^ 63) :
    Good TokenMsg.Adds {} m m.size m.marshalTo := by
  have hu := hk
  simp only [TokenMsg.size] at hs ⊢
  have l1 := le_strSize m.text
  have p1 : From TokenMsg.Adds (putStrIf 0xa m.text) (strSize m.text) {} { text := m.text } :=
    part_str (num := 1) (by omega) (by omega) (fun x bs hx _ h => by rw [hx]; exact TokenMsg.Adds.text h)
      (fun x hx he => by rw [hx, he])
  have p2 : From TokenMsg.Adds (putLocs 0x12 m.locations)
      (if m.locations.length > 0 then 1 + sov (locsSize m.locations) + locsSize m.locations else 0) { text := m.text } { text := m.text, locations := m.locations } :=
    from_locs (num := 2) (by omega)
      (by by_cases he : m.locations.length > 0
          · rw [if_pos he] at hs; omega
          · rw [show m.locations = [] from List.eq_nil_of_length_eq_zero (by omega)]; simp [locsSize])
      (fun bs p ns h hp hn => by have := TokenMsg.Adds.locations (m := { text := m.text }) h hp; rw [hn] at this; simpa using this)
      (fun he => by rw [he])
  have := good_of (p1.then p2) (TokenMsg.reads_unknown hu { text := m.text, locations := m.locations })
  simp only [List.nil_append] at this
  exact this

theorem DocReq.reads_unknown {u : Str} (h : UnknownFrom 8 u) : ∀ m : DocReq,
    Reads DocReq.Adds m u { m with unrecognized := m.unrecognized ++ u } := by
  induction h with
  | nil => intro m; simpa using Reads.nil m
  | @cons bs rest num p h hn t ih =>
    intro m
    have := Reads.cons (.unknown h hn) (ih { m with unrecognized := m.unrecognized ++ bs })
    simpa only [List.append_assoc] using this

theorem DocReq.good (m : DocReq) (hk : m.Proper) (hs : m.size < 2 ^ 63) :
    Good DocReq.Adds {} m m.size m.marshalTo := by
  obtain ⟨hu, hsub⟩ := hk
  simp only [DocReq.size] at hs ⊢
  have l1 := le_strSize m.docId
  have p1 : From DocReq.Adds (putStrIf 0xa m.docId) (strSize m.docId) {} { docId := m.docId } :=
    part_str (num := 1) (by omega) (by omega) (fun x bs hx _ h => by rw [hx]; exact DocReq.Adds.docId h)
      (fun x hx he => by rw [hx, he])
  have l2 := le_strSize m.content
  have p2 : From DocReq.Adds (putStrIf 0x12 m.content) (strSize m.content) { docId := m.docId } { docId := m.docId, content := m.content } :=
    part_str (num := 2) (by omega) (by omega) (fun x bs hx _ h => by rw [hx]; exact DocReq.Adds.content h)
      (fun x hx he => by rw [hx, he])
  have l3 := le_strSize m.attri
  have p3 : From DocReq.Adds (putStrIf 0x1a m.attri) (strSize m.attri) { docId := m.docId, content := m.content } { docId := m.docId, content := m.content, attri := m.attri } :=
    part_str (num := 3) (by omega) (by omega) (fun x bs hx _ h => by rw [hx]; exact DocReq.Adds.attri h)
      (fun x hx he => by rw [hx, he])
  have p4 : From DocReq.Adds (putAll (fun t => putMsg 0x22 t.size t.marshalTo) m.tokens) (m.tokens.map fun t => lenSize t.size).sum
      { docId := m.docId, content := m.content, attri := m.attri } { docId := m.docId, content := m.content, attri := m.attri, tokens := m.tokens } := by
    refine Part.from_of (part_msgs (num := 4) (addsN := TokenMsg.Adds) (empty := {}) (size := TokenMsg.size) (body := TokenMsg.marshalTo) (by omega)
      (fun t ht => ?_) (step := fun t (x : DocReq) => { x with tokens := x.tokens ++ [t] })
      (fun x bs p t _ h hr => DocReq.Adds.token h hr)) ?_
    · have h1 := le_sum_of_mem (fun t : TokenMsg => lenSize t.size) ht
      have h2 := le_lenSize t.size
      exact ⟨by omega, t.good (hsub t ht) (by omega)⟩
    · rw [foldl_app (fun x : DocReq => x.tokens) (fun x l => { x with tokens := l }) (fun _ _ _ => rfl) (fun _ _ => rfl) (fun _ => rfl)]
      rfl
  have p5 : From DocReq.Adds (putAll (putStr 0x2a) m.labels) (m.labels.map fun s => lenSize s.length).sum { docId := m.docId, content := m.content, attri := m.attri, tokens := m.tokens } { docId := m.docId, content := m.content, attri := m.attri, tokens := m.tokens, labels := m.labels } := by
    refine Part.from_of (part_strs (num := 5) (by omega) (fun s hs' => ?_)
      (step := fun s (x : DocReq) => { x with labels := x.labels ++ [s] }) (fun x bs s _ h => DocReq.Adds.label h)) ?_
    · have h1 := le_sum_of_mem (fun s : Str => lenSize s.length) hs'
      have h2 := le_lenSize s.length
      omega
    · rw [foldl_app (fun x : DocReq => x.labels) (fun x l => { x with labels := l }) (fun _ _ _ => rfl) (fun _ _ => rfl) (fun _ => rfl)]
      rfl
  have l6 := le_strSize m.fields
  have p6 : From DocReq.Adds (putStrIf 0x32 m.fields) (strSize m.fields) { docId := m.docId, content := m.content, attri := m.attri, tokens := m.tokens, labels := m.labels } { docId := m.docId, content := m.content, attri := m.attri, tokens := m.tokens, labels := m.labels, fields := m.fields } :=
    part_str (num := 6) (by omega) (by omega) (fun x bs hx _ h => by rw [hx]; exact DocReq.Adds.fields h)
      (fun x hx he => by rw [hx, he])
  have p7 : From DocReq.Adds (putBoolIf 0x38 m.forceUpdate) (boolSize m.forceUpdate) { docId := m.docId, content := m.content, attri := m.attri, tokens := m.tokens, labels := m.labels, fields := m.fields } { docId := m.docId, content := m.content, attri := m.attri, tokens := m.tokens, labels := m.labels, fields := m.fields, forceUpdate := m.forceUpdate } :=
    part_bool (num := 7) (by omega) (fun x bs hx hv h => by rw [hx, hv]; exact DocReq.Adds.forceUpdate h)
      (fun x hx he => by rw [hx, he])
  have := good_of ((((((p1.then p2).then p3).then p4).then p5).then p6).then p7) (DocReq.reads_unknown hu { docId := m.docId, content := m.content, attri := m.attri, tokens := m.tokens, labels := m.labels, fields := m.fields, forceUpdate := m.forceUpdate })
  simp only [List.nil_append] at this
  exact this

theorem ExprMsg.reads_unknown {u : Str} (h : UnknownFrom 4 u) : ∀ m : ExprMsg,
    Reads ExprMsg.Adds m u { m with unrecognized := m.unrecognized ++ u } := by
  induction h with
  | nil => intro m; simpa using Reads.nil m
  | @cons bs rest num p h hn t ih =>
    intro m
    have := Reads.cons (.unknown h hn) (ih { m with unrecognized := m.unrecognized ++ bs })
    simpa only [List.append_assoc] using this

theorem ExprMsg.good (m : ExprMsg) (hk : m.Proper) (hs : m.size < 2 ^ 63) :
    Good ExprMsg.Adds {} m m.size m.marshalTo := by
  have hu := hk
  simp only [ExprMsg.size] at hs ⊢
  have p1 : From ExprMsg.Adds (putAll (putStr 0xa) m.must) (m.must.map fun s => lenSize s.length).sum {} { must := m.must } := by
    refine Part.from_of (part_strs (num := 1) (by omega) (fun s hs' => ?_)
      (step := fun s (x : ExprMsg) => { x with must := x.must ++ [s] }) (fun x bs s _ h => ExprMsg.Adds.must h)) ?_
    · have h1 := le_sum_of_mem (fun s : Str => lenSize s.length) hs'
      have h2 := le_lenSize s.length
      omega
    · rw [foldl_app (fun x : ExprMsg => x.must) (fun x l => { x with must := l }) (fun _ _ _ => rfl) (fun _ _ => rfl) (fun _ => rfl)]
      rfl
  have p2 : From ExprMsg.Adds (putAll (putStr 0x12) m.should) (m.should.map fun s => lenSize s.length).sum { must := m.must } { must := m.must, should := m.should } := by
    refine Part.from_of (part_strs (num := 2) (by omega) (fun s hs' => ?_)
      (step := fun s (x : ExprMsg) => { x with should := x.should ++ [s] }) (fun x bs s _ h => ExprMsg.Adds.should h)) ?_
    · have h1 := le_sum_of_mem (fun s : Str => lenSize s.length) hs'
      have h2 := le_lenSize s.length
      omega
    · rw [foldl_app (fun x : ExprMsg => x.should) (fun x l => { x with should := l }) (fun _ _ _ => rfl) (fun _ _ => rfl) (fun _ => rfl)]
      rfl
  have p3 : From ExprMsg.Adds (putAll (putStr 0x1a) m.notIn) (m.notIn.map fun s => lenSize s.length).sum { must := m.must, should := m.should } { must := m.must, should := m.should, notIn := m.notIn } := by
    refine Part.from_of (part_strs (num := 3) (by omega) (fun s hs' => ?_)
      (step := fun s (x : ExprMsg) => { x with notIn := x.notIn ++ [s] }) (fun x bs s _ h => ExprMsg.Adds.notIn h)) ?_
    · have h1 := le_sum_of_mem (fun s : Str => lenSize s.length) hs'
      have h2 := le_lenSize s.length
      omega
    · rw [foldl_app (fun x : ExprMsg => x.notIn) (fun x l => { x with notIn := l }) (fun _ _ _ => rfl) (fun _ _ => rfl) (fun _ => rfl)]
      rfl
  have := good_of ((p1.then p2).then p3) (ExprMsg.reads_unknown hu { must := m.must, should := m.should, notIn := m.notIn })
  simp only [List.nil_append] at this
  exact this

theorem LogicMsg.reads_unknown {u : Str} (h : UnknownFrom 5 u) : ∀ m : LogicMsg,
    Reads LogicMsg.Adds m u { m with unrecognized := m.unrecognized ++ u } := by
  induction h with
  | nil => intro m; simpa using Reads.nil m
  | @cons bs rest num p h hn t ih =>
    intro m
    have := Reads.cons (.unknown h hn) (ih { m with unrecognized := m.unrecognized ++ bs })
    simpa only [List.append_assoc] using this

theorem LogicMsg.good (m : LogicMsg) (hk : m.Proper) (hs : m.size < 2 ^ 63) :
    Good LogicMsg.Adds {} m m.size m.marshalTo := by
  obtain ⟨hu, hsub⟩ := hk
  simp only [LogicMsg.size] at hs ⊢
  have p1 : From LogicMsg.Adds (putBoolIf 0x8 m.must) (boolSize m.must) {} { must := m.must } :=
    part_bool (num := 1) (by omega) (fun x bs hx hv h => by rw [hx, hv]; exact LogicMsg.Adds.must h)
      (fun x hx he => by rw [hx, he])
  have p2 : From LogicMsg.Adds (putBoolIf 0x10 m.should) (boolSize m.should) { must := m.must } { must := m.must, should := m.should } :=
    part_bool (num := 2) (by omega) (fun x bs hx hv h => by rw [hx, hv]; exact LogicMsg.Adds.should h)
      (fun x hx he => by rw [hx, he])
  have p3 : From LogicMsg.Adds (putBoolIf 0x18 m.notIn) (boolSize m.notIn) { must := m.must, should := m.should } { must := m.must, should := m.should, notIn := m.notIn } :=
    part_bool (num := 3) (by omega) (fun x bs hx hv h => by rw [hx, hv]; exact LogicMsg.Adds.notIn h)
      (fun x hx he => by rw [hx, he])
  have p4 : From LogicMsg.Adds (putOpt 0x22 ExprMsg.size ExprMsg.marshalTo m.expr) (optSize ExprMsg.size m.expr) { must := m.must, should := m.should, notIn := m.notIn } { must := m.must, should := m.should, notIn := m.notIn, expr := m.expr } :=
    part_opt (num := 4) (addsN := ExprMsg.Adds) (empty := {}) (by omega)
      (fun n hn => by
        have h1 := le_optSize (size := ExprMsg.size) hn
        exact ⟨by omega, n.good (hsub n hn) (by omega)⟩)
      (fun x bs p n hx hn h hr => by rw [hx, hn]; exact LogicMsg.Adds.expr h hr)
      (fun x hx he => by rw [hx, he])
  have := good_of (((p1.then p2).then p3).then p4) (LogicMsg.reads_unknown hu { must := m.must, should := m.should, notIn := m.notIn, expr := m.expr })
  simp only [List.nil_append] at this
  exact this

theorem foldl_ids : ∀ (order : List (Str × Bool)) (x : SearchMsg),
    order.foldl (fun (x : SearchMsg) e => { x with docIds := some ((x.docIds.getD GoMap.empty).set e.1 e.2) }) x =
      { x with docIds := order.foldl (fun d e => some ((d.getD GoMap.empty).set e.1 e.2)) x.docIds }
  | [], _ => rfl
  | e :: order, x => by rw [List.foldl_cons, foldl_ids order]; rfl

theorem SearchMsg.reads_unknown {u : Str} (h : UnknownFrom 8 u) : ∀ m : SearchMsg,
    Reads SearchMsg.Adds m u { m with unrecognized := m.unrecognized ++ u } := by
  induction h with
  | nil => intro m; simpa using Reads.nil m
  | @cons bs rest num p h hn t ih =>
    intro m
    have := Reads.cons (.unknown h hn) (ih { m with unrecognized := m.unrecognized ++ bs })
    simpa only [List.append_assoc] using this

theorem SearchMsg.good (m : SearchMsg) (order : List (Str × Bool)) (ho : order.Perm (entriesOf m.docIds)) (hk : m.Proper) (hs : m.size < 2 ^ 63) :
    Good SearchMsg.Adds {} { m with docIds := arrived order } m.size (m.marshalTo order) := by
  obtain ⟨hu, hsub⟩ := hk
  simp only [SearchMsg.size] at hs ⊢
  have l1 := le_strSize m.id
  have p1 : From SearchMsg.Adds (putStrIf 0xa m.id) (strSize m.id) {} { id := m.id } :=
    part_str (num := 1) (by omega) (by omega) (fun x bs hx _ h => by rw [hx]; exact SearchMsg.Adds.id h)
      (fun x hx he => by rw [hx, he])
  have l2 := le_strSize m.query
  have p2 : From SearchMsg.Adds (putStrIf 0x12 m.query) (strSize m.query) { id := m.id } { id := m.id, query := m.query } :=
    part_str (num := 2) (by omega) (by omega) (fun x bs hx _ h => by rw [hx]; exact SearchMsg.Adds.query h)
      (fun x hx he => by rw [hx, he])
  have p3 : From SearchMsg.Adds (putNumIf 0x18 m.outputOffset) (numSize m.outputOffset) { id := m.id, query := m.query } { id := m.id, query := m.query, outputOffset := m.outputOffset } :=
    part_num (num := 3) (by omega) (by omega) (fun x bs n hx h hn => by rw [hx, ← hn]; exact SearchMsg.Adds.outputOffset h)
      (fun x hx he => by rw [hx, he])
  have p4 : From SearchMsg.Adds (putNumIf 0x20 m.maxOutputs) (numSize m.maxOutputs) { id := m.id, query := m.query, outputOffset := m.outputOffset } { id := m.id, query := m.query, outputOffset := m.outputOffset, maxOutputs := m.maxOutputs } :=
    part_num (num := 4) (by omega) (by omega) (fun x bs n hx h hn => by rw [hx, ← hn]; exact SearchMsg.Adds.maxOutputs h)
      (fun x hx he => by rw [hx, he])
  have l5 := le_strSize m.time
  have p5 : From SearchMsg.Adds (putStrIf 0x2a m.time) (strSize m.time) { id := m.id, query := m.query, outputOffset := m.outputOffset, maxOutputs := m.maxOutputs } { id := m.id, query := m.query, outputOffset := m.outputOffset, maxOutputs := m.maxOutputs, time := m.time } :=
    part_str (num := 5) (by omega) (by omega) (fun x bs hx _ h => by rw [hx]; exact SearchMsg.Adds.time h)
      (fun x hx he => by rw [hx, he])
  have p6 : From SearchMsg.Adds (putAll putEntry order)
      ((entriesOf m.docIds).map fun e => entrySize e.1 + 1 + sov (entrySize e.1)).sum { id := m.id, query := m.query, outputOffset := m.outputOffset, maxOutputs := m.maxOutputs, time := m.time } { id := m.id, query := m.query, outputOffset := m.outputOffset, maxOutputs := m.maxOutputs, time := m.time, docIds := arrived order } := by
    rw [← (ho.map fun e => entrySize e.1 + 1 + sov (entrySize e.1)).sum_eq]
    refine Part.from_of (part_all (step := fun e (x : SearchMsg) => { x with docIds := some ((x.docIds.getD GoMap.empty).set e.1 e.2) })
      (fun e he => ?_)) ?_
    · have hle := le_sum_of_mem (fun e : Str × Bool => entrySize e.1 + 1 + sov (entrySize e.1)) (ho.mem_iff.1 he)
      obtain ⟨bs, p, hw, hl, hr, hrd⟩ := entry_written (e := e) (by omega)
      exact ⟨bs, hw, hl, fun x _ => Reads.one (SearchMsg.Adds.docId hr hrd)⟩
    · rw [foldl_ids]; rfl
  have p7 : From SearchMsg.Adds (putOpt 0x3a LogicMsg.size LogicMsg.marshalTo m.logic) (optSize LogicMsg.size m.logic) { id := m.id, query := m.query, outputOffset := m.outputOffset, maxOutputs := m.maxOutputs, time := m.time, docIds := arrived order } { id := m.id, query := m.query, outputOffset := m.outputOffset, maxOutputs := m.maxOutputs, time := m.time, docIds := arrived order, logic := m.logic } :=
    part_opt (num := 7) (addsN := LogicMsg.Adds) (empty := {}) (by omega)
      (fun n hn => by
        have h1 := le_optSize (size := LogicMsg.size) hn
        exact ⟨by omega, n.good (hsub n hn) (by omega)⟩)
      (fun x bs p n hx hn h hr => by rw [hx, hn]; exact SearchMsg.Adds.logic h hr)
      (fun x hx he => by rw [hx, he])
  have := good_of ((((((p1.then p2).then p3).then p4).then p5).then p6).then p7) (SearchMsg.reads_unknown hu { id := m.id, query := m.query, outputOffset := m.outputOffset, maxOutputs := m.maxOutputs, time := m.time, docIds := arrived order, logic := m.logic })
  simp only [List.nil_append] at this
  exact this

theorem AttriMsg.reads_unknown {u : Str} (h : UnknownFrom 5 u) : ∀ m : AttriMsg,
    Reads AttriMsg.Adds m u { m with unrecognized := m.unrecognized ++ u } := by
  induction h with
  | nil => intro m; simpa using Reads.nil m
  | @cons bs rest num p h hn t ih =>
    intro m
    have := Reads.cons (.unknown h hn) (ih { m with unrecognized := m.unrecognized ++ bs })
    simpa only [List.append_assoc] using this

theorem AttriMsg.good (m : AttriMsg) (hk : m.Proper) (hs : m.size < 2 ^ 63) :
    Good AttriMsg.Adds {} m m.size m.marshalTo := by
  have hu := hk
  simp only [AttriMsg.size] at hs ⊢
  have l1 := le_strSize m.title
  have p1 : From AttriMsg.Adds (putStrIf 0xa m.title) (strSize m.title) {} { title := m.title } :=
    part_str (num := 1) (by omega) (by omega) (fun x bs hx _ h => by rw [hx]; exact AttriMsg.Adds.title h)
      (fun x hx he => by rw [hx, he])
  have l2 := le_strSize m.author
  have p2 : From AttriMsg.Adds (putStrIf 0x12 m.author) (strSize m.author) { title := m.title } { title := m.title, author := m.author } :=
    part_str (num := 2) (by omega) (by omega) (fun x bs hx _ h => by rw [hx]; exact AttriMsg.Adds.author h)
      (fun x hx he => by rw [hx, he])
  have l3 := le_strSize m.time
  have p3 : From AttriMsg.Adds (putStrIf 0x1a m.time) (strSize m.time) { title := m.title, author := m.author } { title := m.title, author := m.author, time := m.time } :=
    part_str (num := 3) (by omega) (by omega) (fun x bs hx _ h => by rw [hx]; exact AttriMsg.Adds.time h)
      (fun x hx he => by rw [hx, he])
  have p4 : From AttriMsg.Adds (putNumIf 0x20 m.ts) (numSize m.ts) { title := m.title, author := m.author, time := m.time } { title := m.title, author := m.author, time := m.time, ts := m.ts } :=
    part_num (num := 4) (by omega) (by omega) (fun x bs n hx h hn => by rw [hx, ← hn]; exact AttriMsg.Adds.ts h)
      (fun x hx he => by rw [hx, he])
  have := good_of (((p1.then p2).then p3).then p4) (AttriMsg.reads_unknown hu { title := m.title, author := m.author, time := m.time, ts := m.ts })
  simp only [List.nil_append] at this
  exact this

theorem TextMsg.reads_unknown {u : Str} (h : UnknownFrom 4 u) : ∀ m : TextMsg,
    Reads TextMsg.Adds m u { m with unrecognized := m.unrecognized ++ u } := by
  induction h with
  | nil => intro m; simpa using Reads.nil m
  | @cons bs rest num p h hn t ih =>
    intro m
    have := Reads.cons (.unknown h hn) (ih { m with unrecognized := m.unrecognized ++ bs })
    simpa only [List.append_assoc] using this

theorem TextMsg.good (m : TextMsg) (hk : m.Proper) (hs : m.size < 2 ^ 63) :
    Good TextMsg.Adds {} m m.size m.marshalTo := by
  obtain ⟨hu, hsub⟩ := hk
  simp only [TextMsg.size] at hs ⊢
  have l1 := le_strSize m.id
  have p1 : From TextMsg.Adds (putStrIf 0xa m.id) (strSize m.id) {} { id := m.id } :=
    part_str (num := 1) (by omega) (by omega) (fun x bs hx _ h => by rw [hx]; exact TextMsg.Adds.id h)
      (fun x hx he => by rw [hx, he])
  have l2 := le_strSize m.content
  have p2 : From TextMsg.Adds (putStrIf 0x12 m.content) (strSize m.content) { id := m.id } { id := m.id, content := m.content } :=
    part_str (num := 2) (by omega) (by omega) (fun x bs hx _ h => by rw [hx]; exact TextMsg.Adds.content h)
      (fun x hx he => by rw [hx, he])
  have p3 : From TextMsg.Adds (putOpt 0x1a AttriMsg.size AttriMsg.marshalTo m.attri) (optSize AttriMsg.size m.attri) { id := m.id, content := m.content } { id := m.id, content := m.content, attri := m.attri } :=
    part_opt (num := 3) (addsN := AttriMsg.Adds) (empty := {}) (by omega)
      (fun n hn => by
        have h1 := le_optSize (size := AttriMsg.size) hn
        exact ⟨by omega, n.good (hsub n hn) (by omega)⟩)
      (fun x bs p n hx hn h hr => by rw [hx, hn]; exact TextMsg.Adds.attri h hr)
      (fun x hx he => by rw [hx, he])
  have := good_of ((p1.then p2).then p3) (TextMsg.reads_unknown hu { id := m.id, content := m.content, attri := m.attri })
  simp only [List.nil_append] at this
  exact this

theorem ReplyMsg.reads_unknown {u : Str} (h : UnknownFrom 5 u) : ∀ m : ReplyMsg,
    Reads ReplyMsg.Adds m u { m with unrecognized := m.unrecognized ++ u } := by
  induction h with
  | nil => intro m; simpa using Reads.nil m
  | @cons bs rest num p h hn t ih =>
    intro m
    have := Reads.cons (.unknown h hn) (ih { m with unrecognized := m.unrecognized ++ bs })
    simpa only [List.append_assoc] using this

theorem ReplyMsg.good (m : ReplyMsg) (hk : m.Proper) (hs : m.size < 2 ^ 63) :
    Good ReplyMsg.Adds {} m m.size m.marshalTo := by
  obtain ⟨hu, hsub⟩ := hk
  simp only [ReplyMsg.size] at hs ⊢
  have p1 : From ReplyMsg.Adds (putNumIf 0x8 m.code) (numSize m.code) {} { code := m.code } :=
    part_num (num := 1) (by omega) (by omega) (fun x bs n hx h hn => by rw [hx, ← hn]; exact ReplyMsg.Adds.code h)
      (fun x hx he => by rw [hx, he])
  have p2 : From ReplyMsg.Adds (putNumIf 0x10 m.len) (numSize m.len) { code := m.code } { code := m.code, len := m.len } :=
    part_num (num := 2) (by omega) (by omega) (fun x bs n hx h hn => by rw [hx, ← hn]; exact ReplyMsg.Adds.len h)
      (fun x hx he => by rw [hx, he])
  have p3 : From ReplyMsg.Adds (putNumIf 0x18 m.timestamp) (numSize m.timestamp) { code := m.code, len := m.len } { code := m.code, len := m.len, timestamp := m.timestamp } :=
    part_num (num := 3) (by omega) (by omega) (fun x bs n hx h hn => by rw [hx, ← hn]; exact ReplyMsg.Adds.timestamp h)
      (fun x hx he => by rw [hx, he])
  have p4 : From ReplyMsg.Adds (putAll (fun t => putMsg 0x22 t.size t.marshalTo) m.docs) (m.docs.map fun t => lenSize t.size).sum
      { code := m.code, len := m.len, timestamp := m.timestamp } { code := m.code, len := m.len, timestamp := m.timestamp, docs := m.docs } := by
    refine Part.from_of (part_msgs (num := 4) (addsN := TextMsg.Adds) (empty := {}) (size := TextMsg.size) (body := TextMsg.marshalTo) (by omega)
      (fun t ht => ?_) (step := fun t (x : ReplyMsg) => { x with docs := x.docs ++ [t] })
      (fun x bs p t _ h hr => ReplyMsg.Adds.doc h hr)) ?_
    · have h1 := le_sum_of_mem (fun t : TextMsg => lenSize t.size) ht
      have h2 := le_lenSize t.size
      exact ⟨by omega, t.good (hsub t ht) (by omega)⟩
    · rw [foldl_app (fun x : ReplyMsg => x.docs) (fun x l => { x with docs := l }) (fun _ _ _ => rfl) (fun _ _ => rfl) (fun _ => rfl)]
      rfl
  have := good_of (((p1.then p2).then p3).then p4) (ReplyMsg.reads_unknown hu { code := m.code, len := m.len, timestamp := m.timestamp, docs := m.docs })
  simp only [List.nil_append] at this
  exact this

end Riot.Wire
