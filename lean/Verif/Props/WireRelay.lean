import Verif.Props.Wire

/-!
# C115: a program between a client and a server

A program that reads a message and writes it again (net/grpc/etcd.go: `eserver` receives a search and sends it on to the
other servers) loses nothing, also not the fields that this version does not know.
-/

namespace Riot.Wire

theorem UnknownFrom.add {lo : Nat} {bs u : Str} (h : UnknownFrom lo u) {num : Nat} {p : Payload} (hr : Record bs num p)
    (hn : lo ≤ num) : UnknownFrom lo (u ++ bs) := by
  induction h with
  | nil => simpa using UnknownFrom.cons hr hn .nil
  | cons h' hn' t ih => rw [List.append_assoc]; exact .cons h' hn' ih

theorem proper_reads {M : Type} {adds : M → Str → M → Prop} {ok : M → Prop} (hstep : ∀ m bs m', ok m → adds m bs m' → ok m')
    {m m' : M} {d : Str} (h : Reads adds m d m') (hm : ok m) : ok m' := by
  induction h with
  | nil => exact hm
  | cons h t ih => exact ih (hstep _ _ _ hm h)

theorem HeartReq.proper_adds (m : HeartReq) (bs : Str) (m' : HeartReq) (hm : m.Proper) (h : HeartReq.Adds m bs m') : m'.Proper := by
  cases h <;> first | exact hm | exact UnknownFrom.add hm ‹_› ‹_›

theorem HeartReq.proper_empty : ({} : HeartReq).Proper := UnknownFrom.nil

theorem Reply.proper_adds (m : Reply) (bs : Str) (m' : Reply) (hm : m.Proper) (h : Reply.Adds m bs m') : m'.Proper := by
  cases h <;> first | exact hm | exact UnknownFrom.add hm ‹_› ‹_›

theorem Reply.proper_empty : ({} : Reply).Proper := UnknownFrom.nil

theorem DeleteReq.proper_adds (m : DeleteReq) (bs : Str) (m' : DeleteReq) (hm : m.Proper) (h : DeleteReq.Adds m bs m') : m'.Proper := by
  cases h <;> first | exact hm | exact UnknownFrom.add hm ‹_› ‹_›

theorem DeleteReq.proper_empty : ({} : DeleteReq).Proper := UnknownFrom.nil

theorem TokenMsg.proper_adds (m : TokenMsg) (bs : Str) (m' : TokenMsg) (hm : m.Proper) (h : TokenMsg.Adds m bs m') : m'.Proper := by
  cases h <;> first | exact hm | exact UnknownFrom.add hm ‹_› ‹_›

theorem TokenMsg.proper_empty : ({} : TokenMsg).Proper := UnknownFrom.nil

theorem DocReq.proper_adds (m : DocReq) (bs : Str) (m' : DocReq) (hm : m.Proper) (h : DocReq.Adds m bs m') : m'.Proper := by
  cases h with
  | token h1 h2 =>
    refine ⟨hm.1, fun e he => ?_⟩
    rcases List.mem_append.1 he with he | he
    · exact hm.2 e he
    · rw [List.mem_singleton.1 he]
      exact proper_reads TokenMsg.proper_adds h2 TokenMsg.proper_empty
  | unknown h1 h2 => exact ⟨UnknownFrom.add hm.1 h1 h2, hm.2⟩
  | _ => exact hm

theorem DocReq.proper_empty : ({} : DocReq).Proper := ⟨UnknownFrom.nil, fun _ h => by cases h⟩

theorem ExprMsg.proper_adds (m : ExprMsg) (bs : Str) (m' : ExprMsg) (hm : m.Proper) (h : ExprMsg.Adds m bs m') : m'.Proper := by
  cases h <;> first | exact hm | exact UnknownFrom.add hm ‹_› ‹_›

theorem ExprMsg.proper_empty : ({} : ExprMsg).Proper := UnknownFrom.nil

theorem LogicMsg.proper_adds (m : LogicMsg) (bs : Str) (m' : LogicMsg) (hm : m.Proper) (h : LogicMsg.Adds m bs m') : m'.Proper := by
  cases h with
  | expr h1 h2 =>
    refine ⟨hm.1, fun e he => ?_⟩
    simp only [Option.some.injEq] at he
    subst he
    refine proper_reads ExprMsg.proper_adds h2 ?_
    cases hx : m.expr with
    | none => exact ExprMsg.proper_empty
    | some e => exact hm.2 e hx
  | unknown h1 h2 => exact ⟨UnknownFrom.add hm.1 h1 h2, hm.2⟩
  | _ => exact hm

theorem LogicMsg.proper_empty : ({} : LogicMsg).Proper := ⟨UnknownFrom.nil, fun _ h => by cases h⟩

theorem SearchMsg.proper_adds (m : SearchMsg) (bs : Str) (m' : SearchMsg) (hm : m.Proper) (h : SearchMsg.Adds m bs m') : m'.Proper := by
  cases h with
  | logic h1 h2 =>
    refine ⟨hm.1, fun e he => ?_⟩
    simp only [Option.some.injEq] at he
    subst he
    refine proper_reads LogicMsg.proper_adds h2 ?_
    cases hx : m.logic with
    | none => exact LogicMsg.proper_empty
    | some e => exact hm.2 e hx
  | unknown h1 h2 => exact ⟨UnknownFrom.add hm.1 h1 h2, hm.2⟩
  | _ => exact hm

theorem SearchMsg.proper_empty : ({} : SearchMsg).Proper := ⟨UnknownFrom.nil, fun _ h => by cases h⟩

theorem AttriMsg.proper_adds (m : AttriMsg) (bs : Str) (m' : AttriMsg) (hm : m.Proper) (h : AttriMsg.Adds m bs m') : m'.Proper := by
  cases h <;> first | exact hm | exact UnknownFrom.add hm ‹_› ‹_›

theorem AttriMsg.proper_empty : ({} : AttriMsg).Proper := UnknownFrom.nil

theorem TextMsg.proper_adds (m : TextMsg) (bs : Str) (m' : TextMsg) (hm : m.Proper) (h : TextMsg.Adds m bs m') : m'.Proper := by
  cases h with
  | attri h1 h2 =>
    refine ⟨hm.1, fun e he => ?_⟩
    simp only [Option.some.injEq] at he
    subst he
    refine proper_reads AttriMsg.proper_adds h2 ?_
    cases hx : m.attri with
    | none => exact AttriMsg.proper_empty
    | some e => exact hm.2 e hx
  | unknown h1 h2 => exact ⟨UnknownFrom.add hm.1 h1 h2, hm.2⟩
  | _ => exact hm

theorem TextMsg.proper_empty : ({} : TextMsg).Proper := ⟨UnknownFrom.nil, fun _ h => by cases h⟩

theorem ReplyMsg.proper_adds (m : ReplyMsg) (bs : Str) (m' : ReplyMsg) (hm : m.Proper) (h : ReplyMsg.Adds m bs m') : m'.Proper := by
  cases h with
  | doc h1 h2 =>
    refine ⟨hm.1, fun e he => ?_⟩
    rcases List.mem_append.1 he with he | he
    · exact hm.2 e he
    · rw [List.mem_singleton.1 he]
      exact proper_reads TextMsg.proper_adds h2 TextMsg.proper_empty
  | unknown h1 h2 => exact ⟨UnknownFrom.add hm.1 h1 h2, hm.2⟩
  | _ => exact hm

theorem ReplyMsg.proper_empty : ({} : ReplyMsg).Proper := ⟨UnknownFrom.nil, fun _ h => by cases h⟩

/-- C115 for `HeartReq`: what was received and is sent on is received as the same message. -/
theorem C115_HeartReq {d : Str} {m : HeartReq} (h : Reads HeartReq.Adds {} d m) (hs : m.size < 2 ^ 63) :
    ∃ bs : Str, m.marshal = some bs ∧ ({} : HeartReq).unmarshal bs = .ok m := by
  obtain ⟨bs, h1, -, -, h2⟩ := C111_HeartReq m (proper_reads HeartReq.proper_adds h HeartReq.proper_empty) hs
  exact ⟨bs, h1, h2⟩

/-- C115 for `Reply`: what was received and is sent on is received as the same message. -/
theorem C115_Reply {d : Str} {m : Reply} (h : Reads Reply.Adds {} d m) (hs : m.size < 2 ^ 63) :
    ∃ bs : Str, m.marshal = some bs ∧ ({} : Reply).unmarshal bs = .ok m := by
  obtain ⟨bs, h1, -, -, h2⟩ := C111_Reply m (proper_reads Reply.proper_adds h Reply.proper_empty) hs
  exact ⟨bs, h1, h2⟩

/-- C115 for `DeleteReq`: what was received and is sent on is received as the same message. -/
theorem C115_DeleteReq {d : Str} {m : DeleteReq} (h : Reads DeleteReq.Adds {} d m) (hs : m.size < 2 ^ 63) :
    ∃ bs : Str, m.marshal = some bs ∧ ({} : DeleteReq).unmarshal bs = .ok m := by
  obtain ⟨bs, h1, -, -, h2⟩ := C111_DeleteReq m (proper_reads DeleteReq.proper_adds h DeleteReq.proper_empty) hs
  exact ⟨bs, h1, h2⟩

/-- C115 for `TokenData`: what was received and is sent on is received as the same message. -/
theorem C115_TokenData {d : Str} {m : TokenMsg} (h : Reads TokenMsg.Adds {} d m) (hs : m.size < 2 ^ 63) :
    ∃ bs : Str, m.marshal = some bs ∧ ({} : TokenMsg).unmarshal bs = .ok m := by
  obtain ⟨bs, h1, -, -, h2⟩ := C111_TokenData m (proper_reads TokenMsg.proper_adds h TokenMsg.proper_empty) hs
  exact ⟨bs, h1, h2⟩

/-- C115 for `DocReq`: what was received and is sent on is received as the same message. -/
theorem C115_DocReq {d : Str} {m : DocReq} (h : Reads DocReq.Adds {} d m) (hs : m.size < 2 ^ 63) :
    ∃ bs : Str, m.marshal = some bs ∧ ({} : DocReq).unmarshal bs = .ok m := by
  obtain ⟨bs, h1, -, -, h2⟩ := C111_DocReq m (proper_reads DocReq.proper_adds h DocReq.proper_empty) hs
  exact ⟨bs, h1, h2⟩

/-- C115 for `Expr`: what was received and is sent on is received as the same message. -/
theorem C115_Expr {d : Str} {m : ExprMsg} (h : Reads ExprMsg.Adds {} d m) (hs : m.size < 2 ^ 63) :
    ∃ bs : Str, m.marshal = some bs ∧ ({} : ExprMsg).unmarshal bs = .ok m := by
  obtain ⟨bs, h1, -, -, h2⟩ := C111_Expr m (proper_reads ExprMsg.proper_adds h ExprMsg.proper_empty) hs
  exact ⟨bs, h1, h2⟩

/-- C115 for `Logic`: what was received and is sent on is received as the same message. -/
theorem C115_Logic {d : Str} {m : LogicMsg} (h : Reads LogicMsg.Adds {} d m) (hs : m.size < 2 ^ 63) :
    ∃ bs : Str, m.marshal = some bs ∧ ({} : LogicMsg).unmarshal bs = .ok m := by
  obtain ⟨bs, h1, -, -, h2⟩ := C111_Logic m (proper_reads LogicMsg.proper_adds h LogicMsg.proper_empty) hs
  exact ⟨bs, h1, h2⟩

/-- C115 for `SearchReq`: what was received and is sent on is received as the same message, whatever the order of the map.
An empty map cannot be received. -/
theorem C115_SearchReq {d : Str} {m : SearchMsg} (h : Reads SearchMsg.Adds {} d m) (hs : m.size < 2 ^ 63) (order : List (Str × Bool))
    (ho : order.Perm (entriesOf m.docIds)) :
    ∃ (bs : Str) (ids : Option (GoMap Bool)), m.marshal order = some bs ∧ ArrivesAs m.docIds ids ∧
      ({} : SearchMsg).unmarshal bs = .ok { m with docIds := ids } := by
  obtain ⟨bs, ids, h1, -, h2, -, h3⟩ := C111_SearchReq m order ho (proper_reads SearchMsg.proper_adds h SearchMsg.proper_empty) hs
  exact ⟨bs, ids, h1, h2, h3⟩

/-- C115 for `Attri`: what was received and is sent on is received as the same message. -/
theorem C115_Attri {d : Str} {m : AttriMsg} (h : Reads AttriMsg.Adds {} d m) (hs : m.size < 2 ^ 63) :
    ∃ bs : Str, m.marshal = some bs ∧ ({} : AttriMsg).unmarshal bs = .ok m := by
  obtain ⟨bs, h1, -, -, h2⟩ := C111_Attri m (proper_reads AttriMsg.proper_adds h AttriMsg.proper_empty) hs
  exact ⟨bs, h1, h2⟩

/-- C115 for `Text`: what was received and is sent on is received as the same message. -/
theorem C115_Text {d : Str} {m : TextMsg} (h : Reads TextMsg.Adds {} d m) (hs : m.size < 2 ^ 63) :
    ∃ bs : Str, m.marshal = some bs ∧ ({} : TextMsg).unmarshal bs = .ok m := by
  obtain ⟨bs, h1, -, -, h2⟩ := C111_Text m (proper_reads TextMsg.proper_adds h TextMsg.proper_empty) hs
  exact ⟨bs, h1, h2⟩

/-- C115 for `SearchReply`: what was received and is sent on is received as the same message. -/
theorem C115_SearchReply {d : Str} {m : ReplyMsg} (h : Reads ReplyMsg.Adds {} d m) (hs : m.size < 2 ^ 63) :
    ∃ bs : Str, m.marshal = some bs ∧ ({} : ReplyMsg).unmarshal bs = .ok m := by
  obtain ⟨bs, h1, -, -, h2⟩ := C111_SearchReply m (proper_reads ReplyMsg.proper_adds h ReplyMsg.proper_empty) hs
  exact ⟨bs, h1, h2⟩

/-- The message of `odd_reads`, with its unknown group, is sent on in its shortest form, with the unknown group. -/
example : ({ docId := [98], unrecognized := [0x13, 0x18, 5, 0x14] } : DeleteReq).size < 2 ^ 63 ∧
    ({ docId := [98], unrecognized := [0x13, 0x18, 5, 0x14] } : DeleteReq).marshal =
      some [0x0a, 1, 98, 0x13, 0x18, 5, 0x14] := by
  refine ⟨by decide +kernel, by decide +kernel⟩

end Riot.Wire
