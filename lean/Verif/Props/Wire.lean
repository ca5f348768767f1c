import Verif.Proofs.WireMsgs
import Verif.Spec.Wire

/-!
# C110, C111: the messages of the gRPC service on the wire

C110: whatever a program that follows doc.proto sends, in any order of the fields, with packed or single numbers, with
numbers in longer form than necessary and with fields this version does not know, is read as protocol buffers say.
C111: what this program sends follows doc.proto, has exactly the announced size, and is read back as the same message.
-/

namespace Riot.Wire

/-- C110 for `HeartReq`: the bytes of any sequence of fields are understood. -/
theorem C110_HeartReq {m m' : HeartReq} {bs : Str} (h : Reads HeartReq.Adds m bs m') (hl : bs.length < 2 ^ 63) :
    m.unmarshal bs = .ok m' :=
  unmarshal_reads HeartReq.handles h hl

/-- C110 for `Reply`: the bytes of any sequence of fields are understood. -/
theorem C110_Reply {m m' : Reply} {bs : Str} (h : Reads Reply.Adds m bs m') (hl : bs.length < 2 ^ 63) :
    m.unmarshal bs = .ok m' :=
  unmarshal_reads Reply.handles h hl

/-- C110 for `DeleteReq`: the bytes of any sequence of fields are understood. -/
theorem C110_DeleteReq {m m' : DeleteReq} {bs : Str} (h : Reads DeleteReq.Adds m bs m') (hl : bs.length < 2 ^ 63) :
    m.unmarshal bs = .ok m' :=
  unmarshal_reads DeleteReq.handles h hl

/-- C110 for `TokenData`: the bytes of any sequence of fields are understood. -/
theorem C110_TokenData {m m' : TokenMsg} {bs : Str} (h : Reads TokenMsg.Adds m bs m') (hl : bs.length < 2 ^ 63) :
    m.unmarshal bs = .ok m' :=
  unmarshal_reads TokenMsg.handles h hl

/-- C110 for `DocReq`: the bytes of any sequence of fields are understood. -/
theorem C110_DocReq {m m' : DocReq} {bs : Str} (h : Reads DocReq.Adds m bs m') (hl : bs.length < 2 ^ 63) :
    m.unmarshal bs = .ok m' :=
  unmarshal_reads DocReq.handles h hl

/-- C110 for `Expr`: the bytes of any sequence of fields are understood. -/
theorem C110_Expr {m m' : ExprMsg} {bs : Str} (h : Reads ExprMsg.Adds m bs m') (hl : bs.length < 2 ^ 63) :
    m.unmarshal bs = .ok m' :=
  unmarshal_reads ExprMsg.handles h hl

/-- C110 for `Logic`: the bytes of any sequence of fields are understood. -/
theorem C110_Logic {m m' : LogicMsg} {bs : Str} (h : Reads LogicMsg.Adds m bs m') (hl : bs.length < 2 ^ 63) :
    m.unmarshal bs = .ok m' :=
  unmarshal_reads LogicMsg.handles h hl

/-- C110 for `SearchReq`: the bytes of any sequence of fields are understood. -/
theorem C110_SearchReq {m m' : SearchMsg} {bs : Str} (h : Reads SearchMsg.Adds m bs m') (hl : bs.length < 2 ^ 63) :
    m.unmarshal bs = .ok m' :=
  unmarshal_reads SearchMsg.handles h hl

/-- C110 for `Attri`: the bytes of any sequence of fields are understood. -/
theorem C110_Attri {m m' : AttriMsg} {bs : Str} (h : Reads AttriMsg.Adds m bs m') (hl : bs.length < 2 ^ 63) :
    m.unmarshal bs = .ok m' :=
  unmarshal_reads AttriMsg.handles h hl

/-- C110 for `Text`: the bytes of any sequence of fields are understood. -/
theorem C110_Text {m m' : TextMsg} {bs : Str} (h : Reads TextMsg.Adds m bs m') (hl : bs.length < 2 ^ 63) :
    m.unmarshal bs = .ok m' :=
  unmarshal_reads TextMsg.handles h hl

/-- C110 for `SearchReply`: the bytes of any sequence of fields are understood. -/
theorem C110_SearchReply {m m' : ReplyMsg} {bs : Str} (h : Reads ReplyMsg.Adds m bs m') (hl : bs.length < 2 ^ 63) :
    m.unmarshal bs = .ok m' :=
  unmarshal_reads ReplyMsg.handles h hl

/-- The bytes of a message written into a slice of its size. -/
theorem marshalBy_writes {body : Buf → Option Buf} {bs : Str} (h : Writes body bs) : marshalBy bs.length body = some bs := by
  have := h { room := bs.length } (le_refl _)
  simp only [marshalBy, this, Option.map_some, List.nil_append]

/-- C111 for `HeartReq`: it is written without a crash, in the announced size, as doc.proto says, and read back. -/
theorem C111_HeartReq (m : HeartReq) (hp : m.Proper) (hs : m.size < 2 ^ 63) :
    ∃ bs : Str, m.marshal = some bs ∧ bs.length = m.size ∧ Reads HeartReq.Adds {} bs m ∧
      ({} : HeartReq).unmarshal bs = .ok m := by
  obtain ⟨bs, hw, hl, hr⟩ := m.good hp hs
  refine ⟨bs, ?_, hl, hr, C110_HeartReq hr (by omega)⟩
  rw [HeartReq.marshal, ← hl]; exact marshalBy_writes hw

/-- C111 for `Reply`: it is written without a crash, in the announced size, as doc.proto says, and read back. -/
theorem C111_Reply (m : Reply) (hp : m.Proper) (hs : m.size < 2 ^ 63) :
    ∃ bs : Str, m.marshal = some bs ∧ bs.length = m.size ∧ Reads Reply.Adds {} bs m ∧
      ({} : Reply).unmarshal bs = .ok m := by
  obtain ⟨bs, hw, hl, hr⟩ := m.good hp hs
  refine ⟨bs, ?_, hl, hr, C110_Reply hr (by omega)⟩
  rw [Reply.marshal, ← hl]; exact marshalBy_writes hw

/-- C111 for `DeleteReq`: it is written without a crash, in the announced size, as doc.proto says, and read back. -/
theorem C111_DeleteReq (m : DeleteReq) (hp : m.Proper) (hs : m.size < 2 ^ 63) :
    ∃ bs : Str, m.marshal = some bs ∧ bs.length = m.size ∧ Reads DeleteReq.Adds {} bs m ∧
      ({} : DeleteReq).unmarshal bs = .ok m := by
  obtain ⟨bs, hw, hl, hr⟩ := m.good hp hs
  refine ⟨bs, ?_, hl, hr, C110_DeleteReq hr (by omega)⟩
  rw [DeleteReq.marshal, ← hl]; exact marshalBy_writes hw

/-- C111 for `TokenData`: it is written without a crash, in the announced size, as doc.proto says, and read back. -/
theorem C111_TokenData (m : TokenMsg) (hp : m.Proper) (hs : m.size < 2 ^ 63) :
    ∃ bs : Str, m.marshal = some bs ∧ bs.length = m.size ∧ Reads TokenMsg.Adds {} bs m ∧
      ({} : TokenMsg).unmarshal bs = .ok m := by
  obtain ⟨bs, hw, hl, hr⟩ := m.good hp hs
  refine ⟨bs, ?_, hl, hr, C110_TokenData hr (by omega)⟩
  rw [TokenMsg.marshal, ← hl]; exact marshalBy_writes hw

/-- C111 for `DocReq`: it is written without a crash, in the announced size, as doc.proto says, and read back. -/
theorem C111_DocReq (m : DocReq) (hp : m.Proper) (hs : m.size < 2 ^ 63) :
    ∃ bs : Str, m.marshal = some bs ∧ bs.length = m.size ∧ Reads DocReq.Adds {} bs m ∧
      ({} : DocReq).unmarshal bs = .ok m := by
  obtain ⟨bs, hw, hl, hr⟩ := m.good hp hs
  refine ⟨bs, ?_, hl, hr, C110_DocReq hr (by omega)⟩
  rw [DocReq.marshal, ← hl]; exact marshalBy_writes hw

/-- C111 for `Expr`: it is written without a crash, in the announced size, as doc.proto says, and read back. -/
theorem C111_Expr (m : ExprMsg) (hp : m.Proper) (hs : m.size < 2 ^ 63) :
    ∃ bs : Str, m.marshal = some bs ∧ bs.length = m.size ∧ Reads ExprMsg.Adds {} bs m ∧
      ({} : ExprMsg).unmarshal bs = .ok m := by
  obtain ⟨bs, hw, hl, hr⟩ := m.good hp hs
  refine ⟨bs, ?_, hl, hr, C110_Expr hr (by omega)⟩
  rw [ExprMsg.marshal, ← hl]; exact marshalBy_writes hw

/-- C111 for `Logic`: it is written without a crash, in the announced size, as doc.proto says, and read back. -/
theorem C111_Logic (m : LogicMsg) (hp : m.Proper) (hs : m.size < 2 ^ 63) :
    ∃ bs : Str, m.marshal = some bs ∧ bs.length = m.size ∧ Reads LogicMsg.Adds {} bs m ∧
      ({} : LogicMsg).unmarshal bs = .ok m := by
  obtain ⟨bs, hw, hl, hr⟩ := m.good hp hs
  refine ⟨bs, ?_, hl, hr, C110_Logic hr (by omega)⟩
  rw [LogicMsg.marshal, ← hl]; exact marshalBy_writes hw

/-- C111 for `Attri`: it is written without a crash, in the announced size, as doc.proto says, and read back. -/
theorem C111_Attri (m : AttriMsg) (hp : m.Proper) (hs : m.size < 2 ^ 63) :
    ∃ bs : Str, m.marshal = some bs ∧ bs.length = m.size ∧ Reads AttriMsg.Adds {} bs m ∧
      ({} : AttriMsg).unmarshal bs = .ok m := by
  obtain ⟨bs, hw, hl, hr⟩ := m.good hp hs
  refine ⟨bs, ?_, hl, hr, C110_Attri hr (by omega)⟩
  rw [AttriMsg.marshal, ← hl]; exact marshalBy_writes hw

/-- C111 for `Text`: it is written without a crash, in the announced size, as doc.proto says, and read back. -/
theorem C111_Text (m : TextMsg) (hp : m.Proper) (hs : m.size < 2 ^ 63) :
    ∃ bs : Str, m.marshal = some bs ∧ bs.length = m.size ∧ Reads TextMsg.Adds {} bs m ∧
      ({} : TextMsg).unmarshal bs = .ok m := by
  obtain ⟨bs, hw, hl, hr⟩ := m.good hp hs
  refine ⟨bs, ?_, hl, hr, C110_Text hr (by omega)⟩
  rw [TextMsg.marshal, ← hl]; exact marshalBy_writes hw

/-- C111 for `SearchReply`: it is written without a crash, in the announced size, as doc.proto says, and read back. -/
theorem C111_SearchReply (m : ReplyMsg) (hp : m.Proper) (hs : m.size < 2 ^ 63) :
    ∃ bs : Str, m.marshal = some bs ∧ bs.length = m.size ∧ Reads ReplyMsg.Adds {} bs m ∧
      ({} : ReplyMsg).unmarshal bs = .ok m := by
  obtain ⟨bs, hw, hl, hr⟩ := m.good hp hs
  refine ⟨bs, ?_, hl, hr, C110_SearchReply hr (by omega)⟩
  rw [ReplyMsg.marshal, ← hl]; exact marshalBy_writes hw

theorem idAt_foldl : ∀ (order : List (Str × Bool)) (d : Option (GoMap Bool)) (k : Str), (order.map Prod.fst).Nodup →
    idAt (order.foldl (fun d e => some ((d.getD GoMap.empty).set e.1 e.2)) d) k =
      ((order.find? fun e => e.1 = k).map (·.2)).or (idAt d k)
  | [], d, k, _ => by simp
  | e :: order, d, k, h => by
    rw [List.map_cons] at h
    obtain ⟨h1, h2⟩ := List.nodup_cons.1 h
    rw [List.foldl_cons, idAt_foldl order _ k h2]
    have hset : idAt (some ((d.getD GoMap.empty).set e.1 e.2)) k = if k = e.1 then some e.2 else idAt d k := by
      simp only [idAt, Option.bind_some, GoMap.get_set]
      cases d <;> simp
    rw [hset]
    by_cases hk : e.1 = k
    · have hno : order.find? (fun x => x.1 = k) = none := by
        rw [List.find?_eq_none]
        intro x hx hxk
        exact h1 (by rw [hk, ← of_decide_eq_true hxk]; exact List.mem_map_of_mem hx)
      simp [hk, hno]
    · have hk' : ¬ k = e.1 := fun h => hk h.symm
      simp [hk, hk']

theorem foldl_isSome : ∀ (order : List (Str × Bool)) (g : GoMap Bool),
    (order.foldl (fun d e => some ((d.getD GoMap.empty).set e.1 e.2)) (some g)) ≠ none
  | [], g => by simp
  | e :: order, g => by rw [List.foldl_cons]; exact foldl_isSome order _

/-- The entries arrive, in whatever order they were sent. -/
theorem arrivesAs (d : Option (GoMap Bool)) (order : List (Str × Bool)) (ho : order.Perm (entriesOf d)) :
    ArrivesAs d (arrived order) := by
  have hnd : ((entriesOf d).map Prod.fst).Nodup := by
    cases d with
    | none => simp [entriesOf]
    | some g => exact g.nodup
  have hnd' : (order.map Prod.fst).Nodup := (ho.map Prod.fst).nodup_iff.2 hnd
  have hat : ∀ k, idAt d k = ((entriesOf d).find? fun e => e.1 = k).map (·.2) := by
    intro k; cases d <;> rfl
  have key : ∀ k v, idAt d k = some v ↔ (k, v) ∈ order := by
    intro k v
    rw [ho.mem_iff]
    cases d with
    | none => simp [idAt, entriesOf]
    | some g => exact g.get_eq_some_iff k v
  have h1 : ∀ k, idAt (arrived order) k = idAt d k := by
    intro k
    have e1 : idAt (arrived order) k = (order.find? fun e => e.1 = k).map (·.2) := by
      rw [arrived, idAt_foldl order none k hnd']; simp [idAt]
    ext v
    rw [key k v, e1]
    exact (GoMap.get_eq_some_iff ⟨order, hnd'⟩ k v)
  refine ⟨h1, ?_⟩
  constructor
  · intro h k
    rw [← h1 k, h]; rfl
  · intro h
    cases order with
    | nil => rfl
    | cons e order =>
      have := (key e.1 e.2).2 (by simp)
      rw [h e.1] at this
      cases this

/-- C111 for `SearchReq`: for every order in which the entries of the map are visited. An empty map arrives as no map. -/
theorem C111_SearchReq (m : SearchMsg) (order : List (Str × Bool)) (ho : order.Perm (entriesOf m.docIds))
    (hp : m.Proper) (hs : m.size < 2 ^ 63) :
    ∃ (bs : Str) (d : Option (GoMap Bool)), m.marshal order = some bs ∧ bs.length = m.size ∧ ArrivesAs m.docIds d ∧
      Reads SearchMsg.Adds {} bs { m with docIds := d } ∧ ({} : SearchMsg).unmarshal bs = .ok { m with docIds := d } := by
  obtain ⟨bs, hw, hl, hr⟩ := m.good order ho hp hs
  refine ⟨bs, arrived order, ?_, hl, arrivesAs _ _ ho, hr, C110_SearchReq hr (by omega)⟩
  rw [SearchMsg.marshal, ← hl]; exact marshalBy_writes hw

/-! ## Examples -/

/-- A document with two tokens, one of them at a negative location. -/
def wireDoc : DocReq :=
  { docId := str "7", content := str "hi", tokens := [{ text := str "hi", locations := [0, 300] }, { text := [], locations := [-1] }]
    labels := [str "a", []], forceUpdate := true }

example : wireDoc.Proper ∧ wireDoc.size < 2 ^ 63 := by
  refine ⟨⟨UnknownFrom.nil, ?_⟩, by decide +kernel⟩
  intro t ht
  simp only [wireDoc, List.mem_cons, List.not_mem_nil, or_false] at ht
  rcases ht with rfl | rfl <;> exact UnknownFrom.nil

example : wireDoc.marshal = some [10, 1, 55, 18, 2, 104, 105, 34, 9, 10, 2, 104, 105, 18, 3, 0, 172, 2,
    34, 12, 18, 10, 255, 255, 255, 255, 255, 255, 255, 255, 255, 1, 42, 1, 97, 42, 0, 56, 1] := by decide +kernel

/-- A search restricted to two documents. -/
def wireSearch : SearchMsg :=
  { query := str "hi", maxOutputs := 10, docIds := some ((GoMap.empty.set (str "1") true).set (str "2") false)
    logic := some { must := true, expr := some { should := [str "x"] } } }

example : wireSearch.Proper ∧ wireSearch.size < 2 ^ 63 ∧
    [(str "1", true), (str "2", false)].Perm (entriesOf wireSearch.docIds) := by
  refine ⟨⟨UnknownFrom.nil, ?_⟩, by decide +kernel, by decide +kernel⟩
  intro e he
  simp only [wireSearch, Option.some.injEq] at he
  subst he
  refine ⟨UnknownFrom.nil, ?_⟩
  intro e he
  simp only [Option.some.injEq] at he
  subst he
  exact UnknownFrom.nil

/-- Bytes that another program may send: the tag and the length in longer form, an unknown group, the field twice. -/
def oddBytes : Str := [0x8a, 0x00, 0x81, 0x00, 97, 0x13, 0x18, 5, 0x14, 0x0a, 1, 98]

theorem odd_reads : Reads DeleteReq.Adds {} oddBytes { docId := [98], unrecognized := [0x13, 0x18, 5, 0x14] } := by
  have v (b : Fin 256) (h : b.val < 128) : IsVarint [b] b.val := ⟨.last b h, by simp, by omega⟩
  have v2 (b : Fin 256) (h : 128 ≤ b.val) : IsVarint [b, 0] (b.val - 128) := by
    have := Varint.more b h (Varint.last 0 (by decide))
    exact ⟨by simpa using this, by simp, by omega⟩
  have r1 : Record ([0x8a, 0x00] ++ [0x81, 0x00] ++ [97]) 1 (.len [97]) :=
    Record.len (by omega) (v2 0x8a (by decide)) (v2 0x81 (by decide))
  have inner : Record ([0x18] ++ [5]) 3 (.varint 5) := Record.varint (by omega) (v 0x18 (by decide)) (v 5 (by decide))
  have r2 : Record ([0x13] ++ ([0x18] ++ [5] ++ []) ++ [0x14]) 2 (.group ([0x18] ++ [5] ++ [])) :=
    Record.group (by omega) (v 0x13 (by decide)) (.cons inner .nil) (v 0x14 (by decide))
  have r3 : Record ([0x0a] ++ [1] ++ [98]) 1 (.len [98]) :=
    Record.len (by omega) (v 0x0a (by decide)) (v 1 (by decide))
  exact Reads.cons (DeleteReq.Adds.docId r1) (Reads.cons (DeleteReq.Adds.unknown r2 (by omega))
    (Reads.cons (DeleteReq.Adds.docId r3) (Reads.nil _)))

example : (({} : DeleteReq).unmarshal oddBytes) = .ok { docId := [98], unrecognized := [0x13, 0x18, 5, 0x14] } :=
  C110_DeleteReq odd_reads (by decide +kernel)

end Riot.Wire
