import Verif.Model.Wire

/-!
# The wire format, independently of the code

The encoding of protocol buffers (developers.google.com/protocol-buffers/docs/encoding) and the file
net/grpc/riot-pb/doc.proto, read as relations between bytes and messages. Nothing here is computed by the functions of
`Model/Wire`; only its message types are used.
-/

namespace Riot.Wire

/-- Groups of seven bits, the least significant first; the high bit is set on all bytes but the last. -/
inductive Varint : Str → Nat → Prop
  | last (b : Fin 256) (h : b.val < 128) : Varint [b] b.val
  | more (b : Fin 256) (h : 128 ≤ b.val) {bs : Str} {n : Nat} (t : Varint bs n) :
      Varint (b :: bs) (b.val - 128 + 128 * n)

/-- A varint of the wire format: at most ten bytes, a number of 64 bits. (It need not be the shortest one.) -/
def IsVarint (bs : Str) (n : Nat) : Prop := Varint bs n ∧ bs.length ≤ 10 ∧ n < 2 ^ 64

/-- What a field of a message carries. -/
inductive Payload
  | varint (n : Nat)
  | fixed64 (bs : Str)
  | len (bs : Str)
  | group (bs : Str)
  | fixed32 (bs : Str)

mutual

/-- `bs` is one field with the number `num`: a tag, which has the number and the type, and the payload. -/
inductive Record : Str → Nat → Payload → Prop
  | varint {t v : Str} {num n : Nat} (hn : 1 ≤ num ∧ num < 2 ^ 29) (ht : IsVarint t (8 * num)) (hv : IsVarint v n) :
      Record (t ++ v) num (.varint n)
  | fixed64 {t p : Str} {num : Nat} (hn : 1 ≤ num ∧ num < 2 ^ 29) (ht : IsVarint t (8 * num + 1)) (hp : p.length = 8) :
      Record (t ++ p) num (.fixed64 p)
  | len {t k p : Str} {num : Nat} (hn : 1 ≤ num ∧ num < 2 ^ 29) (ht : IsVarint t (8 * num + 2))
      (hk : IsVarint k p.length) : Record (t ++ k ++ p) num (.len p)
  | group {t p e : Str} {num : Nat} (hn : 1 ≤ num ∧ num < 2 ^ 29) (ht : IsVarint t (8 * num + 3)) (hp : Records p)
      (he : IsVarint e (8 * num + 4)) : Record (t ++ p ++ e) num (.group p)
  | fixed32 {t p : Str} {num : Nat} (hn : 1 ≤ num ∧ num < 2 ^ 29) (ht : IsVarint t (8 * num + 5)) (hp : p.length = 4) :
      Record (t ++ p) num (.fixed32 p)

/-- A sequence of fields. -/
inductive Records : Str → Prop
  | nil : Records []
  | cons {bs rest : Str} {num : Nat} {p : Payload} (h : Record bs num p) (t : Records rest) : Records (bs ++ rest)

end

/-- Reading fields one after the other: `adds m bs m'` says what the field `bs` makes of `m`. -/
inductive Reads {M : Type} (adds : M → Str → M → Prop) : M → Str → M → Prop
  | nil (m : M) : Reads adds m [] m
  | cons {m m' m'' : M} {bs rest : Str} (h : adds m bs m') (t : Reads adds m' rest m'') :
      Reads adds m (bs ++ rest) m''

/-- `message HeartReq` -/
inductive HeartReq.Adds (m : HeartReq) : Str → HeartReq → Prop
  | msg {bs n} : Record bs 1 (.varint n) → Adds m bs { m with msg := BitVec.ofNat 32 n }
  | unknown {bs num p} : Record bs num p → 2 ≤ num → Adds m bs { m with unrecognized := m.unrecognized ++ bs }

/-- `message Reply` -/
inductive Reply.Adds (m : Reply) : Str → Reply → Prop
  | result {bs n} : Record bs 1 (.varint n) → Adds m bs { m with result := BitVec.ofNat 32 n }
  | unknown {bs num p} : Record bs num p → 2 ≤ num → Adds m bs { m with unrecognized := m.unrecognized ++ bs }

/-- `message DeleteReq` -/
inductive DeleteReq.Adds (m : DeleteReq) : Str → DeleteReq → Prop
  | docId {bs s} : Record bs 1 (.len s) → Adds m bs { m with docId := s }
  | unknown {bs num p} : Record bs num p → 2 ≤ num → Adds m bs { m with unrecognized := m.unrecognized ++ bs }

/-- A packed list of numbers: varints one after the other. -/
inductive Packed : Str → List Nat → Prop
  | nil : Packed [] []
  | cons {v bs : Str} {n : Nat} {ns : List Nat} (h : IsVarint v n) (t : Packed bs ns) : Packed (v ++ bs) (n :: ns)

/-- `message TokenData`; the locations may come one by one or packed. -/
inductive TokenMsg.Adds (m : TokenMsg) : Str → TokenMsg → Prop
  | text {bs s} : Record bs 1 (.len s) → Adds m bs { m with text := s }
  | location {bs n} : Record bs 2 (.varint n) → Adds m bs { m with locations := m.locations ++ [BitVec.ofNat 32 n] }
  | locations {bs p ns} : Record bs 2 (.len p) → Packed p ns →
      Adds m bs { m with locations := m.locations ++ ns.map (BitVec.ofNat 32) }
  | unknown {bs num p} : Record bs num p → 3 ≤ num → Adds m bs { m with unrecognized := m.unrecognized ++ bs }

/-- `message DocReq` -/
inductive DocReq.Adds (m : DocReq) : Str → DocReq → Prop
  | docId {bs s} : Record bs 1 (.len s) → Adds m bs { m with docId := s }
  | content {bs s} : Record bs 2 (.len s) → Adds m bs { m with content := s }
  | attri {bs s} : Record bs 3 (.len s) → Adds m bs { m with attri := s }
  | token {bs p t} : Record bs 4 (.len p) → Reads TokenMsg.Adds {} p t → Adds m bs { m with tokens := m.tokens ++ [t] }
  | label {bs s} : Record bs 5 (.len s) → Adds m bs { m with labels := m.labels ++ [s] }
  | fields {bs s} : Record bs 6 (.len s) → Adds m bs { m with fields := s }
  | forceUpdate {bs n} : Record bs 7 (.varint n) → Adds m bs { m with forceUpdate := n ≠ 0 }
  | unknown {bs num p} : Record bs num p → 8 ≤ num → Adds m bs { m with unrecognized := m.unrecognized ++ bs }

/-- `message Expr` -/
inductive ExprMsg.Adds (m : ExprMsg) : Str → ExprMsg → Prop
  | must {bs s} : Record bs 1 (.len s) → Adds m bs { m with must := m.must ++ [s] }
  | should {bs s} : Record bs 2 (.len s) → Adds m bs { m with should := m.should ++ [s] }
  | notIn {bs s} : Record bs 3 (.len s) → Adds m bs { m with notIn := m.notIn ++ [s] }
  | unknown {bs num p} : Record bs num p → 4 ≤ num → Adds m bs { m with unrecognized := m.unrecognized ++ bs }

/-- `message Logic`; a second `expr` is merged into the first. -/
inductive LogicMsg.Adds (m : LogicMsg) : Str → LogicMsg → Prop
  | must {bs n} : Record bs 1 (.varint n) → Adds m bs { m with must := n ≠ 0 }
  | should {bs n} : Record bs 2 (.varint n) → Adds m bs { m with should := n ≠ 0 }
  | notIn {bs n} : Record bs 3 (.varint n) → Adds m bs { m with notIn := n ≠ 0 }
  | expr {bs p e} : Record bs 4 (.len p) → Reads ExprMsg.Adds (m.expr.getD {}) p e → Adds m bs { m with expr := some e }
  | unknown {bs num p} : Record bs num p → 5 ≤ num → Adds m bs { m with unrecognized := m.unrecognized ++ bs }

/-- An entry of `map<string, bool>` is a message with the key in field 1 and the value in field 2. -/
inductive EntryAdds (e : Str × Bool) : Str → Str × Bool → Prop
  | key {bs s} : Record bs 1 (.len s) → EntryAdds e bs (s, e.2)
  | value {bs n} : Record bs 2 (.varint n) → EntryAdds e bs (e.1, n ≠ 0)
  | unknown {bs num p} : Record bs num p → 3 ≤ num → EntryAdds e bs e

/-- `message SearchReq` -/
inductive SearchMsg.Adds (m : SearchMsg) : Str → SearchMsg → Prop
  | id {bs s} : Record bs 1 (.len s) → Adds m bs { m with id := s }
  | query {bs s} : Record bs 2 (.len s) → Adds m bs { m with query := s }
  | outputOffset {bs n} : Record bs 3 (.varint n) → Adds m bs { m with outputOffset := BitVec.ofNat 32 n }
  | maxOutputs {bs n} : Record bs 4 (.varint n) → Adds m bs { m with maxOutputs := BitVec.ofNat 32 n }
  | time {bs s} : Record bs 5 (.len s) → Adds m bs { m with time := s }
  | docId {bs p e} : Record bs 6 (.len p) → Reads EntryAdds ([], false) p e →
      Adds m bs { m with docIds := some ((m.docIds.getD GoMap.empty).set e.1 e.2) }
  | logic {bs p e} : Record bs 7 (.len p) → Reads LogicMsg.Adds (m.logic.getD {}) p e →
      Adds m bs { m with logic := some e }
  | unknown {bs num p} : Record bs num p → 8 ≤ num → Adds m bs { m with unrecognized := m.unrecognized ++ bs }

/-- `message Attri` -/
inductive AttriMsg.Adds (m : AttriMsg) : Str → AttriMsg → Prop
  | title {bs s} : Record bs 1 (.len s) → Adds m bs { m with title := s }
  | author {bs s} : Record bs 2 (.len s) → Adds m bs { m with author := s }
  | time {bs s} : Record bs 3 (.len s) → Adds m bs { m with time := s }
  | ts {bs n} : Record bs 4 (.varint n) → Adds m bs { m with ts := BitVec.ofNat 64 n }
  | unknown {bs num p} : Record bs num p → 5 ≤ num → Adds m bs { m with unrecognized := m.unrecognized ++ bs }

/-- `message Text` -/
inductive TextMsg.Adds (m : TextMsg) : Str → TextMsg → Prop
  | id {bs s} : Record bs 1 (.len s) → Adds m bs { m with id := s }
  | content {bs s} : Record bs 2 (.len s) → Adds m bs { m with content := s }
  | attri {bs p a} : Record bs 3 (.len p) → Reads AttriMsg.Adds (m.attri.getD {}) p a →
      Adds m bs { m with attri := some a }
  | unknown {bs num p} : Record bs num p → 4 ≤ num → Adds m bs { m with unrecognized := m.unrecognized ++ bs }

/-- `message SearchReply` -/
inductive ReplyMsg.Adds (m : ReplyMsg) : Str → ReplyMsg → Prop
  | code {bs n} : Record bs 1 (.varint n) → Adds m bs { m with code := BitVec.ofNat 32 n }
  | len {bs n} : Record bs 2 (.varint n) → Adds m bs { m with len := BitVec.ofNat 32 n }
  | timestamp {bs n} : Record bs 3 (.varint n) → Adds m bs { m with timestamp := BitVec.ofNat 64 n }
  | doc {bs p t} : Record bs 4 (.len p) → Reads TextMsg.Adds {} p t → Adds m bs { m with docs := m.docs ++ [t] }
  | unknown {bs num p} : Record bs num p → 5 ≤ num → Adds m bs { m with unrecognized := m.unrecognized ++ bs }

/-- A sequence of fields that all have numbers from `lo` on: such bytes are kept in `XXX_unrecognized`. -/
inductive UnknownFrom (lo : Nat) : Str → Prop
  | nil : UnknownFrom lo []
  | cons {bs rest : Str} {num : Nat} {p : Payload} (h : Record bs num p) (hn : lo ≤ num) (t : UnknownFrom lo rest) :
      UnknownFrom lo (bs ++ rest)

/-! Messages whose `XXX_unrecognized` has only fields that doc.proto does not have; it is empty in every message that a
program makes itself. -/

/-- `HeartReq` -/
def HeartReq.Proper (m : HeartReq) : Prop := UnknownFrom 2 m.unrecognized
/-- `Reply` -/
def Reply.Proper (m : Reply) : Prop := UnknownFrom 2 m.unrecognized
/-- `DeleteReq` -/
def DeleteReq.Proper (m : DeleteReq) : Prop := UnknownFrom 2 m.unrecognized
/-- `TokenData` -/
def TokenMsg.Proper (m : TokenMsg) : Prop := UnknownFrom 3 m.unrecognized
/-- `DocReq` -/
def DocReq.Proper (m : DocReq) : Prop := UnknownFrom 8 m.unrecognized ∧ ∀ t ∈ m.tokens, t.Proper
/-- `Expr` -/
def ExprMsg.Proper (m : ExprMsg) : Prop := UnknownFrom 4 m.unrecognized
/-- `Logic` -/
def LogicMsg.Proper (m : LogicMsg) : Prop := UnknownFrom 5 m.unrecognized ∧ ∀ e, m.expr = some e → e.Proper
/-- `SearchReq` -/
def SearchMsg.Proper (m : SearchMsg) : Prop := UnknownFrom 8 m.unrecognized ∧ ∀ e, m.logic = some e → e.Proper
/-- `Attri` -/
def AttriMsg.Proper (m : AttriMsg) : Prop := UnknownFrom 5 m.unrecognized
/-- `Text` -/
def TextMsg.Proper (m : TextMsg) : Prop := UnknownFrom 4 m.unrecognized ∧ ∀ a, m.attri = some a → a.Proper
/-- `SearchReply` -/
def ReplyMsg.Proper (m : ReplyMsg) : Prop := UnknownFrom 5 m.unrecognized ∧ ∀ t ∈ m.docs, t.Proper

/-- What a map that may be nil has at a key. -/
def idAt (d : Option (GoMap Bool)) (k : Str) : Option Bool := d.bind fun g => g.get k

/-- The map as it arrives: the same entries; an empty map arrives as the nil map. -/
def ArrivesAs (d d' : Option (GoMap Bool)) : Prop :=
  (∀ k, idAt d' k = idAt d k) ∧ (d' = none ↔ ∀ k, idAt d k = none)

/-- A call ended, with a value or an error. -/
def Out.Ended {α : Type} : Out α → Prop
  | .ok _ => True
  | .err => True
  | .panic => False
  | .hang => False

/-- Somewhere in the bytes there is a varint whose number, as a 64-bit integer, is not negative but so large that a field
of this length would end at or beyond position `2 ^ 63`. -/
def HugeLength (bs : Str) : Prop :=
  ∃ (p : Str) (n : Nat), p <:+: bs ∧ Varint p n ∧ n % 2 ^ 64 < 2 ^ 63 ∧ 2 ^ 63 ≤ n % 2 ^ 64 + bs.length

/-- The bytes contain four bytes 255 in a row. -/
def FourFF (bs : Str) : Prop := ([255, 255, 255, 255] : Str) <:+: bs

end Riot.Wire
