import Verif.Basic.GoMap
import Verif.Model.Int64

/-!
# The messages of the gRPC service on the wire

net/grpc/riot-pb/doc.pb.go: `Marshal`, `Size` and `Unmarshal` of the eleven messages, and `skipDoc`. The grpc library
(v1.27, encoding/proto) calls exactly these: `Marshal` on what is sent, `Reset` and `Unmarshal` on what is received.

A message being read is a list of bytes `bs`, the part of `dAtA` from `iNdEx` on; `l` is `len(dAtA)`, so `iNdEx` is
`l - bs.length`. Go's `int` has 64 bits and wraps around. The errors of `Unmarshal` are not told apart, and what it leaves
in the message when it fails is not modelled (the grpc library drops it). A nil slice and an empty slice are both `[]`;
pointers that may be nil and the map are `Option`. Repeated messages are lists of messages: a nil element, on which
`MarshalTo` crashes, has no counterpart. `deterministic` marshalling (by reflection) is not modelled.
-/

namespace Riot.Wire

/-- How a call ends: with a value, with an error, with a crash (an index or slice bound out of range), or never. -/
inductive Out (α : Type)
  | ok (a : α)
  | err
  | panic
  | hang
  deriving DecidableEq, Repr

/-- Go on with the value, if there is one. -/
def Out.bind {α β : Type} : Out α → (α → Out β) → Out β
  | .ok a, f => f a
  | .err, _ => .err
  | .panic, _ => .panic
  | .hang, _ => .hang

/-! ## Reading -/

/-- The loop `for shift := uint(0); ; shift += 7 {...}` that reads a varint into a variable of `w` bits, which is at each
place of doc.pb.go where one is read (for example 1815-1828, and 1842-1856 with `w = 32`). -/
def readVarint (w : Nat) : Nat → BitVec w → Str → Out (BitVec w × Str)
  | _, _, [] => .err
  | shift, acc, b :: bs =>
    if shift ≥ 64 then .err
    else if b.val < 128 then .ok (acc ||| (BitVec.ofNat w (b.val % 128) <<< shift), bs)
    else readVarint w (shift + 7) (acc ||| (BitVec.ofNat w (b.val % 128) <<< shift)) bs

/-- doc.pb.go:2163-2185: the length of a string, of bytes, of a message: it is read as a `uint64` or as an `int`; a
negative length and one that goes beyond the end are errors. Gives the index `postIndex` where the payload ends, and the
bytes from its first byte on. -/
def readLen (l : Nat) (bs : Str) : Out (Int × Str) :=
  (readVarint 64 0 0 bs).bind fun r =>
    if r.1.toInt < 0 then .err
    else if int64 ((l - r.2.length : Nat) + r.1.toInt) > l then .err
    else .ok (int64 ((l - r.2.length : Nat) + r.1.toInt), r.2)

/-- doc.pb.go:2163-2187 and the like: `dAtA[iNdEx:postIndex]` and then `iNdEx = postIndex`. (A slice beyond `len(dAtA)` is
counted as a crash, though Go allows it up to the capacity.) -/
def takeLen (l : Nat) (bs : Str) : Out (Str × Str) :=
  (readLen l bs).bind fun r =>
    if r.1 < (l - r.2.length : Nat) ∨ (l : Int) < r.1 then .panic
    else .ok (r.2.take (r.1.toNat - (l - r.2.length)), r.2.drop (r.1.toNat - (l - r.2.length)))

/-- doc.pb.go:3493-3504: the loop over a varint of no interest. -/
def passVarint : Nat → Str → Out Str
  | _, [] => .err
  | shift, b :: bs =>
    if shift ≥ 64 then .err
    else if b.val < 128 then .ok bs
    else passVarint (shift + 7) bs

mutual

/-- doc.pb.go:3471-3569 `skipDoc`: the number of bytes of the field at the beginning of `d`. The first number bounds the
steps (`Out.hang` if it does not suffice; C113 shows that it does). -/
def skipDoc : Nat → Str → Out Int
  | 0, _ => .hang
  | _ + 1, [] => .panic
  | n + 1, b :: d =>
    (readVarint 64 0 0 (b :: d)).bind fun r =>
      match r.1.toNat % 8 with
      | 0 => (passVarint 0 r.2).bind fun rest => .ok ((d.length + 1 - rest.length : Nat) : Int)
      | 1 => .ok ((d.length + 1 - r.2.length + 8 : Nat) : Int)
      | 2 => (readVarint 64 0 0 r.2).bind fun q =>
          if q.1.toInt < 0 then .err
          else .ok (int64 ((d.length + 1 - q.2.length : Nat) + q.1.toInt))
      | 3 => skipGroup n (b :: d) r.2
      | 4 => .ok ((d.length + 1 - r.2.length : Nat) : Int)
      | 5 => .ok ((d.length + 1 - r.2.length + 4 : Nat) : Int)
      | _ => .err

/-- doc.pb.go:3531-3558: the fields of a group up to the end mark. `bs` is `dAtA[iNdEx:]`. -/
def skipGroup : Nat → Str → Str → Out Int
  | 0, _, _ => .hang
  | n + 1, d, bs =>
    (readVarint 64 0 0 bs).bind fun r =>
      if r.1.toNat % 8 = 4 then .ok ((d.length - r.2.length : Nat) : Int)
      else
        (skipDoc n bs).bind fun next =>
          if int64 ((d.length - bs.length : Nat) + next) < 0 then .panic
          else skipGroup n d (d.drop (int64 ((d.length - bs.length : Nat) + next)).toNat)

end

/-- doc.pb.go:1858-1870 (the `default:` of each switch): pass over an unknown field that begins at `bs`; it may not end
beyond `bound`. Gives the bytes of the field and the rest. -/
def unknownField (l : Nat) (bound : Int) (bs : Str) : Out (Str × Str) :=
  (skipDoc (2 * bs.length + 2) bs).bind fun skippy =>
    if skippy < 0 then .err
    else if int64 ((l - bs.length : Nat) + skippy) > bound then .err
    else if int64 ((l - bs.length : Nat) + skippy) < (l - bs.length : Nat) ∨
        (l : Int) < int64 ((l - bs.length : Nat) + skippy) then .panic
    else .ok (bs.take skippy.toNat, bs.drop skippy.toNat)

/-- The `switch fieldNum` of a message: from `l`, the message so far, the field number, the wire type and the bytes after
the tag, what the case does; `none` is the default case. -/
abbrev Switch (M : Type) := Nat → M → Nat → Nat → Str → Option (Out (M × Str))

/-- doc.pb.go:1809-1878 and the same in the other messages: the loop of `Unmarshal`. The first number bounds the steps
(`Out.hang` if it does not suffice). -/
def decodeLoop {M : Type} (sw : Switch M) (unk : M → Str → M) (l : Nat) : Nat → M → Str → Out M
  | _, m, [] => .ok m
  | 0, _, _ :: _ => .hang
  | n + 1, m, b :: bs =>
    (readVarint 64 0 0 (b :: bs)).bind fun r =>
      if r.1.toNat % 8 = 4 then .err
      else if ((r.1 >>> 3).setWidth 32).toInt ≤ 0 then .err
      else
        match sw l m ((r.1 >>> 3).setWidth 32).toNat (r.1.toNat % 8) r.2 with
        | some x => x.bind fun q => decodeLoop sw unk l n q.1 q.2
        | none => (unknownField l l (b :: bs)).bind fun q => decodeLoop sw unk l n (unk m q.1) q.2

/-- `Unmarshal` of a message with the given switch; `unk` appends to `XXX_unrecognized`. -/
def decode {M : Type} (sw : Switch M) (unk : M → Str → M) (m : M) (d : Str) : Out M :=
  decodeLoop sw unk d.length (d.length + 1) m d

/-- The case of a `string` or `bytes` field (doc.pb.go:2160-2187, 1967-1996). -/
def strField {M : Type} (l wt : Nat) (bs : Str) (set : Str → M) : Out (M × Str) :=
  if wt ≠ 2 then .err else (takeLen l bs).bind fun r => .ok (set r.1, r.2)

/-- The case of a field that is a message (doc.pb.go:1998-2027, 2697-2728). -/
def msgField {M N : Type} (l wt : Nat) (bs : Str) (dec : Str → Out N) (set : N → M) : Out (M × Str) :=
  if wt ≠ 2 then .err
  else (takeLen l bs).bind fun r => (dec r.1).bind fun n => .ok (set n, r.2)

/-- The case of a number of `w` bits, or of a `bool`, which is read into an `int` (doc.pb.go:1839-1856, 2089-2107). -/
def numField {M : Type} (w wt : Nat) (bs : Str) (set : BitVec w → M) : Out (M × Str) :=
  if wt ≠ 0 then .err else (readVarint w 0 0 bs).bind fun r => .ok (set r.1, r.2)

/-! ## Writing

`MarshalTo` fills the slice `dAtA` from its beginning. The bytes written so far and the room left; a single byte written
outside crashes, `copy` writes as many bytes as there is room for. -/

/-- The slice `dAtA` while it is filled. -/
structure Buf where
  done : Str := []
  room : Nat
  deriving DecidableEq, Repr

/-- `dAtA[i] = b; i++` -/
def Buf.put (b : Fin 256) (w : Buf) : Option Buf :=
  match w.room with
  | 0 => none
  | n + 1 => some { done := w.done ++ [b], room := n }

/-- `i += copy(dAtA[i:], s)` -/
def Buf.copy (s : Str) (w : Buf) : Buf :=
  { done := w.done ++ s.take w.room, room := w.room - s.length }

/-- doc.pb.go:1500-1508 `encodeVarintDoc` (the same loop is at 1024-1030, 1087-1093); ten bytes are enough for 64 bits (the
first number; `none` otherwise). -/
def putVarint : Nat → Nat → Buf → Option Buf
  | 0, _, _ => none
  | n + 1, v, w =>
    if v ≥ 128 then (w.put (Fin.ofNat 256 (v % 128 + 128))).bind (putVarint n (v / 128))
    else w.put (Fin.ofNat 256 v)

/-- doc.pb.go:1796-1805 `sovDoc`: the number of bytes of a varint (at most ten). -/
def sovLoop : Nat → Nat → Nat
  | 0, _ => 0
  | n + 1, x => if x / 128 = 0 then 1 else 1 + sovLoop n (x / 128)

/-- doc.pb.go:1796-1805 `sovDoc` -/
def sov (x : Nat) : Nat := sovLoop 10 x

/-- The tag, the length and the bytes of a `string` or `bytes` field (doc.pb.go:993-998, 1019-1034). -/
def putStr (tag : Fin 256) (s : Str) (w : Buf) : Option Buf :=
  ((w.put tag).bind (putVarint 10 s.length)).map (Buf.copy s)

/-- `if len(m.F) > 0 { ... }` around a `string` or `bytes` field. -/
def putStrIf (tag : Fin 256) (s : Str) (w : Buf) : Option Buf := if s.length > 0 then putStr tag s w else some w

/-- `if m.F != 0 { ... }`: an `int32` or `int64` field is written as a `uint64`, with its sign extended
(doc.pb.go:967-971). -/
def putNumIf {w : Nat} (tag : Fin 256) (v : BitVec w) (b : Buf) : Option Buf :=
  if v ≠ 0 then (b.put tag).bind (putVarint 10 (v.signExtend 64).toNat) else some b

/-- `if m.F { ... }` (doc.pb.go:1043-1052) -/
def putBoolIf (tag : Fin 256) (v : Bool) (b : Buf) : Option Buf :=
  if v then (b.put tag).bind (Buf.put 1) else some b

/-- A field that is a message: its tag, its size and its bytes (doc.pb.go:1011-1021). -/
def putMsg (tag : Fin 256) (size : Nat) (body : Buf → Option Buf) (w : Buf) : Option Buf :=
  ((w.put tag).bind (putVarint 10 size)).bind body

/-- `for _, e := range m.F { ... }` -/
def putAll {α : Type} (f : α → Buf → Option Buf) : List α → Buf → Option Buf
  | [], w => some w
  | a :: as, w => (f a w).bind (putAll f as)

/-- `Marshal`: a slice of `Size()` bytes is filled by `MarshalTo`; the part that was written is the result. -/
def marshalBy (size : Nat) (body : Buf → Option Buf) : Option Str := (body { room := size }).map Buf.done

/-- `1 + l + sovDoc(uint64(l))` -/
def lenSize (l : Nat) : Nat := 1 + l + sov l

/-- `if l > 0 { n += 1 + l + sovDoc(uint64(l)) }` -/
def strSize (s : Str) : Nat := if s.length > 0 then lenSize s.length else 0

/-- `if m.F != 0 { n += 1 + sovDoc(uint64(m.F)) }` -/
def numSize {w : Nat} (v : BitVec w) : Nat := if v ≠ 0 then 1 + sov (v.signExtend 64).toNat else 0

/-- `if m.F { n += 2 }` -/
def boolSize (v : Bool) : Nat := if v then 2 else 0

/-! ## The messages -/

/-- doc.pb.go:28-33 `HeartReq` -/
structure HeartReq where
  msg : BitVec 32 := 0
  unrecognized : Str := []
  deriving DecidableEq, Repr

/-- doc.pb.go:1509-1522 `Size` -/
def HeartReq.size (m : HeartReq) : Nat := numSize m.msg + m.unrecognized.length

/-- doc.pb.go:962-976 `MarshalTo` -/
def HeartReq.marshalTo (m : HeartReq) (w : Buf) : Option Buf :=
  (putNumIf 0x8 m.msg w).map (Buf.copy m.unrecognized)

/-- doc.pb.go:952-960 `Marshal` -/
def HeartReq.marshal (m : HeartReq) : Option Str := marshalBy m.size m.marshalTo

/-- doc.pb.go:1837-1871 -/
def HeartReq.field : Switch HeartReq := fun _ m num wt bs =>
  match num with
  | 1 => some (numField 32 wt bs fun v => { m with msg := v })
  | _ => none

/-- doc.pb.go:1809-1878 `Unmarshal` -/
def HeartReq.unmarshal (m : HeartReq) (d : Str) : Out HeartReq :=
  decode HeartReq.field (fun m u => { m with unrecognized := m.unrecognized ++ u }) m d

/-- doc.pb.go:172-178 `TokenData` -/
structure TokenMsg where
  text : Str := []
  locations : List (BitVec 32) := []
  unrecognized : Str := []
  deriving DecidableEq, Repr

/-- doc.pb.go:1577-1583: the sum of the sizes of the locations. -/
def locsSize (ls : List (BitVec 32)) : Nat := (ls.map fun v => sov (v.signExtend 64).toNat).sum

/-- doc.pb.go:1567-1588 `Size` -/
def TokenMsg.size (m : TokenMsg) : Nat :=
  strSize m.text + (if m.locations.length > 0 then 1 + sov (locsSize m.locations) + locsSize m.locations else 0) +
    m.unrecognized.length

/-- doc.pb.go:1082-1098: the locations are first written to a slice of ten bytes for each, then copied. -/
def putLocs (tag : Fin 256) (ls : List (BitVec 32)) (w : Buf) : Option Buf :=
  if ls.length > 0 then
    (putAll (fun v => putVarint 10 (v.signExtend 64).toNat) ls { room := ls.length * 10 }).bind fun p =>
      ((w.put tag).bind (putVarint 10 p.done.length)).map (Buf.copy p.done)
  else some w

/-- doc.pb.go:1070-1103 `MarshalTo` -/
def TokenMsg.marshalTo (m : TokenMsg) (w : Buf) : Option Buf :=
  ((putStrIf 0xa m.text w).bind (putLocs 0x12 m.locations)).map (Buf.copy m.unrecognized)

/-- doc.pb.go:1060-1068 `Marshal` -/
def TokenMsg.marshal (m : TokenMsg) : Option Str := marshalBy m.size m.marshalTo

/-- doc.pb.go:2240-2257: the numbers of a packed field; each may be read up to the end of the message (`l`), not only up to
`post`. -/
def packedLoop (l : Nat) (post : Int) : Nat → List (BitVec 32) → Str → Out (List (BitVec 32) × Str)
  | 0, _, _ => .hang
  | n + 1, acc, bs =>
    if ((l - bs.length : Nat) : Int) < post then
      (readVarint 32 0 0 bs).bind fun r => packedLoop l post n (acc ++ [r.1]) r.2
    else .ok (acc, bs)

/-- doc.pb.go:2188-2260: `repeated int32 locations`, one number or a packed list. -/
def TokenMsg.locField (l : Nat) (m : TokenMsg) (wt : Nat) (bs : Str) : Out (TokenMsg × Str) :=
  if wt = 0 then
    (readVarint 32 0 0 bs).bind fun r => .ok ({ m with locations := m.locations ++ [r.1] }, r.2)
  else if wt = 2 then
    (readLen l bs).bind fun r =>
      (packedLoop l r.1 (r.2.length + 1) m.locations r.2).bind fun q => .ok ({ m with locations := q.1 }, q.2)
  else .err

/-- doc.pb.go:2158-2275 -/
def TokenMsg.field : Switch TokenMsg := fun l m num wt bs =>
  match num with
  | 1 => some (strField l wt bs fun s => { m with text := s })
  | 2 => some (m.locField l wt bs)
  | _ => none

/-- doc.pb.go:2130-2282 `Unmarshal` -/
def TokenMsg.unmarshal (m : TokenMsg) (d : Str) : Out TokenMsg :=
  decode TokenMsg.field (fun m u => { m with unrecognized := m.unrecognized ++ u }) m d

/-- doc.pb.go:76-88 `DocReq` -/
structure DocReq where
  docId : Str := []
  content : Str := []
  attri : Str := []
  tokens : List TokenMsg := []
  labels : List Str := []
  fields : Str := []
  forceUpdate : Bool := false
  unrecognized : Str := []
  deriving DecidableEq, Repr

/-- doc.pb.go:1524-1565 `Size` -/
def DocReq.size (m : DocReq) : Nat :=
  strSize m.docId + strSize m.content + strSize m.attri + (m.tokens.map fun t => lenSize t.size).sum +
    (m.labels.map fun s => lenSize s.length).sum + strSize m.fields + boolSize m.forceUpdate + m.unrecognized.length

/-- doc.pb.go:988-1058 `MarshalTo` -/
def DocReq.marshalTo (m : DocReq) (w : Buf) : Option Buf :=
  (((((((putStrIf 0xa m.docId w).bind (putStrIf 0x12 m.content)).bind (putStrIf 0x1a m.attri)).bind
    (putAll (fun t => putMsg 0x22 t.size t.marshalTo) m.tokens)).bind
    (putAll (putStr 0x2a) m.labels)).bind (putStrIf 0x32 m.fields)).bind
    (putBoolIf 0x38 m.forceUpdate)).map (Buf.copy m.unrecognized)

/-- doc.pb.go:978-986 `Marshal` -/
def DocReq.marshal (m : DocReq) : Option Str := marshalBy m.size m.marshalTo

/-- doc.pb.go:1907-2122 -/
def DocReq.field : Switch DocReq := fun l m num wt bs =>
  match num with
  | 1 => some (strField l wt bs fun s => { m with docId := s })
  | 2 => some (strField l wt bs fun s => { m with content := s })
  | 3 => some (strField l wt bs fun s => { m with attri := s })
  | 4 => some (msgField l wt bs (TokenMsg.unmarshal {}) fun t => { m with tokens := m.tokens ++ [t] })
  | 5 => some (strField l wt bs fun s => { m with labels := m.labels ++ [s] })
  | 6 => some (strField l wt bs fun s => { m with fields := s })
  | 7 => some (numField 64 wt bs fun v => { m with forceUpdate := v ≠ 0 })
  | _ => none

/-- doc.pb.go:1879-2129 `Unmarshal` -/
def DocReq.unmarshal (m : DocReq) (d : Str) : Out DocReq :=
  decode DocReq.field (fun m u => { m with unrecognized := m.unrecognized ++ u }) m d

/-- doc.pb.go:227-232 `DeleteReq` -/
structure DeleteReq where
  docId : Str := []
  unrecognized : Str := []
  deriving DecidableEq, Repr

/-- doc.pb.go:1590-1604 `Size` -/
def DeleteReq.size (m : DeleteReq) : Nat := strSize m.docId + m.unrecognized.length

/-- doc.pb.go:1115-1130 `MarshalTo` -/
def DeleteReq.marshalTo (m : DeleteReq) (w : Buf) : Option Buf :=
  (putStrIf 0xa m.docId w).map (Buf.copy m.unrecognized)

/-- doc.pb.go:1105-1113 `Marshal` -/
def DeleteReq.marshal (m : DeleteReq) : Option Str := marshalBy m.size m.marshalTo

/-- doc.pb.go:2311-2355 -/
def DeleteReq.field : Switch DeleteReq := fun l m num wt bs =>
  match num with
  | 1 => some (strField l wt bs fun s => { m with docId := s })
  | _ => none

/-- doc.pb.go:2283-2362 `Unmarshal` -/
def DeleteReq.unmarshal (m : DeleteReq) (d : Str) : Out DeleteReq :=
  decode DeleteReq.field (fun m u => { m with unrecognized := m.unrecognized ++ u }) m d

/-- doc.pb.go:275-280 `Reply` -/
structure Reply where
  result : BitVec 32 := 0
  unrecognized : Str := []
  deriving DecidableEq, Repr

/-- doc.pb.go:1606-1619 `Size` -/
def Reply.size (m : Reply) : Nat := numSize m.result + m.unrecognized.length

/-- doc.pb.go:1142-1156 `MarshalTo` -/
def Reply.marshalTo (m : Reply) (w : Buf) : Option Buf :=
  (putNumIf 0x8 m.result w).map (Buf.copy m.unrecognized)

/-- doc.pb.go:1132-1140 `Marshal` -/
def Reply.marshal (m : Reply) : Option Str := marshalBy m.size m.marshalTo

/-- doc.pb.go:2391-2425 -/
def Reply.field : Switch Reply := fun _ m num wt bs =>
  match num with
  | 1 => some (numField 32 wt bs fun v => { m with result := v })
  | _ => none

/-- doc.pb.go:2363-2432 `Unmarshal` -/
def Reply.unmarshal (m : Reply) (d : Str) : Out Reply :=
  decode Reply.field (fun m u => { m with unrecognized := m.unrecognized ++ u }) m d

/-- doc.pb.go:698-708 `Expr` -/
structure ExprMsg where
  must : List Str := []
  should : List Str := []
  notIn : List Str := []
  unrecognized : Str := []
  deriving DecidableEq, Repr

/-- doc.pb.go:1766-1794 `Size` -/
def ExprMsg.size (m : ExprMsg) : Nat :=
  (m.must.map fun s => lenSize s.length).sum + (m.should.map fun s => lenSize s.length).sum +
    (m.notIn.map fun s => lenSize s.length).sum + m.unrecognized.length

/-- doc.pb.go:1444-1498 `MarshalTo` -/
def ExprMsg.marshalTo (m : ExprMsg) (w : Buf) : Option Buf :=
  (((putAll (putStr 0xa) m.must w).bind (putAll (putStr 0x12) m.should)).bind
    (putAll (putStr 0x1a) m.notIn)).map (Buf.copy m.unrecognized)

/-- doc.pb.go:1434-1442 `Marshal` -/
def ExprMsg.marshal (m : ExprMsg) : Option Str := marshalBy m.size m.marshalTo

/-- doc.pb.go:3361-3463 -/
def ExprMsg.field : Switch ExprMsg := fun l m num wt bs =>
  match num with
  | 1 => some (strField l wt bs fun s => { m with must := m.must ++ [s] })
  | 2 => some (strField l wt bs fun s => { m with should := m.should ++ [s] })
  | 3 => some (strField l wt bs fun s => { m with notIn := m.notIn ++ [s] })
  | _ => none

/-- doc.pb.go:3333-3470 `Unmarshal` -/
def ExprMsg.unmarshal (m : ExprMsg) (d : Str) : Out ExprMsg :=
  decode ExprMsg.field (fun m u => { m with unrecognized := m.unrecognized ++ u }) m d

/-- doc.pb.go:623-634 `Logic` -/
structure LogicMsg where
  must : Bool := false
  should : Bool := false
  notIn : Bool := false
  expr : Option ExprMsg := none
  unrecognized : Str := []
  deriving DecidableEq, Repr

/-- doc.pb.go:1753-1757: the size of a message that may be nil. -/
def optSize {M : Type} (size : M → Nat) : Option M → Nat
  | none => 0
  | some m => lenSize (size m)

/-- doc.pb.go:1418-1427: a message that may be nil. -/
def putOpt {M : Type} (tag : Fin 256) (size : M → Nat) (body : M → Buf → Option Buf) : Option M → Buf → Option Buf
  | none, w => some w
  | some m, w => putMsg tag (size m) (body m) w

/-- doc.pb.go:1741-1764 `Size` -/
def LogicMsg.size (m : LogicMsg) : Nat :=
  boolSize m.must + boolSize m.should + boolSize m.notIn + optSize ExprMsg.size m.expr + m.unrecognized.length

/-- doc.pb.go:1383-1432 `MarshalTo` -/
def LogicMsg.marshalTo (m : LogicMsg) (w : Buf) : Option Buf :=
  ((((putBoolIf 0x8 m.must w).bind (putBoolIf 0x10 m.should)).bind (putBoolIf 0x18 m.notIn)).bind
    (putOpt 0x22 ExprMsg.size ExprMsg.marshalTo m.expr)).map (Buf.copy m.unrecognized)

/-- doc.pb.go:1373-1381 `Marshal` -/
def LogicMsg.marshal (m : LogicMsg) : Option Str := marshalBy m.size m.marshalTo

/-- doc.pb.go:3217-3325 -/
def LogicMsg.field : Switch LogicMsg := fun l m num wt bs =>
  match num with
  | 1 => some (numField 64 wt bs fun v => { m with must := v ≠ 0 })
  | 2 => some (numField 64 wt bs fun v => { m with should := v ≠ 0 })
  | 3 => some (numField 64 wt bs fun v => { m with notIn := v ≠ 0 })
  | 4 => some (msgField l wt bs (ExprMsg.unmarshal (m.expr.getD {})) fun e => { m with expr := some e })
  | _ => none

/-- doc.pb.go:3189-3332 `Unmarshal` -/
def LogicMsg.unmarshal (m : LogicMsg) (d : Str) : Out LogicMsg :=
  decode LogicMsg.field (fun m u => { m with unrecognized := m.unrecognized ++ u }) m d

/-- doc.pb.go:322-333 `SearchReq`; `docIds = none` is the nil map. -/
structure SearchMsg where
  id : Str := []
  query : Str := []
  outputOffset : BitVec 32 := 0
  maxOutputs : BitVec 32 := 0
  time : Str := []
  docIds : Option (GoMap Bool) := none
  logic : Option LogicMsg := none
  unrecognized : Str := []

/-- doc.pb.go:1649: `mapEntrySize`. -/
def entrySize (k : Str) : Nat := 1 + k.length + sov k.length + 1 + 1

/-- The entries of a map that may be nil (`len` and `range` of a nil map see none). -/
def entriesOf (d : Option (GoMap Bool)) : List (Str × Bool) := (d.map GoMap.entries).getD []

/-- doc.pb.go:1621-1661 `Size` -/
def SearchMsg.size (m : SearchMsg) : Nat :=
  strSize m.id + strSize m.query + numSize m.outputOffset + numSize m.maxOutputs + strSize m.time +
    ((entriesOf m.docIds).map fun e => entrySize e.1 + 1 + sov (entrySize e.1)).sum +
    optSize LogicMsg.size m.logic + m.unrecognized.length

/-- doc.pb.go:1203-1220: one entry of the map. -/
def putEntry (e : Str × Bool) (w : Buf) : Option Buf :=
  ((((w.put 0x32).bind (putVarint 10 (entrySize e.1))).bind (putStr 0xa e.1)).bind (Buf.put 0x10)).bind
    (Buf.put (if e.2 then 1 else 0))

/-- doc.pb.go:1168-1236 `MarshalTo`; `order` is the order in which `range` gives the entries of the map. -/
def SearchMsg.marshalTo (m : SearchMsg) (order : List (Str × Bool)) (w : Buf) : Option Buf :=
  (((((((putStrIf 0xa m.id w).bind (putStrIf 0x12 m.query)).bind (putNumIf 0x18 m.outputOffset)).bind
    (putNumIf 0x20 m.maxOutputs)).bind (putStrIf 0x2a m.time)).bind (putAll putEntry order)).bind
    (putOpt 0x3a LogicMsg.size LogicMsg.marshalTo m.logic)).map (Buf.copy m.unrecognized)

/-- doc.pb.go:1158-1166 `Marshal` -/
def SearchMsg.marshal (m : SearchMsg) (order : List (Str × Bool)) : Option Str := marshalBy m.size (m.marshalTo order)

/-- doc.pb.go:2618-2693: the fields of an entry of the map. The wire types of key and value are not looked at; key and
value may be read up to the end of the message (`l`), not only up to `post`. -/
def entryLoop (l : Nat) (post : Int) : Nat → Str × Bool → Str → Out (Str × Bool)
  | 0, _, _ => .hang
  | n + 1, e, bs =>
    if ((l - bs.length : Nat) : Int) < post then
      (readVarint 64 0 0 bs).bind fun r =>
        if ((r.1 >>> 3).setWidth 32).toNat = 1 then
          (takeLen l r.2).bind fun q => entryLoop l post n (q.1, e.2) q.2
        else if ((r.1 >>> 3).setWidth 32).toNat = 2 then
          (readVarint 64 0 0 r.2).bind fun q => entryLoop l post n (e.1, q.1 ≠ 0) q.2
        else (unknownField l post bs).bind fun q => entryLoop l post n e q.2
    else .ok e

/-- doc.pb.go:2587-2695: an entry of the map. A negative `postIndex` (after an overflow) becomes the index of the next
byte that is read. -/
def SearchMsg.idsField (l : Nat) (m : SearchMsg) (wt : Nat) (bs : Str) : Out (SearchMsg × Str) :=
  if wt ≠ 2 then .err
  else
    (readLen l bs).bind fun r =>
      (entryLoop l r.1 (r.2.length + 1) ([], false) r.2).bind fun e =>
        if r.1 < (l - r.2.length : Nat) then .panic
        else .ok ({ m with docIds := some ((m.docIds.getD GoMap.empty).set e.1 e.2) },
          r.2.drop (r.1.toNat - (l - r.2.length)))

/-- doc.pb.go:2461-2743 -/
def SearchMsg.field : Switch SearchMsg := fun l m num wt bs =>
  match num with
  | 1 => some (strField l wt bs fun s => { m with id := s })
  | 2 => some (strField l wt bs fun s => { m with query := s })
  | 3 => some (numField 32 wt bs fun v => { m with outputOffset := v })
  | 4 => some (numField 32 wt bs fun v => { m with maxOutputs := v })
  | 5 => some (strField l wt bs fun s => { m with time := s })
  | 6 => some (m.idsField l wt bs)
  | 7 => some (msgField l wt bs (LogicMsg.unmarshal (m.logic.getD {})) fun e => { m with logic := some e })
  | _ => none

/-- doc.pb.go:2433-2750 `Unmarshal` -/
def SearchMsg.unmarshal (m : SearchMsg) (d : Str) : Out SearchMsg :=
  decode SearchMsg.field (fun m u => { m with unrecognized := m.unrecognized ++ u }) m d

/-- doc.pb.go:552-560 `Attri` -/
structure AttriMsg where
  title : Str := []
  author : Str := []
  time : Str := []
  ts : BitVec 64 := 0
  unrecognized : Str := []
  deriving DecidableEq, Repr

/-- doc.pb.go:1714-1739 `Size` -/
def AttriMsg.size (m : AttriMsg) : Nat :=
  strSize m.title + strSize m.author + strSize m.time + numSize m.ts + m.unrecognized.length

/-- doc.pb.go:1339-1371 `MarshalTo` -/
def AttriMsg.marshalTo (m : AttriMsg) (w : Buf) : Option Buf :=
  ((((putStrIf 0xa m.title w).bind (putStrIf 0x12 m.author)).bind (putStrIf 0x1a m.time)).bind
    (putNumIf 0x20 m.ts)).map (Buf.copy m.unrecognized)

/-- doc.pb.go:1329-1337 `Marshal` -/
def AttriMsg.marshal (m : AttriMsg) : Option Str := marshalBy m.size m.marshalTo

/-- doc.pb.go:3060-3181 -/
def AttriMsg.field : Switch AttriMsg := fun l m num wt bs =>
  match num with
  | 1 => some (strField l wt bs fun s => { m with title := s })
  | 2 => some (strField l wt bs fun s => { m with author := s })
  | 3 => some (strField l wt bs fun s => { m with time := s })
  | 4 => some (numField 64 wt bs fun v => { m with ts := v })
  | _ => none

/-- doc.pb.go:3032-3188 `Unmarshal` -/
def AttriMsg.unmarshal (m : AttriMsg) (d : Str) : Out AttriMsg :=
  decode AttriMsg.field (fun m u => { m with unrecognized := m.unrecognized ++ u }) m d

/-- doc.pb.go:488-496 `Text` -/
structure TextMsg where
  id : Str := []
  content : Str := []
  attri : Option AttriMsg := none
  unrecognized : Str := []
  deriving DecidableEq, Repr

/-- doc.pb.go:1690-1712 `Size` -/
def TextMsg.size (m : TextMsg) : Nat :=
  strSize m.id + strSize m.content + optSize AttriMsg.size m.attri + m.unrecognized.length

/-- doc.pb.go:1296-1327 `MarshalTo` -/
def TextMsg.marshalTo (m : TextMsg) (w : Buf) : Option Buf :=
  (((putStrIf 0xa m.id w).bind (putStrIf 0x12 m.content)).bind
    (putOpt 0x1a AttriMsg.size AttriMsg.marshalTo m.attri)).map (Buf.copy m.unrecognized)

/-- doc.pb.go:1286-1294 `Marshal` -/
def TextMsg.marshal (m : TextMsg) : Option Str := marshalBy m.size m.marshalTo

/-- doc.pb.go:2918-3024 -/
def TextMsg.field : Switch TextMsg := fun l m num wt bs =>
  match num with
  | 1 => some (strField l wt bs fun s => { m with id := s })
  | 2 => some (strField l wt bs fun s => { m with content := s })
  | 3 => some (msgField l wt bs (AttriMsg.unmarshal (m.attri.getD {})) fun a => { m with attri := some a })
  | _ => none

/-- doc.pb.go:2890-3031 `Unmarshal` -/
def TextMsg.unmarshal (m : TextMsg) (d : Str) : Out TextMsg :=
  decode TextMsg.field (fun m u => { m with unrecognized := m.unrecognized ++ u }) m d

/-- doc.pb.go:417-425 `SearchReply` -/
structure ReplyMsg where
  code : BitVec 32 := 0
  len : BitVec 32 := 0
  timestamp : BitVec 64 := 0
  docs : List TextMsg := []
  unrecognized : Str := []
  deriving DecidableEq, Repr

/-- doc.pb.go:1663-1688 `Size` -/
def ReplyMsg.size (m : ReplyMsg) : Nat :=
  numSize m.code + numSize m.len + numSize m.timestamp + (m.docs.map fun t => lenSize t.size).sum + m.unrecognized.length

/-- doc.pb.go:1248-1284 `MarshalTo` -/
def ReplyMsg.marshalTo (m : ReplyMsg) (w : Buf) : Option Buf :=
  ((((putNumIf 0x8 m.code w).bind (putNumIf 0x10 m.len)).bind (putNumIf 0x18 m.timestamp)).bind
    (putAll (fun t => putMsg 0x22 t.size t.marshalTo) m.docs)).map (Buf.copy m.unrecognized)

/-- doc.pb.go:1238-1246 `Marshal` -/
def ReplyMsg.marshal (m : ReplyMsg) : Option Str := marshalBy m.size m.marshalTo

/-- doc.pb.go:2779-2882 -/
def ReplyMsg.field : Switch ReplyMsg := fun l m num wt bs =>
  match num with
  | 1 => some (numField 32 wt bs fun v => { m with code := v })
  | 2 => some (numField 32 wt bs fun v => { m with len := v })
  | 3 => some (numField 64 wt bs fun v => { m with timestamp := v })
  | 4 => some (msgField l wt bs (TextMsg.unmarshal {}) fun t => { m with docs := m.docs ++ [t] })
  | _ => none

/-- doc.pb.go:2751-2889 `Unmarshal` -/
def ReplyMsg.unmarshal (m : ReplyMsg) (d : Str) : Out ReplyMsg :=
  decode ReplyMsg.field (fun m u => { m with unrecognized := m.unrecognized ++ u }) m d

end Riot.Wire
