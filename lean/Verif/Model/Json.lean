import Verif.Model.HttpForm

/-!
# The bodies of the HTTP server

net/http writes its answers with `json.Marshal` and the distributed search reads them with `json.Unmarshal`. The part of
the library `encoding/json` (Go 1.13) that is used is modelled: compact output, strings with their escapes and the
replacement of what is not UTF-8, numbers, objects and arrays; the reading of any JSON text. The formatting and reading of
`float32` (`strconv`) is a parameter. Simplifications: a key that differs from the name of a field is skipped (Go also takes
a key that differs in case only); a key that occurs twice in one object replaces the first value. `none` of the reader is an
error of `json.Unmarshal`, which leaves the zero value (the text is checked before anything is assigned).
-/

namespace Riot.Json

open Riot Riot.Net

/-! ## UTF-8 -/

/-- A continuation byte in the given range. -/
def between (lo hi : Nat) (b : Fin 256) : Bool := decide (lo ≤ b.val) && decide (b.val ≤ hi)

/-- unicode/utf8 `DecodeRune`: the size of the rune at the beginning of the bytes, 0 if there is none (then Go gives
`RuneError` and size 1). -/
def runeLen : Str → Nat
  | [] => 0
  | b :: t =>
    if b.val < 0x80 then 1
    else if b.val < 0xC2 then 0
    else if b.val < 0xE0 then
      match t with
      | c :: _ => if between 0x80 0xBF c then 2 else 0
      | _ => 0
    else if b.val < 0xF0 then
      match t with
      | c :: d :: _ =>
        if between (if b.val = 0xE0 then 0xA0 else 0x80) (if b.val = 0xED then 0x9F else 0xBF) c &&
          between 0x80 0xBF d then 3 else 0
      | _ => 0
    else if b.val < 0xF5 then
      match t with
      | c :: d :: e :: _ =>
        if between (if b.val = 0xF0 then 0x90 else 0x80) (if b.val = 0xF4 then 0x8F else 0xBF) c &&
          between 0x80 0xBF d && between 0x80 0xBF e then 4 else 0
      | _ => 0
    else 0

/-- unicode/utf8 `EncodeRune` -/
def runeBytes (r : Nat) : Str :=
  if r < 0x80 then [Fin.ofNat 256 r]
  else if r < 0x800 then [Fin.ofNat 256 (0xC0 + r / 64), Fin.ofNat 256 (0x80 + r % 64)]
  else if r < 0x10000 then
    [Fin.ofNat 256 (0xE0 + r / 4096), Fin.ofNat 256 (0x80 + r / 64 % 64), Fin.ofNat 256 (0x80 + r % 64)]
  else
    [Fin.ofNat 256 (0xF0 + r / 262144), Fin.ofNat 256 (0x80 + r / 4096 % 64), Fin.ofNat 256 (0x80 + r / 64 % 64),
      Fin.ofNat 256 (0x80 + r % 64)]

/-- U+FFFD -/
def runeError : Str := [0xEF, 0xBF, 0xBD]

/-! ## Writing -/

/-- The lower-case hexadecimal digit. -/
def hexDigit (n : Nat) : Fin 256 := if n < 10 then Fin.ofNat 256 (48 + n) else Fin.ofNat 256 (87 + n)

/-- encoding/json encode.go `encodeState.string`: a byte below 0x80. -/
def escape (b : Fin 256) : Str :=
  if b = 34 ∨ b = 92 then [92, b]
  else if b = 10 then [92, 110]
  else if b = 13 then [92, 114]
  else if b = 9 then [92, 116]
  else if b.val < 0x20 ∨ b = 60 ∨ b = 62 ∨ b = 38 then
    [92, 117, 48, 48, hexDigit (b.val / 16), hexDigit (b.val % 16)]
  else [b]

/-- encoding/json encode.go `encodeState.string` with `escapeHTML`, between the quotes. -/
def writeChars : Str → Str
  | [] => []
  | b :: t =>
    if b.val < 0x80 then escape b ++ writeChars t
    else if runeLen (b :: t) = 0 then [92, 117, 102, 102, 102, 100] ++ writeChars t
    else
      (if (b :: t).take (runeLen (b :: t)) = [0xE2, 0x80, 0xA8] then [92, 117, 50, 48, 50, 56]
       else if (b :: t).take (runeLen (b :: t)) = [0xE2, 0x80, 0xA9] then [92, 117, 50, 48, 50, 57]
       else (b :: t).take (runeLen (b :: t))) ++ writeChars (t.drop (runeLen (b :: t) - 1))
termination_by s => s.length
decreasing_by all_goals simp only [List.length_cons, List.length_drop]; omega

mutual
/-- A JSON text without white space; numbers are kept as they are written. -/
inductive Val
  | null
  | bool (b : Bool)
  | num (lit : Str)
  | text (s : Str)
  | arr (l : Elems)
  | obj (l : Fields)
/-- The elements of an array. -/
inductive Elems
  | nil
  | cons (v : Val) (t : Elems)
/-- The members of an object. -/
inductive Fields
  | nil
  | cons (k : Str) (v : Val) (t : Fields)
end

/-- A list of values. -/
def Elems.ofList : List Val → Elems
  | [] => .nil
  | v :: l => .cons v (ofList l)

/-- A string with its quotes. -/
def writeStr (s : Str) : Str := 34 :: (writeChars s ++ [34])

mutual
/-- `json.Marshal`, without white space. -/
def write : Val → Str
  | .null => str "null"
  | .bool true => str "true"
  | .bool false => str "false"
  | .num lit => lit
  | .text s => writeStr s
  | .arr .nil => [91, 93]
  | .arr (.cons v t) => 91 :: (write v ++ writeElems t)
  | .obj .nil => [123, 125]
  | .obj (.cons k v t) => 123 :: (writeStr k ++ 58 :: (write v ++ writeFields t))
/-- What follows an element of an array. -/
def writeElems : Elems → Str
  | .nil => [93]
  | .cons v t => 44 :: (write v ++ writeElems t)
/-- What follows a member of an object. -/
def writeFields : Fields → Str
  | .nil => [125]
  | .cons k v t => 44 :: (writeStr k ++ 58 :: (write v ++ writeFields t))
end

/-! ## Reading -/

/-- encoding/json scanner.go `isSpace` -/
def skipWs : Str → Str
  | [] => []
  | b :: t => if b = 32 ∨ b = 9 ∨ b = 10 ∨ b = 13 then skipWs t else b :: t

/-- A hexadecimal digit. -/
def hexVal (b : Fin 256) : Option Nat :=
  if 48 ≤ b.val ∧ b.val ≤ 57 then some (b.val - 48)
  else if 97 ≤ b.val ∧ b.val ≤ 102 then some (b.val - 87)
  else if 65 ≤ b.val ∧ b.val ≤ 70 then some (b.val - 55)
  else none

/-- encoding/json decode.go `getu4` without the two first bytes. -/
def hex4 (a b c d : Fin 256) : Option Nat := do
  return ((← hexVal a) * 16 + (← hexVal b)) * 256 + (← hexVal c) * 16 + (← hexVal d)

/-- encoding/json decode.go `unquoteBytes`: the escapes of one letter (scanner.go `stateInStringEsc`). -/
def unescape (b : Fin 256) : Option (Fin 256) :=
  if b = 34 ∨ b = 92 ∨ b = 47 then some b
  else if b = 98 then some 8
  else if b = 102 then some 12
  else if b = 110 then some 10
  else if b = 114 then some 13
  else if b = 116 then some 9
  else none

/-- encoding/json decode.go `unquoteBytes`, unicode/utf16 `DecodeRune`: the second half of a pair of surrogates. -/
def lowHalf (r : Nat) (t : Str) : Option (Str × Str) :=
  if 0xD800 ≤ r ∧ r < 0xDC00 then
    match t with
    | 92 :: 117 :: a :: b :: c :: d :: t' =>
      match hex4 a b c d with
      | some r' =>
        if 0xDC00 ≤ r' ∧ r' < 0xE000 then
          some (runeBytes ((r - 0xD800) * 1024 + (r' - 0xDC00) + 0x10000), t')
        else none
      | none => none
    | _ => none
  else none

/-- encoding/json decode.go `unquoteBytes`, scanner.go `stateInString`: from behind the opening quote; the string and what
follows the closing quote. The number bounds the steps. -/
def readChars : Nat → Str → Option (Str × Str)
  | 0, _ => none
  | _ + 1, [] => none
  | n + 1, b :: t =>
    if b = 34 then some ([], t)
    else if b = 92 then
      match t with
      | [] => none
      | e :: t' =>
        if e = 117 then
          match t' with
          | a :: b' :: c :: d :: t'' =>
            match hex4 a b' c d with
            | none => none
            | some r =>
              if 0xD800 ≤ r ∧ r < 0xE000 then
                match lowHalf r t'' with
                | some (bs, rest) => (readChars n rest).map fun q => (bs ++ q.1, q.2)
                | none => (readChars n t'').map fun q => (runeError ++ q.1, q.2)
              else (readChars n t'').map fun q => (runeBytes r ++ q.1, q.2)
          | _ => none
        else
          match unescape e with
          | none => none
          | some c => (readChars n t').map fun q => (c :: q.1, q.2)
    else if b.val < 0x20 then none
    else if b.val < 0x80 then (readChars n t).map fun q => (b :: q.1, q.2)
    else if runeLen (b :: t) = 0 then (readChars n t).map fun q => (runeError ++ q.1, q.2)
    else
      (readChars n (t.drop (runeLen (b :: t) - 1))).map fun q => ((b :: t).take (runeLen (b :: t)) ++ q.1, q.2)

/-- encoding/json scanner.go: the states of a number: 0 beginning, 1 `stateNeg`, 2 `state0`, 3 `state1`, 4 `stateDot`,
5 `stateDot0`, 6 `stateE`, 7 `stateESign`, 8 `stateE0`. -/
def numStep (q : Nat) (b : Fin 256) : Option Nat :=
  let digit := decide (48 ≤ b.val) && decide (b.val ≤ 57)
  let e := b == 101 || b == 69
  match q with
  | 0 => if b = 45 then some 1 else if b = 48 then some 2 else if digit then some 3 else none
  | 1 => if b = 48 then some 2 else if digit then some 3 else none
  | 2 => if b = 46 then some 4 else if e then some 6 else none
  | 3 => if digit then some 3 else if b = 46 then some 4 else if e then some 6 else none
  | 4 => if digit then some 5 else none
  | 5 => if digit then some 5 else if e then some 6 else none
  | 6 => if b = 43 ∨ b = 45 then some 7 else if digit then some 8 else none
  | 7 => if digit then some 8 else none
  | 8 => if digit then some 8 else none
  | _ => none

/-- The states in which a number may end. -/
def numEnd (q : Nat) : Bool := q == 2 || q == 3 || q == 5 || q == 8

/-- A number and what follows it. -/
def readNum : Nat → Str → Option (Str × Str)
  | q, [] => if numEnd q then some ([], []) else none
  | q, b :: t =>
    match numStep q b with
    | some q' => (readNum q' t).map fun r => (b :: r.1, r.2)
    | none => if numEnd q then some ([], b :: t) else none

/-- A literal. -/
def readLit (lit : Str) (v : Val) (bs : Str) : Option (Val × Str) :=
  if bs.take lit.length = lit then some (v, bs.drop lit.length) else none

mutual
/-- A JSON value and what follows it. The number bounds the steps. -/
def readVal : Nat → Str → Option (Val × Str)
  | 0, _ => none
  | n + 1, bs =>
    match skipWs bs with
    | [] => none
    | b :: t =>
      if b = 34 then (readChars (t.length + 1) t).map fun q => (.text q.1, q.2)
      else if b = 91 then
        match skipWs t with
        | 93 :: t' => some (.arr .nil, t')
        | _ => (readElems n t).map fun q => (.arr q.1, q.2)
      else if b = 123 then
        match skipWs t with
        | 125 :: t' => some (.obj .nil, t')
        | _ => (readFields n t).map fun q => (.obj q.1, q.2)
      else if b = 110 then readLit (str "null") .null (b :: t)
      else if b = 116 then readLit (str "true") (.bool true) (b :: t)
      else if b = 102 then readLit (str "false") (.bool false) (b :: t)
      else (readNum 0 (b :: t)).map fun q => (.num q.1, q.2)
/-- The elements of an array, at least one, and what follows the bracket. -/
def readElems : Nat → Str → Option (Elems × Str)
  | 0, _ => none
  | n + 1, bs =>
    (readVal n bs).bind fun q =>
      match skipWs q.2 with
      | 44 :: t => (readElems n t).map fun r => (.cons q.1 r.1, r.2)
      | 93 :: t => some (.cons q.1 .nil, t)
      | _ => none
/-- The members of an object, at least one, and what follows the brace. -/
def readFields : Nat → Str → Option (Fields × Str)
  | 0, _ => none
  | n + 1, bs =>
    match skipWs bs with
    | 34 :: t =>
      (readChars (t.length + 1) t).bind fun k =>
        match skipWs k.2 with
        | 58 :: t' =>
          (readVal n t').bind fun q =>
            match skipWs q.2 with
            | 44 :: t'' => (readFields n t'').map fun r => (.cons k.1 q.1 r.1, r.2)
            | 125 :: t'' => some (.cons k.1 q.1 .nil, t'')
            | _ => none
        | _ => none
    | _ => none
end

/-- `checkValid`: one value and nothing else. -/
def parse (bs : Str) : Option Val :=
  match readVal (bs.length + 1) bs with
  | some (v, rest) => if skipWs rest = [] then some v else none
  | none => none

/-! ## The structs -/

/-- `strconv.AppendFloat` as encoding/json uses it for `float32` (`none`: NaN and infinities, which it refuses), and
`strconv.ParseFloat`. -/
structure FloatFmt (S : Type) where
  fmt : S → Option Str
  parse : Str → Option S

/-- net/http/search.go:22-28 `Text` with types/doc_index_data.go:54-59 `Attri`. A nil slice is `none`. -/
structure JText (S : Type) where
  id : Str := []
  content : Str := []
  score : Option (List S) := none
  title : Str := []
  author : Str := []
  time : Str := []
  ts : Int := 0
  deriving DecidableEq, Repr

/-- net/http/search.go:31-36 `JsonResponse`. -/
structure Response (S : Type) where
  code : Int := 0
  len : Int := 0
  timestamp : Int := 0
  docs : Option (List (JText S)) := none
  deriving DecidableEq, Repr

variable {S : Type}

/-- A slice: `null` if it is nil. -/
def ofSlice : Option (List Val) → Val
  | none => .null
  | some l => .arr (Elems.ofList l)

/-- encoding/json encode.go `sliceEncoder`, `arrayEncoder`. -/
def encSlice {α : Type} (f : α → Option Val) : Option (List α) → Option Val
  | none => some (ofSlice none)
  | some l => (l.mapM f).map fun vs => ofSlice (some vs)

/-- The value of a `types.Attri`. -/
def attriVal (t : JText S) : Val :=
  .obj (.cons (str "title") (.text t.title) (.cons (str "author") (.text t.author)
    (.cons (str "time") (.text t.time) (.cons (str "ts") (.num (itoaInt t.ts)) .nil))))

/-- The value of a `Text`. -/
def textVal (fl : FloatFmt S) (t : JText S) : Option Val :=
  (encSlice (fun x => (fl.fmt x).map Val.num) t.score).map fun score =>
    .obj (.cons (str "id") (.text t.id) (.cons (str "content") (.text t.content)
      (.cons (str "score") score (.cons (str "attri") (attriVal t) .nil))))

/-- The value of a `JsonResponse`. -/
def responseVal (fl : FloatFmt S) (r : Response S) : Option Val :=
  (encSlice (textVal fl) r.docs).map fun docs =>
    .obj (.cons (str "code") (.num (itoaInt r.code)) (.cons (str "len") (.num (itoaInt r.len))
      (.cons (str "timestamp") (.num (itoaInt r.timestamp)) (.cons (str "docs") docs .nil))))

/-- `json.Marshal(&JsonResponse{...})`; `none` is its error. -/
def marshal (fl : FloatFmt S) (r : Response S) : Option Str := (responseVal fl r).map write

/-- `strconv.ParseInt(s, 10, 64)`; `none` is its error. -/
def parseInt64 (s : Str) : Option Int :=
  match s with
  | 45 :: t =>
    if t ≠ [] ∧ t.all (between 48 57) ∧ t.foldl (fun a c => 10 * a + (c.val - 48)) 0 ≤ 2 ^ 63 then
      some (- ((t.foldl (fun a c => 10 * a + (c.val - 48)) 0 : Nat) : Int))
    else none
  | _ =>
    if s ≠ [] ∧ s.all (between 48 57) ∧ s.foldl (fun a c => 10 * a + (c.val - 48)) 0 < 2 ^ 63 then
      some ((s.foldl (fun a c => 10 * a + (c.val - 48)) 0 : Nat) : Int)
    else none

/-- encoding/json decode.go `literalStore`, `object`, `array`: a value of another type leaves what is there (the error is
kept for the end and ignored by the callers), `null` too. -/
def Val.toStr (old : Str) : Val → Str
  | .text s => s
  | _ => old

/-- The same for integers. -/
def Val.toInt (old : Int) : Val → Int
  | .num lit => (parseInt64 lit).getD old
  | _ => old

/-- The same for a `float32`; `0` is its zero value. -/
def Val.toFloat (fl : FloatFmt S) (zero : S) : Val → S
  | .num lit => (fl.parse lit).getD zero
  | _ => zero

/-- The elements in order. -/
def Elems.toList : Elems → List Val
  | .nil => []
  | .cons v t => v :: t.toList

/-- The same for slices: `null` gives nil. -/
def Val.toSlice {α : Type} (f : Val → α) (old : Option (List α)) : Val → Option (List α)
  | .null => none
  | .arr l => some (l.toList.map f)
  | _ => old

/-- The members of an object, assigned in their order. -/
def Fields.assign {α : Type} (set : Str → Val → α → α) : Fields → α → α
  | .nil, a => a
  | .cons k v t, a => t.assign set (set k v a)

/-- A struct. -/
def Val.toStruct {α : Type} (set : Str → Val → α → α) (old : α) : Val → α
  | .obj l => l.assign set old
  | _ => old

/-- The fields of `types.Attri`. -/
def setAttri (k : Str) (v : Val) (t : JText S) : JText S :=
  if k = str "title" then { t with title := v.toStr t.title }
  else if k = str "author" then { t with author := v.toStr t.author }
  else if k = str "time" then { t with time := v.toStr t.time }
  else if k = str "ts" then { t with ts := v.toInt t.ts }
  else t

/-- The fields of `Text`. -/
def setText (fl : FloatFmt S) (zero : S) (k : Str) (v : Val) (t : JText S) : JText S :=
  if k = str "id" then { t with id := v.toStr t.id }
  else if k = str "content" then { t with content := v.toStr t.content }
  else if k = str "score" then { t with score := v.toSlice (Val.toFloat fl zero) t.score }
  else if k = str "attri" then v.toStruct setAttri t
  else t

/-- The fields of `JsonResponse`. -/
def setResponse (fl : FloatFmt S) (zero : S) (k : Str) (v : Val) (r : Response S) : Response S :=
  if k = str "code" then { r with code := v.toInt r.code }
  else if k = str "len" then { r with len := v.toInt r.len }
  else if k = str "timestamp" then { r with timestamp := v.toInt r.timestamp }
  else if k = str "docs" then { r with docs := v.toSlice (Val.toStruct (setText fl zero) {}) r.docs }
  else r

/-- `json.Unmarshal(data, &jsonRes)` into a fresh `JsonResponse`, its error ignored (net/http/dist.go:87-88). -/
def unmarshal (fl : FloatFmt S) (zero : S) (data : Str) : Response S :=
  match parse data with
  | some v => v.toStruct (setResponse fl zero) {}
  | none => {}

/-! ## The handlers -/

/-- net/http/http.go:121-129, dist.go:99-106: the body; when `json.Marshal` fails, it is empty (the error is ignored). -/
def body (fl : FloatFmt S) (now : Int) (docs : Option (List (JText S))) : Str :=
  (marshal fl { len := ((docs.getD []).length : Int), timestamp := now, docs := docs }).getD []

/-- net/http/search.go:42-62 `docsSlice.Less` -/
def JText.less (a b : JText S) : Bool := if a.ts = b.ts then decide (b.id < a.id) else decide (b.ts < a.ts)

/-- The dynamic value of a non-nil `Attri interface{}`: a `types.Attri` or something else. -/
inductive JAttri
  | attri (title author time : Str) (ts : Int)
  | other
  deriving DecidableEq, Repr

/-- net/http/http.go:103-111: one entry of `textArr`; the type assertion panics if the attribute is nil or not a
`types.Attri`. A shown document has at least one score (C20), so its slice is not nil. -/
def toJText {F : Type} (d : ScoredDoc F JAttri) : Option (JText F32) :=
  match d.attri with
  | some (.attri title author time ts) =>
    some { id := d.scoredID.docId, content := d.content, score := some d.scoredID.scores, title := title, author := author,
           time := time, ts := ts }
  | _ => none

/-- net/http/http.go:101-130 `Search`: the body from the documents of the engine's response; `max` is the limit. -/
def searchBody {F : Type} (fl : FloatFmt F32) (gs : GSort) (now : Int) (max : Int) (docs : List (ScoredDoc F JAttri)) :
    Option Str :=
  (docs.mapM toJText).bind fun texts =>
    let t := gs JText.less texts
    if (t.length : Int) > max then (goSub t 0 max).map fun l => body fl now (some l)
    else some (body fl now (if t = [] then none else some t))

/-- net/http/http.go:54-130 `Search`, whole: from the values of the form to the body. -/
def httpBody {F : Type} (fl : FloatFmt F32) (gs : GSort) (conf : Conf)
    (search : SearchReq F → Option (SearchResp F JAttri)) (now : Int) (f : Form) : Option Str :=
  let lim := limits conf (if f (str "outputOffset") = [] then 0 else Net.atoi (f.first (str "outputOffset")))
    (if f (str "maxOutputs") = [] then 0 else Net.atoi (f.first (str "maxOutputs")))
  (Engine.searchDoc (search (comReq (f.first (str "query")) lim.1 lim.2 none {}))).bind fun x =>
    searchBody fl gs now lim.2 x.2

/-- net/http/dist.go:37-50: the bodies that are kept. -/
def kept (bodies : List Str) : List Str := bodies.filter fun b => decide (b ≠ [])

/-- net/http/dist.go:81-113: the body of the distributed search, from the bodies of the servers in the order of their
arrival; `none` is a crash. -/
def distBody (fl : FloatFmt S) (zero : S) (gs : GSort) (now : Int) (max : Int) (bodies : List Str) : Option Str :=
  match kept bodies with
  | [b] => some b
  | data =>
    let docs := gs JText.less (data.flatMap fun b => ((unmarshal fl zero b).docs).getD [])
    if (docs.length : Int) > max then (goSub docs 0 (max - 1)).map fun l => body fl now (some l)
    else some (body fl now (if docs = [] then none else some docs))

end Riot.Json
