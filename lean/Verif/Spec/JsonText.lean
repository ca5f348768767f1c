import Verif.Model.Json

/-!
# What a JSON text means (RFC 8259)

The grammar, written down independently of any reader or writer. `IsJson bs v`: the bytes `bs` are a JSON text with the value
`v`. Two rules say what Go makes of strings that the RFC leaves open: a byte that belongs to no character and an escaped
surrogate without its other half stand for U+FFFD.
-/

namespace Riot.Json

open Riot

/-- A Unicode scalar value. -/
def Scalar (r : Nat) : Prop := r < 0xD800 ∨ (0xE000 ≤ r ∧ r < 0x110000)

/-- RFC 3629: the bytes encode the character (`10xxxxxx` is a continuation byte; the shortest form is used). -/
inductive Encodes : Nat → Str → Prop
  | one (b : Fin 256) : b.val < 0x80 → Encodes b.val [b]
  | two (r : Nat) (b c : Fin 256) : 0x80 ≤ r → r < 0x800 → b.val = 0xC0 + r / 64 → c.val = 0x80 + r % 64 → Encodes r [b, c]
  | three (r : Nat) (b c d : Fin 256) : 0x800 ≤ r → r < 0x10000 → ¬ (0xD800 ≤ r ∧ r < 0xE000) →
      64 * 64 * (b.val - 0xE0) + 64 * (c.val - 0x80) + (d.val - 0x80) = r → 0xE0 ≤ b.val → b.val < 0xF0 →
      0x80 ≤ c.val → c.val < 0xC0 → 0x80 ≤ d.val → d.val < 0xC0 → Encodes r [b, c, d]
  | four (r : Nat) (b c d e : Fin 256) : 0x10000 ≤ r → r < 0x110000 →
      64 * 64 * 64 * (b.val - 0xF0) + 64 * 64 * (c.val - 0x80) + 64 * (d.val - 0x80) + (e.val - 0x80) = r →
      0xF0 ≤ b.val → b.val < 0xF8 → 0x80 ≤ c.val → c.val < 0xC0 → 0x80 ≤ d.val → d.val < 0xC0 →
      0x80 ≤ e.val → e.val < 0xC0 → Encodes r [b, c, d, e]

/-- Section 2: white space. -/
def Ws (w : Str) : Prop := ∀ b ∈ w, b = 0x20 ∨ b = 0x09 ∨ b = 0x0A ∨ b = 0x0D

/-- A decimal digit. -/
def Digit (b : Fin 256) : Prop := 0x30 ≤ b.val ∧ b.val ≤ 0x39

/-- One digit or more. -/
def Digits (s : Str) : Prop := s ≠ [] ∧ ∀ b ∈ s, Digit b

/-- Section 6: `int = zero / ( digit1-9 *DIGIT )`. -/
def IsInt (s : Str) : Prop := s = [0x30] ∨ ∃ (d : Fin 256) (ds : Str), s = d :: ds ∧ Digit d ∧ d ≠ 0x30 ∧ ∀ b ∈ ds, Digit b

/-- Section 6: `frac = decimal-point 1*DIGIT`, or nothing. -/
def IsFrac (s : Str) : Prop := s = [] ∨ ∃ ds : Str, s = 0x2E :: ds ∧ Digits ds

/-- Section 6: `exp = e [ minus / plus ] 1*DIGIT`, or nothing. -/
def IsExp (s : Str) : Prop := s = [] ∨ ∃ (e : Fin 256) (sign ds : Str), s = e :: (sign ++ ds) ∧ (e = 0x65 ∨ e = 0x45) ∧
  (sign = [] ∨ sign = [0x2D] ∨ sign = [0x2B]) ∧ Digits ds

/-- Section 6: `number = [ minus ] int [ frac ] [ exp ]`. -/
def IsNumber (s : Str) : Prop := ∃ minus int frac exp : Str, s = minus ++ (int ++ (frac ++ exp)) ∧
  (minus = [] ∨ minus = [0x2D]) ∧ IsInt int ∧ IsFrac frac ∧ IsExp exp

/-- A hexadecimal digit and its value. -/
def Hex (b : Fin 256) (n : Nat) : Prop :=
  (Digit b ∧ b.val = 0x30 + n) ∨ (10 ≤ n ∧ n < 16 ∧ (b.val = 0x41 + (n - 10) ∨ b.val = 0x61 + (n - 10)))

/-- Section 7: four hexadecimal digits. -/
def Hex4 (a b c d : Fin 256) (r : Nat) : Prop :=
  ∃ i j k l : Nat, Hex a i ∧ Hex b j ∧ Hex c k ∧ Hex d l ∧ r = 4096 * i + 256 * j + 16 * k + l

/-- Section 7: the letter behind a backslash and what it stands for. -/
def Letter (e c : Fin 256) : Prop :=
  (e, c) ∈ [((0x22 : Fin 256), (0x22 : Fin 256)), (0x5C, 0x5C), (0x2F, 0x2F), (0x62, 0x08), (0x66, 0x0C), (0x6E, 0x0A),
    (0x72, 0x0D), (0x74, 0x09)]

/-- `DC00` to `DFFF`. -/
def LowHalf (r : Nat) : Prop := 0xDC00 ≤ r ∧ r < 0xE000

/-- The text begins with an escaped low half of a surrogate pair. -/
def StartsLow (t : Str) : Prop := ∃ (a b c d : Fin 256) (r : Nat) (u : Str),
  t = 0x5C :: 0x75 :: a :: b :: c :: d :: u ∧ Hex4 a b c d r ∧ LowHalf r

/-- Section 7: what stands between the quotes of a string, and the string. -/
inductive Chars : Str → Str → Prop
  | nil : Chars [] []
  | plain {r : Nat} {p t s : Str} : Encodes r p → 0x20 ≤ r → r ≠ 0x22 → r ≠ 0x5C → Chars t s → Chars (p ++ t) (p ++ s)
  | letter {e c : Fin 256} {t s : Str} : Letter e c → Chars t s → Chars (0x5C :: e :: t) (c :: s)
  | code {a b c d : Fin 256} {r : Nat} {p t s : Str} : Hex4 a b c d r → Encodes r p → Chars t s →
      Chars (0x5C :: 0x75 :: a :: b :: c :: d :: t) (p ++ s)
  | pair {a b c d a' b' c' d' : Fin 256} {h l : Nat} {p t s : Str} : Hex4 a b c d h → 0xD800 ≤ h → h < 0xDC00 →
      Hex4 a' b' c' d' l → LowHalf l → Encodes (0x10000 + 0x400 * (h - 0xD800) + (l - 0xDC00)) p → Chars t s →
      Chars (0x5C :: 0x75 :: a :: b :: c :: d :: 0x5C :: 0x75 :: a' :: b' :: c' :: d' :: t) (p ++ s)
  | lone {a b c d : Fin 256} {r : Nat} {t s : Str} : Hex4 a b c d r → 0xD800 ≤ r → r < 0xE000 → (LowHalf r ∨ ¬ StartsLow t) →
      Chars t s → Chars (0x5C :: 0x75 :: a :: b :: c :: d :: t) (0xEF :: 0xBF :: 0xBD :: s)
  | bad {b : Fin 256} {t s : Str} : 0x80 ≤ b.val → (∀ (r : Nat) (p u : Str), Encodes r p → b :: t ≠ p ++ u) → Chars t s →
      Chars (b :: t) (0xEF :: 0xBF :: 0xBD :: s)

/-- Section 7: a string with its quotes. -/
def IsString (bs s : Str) : Prop := ∃ t : Str, bs = 0x22 :: (t ++ [0x22]) ∧ Chars t s

mutual
/-- Sections 3, 4 and 5: a value. -/
inductive IsVal : Str → Val → Prop
  | null : IsVal [0x6E, 0x75, 0x6C, 0x6C] .null
  | true : IsVal [0x74, 0x72, 0x75, 0x65] (.bool Bool.true)
  | false : IsVal [0x66, 0x61, 0x6C, 0x73, 0x65] (.bool Bool.false)
  | num {t : Str} : IsNumber t → IsVal t (.num t)
  | text {t s : Str} : IsString t s → IsVal t (.text s)
  | arr0 {w : Str} : Ws w → IsVal (0x5B :: (w ++ [0x5D])) (.arr .nil)
  | arr {t : Str} {l : Elems} : AreElems t l → IsVal (0x5B :: (t ++ [0x5D])) (.arr l)
  | obj0 {w : Str} : Ws w → IsVal (0x7B :: (w ++ [0x7D])) (.obj .nil)
  | obj {t : Str} {l : Fields} : AreFields t l → IsVal (0x7B :: (t ++ [0x7D])) (.obj l)
/-- Section 5: `value *( value-separator value )`. -/
inductive AreElems : Str → Elems → Prop
  | one {w t w' : Str} {v : Val} : Ws w → IsVal t v → Ws w' → AreElems (w ++ (t ++ w')) (.cons v .nil)
  | more {w t w' u : Str} {v : Val} {l : Elems} : Ws w → IsVal t v → Ws w' → AreElems u l →
      AreElems (w ++ (t ++ (w' ++ 0x2C :: u))) (.cons v l)
/-- Section 4: `member *( value-separator member )`. -/
inductive AreFields : Str → Fields → Prop
  | one {w t k x t' y : Str} {key : Str} {val : Val} : Ws w → IsString t key → Ws k → Ws x → IsVal t' val → Ws y →
      AreFields (w ++ (t ++ (k ++ 0x3A :: (x ++ (t' ++ y))))) (.cons key val .nil)
  | more {w t k x t' y u : Str} {key : Str} {val : Val} {l : Fields} : Ws w → IsString t key → Ws k → Ws x → IsVal t' val →
      Ws y → AreFields u l → AreFields (w ++ (t ++ (k ++ 0x3A :: (x ++ (t' ++ (y ++ 0x2C :: u)))))) (.cons key val l)
end

/-- Section 2: `JSON-text = ws value ws`. -/
def IsJson (bs : Str) (v : Val) : Prop := ∃ w t w' : Str, bs = w ++ (t ++ w') ∧ Ws w ∧ IsVal t v ∧ Ws w'

end Riot.Json
