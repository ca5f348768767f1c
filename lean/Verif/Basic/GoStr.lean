import Mathlib.Data.List.Lex
import Mathlib.Order.Fin.Basic
import Mathlib.Data.String.Basic

/-!
# Go strings

A Go `string` is a sequence of bytes; `<` on strings is the byte-wise lexicographic
order.  `List (Fin 256)` with Mathlib's lexicographic `LinearOrder` is exactly that.
-/

namespace Riot

/-- Go `string`: a byte sequence, compared lexicographically. -/
abbrev Str := List (Fin 256)

/-- The Go string literal with the UTF-8 bytes of `s` (used in examples). -/
def str (s : String) : Str := s.toUTF8.toList.map (·.toFin)

/-- Go `strings.Split(s, " ")` (`[]string{""}` for the empty string). -/
def splitSpace : Str → List Str
  | [] => [[]]
  | c :: cs =>
    if c = 32 then [] :: splitSpace cs
    else
      match splitSpace cs with
      | [] => [[c]]
      | w :: ws => (c :: w) :: ws

end Riot
