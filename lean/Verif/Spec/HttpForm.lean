import Verif.Model.HttpForm

/-!
# Decimal numbers

The usual notation, independently of the conversion functions.
-/

namespace Riot.Net

open Riot

/-- A sequence of digits and the number it denotes. -/
inductive Decimal : Str → Nat → Prop
  | digit (b : Fin 256) (h : 48 ≤ b.val ∧ b.val ≤ 57) : Decimal [b] (b.val - 48)
  | more (b : Fin 256) (h : 48 ≤ b.val ∧ b.val ≤ 57) {ds : Str} {n : Nat} (t : Decimal ds n) :
      Decimal (ds ++ [b]) (10 * n + (b.val - 48))

/-- A number with a sign or without. -/
inductive Numeral : Str → Int → Prop
  | plain {ds : Str} {n : Nat} (h : Decimal ds n) : Numeral ds n
  | plus {ds : Str} {n : Nat} (h : Decimal ds n) : Numeral (43 :: ds) n
  | minus {ds : Str} {n : Nat} (h : Decimal ds n) : Numeral (45 :: ds) (- (n : Int))

/-- The `int` of 64 bits that is nearest to a number. -/
def nearest64 (z : Int) : Int := max (- 2 ^ 63) (min z (2 ^ 63 - 1))

end Riot.Net
