import Mathlib.Algebra.Order.Group.Abs
import Mathlib.Algebra.Order.Ring.Int

/-!
# Token proximity, as documented: `ArgMin(Sum(Abs(P_(i+1) - P_i - L_i)))`
-/

namespace Riot

/-- `Sum |P(i+1) - P(i) - L(i)|` for positions `ps` and token lengths `ls`. -/
def proxCost : List Int → List Nat → Int
  | p :: q :: ps, l :: ls => |q - p - l| + proxCost (q :: ps) ls
  | _, _ => 0

/-- One location of every token. -/
def IsChoice (ps : List Int) (locs : List (List Int)) : Prop :=
  List.Forall₂ (fun p ls => p ∈ ls) ps locs

/-- Does the following token never start strictly inside (or at the start of) an
occurrence of the token before it? -/
def NoOverlap : List (List Int) → List Nat → Prop
  | a :: b :: rest, l :: ls =>
    (∀ c ∈ a, ∀ n ∈ b, n < c ∨ c + l ≤ n) ∧ NoOverlap (b :: rest) ls
  | _, _ => True

end Riot
