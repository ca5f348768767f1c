import Mathlib.Data.List.Basic

/-!
# Go slices

A slice is the list of its elements; every indexing or re-slicing operation that Go
checks at run time returns `none` when Go would panic.
-/

namespace Riot

variable {α : Type}

/-- `s[i] = x`; `none` = index out of range. -/
def goSet (l : List α) (i : Nat) (x : α) : Option (List α) :=
  if i < l.length then some (l.set i x) else none

/-- `copy(s[dst:], s[src:])` (memmove within one slice); `none` = slice bounds out of range. -/
def goCopyWithin (l : List α) (dst src : Nat) : Option (List α) :=
  if dst ≤ l.length ∧ src ≤ l.length then
    let moved := (l.drop src).take (l.length - dst)
    some (l.take dst ++ moved ++ l.drop (dst + moved.length))
  else none

/-- The Go idiom `s = append(s, zero); copy(s[p+1:], s[p:]); s[p] = x`. -/
def goInsert (l : List α) (p : Nat) (zero x : α) : Option (List α) := do
  let l1 := l ++ [zero]
  let l2 ← goCopyWithin l1 (p + 1) p
  goSet l2 p x

/-- `append(s[:a], s[b:]...)`; `none` = slice bounds out of range. -/
def goCut (l : List α) (a b : Nat) : Option (List α) :=
  if a ≤ l.length ∧ b ≤ l.length then some (l.take a ++ l.drop b) else none

/-- Go's `sort.Search(n, f)` loop between `i` and `j` (`fuel ≥ j - i` suffices):
`for i < j { h := (i+j)/2; if !f(h) { i = h+1 } else { j = h } }; return i`. A panic
inside `f` is `none`. -/
def goSearchLoop (f : Nat → Option Bool) : Nat → Nat → Nat → Option Nat
  | 0, i, _ => some i
  | fuel + 1, i, j =>
    if i < j then
      match f ((i + j) / 2) with
      | none => none
      | some false => goSearchLoop f fuel ((i + j) / 2 + 1) j
      | some true => goSearchLoop f fuel i ((i + j) / 2)
    else some i

/-- Go's `sort.Search(n, f)` (standard library). -/
def goSearch (n : Nat) (f : Nat → Option Bool) : Option Nat := goSearchLoop f n 0 n

end Riot
