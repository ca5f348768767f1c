import Verif.Model.Indexer

/-!
# Token proximity (core/indexer.go:732-813 `computeTokenProximity`)

Locations are unbounded integers. `nextMinValues[j]` and `path[i][j]` are kept together as
a list of pairs; `currentLocations[k]` and `currentMinValues[k]` likewise.
-/

namespace Riot

/-- core/indexer.go:765-768: `for iNext+1 < len(next) && next[iNext+1] < c { iNext++ }`. -/
def advanceNext (next : List Int) (c : Int) (iNext : Nat) : Nat :=
  if h : iNext + 1 < next.length then
    if next[iNext + 1] < c then advanceNext next c (iNext + 1) else iNext
  else iNext
termination_by next.length - iNext

/-- core/indexer.go:770-781: the closure `update(from, to)`; `c`, `m` are the location and
minimal value at `from`, `len` the length of the previous token, `row` the pairs
(`nextMinValues[j]`, `path[i][j]`). -/
def updateCell (next : List Int) (c m : Int) (len : Nat) (fr dst : Nat)
    (row : List (Int × Nat)) : List (Int × Nat) :=
  match next[dst]?, row[dst]? with
  | some n, some (v, _) =>
    let value := m + |n - c - len|
    if v = -1 ∨ value < v then row.set dst (value, fr) else row
  | _, _ => row

/-- core/indexer.go:761-786: the loop over the current locations. -/
def proxRow (next : List Int) (len : Nat) :
    List (Int × Int) → Nat → Nat → List (Int × Nat) → List (Int × Nat)
  | [], _, _, row => row
  | (c, m) :: cur, iCurrent, iNext, row =>
    if m = -1 then proxRow next len cur (iCurrent + 1) iNext row
    else
      let iNext := advanceNext next c iNext
      let row := updateCell next c m len iCurrent iNext row
      let row := updateCell next c m len iCurrent (iNext + 1) row
      proxRow next len cur (iCurrent + 1) iNext row

/-- core/indexer.go:752-790: the dynamic programme. `cur` pairs the current locations with
their minimal values, `rest` are the locations of the following tokens, `lens` the byte
lengths of the tokens from the current one on. Returns the final minimal values and the
`path` rows (first row for the first element of `rest`). -/
def proxDP : List (Int × Int) → List (List Int) → List Nat → List Int × List (List Nat)
  | cur, [], _ => (cur.map (·.2), [])
  | cur, next :: rest, lens =>
    let row := proxRow next (lens.headD 0) cur 0 0 (next.map (fun _ => (-1, 0)))
    let r := proxDP (next.zip (row.map (·.1))) rest lens.tail
    (r.1, row.map (·.2) :: r.2)

/-- core/indexer.go:792-802: the best final value and its index. -/
def proxBest : List Int → Nat → Int → Nat → Int × Nat
  | [], _, best, cursor => (best, cursor)
  | v :: vs, i, best, cursor =>
    if v = -1 then proxBest vs (i + 1) best cursor
    else if best = -1 ∨ v < best then proxBest vs (i + 1) v i
    else proxBest vs (i + 1) best cursor

/-- core/indexer.go:804-810: walk the path backwards. The lists are in reverse token
order; `none` is an index out of range. The result is in reverse token order. -/
def proxTrace : List (List Int) → List (List Nat) → Nat → Option (List Int)
  | [], _, _ => some []
  | [locs], _, cursor => (locs[cursor]?).map (fun l => [l])
  | locs :: locs2 :: rest, path :: paths, cursor => do
    let l ← locs[cursor]?
    let cursor ← path[cursor]?
    let ls ← proxTrace (locs2 :: rest) paths cursor
    pure (l :: ls)
  | _ :: _ :: _, [], _ => none

/-- core/indexer.go:732-813 `computeTokenProximity`. `locs` are the location slices
`table[i].locations[indexPointers[i]]` of the tokens, `lens` the byte lengths of the
tokens. `none` = panic: with no token, `table[0]` on line 751 is out of range. -/
def computeTokenProximity (locs : List (List Int)) (lens : List Nat) :
    Option (Int × List Int) :=
  match locs with
  | [] => none
  | first :: rest =>
    let r := proxDP (first.map (fun l => (l, 0))) rest lens
    let best := proxBest r.1 0 (-1) 0
    (proxTrace (first :: rest).reverse r.2.reverse best.2).map (fun l => (best.1, l.reverse))

end Riot
