import Mathlib.Data.List.Basic

/-!
# Sorting of uint64 slices (core/uint64.go)

The ascending and the descending half of core/uint64.go are the same text up to three comparison
operators (`Cmp`). Indices are integers, as in Go; `none` is a panic (index out of range) or a
loop that has not ended after the given number of rounds (`fuel`); both are shown impossible.
-/

namespace Riot.Sort

variable {α : Type}

/-- The comparison operators. `lt`: `<` in the Asc functions, `>` in the Desc functions; `ge`: `>=`
and `<=` in siftDown and doPivot; `merge`: `data[p-c] >= data[c]` in symMergeAsc (lines 203, 214),
`data[p-c] < data[c]` in symMergeDesc (lines 441, 452). -/
structure Cmp (α : Type) where
  lt : α → α → Bool
  ge : α → α → Bool
  merge : α → α → Bool

/-- core/uint64.go:11-253 -/
def asc : Cmp UInt64 where
  lt x y := decide (x < y)
  ge x y := decide (x ≥ y)
  merge x y := decide (x ≥ y)

/-- core/uint64.go:255-496 -/
def desc : Cmp UInt64 where
  lt x y := decide (x > y)
  ge x y := decide (x ≤ y)
  merge x y := decide (x < y)

/-- `data[i]` -/
def rd (l : List α) (i : Int) : Option α := if 0 ≤ i then l[i.toNat]? else none

/-- `data[i], data[j] = data[j], data[i]` -/
def swp (l : List α) (i j : Int) : Option (List α) := do
  let x ← rd l i
  let y ← rd l j
  pure ((l.set i.toNat y).set j.toNat x)

/-- `lt` on two elements. -/
def less (c : Cmp α) (l : List α) (i j : Int) : Option Bool := do
  let x ← rd l i
  let y ← rd l j
  pure (c.lt x y)

/-- `ge` on two elements. -/
def geq (c : Cmp α) (l : List α) (i j : Int) : Option Bool := do
  let x ← rd l i
  let y ← rd l j
  pure (c.ge x y)

/-- core/uint64.go:29-31: the inner loop of insertionSort. -/
def insertLoop (c : Cmp α) (a : Int) : Nat → Int → List α → Option (List α)
  | 0, _, _ => none
  | fuel + 1, j, l =>
    if j > a then do
      let b ← less c l j (j - 1)
      if b then
        let l ← swp l j (j - 1)
        insertLoop c a fuel (j - 1) l
      else pure l
    else pure l

/-- core/uint64.go:28-32: the outer loop of insertionSort. -/
def insertionLoop (c : Cmp α) (a b : Int) : Nat → Int → List α → Option (List α)
  | 0, _, _ => none
  | fuel + 1, i, l =>
    if i < b then do
      let l ← insertLoop c a ((i - a).toNat + 1) i l
      insertionLoop c a b fuel (i + 1) l
    else pure l

/-- core/uint64.go:26-33 `insertionSortAsc`, 270-277 `insertionSortDesc`. -/
def insertionSort (c : Cmp α) (l : List α) (a b : Int) : Option (List α) :=
  insertionLoop c a b ((b - a).toNat + 1) (a + 1) l

/-- core/uint64.go:42-44: the larger child of the heap node (`&&` evaluates its right side only
if the left side holds). -/
def largerChild (c : Cmp α) (l : List α) (child hi first : Int) : Option Int :=
  if child + 1 < hi then do
    let b ← less c l (first + child) (first + child + 1)
    pure (if b then child + 1 else child)
  else pure child

/-- core/uint64.go:37-50: the loop of siftDown. -/
def siftLoop (c : Cmp α) (hi first : Int) : Nat → Int → List α → Option (List α)
  | 0, _, _ => none
  | fuel + 1, root, l =>
    if 2 * root + 1 ≥ hi then pure l
    else do
      let child ← largerChild c l (2 * root + 1) hi first
      let b ← geq c l (first + root) (first + child)
      if b then pure l
      else do
        let l ← swp l (first + root) (first + child)
        siftLoop c hi first fuel child l

/-- core/uint64.go:35-51 `siftDownAsc`, 279-295 `siftDownDesc`. -/
def siftDown (c : Cmp α) (l : List α) (lo hi first : Int) : Option (List α) :=
  siftLoop c hi first ((hi - lo).toNat + 1) lo l

/-- core/uint64.go:17-19: the first loop of heapSort, `i = n - 1` down to 0. -/
def heapify (c : Cmp α) (hi first : Int) : Nat → List α → Option (List α)
  | 0, l => pure l
  | i + 1, l => do
    let l ← siftDown c l i hi first
    heapify c hi first i l

/-- core/uint64.go:20-23: the second loop of heapSort, `i = n - 1` down to 0. -/
def popLoop (c : Cmp α) (first : Int) : Nat → List α → Option (List α)
  | 0, l => pure l
  | i + 1, l => do
    let l ← swp l first (first + i)
    let l ← siftDown c l 0 i first
    popLoop c first i l

/-- core/uint64.go:13-24 `heapSortAsc`, 257-268 `heapSortDesc`. `Int.tdiv` is Go's division. -/
def heapSort (c : Cmp α) (l : List α) (a b : Int) : Option (List α) := do
  let l ← heapify c (b - a) a (Int.tdiv (b - a - 1) 2 + 1).toNat l
  popLoop c a (b - a).toNat l

/-- `if data[i] < data[j] { swap }` -/
def swapIfLess (c : Cmp α) (l : List α) (i j : Int) : Option (List α) := do
  let b ← less c l i j
  if b then swp l i j else pure l

/-- core/uint64.go:53-64 `medianOfThreeAsc`, 297-308 `medianOfThreeDesc`. -/
def medianOfThree (c : Cmp α) (l : List α) (m1 m0 m2 : Int) : Option (List α) := do
  let l ← swapIfLess c l m1 m0
  let l ← swapIfLess c l m2 m1
  swapIfLess c l m1 m0

/-- core/uint64.go:66-72 `swapRangeAsc`, 310-316 `swapRangeDesc`. -/
def swapRange (l : List α) (a b : Int) : Nat → Option (List α)
  | 0 => pure l
  | n + 1 => do
    let l ← swp l a b
    swapRange l (a + 1) (b + 1) n

/-- core/uint64.go:87-97: the first inner loop of doPivot; returns `a`, `b` and the data. -/
def pivotUp (c : Cmp α) (pivot hc : Int) : Nat → Int → Int → List α → Option (Int × Int × List α)
  | 0, _, _, _ => none
  | fuel + 1, a, b, l =>
    if b < hc then do
      let x ← less c l b pivot
      if x then pivotUp c pivot hc fuel a (b + 1) l
      else do
        let y ← geq c l pivot b
        if y then
          let l ← swp l a b
          pivotUp c pivot hc fuel (a + 1) (b + 1) l
        else pure (a, b, l)
    else pure (a, b, l)

/-- core/uint64.go:98-108: the second inner loop of doPivot; returns `c`, `d` and the data. -/
def pivotDown (c : Cmp α) (pivot b : Int) : Nat → Int → Int → List α → Option (Int × Int × List α)
  | 0, _, _, _ => none
  | fuel + 1, hc, d, l =>
    if b < hc then do
      let x ← less c l pivot (hc - 1)
      if x then pivotDown c pivot b fuel (hc - 1) d l
      else do
        let y ← geq c l (hc - 1) pivot
        if y then
          let l ← swp l (hc - 1) (d - 1)
          pivotDown c pivot b fuel (hc - 1) (d - 1) l
        else pure (hc, d, l)
    else pure (hc, d, l)

/-- The variables `a`, `b`, `c`, `d` of doPivot and the data. -/
structure Part (α : Type) where
  a : Int
  b : Int
  c : Int
  d : Int
  data : List α

/-- core/uint64.go:86-115: the outer loop of doPivot. -/
def pivotLoop (c : Cmp α) (pivot : Int) : Nat → Part α → Option (Part α)
  | 0, _ => none
  | fuel + 1, s => do
    let (a, b, l) ← pivotUp c pivot s.c ((s.c - s.b).toNat + 1) s.a s.b s.data
    let (hc, d, l) ← pivotDown c pivot b ((s.c - b).toNat + 1) s.c s.d l
    if b ≥ hc then pure ⟨a, b, hc, d, l⟩
    else do
      let l ← swp l b (hc - 1)
      pivotLoop c pivot fuel ⟨a, b + 1, hc - 1, d, l⟩

/-- core/uint64.go:75-82: the choice of the pivot, moved to `lo`. -/
def choosePivot (c : Cmp α) (l : List α) (lo hi : Int) : Option (List α) := do
  let m := lo + Int.tdiv (hi - lo) 2
  let l ← if hi - lo > 40 then do
      let s := Int.tdiv (hi - lo) 8
      let l ← medianOfThree c l lo (lo + s) (lo + 2 * s)
      let l ← medianOfThree c l m (m - s) (m + s)
      medianOfThree c l (hi - 1) (hi - 1 - s) (hi - 1 - 2 * s)
    else pure l
  medianOfThree c l lo m (hi - 1)

/-- core/uint64.go:74-124 `doPivotAsc`, 318-368 `doPivotDesc`; `swapRange` with a negative count
does nothing. -/
def doPivot (c : Cmp α) (l : List α) (lo hi : Int) : Option (Int × Int × List α) := do
  let l ← choosePivot c l lo hi
  let s ← pivotLoop c lo ((hi - lo).toNat + 1) ⟨lo + 1, lo + 1, hi, hi, l⟩
  let n := min (s.b - s.a) (s.a - lo)
  let l ← swapRange s.data lo (s.b - n) n.toNat
  let n := min (hi - s.d) (s.d - s.c)
  let l ← swapRange l s.c (hi - n) n.toNat
  pure (lo + s.b - s.a, hi - (s.d - s.c), l)

/-- core/uint64.go:126-146 `quickSortAsc`, 370-390 `quickSortDesc`; the next round of the loop is
a call with the new bounds. -/
def quickSort (c : Cmp α) : Nat → List α → Int → Int → Int → Option (List α)
  | 0, _, _, _, _ => none
  | fuel + 1, l, a, b, maxDepth =>
    if b - a > 7 then
      if maxDepth = 0 then heapSort c l a b
      else do
        let (mlo, mhi, l) ← doPivot c l a b
        if mlo - a < b - mhi then
          let l ← quickSort c fuel l a mlo (maxDepth - 1)
          quickSort c fuel l mhi b (maxDepth - 1)
        else
          let l ← quickSort c fuel l mhi b (maxDepth - 1)
          quickSort c fuel l a mlo (maxDepth - 1)
    else if b - a > 1 then insertionSort c l a b
    else pure l

/-- core/uint64.go:150-153: the number of binary digits of `n`. -/
def bits : Nat → Nat → Nat
  | 0, _ => 0
  | fuel + 1, n => if n > 0 then bits fuel (n / 2) + 1 else 0

/-- core/uint64.go:149-156 `Asc`, 393-400 `Desc`. -/
def sort (c : Cmp α) (l : List α) : Option (List α) :=
  quickSort c (l.length + 1) l 0 l.length (2 * bits l.length l.length)

/-- core/uint64.go:160-164: the loop of IsSorted, `i` from `n` down to 1. -/
def isSortedLoop (c : Cmp α) (l : List α) : Nat → Option Bool
  | 0 => some true
  | i + 1 => do
    let b ← less c l (i + 1) i
    if b then pure false else isSortedLoop c l i

/-- core/uint64.go:159-166 `IsSortedAsc`, 403-410 `IsSortedDesc`. -/
def isSorted (c : Cmp α) (l : List α) : Option Bool := isSortedLoop c l (l.length - 1)

/-- core/uint64.go:236-252: the part of rotate after the equal case; `p` is fixed. -/
def rotateLoop (p : Int) : Nat → Int → Int → List α → Option (List α)
  | 0, _, _, _ => none
  | fuel + 1, i, j, l =>
    if i ≠ j then
      if i > j then do
        let l ← swapRange l (p - i) p j.toNat
        rotateLoop p fuel (i - j) j l
      else do
        let l ← swapRange l (p - i) (p + j - i) i.toNat
        rotateLoop p fuel i (j - i) l
    else swapRange l (p - i) p i.toNat

/-- core/uint64.go:227-253 `rotateAsc`, 470-496 `rotateDesc`. -/
def rotate (l : List α) (a m b : Int) : Option (List α) :=
  let i := m - a
  if i = 0 then pure l
  else
    let j := b - m
    if j = 0 then pure l
    else if i = j then swapRange l a m i.toNat
    else rotateLoop (a + i) ((b - a).toNat + 1) i j l

/-- core/uint64.go:201-208, 212-219: the binary search of symMerge. -/
def mergeSearch (c : Cmp α) (l : List α) (p : Int) : Nat → Int → Int → Option Int
  | 0, _, _ => none
  | fuel + 1, start, r =>
    if start < r then do
      let k := start + Int.tdiv (r - start) 2
      let x ← rd l (p - k)
      let y ← rd l k
      if c.merge x y then mergeSearch c l p fuel (k + 1) r
      else mergeSearch c l p fuel start k
    else pure start

/-- core/uint64.go:199-220: `start`, for `n = mid + m`. -/
def mergeStart (c : Cmp α) (l : List α) (a m b mid : Int) : Option Int :=
  if m > mid then mergeSearch c l (mid + m - 1) ((mid - (mid + m - b)).toNat + 1) (mid + m - b) mid
  else mergeSearch c l (mid + m - 1) ((m - a).toNat + 1) a m

/-- core/uint64.go:191-225 `symMergeAsc`, 434-468 `symMergeDesc`. -/
def symMerge (c : Cmp α) : Nat → List α → Int → Int → Int → Option (List α)
  | 0, _, _, _, _ => none
  | fuel + 1, l, a, m, b =>
    if a ≥ m ∨ m ≥ b then pure l
    else do
      let mid := a + Int.tdiv (b - a) 2
      let n := mid + m
      let start ← mergeStart c l a m b mid
      let l ← rotate l start m (n - start)
      let l ← symMerge c fuel l a start mid
      symMerge c fuel l mid (n - start) b

/-- core/uint64.go:173-177: sort the complete blocks; returns `a` and the data. -/
def sortBlocks (c : Cmp α) (n blockSize : Int) : Nat → Int → List α → Option (Int × List α)
  | 0, _, _ => none
  | fuel + 1, a, l =>
    if a + blockSize ≤ n then do
      let l ← insertionSort c l a (a + blockSize)
      sortBlocks c n blockSize fuel (a + blockSize) l
    else pure (a, l)

/-- core/uint64.go:181-186: merge the complete pairs of blocks; returns `a` and the data. -/
def mergeBlocks (c : Cmp α) (n blockSize : Int) : Nat → Int → List α → Option (Int × List α)
  | 0, _, _ => none
  | fuel + 1, a, l =>
    if a + 2 * blockSize ≤ n then do
      let l ← symMerge c (l.length + 1) l a (a + blockSize) (a + 2 * blockSize)
      mergeBlocks c n blockSize fuel (a + 2 * blockSize) l
    else pure (a, l)

/-- core/uint64.go:180-189: the rounds of merging. -/
def mergeRounds (c : Cmp α) (n : Int) : Nat → Int → List α → Option (List α)
  | 0, _, _ => none
  | fuel + 1, blockSize, l =>
    if blockSize < n then do
      let (a, l) ← mergeBlocks c n blockSize (l.length + 1) 0 l
      let l ← symMerge c (l.length + 1) l a (a + blockSize) n
      mergeRounds c n fuel (2 * blockSize) l
    else pure l

/-- core/uint64.go:169-189 `StableAsc`, 413-433 `StableDesc`. -/
def stable (c : Cmp α) (l : List α) : Option (List α) := do
  let n : Int := l.length
  let (a, l) ← sortBlocks c n 20 (l.length + 1) 0 l
  let l ← insertionSort c l a n
  mergeRounds c n (l.length + 1) 20 l

end Riot.Sort
