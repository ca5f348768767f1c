import Verif.Model.Float32
import Verif.Spec.Index

/-!
# float32 results: specification
-/

namespace Riot

/-- `x` and `y` are non-negative and differ by a factor of at most `q ^ k`. -/
def Near (q : Rat) (k : Nat) (x y : Rat) : Prop :=
  0 ≤ x ∧ 0 ≤ y ∧ x ≤ y * q ^ k ∧ y ≤ x * q ^ k

/-- A rounding function that changes no non-negative number by more than the factor `q`. -/
def RoundsBy (q : Rat) (rnd : Rat → Rat) : Prop := ∀ x, 0 ≤ x → Near q 1 (rnd x) x

/-- All integers up to the bound are exact. -/
def ExactUpTo (bound : Int) (rnd : Rat → Rat) : Prop := ∀ n : Int, |n| ≤ bound → rnd n = n

/-- The document length of an added document is a natural number (segment.go:284: the number of
tokens). -/
def LenOk : IdxOp → Prop
  | .add doc _ => ∃ n : Nat, doc.tokenLen = n
  | _ => True

/-- The same answer up to the BM25 values, which differ by a factor of at most `q ^ k`. -/
def SameButBM25 (q : Rat) (k : Nat) (x y : IndexedDoc) : Prop :=
  x = { y with bm25 := x.bm25 } ∧ Near q k x.bm25 y.bm25

/-- Both lookups crash, or both give the same documents in the same order with the same
proximities, snippets and locations: only the BM25 values may differ. -/
def SameDocs (x y : Option (List IndexedDoc × Nat)) : Prop :=
  (x = none ∧ y = none) ∨
  ∃ dx dy n, x = some (dx, n) ∧ y = some (dy, n) ∧
    List.Forall₂ (fun a b => a = { b with bm25 := a.bm25 }) dx dy

/-- Both lookups crash, or both give the same answer with BM25 values that differ by a factor of at
most `q ^ k`. -/
def SameAnswer (q : Rat) (k : Nat) (x y : Option (List IndexedDoc × Nat)) : Prop :=
  (x = none ∧ y = none) ∨
  ∃ dx dy n, x = some (dx, n) ∧ y = some (dy, n) ∧ List.Forall₂ (SameButBM25 q k) dx dy

/-- A history and a lookup with rounded arithmetic; `none` = a crash. -/
def runLookupF (rnd : Rat → Rat) (idf : Int → Nat → Rat) (so : Sorter) (o : IndexerOpts) (h : List IdxOp)
    (tokens labels : List Str) (docIds : Option (List Str)) (countOnly : Bool) (logic : Option Logic) :
    Option (List IndexedDoc × Nat) :=
  ((Indexer.init o).runF rnd so h).bind (fun s => s.lookupF rnd idf tokens labels docIds countOnly logic)

/-- The same with exact arithmetic. -/
def runLookupX (log2 : Rat → Rat) (so : Sorter) (o : IndexerOpts) (h : List IdxOp)
    (tokens labels : List Str) (docIds : Option (List Str)) (countOnly : Bool) (logic : Option Logic) :
    Option (List IndexedDoc × Nat) :=
  ((Indexer.init o).run so h).bind (fun s => s.lookup log2 tokens labels docIds countOnly logic)

/-- At no moment of the history are there more than `bound` tokens in the index. -/
def TotalsUpTo (bound : Int) (so : Sorter) (o : IndexerOpts) (h : List IdxOp) : Prop :=
  ∀ i t, (Indexer.init o).run so (h.take i) = some t → t.totalTokenLen ≤ bound

/-- A float32 value: at most 24 binary digits (no bounds on the exponent). -/
def IsF32 (y : Rat) : Prop := ∃ m e : Int, |m| < 2 ^ 24 ∧ y = m * (2 : Rat) ^ e

/-- The last of its 24 binary digits is 0. -/
def EvenF32 (y : Rat) : Prop := ∃ m e : Int, 2 ^ 23 ≤ |m| ∧ |m| < 2 ^ 24 ∧ m % 2 = 0 ∧ y = m * (2 : Rat) ^ e

end Riot
