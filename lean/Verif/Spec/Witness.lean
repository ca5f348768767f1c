import Verif.Spec.Index
import Verif.Spec.Search
import Mathlib.Data.List.Sort

/-!
# A concrete sort function and concrete documents, for examples and counterexamples
-/

namespace Riot

/-- Insertion sort: one admissible `sort.Sort`. -/
def insSort : Sorter where
  docs := List.insertionSort (fun a b => a.docId ≤ b.docId)
  ids := List.insertionSort (· ≤ ·)

theorem insSort_ok : SortOk insSort where
  docs_perm := fun l => List.perm_insertionSort _ l
  docs_sorted := fun l => by
    have : Std.Total (fun a b : DocIndex => a.docId ≤ b.docId) := ⟨fun a b => le_total _ _⟩
    have : IsTrans DocIndex (fun a b : DocIndex => a.docId ≤ b.docId) :=
      ⟨fun a b c h1 h2 => le_trans h1 h2⟩
    exact List.pairwise_insertionSort _ l
  ids_perm := fun l => List.perm_insertionSort _ l
  ids_sorted := fun l => List.pairwise_insertionSort _ l

/-- A document with one occurrence of each of the given keys, in order, one after the other. -/
def mkDoc (id : String) (keys : List String) : DocIndex where
  docId := str id
  tokenLen := keys.length
  keywords := keys.zipIdx.map (fun k => ⟨str k.1, 1, [(k.2 : Int)]⟩)

/-- The ids a lookup returned; `none` = the lookup crashed. -/
def idsOf (r : Option (List IndexedDoc × Nat)) : Option (List Str) :=
  r.map (fun x => x.1.map (·.docId))

/-- Run a history on a new index and look up; `none` = a crash somewhere. -/
def runLookup (o : IndexerOpts) (h : List IdxOp) (tokens labels : List Str)
    (docIds : Option (List Str) := none) (logic : Option Logic := none) :
    Option (List IndexedDoc × Nat) :=
  ((Indexer.init o).run insSort h).bind
    (fun s => s.lookup (fun x => x) tokens labels docIds false logic)

/-- Options for a small index. -/
def smallOpts (it : IndexType) (n : Nat) : IndexerOpts := ⟨it, n, some ⟨2, 3/4⟩⟩

end Riot
