import Verif.Model.Indexer

/-!
# What a user expects of the index, independent of how it is stored

* `ideal h`: the map obtained by executing a history on an empty map.
* `Disciplined h`: between two forced refreshes, no call mentions a document after an add
  of it (and the reserved id `"0"` is never removed).
* `AbsIndex`/`AbsStep`: the weakest behaviour the code has for *every* history.
* `SortOk`: the contract assumed of the standard library's `sort.Sort`.
-/

namespace Riot

/-- Contract of `sort.Sort`: a sorted permutation; nothing about equal elements. -/
structure SortOk (so : Sorter) : Prop where
  docs_perm : ∀ l, (so.docs l).Perm l
  docs_sorted : ∀ l, (so.docs l).Pairwise (fun a b => a.docId ≤ b.docId)
  ids_perm : ∀ l, (so.ids l).Perm l
  ids_sorted : ∀ l, (so.ids l).Pairwise (· ≤ ·)

/-- Execute a history on a map from ids to documents. -/
def idealStep (m : Str → Option DocIndex) : IdxOp → Str → Option DocIndex
  | .add doc _ => fun d => if d = doc.docId then some doc else m d
  | .remove id _ => fun d => if d = id then none else m d
  | .flush _ => m

/-- The map a history should produce. -/
def ideal (h : List IdxOp) : Str → Option DocIndex := h.foldl idealStep (fun _ => none)

/-- The id an operation is about. -/
def IdxOp.id? : IdxOp → Option Str
  | .add doc _ => some doc.docId
  | .remove id _ => some id
  | .flush _ => none

/-- Does the call force the pending additions into the index? -/
def IdxOp.refreshes : IdxOp → Bool
  | .add _ f => f
  | .flush f => f
  | .remove _ _ => false

/-- `a` adds a document that `b` mentions again. -/
def Conflict (a b : IdxOp) : Prop := ∃ doc f, a = .add doc f ∧ b.id? = some doc.docId

/-- No call mentions a document after an add of it before a forced refresh, and the
reserved id `"0"` is never removed. -/
def Disciplined (h : List IdxOp) : Prop :=
  (∀ h1 a h2 b h3, h = h1 ++ a :: h2 ++ b :: h3 → Conflict a b →
    a.refreshes = true ∨ ∃ c ∈ h2, c.refreshes = true) ∧
  ∀ f, .remove (str "0") f ∉ h

/-- Documents are well formed: distinct keyword texts. -/
def OpOk : IdxOp → Prop
  | .add doc _ => (doc.keywords.map (·.text)).Nodup
  | _ => True

instance (op : IdxOp) : Decidable (OpOk op) := by cases op <;> unfold OpOk <;> infer_instance

/-- Abstract state: the visible version of every id, and the versions waiting to be
inserted. -/
structure AbsIndex where
  vis : Str → Option DocIndex
  pend : Str → DocIndex → Prop

/-- A refresh (forced or triggered by a full cache), document by document: nothing
happens; or an old version is hidden while its replacement keeps waiting (never when
forced); or one of the waiting versions becomes the visible one. -/
def AbsCommit (force : Bool) (a b : AbsIndex) : Prop :=
  ∀ d,
    (b.vis d = a.vis d ∧ (∀ x, b.pend d x ↔ a.pend d x) ∧
      (force = true → ∀ x, ¬ a.pend d x)) ∨
    (force = false ∧ (∃ x, a.pend d x) ∧ b.vis d = none ∧ ∀ x, b.pend d x ↔ a.pend d x) ∨
    (∃ v, a.pend d v ∧ b.vis d = some v ∧ ∀ x, ¬ b.pend d x)

/-- What one call does to the abstract state. -/
def AbsStep : IdxOp → AbsIndex → AbsIndex → Prop
  | .add doc f, a, b =>
    AbsCommit f ⟨a.vis, fun d x => a.pend d x ∨ (x = doc ∧ d = doc.docId)⟩ b
  | .flush f, a, b => AbsCommit f a b
  | .remove id _, a, b =>
    (∀ d, b.vis d = if d = id ∧ id ≠ str "0" then none else a.vis d) ∧
    ∀ d x, b.pend d x ↔ a.pend d x

/-- Abstract state of a new index. -/
def AbsIndex.empty : AbsIndex := ⟨fun _ => none, fun _ _ => False⟩

/-- `tr i` is an abstract state after the first `i` calls of `h`, for all `i`. -/
def Trace (h : List IdxOp) (tr : Nat → AbsIndex) : Prop :=
  tr 0 = .empty ∧ ∀ i (hi : i < h.length), AbsStep h[i] (tr i) (tr (i + 1))

/-- `x` is the version of `d` that was visible last, after the first `i` calls or before. -/
def LastVisible (tr : Nat → AbsIndex) (i : Nat) (d : Str) (x : DocIndex) : Prop :=
  ∃ j ≤ i, (tr j).vis d = some x ∧ ∀ m, j < m → m ≤ i → (tr m).vis d = none

/-- Discipline for one document: whenever it is added, no later call mentions it before a
forced refresh has been made; and it is not the reserved id `"0"`. -/
def DocDisciplined (d : Str) (h : List IdxOp) : Prop :=
  d ≠ str "0" ∧
  ∀ h1 doc f h2 b h3, h = h1 ++ IdxOp.add doc f :: h2 ++ b :: h3 → doc.docId = d →
    b.id? = some d → f = true ∨ ∃ c ∈ h2, c.refreshes = true

/-- `docs` lists every visible document once. -/
def Enumerates (docs : List DocIndex) (vis : Str → Option DocIndex) : Prop :=
  (docs.map (·.docId)).Nodup ∧ ∀ d doc, vis d = some doc ↔ doc ∈ docs ∧ doc.docId = d

end Riot
