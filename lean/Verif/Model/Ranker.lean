import Verif.Model.Types
import Mathlib.Order.WithBot

/-!
# The ranker (core/ranker.go) and the score order (types/search_response.go)

`none` is a Go panic. `fields` and `attri` are Go `interface{}` values: arbitrary types `F`
and `A`. The scoring criteria of a request is a user function; it is modelled as a pure
function of the document and its fields.
-/

namespace Riot

/-- Go `float32` score values as far as comparison is concerned. -/
inductive F32
  | nan
  | ninf
  | fin (q : Rat)
  | pinf
  deriving DecidableEq, Repr

/-- IEEE `a < b` (`a > b` is `b < a`); every comparison with NaN is false. -/
def F32.lt : F32 → F32 → Bool
  | .nan, _ => false
  | _, .nan => false
  | .ninf, .ninf => false
  | .ninf, _ => true
  | _, .ninf => false
  | .pinf, _ => false
  | .fin _, .pinf => true
  | .fin a, .fin b => decide (a < b)

/-- types/search_response.go:97-108 and 150-161: the loop of `Less` on two score vectors (it
is a "more" relation: larger scores first, a longer vector before its prefix). -/
def scoresLess : List F32 → List F32 → Bool
  | x :: xs, y :: ys =>
    if F32.lt y x then true
    else if F32.lt x y then false
    else scoresLess xs ys
  | xs, ys => decide (xs.length > ys.length)

/-- types/search_response.go:121-137 `ScoredID`. -/
structure ScoredID where
  docId : Str
  scores : List F32 := []
  tokenSnippetLocs : List Int := []
  tokenLocs : List (List Int) := []
  deriving DecidableEq, Repr

/-- types/search_response.go:74-84 `ScoredDoc` (embeds `ScoredID`). A map read of a missing
key gives the zero value: `nil` (`none`) for `interface{}`, `""` for `Content`. -/
structure ScoredDoc (F A : Type) where
  scoredID : ScoredID
  content : Str := []
  attri : Option A := none
  fields : Option F := none
  deriving DecidableEq, Repr

/-- Anything with a score vector: `ScoredIDs.Less` and `ScoredDocs.Less` are the same code. -/
class HasScores (α : Type) where
  scoresOf : α → List F32

instance : HasScores ScoredID := ⟨ScoredID.scores⟩
instance {F A : Type} : HasScores (ScoredDoc F A) := ⟨fun d => d.scoredID.scores⟩

/-- `ScoredIDs.Less` / `ScoredDocs.Less`. -/
def scoredLess {α : Type} [HasScores α] (a b : α) : Bool :=
  scoresLess (HasScores.scoresOf a) (HasScores.scoresOf b)

/-- Go's `sort.Sort` with a given `Less`, as a parameter (contract: Spec/Ranker). -/
abbrev GSort := ∀ {α : Type}, (α → α → Bool) → List α → List α

/-- core/ranker.go:164-168, 229-233: `sort.Sort(x)` or `sort.Sort(sort.Reverse(x))`. -/
def sortScored (gs : GSort) {α : Type} [HasScores α] (reverse : Bool) (l : List α) : List α :=
  if reverse then gs (fun a b => scoredLess b a) l else gs scoredLess l

/-- `l[start:end]` for `end ≤ len(l)`; `none` = slice bounds out of range. -/
def goSub {α : Type} (l : List α) (start end_ : Int) : Option (List α) :=
  if 0 ≤ start ∧ start ≤ end_ ∧ end_ ≤ l.length then
    some ((l.take end_.toNat).drop start.toNat)
  else none

/-- types/search_request.go:56-69 `RankOpts` (with the criteria resolved to a function). -/
structure RankOpts (F : Type) where
  score : IndexedDoc → Option F → List F32
  reverseOrder : Bool := false
  outputOffset : Int := 0
  maxOutputs : Int := 0

/-- core/ranker.go:28-41 `Ranker`. -/
structure Ranker (F A : Type) where
  idOnly : Bool
  fields : GoMap (Option F) := .empty
  docs : GoMap Bool := .empty
  content : GoMap Str := .empty
  attri : GoMap (Option A) := .empty

/-- core/ranker.go:44-61 `Init(onlyID)`. -/
def Ranker.init {F A : Type} (idOnly : Bool) : Ranker F A := { idOnly := idOnly }

/-- core/ranker.go:65-90 `AddDoc(docId, fields, content...)`: the optional arguments are
content and attri (`content[0].(string)` cannot fail for a typed caller). -/
def Ranker.addDoc {F A : Type} (r : Ranker F A) (docId : Str) (fields : Option F)
    (content : Option (Str × Option (Option A)) := none) : Ranker F A :=
  let r := { r with fields := r.fields.set docId fields, docs := r.docs.set docId true }
  if r.idOnly then r
  else
    match content with
    | none => r
    | some (c, none) => { r with content := r.content.set docId c }
    | some (c, some a) => { r with content := r.content.set docId c, attri := r.attri.set docId a }

/-- core/ranker.go:93-109 `RemoveDoc`. -/
def Ranker.removeDoc {F A : Type} (r : Ranker F A) (docId : Str) : Ranker F A :=
  let r := { r with fields := r.fields.del docId, docs := r.docs.del docId }
  if r.idOnly then r
  else { r with content := r.content.del docId, attri := r.attri.del docId }

/-- core/ranker.go:111-122 `maxOutput`. -/
def maxOutput {F : Type} (o : RankOpts F) (docsLen : Int) : Int × Int :=
  if o.maxOutputs ≠ 0 then
    (min o.outputOffset docsLen, min (o.outputOffset + o.maxOutputs) docsLen)
  else (min o.outputOffset docsLen, docsLen)

/-- The common part of the result entries (core/ranker.go:140-146, 197-202). -/
def mkScoredID (d : IndexedDoc) (scores : List F32) : ScoredID :=
  { docId := d.docId, scores := scores, tokenSnippetLocs := d.tokenSnippetLocs,
    tokenLocs := d.tokenLocs }

/-- core/ranker.go:124-154 `rankOutIDs`. -/
def Ranker.rankOutIDs {F A : Type} (r : Ranker F A) (o : RankOpts F) (countOnly : Bool) :
    List IndexedDoc → List ScoredID × Nat
  | [] => ([], 0)
  | d :: ds =>
    let rest := r.rankOutIDs o countOnly ds
    if (r.docs.get d.docId).isSome then
      let scores := o.score d ((r.fields.get d.docId).getD none)
      if scores.length > 0 then
        (if countOnly then rest.1 else mkScoredID d scores :: rest.1, rest.2 + 1)
      else rest
    else rest

/-- core/ranker.go:179-219 `rankOutDocs`. -/
def Ranker.rankOutDocs {F A : Type} (r : Ranker F A) (o : RankOpts F) (countOnly : Bool) :
    List IndexedDoc → List (ScoredDoc F A) × Nat
  | [] => ([], 0)
  | d :: ds =>
    let rest := r.rankOutDocs o countOnly ds
    if (r.docs.get d.docId).isSome then
      let fs := (r.fields.get d.docId).getD none
      let scores := o.score d fs
      if scores.length > 0 then
        (if countOnly then rest.1
         else { scoredID := mkScoredID d scores, fields := fs,
                content := (r.content.get d.docId).getD [],
                attri := (r.attri.get d.docId).getD none } :: rest.1, rest.2 + 1)
      else rest
    else rest

/-- core/ranker.go:162-176, 227-241: sort and cut. -/
def sortAndCut {F : Type} (gs : GSort) {α : Type} [HasScores α] (o : RankOpts F) (countOnly : Bool)
    (out : List α × Nat) : Option (List α × Nat) :=
  if countOnly then some out
  else
    let l := sortScored gs o.reverseOrder out.1
    let se := maxOutput o l.length
    (goSub l se.1 se.2).map (fun x => (x, out.2))

/-- core/ranker.go:157-176 `RankDocID`. -/
def Ranker.rankDocID {F A : Type} (gs : GSort) (r : Ranker F A) (docs : List IndexedDoc)
    (o : RankOpts F) (countOnly : Bool) : Option (List ScoredID × Nat) :=
  sortAndCut gs o countOnly (r.rankOutIDs o countOnly docs)

/-- core/ranker.go:222-241 `RankDocs`. -/
def Ranker.rankDocs {F A : Type} (gs : GSort) (r : Ranker F A) (docs : List IndexedDoc)
    (o : RankOpts F) (countOnly : Bool) : Option (List (ScoredDoc F A) × Nat) :=
  sortAndCut gs o countOnly (r.rankOutDocs o countOnly docs)

/-- The `interface{}` a ranker returns: `types.ScoredIDs` or `types.ScoredDocs`. -/
inductive RankOut (F A : Type)
  | ids (l : List ScoredID)
  | docs (l : List (ScoredDoc F A))
  deriving DecidableEq

/-- core/ranker.go:245-260 `Rank`. -/
def Ranker.rank {F A : Type} (gs : GSort) (r : Ranker F A) (docs : List IndexedDoc)
    (o : RankOpts F) (countOnly : Bool) : Option (RankOut F A × Nat) :=
  if r.idOnly then (r.rankDocID gs docs o countOnly).map (fun x => (.ids x.1, x.2))
  else (r.rankDocs gs docs o countOnly).map (fun x => (.docs x.1, x.2))

/-- Calls that change a ranker. -/
inductive RankerOp (F A : Type)
  | add (docId : Str) (fields : Option F) (content : Option (Str × Option (Option A)))
  | remove (docId : Str)

/-- One call. -/
def Ranker.step {F A : Type} (r : Ranker F A) : RankerOp F A → Ranker F A
  | .add d f c => r.addDoc d f c
  | .remove d => r.removeDoc d

/-- A new ranker after a history of calls. -/
def Ranker.run {F A : Type} (idOnly : Bool) (h : List (RankerOp F A)) : Ranker F A :=
  h.foldl Ranker.step (.init idOnly)

/-- types/scoring_criteria.go:31-33 `RankByBM25.Score`. -/
def rankByBM25 {F : Type} : IndexedDoc → Option F → List F32 := fun d _ => [.fin d.bm25]

end Riot
