import Verif.Model.Ranker
import Mathlib.Data.List.Lex

/-!
# Ranking: what the documentation promises
-/

namespace Riot

/-- Numeric value of a score that is not NaN, in the rationals with two infinities. -/
def F32.value : F32 → WithBot (WithTop Rat)
  | .nan => ⊥
  | .ninf => ⊥
  | .fin q => ((q : WithTop Rat) : WithBot (WithTop Rat))
  | .pinf => ((⊤ : WithTop Rat) : WithBot (WithTop Rat))

/-- A score vector as an element of the lexicographic order on lists (a proper prefix is
smaller than its extensions). -/
def scoreKey (l : List F32) : List (WithBot (WithTop Rat)) := l.map F32.value

/-- No NaN among the scores. -/
def NoNaN (l : List F32) : Prop := F32.nan ∉ l

/-- `less` is a strict weak order on the elements of `l`. -/
structure StrictWeakOn {α : Type} (less : α → α → Bool) (l : List α) : Prop where
  irrefl : ∀ a ∈ l, less a a = false
  trans : ∀ a ∈ l, ∀ b ∈ l, ∀ c ∈ l, less a b = true → less b c = true → less a c = true
  incomp : ∀ a ∈ l, ∀ b ∈ l, ∀ c ∈ l, less a b = false → less b a = false →
    less b c = false → less c b = false → less a c = false ∧ less c a = false

/-- Contract of Go's `sort.Sort`: a permutation, sorted if `Less` is a strict weak order. -/
structure GSortOk (gs : GSort) : Prop where
  perm : ∀ {α : Type} (less : α → α → Bool) (l : List α), (gs less l).Perm l
  sorted : ∀ {α : Type} (less : α → α → Bool) (l : List α), StrictWeakOn less l →
    (gs less l).Pairwise (fun a b => less b a = false)

/-- What a user registered for a document. -/
structure RankData (F A : Type) where
  fields : Option F
  content : Str
  attri : Option A

/-- Execute a ranker history on a map. An add without content (or attri) keeps the content
(attri) the document already has. -/
def rankIdealStep {F A : Type} (m : Str → Option (RankData F A)) :
    RankerOp F A → Str → Option (RankData F A)
  | .add d f c => fun x =>
    if x = d then
      some { fields := f
             content := (c.map (·.1)).getD (((m d).map (·.content)).getD [])
             attri := ((c.bind (·.2)).getD (((m d).map (·.attri)).getD none)) }
    else m x
  | .remove d => fun x => if x = d then none else m x

/-- The data a ranker should hold after a history. -/
def rankIdeal {F A : Type} (h : List (RankerOp F A)) : Str → Option (RankData F A) :=
  h.foldl rankIdealStep (fun _ => none)

/-- The entry a candidate should get: none if it is not registered or gets no score. -/
def expectedScored {F A : Type} (m : Str → Option (RankData F A))
    (score : IndexedDoc → Option F → List F32) (d : IndexedDoc) : Option (ScoredDoc F A) :=
  match m d.docId with
  | none => none
  | some x =>
    if score d x.fields = [] then none
    else some { scoredID := { docId := d.docId, scores := score d x.fields,
                              tokenSnippetLocs := d.tokenSnippetLocs, tokenLocs := d.tokenLocs }
                content := x.content, attri := x.attri, fields := x.fields }

/-- Positions `o .. o+m-1` of a ranking (all from `o` on when `m = 0`). -/
def page {α : Type} (o m : Nat) (l : List α) : List α :=
  if m = 0 then l.drop o else (l.drop o).take m

/-- `l` is ordered as requested: from the largest to the smallest score vector, or the other
way round. -/
def Ranked {α : Type} [HasScores α] (reverse : Bool) (l : List α) : Prop :=
  l.Pairwise (fun a b =>
    if reverse then scoreKey (HasScores.scoresOf a) ≤ scoreKey (HasScores.scoresOf b)
    else scoreKey (HasScores.scoresOf b) ≤ scoreKey (HasScores.scoresOf a))

end Riot
