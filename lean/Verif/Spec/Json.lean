import Verif.Spec.JsonText
import Verif.Spec.Net

/-!
# UTF-8 and what becomes of other bytes
-/

namespace Riot.Json

open Riot

/-- The bytes are the UTF-8 encoding of some text. -/
def Utf8 (s : Str) : Prop := ∃ rs : List Nat, (∀ r ∈ rs, Scalar r) ∧ s = rs.flatMap runeBytes

/-- Every byte that does not belong to the encoding of a rune is replaced by the encoding of U+FFFD. -/
inductive Mended : Str → Str → Prop
  | nil : Mended [] []
  | rune (r : Nat) (h : Scalar r) {s t : Str} (m : Mended s t) : Mended (runeBytes r ++ s) (runeBytes r ++ t)
  | bad (b : Fin 256) {s t : Str} (h : ∀ (r : Nat) (rest : Str), Scalar r → b :: s ≠ runeBytes r ++ rest)
      (m : Mended s t) : Mended (b :: s) (runeError ++ t)

/-- The 64-bit numbers. -/
def Int64Range (z : Int) : Prop := - 2 ^ 63 ≤ z ∧ z < 2 ^ 63

/-- The formatting of numbers does its job: what it writes is a JSON number and is read back as the same number. -/
def FloatOk {S : Type} (fl : FloatFmt S) : Prop :=
  ∀ (x : S) (t : Str), fl.fmt x = some t → IsNumber t ∧ fl.parse t = some x

variable {S : Type}

/-- All texts of a document are UTF-8. -/
def JText.Plain (t : JText S) : Prop :=
  Utf8 t.id ∧ Utf8 t.content ∧ Utf8 t.title ∧ Utf8 t.author ∧ Utf8 t.time

/-- The numbers fit into Go's variables. -/
def Response.InRange (r : Response S) : Prop :=
  Int64Range r.code ∧ Int64Range r.len ∧ Int64Range r.timestamp ∧ ∀ t ∈ r.docs.getD [], Int64Range t.ts

/-- No score is NaN or infinite. -/
def Finite (fl : FloatFmt S) (docs : List (JText S)) : Prop :=
  ∀ t ∈ docs, ∀ x ∈ t.score.getD [], fl.fmt x ≠ none

/-- Documents that JSON can carry: finite scores, texts in UTF-8, 64-bit numbers. -/
structure Sound (fl : FloatFmt S) (docs : List (JText S)) : Prop where
  finite : Finite fl docs
  plain : ∀ t ∈ docs, t.Plain
  ts : ∀ t ∈ docs, Int64Range t.ts
  length : Int64Range docs.length

/-- The same document up to the bytes that are not UTF-8. -/
structure JText.MendedTo (t t' : JText S) : Prop where
  id : Mended t.id t'.id
  content : Mended t.content t'.content
  score : t'.score = t.score
  title : Mended t.title t'.title
  author : Mended t.author t'.author
  time : Mended t.time t'.time
  ts : t'.ts = t.ts

/-- A nil slice stays nil, a slice keeps its length, its elements are related. -/
inductive SliceRel {α : Type} (R : α → α → Prop) : Option (List α) → Option (List α) → Prop
  | none : SliceRel R none none
  | some {l l' : List α} (h : List.Forall₂ R l l') : SliceRel R (some l) (some l')

/-- What is shown of a document in the order of the answers. -/
def JText.asText (t : JText S) : Net.Text := { id := t.id, content := t.content, time := t.time, ts := t.ts }

/-- The text shows the document. -/
structure ShowsDoc {F : Type} (d : ScoredDoc F JAttri) (t : JText F32) : Prop where
  id : t.id = d.scoredID.docId
  content : t.content = d.content
  score : t.score = some d.scoredID.scores
  attri : d.attri = some (.attri t.title t.author t.time t.ts)

end Riot.Json
