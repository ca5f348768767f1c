import Verif.Spec.Json
import Verif.Spec.HttpForm

/-!
# What a JSON value says about documents

`ShowsResponse fl r v`: the JSON value `v` is the answer `r`, with the members of every object in any order.
-/

namespace Riot.Json

open Riot Riot.Net

/-- The members of an object. -/
def Fields.members : Fields → List (Str × Val)
  | .nil => []
  | .cons k v t => (k, v) :: t.members

/-- The value is an object with exactly the given members, in any order. -/
def IsObject (ms : List (Str × Val)) (v : Val) : Prop := ∃ l : Fields, v = .obj l ∧ l.members.Perm ms

/-- The value is the integer. -/
def IsInteger (z : Int) (v : Val) : Prop := ∃ lit : Str, v = .num lit ∧ Numeral lit z

/-- The value is the list, `null` if there is none. -/
def IsList {α : Type} (R : α → Val → Prop) : Option (List α) → Val → Prop
  | none, v => v = .null
  | some l, v => ∃ e : Elems, v = .arr e ∧ List.Forall₂ R l e.toList

variable {S : Type}

/-- The value is a number that stands for the score. -/
def IsScore (fl : FloatFmt S) (x : S) (v : Val) : Prop := ∃ lit : Str, v = .num lit ∧ fl.parse lit = some x

/-- The value shows the document. -/
def ShowsText (fl : FloatFmt S) (t : JText S) (v : Val) : Prop := ∃ ts score attri : Val,
  IsInteger t.ts ts ∧ IsList (IsScore fl) t.score score ∧
  IsObject [(str "title", .text t.title), (str "author", .text t.author), (str "time", .text t.time), (str "ts", ts)] attri ∧
  IsObject [(str "id", .text t.id), (str "content", .text t.content), (str "score", score), (str "attri", attri)] v

/-- The value shows the answer. -/
def ShowsResponse (fl : FloatFmt S) (r : Response S) (v : Val) : Prop := ∃ code len timestamp docs : Val,
  IsInteger r.code code ∧ IsInteger r.len len ∧ IsInteger r.timestamp timestamp ∧ IsList (ShowsText fl) r.docs docs ∧
  IsObject [(str "code", code), (str "len", len), (str "timestamp", timestamp), (str "docs", docs)] v

end Riot.Json
