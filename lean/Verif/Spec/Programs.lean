import Verif.Spec.Criteria

/-!
# The example programs examples/simple and examples/logic

Both index a few English texts on an engine without a dictionary, wait for Flush, and search.
-/

namespace Riot

variable {F A : Type}

/-- The lower case of an ASCII byte. -/
def lowerByte (b : Fin 256) : Fin 256 := if 65 ≤ b ∧ b ≤ 90 then b + 32 else b

/-- A text of ASCII characters, not empty. -/
def PlainASCII (s : Str) : Prop := s ≠ [] ∧ ∀ b ∈ s, b < 128

instance (s : Str) : Decidable (PlainASCII s) := inferInstanceAs (Decidable (_ ∧ _))

/-- The words of an ASCII text in lower case, split at the spaces (a line break is no space), and the text up to each of them without
its spaces: the keys the engine makes of a text when it has no dictionary. -/
def keysOfASCII (s : Str) : List Str := splitTokens false (splitSpace (s.map lowerByte))

/-- The documents of a collection that satisfy a request with the words `kw`, in terms of the words of their texts. -/
def askedWords (kw : List Str) (l : Logic) (docs : List (Str × Str)) : List (Str × Str) :=
  docs.filter (fun y => decide (y.1 ≠ str "0") && ((mustOf kw l).all (fun ks => ks.all (fun k => decide (k ∈ keysOfASCII y.2)))) &&
    ((clauseKeys kw l.should l.expr.should).all (fun ks => ks.any (fun k => decide (k ∈ keysOfASCII y.2)))) &&
    ((clauseKeys kw l.notIn l.expr.notIn).all (fun ks => ks.all (fun k => decide (k ∉ keysOfASCII y.2)))))

/-- An engine as the programs make it: IDOnly, no dictionary, words split at spaces (Using 4 or 0), no pinyin, and the
default scoring, by BM25 without limits (types/engine_init_options.go). `strings.ToLower` is right on ASCII. -/
structure ProgramEngine (E : EngCfg Str F A) : Prop where
  noGse : E.opts.notUseGse = true
  using_ : E.opts.using_ = 4 ∨ E.opts.using_ = 0
  noPinYin : E.opts.pinYin = false
  idOnly : E.opts.idOnly = true
  rank : E.opts.defRankOpts = { score := rankByBM25 }
  lower : ∀ s, (∀ b ∈ s, b < 128) → E.text.lower s = s.map lowerByte

/-- The programs give each document a content only. -/
def contentOnly (s : Str) : DocText := { content := s }

/-- examples/simple/main.go:37-46: the documents. -/
def simpleDocs : List (Str × Str) :=
  [(str "1", str "Google Is Experimenting With Virtual Reality Advertising"),
   (str "2", str "Google accidentally pushed Bluetooth update for Home\n\tspeaker early"),
   (str "3", str "Google is testing another Search results layout with \n\trounded cards, new colors, and the 4 mysterious colored dots again")]

/-- examples/simple/main.go:52: the request. -/
def simpleReq : SearchReq F := { text := str "google testing" }

/-- examples/logic/main.go:27-45, 53-61: the documents. -/
def logicDocs : List (Str × Str) :=
  [(str "1", str "Google Is Experimenting With Virtual Reality Advertising"),
   (str "2", str "Google accidentally pushed Bluetooth update for Home\n\tspeaker early"),
   (str "3", str "Google is testing another Search results layout with\n\trounded cards, new colors, and the 4 mysterious colored dots again"),
   (str "4", str "Google testing text search")]

/-- examples/logic/main.go:46-49, 76-94 `logic1`: the documents with "google" or "testing", without "accidentally". -/
def logicReq : SearchReq F :=
  { text := str "google testing", logic := { should := true, expr := { notIn := [str "accidentally"] } }
    rankOpts := some { outputOffset := 0, maxOutputs := 100 } }

end Riot
