import Verif.Spec.Programs

/-!
# The example program examples/pinyin

It indexes three short texts with PinYin and searches for the first letters of the pinyin of the first word.
-/

namespace Riot

variable {F A : Type}

/-- examples/pinyin/main.go:47-54: the documents. (The fields of "10" do not matter for this search.) -/
def zlDocs : List (Str × Str) :=
  [(str "10", str "在路上, in the way"), (str "11", str "在路上, in the way"), (str "12", str "In the way.")]

/-- examples/pinyin/main.go:63-68: the request. -/
def zlReq : SearchReq F := { text := str "zl", rankOpts := some { outputOffset := 0, maxOutputs := 100 } }

/-- An engine as the program makes it (examples/pinyin/main.go:33-43): PinYin, the default mode with a dictionary, the default scoring; and
what the program expects of the libraries for its three texts: the query is one word, not a stop word; the syllables of the Chinese text; that
the English text has none, that its characters are its bytes, and that "zl" is none of its words. -/
structure ZlEngine (E : EngCfg Str F A) : Prop where
  pinYin : E.opts.pinYin = true
  noPhrase : E.opts.usePhrase = false
  using_ : E.opts.using_ = 0
  gse : E.opts.notUseGse = false
  score : E.opts.defRankOpts.score = rankByBM25
  query : Engine.tokens E.text E.opts (zlReq (F := F)) = [str "zl"]
  noStop : ¬ IsStopLine E.text (str "zl")
  chinese : E.text.lazyConvert (str "在路上, in the way") = [str "zai", str "lu", str "shang"]
  english : E.text.lazyConvert (str "In the way.") = []
  bytes : E.text.explode (str "In the way.") = (str "In the way.").map (fun b => [b])
  noWord : str "zl" ∉ segmentTexts E.text E.opts.toTextOpts (str "In the way.")
  noCut : str "zl" ∉ E.text.cut E.opts.gseMode E.opts.hmm (str "In the way.")

/-- The request is for one page with everything: no limit, or one that is large enough, from the first document. -/
def WholePage (r : SearchReq F) (e : SearchOpts F) (n : Nat) : Prop :=
  (wantedRank e r).outputOffset = 0 ∧ ((wantedRank e r).maxOutputs = 0 ∨ (n : Int) ≤ (wantedRank e r).maxOutputs)

end Riot
