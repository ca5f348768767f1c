import Verif.Basic.GoMap

/-!
# Plain data types (package `types`)
-/

namespace Riot

/-- types/index.go:34-44 `KeywordIndex`. `Frequency float32` is a rational (rounding is
not modelled); `Starts []int` is a list of unbounded integers. -/
structure KeywordIndex where
  text : Str
  frequency : Rat
  starts : List Int
  deriving DecidableEq, Repr

/-- types/index.go:22-32 `DocIndex`. `TokenLen float32` is a rational. -/
structure DocIndex where
  docId : Str
  tokenLen : Rat
  keywords : List KeywordIndex
  deriving DecidableEq, Repr

/-- types/index.go:46-67 `IndexedDoc`. -/
structure IndexedDoc where
  docId : Str
  bm25 : Rat := 0
  tokenProximity : Int := 0
  tokenSnippetLocs : List Int := []
  tokenLocs : List (List Int) := []
  deriving DecidableEq, Repr

/-- types/indexer_init_options.go:19-31: the three index types. -/
inductive IndexType
  | docIds
  | freqs
  | locs
  deriving DecidableEq, Repr

/-- Go's conversion `int32(x)` of a 64-bit `int`. -/
def int32 (x : Int) : Int := (x + 2 ^ 31) % 2 ^ 32 - 2 ^ 31

/-- types/indexer_init_options.go:46-51 `BM25Parameters`. -/
structure BM25Parameters where
  k1 : Rat
  b : Rat
  deriving DecidableEq, Repr

/-- types/indexer_init_options.go:34-44 `IndexerOpts` (`BM25Parameters` is a pointer). -/
structure IndexerOpts where
  indexType : IndexType
  docCacheSize : Nat
  bm25 : Option BM25Parameters
  deriving DecidableEq, Repr

/-- types/indexer_init_options.go:53-58 `IndexerOpts.Init`: cache size 0 means 300000. -/
def IndexerOpts.init (o : IndexerOpts) : IndexerOpts :=
  if o.docCacheSize = 0 then { o with docCacheSize := 300000 } else o

/-- types/search_request.go:88-99 `Expr`. -/
structure LExpr where
  must : List Str := []
  should : List Str := []
  notIn : List Str := []
  deriving DecidableEq, Repr

/-- types/search_request.go:71-86 `Logic`. -/
structure Logic where
  must : Bool := false
  should : Bool := false
  notIn : Bool := false
  expr : LExpr := {}
  deriving DecidableEq, Repr

/-- What an inverted-index row stores about one document of one key. -/
structure Posting where
  docId : Str
  frequency : Rat
  starts : List Int
  deriving DecidableEq, Repr

end Riot
