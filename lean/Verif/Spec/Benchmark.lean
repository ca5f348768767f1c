import Verif.Model.Benchmark
import Verif.Spec.Programs

/-!
# What examples/benchmark should print
-/

namespace Riot

variable {F A : Type}

/-- The documents that are left: `repeats` copies of each text, numbered from 1 in some order `perm`, without the numbers up to `deletes`. -/
def benchKept (perm : List Nat) (repeats : Nat) (texts : List Str) (deletes : Nat) : List (Str × Str) :=
  (((List.replicate repeats texts).flatten.zip perm).filter (fun x => decide (deletes ≤ x.2))).map (fun x => (itoa (x.2 + 1), x.1))

/-- The engine of the program (benchmark.go:71-84): by default IDOnly; pages of 100 by BM25 (the criteria are not set and get the
default, types/engine_init_options.go). The dictionary and the stop tokens are arbitrary. -/
structure BenchEngine (E : EngCfg Str F A) : Prop where
  idOnly : E.opts.idOnly = true
  rank : E.opts.defRankOpts = { score := rankByBM25, outputOffset := 0, maxOutputs := 100 }

/-- A run of the program: it makes its calls on a new engine with no stored documents, under any schedule; when all work is done it makes
the `k`-th search, with the text `query`, and the search has returned. -/
structure BenchRun (c : PipeCfg Str) (E : EngCfg Str F A) (o : IndexerOpts) (db : Fin c.stores → List (Str × Str))
    (as : List (EAct c.toPipeSize Str F)) (st : Full c F A) (k : Nat) (query : Str) (calls : List (Call Str)) : Prop where
  texts : FromTexts c E contentOnly
  sorts : SortOk E.so
  gsorts : GSortOk E.gs
  fits : GentleStart c o db
  runs : (Full.start c o db).run E as = some st
  gentle : (Full.start c o db).Gentle E o db as
  returned : st.Returned k
  searched : ∃ b f i, Began as k b (benchReq query) ∧ (Full.after E (Full.start c o db) as b).fine.pipe.Quiet ∧
    (∀ d, d ≠ str "0" → ∃ l, Rounds db d (Full.after E (Full.start c o db) as b).fine.pipe l) ∧
    as[f]? = some (.pipe (.call i .flush)) ∧ f < b ∧ (∀ t j (a : Call Str), f < t → as[t]? ≠ some (.pipe (.call j a))) ∧
    (Full.after E (Full.start c o db) as b).fine.pipe.given db = calls

open Classical in
/-- The number of documents among `docs` whose text has all words of the query. -/
noncomputable def benchMatches (E : EngCfg Str F A) (query : Str) (docs : List (Str × Str)) : Nat :=
  docs.countP (fun y => decide (∀ w ∈ Engine.tokens E.text E.opts (benchReq query), TextHasKey E.text E.opts.toTextOpts (contentOnly y.2) w))

end Riot
