import Verif.Spec.Witness
import Verif.Props.EngineSearch

/-!
# The project's own unit tests of the ranker, on the model (core/ranker_test.go)

Tests of the model, not proofs of properties: each `tt.Expect` of the Go tests, evaluated by the kernel.
-/

namespace Riot.RankerTest

/-- core/ranker_test.go:11-15 `DummyScoringFields` (without the label). -/
structure Fields where
  counter : Int
  amount : Rat

/-- core/ranker_test.go:17-32 `DummyScoringCriteria`. -/
def dummy (threshold : Rat) (_ : IndexedDoc) : Option Fields → List F32
  | some f => if f.counter + f.amount < threshold then [] else [.fin (f.counter + f.amount)]
  | none => []

/-- `ranker.AddDoc(id, fields, "content", attri)` -/
def add (id : String) (counter : Int) (amount : Rat) : RankerOp Fields Unit :=
  .add (str id) (some ⟨counter, amount⟩) (some (str "content", some (some ())))

/-- core/test_utils.go:26-35 `scoredDocsToString`, as a list. -/
def ranked (h : List (RankerOp Fields Unit)) (docs : List IndexedDoc) (o : RankOpts Fields) : Option (List (Str × List Int)) :=
  ((Ranker.run false h).rank insGSort docs o false).map (fun x => match x.1 with
    | .docs l => l.map (fun d => (d.scoredID.docId, d.scoredID.scores.map (fun
        | .fin q => (q * 1000).floor
        | _ => -1)))
    | .ids _ => [])

/-- Expected documents. -/
def expected (l : List (String × Int)) : Option (List (Str × List Int)) := some (l.map (fun x => (str x.1, [x.2])))

def bm25 (l : List (String × Rat)) : List IndexedDoc := l.map (fun x => { docId := str x.1, bm25 := x.2 })
def prox (l : List (String × Int)) : List IndexedDoc := l.map (fun x => { docId := str x.1, tokenProximity := x.2 })

/-- TestRankDocument (core/ranker_test.go:39-67) -/
example : ranked [add "1" 0 0, add "3" 0 0, add "4" 0 0] (bm25 [("1", 6), ("3", 24), ("4", 18)]) { score := rankByBM25 } =
    expected [("3", 24000), ("4", 18000), ("1", 6000)] := by decide +kernel

example : ranked [add "1" 0 0, add "3" 0 0, add "4" 0 0] (bm25 [("1", 6), ("3", 24), ("2", 0), ("4", 18)])
      { score := rankByBM25, reverseOrder := true } =
    expected [("1", 6000), ("4", 18000), ("3", 24000)] := by decide +kernel

/-- TestRankWithCriteria (core/ranker_test.go:69-116) -/
def four : List (RankerOp Fields Unit) := [add "1" 3 (223 / 10), add "2" 1 2, add "3" 7 (103 / 10), add "4" (-1) (23 / 10)]
def cands : List IndexedDoc := prox [("1", 6), ("2", -1), ("3", 24), ("4", 18)]

example : ranked four cands { score := dummy 0 } = expected [("1", 25300), ("3", 17300), ("2", 3000), ("4", 1300)] := by
  decide +kernel

example : ranked four cands { score := dummy 4 } = expected [("1", 25300), ("3", 17300)] := by decide +kernel

/-- TestRemoveDoc (core/ranker_test.go:118-152) -/
example : ranked [add "1" 3 (223 / 10), add "2" 1 2, add "3" 7 (103 / 10), .remove (str "3")] cands { score := dummy 0 } =
    expected [("1", 25300), ("2", 3000)] := by decide +kernel

end Riot.RankerTest
