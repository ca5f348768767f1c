import Verif.Spec.Programs

/-!
# Documents whose own calls do not race, and the program examples/store
-/

namespace Riot

variable {D F A : Type}

/-- The calls about document `d` were separated by Flushes (`Rounds`), and it was not indexed again after a removal. Nothing is said about
calls about other documents. -/
structure OwnCallsApart {c : PipeCfg D} (db : Fin c.stores → List (Str × D)) (st : Pipe c) (d : Str) : Prop where
  rounds : ∃ l, Rounds db d st l
  noReturn : ∀ f x g l1 l2, st.given db = l1 ++ Call.remove d f :: l2 → Call.index d x g ∉ l2

/-- examples/store/main.go:28-34, 57-60: the documents. -/
def storeDocs : List (Str × Str) :=
  [(str "1", str "Google Is Experimenting With Virtual Reality Advertising"),
   (str "2", str "Google accidentally pushed Bluetooth update for Home\n\tspeaker early"),
   (str "3", str "Google is testing another Search results layout with \n\trounded cards, new colors, and the 4 mysterious colored dots again"),
   (str "5", str "Google is testing another Search results layout with \n\trounded cards, new colors, and the 4 mysterious colored dots again")]

/-- examples/store/main.go:54-65: the calls of the program before it searches. `initEngine` ends with the deferred Close, which is a second Flush
(engine.go:852-853); that it closes the databases (engine.go:854-858) does not matter for searches and is left out. -/
def storeCalls : List (Call Str) :=
  storeDocs.map (fun x => Call.index x.1 x.2 false) ++ [.remove (str "5") false, .flush, .flush]

/-- examples/store/main.go:86-91: the request. -/
def storeReq : SearchReq F := { text := str "google testing", rankOpts := some { outputOffset := 0, maxOutputs := 100 } }

/-- A run of the program on a new engine with any dictionary and options of search keys, under any schedule: its calls were made, all work is
done, then the search is made and returns. `apart`: the calls about each document other than "5" are separated by Flushes (there is at most one). -/
structure StoreRun (c : PipeCfg Str) (E : EngCfg Str F A) (o : IndexerOpts) (db : Fin c.stores → List (Str × Str))
    (as : List (EAct c.toPipeSize Str F)) (st : Full c F A) (k : Nat) : Prop where
  texts : FromTexts c E contentOnly
  sorts : SortOk E.so
  gsorts : GSortOk E.gs
  fits : GentleStart c o db
  score : E.opts.defRankOpts.score = rankByBM25
  runs : (Full.start c o db).run E as = some st
  gentle : (Full.start c o db).Gentle E o db as
  returned : st.Returned k
  searched : ∃ b, Began as k b storeReq ∧ (Full.after E (Full.start c o db) as b).fine.pipe.Quiet ∧
    (∀ d, d ≠ str "0" → d ≠ str "5" → ∃ l, Rounds db d (Full.after E (Full.start c o db) as b).fine.pipe l) ∧
    (∀ t j (a : Call Str), b ≤ t → as[t]? ≠ some (.pipe (.call j a))) ∧
    (Full.after E (Full.start c o db) as b).fine.pipe.given db = storeCalls ∧ st.fine.pipe.given db = storeCalls

end Riot
