import Verif.Spec.Criteria

/-!
# Specification: a collection on an engine that was started on databases
-/

namespace Riot

variable {D F A : Type}

open Classical in
/-- The documents that can be in a database: those whose data can be encoded; the id "0" is never stored. -/
noncomputable def PipeCfg.storable (c : PipeCfg D) (docs : List (Str × D)) : List (Str × D) :=
  docs.filter (fun y => decide (y.1 ≠ str "0" ∧ c.encodes y.2 = true))

/-- An engine was started on databases `db`; its clients indexed the collection `more` (nothing, if it is empty) and flushed, under any schedule;
then, when all work was done, the `k`-th search was made, with request `r`, and has returned. -/
structure SearchedOnFiles (c : PipeCfg D) (E : EngCfg D F A) (textOf : D → DocText) (o : IndexerOpts) (db : Fin c.stores → List (Str × D))
    (as : List (EAct c.toPipeSize D F)) (st : Full c F A) (k : Nat) (r : SearchReq F) (more : List (Str × D)) : Prop where
  texts : FromTexts c E textOf
  sorts : SortOk E.so
  gsorts : GSortOk E.gs
  fits : GentleStart c o db
  runs : (Full.start c o db).run E as = some st
  gentle : (Full.start c o db).Gentle E o db as
  returned : st.Returned k
  searched : ∃ b f i, Began as k b r ∧ (Full.after E (Full.start c o db) as b).fine.pipe.Quiet ∧
    (∀ d, d ≠ str "0" → ∃ l, Rounds db d (Full.after E (Full.start c o db) as b).fine.pipe l) ∧
    as[f]? = some (.pipe (.call i .flush)) ∧ f < b ∧ (∀ t j (a : Call D), f < t → as[t]? ≠ some (.pipe (.call j a))) ∧
    GivenOnce ((Full.after E (Full.start c o db) as b).fine.pipe.calls.map (fun x => x.2)) more

end Riot
