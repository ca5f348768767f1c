import Verif.Model.Backends

/-! # What a store should be: a map -/

namespace Riot.Store

/-- The key of a call. -/
def Op.key : Op → Str
  | .set k _ => k
  | .delete k => k

/-- The calls that returned no error, given the calls of a history and their errors. -/
def accepted (ops : List Op) (errs : List (Option DbErr)) : List Op :=
  ((ops.zip errs).filter (fun x => x.2 = none)).map (·.1)

/-- `v` is the value last Set under `k`, and `k` was not deleted since. -/
def Stored (ops : List Op) (k v : Str) : Prop :=
  ∃ before after : List Op, ops = before ++ Op.set k v :: after ∧ ∀ op ∈ after, op.key ≠ k

/-- `ForEach` with a callback that collects what it sees (as in riot.go:140-144, 153-168). -/
def seen (m : Db) : List (Str × Str) :=
  (forEach (E := Unit) m (fun acc k v => (acc ++ [(k, v)], none)) []).1

/-- A new database after calls. -/
def after (b : Lib) (ops : List Op) : Db := (run b .empty ops).1

/-- The calls of a history on a new database that returned no error. -/
def ok (b : Lib) (ops : List Op) : List Op := accepted ops (run b .empty ops).2

end Riot.Store
