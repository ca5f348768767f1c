import Verif.Model.Config

/-!
# Store backends and server configuration: what the user expects
-/

namespace Riot

/-- The names and libraries that need no registration (store/store.go:30-36). -/
inductive BuiltIn : Str → Backend → Prop
  | ldb : BuiltIn (str "ldb") .leveldb
  | bg : BuiltIn (str "bg") .badger
  | bolt : BuiltIn (str "bolt") .bolt

/-- After these calls of RegisterStore the name stands for this library: it was registered last under the name, or the
name was not registered and is built in. -/
def StandsFor (calls : List (Str × Backend)) (name : Str) (b : Backend) : Prop :=
  (∃ l1 l2, calls = l1 ++ (name, b) :: l2 ∧ ∀ b', (name, b') ∉ l2) ∨
  ((∀ b', (name, b') ∉ calls) ∧ BuiltIn name b)

/-- The name of the library a user asked for: the option `StoreEngine`, if it is empty the environment variable, if
that is empty too "ldb". -/
def askedEngine (storeEngine env : Str) : Str :=
  if storeEngine ≠ [] then storeEngine else if env ≠ [] then env else str "ldb"

end Riot
