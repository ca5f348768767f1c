import Verif.Basic.GoMap
import Mathlib.Data.List.Sort

/-!
# The bundled store backends (store/ldb_store.go, store/bolt_store.go, store/badger_store.go)

The databases themselves are libraries. What they do is stated here (`Lib`) from their
documentation: a map from byte strings to byte strings, iterated in ascending key order, with the
errors each of them returns. One call is one transaction. Not modelled: I/O errors, and that the
slice returned by bbolt's Get is only valid until the end of its transaction (store/bolt_store.go:66-72
returns it after the transaction).
-/

namespace Riot.Store

/-- Errors of the libraries. -/
inductive DbErr
  | keyRequired | keyTooLarge | valueTooLarge  -- bbolt
  | emptyKey | invalidKey | tooBig | keyNotFound  -- badger
  | notFound  -- goleveldb
  deriving DecidableEq, Repr

/-- Behaviour of a library. -/
structure Lib where
  /-- a write of the value under the key is refused -/
  setErr : Str → Str → Option DbErr
  /-- a delete of the key is refused -/
  delErr : Str → Option DbErr
  /-- a read of the key is refused -/
  getErr : Str → Option DbErr
  /-- error of a read of a missing key (`none`: `nil, nil` is returned) -/
  missing : Option DbErr

/-- goleveldb v1.0.0: no refused calls. -/
def leveldb : Lib where
  setErr _ _ := none
  delErr _ := none
  getErr _ := none
  missing := some .notFound

/-- bbolt v1.3.4 (Bucket.Put, Bucket.Delete, Bucket.Get). -/
def bbolt : Lib where
  setErr k v :=
    if k = [] then some .keyRequired
    else if k.length > 32768 then some .keyTooLarge
    else if v.length > 2 ^ 31 - 2 then some .valueTooLarge
    else none
  delErr _ := none
  getErr _ := none
  missing := none

/-- badger v1.6.1 (Txn.modify, Txn.Get); `tooBig` are its size limits (they depend on options). -/
def badgerDb (tooBig : Str → Str → Bool) : Lib where
  setErr k v :=
    if k = [] then some .emptyKey
    else if str "!badger!" <+: k then some .invalidKey
    else if tooBig k v then some .tooBig
    else none
  delErr k :=
    if k = [] then some .emptyKey
    else if str "!badger!" <+: k then some .invalidKey
    else if tooBig k [] then some .tooBig
    else none
  getErr k := if k = [] then some .emptyKey else none
  missing := some .keyNotFound

/-- The content of a database. -/
abbrev Db := GoMap Str

/-- `Set` of all three backends (store/ldb_store.go:47-49, store/bolt_store.go:58-62, store/badger_store.go:57-64). -/
def set (b : Lib) (m : Db) (k v : Str) : Db × Option DbErr :=
  match b.setErr k v with
  | some e => (m, some e)
  | none => (m.set k v, none)

/-- `Delete` of all three backends (store/ldb_store.go:67-69, store/bolt_store.go:76-80, store/badger_store.go:86-92). -/
def delete (b : Lib) (m : Db) (k : Str) : Db × Option DbErr :=
  match b.delErr k with
  | some e => (m, some e)
  | none => (m.del k, none)

/-- `Get` of all three backends (store/ldb_store.go:57-59, store/bolt_store.go:66-72, store/badger_store.go:68-81); the first
component `none` is a nil slice. -/
def get (b : Lib) (m : Db) (k : Str) : Option Str × Option DbErr :=
  match b.getErr k with
  | some e => (none, some e)
  | none =>
    match m.get k with
    | some v => (some v, none)
    | none => (none, b.missing)

/-- store/ldb_store.go:73-75 `Has`: goleveldb's Has. -/
def ldbHas (m : Db) (k : Str) : Bool × Option DbErr := ((m.get k).isSome, none)

/-- store/bolt_store.go:83-97 `Has`: `string(b) == ""` also holds for nil. -/
def boltHas (m : Db) (k : Str) : Bool × Option DbErr :=
  let r := get bbolt m k
  if r.2 ≠ none ∨ r.1.getD [] = [] then (false, r.2) else (true, none)

/-- store/badger_store.go:95-103 `Has`. -/
def badgerHas (tooBig : Str → Str → Bool) (m : Db) (k : Str) : Bool × Option DbErr :=
  let r := get (badgerDb tooBig) m k
  if r.1.getD [] = [] ∧ r.2 ≠ none then (false, r.2) else (true, r.2)

/-- The pairs in the order of a cursor. -/
def cursor (m : Db) : List (Str × Str) := m.entries.insertionSort (fun a b => a.1 ≤ b.1)

/-- The loop of `ForEach` (store/ldb_store.go:88-101, store/bolt_store.go:100-111, store/badger_store.go:112-134): `fn` with
its captured variables `σ`; it stops at the first error of `fn` and returns it. -/
def visit {σ E : Type} (fn : σ → Str → Str → σ × Option E) : List (Str × Str) → σ → σ × Option E
  | [], s => (s, none)
  | (k, v) :: l, s =>
    match fn s k v with
    | (s, some e) => (s, some e)
    | (s, none) => visit fn l s

/-- `ForEach` of all three backends. -/
def forEach {σ E : Type} (m : Db) (fn : σ → Str → Str → σ × Option E) (s : σ) : σ × Option E :=
  visit fn (cursor m) s

/-- Writing calls. -/
inductive Op
  | set (k v : Str)
  | delete (k : Str)
  deriving DecidableEq

/-- One call. -/
def call (b : Lib) (m : Db) : Op → Db × Option DbErr
  | .set k v => set b m k v
  | .delete k => delete b m k

/-- A history of calls on a database; returns the errors. -/
def run (b : Lib) (m : Db) : List Op → Db × List (Option DbErr)
  | [] => (m, [])
  | op :: ops =>
    let r := call b m op
    let r' := run b r.1 ops
    (r'.1, r.2 :: r'.2)

end Riot.Store
