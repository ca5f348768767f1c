import Verif.Model.Shard
import Verif.Spec.Index

/-!
# What a user expects of a shard whose workers run concurrently
-/

namespace Riot

/-- A worker is inside an index call. -/
def CShard.Busy (st : CShard) : Prop := st.add ≠ .idle ∨ st.rem ≠ none

/-- A worker is inside an index call, nobody has panicked, and whatever happens from now on no
worker ever acts again: the calls never return. -/
def CShard.Stuck (so : Sorter) (st : CShard) : Prop :=
  st.dead = false ∧ st.Busy ∧
  ∀ as st', st.run so as = some st' → st'.step so .add = none ∧ st'.step so .rem = none

/-- Each worker waits for a lock the other one holds: the add worker, refreshing the index, holds
tableLock and waits for removeCacheLock; the remove worker holds removeCacheLock and waits for
tableLock. -/
def CShard.crossed (st : CShard) : Prop :=
  (∃ fuel i p f id, st.add = .lockCache fuel i p f id) ∧ ∃ id f, st.rem = some (.lockTable id f)

/-- The action is taken by a worker inside its call. -/
def SAct.isWork : SAct → Bool
  | .add => true
  | .rem => true
  | _ => false

/-- The identifiers given to AddDocToCache in a schedule. -/
def addedIds (as : List SAct) : List Str :=
  as.filterMap (fun a => match a with | .begin (.add d _) => some d.docId | _ => none)

/-- The schedule starts a RemoveDocToCache call. -/
def removes (as : List SAct) : Prop := ∃ id f, SAct.begin (.remove id f) ∈ as

/-- The add worker is refreshing the index: AddDocToCache has locked the table to move cached
documents into the index, and has not returned. -/
def AddPC.refreshing : AddPC → Bool
  | .idle => false
  | .put .. => false
  | .lockTable _ => false
  | _ => true

/-- A refresh and a RemoveDocToCache call are in progress at the same time. -/
def CShard.Clash (st : CShard) : Prop := st.add.refreshing = true ∧ st.rem ≠ none

/-- No refresh of the schedule overlaps a RemoveDocToCache call. -/
def NoClash (so : Sorter) (st : CShard) (as : List SAct) : Prop :=
  ∀ pre st', pre <+: as → st.run so pre = some st' → ¬ st'.Clash

/-- The index calls of a schedule in the order in which they return; `a`, `r` are the calls the
two workers are executing at the beginning. -/
def returned (so : Sorter) (st : CShard) (a r : Option IdxOp) : List SAct → List IdxOp
  | [] => []
  | x :: l =>
    match st.step so x with
    | none => []
    | some st' =>
      match x with
      | .begin (.remove id f) => returned so st' a (some (.remove id f)) l
      | .begin op => returned so st' (some op) r l
      | .add => match st'.add with
        | .idle => a.toList ++ returned so st' none r l
        | _ => returned so st' a r l
      | .rem => match st'.rem with
        | none => r.toList ++ returned so st' a none l
        | some _ => returned so st' a r l
      | _ => returned so st' a r l

end Riot
